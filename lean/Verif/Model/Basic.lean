import Mathlib.Analysis.SpecialFunctions.Pow.Real
import Mathlib.Topology.ContinuousOn

/-!
# Shared conventions of the model

* IEEE doubles are modelled by exact real numbers (see DESIGN.md, trusted base).
* Python exceptions are values of `PyErr`; a function that may raise returns `Except PyErr α`.
* The numpy power `x**p` is `Real.rpow`; `PowDom x p` says when numpy's result is a finite number
  that agrees with it for every integer shift of the exponent.
-/

namespace Primpy

/-- Python exceptions raised (or provoked) by primpy.  `msg` is a short tag identifying the raise
statement, not the literal text. -/
inductive PyErr where
  | primpyError (msg : String)          -- primpy/exceptionhandling.py `PrimpyError`
  | insufficientInflation (msg : String) -- primpy/exceptionhandling.py `InsufficientInflationError`
  | inflationStart (geometry : String)  -- primpy/exceptionhandling.py `InflationStartError`
  | exception (msg : String)            -- bare `Exception`
  | valueError (msg : String)
  | notImplemented (msg : String)
  | keyError (msg : String)
  | attributeError (msg : String)
  | typeError (msg : String)
  | assertion (msg : String)
  | zeroDivision (msg : String)
  | indexError (msg : String)
  deriving DecidableEq, Repr

/-- Where numpy's `x**q` is a finite real for `q = p + integer`: the base is positive, or non-zero
with an integral exponent. (Negative base with fractional exponent is NaN; zero base is excluded
because negative integer shifts would divide by zero.) -/
def PowDom (x p : ℝ) : Prop := 0 < x ∨ (x ≠ 0 ∧ ∃ n : ℤ, p = n)

/-- `scipy.optimize.root_scalar(f, bracket=(a, b))` (default method brentq): an external routine. -/
abbrev RootScalar := (ℝ → ℝ) → ℝ → ℝ → Except PyErr ℝ

/-- Contract assumed of `root_scalar` with a bracket: for a continuous function whose end-point
values do not have the same strict sign it returns a root inside the bracket; if they have the same
strict sign it raises `ValueError`. -/
structure RootContract (root : RootScalar) : Prop where
  found : ∀ f a b, a ≤ b → ContinuousOn f (Set.Icc a b) → f a * f b ≤ 0 →
    ∃ r, root f a b = .ok r ∧ a ≤ r ∧ r ≤ b ∧ f r = 0
  rejected : ∀ f a b, 0 < f a * f b → ∃ m, root f a b = .error (.valueError m)

/-- `sys.float_info.epsilon`; primpy/potentials.py:14. -/
noncomputable def EPS : ℝ := 1 / 2 ^ 52

end Primpy
