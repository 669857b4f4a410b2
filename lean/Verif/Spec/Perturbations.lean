import Verif.Spec.Background
import Mathlib.Analysis.Complex.RealDeriv

/-!
# Specification: linear perturbations of a universe

Stated on bare functions, without reference to the model of primpy.
-/

namespace Primpy.Spec
open Real

/-- `f : ℝ → ℂ` has derivative `f1`, and `f1` has derivative `f2`, at every point of `S`. -/
structure Twice (S : Set ℝ) (f f1 f2 : ℝ → ℂ) : Prop where
  first : ∀ x ∈ S, HasDerivAt f (f1 x) x
  second : ∀ x ∈ S, HasDerivAt f1 (f2 x) x

/-- The left-hand side of `f'' + 2 γ f' + ω² f = 0`. -/
def oscillator (ω2 γ : ℝ → ℝ) (f f1 f2 : ℝ → ℂ) (x : ℝ) : ℂ := f2 x + 2 * (γ x : ℂ) * f1 x + (ω2 x : ℂ) * f x

/-- `a · (d/dt)`: the derivative with respect to conformal time, `dη = dt / a`. -/
def IsConformalDeriv (S : Set ℝ) (N : ℝ → ℝ) (f g : ℝ → ℂ) : Prop :=
  ∃ f1 : ℝ → ℂ, (∀ t ∈ S, HasDerivAt f (f1 t) t) ∧ ∀ t ∈ S, g t = (exp (N t) : ℝ) * f1 t

end Primpy.Spec
