import Mathlib.Analysis.SpecialFunctions.Log.Basic
import Mathlib.Analysis.Calculus.Deriv.Basic

/-!
# Specification: slow roll

Stated on bare functions, without reference to the model of primpy.
-/

namespace Primpy.Spec
open Real

/-- The background rolls slowly, to accuracy `δ`, at every moment of `S`: with `rate = dN/dx` for the time variable `x` (1 for e-folds, `H`
for cosmic time), `ε₁ = -d ln H/dN`, `ε₂ = d ln ε₁/dN` and `d2 = dε₂/dN` (which is `ε₂ ε₃`) satisfy `0 < ε₁ ≤ δ`, `|ε₂| ≤ δ`,
`|ε₂ ε₃| ≤ δ`. -/
structure IsSlowRoll (δ : ℝ) (S : Set ℝ) (rate H e1 e2 d2 : ℝ → ℝ) : Prop where
  first : ∀ x ∈ S, HasDerivAt (fun x => log (H x)) (-(rate x * e1 x)) x
  second : ∀ x ∈ S, HasDerivAt e1 (rate x * (e1 x * e2 x)) x
  third : ∀ x ∈ S, HasDerivAt e2 (rate x * d2 x) x
  small : ∀ x ∈ S, 0 < e1 x ∧ e1 x ≤ δ ∧ |e2 x| ≤ δ ∧ |d2 x| ≤ δ

/-- The potential is flat, to accuracy `δ`, on the open set `D` of field values: `V > 0` and `V' ≠ 0`, and the two potential slow-roll
parameters `ε₁ = (V'/V)²/2` and `ε₂ = d ln ε₁/dN` (with `dN = -(V/V') dφ`) satisfy `ε₁ ≤ δ`, `|ε₂| ≤ δ`. -/
structure IsSlowRollPotential (δ : ℝ) (D : Set ℝ) (V dV e1 e2 : ℝ → ℝ) : Prop where
  isOpen : IsOpen D
  pos : ∀ φ ∈ D, 0 < V φ
  slope : ∀ φ ∈ D, dV φ ≠ 0
  first : ∀ φ ∈ D, e1 φ = (dV φ / V φ) ^ 2 / 2
  second : ∀ φ ∈ D, HasDerivAt e1 (-(V φ / dV φ) * (e1 φ * e2 φ)) φ
  small : ∀ φ ∈ D, e1 φ ≤ δ ∧ |e2 φ| ≤ δ

end Primpy.Spec
