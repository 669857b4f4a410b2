import Verif.Spec.Potential
import Mathlib.Analysis.SpecialFunctions.ExpDeriv
import Mathlib.Analysis.SpecialFunctions.Log.Basic

/-!
# Specification of a homogeneous scalar-field universe

Stated on bare functions, without reference to the model of primpy.
-/

namespace Primpy.Spec
open Real

/-- `y` solves the first-order system `dy_i/dx = f x y i`, `i < n`, at every point of `S`. -/
def SolvesODE (S : Set ℝ) (n : ℕ) (f : ℝ → (ℕ → ℝ) → ℕ → ℝ) (y : ℝ → ℕ → ℝ) : Prop :=
  ∀ x ∈ S, ∀ i < n, HasDerivAt (fun s => y s i) (f x (y x) i) x

/-- An expanding FLRW universe with curvature `K` (scale factor `exp N`) filled with a homogeneous
scalar field `φ` of velocity `p` in the potential `V`, in reduced Planck units, as functions of
cosmic time: `H = ȧ/a`, Friedmann constraint, Klein–Gordon equation. -/
structure IsUniverse (S : Set ℝ) (V dV : ℝ → ℝ) (K : ℝ) (N φ p H : ℝ → ℝ) : Prop where
  hubble : IsDerivOn S N H
  velocity : IsDerivOn S φ p
  kleinGordon : ∀ t ∈ S, HasDerivAt p (-(3 * H t * p t) - dV (φ t)) t
  friedmann : ∀ t ∈ S, 3 * (H t)^2 = (p t)^2 / 2 + V (φ t) - 3 * K * exp (-2 * N t)
  expanding : ∀ t ∈ S, 0 < H t

/-- The same universe described with the number of e-folds `N = ln a` as time: `φ' = dφ/dN = q`,
`3H² = H² q²/2 + V − 3K e^{−2N}`, and the Klein–Gordon equation
`H² φ'' + (H² + H H'... )` written as `H (H q)' + 3 H² q + V' = 0`. -/
structure IsUniverseN (S : Set ℝ) (V dV : ℝ → ℝ) (K : ℝ) (φ q H : ℝ → ℝ) : Prop where
  velocity : IsDerivOn S φ q
  kleinGordon : ∀ n ∈ S, HasDerivAt (fun n => H n * q n)
    ((-(3 * (H n)^2 * q n) - dV (φ n)) / H n) n
  friedmann : ∀ n ∈ S, 3 * (H n)^2 = (H n * q n)^2 / 2 + V (φ n) - 3 * K * exp (-2 * n)
  expanding : ∀ n ∈ S, 0 < H n

/-- Hubble-flow hierarchy as functions of a time variable `x` that flows at `rate = dN/dx` (rate `1`
for e-folds, rate `H` for cosmic time): `ε₁ = -d ln H/dN`, `ε_{n+1} = d ln ε_n/dN`, the latter
written without dividing. -/
structure IsHubbleFlow (S : Set ℝ) (rate H e1 e2 e3 : ℝ → ℝ) : Prop where
  first : ∀ x ∈ S, HasDerivAt (fun x => log (H x)) (-(rate x * e1 x)) x
  second : ∀ x ∈ S, HasDerivAt e1 (rate x * (e1 x * e2 x)) x
  third : ∀ x ∈ S, HasDerivAt e2 (rate x * (e2 x * e3 x)) x

/-- Gong's variant: `e₂ = (dε₁/dt)/H`, `e₃ = (d²ε₁/dt²)/H²`. -/
structure IsGongFlow (S : Set ℝ) (rate H e1 e2 e3 : ℝ → ℝ) : Prop where
  second : ∀ x ∈ S, HasDerivAt e1 (rate x * e2 x) x
  third : ∀ x ∈ S, HasDerivAt (fun x => H x * e2 x) (rate x * (H x * e3 x)) x

/-- `δ_n = φ^{(n+1)} / (Hⁿ φ̇)`, time derivatives taken in cosmic time, `φ̇ = p`. -/
structure IsDeltaFlow (S : Set ℝ) (rate H p d1 d2 d3 : ℝ → ℝ) : Prop where
  first : ∀ x ∈ S, HasDerivAt p (rate x * (p x * d1 x)) x
  second : ∀ x ∈ S, HasDerivAt (fun x => H x * p x * d1 x) (rate x * (H x * p x * d2 x)) x
  third : ∀ x ∈ S, HasDerivAt (fun x => (H x)^2 * p x * d2 x) (rate x * ((H x)^2 * p x * d3 x)) x

end Primpy.Spec
