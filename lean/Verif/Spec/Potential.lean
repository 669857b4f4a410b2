import Mathlib.Analysis.Calculus.Deriv.Basic
import Mathlib.Analysis.SpecialFunctions.Pow.Real
import Mathlib.Order.Monotone.Basic

/-!
# Specifications for potentials

Stated on bare functions `ℝ → ℝ`, without reference to the model of primpy.
-/

namespace Primpy.Spec

/-- `f1` is the derivative of `f0` everywhere on `dom`. -/
def IsDerivOn (dom : Set ℝ) (f0 f1 : ℝ → ℝ) : Prop := ∀ φ ∈ dom, HasDerivAt f0 (f1 φ) φ

/-- `f1, f2, f3, f4` are the first to fourth derivatives of `f0` on `dom`. -/
structure IsDerivChain (dom : Set ℝ) (f0 f1 f2 f3 f4 : ℝ → ℝ) : Prop where
  d1 : IsDerivOn dom f0 f1
  d2 : IsDerivOn dom f1 f2
  d3 : IsDerivOn dom f2 f3
  d4 : IsDerivOn dom f3 f4

/-- Potential slow-roll hierarchy on `dom`: `ε₁ = (V'/V)²/2` and
`dε_n/dφ = -(V/V') ε_n ε_{n+1}` (equivalently `ε_{n+1} = d ln|ε_n|/dN` with `dN = -(V/V') dφ`). -/
structure IsSlowRollHierarchy (dom : Set ℝ) (V dV e1 e2 e3 e4 : ℝ → ℝ) : Prop where
  first : ∀ φ ∈ dom, e1 φ = (dV φ / V φ) ^ 2 / 2
  second : ∀ φ ∈ dom, HasDerivAt e1 (-(V φ / dV φ) * (e1 φ * e2 φ)) φ
  third : ∀ φ ∈ dom, HasDerivAt e2 (-(V φ / dV φ) * (e2 φ * e3 φ)) φ
  fourth : ∀ φ ∈ dom, HasDerivAt e3 (-(V φ / dV φ) * (e3 φ * e4 φ)) φ

/-- Two functions are inverse to each other between the sets `A` and `B`. -/
structure InverseOn (A B : Set ℝ) (f g : ℝ → ℝ) : Prop where
  mapsTo : ∀ x ∈ A, f x ∈ B
  mapsFrom : ∀ y ∈ B, g y ∈ A
  left : ∀ x ∈ A, g (f x) = x
  right : ∀ y ∈ B, f (g y) = y

end Primpy.Spec

namespace Primpy.Spec

/-- `φe` is the end of slow roll on the branch `dom`: there the first slow-roll parameter equals one,
slow-roll inflation (`ε₁ < 1`) happens exactly above `φe`, and `φe` is the only field where
`ε₁ = 1`. -/
structure EndOfSlowRoll (dom : Set ℝ) (e1 : ℝ → ℝ) (φe : ℝ) : Prop where
  mem : φe ∈ dom
  value : e1 φe = 1
  unique : ∀ φ ∈ dom, e1 φ = 1 → φ = φe
  inflates : ∀ φ ∈ dom, (e1 φ < 1 ↔ φe < φ)

theorem EndOfSlowRoll.of_anti {dom : Set ℝ} {e1 : ℝ → ℝ} {φe : ℝ} (hm : φe ∈ dom)
    (hv : e1 φe = 1) (ha : StrictAntiOn e1 dom) : EndOfSlowRoll dom e1 φe :=
  ⟨hm, hv, fun φ h e => ha.injOn h hm (e.trans hv.symm),
    fun φ h => by rw [← hv]; exact ha.lt_iff_gt h hm⟩

/-- `N` counts slow-roll e-folds from `φe`: it vanishes there and grows with slope `V/V'`. -/
structure EfoldCount (dom : Set ℝ) (V dV N : ℝ → ℝ) (φe : ℝ) : Prop where
  zero : N φe = 0
  slope : ∀ φ ∈ dom, HasDerivAt N (V φ / dV φ) φ

end Primpy.Spec
