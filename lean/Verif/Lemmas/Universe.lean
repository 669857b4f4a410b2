import Verif.Spec.Background
import Verif.Model.Background
import Verif.Lemmas.Pow
import Mathlib.Analysis.SpecialFunctions.Sqrt

/-! # Calculus along a scalar-field universe in cosmic time -/

namespace Primpy
open Real Spec Set

variable {S D : Set ℝ} {V dV d2V d3V : ℝ → ℝ} {K : ℝ} {N φ p H : ℝ → ℝ}

/-- derivative of `exp (-2 N)` -/
theorem hasDerivAt_exp_neg_two {N : ℝ → ℝ} {N' t : ℝ} (h : HasDerivAt N N' t) :
    HasDerivAt (fun s => exp (-2 * N s)) (-2 * N' * exp (-2 * N t)) t :=
  hderiv ((h.const_mul (-2)).exp) (by ring)

/-- A function on an open set whose square has derivative `2 H h` and which is positive there has
derivative `h`. -/
theorem hasDerivAt_of_sq {f : ℝ → ℝ} {g t : ℝ} (hS : IsOpen S) (ht : t ∈ S)
    (hpos : ∀ s ∈ S, 0 < f s) (h2 : HasDerivAt (fun s => f s ^ 2) (2 * f t * g) t) :
    HasDerivAt f g t := by
  have hp := hpos t ht
  have h := h2.sqrt (pow_pos hp 2).ne'
  have e : (fun s => √(f s ^ 2)) =ᶠ[nhds t] f := by
    filter_upwards [hS.mem_nhds ht] with s hs using sqrt_sq (hpos s hs).le
  refine hderiv (h.congr_of_eventuallyEq e.symm) ?_
  rw [sqrt_sq hp.le]; field_simp

theorem Spec.IsUniverse.dH (hS : IsOpen S) (hV : IsDerivOn D V dV) (hφ : ∀ t ∈ S, φ t ∈ D)
    (u : IsUniverse S V dV K N φ p H) :
    IsDerivOn S H (fun t => -(p t)^2/2 + K * exp (-2 * N t)) := by
  intro t ht
  have hH := u.expanding t ht
  refine hasDerivAt_of_sq hS ht u.expanding ?_
  have h1 : HasDerivAt (fun s => ((p s)^2/2 + V (φ s) - 3 * K * exp (-2 * N s)) / 3)
      (((2 * p t * (-(3 * H t * p t) - dV (φ t)))/2 + dV (φ t) * p t
        - 3 * K * (-2 * H t * exp (-2 * N t)))/3) t := by
    refine hderiv ((((((u.kleinGordon t ht).pow 2).div_const 2).add
      ((hV _ (hφ t ht)).comp t (u.velocity t ht))).sub
      ((hasDerivAt_exp_neg_two (u.hubble t ht)).const_mul (3 * K))).div_const 3) ?_
    simp
  have e : (fun s => H s ^ 2) =ᶠ[nhds t]
      (fun s => ((p s)^2/2 + V (φ s) - 3 * K * exp (-2 * N s)) / 3) := by
    filter_upwards [hS.mem_nhds ht] with s hs
    have := u.friedmann s hs; linarith
  exact hderiv (h1.congr_of_eventuallyEq e) (by ring)

end Primpy
