import Verif.Spec.Potential
import Mathlib.Analysis.ODE.ExistUnique
import Mathlib.Analysis.Calculus.ContDiff.RCLike
import Mathlib.Analysis.Calculus.MeanValue

/-! # Uniqueness and local existence for smooth autonomous systems -/

namespace Primpy
open Set Filter Topology Spec

/-- Two solutions of a continuously differentiable autonomous system on an open connected set of times that agree at one time agree. -/
theorem unique_auto {E : Type*} [NormedAddCommGroup E] [NormedSpace ℝ E] {F : E → E} {S : Set ℝ} (hS : IsOpen S) (hc : IsPreconnected S)
    {y z : ℝ → E} (hy : ∀ t ∈ S, HasDerivAt y (F (y t)) t) (hz : ∀ t ∈ S, HasDerivAt z (F (z t)) t)
    (hF : ∀ t ∈ S, ContDiffAt ℝ 1 F (y t)) {t0 : ℝ} (ht0 : t0 ∈ S) (h0 : y t0 = z t0) : ∀ t ∈ S, y t = z t := by
  have hsub : S ⊆ {t | t ∈ S ∧ y t = z t} := by
    refine hc.subset_of_closure_inter_subset ?_ ⟨t0, ht0, ht0, h0⟩ ?_
    · rw [isOpen_iff_mem_nhds]
      rintro t ⟨ht, he⟩
      obtain ⟨K, U, hU, hL⟩ := (hF t ht).exists_lipschitzOnWith
      have cy : ∀ᶠ s in 𝓝 t, y s ∈ U := (hy t ht).continuousAt.eventually hU
      have cz : ∀ᶠ s in 𝓝 t, z s ∈ U := (hz t ht).continuousAt.eventually (he ▸ hU)
      have hSn := hS.mem_nhds ht
      have := ODE_solution_unique_of_eventually (v := fun _ => F) (s := fun _ => U) (K := K) (t₀ := t) (f := y) (g := z)
        (Eventually.of_forall fun _ => hL)
        (by filter_upwards [cy, hSn] with s h1 h2 using ⟨hy s h2, h1⟩)
        (by filter_upwards [cz, hSn] with s h1 h2 using ⟨hz s h2, h1⟩) he
      filter_upwards [this, hSn] with s h1 h2 using ⟨h2, h1⟩
    · rintro t ⟨hcl, ht⟩
      refine ⟨ht, ?_⟩
      by_contra hne
      have hd := ((hy t ht).continuousAt.sub (hz t ht).continuousAt).eventually_ne (sub_ne_zero.2 hne)
      rw [mem_closure_iff_frequently] at hcl
      obtain ⟨s, hs, hs'⟩ := (hcl.and_eventually hd).exists
      exact hs' (sub_eq_zero.2 hs.2)
  exact fun t ht => (hsub ht).2

/-- Two functions with the same derivative on an open connected set that agree at one point agree. -/
theorem eq_of_same_deriv {S : Set ℝ} (hS : IsOpen S) (hc : IsPreconnected S) {f g f' : ℝ → ℝ} (hf : ∀ t ∈ S, HasDerivAt f (f' t) t)
    (hg : ∀ t ∈ S, HasDerivAt g (f' t) t) {t0 : ℝ} (ht0 : t0 ∈ S) (h0 : f t0 = g t0) : ∀ t ∈ S, f t = g t := by
  intro t ht
  have hd : ∀ s ∈ S, HasDerivAt (fun s => f s - g s) 0 s := fun s hs => ((hf s hs).fun_sub (hg s hs)).congr_deriv (sub_self _)
  have := hS.is_const_of_deriv_eq_zero hc (fun s hs => (hd s hs).differentiableAt.differentiableWithinAt) (fun s hs => (hd s hs).deriv) ht ht0
  simp only [h0, sub_self] at this
  linarith

/-- A function with a continuous derivative is continuously differentiable. -/
theorem contDiffAt_of_deriv {D : Set ℝ} (hD : IsOpen D) {f f' f'' : ℝ → ℝ} (h1 : IsDerivOn D f f') (h2 : IsDerivOn D f' f'') {x : ℝ} (hx : x ∈ D) :
    ContDiffAt ℝ 1 f x := by
  rw [contDiffAt_one_iff]
  refine ⟨fun x => ContinuousLinearMap.toSpanSingleton ℝ (f' x), D, hD.mem_nhds hx, ?_, fun s hs => (h1 s hs).hasFDerivAt⟩
  have : ContinuousOn f' D := fun s hs => (h2 s hs).continuousAt.continuousWithinAt
  exact (ContinuousLinearMap.toSpanSingletonCLE (𝕜 := ℝ) (E := ℝ)).continuous.comp_continuousOn this

end Primpy
