import Verif.Lemmas.WellPosed
import Mathlib.Topology.Algebra.Order.LiminfLimsup

/-!
# Global existence for autonomous ODEs that stay in a compact set

Continuation argument: a `C¹` vector field on an open set; if solutions cannot leave a compact subset before time `T`, they
exist up to `T`.
-/

namespace Primpy
open Set Filter Topology

variable {E : Type*} [NormedAddCommGroup E] [NormedSpace ℝ E] {F : E → E} {U : Set E} {x0 : E} {a t0 : ℝ}

/-- `y` solves `y' = F y` inside `U` on `S`, starting at `x0`. -/
def IsSolIn (F : E → E) (U : Set E) (t0 : ℝ) (x0 : E) (S : Set ℝ) (y : ℝ → E) : Prop :=
  y t0 = x0 ∧ ∀ t ∈ S, HasDerivAt y (F (y t)) t ∧ y t ∈ U

/-- Solutions on an increasing family of intervals fit together. -/
theorem glue (hF : ∀ x ∈ U, ContDiffAt ℝ 1 F x) (ha : a < t0) {B : Set ℝ} (hB : ∃ σ ∈ B, t0 < σ)
    (hP : ∀ σ ∈ B, ∃ y, IsSolIn F U t0 x0 (Ioo a σ) y) : ∃ y, IsSolIn F U t0 x0 {t | a < t ∧ ∃ σ ∈ B, t < σ} y := by
  choose! Y hY using hP
  obtain ⟨σ0, hσ0, h0⟩ := hB
  have hex : ∀ t, (∃ σ ∈ B, t < σ) → ∃ σ ∈ B, t < σ ∧ t0 < σ := by
    rintro t ⟨σ, hσ, ht⟩
    by_cases h : t0 < σ
    · exact ⟨σ, hσ, ht, h⟩
    · exact ⟨σ0, hσ0, by linarith [not_lt.1 h], h0⟩
  have hex' : ∀ t, ∃ σ, (∃ σ ∈ B, t < σ) → σ ∈ B ∧ t < σ ∧ t0 < σ := fun t => by
    by_cases h : ∃ σ ∈ B, t < σ
    · obtain ⟨σ, h1, h2, h3⟩ := hex t h
      exact ⟨σ, fun _ => ⟨h1, h2, h3⟩⟩
    · exact ⟨0, fun h' => absurd h' h⟩
  choose s hs using hex'
  -- two members agree where both are defined
  have agree : ∀ σ ∈ B, ∀ σ' ∈ B, t0 < σ → t0 < σ' → ∀ t, a < t → t < σ → t < σ' → Y σ t = Y σ' t := by
    intro σ hσ σ' hσ' h1 h2 t hat ht ht'
    have hsub : Ioo a (min σ σ') ⊆ Ioo a σ := Ioo_subset_Ioo_right (min_le_left _ _)
    have hsub' : Ioo a (min σ σ') ⊆ Ioo a σ' := Ioo_subset_Ioo_right (min_le_right _ _)
    exact unique_auto isOpen_Ioo isPreconnected_Ioo (F := F) (fun t ht => ((hY σ hσ).2 t (hsub ht)).1)
      (fun t ht => ((hY σ' hσ').2 t (hsub' ht)).1) (fun t ht => hF _ ((hY σ hσ).2 t (hsub ht)).2) (t0 := t0)
      ⟨ha, lt_min h1 h2⟩ ((hY σ hσ).1.trans (hY σ' hσ').1.symm) t ⟨hat, lt_min ht ht'⟩
  refine ⟨fun t => Y (s t) t, (hY _ (hs t0 ⟨σ0, hσ0, h0⟩).1).1, ?_⟩
  rintro t ⟨hat, hσ⟩
  obtain ⟨h1, h2, h3⟩ := hs t hσ
  obtain ⟨d, hu⟩ := (hY _ h1).2 t ⟨hat, h2⟩
  refine ⟨d.congr_of_eventuallyEq ?_, hu⟩
  filter_upwards [Ioo_mem_nhds hat h2] with r hr
  obtain ⟨g1, g2, g3⟩ := hs r ⟨s t, h1, hr.2⟩
  exact agree _ g1 _ h1 g3 h3 r hr.1 g2 hr.2

/-- Continuation past `τ`. -/
theorem continuation [CompleteSpace E] (hU : IsOpen U) (hF : ∀ x ∈ U, ContDiffAt ℝ 1 F x) (ha : a < t0) {τ : ℝ} (hτ : t0 < τ)
    {C : Set E} (hC : IsCompact C) (hCU : C ⊆ U) {y : ℝ → E} (hy : IsSolIn F U t0 x0 (Ioo a τ) y) (hyC : ∀ t ∈ Ico t0 τ, y t ∈ C) :
    ∃ τ' > τ, ∃ w, IsSolIn F U t0 x0 (Ioo a τ') w := by
  have hne : (𝓝[<] τ).NeBot := inferInstance
  have hev : ∀ᶠ t in 𝓝[<] τ, t ∈ Ico t0 τ := Ico_mem_nhdsLT hτ
  obtain ⟨x, hxC, hx⟩ := hC.exists_mapClusterPt (f := 𝓝[<] τ) (u := y) (tendsto_principal.2 (hev.mono fun t ht => hyC t ht))
  obtain ⟨r, hr, ε, hε, hpl⟩ := (hF x (hCU hxC)).exists_forall_mem_closedBall_exists_eq_forall_mem_Ioo_hasDerivAt 0
  have hfr : ∃ᶠ t in 𝓝[<] τ, y t ∈ Metric.closedBall x r := hx.frequently (Metric.closedBall_mem_nhds x hr)
  have hev2 : ∀ᶠ t in 𝓝[<] τ, t ∈ Ioo (max t0 (τ - ε)) τ := Ioo_mem_nhdsLT (max_lt hτ (by linarith))
  obtain ⟨s, hs1, hs2⟩ := (hfr.and_eventually hev2).exists
  have hst0 : t0 < s := (le_max_left _ _).trans_lt hs2.1
  have hsε : τ - ε < s := (le_max_right _ _).trans_lt hs2.1
  obtain ⟨α, hα0, hα⟩ := hpl (y s) hs1
  have hz : ∀ t ∈ Ioo (s - ε) (s + ε), HasDerivAt (fun t => α (t - s)) (F (α (t - s))) t := by
    intro t ht
    have := hα (t - s) ⟨by linarith [ht.1], by linarith [ht.2]⟩
    exact this.comp_sub_const t s
  -- they agree before τ
  have hag : ∀ t ∈ Ioo (max (s - ε) a) τ, y t = α (t - s) := by
    have hsub : Ioo (max (s - ε) a) τ ⊆ Ioo a τ := Ioo_subset_Ioo_left (le_max_right _ _)
    have hsub' : Ioo (max (s - ε) a) τ ⊆ Ioo (s - ε) (s + ε) := Ioo_subset_Ioo (le_max_left _ _) (by linarith)
    refine unique_auto isOpen_Ioo isPreconnected_Ioo (F := F) (z := fun t => α (t - s)) (fun t ht => (hy.2 t (hsub ht)).1)
      (fun t ht => hz t (hsub' ht)) (fun t ht => hF _ (hy.2 t (hsub ht)).2) (t0 := s) ⟨max_lt (by linarith) (by linarith), hs2.2⟩ ?_
    rw [sub_self, hα0]
  have hzτ : HasDerivAt (fun t => α (t - s)) (F (α (τ - s))) τ := hz τ ⟨by linarith [hs2.2], by linarith⟩
  have hmax : max (s - ε) a < τ := max_lt (by linarith [hs2.2]) (by linarith)
  have hzC : α (τ - s) ∈ C := by
    refine hC.isClosed.mem_of_tendsto (hzτ.continuousAt.tendsto.mono_left nhdsWithin_le_nhds : Tendsto _ (𝓝[<] τ) _) ?_
    filter_upwards [hev, Ioo_mem_nhdsLT hmax] with t h1 h2
    show α (t - s) ∈ C
    rw [← hag t h2]
    exact hyC t h1
  have hzU : ∀ᶠ t in 𝓝 τ, α (t - s) ∈ U := hzτ.continuousAt.eventually (hU.mem_nhds (hCU hzC))
  obtain ⟨δ, hδ, hball⟩ := Metric.eventually_nhds_iff_ball.1 hzU
  rw [Real.ball_eq_Ioo] at hball
  obtain ⟨w, hw1, hw2⟩ : ∃ w : ℝ → E, (∀ t, t < τ → w t = y t) ∧ ∀ t, ¬ t < τ → w t = α (t - s) :=
    ⟨fun t => if t < τ then y t else α (t - s), fun t h => if_pos h, fun t h => if_neg h⟩
  refine ⟨min (τ + δ) (s + ε), lt_min (by linarith) (by linarith), w, ?_, ?_⟩
  · rw [hw1 t0 hτ]; exact hy.1
  · rintro t ⟨hat, htτ⟩
    by_cases h : t < τ
    · rw [hw1 t h]
      obtain ⟨d, hu⟩ := hy.2 t ⟨hat, h⟩
      refine ⟨d.congr_of_eventuallyEq ?_, hu⟩
      filter_upwards [Iio_mem_nhds h] with r hr
      exact hw1 r hr
    · rw [hw2 t h]
      have hτt := not_lt.1 h
      refine ⟨(hz t ⟨by linarith [hs2.2], htτ.trans_le (min_le_right _ _)⟩).congr_of_eventuallyEq ?_,
        hball t ⟨by linarith, htτ.trans_le (min_le_left _ _)⟩⟩
      filter_upwards [Ioi_mem_nhds (hmax.trans_le hτt)] with r hr
      by_cases hr' : r < τ
      · rw [hw1 r hr']; exact hag r ⟨hr, hr'⟩
      · exact hw2 r hr'

/-- **Global existence.**  `F` is `C¹` on the open set `U`; up to every time `T` the solutions from `x0` that stay in `U` stay in a compact
subset `C T` of `U`.  Then there is a solution for all later times. -/
theorem exists_global [CompleteSpace E] (hU : IsOpen U) (hF : ∀ x ∈ U, ContDiffAt ℝ 1 F x) (hx0 : x0 ∈ U) (t0 : ℝ)
    (C : ℝ → Set E) (hC : ∀ T, IsCompact (C T)) (hCU : ∀ T, C T ⊆ U)
    (hinv : ∀ T, t0 < T → ∀ y, y t0 = x0 → (∀ t ∈ Ico t0 T, HasDerivAt y (F (y t)) t ∧ y t ∈ U) → ∀ t ∈ Ico t0 T, y t ∈ C T) :
    ∃ a < t0, ∃ y, IsSolIn F U t0 x0 (Ioi a) y := by
  obtain ⟨α, hα0, ε, hε, hα⟩ := (hF x0 hx0).exists_forall_mem_closedBall_exists_eq_forall_mem_Ioo_hasDerivAt₀ t0
  have hαU : ∀ᶠ t in 𝓝 t0, α t ∈ U := by
    have := (hα t0 ⟨by linarith, by linarith⟩).continuousAt
    exact this.eventually (hU.mem_nhds (by rw [hα0]; exact hx0))
  obtain ⟨δ, hδ, hball⟩ := Metric.eventually_nhds_iff_ball.1 hαU
  rw [Real.ball_eq_Ioo] at hball
  obtain ⟨e, he⟩ : ∃ e, e = min ε δ := ⟨_, rfl⟩
  have he0 : 0 < e := by rw [he]; exact lt_min hε hδ
  have heε : e ≤ ε := by rw [he]; exact min_le_left _ _
  have heδ : e ≤ δ := by rw [he]; exact min_le_right _ _
  have hat : t0 - e < t0 := by linarith
  refine ⟨t0 - e, hat, ?_⟩
  obtain ⟨A, hA⟩ : ∃ A : Set ℝ, A = {τ | ∃ y, IsSolIn F U t0 x0 (Ioo (t0 - e) τ) y} := ⟨_, rfl⟩
  have hA0 : t0 + e ∈ A := by
    rw [hA]
    exact ⟨α, hα0, fun t ht => ⟨hα t ⟨by linarith [ht.1], by linarith [ht.2]⟩, hball t ⟨by linarith [ht.1], by linarith [ht.2]⟩⟩⟩
  have hmono : ∀ σ τ, σ ≤ τ → τ ∈ A → σ ∈ A := by
    intro σ τ h hτ
    rw [hA] at hτ ⊢
    obtain ⟨y, h1, h2⟩ := hτ
    exact ⟨y, h1, fun t ht => h2 t ⟨ht.1, ht.2.trans_le h⟩⟩
  have hunb : ¬ BddAbove A := by
    intro hb
    have hτ0 : t0 < sSup A := by
      have := le_csSup hb hA0
      linarith
    obtain ⟨y, hy⟩ := glue (F := F) (U := U) (x0 := x0) hF hat (B := A) ⟨_, hA0, by linarith⟩ (fun σ hσ => by rw [hA] at hσ; exact hσ)
    have hy' : IsSolIn F U t0 x0 (Ioo (t0 - e) (sSup A)) y :=
      ⟨hy.1, fun t ht => hy.2 t ⟨ht.1, exists_lt_of_lt_csSup ⟨_, hA0⟩ ht.2⟩⟩
    have hyC := hinv (sSup A) hτ0 y hy.1 fun t ht => hy'.2 t ⟨by linarith [ht.1], ht.2⟩
    obtain ⟨τ', hτ', w, hw⟩ := continuation hU hF hat hτ0 (hC _) (hCU _) hy' hyC
    have : τ' ∈ A := by rw [hA]; exact ⟨w, hw⟩
    exact absurd (le_csSup hb this) (not_le.2 hτ')
  have hall : ∀ t, ∃ σ ∈ A, t < σ := by
    intro t
    rw [not_bddAbove_iff] at hunb
    exact hunb t
  obtain ⟨y, hy⟩ := glue (F := F) (U := U) (x0 := x0) hF hat (B := A) (hall t0) (fun σ hσ => by rw [hA] at hσ; exact hσ)
  exact ⟨y, hy.1, fun t ht => hy.2 t ⟨ht, hall t⟩⟩

end Primpy
