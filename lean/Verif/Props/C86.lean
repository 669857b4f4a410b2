import Verif.Props.C85
import Verif.Props.C06

/-!
# C86: the slow-roll e-fold count against the integrated background
-/

namespace Primpy
open Real Spec Set

theorem _root_.Primpy.Spec.IsUniverse.mono {S S' : Set ℝ} {V dV N φ p H : ℝ → ℝ} {K : ℝ} (u : IsUniverse S V dV K N φ p H) (h : S' ⊆ S) : IsUniverse S' V dV K N φ p H :=
  ⟨fun t ht => u.hubble t (h ht), fun t ht => u.velocity t (h ht), fun t ht => u.kleinGordon t (h ht), fun t ht => u.friedmann t (h ht), fun t ht => u.expanding t (h ht)⟩

theorem _root_.Primpy.Spec.IsUniverseN.mono {S S' : Set ℝ} {V dV φ p H : ℝ → ℝ} {K : ℝ} (u : IsUniverseN S V dV K φ p H) (h : S' ⊆ S) : IsUniverseN S' V dV K φ p H :=
  ⟨fun t ht => u.velocity t (h ht), fun t ht => u.kleinGordon t (h ht), fun t ht => u.friedmann t (h ht), fun t ht => u.expanding t (h ht)⟩

/-- Two functions whose rates agree up to the relative error `κ`. -/
theorem count_core {F N g w : ℝ → ℝ} {κ t1 t2 : ℝ} (h12 : t1 ≤ t2) (hN : ∀ t ∈ Icc t1 t2, HasDerivAt N (g t) t) (hg : ∀ t ∈ Icc t1 t2, 0 ≤ g t)
    (hF : ∀ t ∈ Icc t1 t2, HasDerivAt F (-(g t * (1 + w t))) t) (hw : ∀ t ∈ Icc t1 t2, |w t| ≤ κ) :
    |(F t1 - F t2) - (N t2 - N t1)| ≤ κ * (N t2 - N t1) := by
  have mono : ∀ (f f' : ℝ → ℝ), (∀ t ∈ Icc t1 t2, HasDerivAt f (f' t) t) → (∀ t ∈ Icc t1 t2, 0 ≤ f' t) → f t1 ≤ f t2 := fun f f' hf h0 =>
    (monotoneOn_of_deriv_nonneg (convex_Icc _ _) (fun s hs => (hf s hs).continuousAt.continuousWithinAt)
      (fun s hs => (hf s (interior_subset hs)).differentiableAt.differentiableWithinAt)
      (fun s hs => by rw [(hf s (interior_subset hs)).deriv]; exact h0 s (interior_subset hs))) ⟨le_rfl, h12⟩ ⟨h12, le_rfl⟩ h12
  have m1 := mono (fun t => κ * N t + (F t + N t)) _ (fun t ht => ((hN t ht).const_mul κ).fun_add ((hF t ht).fun_add (hN t ht))) (fun t ht => by
    have h1 := mul_nonneg (hg t ht) (sub_nonneg.2 (abs_le.1 (hw t ht)).2)
    linarith)
  have m2 := mono (fun t => κ * N t - (F t + N t)) _ (fun t ht => ((hN t ht).const_mul κ).fun_sub ((hF t ht).fun_add (hN t ht))) (fun t ht => by
    have h1 := mul_nonneg (hg t ht) (by linarith [(abs_le.1 (hw t ht)).1] : 0 ≤ w t + κ)
    linarith)
  exact abs_le.2 ⟨by linarith, by linarith⟩

theorem rate_near {δ ε E : ℝ} (hδ : δ ≤ 1 / 20) (h1 : 0 < ε) (h2 : ε ≤ δ) (h3 : |E| ≤ δ) : 0 < 3 - ε + E / 2 ∧ |(3 - ε) / (3 - ε + E / 2) - 1| ≤ δ / 5 := by
  have h3' := abs_le.1 h3
  have hp : 0 < 3 - ε + E / 2 := by linarith
  refine ⟨hp, ?_⟩
  rw [div_sub_one hp.ne', abs_div, abs_of_pos hp, div_le_iff₀ hp, show 3 - ε - (3 - ε + E / 2) = -(E / 2) by ring, abs_neg, abs_div, abs_two]
  nlinarith

section
variable {δ : ℝ} {S D : Set ℝ} {pot : PotFns} {e1 e2 d2 N φ q H Nsr : ℝ → ℝ} {φe t1 t2 : ℝ}

/-- **C86, e-folds.**  On a slow-roll background the number of e-folds between two moments is the difference of the slow-roll count `Nsr`
(`sr_phi2N`) of the field values, up to the relative error `δ/5`. -/
theorem C86_count_efolds (hδ : δ ≤ 1 / 20) (hS : IsOpen S) (u : IsUniverseN S pot.V pot.dV 0 φ q H) (hV : IsDerivOn D pot.V pot.dV) (hV2 : IsDerivOn D pot.dV pot.d2V)
    (hφ : ∀ n ∈ S, φ n ∈ D) (sr : IsSlowRoll δ S (fun _ => 1) H e1 e2 d2) (hN : EfoldCount D pot.V pot.dV Nsr φe) (h12 : t1 ≤ t2) (hsub : Icc t1 t2 ⊆ S) :
    |(Nsr (φ t1) - Nsr (φ t2)) - (t2 - t1)| ≤ δ / 5 * (t2 - t1) := by
  have hj := Pert.slow_jetN hS u hV hV2 hφ sr
  refine count_core (F := fun n => Nsr (φ n)) (N := fun n => n) (g := fun _ => 1) (w := fun n => (3 - e1 n) / (3 - e1 n + e2 n / 2) - 1) h12 (fun t _ => hasDerivAt_id' t)
    (fun _ _ => zero_le_one) (fun t ht => ?_) (fun t ht => ?_)
  · obtain ⟨h1, h2, -, -, h5, -⟩ := hj t (hsub ht)
    obtain ⟨s1, s2, s3, -⟩ := sr.small t (hsub ht)
    have hp := (rate_near hδ s1 s2 s3).1
    have hH := u.expanding t (hsub ht)
    refine ((hN.slope _ (hφ t (hsub ht))).comp t (u.velocity t (hsub ht))).congr_deriv ?_
    have hf : pot.V (φ t) = H t ^ 2 * (3 - e1 t) := by
      have := u.friedmann t (hsub ht)
      rw [h1]; linear_combination -this
    rw [hf, h5]
    field_simp
    ring
  · obtain ⟨s1, s2, s3, -⟩ := sr.small t (hsub ht)
    exact (rate_near hδ s1 s2 s3).2

/-- **C86, cosmic time.** -/
theorem C86_count_time (hδ : δ ≤ 1 / 20) (hS : IsOpen S) (u : IsUniverse S pot.V pot.dV 0 N φ q H) (hV : IsDerivOn D pot.V pot.dV) (hV2 : IsDerivOn D pot.dV pot.d2V)
    (hφ : ∀ t ∈ S, φ t ∈ D) (sr : IsSlowRoll δ S H H e1 e2 d2) (hN : EfoldCount D pot.V pot.dV Nsr φe) (h12 : t1 ≤ t2) (hsub : Icc t1 t2 ⊆ S) :
    |(Nsr (φ t1) - Nsr (φ t2)) - (N t2 - N t1)| ≤ δ / 5 * (N t2 - N t1) := by
  have hj := Pert.slow_jetT hS u hV hV2 hφ sr
  refine count_core (F := fun n => Nsr (φ n)) (N := N) (g := H) (w := fun n => (3 - e1 n) / (3 - e1 n + e2 n / 2) - 1) h12 (fun t ht => u.hubble t (hsub ht))
    (fun t ht => (u.expanding t (hsub ht)).le) (fun t ht => ?_) (fun t ht => ?_)
  · obtain ⟨h1, h2, -, -, h5, -⟩ := hj t (hsub ht)
    obtain ⟨s1, s2, s3, -⟩ := sr.small t (hsub ht)
    have hp := (rate_near hδ s1 s2 s3).1
    have hH := u.expanding t (hsub ht)
    refine ((hN.slope _ (hφ t (hsub ht))).comp t (u.velocity t (hsub ht))).congr_deriv ?_
    have hf : pot.V (φ t) = H t ^ 2 * (3 - e1 t) := by
      have := u.friedmann t (hsub ht)
      rw [h1]; field_simp; linear_combination -2 * this
    rw [hf, h5]
    field_simp
    ring
  · obtain ⟨s1, s2, s3, -⟩ := sr.small t (hsub ht)
    exact (rate_near hδ s1 s2 s3).2
end

/-! ## The field rolls down to any value on the flat part -/

/-- Either `f` stays in the open set, or it leaves at a first time. -/
theorem first_exit {f : ℝ → ℝ} {J : Set ℝ} {t0 : ℝ} (hf : ContinuousOn f (Ici t0)) (hJ : IsOpen J) (h0 : f t0 ∈ J) :
    (∀ t ≥ t0, f t ∈ J) ∨ ∃ T > t0, f T ∉ J ∧ ∀ t ∈ Ico t0 T, f t ∈ J := by
  by_cases h : ∀ t ≥ t0, f t ∈ J
  · exact Or.inl h
  right
  push Not at h
  obtain ⟨t', ht', hn⟩ := h
  have hE : IsClosed (Ici t0 ∩ f ⁻¹' Jᶜ) := hf.preimage_isClosed_of_isClosed isClosed_Ici hJ.isClosed_compl
  have hb : BddBelow (Ici t0 ∩ f ⁻¹' Jᶜ) := ⟨t0, fun x hx => hx.1⟩
  obtain ⟨T, hT⟩ : ∃ T, T = sInf (Ici t0 ∩ f ⁻¹' Jᶜ) := ⟨_, rfl⟩
  have hm : T ∈ Ici t0 ∩ f ⁻¹' Jᶜ := by rw [hT]; exact hE.csInf_mem ⟨t', ht', hn⟩ hb
  refine ⟨T, lt_of_le_of_ne hm.1 (fun h => hm.2 (by rw [← h]; exact h0)), hm.2, fun t ht => ?_⟩
  by_contra hc
  have : T ≤ t := by rw [hT]; exact csInf_le hb ⟨ht.1, hc⟩
  exact absurd ht.2 (not_lt.2 this)

/-- A function that falls (at least at the rate `m`) as long as it stays between `c2` and `c3` reaches every value above `c2`. -/
theorem reach_core {f f' : ℝ → ℝ} {a t0 c2 c c3 m : ℝ} (ha : a < t0) (hf : ∀ t > a, HasDerivAt f (f' t) t) (h2 : c2 < c) (hc : c < f t0) (h3 : f t0 < c3) (hm : 0 < m)
    (P : ∀ S : Set ℝ, IsOpen S → S.OrdConnected → S ⊆ Ioi a → t0 ∈ S → (∀ t ∈ S, f t ∈ Ioo c2 c3) → ∀ t ∈ S, t0 ≤ t → f' t ≤ -m) :
    ∃ T > t0, ∃ η > 0, (∀ t ∈ Ioo (t0 - η) T, a < t ∧ f t ∈ Ioo c2 c3) ∧ ∃ t1 ∈ Ioo t0 T, f t1 = c ∧ ∀ t ∈ Icc t0 t1, c ≤ f t ∧ f t ≤ f t0 := by
  have hcont : ContinuousOn f (Ioi a) := fun t ht => (hf t ht).continuousAt.continuousWithinAt
  have hin0 : f t0 ∈ Ioo c2 c3 := ⟨h2.trans hc, h3⟩
  obtain ⟨η, hη, hev⟩ := Metric.eventually_nhds_iff.1 (((hf t0 ha).continuousAt.eventually (isOpen_Ioo.mem_nhds hin0)).and (isOpen_Ioi.mem_nhds ha))
  have hnear : ∀ t, t0 - η < t → t ≤ t0 → a < t ∧ f t ∈ Ioo c2 c3 := fun t h1 h2 => by
    obtain ⟨x, y⟩ := hev (y := t) (by rw [Real.dist_eq, abs_lt]; exact ⟨by linarith, by linarith⟩)
    exact ⟨y, x⟩
  have fall : ∀ T, (∀ t ∈ Ico t0 T, f t ∈ Ioo c2 c3) → ∀ t ∈ Ico t0 T, f' t ≤ -m := fun T hT t ht =>
    P (Ioo (t0 - η) T) isOpen_Ioo ordConnected_Ioo (fun s hs => by
      rcases le_or_gt s t0 with h | h
      · exact (hnear s hs.1 h).1
      · exact ha.trans h) ⟨by linarith, ht.1.trans_lt ht.2⟩ (fun s hs => by
      rcases le_or_gt s t0 with h | h
      · exact (hnear s hs.1 h).2
      · exact hT s ⟨h.le, hs.2⟩) t ⟨by linarith [ht.1], ht.2⟩ ht.1
  rcases first_exit (hcont.mono (fun t (ht : t0 ≤ t) => ha.trans_le ht)) isOpen_Ioo hin0 with h | ⟨T, hT0, hTn, hT⟩
  · exfalso
    have hfall : ∀ t ≥ t0, f' t ≤ -m := fun t ht => fall (t + 1) (fun s hs => h s hs.1) t ⟨ht, by linarith⟩
    have := falls (f := f) (n0 := t0) (fun t ht => hf t (ha.trans_le ht)) hfall (n := t0 + (f t0 - c2) / m)
      (by have : 0 < (f t0 - c2) / m := div_pos (by linarith) hm
          linarith)
    have h1 := (h (t0 + (f t0 - c2) / m) (le_add_of_nonneg_right (div_pos (by linarith) hm).le)).1
    have h4 : m * ((f t0 - c2) / m) = f t0 - c2 := by field_simp
    nlinarith
  · have hfall := fall T hT
    have anti : AntitoneOn f (Icc t0 T) := antitoneOn_of_deriv_nonpos (convex_Icc _ _) (hcont.mono fun t ht => ha.trans_le ht.1)
      (fun t ht => (hf t (ha.trans_le (interior_subset ht).1)).differentiableAt.differentiableWithinAt)
      (fun t ht => by
        rw [interior_Icc] at ht
        rw [(hf t (ha.trans ht.1)).deriv]
        linarith [hfall t ⟨ht.1.le, ht.2⟩])
    have hTle : f T ≤ c2 := by
      by_contra hc
      exact hTn ⟨not_le.1 hc, (anti ⟨le_rfl, hT0.le⟩ ⟨hT0.le, le_rfl⟩ hT0.le).trans_lt h3⟩
    obtain ⟨t1, ht1, e1⟩ := intermediate_value_Icc' hT0.le (hcont.mono fun t (ht : t ∈ Icc t0 T) => ha.trans_le ht.1) ⟨(hTle.trans_lt h2).le, hc.le⟩
    have h1 : t0 < t1 := lt_of_le_of_ne ht1.1 (fun h => by rw [← h] at e1; linarith)
    have h1T : t1 < T := lt_of_le_of_ne ht1.2 (fun h => by rw [h] at e1; linarith)
    refine ⟨T, hT0, η, hη, fun t ht => ?_, t1, ⟨h1, h1T⟩, e1, fun t ht => ⟨?_, ?_⟩⟩
    · rcases le_or_gt t t0 with h | h
      · exact hnear t ht.1 h
      · exact ⟨ha.trans h, hT t ⟨h.le, ht.2⟩⟩
    · rw [← e1]; exact anti ⟨ht.1, ht.2.trans h1T.le⟩ ⟨h1.le, h1T.le⟩ ht.2
    · exact anti ⟨le_rfl, hT0.le⟩ ⟨ht.1, ht.2.trans h1T.le⟩ ht.1

/-- margins around a compact interval inside an open set -/
theorem margins {D : Set ℝ} (hD : IsOpen D) {s Φ φ0 : ℝ} (hs : s = 1 ∨ s = -1) (hΦ : s * Φ < s * φ0) (hsub : uIcc Φ φ0 ⊆ D) :
    ∃ c2 < s * Φ, ∃ c3 > s * φ0, ∀ x ∈ Icc c2 c3, s * x ∈ D := by
  have hD' : IsOpen {x | s * x ∈ D} := hD.preimage (continuous_const.mul continuous_id)
  have hin : ∀ x ∈ Icc (s * Φ) (s * φ0), s * x ∈ D := fun x hx => hsub (by
    rw [mem_uIcc]
    rcases hs with rfl | rfl
    · exact Or.inl ⟨by linarith [hx.1], by linarith [hx.2]⟩
    · exact Or.inr ⟨by linarith [hx.2], by linarith [hx.1]⟩)
  obtain ⟨ε1, h1, b1⟩ := Metric.isOpen_iff.1 hD' (s * Φ) (hin _ ⟨le_rfl, hΦ.le⟩)
  obtain ⟨ε2, h2, b2⟩ := Metric.isOpen_iff.1 hD' (s * φ0) (hin _ ⟨hΦ.le, le_rfl⟩)
  refine ⟨s * Φ - ε1 / 2, by linarith, s * φ0 + ε2 / 2, by linarith, fun x hx => ?_⟩
  by_cases hx1 : x < s * Φ
  · exact b1 (by rw [Metric.mem_ball, Real.dist_eq, abs_lt]; exact ⟨by linarith [hx.1], by linarith⟩)
  by_cases hx2 : s * φ0 < x
  · exact b2 (by rw [Metric.mem_ball, Real.dist_eq, abs_lt]; exact ⟨by linarith, by linarith [hx.2]⟩)
  exact hin x ⟨not_lt.1 hx1, not_lt.1 hx2⟩

theorem min_slope {D : Set ℝ} {dV d2V : ℝ → ℝ} (hV2 : IsDerivOn D dV d2V) {s c2 c3 : ℝ} (h23 : c2 ≤ c3) (hsl : ∀ φ ∈ D, 0 < s * dV φ) (hsub : ∀ x ∈ Icc c2 c3, s * x ∈ D) :
    ∃ m > 0, ∀ x ∈ Icc c2 c3, m ≤ s * dV (s * x) := by
  have hcont : ContinuousOn (fun x => s * dV (s * x)) (Icc c2 c3) := fun x hx => by
    have h1 : ContinuousAt dV (s * x) := (hV2 _ (hsub x hx)).continuousAt
    exact (continuousAt_const.mul (ContinuousAt.comp (f := fun x => s * x) h1 (continuousAt_const.mul continuousAt_id))).continuousWithinAt
  obtain ⟨x0, hx0, hmin⟩ := isCompact_Icc.exists_isMinOn ⟨c2, le_rfl, h23⟩ hcont
  exact ⟨_, hsl _ (hsub x0 hx0), fun x hx => hmin hx⟩

section
variable {δ : ℝ} {D : Set ℝ} {pot : PotFns} {e1V e2V N φ q H Nsr : ℝ → ℝ} {φe a t0 s Φ : ℝ}

/-- **C86, cosmic time.**  Flat universe; the potential is flat (to accuracy `δ/16`) and monotonic between the field value at `t0` and `Φ`, which lies further
down; the velocity at `t0` is the slow-roll velocity up to `δ/32`.  Then the field rolls from `φ(t0)` to `Φ` without leaving that interval, the background rolls
slowly all the way (with `ε₁` of the potential up to `δ/10`), and the e-folds it takes are `sr_phi2N(φ(t0)) - sr_phi2N(Φ)` up to the relative error `δ/5`. -/
theorem C86_time (hδ0 : 0 < δ) (hδ : δ ≤ 1 / 20) (hD : IsSlowRollPotential (δ / 16) D pot.V pot.dV e1V e2V) (hV : IsDerivOn D pot.V pot.dV) (hV2 : IsDerivOn D pot.dV pot.d2V)
    (hN : EfoldCount D pot.V pot.dV Nsr φe) (ha : a < t0) (u : IsUniverse (Ioi a) pot.V pot.dV 0 N φ q H) (hs : s = 1 ∨ s = -1) (hsl : ∀ φ ∈ D, 0 < s * pot.dV φ)
    (hΦ : s * Φ < s * φ t0) (hsub : uIcc Φ (φ t0) ⊆ D) (h0 : |q t0 / H t0 / -(pot.dV (φ t0) / pot.V (φ t0)) - 1| < δ / 32) :
    ∃ t1 > t0, φ t1 = Φ ∧ (∀ t ∈ Icc t0 t1, φ t ∈ uIcc Φ (φ t0)) ∧
      (∃ η > 0, ∃ e1 e2 d2 : ℝ → ℝ, IsSlowRoll δ (Ioo (t0 - η) (t1 + η)) H H e1 e2 d2 ∧ ∀ t ∈ Ioo (t0 - η) (t1 + η), a < t ∧ φ t ∈ D ∧
        |e1 t - e1V (φ t)| ≤ δ / 10 * e1V (φ t)) ∧
      |(Nsr (φ t0) - Nsr Φ) - (N t1 - N t0)| ≤ δ / 5 * (N t1 - N t0) := by
  have hss : ∀ x, s * (s * x) = x := fun x => by rcases hs with rfl | rfl <;> ring
  obtain ⟨c2, hc2, c3, hc3, hc⟩ := margins hD.isOpen hs hΦ hsub
  obtain ⟨m, hm, hmin⟩ := min_slope hV2 (by linarith) hsl hc
  have hH0 : 0 < H t0 := u.expanding t0 ha
  have slow : ∀ S : Set ℝ, IsOpen S → S.OrdConnected → S ⊆ Ioi a → t0 ∈ S → (∀ t ∈ S, s * φ t ∈ Ioo c2 c3) → (∀ t ∈ S, φ t ∈ D) ∧
      ∃ η > 0, ∃ e1 e2 d2 : ℝ → ℝ, IsSlowRoll δ (S ∩ Ioi (t0 - η)) H H e1 e2 d2 ∧ ∀ n ∈ S, t0 - η < n → |e1 n - e1V (φ n)| ≤ δ / 10 * e1V (φ n) := fun S hS hoc hSa hmem hin => by
    have hφ : ∀ t ∈ S, φ t ∈ D := fun t ht => by
      have := hc _ (Ioo_subset_Icc_self (hin t ht))
      rwa [hss] at this
    exact ⟨hφ, C85_time hδ0 hδ hD hV hV2 hS hoc hmem (u.mono hSa) hφ h0⟩
  obtain ⟨T, hT0, η, hη, hin, t1, ht1, et1, hbt⟩ := reach_core (f := fun t => s * φ t) (f' := fun t => s * q t) (a := a) (t0 := t0) (c2 := c2) (c := s * Φ) (c3 := c3)
    (m := m / (4 * H t0)) ha (fun t ht => (u.velocity t ht).const_mul s) hc2 hΦ hc3 (by positivity) (fun S hS hoc hSa hmem hin t ht htt => by
      obtain ⟨hφ, η, hη, e1, e2, d2, sr, -⟩ := slow S hS hoc hSa hmem hin
      have hS' : IsOpen (S ∩ Ioi (t0 - η)) := hS.inter isOpen_Ioi
      have hj := Pert.slow_jetT hS' (u.mono fun t ht => hSa ht.1) hV hV2 (fun t ht => hφ t ht.1) sr
      have hmem' : ∀ x ∈ Icc t0 t, x ∈ S ∩ Ioi (t0 - η) := fun x hx => ⟨hoc.out hmem ht hx, show t0 - η < x by linarith [hx.1]⟩
      have hHle : H t ≤ H t0 := antitoneOn_of_deriv_nonpos (convex_Icc t0 t) (fun x hx => ((hj x (hmem' x hx)).2.2.1).continuousAt.continuousWithinAt)
        (fun x hx => ((hj x (hmem' x (interior_subset hx))).2.2.1).differentiableAt.differentiableWithinAt)
        (fun x hx => by
          have hx' := hmem' x (interior_subset hx)
          rw [((hj x hx').2.2.1).deriv]
          have := (sr.small x hx').1
          exact neg_nonpos.2 (by positivity)) ⟨le_rfl, htt⟩ ⟨htt, le_rfl⟩ htt
      have hx' := hmem' t ⟨htt, le_rfl⟩
      obtain ⟨s1, s2, s3, -⟩ := sr.small t hx'
      have hp := (rate_near hδ s1 s2 s3).1
      have s3' := abs_le.1 s3
      have hHt : 0 < H t := u.expanding t (hSa ht)
      have hdV := (hj t hx').2.2.2.2.1
      have hm' := hmin _ (Ioo_subset_Icc_self (hin t ht))
      rw [hss, hdV] at hm'
      have hb : H t * (3 - e1 t + e2 t / 2) ≤ 4 * H t0 := by nlinarith
      have hb0 : 0 < H t * (3 - e1 t + e2 t / 2) := mul_pos hHt hp
      rw [le_neg, div_le_iff₀ (by positivity)]
      have hq : 0 < -(s * q t) := by
        by_contra hq
        have := mul_nonneg (neg_nonneg.2 (not_lt.1 hq)) hb0.le
        linarith
      have := mul_le_mul_of_nonneg_left hb hq.le
      linarith)
  have hset : Ioo (t0 - η) T ⊆ Ioi a := fun t ht => (hin t ht).1
  obtain ⟨hφ, η', hη', e1, e2, d2, sr, hacc⟩ := slow (Ioo (t0 - η) T) isOpen_Ioo ordConnected_Ioo hset ⟨by linarith, hT0⟩ (fun t ht => (hin t ht).2)
  have eΦ : φ t1 = Φ := by
    have := congrArg (fun x => s * x) et1
    simpa only [hss] using this
  obtain ⟨ζ, hζ⟩ : ∃ ζ, ζ = min (min η η') (T - t1) := ⟨_, rfl⟩
  have hζ0 : 0 < ζ := by rw [hζ]; exact lt_min (lt_min hη hη') (by linarith [ht1.2])
  have z1 : ζ ≤ η := by rw [hζ]; exact (min_le_left _ _).trans (min_le_left _ _)
  have z2 : ζ ≤ η' := by rw [hζ]; exact (min_le_left _ _).trans (min_le_right _ _)
  have z3 : ζ ≤ T - t1 := by rw [hζ]; exact min_le_right _ _
  have hZ : ∀ t ∈ Ioo (t0 - ζ) (t1 + ζ), t ∈ Ioo (t0 - η) T ∧ t0 - η' < t := fun t ht => ⟨⟨by linarith [ht.1], by linarith [ht.2]⟩, by linarith [ht.1]⟩
  have sr' : IsSlowRoll δ (Ioo (t0 - ζ) (t1 + ζ)) H H e1 e2 d2 :=
    ⟨fun t ht => sr.first t (hZ t ht), fun t ht => sr.second t (hZ t ht), fun t ht => sr.third t (hZ t ht), fun t ht => sr.small t (hZ t ht)⟩
  refine ⟨t1, ht1.1, eΦ, fun t ht => ?_, ⟨ζ, hζ0, e1, e2, d2, sr', fun t ht => ⟨hset (hZ t ht).1, hφ t (hZ t ht).1, hacc t (hZ t ht).1 (hZ t ht).2⟩⟩, ?_⟩
  · obtain ⟨b1, b2⟩ := hbt t ht
    rw [mem_uIcc]
    rcases hs with rfl | rfl
    · exact Or.inl ⟨by linarith, by linarith⟩
    · exact Or.inr ⟨by linarith, by linarith⟩
  · have := C86_count_time hδ isOpen_Ioo (u.mono fun t ht => hset (hZ t ht).1) hV hV2 (fun t ht => hφ t (hZ t ht).1) sr' hN ht1.1.le
      (fun t ht => ⟨by linarith [ht.1], by linarith [ht.2]⟩)
    rwa [eΦ] at this

/-- **C86, e-folds.** -/
theorem C86_efolds (hδ0 : 0 < δ) (hδ : δ ≤ 1 / 20) (hD : IsSlowRollPotential (δ / 16) D pot.V pot.dV e1V e2V) (hV : IsDerivOn D pot.V pot.dV) (hV2 : IsDerivOn D pot.dV pot.d2V)
    (hN : EfoldCount D pot.V pot.dV Nsr φe) (ha : a < t0) (u : IsUniverseN (Ioi a) pot.V pot.dV 0 φ q H) (hs : s = 1 ∨ s = -1) (hsl : ∀ φ ∈ D, 0 < s * pot.dV φ)
    (hΦ : s * Φ < s * φ t0) (hsub : uIcc Φ (φ t0) ⊆ D) (h0 : |q t0 / -(pot.dV (φ t0) / pot.V (φ t0)) - 1| < δ / 32) :
    ∃ t1 > t0, φ t1 = Φ ∧ (∀ t ∈ Icc t0 t1, φ t ∈ uIcc Φ (φ t0)) ∧
      (∃ η > 0, ∃ e1 e2 d2 : ℝ → ℝ, IsSlowRoll δ (Ioo (t0 - η) (t1 + η)) (fun _ => 1) H e1 e2 d2 ∧ ∀ t ∈ Ioo (t0 - η) (t1 + η), a < t ∧ φ t ∈ D ∧
        |e1 t - e1V (φ t)| ≤ δ / 10 * e1V (φ t)) ∧
      |(Nsr (φ t0) - Nsr Φ) - (t1 - t0)| ≤ δ / 5 * (t1 - t0) := by
  have hss : ∀ x, s * (s * x) = x := fun x => by rcases hs with rfl | rfl <;> ring
  obtain ⟨c2, hc2, c3, hc3, hc⟩ := margins hD.isOpen hs hΦ hsub
  obtain ⟨m, hm, hmin⟩ := min_slope hV2 (by linarith) hsl hc
  have hH0 : 0 < H t0 := u.expanding t0 ha
  have slow : ∀ S : Set ℝ, IsOpen S → S.OrdConnected → S ⊆ Ioi a → t0 ∈ S → (∀ t ∈ S, s * φ t ∈ Ioo c2 c3) → (∀ t ∈ S, φ t ∈ D) ∧
      ∃ η > 0, ∃ e1 e2 d2 : ℝ → ℝ, IsSlowRoll δ (S ∩ Ioi (t0 - η)) (fun _ => 1) H e1 e2 d2 ∧ ∀ n ∈ S, t0 - η < n → |e1 n - e1V (φ n)| ≤ δ / 10 * e1V (φ n) := fun S hS hoc hSa hmem hin => by
    have hφ : ∀ t ∈ S, φ t ∈ D := fun t ht => by
      have := hc _ (Ioo_subset_Icc_self (hin t ht))
      rwa [hss] at this
    exact ⟨hφ, C85_efolds hδ0 hδ hD hV hV2 hS hoc hmem (u.mono hSa) hφ h0⟩
  obtain ⟨T, hT0, η, hη, hin, t1, ht1, et1, hbt⟩ := reach_core (f := fun t => s * φ t) (f' := fun t => s * q t) (a := a) (t0 := t0) (c2 := c2) (c := s * Φ) (c3 := c3)
    (m := m / (4 * H t0 ^ 2)) ha (fun t ht => (u.velocity t ht).const_mul s) hc2 hΦ hc3 (by positivity) (fun S hS hoc hSa hmem hin t ht htt => by
      obtain ⟨hφ, η, hη, e1, e2, d2, sr, -⟩ := slow S hS hoc hSa hmem hin
      have hS' : IsOpen (S ∩ Ioi (t0 - η)) := hS.inter isOpen_Ioi
      have hj := Pert.slow_jetN hS' (u.mono fun t ht => hSa ht.1) hV hV2 (fun t ht => hφ t ht.1) sr
      have hmem' : ∀ x ∈ Icc t0 t, x ∈ S ∩ Ioi (t0 - η) := fun x hx => ⟨hoc.out hmem ht hx, show t0 - η < x by linarith [hx.1]⟩
      have hHle : H t ≤ H t0 := antitoneOn_of_deriv_nonpos (convex_Icc t0 t) (fun x hx => ((hj x (hmem' x hx)).2.2.1).continuousAt.continuousWithinAt)
        (fun x hx => ((hj x (hmem' x (interior_subset hx))).2.2.1).differentiableAt.differentiableWithinAt)
        (fun x hx => by
          have hx' := hmem' x (interior_subset hx)
          rw [((hj x hx').2.2.1).deriv]
          have h1 := (sr.small x hx').1
          have h2 := u.expanding x (hSa hx'.1)
          exact neg_nonpos.2 (by positivity)) ⟨le_rfl, htt⟩ ⟨htt, le_rfl⟩ htt
      have hx' := hmem' t ⟨htt, le_rfl⟩
      obtain ⟨s1, s2, s3, -⟩ := sr.small t hx'
      have hp := (rate_near hδ s1 s2 s3).1
      have s3' := abs_le.1 s3
      have hHt : 0 < H t := u.expanding t (hSa ht)
      have hdV := (hj t hx').2.2.2.2.1
      have hm' := hmin _ (Ioo_subset_Icc_self (hin t ht))
      rw [hss, hdV] at hm'
      have hH2 : H t ^ 2 ≤ H t0 ^ 2 := by gcongr
      have hb : H t ^ 2 * (3 - e1 t + e2 t / 2) ≤ 4 * H t0 ^ 2 := by nlinarith [sq_nonneg (H t)]
      have hb0 : 0 < H t ^ 2 * (3 - e1 t + e2 t / 2) := mul_pos (by positivity) hp
      rw [le_neg, div_le_iff₀ (by positivity)]
      have hq : 0 < -(s * q t) := by
        by_contra hq
        have := mul_nonneg (neg_nonneg.2 (not_lt.1 hq)) hb0.le
        linarith
      have := mul_le_mul_of_nonneg_left hb hq.le
      linarith)
  have hset : Ioo (t0 - η) T ⊆ Ioi a := fun t ht => (hin t ht).1
  obtain ⟨hφ, η', hη', e1, e2, d2, sr, hacc⟩ := slow (Ioo (t0 - η) T) isOpen_Ioo ordConnected_Ioo hset ⟨by linarith, hT0⟩ (fun t ht => (hin t ht).2)
  have eΦ : φ t1 = Φ := by
    have := congrArg (fun x => s * x) et1
    simpa only [hss] using this
  obtain ⟨ζ, hζ⟩ : ∃ ζ, ζ = min (min η η') (T - t1) := ⟨_, rfl⟩
  have hζ0 : 0 < ζ := by rw [hζ]; exact lt_min (lt_min hη hη') (by linarith [ht1.2])
  have z1 : ζ ≤ η := by rw [hζ]; exact (min_le_left _ _).trans (min_le_left _ _)
  have z2 : ζ ≤ η' := by rw [hζ]; exact (min_le_left _ _).trans (min_le_right _ _)
  have z3 : ζ ≤ T - t1 := by rw [hζ]; exact min_le_right _ _
  have hZ : ∀ t ∈ Ioo (t0 - ζ) (t1 + ζ), t ∈ Ioo (t0 - η) T ∧ t0 - η' < t := fun t ht => ⟨⟨by linarith [ht.1], by linarith [ht.2]⟩, by linarith [ht.1]⟩
  have sr' : IsSlowRoll δ (Ioo (t0 - ζ) (t1 + ζ)) (fun _ => 1) H e1 e2 d2 :=
    ⟨fun t ht => sr.first t (hZ t ht), fun t ht => sr.second t (hZ t ht), fun t ht => sr.third t (hZ t ht), fun t ht => sr.small t (hZ t ht)⟩
  refine ⟨t1, ht1.1, eΦ, fun t ht => ?_, ⟨ζ, hζ0, e1, e2, d2, sr', fun t ht => ⟨hset (hZ t ht).1, hφ t (hZ t ht).1, hacc t (hZ t ht).1 (hZ t ht).2⟩⟩, ?_⟩
  · obtain ⟨b1, b2⟩ := hbt t ht
    rw [mem_uIcc]
    rcases hs with rfl | rfl
    · exact Or.inl ⟨by linarith, by linarith⟩
    · exact Or.inr ⟨by linarith, by linarith⟩
  · have := C86_count_efolds hδ isOpen_Ioo (u.mono fun t ht => hset (hZ t ht).1) hV hV2 (fun t ht => hφ t (hZ t ht).1) sr' hN ht1.1.le
      (fun t ht => ⟨by linarith [ht.1], by linarith [ht.2]⟩)
    rwa [eΦ] at this
end

/-! ## `SlowRollIC` and shipped potentials -/

theorem _root_.Primpy.Spec.EfoldCount.mono {D D' : Set ℝ} {V dV Nsr : ℝ → ℝ} {φe : ℝ} (h : EfoldCount D V dV Nsr φe) (hs : D' ⊆ D) : EfoldCount D' V dV Nsr φe :=
  ⟨h.zero, fun φ hφ => h.slope φ (hs hφ)⟩

/-- What a slow-roll descent looks like, for the background functions `N, φ, H` of the time variable (`rate = dN/dx`): from `φ(t0)` to `Φ` in between `t0` and
some `t1`, slowly, with `ε₁` close to the potential's `e1V` and the number of e-folds close to the slow-roll count `Nsr`. -/
def SlowDescent (δ : ℝ) (D : Set ℝ) (e1V Nsr rate N φ H : ℝ → ℝ) (t0 Φ : ℝ) : Prop :=
  ∃ t1 > t0, φ t1 = Φ ∧ (∀ t ∈ Icc t0 t1, φ t ∈ uIcc Φ (φ t0)) ∧
    (∃ η > 0, ∃ e1 e2 d2 : ℝ → ℝ, IsSlowRoll δ (Ioo (t0 - η) (t1 + η)) rate H e1 e2 d2 ∧ ∀ t ∈ Ioo (t0 - η) (t1 + η), φ t ∈ D ∧
      |e1 t - e1V (φ t)| ≤ δ / 10 * e1V (φ t)) ∧
    |(Nsr (φ t0) - Nsr Φ) - (N t1 - N t0)| ≤ δ / 5 * (N t1 - N t0)

/-- **C86, `SlowRollIC`, cosmic time.** -/
theorem C86_slowrollic_time {δ : ℝ} (hδ0 : 0 < δ) (hδ : δ ≤ 1 / 20) (e : InflT) (hK : e.K = 0) {D : Set ℝ} {e1V e2V Nsr : ℝ → ℝ} {φe : ℝ}
    (hD : IsSlowRollPotential (δ / 16) D e.pot.V e.pot.dV e1V e2V) (hV : IsDerivOn D e.pot.V e.pot.dV) (hV2 : IsDerivOn D e.pot.dV e.pot.d2V)
    (hN : EfoldCount D e.pot.V e.pot.dV Nsr φe) {s Φ : ℝ} (hs : s = 1 ∨ s = -1) (hsl : ∀ φ ∈ D, 0 < s * e.pot.dV φ)
    (a : ICArgs) (n0 : ℝ) (hn : a.N_i = some n0) (hΩ : a.Omega_Ki = none) (hΦ : s * Φ < s * a.phi_i) (hsub : uIcc Φ a.phi_i ⊆ D)
    (heta : e.track_eta = true → a.eta_i ≠ none) (y0 : ℕ → Option ℝ) :
    ∃ ic y, SlowRollIC.init (.T e) a = .ok ic ∧ SlowRollIC.call (.T e) ic y0 = .ok y ∧ (∃ z, Numbers y z 3 ∧ 0 < e.H2 z) ∧
      ∀ (Y : ℝ → ℕ → ℝ) (b t0 : ℝ), b < t0 → SolvesODE (Ioi b) e.rows e.call Y → (∀ t > b, 0 < e.H2 (Y t)) → Numbers y (Y t0) 3 →
        InflT.phi (Y t0) = a.phi_i ∧ InflT._N (Y t0) = n0 ∧
        SlowDescent δ D e1V Nsr (fun t => e.H (Y t)) (fun t => InflT._N (Y t)) (fun t => InflT.phi (Y t)) (fun t => e.H (Y t)) t0 Φ := by
  have hφi : a.phi_i ∈ D := hsub right_mem_uIcc
  obtain ⟨ic, y, a1, a2, a3, a4⟩ := slowrollic_start_time hδ0 hδ e hK a n0 hn hΩ (hD.pos _ hφi) (hD.slope _ hφi)
    (by rw [← hD.first _ hφi]; exact (hD.small _ hφi).1) heta y0
  refine ⟨ic, y, a1, a2, a3, fun Y b t0 hb sol hH hY => ?_⟩
  have u := InflT.universe sol hH
  rw [hK] at u
  obtain ⟨p1, p2, p3⟩ := a4 _ hY
  refine ⟨p1, p2, ?_⟩
  obtain ⟨t1, h1, h2, h3, ⟨η, h4, e1, e2, d2, h5, h6⟩, h7⟩ := C86_time hδ0 hδ hD hV hV2 hN hb u hs hsl (by rw [p1]; exact hΦ) (by rw [p1]; exact hsub) p3
  exact ⟨t1, h1, h2, h3, ⟨η, h4, e1, e2, d2, h5, fun t ht => (h6 t ht).2⟩, h7⟩

/-- **C86, `SlowRollIC`, e-folds.** -/
theorem C86_slowrollic_efolds {δ : ℝ} (hδ0 : 0 < δ) (hδ : δ ≤ 1 / 20) (e : InflN) (hK : e.K = 0) {D D' : Set ℝ} {e1V e2V Nsr : ℝ → ℝ} {φe : ℝ}
    (hD : IsSlowRollPotential (δ / 16) D e.pot.V e.pot.dV e1V e2V) (hV : IsDerivOn D' e.pot.V e.pot.dV) (hDD : D ⊆ D') (hV2 : IsDerivOn D e.pot.dV e.pot.d2V)
    (hN : EfoldCount D e.pot.V e.pot.dV Nsr φe) {s Φ : ℝ} (hs : s = 1 ∨ s = -1) (hsl : ∀ φ ∈ D, 0 < s * e.pot.dV φ)
    (a : ICArgs) (n0 : ℝ) (hn : a.N_i = some n0) (hΩ : a.Omega_Ki = none) (hΦ : s * Φ < s * a.phi_i) (hsub : uIcc Φ a.phi_i ⊆ D)
    (ht : e.track_time = true → a.t_i ≠ none) (heta : e.track_eta = true → a.eta_i ≠ none) (y0 : ℕ → Option ℝ) :
    ∃ ic y, SlowRollIC.init (.N e) a = .ok ic ∧ SlowRollIC.call (.N e) ic y0 = .ok y ∧ IC.x_ini (.N e) ic = some n0 ∧ (∃ z, Numbers y z 2 ∧ 0 < e.H2 n0 z) ∧
      ∀ (Y : ℝ → ℕ → ℝ) (b : ℝ), b < n0 → SolvesODE (Ioi b) e.rows e.call Y → (∀ n > b, 0 < e.H2 n (Y n) ∧ InflN.phi (Y n) ∈ D') → Numbers y (Y n0) 2 →
        InflN.phi (Y n0) = a.phi_i ∧
        SlowDescent δ D e1V Nsr (fun _ => 1) (fun n => n) (fun n => InflN.phi (Y n)) (fun n => e.H n (Y n)) n0 Φ := by
  have hφi : a.phi_i ∈ D := hsub right_mem_uIcc
  obtain ⟨ic, y, a1, a2, a6, ⟨z, z1, z2, z3⟩, a7⟩ := slowrollic_start_efolds e hK a n0 hn hΩ (hD.pos _ hφi) (hD.slope _ hφi) ht heta y0
  refine ⟨ic, y, a1, a2, a6, ⟨z, z1, z2 ?_⟩, fun Y b hb sol hSD hY => ?_⟩
  · have := (hD.small _ hφi).1
    rw [hD.first _ hφi] at this
    rw [z3, neg_sq]
    linarith
  have u := C19_efolds isOpen_Ioi sol (fun n hn => (hSD n hn).1) hV (fun n hn => (hSD n hn).2)
  rw [hK] at u
  obtain ⟨p1, p2⟩ := a7 _ hY
  refine ⟨p1, ?_⟩
  obtain ⟨t1, h1, h2, h3, ⟨η, h4, e1, e2, d2, h5, h6⟩, h7⟩ := C86_efolds hδ0 hδ hD (fun φ hφ => hV φ (hDD hφ)) hV2 hN hb u hs hsl
    (show s * Φ < s * InflN.phi (Y n0) by rw [p1]; exact hΦ) (show uIcc Φ (InflN.phi (Y n0)) ⊆ D by rw [p1]; exact hsub)
    (by have h := p2
        unfold InflN.phi at h
        rw [h, sub_self, abs_zero]; positivity)
  exact ⟨t1, h1, h2, h3, ⟨η, h4, e1, e2, d2, h5, fun t ht => (h6 t ht).2⟩, h7⟩

/-- Where the shipped potentials are flat to accuracy `δ/16`. -/
theorem builtin_flat {δ : ℝ} (hδ0 : 0 < δ) (hδ : δ ≤ 1 / 20) {P : PotFns} {e1V Nsr : ℝ → ℝ} {Φ : ℝ}
    (hP : (∃ q : Quadratic, q.Lambda ≠ 0 ∧ P = q.fns ∧ e1V = q.get_epsilon_1V ∧ Nsr = q.sr_phi2N ∧ 0 < Φ ∧ 64 < δ * Φ ^ 2) ∨
      (∃ s : Starobinsky, s.Lambda ≠ 0 ∧ P = s.fns ∧ e1V = s.get_epsilon_1V ∧ Nsr = s.sr_phi2N ∧ 1 + 64 / δ < exp (Starobinsky.gamma * Φ))) :
    ∃ (R : ℝ) (e2V : ℝ → ℝ) (φe : ℝ), 0 < R ∧ R < Φ ∧ IsSlowRollPotential (δ / 16) (Ioi R) P.V P.dV e1V e2V ∧ IsDerivOn (Ioi R) P.V P.dV ∧
      IsDerivOn (Ioi R) P.dV P.d2V ∧ EfoldCount (Ioi R) P.V P.dV Nsr φe ∧ ∀ φ ∈ Ioi R, 0 < P.dV φ := by
  rcases hP with ⟨q, hL, rfl, rfl, rfl, hΦ0, h64⟩ | ⟨s, hL, rfl, rfl, rfl, h64⟩
  · obtain ⟨R, hR⟩ : ∃ R, R = √(64 / δ) := ⟨_, rfl⟩
    have hR2 : R ^ 2 = 64 / δ := by rw [hR]; exact sq_sqrt (by positivity)
    have hR0 : 0 < R := by rw [hR]; exact sqrt_pos.2 (by positivity)
    have hRΦ : R < Φ := by
      have : R ^ 2 < Φ ^ 2 := by rw [hR2, div_lt_iff₀ hδ0]; linarith
      exact lt_of_pow_lt_pow_left₀ 2 hΦ0.le this
    have hL4 : 0 < q.Lambda ^ 4 := by positivity
    have c := C01_quadratic q
    exact ⟨R, q.get_epsilon_2V, q.phi_end, hR0, hRΦ, quadratic_flat q hL hR0 (by rw [hR2]; field_simp; norm_num), fun φ _ => c.d1 φ trivial, fun φ _ => c.d2 φ trivial,
      (C06_quadratic q hL).mono (fun φ (hφ : R < φ) => hR0.trans hφ), fun φ (hφ : R < φ) => by
        have := hR0.trans hφ
        show 0 < 2 * q.Lambda ^ 4 * φ
        positivity⟩
  · have hg : 0 < Starobinsky.gamma := sqrt_pos.mpr (by norm_num)
    have h64' : 0 < 1 + 64 / δ := by positivity
    obtain ⟨R, hR⟩ : ∃ R, R = log (1 + 64 / δ) / Starobinsky.gamma := ⟨_, rfl⟩
    have hRe : exp (Starobinsky.gamma * R) = 1 + 64 / δ := by rw [hR, mul_div_cancel₀ _ hg.ne', exp_log h64']
    obtain ⟨hD, hR0, hsl⟩ := starobinsky_flat s hL (δ := δ / 16) (R := R) (by positivity) (by linarith) (by rw [hRe, div_div_eq_mul_div]; norm_num)
    have hRΦ : R < Φ := by
      rw [← hRe, exp_lt_exp] at h64
      exact lt_of_mul_lt_mul_left h64 hg.le
    have c := C01_starobinsky s
    exact ⟨R, s.get_epsilon_2V, s.phi_end, hR0, hRΦ, hD, fun φ _ => c.d1 φ trivial, fun φ _ => c.d2 φ trivial,
      (C06_starobinsky s hL).mono (fun φ (hφ : R < φ) => hR0.trans hφ), hsl⟩

/-- **C86, shipped potentials.**  Quadratic (`64 < δ Φ²`) and Starobinsky (`1 + 64/δ < e^{γΦ}`) inflation, flat universe, cosmic time, `SlowRollIC` at any `phi_i > Φ`: the
background exists for ever and rolls slowly down to `Φ`, taking `sr_phi2N(phi_i) - sr_phi2N(Φ)` e-folds up to the relative error `δ/5`. -/
theorem C86_builtin {δ : ℝ} (hδ0 : 0 < δ) (hδ : δ ≤ 1 / 20) {P : PotFns} {e1V Nsr : ℝ → ℝ} {Φ : ℝ}
    (hP : (∃ q : Quadratic, q.Lambda ≠ 0 ∧ P = q.fns ∧ e1V = q.get_epsilon_1V ∧ Nsr = q.sr_phi2N ∧ 0 < Φ ∧ 64 < δ * Φ ^ 2) ∨
      (∃ s : Starobinsky, s.Lambda ≠ 0 ∧ P = s.fns ∧ e1V = s.get_epsilon_1V ∧ Nsr = s.sr_phi2N ∧ 1 + 64 / δ < exp (Starobinsky.gamma * Φ)))
    (track_eta : Bool) (a : ICArgs) (n0 : ℝ) (hn : a.N_i = some n0) (hΩ : a.Omega_Ki = none) (hΦ : Φ < a.phi_i) (heta : track_eta = true → a.eta_i ≠ none) (t0 : ℝ) (y0 : ℕ → Option ℝ) :
    ∃ ic y, SlowRollIC.init (.T ⟨0, P, track_eta⟩) a = .ok ic ∧ SlowRollIC.call (.T ⟨0, P, track_eta⟩) ic y0 = .ok y ∧
      (∃ b < t0, ∃ Y : ℝ → ℕ → ℝ, SolvesODE (Ioi b) (InflT.mk 0 P track_eta).rows (InflT.mk 0 P track_eta).call Y ∧
        (∀ t > b, 0 < (InflT.mk 0 P track_eta).H2 (Y t)) ∧ Numbers y (Y t0) 3) ∧
      ∀ (Y : ℝ → ℕ → ℝ), ∀ b < t0, SolvesODE (Ioi b) (InflT.mk 0 P track_eta).rows (InflT.mk 0 P track_eta).call Y →
        (∀ t > b, 0 < (InflT.mk 0 P track_eta).H2 (Y t)) → Numbers y (Y t0) 3 →
        InflT.phi (Y t0) = a.phi_i ∧ InflT._N (Y t0) = n0 ∧
        SlowDescent δ (Ioi 0) e1V Nsr (fun t => (InflT.mk 0 P track_eta).H (Y t)) (fun t => InflT._N (Y t)) (fun t => InflT.phi (Y t)) (fun t => (InflT.mk 0 P track_eta).H (Y t)) t0 Φ := by
  obtain ⟨R, e2V, φe, hR0, hRΦ, hD, hV, hV2, hN, hsl⟩ := builtin_flat hδ0 hδ hP
  obtain ⟨ic, y, a1, a2, ⟨z, z1, z2⟩, a3⟩ := C86_slowrollic_time hδ0 hδ ⟨0, P, track_eta⟩ rfl hD hV hV2 hN (s := 1) (Φ := Φ) (Or.inl rfl) (fun φ hφ => by rw [one_mul]; exact hsl φ hφ)
    a n0 hn hΩ (by rw [one_mul, one_mul]; exact hΦ) (fun x hx => by rw [uIcc_of_le hΦ.le] at hx; exact hRΦ.trans_le hx.1) heta y0
  refine ⟨ic, y, a1, a2, ?_, fun Y b hb sol hH hY => ?_⟩
  · obtain ⟨b, hb, Y, hY0, sol, hH⟩ := C76_builtin P (by
      rcases hP with ⟨q, -, rfl, -⟩ | ⟨s, -, rfl, -⟩
      · exact Or.inl ⟨q, rfl⟩
      · exact Or.inr (Or.inl ⟨s, rfl⟩)) (K := 0) le_rfl track_eta t0 z z2
    refine ⟨b, hb, Y, sol, hH, fun i hi => ?_⟩
    rw [hY0 i (by rw [InflT.rows_eq]; split <;> omega)]
    exact z1 i hi
  · obtain ⟨p1, p2, t1, h1, h2, h3, ⟨η, h4, e1, e2, d2, h5, h6⟩, h7⟩ := a3 Y b t0 hb sol hH hY
    exact ⟨p1, p2, t1, h1, h2, h3, ⟨η, h4, e1, e2, d2, h5, fun t ht => ⟨hR0.trans (h6 t ht).1, (h6 t ht).2⟩⟩, h7⟩

/-- Hypotheses met: `m²φ²` inflation from `phi_i = 200` to `Φ = 100`, accuracy `δ = 1/20`. -/
example : ((0 : ℝ) < 100 ∧ (64 : ℝ) < 1 / 20 * 100 ^ 2) ∧ (100 : ℝ) < 200 := by norm_num

/-- Hypotheses met in e-folds: the exponential potential `e^{-qφ}`, `0 < q`, `q² ≤ δ/8`; the field rolls to larger values (`s = -1`), from 0 to 1 and beyond, and the
background exists. -/
example {δ q : ℝ} (hδ0 : 0 < δ) (hδ : δ ≤ 1 / 20) (hq : 0 < q) (hqδ : q ^ 2 ≤ δ / 8) : ∃ (Y : ℝ → ℕ → ℝ) (b : ℝ), b < 0 ∧
    SolvesODE (Ioi b) 2 (InflN.mk 0 (Pert.expPotQ q 1) false false).call Y ∧
    SlowDescent δ univ (fun _ => q ^ 2 / 2) (fun φ => -φ / q) (fun _ => 1) (fun n => n) (fun n => InflN.phi (Y n)) (fun n => (InflN.mk 0 (Pert.expPotQ q 1) false false).H n (Y n)) 0 1 := by
  obtain ⟨d1, d2⟩ := Pert.expPotQ_d1 q 1
  have d3 : IsDerivOn univ (Pert.expPotQ q 1).d2V (Pert.expPotQ q 1).d3V := fun φ _ => by
    show HasDerivAt (fun φ => q ^ 2 * 1 * exp (-(q * φ))) (-q ^ 3 * 1 * exp (-(q * φ))) φ
    refine ((((hasDerivAt_id φ).const_mul q).fun_neg.exp).const_mul (q ^ 2 * 1)).congr_deriv ?_
    simp only [id]
    ring
  have hpos : ∀ φ, 0 < (Pert.expPotQ q 1).V φ := fun φ => by
    show 0 < 1 * exp (-(q * φ))
    positivity
  have hr : ∀ φ, (Pert.expPotQ q 1).dV φ / (Pert.expPotQ q 1).V φ = -q := fun φ => by
    show -q * 1 * exp (-(q * φ)) / (1 * exp (-(q * φ))) = -q
    have := exp_pos (-(q * φ))
    field_simp
  have hneg : ∀ φ, (Pert.expPotQ q 1).dV φ < 0 := fun φ => by
    show -q * 1 * exp (-(q * φ)) < 0
    have := mul_pos hq (exp_pos (-(q * φ)))
    linarith
  have hD : IsSlowRollPotential (δ / 16) univ (Pert.expPotQ q 1).V (Pert.expPotQ q 1).dV (fun _ => q ^ 2 / 2) (fun _ => 0) :=
    ⟨isOpen_univ, fun φ _ => hpos φ, fun φ _ => (hneg φ).ne, fun φ _ => by rw [hr, neg_sq], fun φ _ => (hasDerivAt_const φ _).congr_deriv (by ring),
      fun φ _ => ⟨by linarith, by rw [abs_zero]; positivity⟩⟩
  have hN : EfoldCount univ (Pert.expPotQ q 1).V (Pert.expPotQ q 1).dV (fun φ => -φ / q) 0 :=
    ⟨by simp, fun φ _ => ((hasDerivAt_id φ).fun_neg.div_const q).congr_deriv (by rw [← inv_div ((Pert.expPotQ q 1).dV φ), hr]; field_simp)⟩
  obtain ⟨ic, y, -, -, -, ⟨z, z1, z2⟩, key⟩ := C86_slowrollic_efolds hδ0 hδ ⟨0, Pert.expPotQ q 1, false, false⟩ rfl hD d1 (subset_univ _) d2 hN (s := -1) (Φ := 1) (Or.inr rfl)
    (fun φ _ => by have := hneg φ; show 0 < -1 * (Pert.expPotQ q 1).dV φ; linarith) ⟨0, none, none, 1, some 0, none⟩ 0 rfl rfl (by norm_num) (subset_univ _) (by simp) (by simp) (fun _ => none)
  obtain ⟨b, hb, Y, hY0, sol, hH⟩ := C76_efolds (e := ⟨0, Pert.expPotQ q 1, false, false⟩) le_rfl d1 d2 d3 hpos 0 z z2
  refine ⟨Y, b, hb, sol, (key Y b hb sol (fun n hn => ⟨hH n hn, trivial⟩) (fun i hi => ?_)).2⟩
  rw [hY0 i hi]
  exact z1 i hi

end Primpy
