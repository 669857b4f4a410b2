import Verif.Lemmas.WellPosed
import Verif.Lemmas.Trajectory
import Verif.Lemmas.Exact
import Verif.Props.C19
import Verif.Props.C20
import Mathlib.Analysis.SpecialFunctions.Sqrt
import Mathlib.Analysis.SpecialFunctions.ExpDeriv

/-!
# C67: initial conditions determine the background
-/

namespace Primpy
open Real Set Spec Filter Topology

/-! ## The right-hand sides as vector fields -/

/-- The rows `phi, dphidt, _N` of the cosmic-time right-hand side. -/
noncomputable def InflT.field (e : InflT) (v : ℝ × ℝ × ℝ) : ℝ × ℝ × ℝ :=
  (v.2.1, -3 * √(T.get_H2 v.2.2 v.2.1 (e.pot.V v.1) e.K) * v.2.1 - e.pot.dV v.1, √(T.get_H2 v.2.2 v.2.1 (e.pot.V v.1) e.K))

/-- The rows `phi, dphidN` of the e-fold right-hand side, with the e-folds as a third coordinate. -/
noncomputable def InflN.field (e : InflN) (v : ℝ × ℝ × ℝ) : ℝ × ℝ × ℝ :=
  (v.2.1, N.get_d2phi (N.get_H2 v.2.2 v.2.1 (e.pot.V v.1) e.K)
      (N.get_dH_H v.2.2 (N.get_H2 v.2.2 v.2.1 (e.pot.V v.1) e.K) v.2.1 e.K) v.2.1 (e.pot.dV v.1), 1)

theorem contDiff_H2T {V : ℝ → ℝ} {K : ℝ} {v : ℝ × ℝ × ℝ} (hV : ContDiffAt ℝ 1 V v.1) :
    ContDiffAt ℝ 1 (fun v : ℝ × ℝ × ℝ => T.get_H2 v.2.2 v.2.1 (V v.1) K) v := by
  have h1 : ContDiffAt ℝ 1 (fun v : ℝ × ℝ × ℝ => V v.1) v := hV.comp v contDiff_fst.contDiffAt
  unfold T.get_H2
  fun_prop

theorem contDiff_H2N {V : ℝ → ℝ} {K : ℝ} {v : ℝ × ℝ × ℝ} (hV : ContDiffAt ℝ 1 V v.1) (h6 : 6 - v.2.1 ^ 2 ≠ 0) :
    ContDiffAt ℝ 1 (fun v : ℝ × ℝ × ℝ => N.get_H2 v.2.2 v.2.1 (V v.1) K) v := by
  have h1 : ContDiffAt ℝ 1 (fun v : ℝ × ℝ × ℝ => V v.1) v := hV.comp v contDiff_fst.contDiffAt
  unfold N.get_H2
  exact ContDiffAt.div (by fun_prop) (by fun_prop) h6

theorem InflT.field_contDiff (e : InflT) {v : ℝ × ℝ × ℝ} (hV : ContDiffAt ℝ 1 e.pot.V v.1) (hdV : ContDiffAt ℝ 1 e.pot.dV v.1)
    (hH : 0 < T.get_H2 v.2.2 v.2.1 (e.pot.V v.1) e.K) : ContDiffAt ℝ 1 e.field v := by
  have h1 : ContDiffAt ℝ 1 (fun v : ℝ × ℝ × ℝ => e.pot.dV v.1) v := hdV.comp v contDiff_fst.contDiffAt
  have h2 := (contDiff_H2T (K := e.K) hV).sqrt hH.ne'
  unfold InflT.field
  fun_prop

theorem InflN.field_contDiff (e : InflN) {v : ℝ × ℝ × ℝ} (hV : ContDiffAt ℝ 1 e.pot.V v.1) (hdV : ContDiffAt ℝ 1 e.pot.dV v.1)
    (hH : 0 < N.get_H2 v.2.2 v.2.1 (e.pot.V v.1) e.K) : ContDiffAt ℝ 1 e.field v := by
  have h1 : ContDiffAt ℝ 1 (fun v : ℝ × ℝ × ℝ => e.pot.dV v.1) v := hdV.comp v contDiff_fst.contDiffAt
  have h6 : 6 - v.2.1 ^ 2 ≠ 0 := by
    intro h; unfold N.get_H2 at hH; rw [h, div_zero] at hH; exact lt_irrefl _ hH
  have h2 := contDiff_H2N (K := e.K) hV h6
  have h3 : ContDiffAt ℝ 1 (fun v : ℝ × ℝ × ℝ => e.pot.dV v.1 / N.get_H2 v.2.2 v.2.1 (e.pot.V v.1) e.K) v := h1.div h2 hH.ne'
  have h4 : ContDiffAt ℝ 1 (fun v : ℝ × ℝ × ℝ => e.K * exp (-2 * v.2.2) / N.get_H2 v.2.2 v.2.1 (e.pot.V v.1) e.K) v :=
    ContDiffAt.div (by fun_prop) h2 hH.ne'
  unfold InflN.field N.get_d2phi N.get_dH_H
  fun_prop

/-! ## Uniqueness -/

section
variable {S D : Set ℝ}

theorem InflT.hasDerivAt_triple {e : InflT} {y : ℝ → ℕ → ℝ} (sol : SolvesODE S e.rows e.call y) {t : ℝ} (ht : t ∈ S) :
    HasDerivAt (fun t => (y t 0, y t 1, y t 2)) (e.field (y t 0, y t 1, y t 2)) t := by
  have r : 3 ≤ e.rows := by rw [InflT.rows_eq]; split <;> omega
  have h0 := sol t ht 0 (by omega)
  have h1 := sol t ht 1 (by omega)
  have h2 := sol t ht 2 (by omega)
  rw [InflT.call0] at h0
  rw [InflT.call1] at h1
  rw [InflT.call2] at h2
  exact h0.prodMk (h1.prodMk h2)

theorem InflN.hasDerivAt_triple {e : InflN} {y : ℝ → ℕ → ℝ} (sol : SolvesODE S e.rows e.call y) {n : ℝ} (hn : n ∈ S) :
    HasDerivAt (fun n => (y n 0, y n 1, n)) (e.field (y n 0, y n 1, n)) n := by
  have r : 2 ≤ e.rows := by rw [InflN.rows_eq]; omega
  have h0 := sol n hn 0 (by omega)
  have h1 := sol n hn 1 (by omega)
  rw [InflN.call0] at h0
  rw [InflN.call1] at h1
  exact h0.prodMk (h1.prodMk (hasDerivAt_id n))

/-- **C67, uniqueness (cosmic time).**  Any twice differentiable potential, any curvature: two solutions of the background equations on an
interval that agree in all rows at one time agree in all rows at all times. -/
theorem C67_time_unique (hS : IsOpen S) (hc : IsPreconnected S) (hD : IsOpen D) {e : InflT} {d3 : ℝ → ℝ}
    (h1 : IsDerivOn D e.pot.V e.pot.dV) (h2 : IsDerivOn D e.pot.dV e.pot.d2V) (h3 : IsDerivOn D e.pot.d2V d3) {y z : ℝ → ℕ → ℝ}
    (hy : SolvesODE S e.rows e.call y) (hz : SolvesODE S e.rows e.call z) (hH : ∀ t ∈ S, 0 < e.H2 (y t)) (hφ : ∀ t ∈ S, y t 0 ∈ D)
    {t0 : ℝ} (ht0 : t0 ∈ S) (h0 : ∀ i < e.rows, y t0 i = z t0 i) : ∀ t ∈ S, ∀ i < e.rows, y t i = z t i := by
  have r : 3 ≤ e.rows := by rw [InflT.rows_eq]; split <;> omega
  have key := unique_auto hS hc (F := e.field) (fun t ht => InflT.hasDerivAt_triple hy ht) (fun t ht => InflT.hasDerivAt_triple hz ht)
    (fun t ht => e.field_contDiff (contDiffAt_of_deriv hD h1 h2 (hφ t ht)) (contDiffAt_of_deriv hD h2 h3 (hφ t ht)) (hH t ht)) ht0
    (by rw [h0 0 (by omega), h0 1 (by omega), h0 2 (by omega)])
  have e0 : ∀ t ∈ S, y t 0 = z t 0 := fun t ht => congrArg Prod.fst (key t ht)
  have e1 : ∀ t ∈ S, y t 1 = z t 1 := fun t ht => congrArg (fun v => v.2.1) (key t ht)
  have e2 : ∀ t ∈ S, y t 2 = z t 2 := fun t ht => congrArg (fun v => v.2.2) (key t ht)
  intro t ht i hi
  have hi4 : i < 4 := by rw [InflT.rows_eq] at hi; split at hi <;> omega
  interval_cases i
  · exact e0 t ht
  · exact e1 t ht
  · exact e2 t ht
  · have he : e.track_eta = true := by by_contra hne; rw [InflT.rows_eq] at hi; simp [hne] at hi
    refine eq_of_same_deriv hS hc (f := fun t => y t 3) (g := fun t => z t 3) (f' := fun t => exp (-(y t 2))) (fun s hs => ?_) (fun s hs => ?_) ht0 (h0 3 hi) t ht
    · have := hy s hs 3 hi; rw [InflT.call3 _ he] at this; exact this
    · have := hz s hs 3 hi; rw [InflT.call3 _ he] at this; rw [e2 s hs]; exact this

/-- **C67, uniqueness (e-folds).** -/
theorem C67_efolds_unique (hS : IsOpen S) (hc : IsPreconnected S) (hD : IsOpen D) {e : InflN} {d3 : ℝ → ℝ}
    (h1 : IsDerivOn D e.pot.V e.pot.dV) (h2 : IsDerivOn D e.pot.dV e.pot.d2V) (h3 : IsDerivOn D e.pot.d2V d3) {y z : ℝ → ℕ → ℝ}
    (hy : SolvesODE S e.rows e.call y) (hz : SolvesODE S e.rows e.call z) (hH : ∀ n ∈ S, 0 < e.H2 n (y n)) (hφ : ∀ n ∈ S, y n 0 ∈ D)
    {n0 : ℝ} (hn0 : n0 ∈ S) (h0 : ∀ i < e.rows, y n0 i = z n0 i) : ∀ n ∈ S, ∀ i < e.rows, y n i = z n i := by
  have r : 2 ≤ e.rows := by rw [InflN.rows_eq]; omega
  have key := unique_auto hS hc (F := e.field) (fun t ht => InflN.hasDerivAt_triple hy ht) (fun t ht => InflN.hasDerivAt_triple hz ht)
    (fun t ht => e.field_contDiff (contDiffAt_of_deriv hD h1 h2 (hφ t ht)) (contDiffAt_of_deriv hD h2 h3 (hφ t ht)) (hH t ht)) hn0
    (by rw [h0 0 (by omega), h0 1 (by omega)])
  have e0 : ∀ t ∈ S, y t 0 = z t 0 := fun t ht => congrArg Prod.fst (key t ht)
  have e1 : ∀ t ∈ S, y t 1 = z t 1 := fun t ht => congrArg (fun v => v.2.1) (key t ht)
  have eH : ∀ t ∈ S, e.H t (y t) = e.H t (z t) := by
    intro t ht
    unfold InflN.H InflN.H2 InflN.V InflN.dphidN InflN.phi
    rw [e0 t ht, e1 t ht]
  have rowT : e.track_time = true → ∀ t ∈ S, y t 2 = z t 2 := by
    intro ht
    have h2r : 2 < e.rows := by rw [InflN.rows_eq, ht]; simp; omega
    refine eq_of_same_deriv hS hc (f := fun n => y n 2) (g := fun n => z n 2) (f' := fun n => 1 / e.H n (y n)) (fun s hs => ?_) (fun s hs => ?_) hn0 (h0 2 h2r)
    · have := hy s hs 2 h2r; rw [InflN.call_t _ ht] at this; exact this
    · have := hz s hs 2 h2r; rw [InflN.call_t _ ht] at this; rw [eH s hs]; exact this
  have rowE : e.track_eta = true → ∀ t ∈ S, y t e.etaRow = z t e.etaRow := by
    intro ht
    have h2r : e.etaRow < e.rows := by rw [InflN.rows_eq, ht]; unfold InflN.etaRow; split <;> simp
    refine eq_of_same_deriv hS hc (f := fun n => y n e.etaRow) (g := fun n => z n e.etaRow) (f' := fun n => exp (-n) / e.H n (y n)) (fun s hs => ?_) (fun s hs => ?_) hn0 (h0 _ h2r)
    · have := hy s hs _ h2r; rw [InflN.call_eta _ ht] at this; exact this
    · have := hz s hs _ h2r; rw [InflN.call_eta _ ht] at this; rw [eH s hs]; exact this
  intro t ht i hi
  by_cases i0 : i = 0
  · rw [i0]; exact e0 t ht
  by_cases i1 : i = 1
  · rw [i1]; exact e1 t ht
  by_cases i2 : i = 2 ∧ e.track_time = true
  · rw [i2.1]; exact rowT i2.2 t ht
  · have he : e.track_eta = true ∧ i = e.etaRow := by
      rw [InflN.rows_eq] at hi
      unfold InflN.etaRow
      cases ha : e.track_eta <;> cases hb : e.track_time <;> simp [ha, hb] at hi i2 ⊢ <;> omega
    rw [he.2]; exact rowE he.1 t ht


/-! ## Local existence -/

/-- The state of the cosmic-time solution as a sequence of rows. -/
def rowsT (v : (ℝ × ℝ × ℝ) × ℝ) (i : ℕ) : ℝ := if i = 0 then v.1.1 else if i = 1 then v.1.2.1 else if i = 2 then v.1.2.2 else v.2

/-- **C67, existence (cosmic time).**  From every initial state with a positive `H²` there is a solution, expanding and inside the domain of
the potential, on some interval around the initial time. -/
theorem C67_time_exists (hD : IsOpen D) {e : InflT} {d3 : ℝ → ℝ} (h1 : IsDerivOn D e.pot.V e.pot.dV) (h2 : IsDerivOn D e.pot.dV e.pot.d2V)
    (h3 : IsDerivOn D e.pot.d2V d3) (t0 : ℝ) (y0 : ℕ → ℝ) (hφ : y0 0 ∈ D) (hH : 0 < e.H2 y0) :
    ∃ ε > 0, ∃ y : ℝ → ℕ → ℝ, (∀ i < e.rows, y t0 i = y0 i) ∧ SolvesODE (Ioo (t0 - ε) (t0 + ε)) e.rows e.call y ∧
      ∀ t ∈ Ioo (t0 - ε) (t0 + ε), 0 < e.H2 (y t) ∧ y t 0 ∈ D := by
  obtain ⟨F, hF⟩ : ∃ F : (ℝ × ℝ × ℝ) × ℝ → (ℝ × ℝ × ℝ) × ℝ, F = fun v => (e.field v.1, exp (-v.1.2.2)) := ⟨_, rfl⟩
  obtain ⟨v0, hv0⟩ : ∃ v0 : (ℝ × ℝ × ℝ) × ℝ, v0 = ((y0 0, y0 1, y0 2), y0 3) := ⟨_, rfl⟩
  have cV := contDiffAt_of_deriv hD h1 h2 hφ
  have cd : ContDiffAt ℝ 1 F v0 := by
    have hfield : ContDiffAt ℝ 1 e.field v0.1 := by
      rw [hv0]; exact e.field_contDiff cV (contDiffAt_of_deriv hD h2 h3 hφ) hH
    have c1 : ContDiffAt ℝ 1 (fun v : (ℝ × ℝ × ℝ) × ℝ => e.field v.1) v0 := hfield.comp v0 contDiff_fst.contDiffAt
    rw [hF]
    exact c1.prodMk (by fun_prop)
  obtain ⟨α, hα0, ε, hε, hα⟩ := cd.exists_forall_mem_closedBall_exists_eq_forall_mem_Ioo_hasDerivAt₀ t0
  have hc : ContinuousAt α t0 := (hα t0 ⟨by linarith, by linarith⟩).continuousAt
  have g1 : ∀ᶠ t in 𝓝 t0, (α t).1.1 ∈ D := by
    have : ContinuousAt (fun t => (α t).1.1) t0 := by fun_prop
    exact this.eventually (hD.mem_nhds (by dsimp only; rw [hα0, hv0]; exact hφ))
  have g2 : ∀ᶠ t in 𝓝 t0, 0 < T.get_H2 (α t).1.2.2 (α t).1.2.1 (e.pot.V (α t).1.1) e.K := by
    have k : ContinuousAt (fun v : ℝ × ℝ × ℝ => T.get_H2 v.2.2 v.2.1 (e.pot.V v.1) e.K) (α t0).1 := by
      rw [hα0, hv0]; exact (contDiff_H2T cV).continuousAt
    have : ContinuousAt (fun t => (α t).1) t0 := by fun_prop
    have k' := k.comp (f := fun t => (α t).1) this
    refine k'.eventually (lt_mem_nhds ?_)
    simp only [Function.comp, hα0, hv0]; exact hH
  obtain ⟨δ, hδ, hball⟩ := Metric.eventually_nhds_iff_ball.1 (g1.and g2)
  rw [Real.ball_eq_Ioo] at hball
  have sub1 : ∀ t ∈ Ioo (t0 - min ε δ) (t0 + min ε δ), t ∈ Ioo (t0 - ε) (t0 + ε) := fun t ht =>
    ⟨by have := min_le_left ε δ; linarith [ht.1], by have := min_le_left ε δ; linarith [ht.2]⟩
  have sub2 : ∀ t ∈ Ioo (t0 - min ε δ) (t0 + min ε δ), t ∈ Ioo (t0 - δ) (t0 + δ) := fun t ht =>
    ⟨by have := min_le_right ε δ; linarith [ht.1], by have := min_le_right ε δ; linarith [ht.2]⟩
  have hr4 : ∀ i < e.rows, i < 4 := fun i hi => by rw [InflT.rows_eq] at hi; split at hi <;> omega
  refine ⟨min ε δ, lt_min hε hδ, fun t => rowsT (α t), fun i hi => ?_, fun t ht i hi => ?_, fun t ht => ?_⟩
  · have := hr4 i hi
    simp only [hα0, hv0]
    interval_cases i <;> rfl
  · have hd := hα t (sub1 t ht)
    rw [hF] at hd
    have d1 : HasDerivAt (fun t => (α t).1) (e.field (α t).1) t := (hasFDerivAt_fst.comp_hasDerivAt t hd :)
    have d2 : HasDerivAt (fun t => (α t).2) (exp (-(α t).1.2.2)) t := (hasFDerivAt_snd.comp_hasDerivAt t hd :)
    have d3 : HasDerivAt (fun t => (α t).1.2) (e.field (α t).1).2 t := (hasFDerivAt_snd.comp_hasDerivAt t d1 :)
    have := hr4 i hi
    interval_cases i
    · rw [InflT.call0]; exact (hasFDerivAt_fst.comp_hasDerivAt t d1 :)
    · rw [InflT.call1]; exact (hasFDerivAt_fst.comp_hasDerivAt t d3 :)
    · rw [InflT.call2]; exact (hasFDerivAt_snd.comp_hasDerivAt t d3 :)
    · have he : e.track_eta = true := by by_contra hne; rw [InflT.rows_eq] at hi; simp [hne] at hi
      rw [InflT.call3 _ he]; exact d2
  · exact ⟨(hball t (sub2 t ht)).2, (hball t (sub2 t ht)).1⟩

/-- The state of the e-fold solution as a sequence of rows. -/
def rowsN (tr : Bool) (v : (ℝ × ℝ × ℝ) × ℝ × ℝ) (i : ℕ) : ℝ :=
  if i = 0 then v.1.1 else if i = 1 then v.1.2.1 else if i = 2 ∧ tr = true then v.2.1 else v.2.2

/-- **C67, existence (e-folds).** -/
theorem C67_efolds_exists (hD : IsOpen D) {e : InflN} {d3 : ℝ → ℝ} (h1 : IsDerivOn D e.pot.V e.pot.dV) (h2 : IsDerivOn D e.pot.dV e.pot.d2V)
    (h3 : IsDerivOn D e.pot.d2V d3) (n0 : ℝ) (y0 : ℕ → ℝ) (hφ : y0 0 ∈ D) (hH : 0 < e.H2 n0 y0) :
    ∃ ε > 0, ∃ y : ℝ → ℕ → ℝ, (∀ i < e.rows, y n0 i = y0 i) ∧ SolvesODE (Ioo (n0 - ε) (n0 + ε)) e.rows e.call y ∧
      ∀ n ∈ Ioo (n0 - ε) (n0 + ε), 0 < e.H2 n (y n) ∧ y n 0 ∈ D := by
  obtain ⟨q, hq⟩ : ∃ q : ℝ × ℝ × ℝ → ℝ, q = fun v => N.get_H2 v.2.2 v.2.1 (e.pot.V v.1) e.K := ⟨_, rfl⟩
  obtain ⟨F, hF⟩ : ∃ F : (ℝ × ℝ × ℝ) × ℝ × ℝ → (ℝ × ℝ × ℝ) × ℝ × ℝ,
    F = fun v => (e.field v.1, 1 / √(q v.1), exp (-v.1.2.2) / √(q v.1)) := ⟨_, rfl⟩
  obtain ⟨v0, hv0⟩ : ∃ v0 : (ℝ × ℝ × ℝ) × ℝ × ℝ, v0 = ((y0 0, y0 1, n0), y0 2, y0 e.etaRow) := ⟨_, rfl⟩
  have cV := contDiffAt_of_deriv hD h1 h2 hφ
  have hH' : 0 < q v0.1 := by rw [hq, hv0]; exact hH
  have cq : ContDiffAt ℝ 1 q v0.1 := by
    rw [hq, hv0]; exact contDiff_H2N cV (InflN.six_ne hH)
  have cd : ContDiffAt ℝ 1 F v0 := by
    have hfield : ContDiffAt ℝ 1 e.field v0.1 := by
      rw [hv0]; exact e.field_contDiff cV (contDiffAt_of_deriv hD h2 h3 hφ) hH
    have c1 : ContDiffAt ℝ 1 (fun v : (ℝ × ℝ × ℝ) × ℝ × ℝ => e.field v.1) v0 := hfield.comp v0 contDiff_fst.contDiffAt
    have c2 : ContDiffAt ℝ 1 (fun v : (ℝ × ℝ × ℝ) × ℝ × ℝ => √(q v.1)) v0 := (cq.comp v0 contDiff_fst.contDiffAt).sqrt hH'.ne'
    have hne : √(q v0.1) ≠ 0 := (sqrt_pos.2 hH').ne'
    rw [hF]
    exact c1.prodMk ((ContDiffAt.div (by fun_prop) c2 hne).prodMk (ContDiffAt.div (by fun_prop) c2 hne))
  obtain ⟨α, hα0, ε, hε, hα⟩ := cd.exists_forall_mem_closedBall_exists_eq_forall_mem_Ioo_hasDerivAt₀ n0
  have hn0 : n0 ∈ Ioo (n0 - ε) (n0 + ε) := ⟨by linarith, by linarith⟩
  have hc : ContinuousAt α n0 := (hα n0 hn0).continuousAt
  have d1 : ∀ t ∈ Ioo (n0 - ε) (n0 + ε), HasDerivAt (fun t => (α t).1) (e.field (α t).1) t := fun t ht => by
    have hd := hα t ht
    rw [hF] at hd
    exact (hasFDerivAt_fst.comp_hasDerivAt t hd :)
  have d2 : ∀ t ∈ Ioo (n0 - ε) (n0 + ε), HasDerivAt (fun t => (α t).2) (1 / √(q (α t).1), exp (-(α t).1.2.2) / √(q (α t).1)) t := fun t ht => by
    have hd := hα t ht
    rw [hF] at hd
    exact (hasFDerivAt_snd.comp_hasDerivAt t hd :)
  have d3 : ∀ t ∈ Ioo (n0 - ε) (n0 + ε), HasDerivAt (fun t => (α t).1.2) (e.field (α t).1).2 t := fun t ht =>
    (hasFDerivAt_snd.comp_hasDerivAt t (d1 t ht) :)
  have clock : ∀ t ∈ Ioo (n0 - ε) (n0 + ε), (α t).1.2.2 = t :=
    eq_of_same_deriv isOpen_Ioo isPreconnected_Ioo (f := fun t => (α t).1.2.2) (g := fun t => t) (f' := fun _ => 1)
      (fun t ht => (hasFDerivAt_snd.comp_hasDerivAt t (d3 t ht) :)) (fun t _ => hasDerivAt_id t) hn0 (by rw [hα0, hv0])
  have g1 : ∀ᶠ t in 𝓝 n0, (α t).1.1 ∈ D := by
    have : ContinuousAt (fun t => (α t).1.1) n0 := by fun_prop
    exact this.eventually (hD.mem_nhds (by dsimp only; rw [hα0, hv0]; exact hφ))
  have g2 : ∀ᶠ t in 𝓝 n0, 0 < q (α t).1 := by
    have k : ContinuousAt q (α n0).1 := by rw [hα0]; exact cq.continuousAt
    have : ContinuousAt (fun t => (α t).1) n0 := by fun_prop
    have k' := k.comp (f := fun t => (α t).1) this
    refine k'.eventually (lt_mem_nhds ?_)
    simp only [Function.comp, hα0]; exact hH'
  obtain ⟨δ, hδ, hball⟩ := Metric.eventually_nhds_iff_ball.1 (g1.and g2)
  rw [Real.ball_eq_Ioo] at hball
  have sub1 : ∀ t ∈ Ioo (n0 - min ε δ) (n0 + min ε δ), t ∈ Ioo (n0 - ε) (n0 + ε) := fun t ht =>
    ⟨by have := min_le_left ε δ; linarith [ht.1], by have := min_le_left ε δ; linarith [ht.2]⟩
  have sub2 : ∀ t ∈ Ioo (n0 - min ε δ) (n0 + min ε δ), t ∈ Ioo (n0 - δ) (n0 + δ) := fun t ht =>
    ⟨by have := min_le_right ε δ; linarith [ht.1], by have := min_le_right ε δ; linarith [ht.2]⟩
  have eH2 : ∀ t ∈ Ioo (n0 - ε) (n0 + ε), e.H2 t (rowsN e.track_time (α t)) = q (α t).1 := by
    intro t ht
    rw [hq]; dsimp only; rw [clock t ht]; rfl
  refine ⟨min ε δ, lt_min hε hδ, fun t => rowsN e.track_time (α t), fun i hi => ?_, fun t ht i hi => ?_, fun t ht => ?_⟩
  · simp only [hα0, hv0]
    unfold rowsN
    split_ifs with a b c
    · rw [a]
    · rw [b]
    · rw [c.1]
    · have : i = e.etaRow := by
        rw [InflN.rows_eq] at hi
        unfold InflN.etaRow
        cases ha : e.track_eta <;> cases hb : e.track_time <;> simp [ha, hb] at hi c ⊢ <;> omega
      rw [this]
  · have ht' := sub1 t ht
    have hHt : e.H t (rowsN e.track_time (α t)) = √(q (α t).1) := by rw [InflN.H, eH2 t ht']
    by_cases i0 : i = 0
    · subst i0
      rw [InflN.call0]
      exact (hasFDerivAt_fst.comp_hasDerivAt t (d1 t ht') :)
    by_cases i1 : i = 1
    · subst i1
      rw [InflN.call1]
      have := (hasFDerivAt_fst.comp_hasDerivAt t (d3 t ht') :)
      refine HasDerivAt.congr_deriv this ?_
      unfold InflN.field
      simp only [clock t ht']
      rfl
    by_cases i2 : i = 2 ∧ e.track_time = true
    · obtain ⟨rfl, htr⟩ := i2
      rw [InflN.call_t _ htr, hHt]
      have := (hasFDerivAt_fst.comp_hasDerivAt t (d2 t ht') :)
      refine HasDerivAt.congr_of_eventuallyEq (f := fun s => (α s).2.1) this ?_
      filter_upwards with s
      simp [rowsN, htr]
    · have he : e.track_eta = true ∧ i = e.etaRow := by
        rw [InflN.rows_eq] at hi
        unfold InflN.etaRow
        cases ha : e.track_eta <;> cases hb : e.track_time <;> simp [ha, hb] at hi i2 ⊢ <;> omega
      have hcall := InflN.call_eta e he.1 t (rowsN e.track_time (α t))
      rw [← he.2] at hcall
      rw [hcall, hHt]
      have := (hasFDerivAt_snd.comp_hasDerivAt t (d2 t ht') :)
      refine HasDerivAt.congr_of_eventuallyEq (f := fun s => (α s).2.2) (this.congr_deriv ?_) ?_
      · simp only [clock t ht']; rfl
      · filter_upwards with s
        simp only [rowsN, if_neg i0, if_neg i1, if_neg i2]
  · rw [eH2 t (sub1 t ht)]
    exact ⟨(hball t (sub2 t ht)).2, (hball t (sub2 t ht)).1⟩


/-! ## The two formulations -/

/-- A strictly increasing continuous function on an open interval has a continuous inverse on its open range. -/
theorem exists_inverse {S : Set ℝ} (hS : IsOpen S) (hc : IsPreconnected S) {f : ℝ → ℝ} (hf : StrictMonoOn f S) (hcont : ContinuousOn f S) :
    IsOpen (f '' S) ∧ ∃ g : ℝ → ℝ, (∀ t ∈ S, g (f t) = t) ∧ (∀ n ∈ f '' S, g n ∈ S ∧ f (g n) = n) ∧ ∀ n ∈ f '' S, ContinuousAt g n := by
  have ho : IsOpen (f '' S) := by
    rw [isOpen_iff_mem_nhds]
    rintro _ ⟨t, ht, rfl⟩
    obtain ⟨ε, hε, hb⟩ := Metric.isOpen_iff.1 hS t ht
    rw [Real.ball_eq_Ioo] at hb
    have ha : t - ε / 2 ∈ S := hb ⟨by linarith, by linarith⟩
    have hb' : t + ε / 2 ∈ S := hb ⟨by linarith, by linarith⟩
    have hsub : Icc (t - ε / 2) (t + ε / 2) ⊆ S := hc.ordConnected.out ha hb'
    have iv := intermediate_value_Icc (by linarith : t - ε / 2 ≤ t + ε / 2) (hcont.mono hsub)
    refine mem_of_superset (Icc_mem_nhds (hf ha ht (by linarith)) (hf ht hb' (by linarith))) (iv.trans (image_mono hsub))
  refine ⟨ho, Function.invFunOn f S, fun t ht => ?_, fun n hn => ⟨Function.invFunOn_mem hn, Function.invFunOn_eq hn⟩, ?_⟩
  · have hm : f t ∈ f '' S := ⟨t, ht, rfl⟩
    exact hf.injOn (Function.invFunOn_mem hm) ht (Function.invFunOn_eq hm)
  · intro n hn
    have left : ∀ t ∈ S, Function.invFunOn f S (f t) = t := fun t ht =>
      hf.injOn (Function.invFunOn_mem ⟨t, ht, rfl⟩) ht (Function.invFunOn_eq ⟨t, ht, rfl⟩)
    refine continuousAt_of_monotoneOn_of_image_mem_nhds (s := f '' S) ?_ (ho.mem_nhds hn) ?_
    · rintro _ ⟨a, ha, rfl⟩ _ ⟨b, hb, rfl⟩ hab
      rw [left a ha, left b hb]
      exact (hf.le_iff_le ha hb).1 hab
    · refine mem_of_superset (hS.mem_nhds (Function.invFunOn_mem hn)) fun t ht => ⟨f t, ⟨t, ht, rfl⟩, left t ht⟩

/-- **C67, the two formulations.**  A cosmic-time run and an e-fold run that start from the same initial state (field, field velocity, e-folds, and
the tracked times where tracked by both) describe the same universe: whenever the cosmic-time solution has reached `N` e-folds, the e-fold solution at
`N` has the same field, velocity, Hubble parameter, cosmic and conformal time. -/
theorem C67_same_universe {S' : Set ℝ} (hS : IsOpen S) (hc : IsPreconnected S) (hD : IsOpen D) {eT : InflT} {eN : InflN} {d3 : ℝ → ℝ}
    (hK : eN.K = eT.K) (hpot : eN.pot = eT.pot) (heta : eN.track_eta = true → eT.track_eta = true)
    (h1 : IsDerivOn D eT.pot.V eT.pot.dV) (h2 : IsDerivOn D eT.pot.dV eT.pot.d2V) (h3 : IsDerivOn D eT.pot.d2V d3)
    {yT yN : ℝ → ℕ → ℝ} (solT : SolvesODE S eT.rows eT.call yT) (hH : ∀ t ∈ S, 0 < eT.H2 (yT t)) (hφ : ∀ t ∈ S, yT t 0 ∈ D)
    (hV0 : ∀ t ∈ S, eT.pot.V (yT t 0) ≠ 3 * eT.K * exp (-2 * yT t 2))
    (solN : SolvesODE S' eN.rows eN.call yN) (hS' : ∀ t ∈ S, yT t 2 ∈ S')
    {t0 : ℝ} (ht0 : t0 ∈ S) (i0 : yN (yT t0 2) 0 = yT t0 0) (i1 : eT.H (yT t0) * yN (yT t0 2) 1 = yT t0 1)
    (i2 : eN.track_time = true → yN (yT t0 2) 2 = t0) (i3 : eN.track_eta = true → yN (yT t0 2) eN.etaRow = yT t0 3) :
    ∀ t ∈ S, yN (yT t 2) 0 = yT t 0 ∧ eT.H (yT t) * yN (yT t 2) 1 = yT t 1 ∧ eN.H (yT t 2) (yN (yT t 2)) = eT.H (yT t) ∧
      (eN.track_time = true → yN (yT t 2) 2 = t) ∧ (eN.track_eta = true → yN (yT t 2) eN.etaRow = yT t 3) := by
  have u := InflT.universe solT hH
  have hmono : StrictMonoOn (fun t => yT t 2) S := C20_N_T hS hc.ordConnected.convex solT hH
  have hcont : ContinuousOn (fun t => yT t 2) S := fun t ht => (u.hubble t ht).continuousAt.continuousWithinAt
  obtain ⟨ho, τ, left, right, τc⟩ := exists_inverse hS hc hmono hcont
  obtain ⟨z, hz⟩ : ∃ z : ℝ → ℕ → ℝ, z = fun n i => if i = 0 then yT (τ n) 0 else if i = 1 then yT (τ n) 1 / eT.H (yT (τ n))
      else if i = 2 ∧ eN.track_time = true then τ n else yT (τ n) 3 := ⟨_, rfl⟩
  have solz : SolvesODE ((fun t => yT t 2) '' S) eN.rows eN.call z := by
    rw [hz]; exact C19_time_to_efolds hS ho hK hpot heta solT hH h1 hφ hV0 right τc
  have solN' : SolvesODE ((fun t => yT t 2) '' S) eN.rows eN.call yN := by
    rintro _ ⟨t, ht, rfl⟩; exact solN _ (hS' t ht)
  have same : ∀ n ∈ (fun t => yT t 2) '' S, SameState eT eN (yT (τ n)) n (z n) := by
    intro n hn
    refine ⟨hK, hpot, ?_, (right n hn).2.symm, ?_⟩ <;> rw [hz] <;> rfl
  have hHz : ∀ n ∈ (fun t => yT t 2) '' S, 0 < eN.H2 n (z n) := by
    intro n hn
    obtain ⟨e1, -⟩ := C16_state (same n hn) (hH _ (right n hn).1) (hV0 _ (right n hn).1)
    rw [e1]; exact hH _ (right n hn).1
  have hp := u.expanding
  have hpi : IsPreconnected ((fun t => yT t 2) '' S) := hc.image _ hcont
  have etaCase : ∀ i < eN.rows, ¬ i = 0 → ¬ i = 1 → ¬ (i = 2 ∧ eN.track_time = true) → eN.track_eta = true ∧ i = eN.etaRow := by
    intro i hi a b c
    rw [InflN.rows_eq] at hi
    unfold InflN.etaRow
    cases ha : eN.track_eta <;> cases hb : eN.track_time <;> simp [ha, hb] at hi c ⊢ <;> omega
  have key := C67_efolds_unique ho hpi hD (e := eN) (hpot ▸ h1) (hpot ▸ h2) (hpot ▸ h3) solz solN' hHz
    (fun n hn => by rw [hz]; exact hφ _ (right n hn).1) (mem_image_of_mem _ ht0) (by
      intro i hi
      have l0 := left t0 ht0
      rw [hz]
      dsimp only
      rw [l0]
      split_ifs with a b c
      · rw [a, i0]
      · rw [b, ← i1, mul_comm, mul_div_assoc, div_self (hp t0 ht0).ne', mul_one]
      · rw [c.1, i2 c.2]
      · obtain ⟨he, rfl⟩ := etaCase i hi a b c
        rw [i3 he])
  intro t ht
  have hm : yT t 2 ∈ (fun t => yT t 2) '' S := mem_image_of_mem _ ht
  have l := left t ht
  have k := key _ hm
  rw [hz] at k
  dsimp only at k
  rw [l] at k
  have r : 2 ≤ eN.rows := by rw [InflN.rows_eq]; omega
  have k0 : yT t 0 = yN (yT t 2) 0 := k 0 (by omega)
  have k1 : yT t 1 / eT.H (yT t) = yN (yT t 2) 1 := k 1 (by omega)
  refine ⟨k0.symm, ?_, ?_, fun htr => ?_, fun he => ?_⟩
  · rw [← k1, mul_div_cancel₀ _ (hp t ht).ne']
  · obtain ⟨-, e2, -⟩ := C16_state (same _ hm) (hH _ (right _ hm).1) (hV0 _ (right _ hm).1)
    rw [l] at e2
    rw [← e2]
    unfold InflN.H InflN.H2 InflN.V InflN.dphidN InflN.phi
    rw [key _ hm 0 (by omega), key _ hm 1 (by omega)]
  · have := k 2 (by rw [InflN.rows_eq, htr]; simp; omega)
    rw [if_neg (by decide), if_neg (by decide), if_pos ⟨rfl, htr⟩] at this
    exact this.symm
  · have hr : eN.etaRow < eN.rows := by rw [InflN.rows_eq, he]; unfold InflN.etaRow; split <;> simp
    have := k _ hr
    have n0 : eN.etaRow ≠ 0 := by unfold InflN.etaRow; split <;> decide
    have n1 : eN.etaRow ≠ 1 := by unfold InflN.etaRow; split <;> decide
    have n2 : ¬ (eN.etaRow = 2 ∧ eN.track_time = true) := by
      rintro ⟨a, b⟩; unfold InflN.etaRow at a; rw [b] at a; simp at a
    rw [if_neg n0, if_neg n1, if_neg n2] at this
    exact this.symm
end

/-! ## Non-vacuity -/

/-- The flat power-law universe is the only solution with its state at `t = 1`. -/
example (z : ℝ → ℕ → ℝ) (hz : SolvesODE (Ioi 0) Exact.flatT.rows Exact.flatT.call z) (h : ∀ i < Exact.flatT.rows, Exact.yFlatT 1 i = z 1 i) :
    ∀ t > 0, ∀ i < Exact.flatT.rows, Exact.yFlatT t i = z t i :=
  C67_time_unique (D := univ) isOpen_Ioi isPreconnected_Ioi isOpen_univ (Exact.expPot_chain _).d1 (Exact.expPot_chain _).d2 (Exact.expPot_chain _).d3
    Exact.flatT_sol hz (fun t ht => by rw [Exact.flatT_H2 ht]; have : (0 : ℝ) < t := ht; positivity) (fun _ _ => mem_univ _)
    (show (1 : ℝ) ∈ Ioi 0 from Set.mem_Ioi.2 one_pos) h

/-- Existence: any field value, velocity and e-folds in that universe. -/
example (φ p n : ℝ) : ∃ ε > 0, ∃ y : ℝ → ℕ → ℝ, (y 0 0 = φ ∧ y 0 1 = p ∧ y 0 2 = n) ∧
    SolvesODE (Ioo (0 - ε) (0 + ε)) Exact.flatT.rows Exact.flatT.call y := by
  obtain ⟨ε, hε, y, h0, hs, -⟩ := C67_time_exists (D := univ) (e := Exact.flatT) isOpen_univ (Exact.expPot_chain _).d1 (Exact.expPot_chain _).d2
    (Exact.expPot_chain _).d3 0 (fun i => if i = 0 then φ else if i = 1 then p else if i = 2 then n else 0) (mem_univ _) (by
      simp only [InflT.H2, T.get_H2, InflT.V, Exact.flatT, Exact.expPot, zero_mul, sub_zero]
      have := exp_pos (-φ)
      positivity)
  have r : Exact.flatT.rows = 4 := by rw [InflT.rows_eq]; rfl
  exact ⟨ε, hε, y, ⟨by simpa using h0 0 (by omega), by simpa using h0 1 (by omega), by simpa using h0 2 (by omega)⟩, hs⟩

/-- The closed universe `a = t`, both formulations, all rows tracked: the hypotheses of `C67_same_universe` are met. -/
example : ∀ t > 0, Exact.yCurvedN (Exact.yCurvedT t 2) 0 = Exact.yCurvedT t 0 := by
  have one : (1 : ℝ) ∈ Ioi (0 : ℝ) := Set.mem_Ioi.2 one_pos
  intro t ht
  refine (C67_same_universe (S := Ioi 0) (S' := univ) (D := univ) (eT := Exact.curvedT) (eN := Exact.curvedN) isOpen_Ioi isPreconnected_Ioi isOpen_univ
    rfl rfl (fun _ => rfl) (Exact.expPot_chain _).d1 (Exact.expPot_chain _).d2 (Exact.expPot_chain _).d3 Exact.curvedT_sol
    (fun t ht => by rw [Exact.curvedT_H2 ht]; have : (0 : ℝ) < t := ht; positivity) (fun _ _ => mem_univ _) (fun t ht => ?_) Exact.curvedN_sol
    (fun _ _ => mem_univ _) one ?_ ?_ ?_ ?_ t ht).1
  · have h : (0 : ℝ) < t := ht
    simp only [Exact.curvedT, Exact.expPot, Exact.yCurvedT]
    have := exp_pos (-(2 * log t))
    rw [show -2 * log t = -(2 * log t) by ring]
    intro h'; linarith
  · simp [Exact.yCurvedN, Exact.yCurvedT]
  · rw [Exact.curvedT_H one]; simp [Exact.yCurvedN, Exact.yCurvedT]
  · intro _; simp [Exact.yCurvedN, Exact.yCurvedT]
  · intro _; simp [Exact.yCurvedN, Exact.yCurvedT, Exact.curvedN, InflN.etaRow]
end Primpy
