import Verif.Lemmas.GlobalODE
import Verif.Props.C67
import Verif.Props.C02
import Verif.Props.C69
import Mathlib.Analysis.Calculus.MeanValue

/-!
# C76: backgrounds exist for all later times
-/

namespace Primpy
open Real Set Spec Filter Topology

/-- bound of a function by its derivative on `[t0, T)` -/
theorem abs_sub_le_of_deriv {f f' : ℝ → ℝ} {t0 T M : ℝ} (hf : ∀ t ∈ Ico t0 T, HasDerivAt f (f' t) t) (hM : ∀ t ∈ Ico t0 T, |f' t| ≤ M)
    {t : ℝ} (ht : t ∈ Ico t0 T) : |f t - f t0| ≤ M * |T - t0| := by
  have h0 : t0 ∈ Ico t0 T := ⟨le_rfl, ht.1.trans_lt ht.2⟩
  have := (convex_Ico t0 T).norm_image_sub_le_of_norm_hasDerivWithin_le (f := f) (f' := f') (C := M)
    (fun s hs => (hf s hs).hasDerivWithinAt) (fun s hs => hM s hs) h0 ht
  rw [Real.norm_eq_abs, Real.norm_eq_abs] at this
  have hM0 : 0 ≤ M := (abs_nonneg _).trans (hM t0 h0)
  refine this.trans (mul_le_mul_of_nonneg_left ?_ hM0)
  rw [abs_of_nonneg (by linarith [ht.1]), abs_of_nonneg (by linarith [ht.1, ht.2])]
  linarith [ht.2]

theorem antitone_Ico {f f' : ℝ → ℝ} {t0 T : ℝ} (hf : ∀ t ∈ Ico t0 T, HasDerivAt f (f' t) t) (hn : ∀ t ∈ Ico t0 T, f' t ≤ 0)
    {t : ℝ} (ht : t ∈ Ico t0 T) : f t ≤ f t0 := by
  have h0 : t0 ∈ Ico t0 T := ⟨le_rfl, ht.1.trans_lt ht.2⟩
  have : AntitoneOn f (Ico t0 T) := antitoneOn_of_deriv_nonpos (convex_Ico _ _)
    (fun s hs => (hf s hs).continuousAt.continuousWithinAt)
    (fun s hs => (hf s (interior_subset hs)).differentiableAt.differentiableWithinAt)
    (fun s hs => by rw [(hf s (interior_subset hs)).deriv]; exact hn s (interior_subset hs))
  exact this h0 ht ht.1

/-- `H²` as a function of the state (cosmic time). -/
noncomputable def InflT.h2 (e : InflT) (v : ℝ × ℝ × ℝ) : ℝ := T.get_H2 v.2.2 v.2.1 (e.pot.V v.1) e.K

/-- **C76, cosmic time.**  Flat or open universe, non-negative potential on the whole line (three times differentiable).  From every
expanding initial state the background exists for all later times, and keeps expanding: no `t_end` is out of reach. -/
theorem C76_time {e : InflT} (hK : e.K ≤ 0) {d3 : ℝ → ℝ} (h1 : IsDerivOn univ e.pot.V e.pot.dV) (h2 : IsDerivOn univ e.pot.dV e.pot.d2V)
    (h3 : IsDerivOn univ e.pot.d2V d3) (hV : ∀ φ, 0 ≤ e.pot.V φ) (t0 : ℝ) (y0 : ℕ → ℝ) (hH : 0 < e.H2 y0) :
    ∃ a < t0, ∃ y : ℝ → ℕ → ℝ, (∀ i < e.rows, y t0 i = y0 i) ∧ SolvesODE (Ioi a) e.rows e.call y ∧ ∀ t > a, 0 < e.H2 (y t) := by
  obtain ⟨F, hF⟩ : ∃ F : (ℝ × ℝ × ℝ) × ℝ → (ℝ × ℝ × ℝ) × ℝ, F = fun v => (e.field v.1, exp (-v.1.2.2)) := ⟨_, rfl⟩
  obtain ⟨v0, hv0⟩ : ∃ v0 : (ℝ × ℝ × ℝ) × ℝ, v0 = ((y0 0, y0 1, y0 2), y0 3) := ⟨_, rfl⟩
  have cV : ∀ φ, ContDiffAt ℝ 1 e.pot.V φ := fun φ => contDiffAt_of_deriv isOpen_univ h1 h2 trivial
  have cdV : ∀ φ, ContDiffAt ℝ 1 e.pot.dV φ := fun φ => contDiffAt_of_deriv isOpen_univ h2 h3 trivial
  have ch2 : Continuous (fun v : (ℝ × ℝ × ℝ) × ℝ => e.h2 v.1) := by
    rw [continuous_iff_continuousAt]
    intro v
    have k : ContinuousAt e.h2 v.1 := (contDiff_H2T (cV _)).continuousAt
    exact ContinuousAt.comp (f := fun v : (ℝ × ℝ × ℝ) × ℝ => v.1) k continuous_fst.continuousAt
  obtain ⟨U, hU⟩ : ∃ U : Set ((ℝ × ℝ × ℝ) × ℝ), U = {v | 0 < e.h2 v.1} := ⟨_, rfl⟩
  have hUo : IsOpen U := by rw [hU]; exact isOpen_lt continuous_const ch2
  have hFU : ∀ x ∈ U, ContDiffAt ℝ 1 F x := by
    intro v hv
    rw [hU] at hv
    have hfield : ContDiffAt ℝ 1 e.field v.1 := e.field_contDiff (cV _) (cdV _) hv
    have c1 : ContDiffAt ℝ 1 (fun v : (ℝ × ℝ × ℝ) × ℝ => e.field v.1) v := hfield.comp v contDiff_fst.contDiffAt
    rw [hF]
    exact c1.prodMk (by fun_prop)
  obtain ⟨g0, hg0⟩ : ∃ g0, g0 = e.h2 v0.1 := ⟨_, rfl⟩
  have hg0p : 0 < g0 := by rw [hg0, hv0]; exact hH
  have hv0U : v0 ∈ U := by rw [hU]; show 0 < e.h2 v0.1; rw [← hg0]; exact hg0p
  -- the compact sets
  obtain ⟨M, hM⟩ : ∃ M : ℝ → (ℝ × ℝ × ℝ) × ℝ, M = fun T => ((√(6 * g0) * |T - t0|, 2 * √(6 * g0), √g0 * |T - t0|),
    exp (√g0 * |T - t0| - v0.1.2.2) * |T - t0|) := ⟨_, rfl⟩
  obtain ⟨C, hC⟩ : ∃ C : ℝ → Set ((ℝ × ℝ × ℝ) × ℝ), C = fun T => Icc (v0 - M T) (v0 + M T) ∩
    {v | g0 * exp (-(6 * √g0 * |T - t0|)) ≤ e.h2 v.1} := ⟨_, rfl⟩
  have hCc : ∀ T, IsCompact (C T) := fun T => by
    rw [hC]
    exact isCompact_Icc.inter_right (isClosed_le continuous_const ch2)
  have hCU : ∀ T, C T ⊆ U := fun T v hv => by
    rw [hC] at hv
    rw [hU]
    have := exp_pos (-(6 * √g0 * |T - t0|))
    exact (mul_pos hg0p this).trans_le hv.2
  have hinv : ∀ T, t0 < T → ∀ y, y t0 = v0 → (∀ t ∈ Ico t0 T, HasDerivAt y (F (y t)) t ∧ y t ∈ U) → ∀ t ∈ Ico t0 T, y t ∈ C T := by
    intro T hT y hy0 hy
    rw [hF, hU] at hy
    have p0 : ∀ t ∈ Ico t0 T, 0 < e.h2 (y t).1 := fun t ht => (hy t ht).2
    have d1 : ∀ t ∈ Ico t0 T, HasDerivAt (fun t => (y t).1) (e.field (y t).1) t := fun t ht =>
      (hasFDerivAt_fst.comp_hasDerivAt t (hy t ht).1 :)
    have dη : ∀ t ∈ Ico t0 T, HasDerivAt (fun t => (y t).2) (exp (-(y t).1.2.2)) t := fun t ht =>
      (hasFDerivAt_snd.comp_hasDerivAt t (hy t ht).1 :)
    have dφ : ∀ t ∈ Ico t0 T, HasDerivAt (fun t => (y t).1.1) ((y t).1.2.1) t := fun t ht =>
      (hasFDerivAt_fst.comp_hasDerivAt t (d1 t ht) :)
    have d3' : ∀ t ∈ Ico t0 T, HasDerivAt (fun t => (y t).1.2) (e.field (y t).1).2 t := fun t ht =>
      (hasFDerivAt_snd.comp_hasDerivAt t (d1 t ht) :)
    have dp : ∀ t ∈ Ico t0 T, HasDerivAt (fun t => (y t).1.2.1) (-3 * √(e.h2 (y t).1) * (y t).1.2.1 - e.pot.dV (y t).1.1) t := fun t ht =>
      (hasFDerivAt_fst.comp_hasDerivAt t (d3' t ht) :)
    have dN : ∀ t ∈ Ico t0 T, HasDerivAt (fun t => (y t).1.2.2) (√(e.h2 (y t).1)) t := fun t ht =>
      (hasFDerivAt_snd.comp_hasDerivAt t (d3' t ht) :)
    -- H² decreases
    have dg : ∀ t ∈ Ico t0 T, HasDerivAt (fun t => e.h2 (y t).1)
        (-√(e.h2 (y t).1) * ((y t).1.2.1 ^ 2 - 2 * e.K * exp (-2 * (y t).1.2.2))) t := fun t ht => by
      have hVd : HasDerivAt (fun t => e.pot.V (y t).1.1) (e.pot.dV (y t).1.1 * (y t).1.2.1) t :=
        HasDerivAt.comp t (h1 _ trivial) (dφ t ht)
      have := ((((dp t ht).fun_pow 2).div_const 2).fun_add hVd).div_const 3 |>.fun_sub
        ((hasDerivAt_exp_neg_two (dN t ht)).const_mul e.K)
      refine HasDerivAt.congr_deriv (f := fun t => e.h2 (y t).1) this ?_
      push_cast
      ring
    have hKe : ∀ t, e.K * exp (-2 * (y t).1.2.2) ≤ 0 := fun t => mul_nonpos_of_nonpos_of_nonneg hK (exp_pos _).le
    have hgle : ∀ t ∈ Ico t0 T, e.h2 (y t).1 ≤ g0 := fun t ht => by
      have := antitone_Ico dg (fun s hs => by
        have h1 := sqrt_nonneg (e.h2 (y s).1)
        have h2 := hKe s
        have h3 := sq_nonneg (y s).1.2.1
        have : 0 ≤ √(e.h2 (y s).1) * ((y s).1.2.1 ^ 2 - 2 * e.K * exp (-2 * (y s).1.2.2)) := mul_nonneg h1 (by linarith)
        linarith) ht
      rw [hy0, ← hg0] at this
      exact this
    have hp2 : ∀ t, (y t).1.2.1 ^ 2 - 2 * e.K * exp (-2 * (y t).1.2.2) ≤ 6 * e.h2 (y t).1 := fun t => by
      have h2 := hKe t
      have h3 := hV (y t).1.1
      unfold InflT.h2 Primpy.T.get_H2
      linarith
    have hsq : ∀ t ∈ Ico t0 T, √(e.h2 (y t).1) ≤ √g0 := fun t ht => sqrt_le_sqrt (hgle t ht)
    have hp : ∀ t ∈ Ico t0 T, |(y t).1.2.1| ≤ √(6 * g0) := fun t ht => by
      rw [← sqrt_sq_eq_abs]
      apply sqrt_le_sqrt
      have h1 := hp2 t
      have h2 := hKe t
      have h3 := hgle t ht
      linarith
    have bφ : ∀ t ∈ Ico t0 T, |(y t).1.1 - v0.1.1| ≤ √(6 * g0) * |T - t0| := fun t ht => by
      have := abs_sub_le_of_deriv dφ hp ht
      rwa [hy0] at this
    have bN : ∀ t ∈ Ico t0 T, |(y t).1.2.2 - v0.1.2.2| ≤ √g0 * |T - t0| := fun t ht => by
      have := abs_sub_le_of_deriv dN (M := √g0) (fun s hs => by rw [abs_of_nonneg (sqrt_nonneg _)]; exact hsq s hs) ht
      rwa [hy0] at this
    have bη : ∀ t ∈ Ico t0 T, |(y t).2 - v0.2| ≤ exp (√g0 * |T - t0| - v0.1.2.2) * |T - t0| := fun t ht => by
      have := abs_sub_le_of_deriv dη (M := exp (√g0 * |T - t0| - v0.1.2.2)) (fun s hs => by
        rw [abs_of_pos (exp_pos _), exp_le_exp]
        have := (abs_le.1 (bN s hs)).1
        linarith) ht
      rwa [hy0] at this
    have bp : ∀ t ∈ Ico t0 T, |(y t).1.2.1 - v0.1.2.1| ≤ 2 * √(6 * g0) := fun t ht => by
      have ha := hp t ht
      have hb := hp t0 ⟨le_rfl, hT⟩
      rw [hy0] at hb
      have := abs_sub (y t).1.2.1 v0.1.2.1
      linarith
    -- lower bound of H²
    have bg : ∀ t ∈ Ico t0 T, g0 * exp (-(6 * √g0 * |T - t0|)) ≤ e.h2 (y t).1 := fun t ht => by
      have dexp : ∀ s, HasDerivAt (fun s => exp (6 * √g0 * (s - t0))) (exp (6 * √g0 * (s - t0)) * (6 * √g0)) s := fun s => by
        have := (((hasDerivAt_id s).sub_const t0).const_mul (6 * √g0)).exp
        simpa using this
      have dl : ∀ s ∈ Ico t0 T, HasDerivAt (fun s => -(e.h2 (y s).1 * exp (6 * √g0 * (s - t0)))) _ s := fun s hs =>
        ((dg s hs).fun_mul (dexp s)).fun_neg
      have := antitone_Ico dl (fun s hs => by
        have hE := exp_pos (6 * √g0 * (s - t0))
        have ha := hp2 s
        have hb := hsq s hs
        have hc := p0 s hs
        have hd := sqrt_nonneg (e.h2 (y s).1)
        have hd' := hKe s
        have hq := sq_nonneg (y s).1.2.1
        have key : √(e.h2 (y s).1) * ((y s).1.2.1 ^ 2 - 2 * e.K * exp (-2 * (y s).1.2.2)) ≤ √g0 * (6 * e.h2 (y s).1) :=
          mul_le_mul hb ha (by linarith) (sqrt_nonneg _)
        have : -(-√(e.h2 (y s).1) * ((y s).1.2.1 ^ 2 - 2 * e.K * exp (-2 * (y s).1.2.2)) * exp (6 * √g0 * (s - t0)) +
            e.h2 (y s).1 * (exp (6 * √g0 * (s - t0)) * (6 * √g0))) = -((√g0 * (6 * e.h2 (y s).1) -
              √(e.h2 (y s).1) * ((y s).1.2.1 ^ 2 - 2 * e.K * exp (-2 * (y s).1.2.2))) * exp (6 * √g0 * (s - t0))) := by ring
        rw [this]
        have : 0 ≤ (√g0 * (6 * e.h2 (y s).1) -
              √(e.h2 (y s).1) * ((y s).1.2.1 ^ 2 - 2 * e.K * exp (-2 * (y s).1.2.2))) * exp (6 * √g0 * (s - t0)) :=
          mul_nonneg (by linarith) hE.le
        linarith) ht
      rw [hy0, ← hg0, sub_self, mul_zero, exp_zero, mul_one] at this
      rw [exp_neg, mul_inv_le_iff₀ (exp_pos _)]
      have hle : exp (6 * √g0 * (t - t0)) ≤ exp (6 * √g0 * |T - t0|) := by
        rw [exp_le_exp, abs_of_pos (by linarith)]
        have := sqrt_nonneg g0
        exact mul_le_mul_of_nonneg_left (by linarith [ht.2]) (by linarith)
      have := mul_le_mul_of_nonneg_left hle (p0 t ht).le
      linarith
    intro t ht
    rw [hC]
    refine ⟨?_, bg t ht⟩
    have a1 := abs_le.1 (bφ t ht)
    have a2 := abs_le.1 (bp t ht)
    have a3 := abs_le.1 (bN t ht)
    have a4 := abs_le.1 (bη t ht)
    rw [hM]
    refine ⟨⟨⟨?_, ?_, ?_⟩, ?_⟩, ⟨⟨?_, ?_, ?_⟩, ?_⟩⟩
    all_goals simp only [Prod.fst_add, Prod.snd_add, Prod.fst_sub, Prod.snd_sub]; linarith
  obtain ⟨a, hat, α, hα0, hα⟩ := exists_global hUo hFU hv0U t0 C hCc hCU hinv
  have hr4 : ∀ i < e.rows, i < 4 := fun i hi => by rw [InflT.rows_eq] at hi; split at hi <;> omega
  refine ⟨a, hat, fun t => rowsT (α t), fun i hi => ?_, fun t ht i hi => ?_, fun t ht => ?_⟩
  · have := hr4 i hi
    simp only [hα0, hv0]
    interval_cases i <;> rfl
  · have hd := (hα t ht).1
    rw [hF] at hd
    have d1 : HasDerivAt (fun t => (α t).1) (e.field (α t).1) t := (hasFDerivAt_fst.comp_hasDerivAt t hd :)
    have d2 : HasDerivAt (fun t => (α t).2) (exp (-(α t).1.2.2)) t := (hasFDerivAt_snd.comp_hasDerivAt t hd :)
    have d3 : HasDerivAt (fun t => (α t).1.2) (e.field (α t).1).2 t := (hasFDerivAt_snd.comp_hasDerivAt t d1 :)
    have := hr4 i hi
    interval_cases i
    · rw [InflT.call0]; exact (hasFDerivAt_fst.comp_hasDerivAt t d1 :)
    · rw [InflT.call1]; exact (hasFDerivAt_fst.comp_hasDerivAt t d3 :)
    · rw [InflT.call2]; exact (hasFDerivAt_snd.comp_hasDerivAt t d3 :)
    · have he : e.track_eta = true := by by_contra hne; rw [InflT.rows_eq] at hi; simp [hne] at hi
      rw [InflT.call3 _ he]; exact d2
  · have := (hα t ht).2
    rw [hU] at this
    exact this

/-- `H²` as a function of the state (e-folds). -/
noncomputable def InflN.h2 (e : InflN) (v : ℝ × ℝ × ℝ) : ℝ := N.get_H2 v.2.2 v.2.1 (e.pot.V v.1) e.K

/-- **C76, e-folds.**  Flat or open universe, positive potential on the whole line.  From every initial state with `(dφ/dN)² < 6` (that is, `H² > 0`)
the background exists for all later e-folds, and keeps `H² > 0`. -/
theorem C76_efolds {e : InflN} (hK : e.K ≤ 0) {d3 : ℝ → ℝ} (h1 : IsDerivOn univ e.pot.V e.pot.dV) (h2 : IsDerivOn univ e.pot.dV e.pot.d2V)
    (h3 : IsDerivOn univ e.pot.d2V d3) (hV : ∀ φ, 0 < e.pot.V φ) (n0 : ℝ) (y0 : ℕ → ℝ) (hH : 0 < e.H2 n0 y0) :
    ∃ a < n0, ∃ y : ℝ → ℕ → ℝ, (∀ i < e.rows, y n0 i = y0 i) ∧ SolvesODE (Ioi a) e.rows e.call y ∧ ∀ n > a, 0 < e.H2 n (y n) := by
  obtain ⟨q, hq⟩ : ∃ q : ℝ × ℝ × ℝ → ℝ, q = fun v => N.get_H2 v.2.2 v.2.1 (e.pot.V v.1) e.K := ⟨_, rfl⟩
  obtain ⟨F, hF⟩ : ∃ F : (ℝ × ℝ × ℝ) × ℝ × ℝ → (ℝ × ℝ × ℝ) × ℝ × ℝ,
    F = fun v => (e.field v.1, 1 / √(q v.1), exp (-v.1.2.2) / √(q v.1)) := ⟨_, rfl⟩
  obtain ⟨v0, hv0⟩ : ∃ v0 : (ℝ × ℝ × ℝ) × ℝ × ℝ, v0 = ((y0 0, y0 1, n0), y0 2, y0 e.etaRow) := ⟨_, rfl⟩
  have cV : ∀ φ, ContDiffAt ℝ 1 e.pot.V φ := fun φ => contDiffAt_of_deriv isOpen_univ h1 h2 trivial
  have cdV : ∀ φ, ContDiffAt ℝ 1 e.pot.dV φ := fun φ => contDiffAt_of_deriv isOpen_univ h2 h3 trivial
  have hnum : ∀ v : ℝ × ℝ × ℝ, 2 * e.pot.V v.1 ≤ 2 * e.pot.V v.1 - 6 * e.K * exp (-2 * v.2.2) := fun v => by
    have := mul_nonpos_of_nonpos_of_nonneg hK (exp_pos (-2 * v.2.2)).le
    linarith
  have hqiff : ∀ v : ℝ × ℝ × ℝ, 0 < q v ↔ 0 < 6 - v.2.1 ^ 2 := fun v => by
    rw [hq]
    have ha := hnum v
    have hb := hV v.1
    unfold N.get_H2
    exact ⟨fun h => by
      by_contra hn
      exact absurd h (not_lt.2 (div_nonpos_of_nonneg_of_nonpos (by linarith) (not_lt.1 hn))), fun h => div_pos (by linarith) h⟩
  obtain ⟨U, hU⟩ : ∃ U : Set ((ℝ × ℝ × ℝ) × ℝ × ℝ), U = {v | 0 < 6 - v.1.2.1 ^ 2} := ⟨_, rfl⟩
  have hUo : IsOpen U := by rw [hU]; exact isOpen_lt continuous_const (by fun_prop)
  have hUq : ∀ v ∈ U, 0 < q v.1 := fun v hv => by rw [hU] at hv; exact (hqiff v.1).2 hv
  have hFU : ∀ x ∈ U, ContDiffAt ℝ 1 F x := by
    intro v hv
    have hqv := hUq v hv
    rw [hU] at hv
    have h6 : 6 - v.1.2.1 ^ 2 ≠ 0 := ne_of_gt hv
    have cq : ContDiffAt ℝ 1 q v.1 := by rw [hq]; exact contDiff_H2N (cV _) h6
    have hfield : ContDiffAt ℝ 1 e.field v.1 := e.field_contDiff (cV _) (cdV _) (by rw [hq] at hqv; exact hqv)
    have c1 : ContDiffAt ℝ 1 (fun v : (ℝ × ℝ × ℝ) × ℝ × ℝ => e.field v.1) v := hfield.comp v contDiff_fst.contDiffAt
    have c2 : ContDiffAt ℝ 1 (fun v : (ℝ × ℝ × ℝ) × ℝ × ℝ => √(q v.1)) v := (cq.comp v contDiff_fst.contDiffAt).sqrt hqv.ne'
    have hne : √(q v.1) ≠ 0 := (sqrt_pos.2 hqv).ne'
    rw [hF]
    exact c1.prodMk ((ContDiffAt.div (by fun_prop) c2 hne).prodMk (ContDiffAt.div (by fun_prop) c2 hne))
  obtain ⟨g0, hg0⟩ : ∃ g0, g0 = q v0.1 := ⟨_, rfl⟩
  have hg0p : 0 < g0 := by rw [hg0, hq, hv0]; exact hH
  have hv0U : v0 ∈ U := by rw [hU]; exact (hqiff v0.1).1 (by rw [← hg0]; exact hg0p)
  -- a positive lower bound of the potential on the reachable field values
  have hmin : ∀ T : ℝ, ∃ m > 0, ∀ φ ∈ Icc (v0.1.1 - √6 * |T - n0|) (v0.1.1 + √6 * |T - n0|), m ≤ e.pot.V φ := by
    intro T
    have hne : (Icc (v0.1.1 - √6 * |T - n0|) (v0.1.1 + √6 * |T - n0|)).Nonempty :=
      ⟨v0.1.1, by have : 0 ≤ √6 * |T - n0| := by positivity
                  constructor <;> linarith⟩
    obtain ⟨x, -, hx⟩ := isCompact_Icc.exists_isMinOn hne (fun φ _ => (h1 φ trivial).continuousAt.continuousWithinAt)
    exact ⟨e.pot.V x, hV x, fun φ hφ => hx hφ⟩
  choose m hm0 hm using hmin
  obtain ⟨B, hB⟩ : ∃ B : ℝ → ℝ, B = fun T => 1 / √(m T / 3) := ⟨_, rfl⟩
  obtain ⟨M, hM⟩ : ∃ M : ℝ → (ℝ × ℝ × ℝ) × ℝ × ℝ, M = fun T => ((√6 * |T - n0|, 2 * √6, |T - n0|),
    B T * |T - n0|, exp (-n0) * B T * |T - n0|) := ⟨_, rfl⟩
  obtain ⟨C, hC⟩ : ∃ C : ℝ → Set ((ℝ × ℝ × ℝ) × ℝ × ℝ), C = fun T => Icc (v0 - M T) (v0 + M T) ∩
    {v | 2 * m T / g0 ≤ 6 - v.1.2.1 ^ 2} := ⟨_, rfl⟩
  have hCc : ∀ T, IsCompact (C T) := fun T => by
    rw [hC]
    exact isCompact_Icc.inter_right (isClosed_le continuous_const (by fun_prop))
  have hCU : ∀ T, C T ⊆ U := fun T v hv => by
    rw [hC] at hv
    rw [hU]
    exact (div_pos (by linarith [hm0 T]) hg0p).trans_le hv.2
  have hinv : ∀ T, n0 < T → ∀ y, y n0 = v0 → (∀ t ∈ Ico n0 T, HasDerivAt y (F (y t)) t ∧ y t ∈ U) → ∀ t ∈ Ico n0 T, y t ∈ C T := by
    intro T hT y hy0 hy
    have p0 : ∀ t ∈ Ico n0 T, 0 < q (y t).1 := fun t ht => hUq _ (hy t ht).2
    have w0 : ∀ t ∈ Ico n0 T, 0 < 6 - (y t).1.2.1 ^ 2 := fun t ht => (hqiff _).1 (p0 t ht)
    rw [hF, hU] at hy
    have d1 : ∀ t ∈ Ico n0 T, HasDerivAt (fun t => (y t).1) (e.field (y t).1) t := fun t ht =>
      (hasFDerivAt_fst.comp_hasDerivAt t (hy t ht).1 :)
    have d2 : ∀ t ∈ Ico n0 T, HasDerivAt (fun t => (y t).2) (1 / √(q (y t).1), exp (-(y t).1.2.2) / √(q (y t).1)) t := fun t ht =>
      (hasFDerivAt_snd.comp_hasDerivAt t (hy t ht).1 :)
    have dt : ∀ t ∈ Ico n0 T, HasDerivAt (fun t => (y t).2.1) (1 / √(q (y t).1)) t := fun t ht =>
      (hasFDerivAt_fst.comp_hasDerivAt t (d2 t ht) :)
    have dη : ∀ t ∈ Ico n0 T, HasDerivAt (fun t => (y t).2.2) (exp (-(y t).1.2.2) / √(q (y t).1)) t := fun t ht =>
      (hasFDerivAt_snd.comp_hasDerivAt t (d2 t ht) :)
    have dφ : ∀ t ∈ Ico n0 T, HasDerivAt (fun t => (y t).1.1) ((y t).1.2.1) t := fun t ht =>
      (hasFDerivAt_fst.comp_hasDerivAt t (d1 t ht) :)
    have d3' : ∀ t ∈ Ico n0 T, HasDerivAt (fun t => (y t).1.2) (e.field (y t).1).2 t := fun t ht =>
      (hasFDerivAt_snd.comp_hasDerivAt t (d1 t ht) :)
    have dp : ∀ t ∈ Ico n0 T, HasDerivAt (fun t => (y t).1.2.1)
        (-(-(y t).1.2.1 ^ 2 / 2 + e.K * exp (-2 * (y t).1.2.2) / q (y t).1 + 3) * (y t).1.2.1 - e.pot.dV (y t).1.1 / q (y t).1) t := fun t ht => by
      rw [hq]
      exact (hasFDerivAt_fst.comp_hasDerivAt t (d3' t ht) :)
    have dN : ∀ t ∈ Ico n0 T, HasDerivAt (fun t => (y t).1.2.2) 1 t := fun t ht =>
      (hasFDerivAt_snd.comp_hasDerivAt t (d3' t ht) :)
    have hKe : ∀ t, e.K * exp (-2 * (y t).1.2.2) ≤ 0 := fun t => mul_nonpos_of_nonpos_of_nonneg hK (exp_pos _).le
    have hqw : ∀ t ∈ Ico n0 T, q (y t).1 * (6 - (y t).1.2.1 ^ 2) = 2 * e.pot.V (y t).1.1 - 6 * e.K * exp (-2 * (y t).1.2.2) := fun t ht => by
      have := (w0 t ht).ne'
      rw [hq]
      unfold N.get_H2
      field_simp
    -- H² decreases
    have dg : ∀ t ∈ Ico n0 T, HasDerivAt (fun t => q (y t).1) (-(y t).1.2.1 ^ 2 * q (y t).1 + 2 * (e.K * exp (-2 * (y t).1.2.2))) t := fun t ht => by
      have hVd : HasDerivAt (fun t => e.pot.V (y t).1.1) (e.pot.dV (y t).1.1 * (y t).1.2.1) t :=
        HasDerivAt.comp t (h1 _ trivial) (dφ t ht)
      have hw := (w0 t ht).ne'
      have hqt := (p0 t ht).ne'
      have hn := (hVd.const_mul 2).fun_sub ((hasDerivAt_exp_neg_two (dN t ht)).const_mul (6 * e.K))
      have hd := hn.fun_div (((dp t ht).fun_pow 2).const_sub 6) hw
      have he : (fun t => q (y t).1) = fun t => (2 * e.pot.V (y t).1.1 - 6 * e.K * exp (-2 * (y t).1.2.2)) / (6 - (y t).1.2.1 ^ 2) := by
        rw [hq]; rfl
      rw [he]
      refine hd.congr_deriv ?_
      rw [← hqw t ht]
      push_cast
      obtain ⟨Q, hQ⟩ : ∃ Q, Q = q (y t).1 := ⟨_, rfl⟩
      rw [← hQ] at hqt ⊢
      field_simp
      ring
    have hgle : ∀ t ∈ Ico n0 T, q (y t).1 ≤ g0 := fun t ht => by
      have := antitone_Ico dg (fun s hs => by
        have h1 := p0 s hs
        have h2 := hKe s
        have h3 := sq_nonneg (y s).1.2.1
        nlinarith) ht
      rw [hy0, ← hg0] at this
      exact this
    have hp : ∀ t ∈ Ico n0 T, |(y t).1.2.1| ≤ √6 := fun t ht => by
      rw [← sqrt_sq_eq_abs]
      apply sqrt_le_sqrt
      have := w0 t ht
      linarith
    have bφ : ∀ t ∈ Ico n0 T, |(y t).1.1 - v0.1.1| ≤ √6 * |T - n0| := fun t ht => by
      have := abs_sub_le_of_deriv dφ hp ht
      rwa [hy0] at this
    have bN : ∀ t ∈ Ico n0 T, |(y t).1.2.2 - v0.1.2.2| ≤ |T - n0| := fun t ht => by
      have := abs_sub_le_of_deriv dN (M := 1) (fun s _ => by rw [abs_one]) ht
      rwa [hy0, one_mul] at this
    have hmV : ∀ t ∈ Ico n0 T, m T ≤ e.pot.V (y t).1.1 := fun t ht => by
      have := abs_le.1 (bφ t ht)
      exact hm T _ ⟨by linarith, by linarith⟩
    have hqm : ∀ t ∈ Ico n0 T, m T / 3 ≤ q (y t).1 := fun t ht => by
      have ha := hqw t ht
      have hb := hnum (y t).1
      have hc := hmV t ht
      have hd := w0 t ht
      have he := p0 t ht
      nlinarith [sq_nonneg (y t).1.2.1]
    have hB1 : ∀ t ∈ Ico n0 T, 1 / √(q (y t).1) ≤ B T := fun t ht => by
      rw [hB]
      have : 0 < m T / 3 := by linarith [hm0 T]
      exact one_div_le_one_div_of_le (sqrt_pos.2 this) (sqrt_le_sqrt (hqm t ht))
    have clock : ∀ t ∈ Ico n0 T, n0 ≤ (y t).1.2.2 := fun t ht => by
      have := antitone_Ico (f := fun t => -(y t).1.2.2) (fun s hs => (dN s hs).fun_neg) (fun s _ => by norm_num) ht
      rw [hy0, hv0] at this
      linarith
    have bt : ∀ t ∈ Ico n0 T, |(y t).2.1 - v0.2.1| ≤ B T * |T - n0| := fun t ht => by
      have := abs_sub_le_of_deriv dt (M := B T) (fun s hs => by
        rw [abs_of_pos (one_div_pos.2 (sqrt_pos.2 (p0 s hs)))]; exact hB1 s hs) ht
      rwa [hy0] at this
    have bη : ∀ t ∈ Ico n0 T, |(y t).2.2 - v0.2.2| ≤ exp (-n0) * B T * |T - n0| := fun t ht => by
      have := abs_sub_le_of_deriv dη (M := exp (-n0) * B T) (fun s hs => by
        have h0 := sqrt_pos.2 (p0 s hs)
        rw [abs_of_pos (div_pos (exp_pos _) h0), div_eq_mul_one_div]
        have hE : exp (-(y s).1.2.2) ≤ exp (-n0) := by rw [exp_le_exp]; linarith [clock s hs]
        exact mul_le_mul hE (hB1 s hs) (one_div_pos.2 h0).le (exp_pos _).le) ht
      rwa [hy0] at this
    have bp : ∀ t ∈ Ico n0 T, |(y t).1.2.1 - v0.1.2.1| ≤ 2 * √6 := fun t ht => by
      have ha := hp t ht
      have hb := hp n0 ⟨le_rfl, hT⟩
      rw [hy0] at hb
      have := abs_sub (y t).1.2.1 v0.1.2.1
      linarith
    have bw : ∀ t ∈ Ico n0 T, 2 * m T / g0 ≤ 6 - (y t).1.2.1 ^ 2 := fun t ht => by
      rw [div_le_iff₀ hg0p]
      have ha := hqw t ht
      have hb := hnum (y t).1
      have hc := hmV t ht
      have hd := mul_le_mul_of_nonneg_right (hgle t ht) (w0 t ht).le
      linarith
    intro t ht
    rw [hC]
    refine ⟨?_, bw t ht⟩
    have a1 := abs_le.1 (bφ t ht)
    have a2 := abs_le.1 (bp t ht)
    have a3 := abs_le.1 (bN t ht)
    have a4 := abs_le.1 (bt t ht)
    have a5 := abs_le.1 (bη t ht)
    rw [hM]
    refine ⟨⟨⟨?_, ?_, ?_⟩, ?_, ?_⟩, ⟨⟨?_, ?_, ?_⟩, ?_, ?_⟩⟩
    all_goals simp only [Prod.fst_add, Prod.snd_add, Prod.fst_sub, Prod.snd_sub]; linarith
  obtain ⟨a, hat, α, hα0, hα⟩ := exists_global hUo hFU hv0U n0 C hCc hCU hinv
  have hn0 : n0 ∈ Ioi a := hat
  have d1 : ∀ t ∈ Ioi a, HasDerivAt (fun t => (α t).1) (e.field (α t).1) t := fun t ht => by
    have hd := (hα t ht).1
    rw [hF] at hd
    exact (hasFDerivAt_fst.comp_hasDerivAt t hd :)
  have d2 : ∀ t ∈ Ioi a, HasDerivAt (fun t => (α t).2) (1 / √(q (α t).1), exp (-(α t).1.2.2) / √(q (α t).1)) t := fun t ht => by
    have hd := (hα t ht).1
    rw [hF] at hd
    exact (hasFDerivAt_snd.comp_hasDerivAt t hd :)
  have d3 : ∀ t ∈ Ioi a, HasDerivAt (fun t => (α t).1.2) (e.field (α t).1).2 t := fun t ht =>
    (hasFDerivAt_snd.comp_hasDerivAt t (d1 t ht) :)
  have clock : ∀ t ∈ Ioi a, (α t).1.2.2 = t :=
    eq_of_same_deriv isOpen_Ioi isPreconnected_Ioi (f := fun t => (α t).1.2.2) (g := fun t => t) (f' := fun _ => 1)
      (fun t ht => (hasFDerivAt_snd.comp_hasDerivAt t (d3 t ht) :)) (fun t _ => hasDerivAt_id t) hn0 (by rw [hα0, hv0])
  have eH2 : ∀ t ∈ Ioi a, e.H2 t (rowsN e.track_time (α t)) = q (α t).1 := by
    intro t ht
    rw [hq]; dsimp only; rw [clock t ht]; rfl
  refine ⟨a, hat, fun t => rowsN e.track_time (α t), fun i hi => ?_, fun t ht' i hi => ?_, fun t ht => ?_⟩
  · simp only [hα0, hv0]
    unfold rowsN
    split_ifs with a b c
    · rw [a]
    · rw [b]
    · rw [c.1]
    · have : i = e.etaRow := by
        rw [InflN.rows_eq] at hi
        unfold InflN.etaRow
        cases ha : e.track_eta <;> cases hb : e.track_time <;> simp [ha, hb] at hi c ⊢ <;> omega
      rw [this]
  · have hHt : e.H t (rowsN e.track_time (α t)) = √(q (α t).1) := by rw [InflN.H, eH2 t ht']
    by_cases i0 : i = 0
    · subst i0
      rw [InflN.call0]
      exact (hasFDerivAt_fst.comp_hasDerivAt t (d1 t ht') :)
    by_cases i1 : i = 1
    · subst i1
      rw [InflN.call1]
      have := (hasFDerivAt_fst.comp_hasDerivAt t (d3 t ht') :)
      refine HasDerivAt.congr_deriv this ?_
      unfold InflN.field
      simp only [clock t ht']
      rfl
    by_cases i2 : i = 2 ∧ e.track_time = true
    · obtain ⟨rfl, htr⟩ := i2
      rw [InflN.call_t _ htr, hHt]
      have := (hasFDerivAt_fst.comp_hasDerivAt t (d2 t ht') :)
      refine HasDerivAt.congr_of_eventuallyEq (f := fun s => (α s).2.1) this ?_
      filter_upwards with s
      simp [rowsN, htr]
    · have he : e.track_eta = true ∧ i = e.etaRow := by
        rw [InflN.rows_eq] at hi
        unfold InflN.etaRow
        cases ha : e.track_eta <;> cases hb : e.track_time <;> simp [ha, hb] at hi i2 ⊢ <;> omega
      have hcall := InflN.call_eta e he.1 t (rowsN e.track_time (α t))
      rw [← he.2] at hcall
      rw [hcall, hHt]
      have := (hasFDerivAt_snd.comp_hasDerivAt t (d2 t ht') :)
      refine HasDerivAt.congr_of_eventuallyEq (f := fun s => (α s).2.2) (this.congr_deriv ?_) ?_
      · simp only [clock t ht']; rfl
      · filter_upwards with s
        simp only [rowsN, if_neg i0, if_neg i1, if_neg i2]
  · rw [eH2 t ht]
    exact hUq _ (hα t ht).2

/-! ## Built-in potentials -/

/-- the features never make the potential negative for amplitudes up to one -/
theorem feature_nonneg {base : PotFns} (hb : ∀ φ, 0 ≤ base.V φ) (x0 a b : ℝ) (ha : |a| ≤ 1) (φ : ℝ) :
    0 ≤ (FeaturePotential base (GaussianDip.fns x0 a b)).V φ ∧ 0 ≤ (FeaturePotential base (TanhStep.fns x0 a b)).V φ := by
  have key : ∀ z : ℝ, |z| ≤ 1 → 0 ≤ base.V φ * (1 + a * z) := fun z hz => by
    refine mul_nonneg (hb φ) ?_
    have : |a * z| ≤ 1 := by rw [abs_mul]; exact mul_le_one₀ ha (abs_nonneg _) hz
    have := (abs_le.1 this).1
    linarith
  constructor
  · have h := key (-exp (-(φ - x0) ^ 2 / (2 * b ^ 2))) (by
      rw [abs_neg, abs_of_pos (exp_pos _), exp_le_one_iff]
      exact div_nonpos_of_nonpos_of_nonneg (neg_nonpos.2 (sq_nonneg _)) (by positivity))
    simp only [FeaturePotential, GaussianDip.fns, GaussianDip.F]
    refine h.trans (le_of_eq ?_)
    ring
  · exact key (tanh ((φ - x0) / b)) (abs_tanh_lt_one _).le

/-- **C76, built-in potentials.**  Quadratic, Starobinsky and natural inflation, and Starobinsky with a dip or step of amplitude at most one: in a flat or
open universe the cosmic-time background exists for ever from every expanding initial state, whether or not conformal time is tracked. -/
theorem C76_builtin (P : PotFns)
    (hP : (∃ q : Quadratic, P = q.fns) ∨ (∃ s : Starobinsky, P = s.fns) ∨ (∃ n : Natural, P = n.fns) ∨
      (∃ L x0 a b, |a| ≤ 1 ∧ b ≠ 0 ∧ (P = StarobinskyGaussianDip L x0 a b ∨ P = StarobinskyTanhStep L x0 a b)))
    {K : ℝ} (hK : K ≤ 0) (track_eta : Bool) (t0 : ℝ) (y0 : ℕ → ℝ) (hH : 0 < (InflT.mk K P track_eta).H2 y0) :
    ∃ a < t0, ∃ y : ℝ → ℕ → ℝ, (∀ i < (InflT.mk K P track_eta).rows, y t0 i = y0 i) ∧
      SolvesODE (Ioi a) (InflT.mk K P track_eta).rows (InflT.mk K P track_eta).call y ∧ ∀ t > a, 0 < (InflT.mk K P track_eta).H2 (y t) := by
  have sn : ∀ (s : Starobinsky) φ, 0 ≤ s.fns.V φ := fun s φ => by
    show 0 ≤ s.Lambda ^ 4 * (1 - exp (-Starobinsky.gamma * φ)) ^ 2
    positivity
  rcases hP with ⟨q, rfl⟩ | ⟨s, rfl⟩ | ⟨n, rfl⟩ | ⟨L, x0, a, b, ha, hb, rfl | rfl⟩
  · have c := C01_quadratic q
    exact C76_time (e := ⟨K, q.fns, track_eta⟩) hK c.d1 c.d2 c.d3 (fun φ => by
      show 0 ≤ q.Lambda ^ 4 * φ ^ 2
      positivity) t0 y0 hH
  · have c := C01_starobinsky s
    exact C76_time (e := ⟨K, s.fns, track_eta⟩) hK c.d1 c.d2 c.d3 (sn s) t0 y0 hH
  · have c := C01_natural n
    exact C76_time (e := ⟨K, n.fns, track_eta⟩) hK c.d1 c.d2 c.d3 (fun φ => by
      show 0 ≤ n.V φ
      unfold Natural.V
      have := cos_le_one (π * φ / n.phi0)
      exact mul_nonneg (by positivity) (by linarith)) t0 y0 hH
  · obtain ⟨c1, c2, c3⟩ := C02_starobinsky_gaussian_partial L x0 a b hb
    exact C76_time (e := ⟨K, StarobinskyGaussianDip L x0 a b, track_eta⟩) hK c1 c2 c3
      (fun φ => (feature_nonneg (sn ⟨L⟩) x0 a b ha φ).1) t0 y0 hH
  · obtain ⟨c1, c2, c3⟩ := C02_starobinsky_tanh_partial L x0 a b hb
    exact C76_time (e := ⟨K, StarobinskyTanhStep L x0 a b, track_eta⟩) hK c1 c2 c3
      (fun φ => (feature_nonneg (sn ⟨L⟩) x0 a b ha φ).2) t0 y0 hH

/-! ## The hypotheses are needed -/

/-- a function whose derivative is at most `-k` falls at least linearly -/
theorem falls {f f' : ℝ → ℝ} {n0 k : ℝ} (hf : ∀ n ≥ n0, HasDerivAt f (f' n) n) (hk : ∀ n ≥ n0, f' n ≤ -k) {n : ℝ} (hn : n0 ≤ n) :
    f n ≤ f n0 - k * (n - n0) := by
  have h := antitone_Ico (f := fun s => f s + k * (s - n0)) (f' := fun s => f' s + k) (t0 := n0) (T := n + 1)
    (fun s hs => ((hf s hs.1).fun_add (((hasDerivAt_id s).sub_const n0).const_mul k)).congr_deriv (by simp))
    (fun s hs => by have := hk s hs.1; linarith) (t := n) ⟨hn, by linarith⟩
  simp only [sub_self, mul_zero, add_zero] at h
  linarith

/-- **C76, closed universes recollapse**: with a potential that is nowhere positive, no closed background expands for ever.  (The sign condition on `K` in
`C76_time` is needed: integrating such a background must stop at a finite time.) -/
theorem C76_closed_recollapses {e : InflT} (hK : 0 < e.K) (h1 : IsDerivOn univ e.pot.V e.pot.dV) (hV : ∀ φ, e.pot.V φ ≤ 0) (a : ℝ) :
    ¬ ∃ y : ℝ → ℕ → ℝ, SolvesODE (Ioi a) e.rows e.call y ∧ ∀ t > a, 0 < e.H2 (y t) := by
  rintro ⟨y, sol, hH⟩
  have u := InflT.universe sol hH
  have dH := u.dH isOpen_Ioi h1 (fun _ _ => mem_univ _)
  obtain ⟨N, hN⟩ : ∃ N, N = fun t => InflT._N (y t) := ⟨_, rfl⟩
  obtain ⟨H, hHd⟩ : ∃ H, H = fun t => e.H (y t) := ⟨_, rfl⟩
  rw [← hN, ← hHd] at u
  have dH : IsDerivOn (Ioi a) H fun t => -InflT.dphidt (y t) ^ 2 / 2 + e.K * exp (-2 * N t) := by rw [hHd, hN]; exact dH
  -- `f = a ȧ`
  have df : ∀ t ≥ a + 1, HasDerivAt (fun t => exp (2 * N t) * H t)
      (exp (2 * N t) * (2 * H t) * H t + exp (2 * N t) * (-(InflT.dphidt (y t)) ^ 2 / 2 + e.K * exp (-2 * N t))) t := fun t ht => by
    have ht' : t ∈ Ioi a := by show a < t; linarith
    exact (((u.hubble t ht').const_mul 2).exp.fun_mul (dH t ht'))
  have bound : ∀ t ≥ a + 1, exp (2 * N t) * (2 * H t) * H t + exp (2 * N t) * (-(InflT.dphidt (y t)) ^ 2 / 2 + e.K * exp (-2 * N t)) ≤ -(2 * e.K) := fun t ht => by
    have ht' : t ∈ Ioi a := by show a < t; linarith
    have hf := u.friedmann t ht'
    have hp := u.expanding t ht'
    have hv := hV (InflT.phi (y t))
    have hx : exp (2 * N t) * exp (-2 * N t) = 1 := by rw [← exp_add]; ring_nf; exact exp_zero
    have hX := exp_pos (2 * N t)
    have hY := exp_pos (-2 * N t)
    have e1 : 2 * H t ^ 2 - (InflT.dphidt (y t)) ^ 2 / 2 + 3 * e.K * exp (-2 * N t) ≤ 0 := by nlinarith [sq_nonneg (H t)]
    have e2 := mul_nonpos_of_nonneg_of_nonpos hX.le e1
    have e3 : exp (2 * N t) * (3 * e.K * exp (-2 * N t)) = 3 * e.K := by rw [show exp (2 * N t) * (3 * e.K * exp (-2 * N t)) = 3 * e.K * (exp (2 * N t) * exp (-2 * N t)) by ring, hx, mul_one]
    have e4 : exp (2 * N t) * (e.K * exp (-2 * N t)) = e.K := by rw [show exp (2 * N t) * (e.K * exp (-2 * N t)) = e.K * (exp (2 * N t) * exp (-2 * N t)) by ring, hx, mul_one]
    nlinarith
  obtain ⟨c, hc⟩ : ∃ c, c = exp (2 * N (a + 1)) * H (a + 1) := ⟨_, rfl⟩
  have hc0 : 0 < c := by rw [hc]; exact mul_pos (exp_pos _) (u.expanding (a + 1) (by show a < a + 1; linarith))
  have hn : a + 1 ≤ a + 1 + c / (2 * e.K) := by have : 0 < c / (2 * e.K) := by positivity
                                                linarith
  have := falls df bound hn
  rw [← hc] at this
  have h0 : 0 < exp (2 * N (a + 1 + c / (2 * e.K))) * H (a + 1 + c / (2 * e.K)) :=
    mul_pos (exp_pos _) (u.expanding _ (by show a < _; linarith))
  have hz : c - 2 * e.K * (a + 1 + c / (2 * e.K) - (a + 1)) = 0 := by field_simp; ring
  rw [hz] at this
  linarith

/-- upper barrier -/
theorem barrier {f f' : ℝ → ℝ} {n0 c : ℝ} (hf : ∀ n ≥ n0, HasDerivAt f (f' n) n) (h0 : f n0 ≤ c) (hc : ∀ n ≥ n0, f n = c → f' n < 0) {n : ℝ} (hn : n0 ≤ n) :
    f n ≤ c :=
  image_le_of_deriv_right_lt_deriv_boundary' (a := n0) (b := n) (f := f) (f' := f') (B := fun _ => c) (B' := fun _ => 0)
    (fun s hs => (hf s hs.1).continuousAt.continuousWithinAt) (fun s hs => (hf s hs.1).hasDerivWithinAt) h0 continuousOn_const
    (fun s _ => hasDerivWithinAt_const _ _ _) (fun s hs h => hc s hs.1 h) ⟨hn, le_rfl⟩

/-- the flat e-fold equations of the quadratic potential have no solution with `φ > 0` for ever -/
theorem quad_no_positive {f q : ℝ → ℝ} {n0 : ℝ} (hf : ∀ n ≥ n0, HasDerivAt f (q n) n)
    (hq : ∀ n ≥ n0, HasDerivAt q (-(3 - q n ^ 2 / 2) * (q n + 2 / f n)) n) (h6 : ∀ n ≥ n0, q n ^ 2 < 6) (hp : ∀ n ≥ n0, 0 < f n) : False := by
  -- the field turns around
  have turn : ∃ n1 ≥ n0, q n1 < 0 := by
    by_contra hcon
    push Not at hcon
    obtain ⟨w, hw⟩ : ∃ w, w = 3 - q n0 ^ 2 / 2 := ⟨_, rfl⟩
    have hw0 : 0 < w := by have := h6 n0 le_rfl; linarith
    have dec : ∀ n ≥ n0, q n ≤ q n0 := fun n hn => by
      have := falls (f := q) (k := 0) hq (fun s hs => by
        have a1 := h6 s hs
        have a2 := hcon s hs
        have a3 := div_pos two_pos (hp s hs)
        have a4 : 0 ≤ (3 - q s ^ 2 / 2) * (q s + 2 / f s) := mul_nonneg (by linarith) (by linarith)
        linarith) hn
      linarith
    have hwn : ∀ n ≥ n0, w ≤ 3 - q n ^ 2 / 2 := fun n hn => by
      have a1 := dec n hn
      have a2 := hcon n hn
      rw [hw]
      nlinarith
    have q6 : ∀ n ≥ n0, q n ≤ 3 := fun n hn => by have := h6 n hn; nlinarith
    have grow : ∀ n ≥ n0, f n ≤ f n0 + 3 * (n - n0) := fun n hn => by
      have := falls (f := fun s => f s - 3 * (s - n0)) (f' := fun s => q s - 3) (k := 0) (n0 := n0)
        (fun s hs => ((hf s hs).fun_sub (((hasDerivAt_id s).sub_const n0).const_mul 3)).congr_deriv (by simp)) (fun s hs => by have := q6 s hs; linarith) hn
      simp only [sub_self, mul_zero, sub_zero, zero_mul] at this
      linarith
    have key : ∀ n ≥ n0, q n + 2 * w / 3 * log (f n0 + 3 * (n - n0)) ≤ q n0 + 2 * w / 3 * log (f n0) := fun n hn => by
      have hl : ∀ s ≥ n0, 0 < f n0 + 3 * (s - n0) := fun s hs => by have := hp n0 le_rfl; linarith
      have := falls (f := fun s => q s + 2 * w / 3 * log (f n0 + 3 * (s - n0))) (k := 0) (n0 := n0)
        (f' := fun s => -(3 - q s ^ 2 / 2) * (q s + 2 / f s) + 2 * w / 3 * (3 / (f n0 + 3 * (s - n0))))
        (fun s hs => (hq s hs).fun_add ((((((hasDerivAt_id s).sub_const n0).const_mul 3).const_add (f n0)).log (hl s hs).ne').const_mul (2 * w / 3)
          |>.congr_deriv (by simp)))
        (fun s hs => by
          have a1 := hwn s hs
          have a2 := hcon s hs
          have a3 := div_pos two_pos (hp s hs)
          have a4 : w * (2 / f s) ≤ (3 - q s ^ 2 / 2) * (q s + 2 / f s) := mul_le_mul a1 (by linarith) a3.le (by linarith)
          have a5 : 2 * w / 3 * (3 / (f n0 + 3 * (s - n0))) ≤ w * (2 / f s) := by
            have : 1 / (f n0 + 3 * (s - n0)) ≤ 1 / f s := one_div_le_one_div_of_le (hp s hs) (grow s hs)
            calc 2 * w / 3 * (3 / (f n0 + 3 * (s - n0))) = 2 * w * (1 / (f n0 + 3 * (s - n0))) := by ring
              _ ≤ 2 * w * (1 / f s) := mul_le_mul_of_nonneg_left this (by linarith)
              _ = w * (2 / f s) := by ring
          linarith) hn
      simpa using this
    have lim : Tendsto (fun n => 2 * w / 3 * log (f n0 + 3 * (n - n0))) atTop atTop := by
      refine Tendsto.const_mul_atTop (by positivity) (tendsto_log_atTop.comp ?_)
      exact tendsto_atTop_add_const_left _ _ (Tendsto.const_mul_atTop (by norm_num) (tendsto_atTop_add_const_right _ _ tendsto_id))
    obtain ⟨n, hn, hn'⟩ := ((lim.eventually_gt_atTop (q n0 + 2 * w / 3 * log (f n0))).and (eventually_ge_atTop n0)).exists
    have := key n hn'
    have := hcon n hn'
    linarith
  obtain ⟨n1, hn1, hq1⟩ := turn
  have qneg : ∀ n ≥ n1, q n ≤ 0 := fun n hn => barrier (fun s hs => hq s (hn1.trans hs)) hq1.le (fun s hs h => by
    rw [h]
    have := div_pos two_pos (hp s (hn1.trans hs))
    nlinarith) hn
  have fle : ∀ n ≥ n1, f n ≤ f n1 := fun n hn => by
    have := falls (k := 0) (fun s hs => hf s (hn1.trans hs)) (fun s hs => by have := qneg s hs; linarith) hn
    linarith
  have p1 := hp n1 hn1
  obtain ⟨c, hc⟩ : ∃ c, c = min (1 / f n1) 1 := ⟨_, rfl⟩
  have hc0 : 0 < c := by rw [hc]; exact lt_min (by positivity) one_pos
  have c1 : c ≤ 1 := by rw [hc]; exact min_le_right _ _
  have cf : c ≤ 1 / f n1 := by rw [hc]; exact min_le_left _ _
  have steep : ∀ n ≥ n1, -c ≤ q n → -(3 - q n ^ 2 / 2) * (q n + 2 / f n) ≤ -(2 * c) := fun n hn h => by
    have a1 := qneg n hn
    have a2 : 2 * (1 / f n1) ≤ 2 / f n := by
      have := one_div_le_one_div_of_le (hp n (hn1.trans hn)) (fle n hn)
      calc 2 * (1 / f n1) ≤ 2 * (1 / f n) := by linarith
        _ = 2 / f n := by ring
    have a3 : q n ^ 2 ≤ 1 := by nlinarith
    have a4 : c ≤ q n + 2 / f n := by linarith
    nlinarith
  obtain ⟨n2, hn2, hq2⟩ : ∃ n2 ≥ n1, q n2 ≤ -c := by
    by_contra hcon
    push Not at hcon
    have := falls (k := 2 * c) (fun s hs => hq s (hn1.trans hs)) (fun s hs => steep s hs (hcon s hs).le) (n := n1 + 1) (by linarith)
    have h2 := hcon (n1 + 1) (by linarith)
    linarith
  have far : ∀ n ≥ n2, q n ≤ -c := fun n hn => barrier (fun s hs => hq s (hn1.trans (hn2.trans hs))) hq2
    (fun s hs h => by have := steep s (hn2.trans hs) h.ge; linarith) hn
  have p2 := hp n2 (hn1.trans hn2)
  have hd : n2 ≤ n2 + f n2 / c := by have := div_pos p2 hc0; linarith
  have := falls (fun s hs => hf s (hn1.trans (hn2.trans hs))) far hd
  have h3 := hp _ (hn1.trans (hn2.trans hd))
  rw [show f n2 - c * (n2 + f n2 / c - n2) = 0 by field_simp; ring] at this
  linarith

/-- **C76, e-folds break down at the minimum**: for the quadratic potential in a flat universe no e-fold background exists for ever: whatever the initial
state, the integration reaches `V = 0` (where `H² = V/(3 - φ'²/2)` is `0/0`) after finitely many e-folds, although the cosmic-time background of the same
universe goes on for ever (`C76_builtin`). -/
theorem C76_efolds_breaks_down (q : Quadratic) (track_time track_eta : Bool) (a : ℝ) :
    ¬ ∃ y : ℝ → ℕ → ℝ, SolvesODE (Ioi a) (InflN.mk 0 q.fns track_time track_eta).rows (InflN.mk 0 q.fns track_time track_eta).call y ∧
      ∀ n > a, 0 < (InflN.mk 0 q.fns track_time track_eta).H2 n (y n) := by
  obtain ⟨e, he⟩ : ∃ e, e = InflN.mk 0 q.fns track_time track_eta := ⟨_, rfl⟩
  rw [← he]
  rintro ⟨y, sol, hH⟩
  have r : 2 ≤ e.rows := by rw [InflN.rows_eq]; omega
  have d0 : ∀ n ≥ a + 1, HasDerivAt (fun n => y n 0) (y n 1) n := fun n hn => by
    have h := sol n (show a < n by linarith) 0 (by omega)
    rw [InflN.call0] at h
    exact h
  have eH : ∀ n, e.H2 n (y n) = 2 * (q.Lambda ^ 4 * y n 0 ^ 2) / (6 - y n 1 ^ 2) := fun n => by
    rw [he]
    simp [InflN.H2, N.get_H2, InflN.V, Quadratic.fns, Quadratic.V, InflN.phi, InflN.dphidN]
  have ne : ∀ n ≥ a + 1, y n 0 ≠ 0 ∧ q.Lambda ≠ 0 := fun n hn => by
    have := hH n (by linarith)
    rw [eH] at this
    constructor
    · rintro h; rw [h] at this; simp at this
    · rintro h; rw [h] at this; simp at this
  have h6 : ∀ n ≥ a + 1, y n 1 ^ 2 < 6 := fun n hn => by
    have := hH n (by linarith)
    rw [eH] at this
    by_contra hc
    have : 2 * (q.Lambda ^ 4 * y n 0 ^ 2) / (6 - y n 1 ^ 2) ≤ 0 := div_nonpos_of_nonneg_of_nonpos (by positivity) (by linarith)
    linarith
  have d1 : ∀ n ≥ a + 1, HasDerivAt (fun n => y n 1) (-(3 - y n 1 ^ 2 / 2) * (y n 1 + 2 / y n 0)) n := fun n hn => by
    have h := sol n (show a < n by linarith) 1 (by omega)
    refine h.congr_deriv ?_
    rw [InflN.call1, eH]
    obtain ⟨h0, hL⟩ := ne n hn
    have h6 : 6 - y n 1 ^ 2 ≠ 0 := by have := h6 n hn; linarith
    rw [he]
    simp only [N.get_d2phi, N.get_dH_H, InflN.dphidN, InflN.dVdphi, Quadratic.fns, Quadratic.dV, InflN.phi]
    field_simp
    ring
  -- the field keeps its sign
  have cont : ContinuousOn (fun n => y n 0) (Ici (a + 1)) := fun n hn => (d0 n hn).continuousAt.continuousWithinAt
  rcases lt_or_gt_of_ne (ne (a + 1) le_rfl).1 with hs | hs
  · have neg : ∀ n ≥ a + 1, y n 0 < 0 := fun n hn => by
      by_contra hc
      push Not at hc
      obtain ⟨z, hz, hz0⟩ := isPreconnected_Ici.intermediate_value (show a + 1 ∈ Ici (a + 1) from self_mem_Ici) (show n ∈ Ici (a + 1) from hn) cont ⟨hs.le, hc⟩
      exact (ne z hz).1 hz0
    refine quad_no_positive (f := fun n => -y n 0) (q := fun n => -y n 1) (n0 := a + 1) (fun n hn => (d0 n hn).fun_neg)
      (fun n hn => (d1 n hn).fun_neg.congr_deriv ?_) (fun n hn => by have := h6 n hn; simpa using this) (fun n hn => by have := neg n hn; linarith)
    have := (ne n hn).1
    field_simp
    ring
  · have pos : ∀ n ≥ a + 1, 0 < y n 0 := fun n hn => by
      by_contra hc
      push Not at hc
      obtain ⟨z, hz, hz0⟩ := isPreconnected_Ici.intermediate_value (show n ∈ Ici (a + 1) from hn) (show a + 1 ∈ Ici (a + 1) from self_mem_Ici) cont ⟨hc, hs.le⟩
      exact (ne z hz).1 hz0
    exact quad_no_positive (n0 := a + 1) d0 d1 h6 pos

/-! ## Non-vacuity -/

/-- An open universe with the quadratic potential, field at the bottom of the potential and *at rest*: it expands for ever. -/
example : ∃ a < (0 : ℝ), ∃ y : ℝ → ℕ → ℝ, y 0 0 = 0 ∧ y 0 1 = 0 ∧ y 0 2 = 0 ∧
    SolvesODE (Ioi a) (InflT.mk (-1) (Quadratic.mk 1).fns false).rows (InflT.mk (-1) (Quadratic.mk 1).fns false).call y := by
  obtain ⟨a, ha, y, h0, hs, -⟩ := C76_builtin (Quadratic.mk 1).fns (Or.inl ⟨_, rfl⟩) (K := -1) (by norm_num) false 0 (fun _ => 0) (by
    simp [InflT.H2, T.get_H2, InflT.V, Quadratic.fns, Quadratic.V, InflT.phi, InflT.dphidt, InflT._N])
  have r : (InflT.mk (-1) (Quadratic.mk 1).fns false).rows = 3 := by rw [InflT.rows_eq]; rfl
  exact ⟨a, ha, y, h0 0 (by omega), h0 1 (by omega), h0 2 (by omega), hs⟩

/-- Flat, e-folds, exponential potential, started fast (`dφ/dN = 2`). -/
example : ∃ a < (0 : ℝ), ∃ y : ℝ → ℕ → ℝ, y 0 0 = 0 ∧ y 0 1 = 2 ∧ SolvesODE (Ioi a) Exact.flatN.rows Exact.flatN.call y := by
  obtain ⟨a, ha, y, h0, hs, -⟩ := C76_efolds (e := Exact.flatN) (le_refl (0:ℝ)) (Exact.expPot_chain _).d1 (Exact.expPot_chain _).d2 (Exact.expPot_chain _).d3
    (fun φ => by show 0 < 10 * exp (-φ); positivity) 0 (fun i => if i = 1 then 2 else 0) (by
      simp [InflN.H2, N.get_H2, InflN.V, Exact.flatN, Exact.expPot, InflN.phi, InflN.dphidN]; norm_num)
  have r : Exact.flatN.rows = 4 := by rw [InflN.rows_eq]; rfl
  exact ⟨a, ha, y, by simpa using h0 0 (by omega), by simpa using h0 1 (by omega), hs⟩

/-- A closed universe with a massless field (quadratic potential with `Lambda = 0`) recollapses. -/
example (a : ℝ) : ¬ ∃ y : ℝ → ℕ → ℝ, SolvesODE (Ioi a) (InflT.mk 1 (Quadratic.mk 0).fns true).rows (InflT.mk 1 (Quadratic.mk 0).fns true).call y ∧
    ∀ t > a, 0 < (InflT.mk 1 (Quadratic.mk 0).fns true).H2 (y t) :=
  C76_closed_recollapses (e := ⟨1, (Quadratic.mk 0).fns, true⟩) one_pos (C01_quadratic _).d1 (fun φ => by simp [Quadratic.fns, Quadratic.V]) a

end Primpy
