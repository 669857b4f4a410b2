import Mathlib.Analysis.ODE.Gronwall
import Mathlib.Analysis.Calculus.ContDiff.RCLike
import Mathlib.Algebra.BigOperators.Group.Finset.Basic
import Mathlib.Algebra.Order.BigOperators.Group.Finset

/-! # Inexact integration of a smooth autonomous system stays close to the exact solution -/

namespace Primpy.Stable
open Set Filter Topology Metric NNReal

variable {E F : Type*} [NormedAddCommGroup E] [NormedSpace ℝ E] [NormedAddCommGroup F] [NormedSpace ℝ F]

/-- A function that is continuously differentiable along a compact arc is Lipschitz, with one constant, on balls of one radius about all its points. -/
theorem tube {a b : ℝ} {y : ℝ → E} (hy : ContinuousOn y (Icc a b)) {G : E → F} (hG : ∀ t ∈ Icc a b, ContDiffAt ℝ 1 G (y t)) :
    ∃ r > 0, ∃ K : ℝ≥0, ∀ t ∈ Icc a b, LipschitzOnWith K G (closedBall (y t) r) := by
  refine isCompact_Icc.induction_on (p := fun s => ∃ r > 0, ∃ K : ℝ≥0, ∀ t ∈ s, LipschitzOnWith K G (closedBall (y t) r)) ⟨1, one_pos, 0, by simp⟩ ?_ ?_ ?_
  · rintro s s' h ⟨r, hr, K, hK⟩
    exact ⟨r, hr, K, fun t ht => hK t (h ht)⟩
  · rintro s s' ⟨r, hr, K, hK⟩ ⟨r', hr', K', hK'⟩
    refine ⟨min r r', lt_min hr hr', max K K', fun t ht => ?_⟩
    rcases ht with ht | ht
    · exact ((hK t ht).mono (closedBall_subset_closedBall (min_le_left _ _))).weaken (le_max_left _ _)
    · exact ((hK' t ht).mono (closedBall_subset_closedBall (min_le_right _ _))).weaken (le_max_right _ _)
  · intro t ht
    obtain ⟨K, U, hU, hL⟩ := (hG t ht).exists_lipschitzOnWith
    obtain ⟨r, hr, hrU⟩ := Metric.mem_nhds_iff.1 hU
    refine ⟨Icc a b ∩ y ⁻¹' ball (y t) (r / 2), ?_, r / 4, by positivity, K, ?_⟩
    · exact inter_mem self_mem_nhdsWithin ((hy t ht).preimage_mem_nhdsWithin (ball_mem_nhds _ (by positivity)))
    · rintro s ⟨-, hs⟩
      refine hL.mono fun z hz => hrU ?_
      rw [mem_preimage, mem_ball] at hs
      rw [mem_closedBall] at hz
      rw [mem_ball]
      have := dist_triangle z (y s) (y t)
      linarith

theorem gronwall_le {ε ρ K x : ℝ} (hρ : 0 ≤ ρ) (hK : 0 ≤ K) : gronwallBound ε K ρ x ≤ (ε + ρ * x) * Real.exp (K * x) := by
  rcases hK.eq_or_lt with rfl | hK
  · rw [gronwallBound_K0]; simp
  · rw [gronwallBound_of_K_ne_0 hK.ne']
    have h1 : Real.exp (K * x) - 1 ≤ K * x * Real.exp (K * x) := by
      have := Real.add_one_le_exp (-(K * x))
      have e : Real.exp (-(K * x)) * Real.exp (K * x) = 1 := by rw [← Real.exp_add]; simp
      nlinarith [Real.exp_pos (K * x)]
    have h2 : ρ / K * (Real.exp (K * x) - 1) ≤ ρ / K * (K * x * Real.exp (K * x)) := mul_le_mul_of_nonneg_left h1 (by positivity)
    have h3 : ρ / K * (K * x * Real.exp (K * x)) = ρ * x * Real.exp (K * x) := by field_simp
    nlinarith

/-- An approximate solution that starts close to a solution stays close to it, as long as the bound is smaller than the radius on which the field is Lipschitz. -/
theorem stays {G : E → E} {y z z' : ℝ → E} {K : ℝ≥0} {r a b ρ ε : ℝ} (hy : ∀ t ∈ Icc a b, HasDerivAt y (G (y t)) t) (hz : ∀ t ∈ Icc a b, HasDerivAt z (z' t) t)
    (hρ : ∀ t ∈ Icc a b, dist (z' t) (G (z t)) ≤ ρ) (hL : ∀ t ∈ Icc a b, LipschitzOnWith K G (closedBall (y t) r)) (hρ0 : 0 ≤ ρ) (hε0 : 0 ≤ ε)
    (h0 : dist (z a) (y a) ≤ ε) (hr : (ε + ρ * (b - a)) * Real.exp (K * (b - a)) < r) :
    ∀ t ∈ Icc a b, dist (z t) (y t) ≤ (ε + ρ * (t - a)) * Real.exp (K * (t - a)) := by
  have mono : ∀ t ∈ Icc a b, (ε + ρ * (t - a)) * Real.exp (K * (t - a)) < r := by
    intro t ht
    refine lt_of_le_of_lt ?_ hr
    have h1 : 0 ≤ t - a := by linarith [ht.1]
    have h2 : t - a ≤ b - a := by linarith [ht.2]
    refine mul_le_mul ?_ (Real.exp_le_exp.2 (mul_le_mul_of_nonneg_left h2 K.2)) (Real.exp_pos _).le ?_
    · nlinarith
    · nlinarith
  have upto : ∀ τ ∈ Icc a b, (∀ t ∈ Ico a τ, dist (z t) (y t) ≤ r) → ∀ t ∈ Icc a τ, dist (z t) (y t) ≤ (ε + ρ * (t - a)) * Real.exp (K * (t - a)) := by
    intro τ hτ hin t ht
    have sub : ∀ s ∈ Icc a τ, s ∈ Icc a b := fun s hs => ⟨hs.1, hs.2.trans hτ.2⟩
    have sub' : ∀ s ∈ Ico a τ, s ∈ Icc a b := fun s hs => sub s ⟨hs.1, hs.2.le⟩
    have := dist_le_of_approx_trajectories_ODE_of_mem (v := fun _ => G) (s := fun s => closedBall (y s) r) (K := K) (f := z) (g := y) (f' := z') (g' := fun s => G (y s))
      (a := a) (b := τ) (εf := ρ) (εg := 0) (δ := ε)
      (fun s hs => hL s (sub' s hs)) (fun s hs => (hz s (sub s hs)).continuousAt.continuousWithinAt)
      (fun s hs => (hz s (sub' s hs)).hasDerivWithinAt) (fun s hs => hρ s (sub' s hs)) (fun s hs => mem_closedBall.2 (hin s hs))
      (fun s hs => (hy s (sub s hs)).continuousAt.continuousWithinAt) (fun s hs => (hy s (sub' s hs)).hasDerivWithinAt) (fun s hs => by simp)
      (fun s hs => mem_closedBall_self (le_trans dist_nonneg (hin s hs))) h0 t ht
    rw [add_zero] at this
    exact this.trans (gronwall_le hρ0 K.2)
  rcases le_or_gt a b with hab | hab
  swap
  · intro t ht; exact absurd (ht.1.trans ht.2) (not_le.2 hab)
  refine upto b ⟨hab, le_rfl⟩ fun t ht => ?_
  by_contra hne
  push Not at hne
  have cont : ContinuousOn (fun t => dist (z t) (y t)) (Icc a b) := fun s hs =>
    (hz s hs).continuousAt.continuousWithinAt.dist (hy s hs).continuousAt.continuousWithinAt
  have hcl : IsCompact (Icc a b ∩ (fun t => dist (z t) (y t)) ⁻¹' Ici r) :=
    isCompact_Icc.of_isClosed_subset (cont.preimage_isClosed_of_isClosed isClosed_Icc isClosed_Ici) inter_subset_left
  obtain ⟨τ, hτ⟩ := hcl.exists_isLeast ⟨t, ⟨ht.1, ht.2.le⟩, hne.le⟩
  have h1 := upto τ hτ.1.1 (fun s hs => by
    by_contra hs'
    push Not at hs'
    exact absurd (hτ.2 ⟨⟨hs.1, hs.2.le.trans hτ.1.1.2⟩, hs'.le⟩) (not_le.2 hs.2)) τ ⟨hτ.1.1.1, le_rfl⟩
  have h2 : r ≤ dist (z τ) (y τ) := hτ.1.2
  linarith [mono τ hτ.1.1]

/-- Steps of an approximate solver: at grid point `t j` it has the state `z j`; in the step from `t j` to `t (j+1)` it follows `u j`, whose defect is at most `ρ`, and
ends the step at most `d j` away from it.  The error at the grid points and inside the steps is at most the sum of all these times the growth factor. -/
theorem steps {G : E → E} {y : ℝ → E} {K : ℝ≥0} {r a b ρ ε : ℝ} (hy : ∀ t ∈ Icc a b, HasDerivAt y (G (y t)) t)
    (hL : ∀ t ∈ Icc a b, LipschitzOnWith K G (closedBall (y t) r)) (hρ0 : 0 ≤ ρ) (hε0 : 0 ≤ ε) {n : ℕ} {t : ℕ → ℝ} {z : ℕ → E} {u u' : ℕ → ℝ → E} {d : ℕ → ℝ}
    (ht0 : t 0 = a) (hmono : ∀ j < n, t j ≤ t (j + 1)) (hend : t n ≤ b) (h0 : dist (z 0) (y a) ≤ ε)
    (hu : ∀ j < n, ∀ s ∈ Icc (t j) (t (j + 1)), HasDerivAt (u j) (u' j s) s) (hdef : ∀ j < n, ∀ s ∈ Icc (t j) (t (j + 1)), dist (u' j s) (G (u j s)) ≤ ρ)
    (hst : ∀ j < n, u j (t j) = z j) (hjump : ∀ j < n, dist (z (j + 1)) (u j (t (j + 1))) ≤ d j)
    (hr : (ε + ∑ j ∈ Finset.range n, d j + ρ * (b - a)) * Real.exp (K * (b - a)) < r) :
    (∀ j ≤ n, t j ∈ Icc a b ∧ dist (z j) (y (t j)) ≤ (ε + ∑ j ∈ Finset.range n, d j + ρ * (b - a)) * Real.exp (K * (b - a))) ∧
      ∀ j < n, ∀ s ∈ Icc (t j) (t (j + 1)), dist (u j s) (y s) ≤ (ε + ∑ j ∈ Finset.range n, d j + ρ * (b - a)) * Real.exp (K * (b - a)) := by
  have hd0 : ∀ j < n, 0 ≤ d j := fun j hj => dist_nonneg.trans (hjump j hj)
  have up : ∀ j ≤ n, t j ≤ t n := fun j hj => by
    induction n, hj using Nat.le_induction with
    | base => exact le_rfl
    | succ m hm ih =>
      refine (ih (fun i hi => hmono i (by omega)) ((hmono m (by omega)).trans hend) (fun i hi => hu i (by omega)) (fun i hi => hdef i (by omega))
        (fun i hi => hst i (by omega)) (fun i hi => hjump i (by omega)) (lt_of_le_of_lt ?_ hr) (fun i hi => hd0 i (by omega))).trans (hmono m (by omega))
      refine mul_le_mul_of_nonneg_right ?_ (Real.exp_pos _).le
      rw [Finset.sum_range_succ]
      linarith [hd0 m (by omega)]
  have low : ∀ j ≤ n, a ≤ t j := fun j hj => by
    induction j with
    | zero => exact ht0.ge
    | succ j ih => exact (ih (by omega)).trans (hmono j (by omega))
  have mem : ∀ j ≤ n, t j ∈ Icc a b := fun j hj => ⟨low j hj, (up j hj).trans hend⟩
  have part : ∀ j ≤ n, ∀ s ∈ Icc (t j) b, 0 ≤ ε + ∑ i ∈ Finset.range j, d i + ρ * (s - a) ∧
      (ε + ∑ i ∈ Finset.range j, d i + ρ * (s - a)) * Real.exp (K * (s - a)) ≤ (ε + ∑ j ∈ Finset.range n, d j + ρ * (b - a)) * Real.exp (K * (b - a)) := by
    intro j hj s hs
    have hs0 : 0 ≤ s - a := by linarith [low j hj, hs.1]
    have h1 : 0 ≤ ∑ i ∈ Finset.range j, d i := Finset.sum_nonneg fun i hi => hd0 i (by have := Finset.mem_range.1 hi; omega)
    have h2 : ∑ i ∈ Finset.range j, d i ≤ ∑ j ∈ Finset.range n, d j :=
      Finset.sum_le_sum_of_subset_of_nonneg (Finset.range_subset_range.2 hj) fun i hi _ => hd0 i (Finset.mem_range.1 hi)
    have h3 : ρ * (s - a) ≤ ρ * (b - a) := mul_le_mul_of_nonneg_left (by linarith [hs.2]) hρ0
    refine ⟨by positivity, mul_le_mul (by linarith) (Real.exp_le_exp.2 (mul_le_mul_of_nonneg_left (by linarith [hs.2]) K.2)) (Real.exp_pos _).le ?_⟩
    have : 0 ≤ ρ * (s - a) := by positivity
    linarith
  -- one step
  have one : ∀ j < n, dist (z j) (y (t j)) ≤ (ε + ∑ i ∈ Finset.range j, d i + ρ * (t j - a)) * Real.exp (K * (t j - a)) →
      ∀ s ∈ Icc (t j) (t (j + 1)), dist (u j s) (y s) ≤ (ε + ∑ i ∈ Finset.range j, d i + ρ * (s - a)) * Real.exp (K * (s - a)) := by
    intro j hj hz s hs
    have hs0 : t (j + 1) ∈ Icc (t j) b := ⟨hmono j hj, (mem (j + 1) hj).2⟩
    have p0 := (part j hj.le (t j) ⟨le_rfl, (mem j hj.le).2⟩).1
    have mul : ∀ s ∈ Icc (t j) b, ((ε + ∑ i ∈ Finset.range j, d i + ρ * (t j - a)) * Real.exp (K * (t j - a)) + ρ * (s - t j)) * Real.exp (K * (s - t j))
        ≤ (ε + ∑ i ∈ Finset.range j, d i + ρ * (s - a)) * Real.exp (K * (s - a)) := by
      intro s hs
      have e1 : Real.exp (K * (s - a)) = Real.exp (K * (t j - a)) * Real.exp (K * (s - t j)) := by rw [← Real.exp_add]; congr 1; ring
      have e2 : 1 ≤ Real.exp (K * (t j - a)) := Real.one_le_exp (mul_nonneg K.2 (by linarith [low j hj.le]))
      have e3 : ρ * (s - t j) ≤ ρ * (s - t j) * Real.exp (K * (t j - a)) := le_mul_of_one_le_right (mul_nonneg hρ0 (by linarith [hs.1])) e2
      rw [e1, ← mul_assoc]
      refine mul_le_mul_of_nonneg_right ?_ (Real.exp_pos _).le
      calc _ ≤ (ε + ∑ i ∈ Finset.range j, d i + ρ * (t j - a)) * Real.exp (K * (t j - a)) + ρ * (s - t j) * Real.exp (K * (t j - a)) := by linarith
        _ = _ := by ring
    have := stays (G := G) (y := y) (z := u j) (z' := u' j) (K := K) (r := r) (a := t j) (b := t (j + 1)) (ρ := ρ)
      (ε := (ε + ∑ i ∈ Finset.range j, d i + ρ * (t j - a)) * Real.exp (K * (t j - a)))
      (fun s hs => hy s ⟨(low j hj.le).trans hs.1, hs.2.trans hs0.2⟩) (hu j hj) (hdef j hj)
      (fun s hs => hL s ⟨(low j hj.le).trans hs.1, hs.2.trans hs0.2⟩) hρ0 (by positivity) (by rw [hst j hj]; exact hz)
      ((mul _ hs0).trans_lt (((part j hj.le _ hs0).2).trans_lt hr)) s hs
    exact this.trans (mul s ⟨hs.1, hs.2.trans hs0.2⟩)
  have grid : ∀ j ≤ n, dist (z j) (y (t j)) ≤ (ε + ∑ i ∈ Finset.range j, d i + ρ * (t j - a)) * Real.exp (K * (t j - a)) := by
    intro j hj
    induction j with
    | zero => simpa [ht0] using h0
    | succ j ih =>
      have h1 := one j hj (ih (by omega)) (t (j + 1)) ⟨hmono j hj, le_rfl⟩
      have h2 := dist_triangle (z (j + 1)) (u j (t (j + 1))) (y (t (j + 1)))
      have h3 := hjump j hj
      have e2 : 1 ≤ Real.exp (K * (t (j + 1) - a)) := Real.one_le_exp (mul_nonneg K.2 (by linarith [low (j + 1) hj]))
      have h4 : d j ≤ d j * Real.exp (K * (t (j + 1) - a)) := le_mul_of_one_le_right (hd0 j hj) e2
      rw [Finset.sum_range_succ]
      linarith
  exact ⟨fun j hj => ⟨mem j hj, (grid j hj).trans (part j hj _ ⟨le_rfl, (mem j hj).2⟩).2⟩,
    fun j hj s hs => (one j hj (grid j hj.le) s hs).trans (part j hj.le s ⟨hs.1, hs.2.trans (mem (j + 1) hj).2⟩).2⟩

/-- A function on a compact interval with a single, simple zero grows at least linearly away from it. -/
theorem lower {f : ℝ → ℝ} {a b c f' : ℝ} (hf : ContinuousOn f (Icc a b)) (hd : HasDerivAt f f' c) (hf' : f' ≠ 0) (h0 : f c = 0)
    (hne : ∀ x ∈ Icc a b, x ≠ c → f x ≠ 0) : ∃ m > 0, ∀ x ∈ Icc a b, m * |x - c| ≤ |f x| := by
  have ev : ∀ᶠ x in 𝓝 c, |f'| / 2 * |x - c| ≤ |f x| := by
    have := (hasDerivAt_iff_isLittleO.1 hd).def (c := |f'| / 2) (by positivity)
    filter_upwards [this] with x hx
    rw [h0, sub_zero, Real.norm_eq_abs, Real.norm_eq_abs, smul_eq_mul] at hx
    have h1 : |(x - c) * f'| ≤ |f x| + |f x - (x - c) * f'| := by
      have := abs_sub_abs_le_abs_sub ((x - c) * f') (f x)
      rw [abs_sub_comm] at this
      linarith
    rw [abs_mul] at h1
    nlinarith [abs_nonneg f', abs_nonneg (x - c)]
  obtain ⟨r, hr, hball⟩ := Metric.eventually_nhds_iff.1 ev
  have hcomp : IsCompact (Icc a b \ ball c r) := isCompact_Icc.diff isOpen_ball
  obtain ⟨m, hm, hmin⟩ : ∃ m > 0, ∀ x ∈ Icc a b \ ball c r, m ≤ |f x| := by
    rcases (Icc a b \ ball c r).eq_empty_or_nonempty with h | h
    · exact ⟨1, one_pos, by simp [h]⟩
    · obtain ⟨x, hx, hmin⟩ := hcomp.exists_isMinOn h ((hf.mono diff_subset).abs)
      refine ⟨|f x|, abs_pos.2 (hne x hx.1 fun e => hx.2 ?_), fun y hy => hmin hy⟩
      rw [e]; exact mem_ball_self hr
  refine ⟨min (|f'| / 2) (m / (1 + |a - c| + |b - c|)), by positivity, fun x hx => ?_⟩
  by_cases hxr : dist x c < r
  · exact (mul_le_mul_of_nonneg_right (min_le_left _ _) (abs_nonneg _)).trans (hball hxr)
  · have h1 := hmin x ⟨hx, fun h => hxr h⟩
    have h2 : |x - c| ≤ 1 + |a - c| + |b - c| := by
      rw [abs_le]
      constructor <;> cases abs_cases (a - c) <;> cases abs_cases (b - c) <;> linarith [hx.1, hx.2]
    refine (mul_le_mul_of_nonneg_right (min_le_right _ _) (abs_nonneg _)).trans (le_trans ?_ h1)
    rw [div_mul_eq_mul_div, div_le_iff₀ (by positivity)]
    exact mul_le_mul_of_nonneg_left h2 hm.le

end Primpy.Stable
