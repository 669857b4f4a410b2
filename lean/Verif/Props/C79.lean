import Verif.Props.C55
import Verif.Lemmas.Trajectory
import Verif.Lemmas.Exact
import Mathlib.Analysis.Calculus.Deriv.MeanValue

/-!
# C79: field excursion and tensor-to-scalar ratio (Lyth bound)

How far the field moves during a number of e-folds of an integrated background, in terms of the leading-order tensor-to-scalar ratio `Pt0/Ps0` primpy computes
along it; and bounds that hold whatever the potential, while the universe inflates and in general.
-/

namespace Primpy
open Real Set Spec

/-- two functions with derivatives `p` and `h > 0`, `c h ≤ |p|`: the first moves at least `c` times as far as the second -/
theorem excursion_ge {φ N p h : ℝ → ℝ} {a b c : ℝ} (hab : a < b) (hφ : ∀ x ∈ Icc a b, HasDerivAt φ (p x) x) (hN : ∀ x ∈ Icc a b, HasDerivAt N (h x) x)
    (hh : ∀ x ∈ Icc a b, 0 < h x) (hc : ∀ x ∈ Icc a b, c * h x ≤ |p x|) (hpos : 0 ≤ N b - N a) : c * (N b - N a) ≤ |φ b - φ a| := by
  obtain ⟨x, hx, e⟩ := exists_ratio_hasDerivAt_eq_ratio_slope φ p hab (fun x hx => (hφ x hx).continuousAt.continuousWithinAt)
    (fun x hx => hφ x (Ioo_subset_Icc_self hx)) N h (fun x hx => (hN x hx).continuousAt.continuousWithinAt) (fun x hx => hN x (Ioo_subset_Icc_self hx))
  have hx' := Ioo_subset_Icc_self hx
  have e' := congrArg abs e
  rw [abs_mul, abs_mul, abs_of_nonneg hpos, abs_of_pos (hh x hx')] at e'
  have h1 := hc x hx'
  have h2 := hh x hx'
  have : c * (N b - N a) * h x ≤ |φ b - φ a| * h x := by rw [← e']; nlinarith
  exact le_of_mul_le_mul_right this h2

theorem excursion_le {φ N p h : ℝ → ℝ} {a b c : ℝ} (hab : a < b) (hφ : ∀ x ∈ Icc a b, HasDerivAt φ (p x) x) (hN : ∀ x ∈ Icc a b, HasDerivAt N (h x) x)
    (hh : ∀ x ∈ Icc a b, 0 < h x) (hc : ∀ x ∈ Icc a b, |p x| ≤ c * h x) (hpos : 0 ≤ N b - N a) : |φ b - φ a| ≤ c * (N b - N a) := by
  obtain ⟨x, hx, e⟩ := exists_ratio_hasDerivAt_eq_ratio_slope φ p hab (fun x hx => (hφ x hx).continuousAt.continuousWithinAt)
    (fun x hx => hφ x (Ioo_subset_Icc_self hx)) N h (fun x hx => (hN x hx).continuousAt.continuousWithinAt) (fun x hx => hN x (Ioo_subset_Icc_self hx))
  have hx' := Ioo_subset_Icc_self hx
  have e' := congrArg abs e
  rw [abs_mul, abs_mul, abs_of_nonneg hpos, abs_of_pos (hh x hx')] at e'
  have h1 := hc x hx'
  have h2 := hh x hx'
  have : |φ b - φ a| * h x ≤ c * (N b - N a) * h x := by rw [← e']; nlinarith
  exact le_of_mul_le_mul_right this h2

theorem increments_nonneg {N h : ℝ → ℝ} {a b : ℝ} (hab : a < b) (hN : ∀ x ∈ Icc a b, HasDerivAt N (h x) x) (hh : ∀ x ∈ Icc a b, 0 < h x) : 0 ≤ N b - N a := by
  have : StrictMonoOn N (Icc a b) := strictMonoOn_of_deriv_pos (convex_Icc a b) (fun x hx => (hN x hx).continuousAt.continuousWithinAt)
    (fun x hx => by rw [(hN x (interior_subset hx)).deriv]; exact hh x (interior_subset hx))
  exact (sub_pos.2 (this (left_mem_Icc.2 hab.le) (right_mem_Icc.2 hab.le) hab)).le

theorem sqrt_mul_le_abs {c h p : ℝ} (hh : 0 ≤ h) (hc : 0 ≤ c) (H : c * h ^ 2 ≤ p ^ 2) : √c * h ≤ |p| := by
  rw [← sqrt_sq hh, ← sqrt_mul hc, ← sqrt_sq_eq_abs]
  exact sqrt_le_sqrt H

theorem abs_le_sqrt_mul {c h p : ℝ} (hh : 0 ≤ h) (hc : 0 ≤ c) (H : p ^ 2 ≤ c * h ^ 2) : |p| ≤ √c * h := by
  rw [← sqrt_sq hh, ← sqrt_mul hc, ← sqrt_sq_eq_abs]
  exact sqrt_le_sqrt H

section
variable {S : Set ℝ}

/-- what the cosmic-time code computes: `2 H² ε₁ = φ̇² - 2K/a²` -/
theorem T.e1_eq (N H p d2 d3 d4 K : ℝ) (hH : H ≠ 0) : 2 * H ^ 2 * (T.srPoint N H p d2 d3 d4 K).e1 = p ^ 2 - 2 * K * exp (-2 * N) := by
  simp only [T.srPoint, T.get_epsilon_1H, T.get_dH]
  field_simp
  ring

theorem N.e1_eq (N H q d2 d3 d4 K : ℝ) (hH : H ≠ 0) : 2 * (Primpy.N.srPoint N H q d2 d3 d4 K).e1 = q ^ 2 - 2 * K * exp (-2 * N) / H ^ 2 := by
  simp only [Primpy.N.srPoint, Primpy.N.get_epsilon_1H, Primpy.N.get_dH]
  field_simp
  ring

/-- **C79, Lyth bound, cosmic time.**  Let the leading-order tensor-to-scalar ratio be at least `r0 > 0` between two times of a flat or closed background.  Then the field
moves by at least `√(r0/8)` Planck masses per e-fold in between; in a flat or open background with ratio at most `r1`, by at most `√(r1/8)`. -/
theorem C79_lyth_time {e : InflT} {y : ℝ → ℕ → ℝ} {t1 t2 : ℝ} (h12 : t1 < t2) (hsub : Icc t1 t2 ⊆ S)
    (sol : SolvesODE S e.rows e.call y) (hH : ∀ t ∈ S, 0 < e.H2 (y t)) (d2 d3 d4 : ℝ → ℝ) (pt : ℝ → SRPoint)
    (hpt : ∀ t, pt t = T.srPoint (InflT._N (y t)) (e.H (y t)) (InflT.dphidt (y t)) (d2 t) (d3 t) (d4 t) e.K) (he : ∀ t ∈ Icc t1 t2, 0 < (pt t).e1) :
    (∀ r0, 0 < r0 → 0 ≤ e.K → (∀ t ∈ Icc t1 t2, r0 ≤ Approx.Pt0 (pt t) / Approx.Ps0 (pt t)) →
      √(r0 / 8) * (InflT._N (y t2) - InflT._N (y t1)) ≤ |InflT.phi (y t2) - InflT.phi (y t1)|) ∧
    (∀ r1, e.K ≤ 0 → (∀ t ∈ Icc t1 t2, Approx.Pt0 (pt t) / Approx.Ps0 (pt t) ≤ r1) →
      |InflT.phi (y t2) - InflT.phi (y t1)| ≤ √(r1 / 8) * (InflT._N (y t2) - InflT._N (y t1))) := by
  have u := InflT.universe sol hH
  have hφ : ∀ t ∈ Icc t1 t2, HasDerivAt (fun t => InflT.phi (y t)) (InflT.dphidt (y t)) t := fun t ht => u.velocity t (hsub ht)
  have hN : ∀ t ∈ Icc t1 t2, HasDerivAt (fun t => InflT._N (y t)) (e.H (y t)) t := fun t ht => u.hubble t (hsub ht)
  have hp : ∀ t ∈ Icc t1 t2, 0 < e.H (y t) := fun t ht => u.expanding t (hsub ht)
  have inc := increments_nonneg h12 hN hp
  have key : ∀ t ∈ Icc t1 t2, Approx.Pt0 (pt t) / Approx.Ps0 (pt t) = 16 * (pt t).e1 ∧
      2 * e.H (y t) ^ 2 * (pt t).e1 = InflT.dphidt (y t) ^ 2 - 2 * e.K * exp (-2 * InflT._N (y t)) := fun t ht =>
    ⟨C55_r_leading _ (by rw [hpt]; exact (hp t ht).ne') (he t ht).ne', by rw [hpt]; exact T.e1_eq _ _ _ _ _ _ _ (hp t ht).ne'⟩
  constructor
  · intro r0 h0 hK hr
    refine excursion_ge h12 hφ hN hp (fun t ht => sqrt_mul_le_abs (hp t ht).le (by linarith) ?_) inc
    obtain ⟨k1, k2⟩ := key t ht
    have h1 := hr t ht
    rw [k1] at h1
    have h2 : 0 ≤ e.K * exp (-2 * InflT._N (y t)) := mul_nonneg hK (exp_pos _).le
    have h3 : 0 < e.H (y t) ^ 2 := pow_pos (hp t ht) 2
    nlinarith
  · intro r1 hK hr
    refine excursion_le h12 hφ hN hp (fun t ht => abs_le_sqrt_mul (hp t ht).le ?_ ?_) inc
    · have h1 := hr t ht
      rw [(key t ht).1] at h1
      have := he t ht
      linarith
    · obtain ⟨k1, k2⟩ := key t ht
      have h1 := hr t ht
      rw [k1] at h1
      have h2 : e.K * exp (-2 * InflT._N (y t)) ≤ 0 := mul_nonpos_of_nonpos_of_nonneg hK (exp_pos _).le
      have h3 : 0 < e.H (y t) ^ 2 := pow_pos (hp t ht) 2
      nlinarith

/-- **C79, Lyth bound, e-folds.** -/
theorem C79_lyth_efolds {e : InflN} {y : ℝ → ℕ → ℝ} {n1 n2 : ℝ} (h12 : n1 < n2) (hsub : Icc n1 n2 ⊆ S)
    (sol : SolvesODE S e.rows e.call y) (hH : ∀ n ∈ S, 0 < e.H2 n (y n)) (d2 d3 d4 : ℝ → ℝ) (pt : ℝ → SRPoint)
    (hpt : ∀ n, pt n = Primpy.N.srPoint n (e.H n (y n)) (InflN.dphidN (y n)) (d2 n) (d3 n) (d4 n) e.K) (he : ∀ n ∈ Icc n1 n2, 0 < (pt n).e1) :
    (∀ r0, 0 < r0 → 0 ≤ e.K → (∀ n ∈ Icc n1 n2, r0 ≤ Approx.Pt0 (pt n) / Approx.Ps0 (pt n)) →
      √(r0 / 8) * (n2 - n1) ≤ |InflN.phi (y n2) - InflN.phi (y n1)|) ∧
    (∀ r1, e.K ≤ 0 → (∀ n ∈ Icc n1 n2, Approx.Pt0 (pt n) / Approx.Ps0 (pt n) ≤ r1) →
      |InflN.phi (y n2) - InflN.phi (y n1)| ≤ √(r1 / 8) * (n2 - n1)) := by
  have r : 2 ≤ e.rows := by rw [InflN.rows_eq]; omega
  have hφ : ∀ n ∈ Icc n1 n2, HasDerivAt (fun n => InflN.phi (y n)) (InflN.dphidN (y n)) n := fun n hn =>
    (sol n (hsub hn) 0 (by omega)).congr_deriv (InflN.call0 e n (y n))
  have hN : ∀ n ∈ Icc n1 n2, HasDerivAt (fun n : ℝ => n) 1 n := fun n _ => hasDerivAt_id n
  have hp : ∀ n ∈ Icc n1 n2, 0 < e.H n (y n) := fun n hn => sqrt_pos.2 (hH n (hsub hn))
  have key : ∀ n ∈ Icc n1 n2, Approx.Pt0 (pt n) / Approx.Ps0 (pt n) = 16 * (pt n).e1 ∧
      2 * (pt n).e1 = InflN.dphidN (y n) ^ 2 - 2 * e.K * exp (-2 * n) / e.H n (y n) ^ 2 := fun n hn =>
    ⟨C55_r_leading _ (by rw [hpt]; exact (hp n hn).ne') (he n hn).ne', by rw [hpt]; exact N.e1_eq _ _ _ _ _ _ _ (hp n hn).ne'⟩
  constructor
  · intro r0 h0 hK hr
    refine excursion_ge h12 hφ hN (fun _ _ => one_pos) (fun n hn => sqrt_mul_le_abs zero_le_one (by linarith) ?_) (by linarith)
    obtain ⟨k1, k2⟩ := key n hn
    have h1 := hr n hn
    rw [k1] at h1
    have h2 : 0 ≤ 2 * e.K * exp (-2 * n) / e.H n (y n) ^ 2 := by positivity
    linarith
  · intro r1 hK hr
    refine excursion_le h12 hφ hN (fun _ _ => one_pos) (fun n hn => abs_le_sqrt_mul zero_le_one ?_ ?_) (by linarith)
    · have h1 := hr n hn
      rw [(key n hn).1] at h1
      have := he n hn
      linarith
    · obtain ⟨k1, k2⟩ := key n hn
      have h1 := hr n hn
      rw [k1] at h1
      have h2 : 2 * e.K * exp (-2 * n) / e.H n (y n) ^ 2 ≤ 0 :=
        div_nonpos_of_nonpos_of_nonneg (mul_nonpos_of_nonpos_of_nonneg (by linarith) (exp_pos _).le) (sq_nonneg _)
      linarith

/-- **C79, excursion while inflating, cosmic time.**  Whatever the potential: in a flat or open background with positive potential the field moves by less than `√6` Planck
masses per e-fold, and by at most `√2` while the universe inflates. -/
theorem C79_inflating_time {e : InflT} {y : ℝ → ℕ → ℝ} {t1 t2 : ℝ} (h12 : t1 < t2) (hsub : Icc t1 t2 ⊆ S)
    (sol : SolvesODE S e.rows e.call y) (hH : ∀ t ∈ S, 0 < e.H2 (y t)) (hK : e.K ≤ 0) :
    ((∀ t ∈ Icc t1 t2, 0 ≤ e.V (y t)) → |InflT.phi (y t2) - InflT.phi (y t1)| ≤ √6 * (InflT._N (y t2) - InflT._N (y t1))) ∧
    ((∀ t ∈ Icc t1 t2, 0 ≤ e.inflating (y t)) → |InflT.phi (y t2) - InflT.phi (y t1)| ≤ √2 * (InflT._N (y t2) - InflT._N (y t1))) := by
  have u := InflT.universe sol hH
  have hφ : ∀ t ∈ Icc t1 t2, HasDerivAt (fun t => InflT.phi (y t)) (InflT.dphidt (y t)) t := fun t ht => u.velocity t (hsub ht)
  have hN : ∀ t ∈ Icc t1 t2, HasDerivAt (fun t => InflT._N (y t)) (e.H (y t)) t := fun t ht => u.hubble t (hsub ht)
  have hp : ∀ t ∈ Icc t1 t2, 0 < e.H (y t) := fun t ht => u.expanding t (hsub ht)
  have inc := increments_nonneg h12 hN hp
  have fr : ∀ t ∈ Icc t1 t2, InflT.dphidt (y t) ^ 2 / 2 + e.V (y t) ≤ 3 * e.H (y t) ^ 2 := fun t ht => by
    have h := u.friedmann t (hsub ht)
    have h2 : e.K * exp (-2 * InflT._N (y t)) ≤ 0 := mul_nonpos_of_nonpos_of_nonneg hK (exp_pos _).le
    simp only [InflT.V] at h ⊢
    linarith
  constructor
  · intro hV
    refine excursion_le h12 hφ hN hp (fun t ht => abs_le_sqrt_mul (hp t ht).le (by norm_num) ?_) inc
    have := fr t ht; have := hV t ht; linarith
  · intro hi
    refine excursion_le h12 hφ hN hp (fun t ht => abs_le_sqrt_mul (hp t ht).le (by norm_num) ?_) inc
    have := fr t ht; have h := hi t ht
    simp only [InflT.inflating] at h
    linarith

/-- **C79, excursion while inflating, e-folds.** -/
theorem C79_inflating_efolds {e : InflN} {y : ℝ → ℕ → ℝ} {n1 n2 : ℝ} (h12 : n1 < n2) (hsub : Icc n1 n2 ⊆ S)
    (sol : SolvesODE S e.rows e.call y) (hH : ∀ n ∈ S, 0 < e.H2 n (y n)) (hK : e.K ≤ 0) :
    ((∀ n ∈ Icc n1 n2, 0 ≤ e.V (y n)) → |InflN.phi (y n2) - InflN.phi (y n1)| ≤ √6 * (n2 - n1)) ∧
    ((∀ n ∈ Icc n1 n2, 0 ≤ e.inflating n (y n)) → |InflN.phi (y n2) - InflN.phi (y n1)| ≤ √2 * (n2 - n1)) := by
  have r : 2 ≤ e.rows := by rw [InflN.rows_eq]; omega
  have hφ : ∀ n ∈ Icc n1 n2, HasDerivAt (fun n => InflN.phi (y n)) (InflN.dphidN (y n)) n := fun n hn =>
    (sol n (hsub hn) 0 (by omega)).congr_deriv (InflN.call0 e n (y n))
  have hN : ∀ n ∈ Icc n1 n2, HasDerivAt (fun n : ℝ => n) 1 n := fun n _ => hasDerivAt_id n
  have fr : ∀ n ∈ Icc n1 n2, 0 < e.H2 n (y n) ∧ e.H2 n (y n) * InflN.dphidN (y n) ^ 2 / 2 + e.V (y n) ≤ 3 * e.H2 n (y n) := fun n hn => by
    have h := hH n (hsub hn)
    have h2 : e.K * exp (-2 * n) ≤ 0 := mul_nonpos_of_nonpos_of_nonneg hK (exp_pos _).le
    refine ⟨h, ?_⟩
    have h6 := InflN.six_ne h
    have e1 : e.H2 n (y n) * (6 - InflN.dphidN (y n) ^ 2) = 2 * e.V (y n) - 6 * e.K * exp (-2 * n) := by
      simp only [InflN.H2, N.get_H2]
      field_simp
    linarith
  constructor
  · intro hV
    refine excursion_le h12 hφ hN (fun _ _ => one_pos) (fun n hn => abs_le_sqrt_mul zero_le_one (by norm_num) ?_) (by linarith)
    obtain ⟨h1, h2⟩ := fr n hn
    have := hV n hn
    have : e.H2 n (y n) * InflN.dphidN (y n) ^ 2 ≤ e.H2 n (y n) * 6 := by linarith
    have := le_of_mul_le_mul_left this h1
    linarith
  · intro hi
    refine excursion_le h12 hφ hN (fun _ _ => one_pos) (fun n hn => abs_le_sqrt_mul zero_le_one (by norm_num) ?_) (by linarith)
    obtain ⟨h1, h2⟩ := fr n hn
    have h := hi n hn
    simp only [InflN.inflating] at h
    have : e.H2 n (y n) * InflN.dphidN (y n) ^ 2 ≤ e.H2 n (y n) * 2 := by linarith
    have := le_of_mul_le_mul_left this h1
    linarith
end

/-! ## Non-vacuity: power-law inflation `a = t²`, `φ = 2 ln t`, constant ratio `r = 8`: the bound is attained -/

example : (∀ t ∈ Icc (1 : ℝ) 2, 8 ≤ Approx.Pt0 (T.srPoint (InflT._N (Exact.yFlatT t)) (Exact.flatT.H (Exact.yFlatT t)) (InflT.dphidt (Exact.yFlatT t)) 0 0 0 0) /
      Approx.Ps0 (T.srPoint (InflT._N (Exact.yFlatT t)) (Exact.flatT.H (Exact.yFlatT t)) (InflT.dphidt (Exact.yFlatT t)) 0 0 0 0)) ∧
    √(8 / 8) * (InflT._N (Exact.yFlatT 2) - InflT._N (Exact.yFlatT 1)) ≤ |InflT.phi (Exact.yFlatT 2) - InflT.phi (Exact.yFlatT 1)| ∧
    |InflT.phi (Exact.yFlatT 2) - InflT.phi (Exact.yFlatT 1)| ≤ √2 * (InflT._N (Exact.yFlatT 2) - InflT._N (Exact.yFlatT 1)) := by
  have hp : ∀ t ∈ Icc (1 : ℝ) 2, 0 < t := fun t ht => by linarith [ht.1]
  have e1 : ∀ t ∈ Icc (1 : ℝ) 2, (T.srPoint (InflT._N (Exact.yFlatT t)) (Exact.flatT.H (Exact.yFlatT t)) (InflT.dphidt (Exact.yFlatT t)) 0 0 0 0).e1 = 1 / 2 := by
    intro t ht
    have := (hp t ht).ne'
    simp only [T.srPoint, T.get_epsilon_1H, T.get_dH, Exact.flatT_H (hp t ht), InflT.dphidt, Exact.yFlatT, zero_mul, add_zero]
    field_simp
  have hr : ∀ t ∈ Icc (1 : ℝ) 2, 8 ≤ Approx.Pt0 (T.srPoint (InflT._N (Exact.yFlatT t)) (Exact.flatT.H (Exact.yFlatT t)) (InflT.dphidt (Exact.yFlatT t)) 0 0 0 0) /
      Approx.Ps0 (T.srPoint (InflT._N (Exact.yFlatT t)) (Exact.flatT.H (Exact.yFlatT t)) (InflT.dphidt (Exact.yFlatT t)) 0 0 0 0) := by
    intro t ht
    rw [C55_r_leading _ (by simp only [T.srPoint, Exact.flatT_H (hp t ht)]; exact (div_pos two_pos (hp t ht)).ne') (by rw [e1 t ht]; norm_num), e1 t ht]
    norm_num
  have hH : ∀ t ∈ Ioi (0 : ℝ), 0 < Exact.flatT.H2 (Exact.yFlatT t) := fun t ht => by
    rw [Exact.flatT_H2 ht]; exact pow_pos (div_pos two_pos ht) 2
  have hsub : Icc (1 : ℝ) 2 ⊆ Ioi 0 := fun t ht => hp t ht
  refine ⟨hr, (C79_lyth_time (by norm_num) hsub Exact.flatT_sol hH (fun _ => 0) (fun _ => 0) (fun _ => 0) _ (fun _ => rfl) (fun t ht => by
    show 0 < (T.srPoint _ _ _ 0 0 0 0).e1
    rw [e1 t ht]; norm_num)).1 8 (by norm_num) le_rfl hr, (C79_inflating_time (by norm_num) hsub Exact.flatT_sol hH le_rfl).2 fun t ht => ?_⟩
  have ht' := hp t ht
  simp only [InflT.inflating, InflT.V, InflT.phi, InflT.dphidt, Exact.flatT, Exact.expPot, Exact.yFlatT]
  rw [Exact.exp_neg_two_log ht', sub_nonneg, div_pow, div_le_iff₀ (pow_pos ht' 2)]
  field_simp
  norm_num

end Primpy
