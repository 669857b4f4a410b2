import Verif.Props.C55
import Mathlib.NumberTheory.Harmonic.GammaDeriv
import Mathlib.NumberTheory.ZetaValues
import Mathlib.Analysis.Calculus.SmoothSeries

/-!
# The Gamma function around 3/2, through third order

`ln(2^x Γ(3/2+x)/Γ(3/2)) = α x + (π²/4 - 2) x² + (8 - 7ζ(3))/3 x³ + O(x⁴)`, from Euler's limit formula.
-/

namespace Primpy.GammaExp
open Real Filter Topology Asymptotics Set

/-- The terms of Euler's formula, `ln Γ(x) = -ln x + Σ_m u_m(x)`, and their derivatives. -/
noncomputable def u (m : ℕ) (x : ℝ) : ℝ := x * log (1 + 1 / ((m:ℝ) + 1)) - log (1 + x / ((m:ℝ) + 1))
noncomputable def u1 (m : ℕ) (x : ℝ) : ℝ := log (1 + 1 / ((m:ℝ) + 1)) - 1 / ((m:ℝ) + 1 + x)
noncomputable def u2 (m : ℕ) (x : ℝ) : ℝ := 1 / ((m:ℝ) + 1 + x) ^ 2
noncomputable def u3 (m : ℕ) (x : ℝ) : ℝ := -2 / ((m:ℝ) + 1 + x) ^ 3
noncomputable def u4 (m : ℕ) (x : ℝ) : ℝ := 6 / ((m:ℝ) + 1 + x) ^ 4

theorem hasDeriv_u (m : ℕ) {x : ℝ} (hx : 0 < x) : HasDerivAt (u m) (u1 m x) x := by
  have hm : (0:ℝ) < (m:ℝ) + 1 := by positivity
  have h1 : (1 + x / ((m:ℝ) + 1)) ≠ 0 := by positivity
  refine (((hasDerivAt_id x).mul_const _).fun_sub ((((hasDerivAt_id x).div_const _).const_add 1).log h1)).congr_deriv ?_
  unfold u1
  simp only [id]
  field_simp

theorem hasDeriv_inv (m n : ℕ) (c : ℝ) {x : ℝ} (hx : 0 < x) :
    HasDerivAt (fun y => c / ((m:ℝ) + 1 + y) ^ n) (-(n * c) / ((m:ℝ) + 1 + x) ^ (n + 1)) x := by
  have hm : (0:ℝ) < (m:ℝ) + 1 + x := by positivity
  have h := (((hasDerivAt_id x).const_add ((m:ℝ) + 1)).fun_pow n)
  refine ((hasDerivAt_const x c).fun_div h (by simp only [id]; positivity)).congr_deriv ?_
  simp only [id]
  rcases n with _ | n
  · simp
  · have := hm.ne'
    push_cast
    field_simp
    ring

theorem hasDeriv_u1 (m : ℕ) {x : ℝ} (hx : 0 < x) : HasDerivAt (u1 m) (u2 m x) x := by
  have h := (hasDeriv_inv m 1 1 hx).const_sub (log (1 + 1 / ((m:ℝ) + 1)))
  refine (h.congr_of_eventuallyEq (Eventually.of_forall fun y => ?_)).congr_deriv ?_
  · simp only [u1, pow_one]
  · unfold u2; push_cast; ring
theorem hasDeriv_u2 (m : ℕ) {x : ℝ} (hx : 0 < x) : HasDerivAt (u2 m) (u3 m x) x := by
  refine (hasDeriv_inv m 2 1 hx).congr_deriv ?_
  unfold u3; push_cast; ring
theorem hasDeriv_u3 (m : ℕ) {x : ℝ} (hx : 0 < x) : HasDerivAt (u3 m) (u4 m x) x := by
  refine (hasDeriv_inv m 3 (-2) hx).congr_deriv ?_
  unfold u4; push_cast; ring

/-- A common summable bound. -/
noncomputable def bd (m : ℕ) : ℝ := 6 / ((m:ℝ) + 1) ^ 2

theorem bd_summable : Summable bd := by
  have h : Summable fun n : ℕ => (1:ℝ) / (n:ℝ) ^ 2 := hasSum_zeta_two.summable
  have h1 := ((summable_nat_add_iff 1).2 h).mul_left 6
  refine h1.congr fun m => ?_
  simp only [bd]; push_cast; ring

theorem log_bounds (m : ℕ) : 1 / ((m:ℝ) + 2) ≤ log (1 + 1 / ((m:ℝ) + 1)) ∧
    log (1 + 1 / ((m:ℝ) + 1)) ≤ 1 / ((m:ℝ) + 1) := by
  have hm : (0:ℝ) < (m:ℝ) + 1 := by positivity
  have hp : (0:ℝ) < 1 + 1 / ((m:ℝ) + 1) := by positivity
  constructor
  · refine le_trans (le_of_eq ?_) (one_sub_inv_le_log_of_pos hp)
    field_simp
    ring
  · have := log_le_sub_one_of_pos hp
    linarith

theorem bd_u1 (m : ℕ) {x : ℝ} (hx : x ∈ Ioo (0:ℝ) 3) : ‖u1 m x‖ ≤ bd m := by
  have hm : (0:ℝ) ≤ m := Nat.cast_nonneg m
  obtain ⟨l1, l2⟩ := log_bounds m
  have h1 : 1 / ((m:ℝ) + 1 + x) ≤ 1 / ((m:ℝ) + 1) := one_div_le_one_div_of_le (by positivity) (by linarith [hx.1])
  have h2 : 1 / ((m:ℝ) + 4) ≤ 1 / ((m:ℝ) + 1 + x) := one_div_le_one_div_of_le (by linarith [hx.1]) (by linarith [hx.2])
  have h3 : 1 / ((m:ℝ) + 4) ≤ 1 / ((m:ℝ) + 2) := one_div_le_one_div_of_le (by positivity) (by linarith)
  have h4 : 1 / ((m:ℝ) + 1) - 1 / ((m:ℝ) + 4) ≤ bd m := by
    unfold bd
    rw [div_sub_div _ _ (by positivity) (by positivity), div_le_div_iff₀ (by positivity) (by positivity)]
    nlinarith
  rw [Real.norm_eq_abs, abs_le]
  unfold u1
  constructor <;> linarith

theorem bd_pow (m n : ℕ) (c : ℝ) (hn : 2 ≤ n) (hc : |c| ≤ 6) {x : ℝ} (hx : 0 < x) :
    ‖c / ((m:ℝ) + 1 + x) ^ n‖ ≤ bd m := by
  have hm : (0:ℝ) ≤ m := Nat.cast_nonneg m
  have h1 : (1:ℝ) ≤ (m:ℝ) + 1 + x := by linarith
  have h2 : ((m:ℝ) + 1) ^ 2 ≤ ((m:ℝ) + 1 + x) ^ n :=
    (pow_le_pow_left₀ (by positivity) (by linarith) 2).trans (pow_le_pow_right₀ h1 hn)
  rw [norm_div, Real.norm_eq_abs, Real.norm_eq_abs, abs_of_pos (by positivity : 0 < ((m:ℝ) + 1 + x) ^ n)]
  exact div_le_div₀ (by norm_num) hc (by positivity) h2

theorem bd_u2 (m : ℕ) {x : ℝ} (hx : 0 < x) : ‖u2 m x‖ ≤ bd m := bd_pow m 2 1 le_rfl (by norm_num) hx
theorem bd_u3 (m : ℕ) {x : ℝ} (hx : 0 < x) : ‖u3 m x‖ ≤ bd m := bd_pow m 3 (-2) (by norm_num) (by norm_num) hx
theorem bd_u4 (m : ℕ) {x : ℝ} (hx : 0 < x) : ‖u4 m x‖ ≤ bd m := bd_pow m 4 6 (by norm_num) (by norm_num) hx

theorem summable_u1 {x : ℝ} (hx : x ∈ Ioo (0:ℝ) 3) : Summable fun m => u1 m x :=
  .of_norm_bounded bd_summable fun m => bd_u1 m hx
theorem summable_u2 {x : ℝ} (hx : 0 < x) : Summable fun m => u2 m x :=
  .of_norm_bounded bd_summable fun m => bd_u2 m hx
theorem summable_u3 {x : ℝ} (hx : 0 < x) : Summable fun m => u3 m x :=
  .of_norm_bounded bd_summable fun m => bd_u3 m hx

theorem one_mem : (1:ℝ) ∈ Ioo (0:ℝ) 3 := ⟨by norm_num, by norm_num⟩
theorem summable_u_one : Summable fun m => u m 1 := by
  have : (fun m => u m 1) = fun _ => (0:ℝ) := by funext m; unfold u; ring
  rw [this]; exact summable_zero

theorem summable_u {x : ℝ} (hx : x ∈ Ioo (0:ℝ) 3) : Summable fun m => u m x :=
  summable_of_summable_hasDerivAt_of_isPreconnected bd_summable isOpen_Ioo isPreconnected_Ioo
    (fun m y hy => hasDeriv_u m hy.1) (fun m y hy => bd_u1 m hy) one_mem summable_u_one hx

theorem deriv_U {x : ℝ} (hx : x ∈ Ioo (0:ℝ) 3) : HasDerivAt (fun y => ∑' m, u m y) (∑' m, u1 m x) x :=
  hasDerivAt_tsum_of_isPreconnected bd_summable isOpen_Ioo isPreconnected_Ioo
    (fun m y hy => hasDeriv_u m hy.1) (fun m y hy => bd_u1 m hy) one_mem summable_u_one hx
theorem deriv_U1 {x : ℝ} (hx : x ∈ Ioo (0:ℝ) 3) : HasDerivAt (fun y => ∑' m, u1 m y) (∑' m, u2 m x) x :=
  hasDerivAt_tsum_of_isPreconnected bd_summable isOpen_Ioo isPreconnected_Ioo
    (fun m y hy => hasDeriv_u1 m hy.1) (fun m y hy => bd_u2 m hy.1) one_mem (summable_u1 one_mem) hx
theorem deriv_U2 {x : ℝ} (hx : x ∈ Ioo (0:ℝ) 3) : HasDerivAt (fun y => ∑' m, u2 m y) (∑' m, u3 m x) x :=
  hasDerivAt_tsum_of_isPreconnected bd_summable isOpen_Ioo isPreconnected_Ioo
    (fun m y hy => hasDeriv_u2 m hy.1) (fun m y hy => bd_u3 m hy.1) one_mem (summable_u2 one_pos) hx
theorem deriv_U3 {x : ℝ} (hx : x ∈ Ioo (0:ℝ) 3) : HasDerivAt (fun y => ∑' m, u3 m y) (∑' m, u4 m x) x :=
  hasDerivAt_tsum_of_isPreconnected bd_summable isOpen_Ioo isPreconnected_Ioo
    (fun m y hy => hasDeriv_u3 m hy.1) (fun m y hy => bd_u4 m hy.1) one_mem (summable_u3 one_pos) hx

/-- Partial sums of Euler's formula. -/
theorem partial_sum {x : ℝ} (hx : 0 < x) (n : ℕ) (hn : n ≠ 0) : ∑ m ∈ Finset.range n, u m x =
    BohrMollerup.logGammaSeq x n + log x + x * (log ((n:ℝ) + 1) - log n) := by
  have key : ∀ n : ℕ, ∑ m ∈ Finset.range n, u m x = x * log ((n:ℝ) + 1) + log (n.factorial : ℝ)
      - ∑ m ∈ Finset.range (n + 1), log (x + m) + log x := by
    intro n
    induction n with
    | zero => simp
    | succ n ih =>
      rw [Finset.sum_range_succ, ih, Finset.sum_range_succ _ (n + 1), Nat.factorial_succ]
      have hn1 : (0:ℝ) < (n:ℝ) + 1 := by positivity
      have hf : (0:ℝ) < (n.factorial : ℝ) := by positivity
      push_cast
      rw [log_mul hn1.ne' hf.ne']
      unfold u
      rw [show 1 + 1 / ((n:ℝ) + 1) = ((n:ℝ) + 1 + 1) / ((n:ℝ) + 1) by field_simp,
        show 1 + x / ((n:ℝ) + 1) = (x + ((n:ℝ) + 1)) / ((n:ℝ) + 1) by field_simp; ring,
        log_div (by positivity) hn1.ne', log_div (by positivity) hn1.ne']
      ring
  rw [key, BohrMollerup.logGammaSeq]
  ring

/-- Euler's formula. -/
theorem log_Gamma_eq {x : ℝ} (hx : x ∈ Ioo (0:ℝ) 3) : log (Gamma x) = -log x + ∑' m, u m x := by
  have h1 := (summable_u hx).hasSum.tendsto_sum_nat
  have h2 : Tendsto (fun n : ℕ => BohrMollerup.logGammaSeq x n + log x + x * (log ((n:ℝ) + 1) - log n)) atTop
      (𝓝 (log (Gamma x) + log x + x * 0)) :=
    ((BohrMollerup.tendsto_log_gamma hx.1).add_const _).add (tendsto_log_nat_add_one_sub_log.const_mul x)
  have h3 : (fun n : ℕ => BohrMollerup.logGammaSeq x n + log x + x * (log ((n:ℝ) + 1) - log n)) =ᶠ[atTop]
      fun n => ∑ m ∈ Finset.range n, u m x := by
    filter_upwards [eventually_ne_atTop 0] with n hn
    exact (partial_sum hx.1 n hn).symm
  have := tendsto_nhds_unique (h2.congr' h3) h1
  linarith

/-- `ln Γ(1+x) = Σ_m u_m(x)`. -/
theorem log_Gamma_add_one {x : ℝ} (hx : x ∈ Ioo (0:ℝ) 3) : log (Gamma (x + 1)) = ∑' m, u m x := by
  rw [Gamma_add_one hx.1.ne', log_mul hx.1.ne' (Gamma_pos_of_pos hx.1).ne', log_Gamma_eq hx]
  ring

/-! ### Values at 1/2 -/

theorem half_mem : (1 / 2 : ℝ) ∈ Ioo (0:ℝ) 3 := ⟨by norm_num, by norm_num⟩

/-- `Σ 1/(m+3/2)^k = (2^k - 1) ζ(k) - 2^k`. -/
theorem odd_sum (k : ℕ) (S : ℝ) (hS : HasSum (fun n : ℕ => 1 / ((n:ℝ) + 1) ^ k) S) :
    HasSum (fun n : ℕ => 1 / ((n:ℝ) + 1 + 1 / 2) ^ k) ((2 ^ k - 1) * S - 2 ^ k) := by
  have h2 : (2:ℝ) ^ k ≠ 0 := by positivity
  have hodd : HasSum (fun n : ℕ => 1 / (((2 * n + 1 : ℕ) : ℝ) + 1) ^ k) (S / 2 ^ k) := by
    have := hS.div_const (2 ^ k)
    convert! this using 2 with n
    push_cast
    rw [show (2 * (n:ℝ) + 1 + 1) = ((n:ℝ) + 1) * 2 by ring, mul_pow, div_div]
  have hsum : Summable fun n : ℕ => 1 / (((2 * n : ℕ) : ℝ) + 1) ^ k :=
    hS.summable.comp_injective (i := fun n : ℕ => 2 * n) (fun a b h => by simpa using h)
  have hsplit := hsum.hasSum.even_add_odd (f := fun n : ℕ => 1 / ((n:ℝ) + 1) ^ k) hodd
  have hA : ∑' n : ℕ, 1 / (((2 * n : ℕ) : ℝ) + 1) ^ k = S - S / 2 ^ k := by
    have := hsplit.unique hS
    linarith
  have h3 : HasSum (fun n : ℕ => 1 / ((n:ℝ) + 1 / 2) ^ k) (2 ^ k * (S - S / 2 ^ k)) := by
    have h := hsum.hasSum.mul_left (2 ^ k)
    rw [hA] at h
    convert! h using 2 with n
    push_cast
    rw [show (2 * (n:ℝ) + 1) = 2 * ((n:ℝ) + 1 / 2) by ring, mul_pow]
    have : ((n:ℝ) + 1 / 2) ^ k ≠ 0 := by positivity
    field_simp
  have h4 := (hasSum_nat_add_iff' 1).2 h3
  simp only [Finset.sum_range_one, Nat.cast_zero, zero_add] at h4
  convert! h4 using 1
  · funext n; push_cast; rfl
  · rw [one_div, one_div, inv_pow, inv_inv]
    field_simp

theorem U2_half : ∑' m, u2 m (1 / 2) = π ^ 2 / 2 - 4 := by
  have hS : HasSum (fun n : ℕ => 1 / ((n:ℝ) + 1) ^ 2) (π ^ 2 / 6) := by
    have := (hasSum_nat_add_iff' 1).2 hasSum_zeta_two
    simpa using this
  have := (odd_sum 2 _ hS).tsum_eq
  unfold u2
  rw [this]
  ring

theorem summable_zeta3 : Summable fun n : ℕ => 1 / ((n:ℝ) + 1) ^ 3 := by
  have h : Summable fun n : ℕ => (1:ℝ) / (n:ℝ) ^ 3 := Real.summable_one_div_nat_pow.2 (by norm_num)
  refine ((summable_nat_add_iff 1).2 h).congr fun n => ?_
  push_cast; rfl

theorem U3_half : ∑' m, u3 m (1 / 2) = 16 - 14 * Approx.zeta3 := by
  have := ((odd_sum 3 _ summable_zeta3.hasSum).mul_left (-2)).tsum_eq
  rw [← Approx.zeta3] at this
  have e : ∀ m : ℕ, u3 m (1 / 2) = -2 * (1 / ((m:ℝ) + 1 + 1 / 2) ^ 3) := fun m => by unfold u3; ring
  simp only [e]
  rw [this]
  ring

theorem U1_half : ∑' m, u1 m (1 / 2) = 2 - 2 * log 2 - eulerMascheroniConstant := by
  have h1 := deriv_U half_mem
  have h2 : HasDerivAt (fun x => log x + log (Gamma x)) (1 / (1 / 2)
      + (-√π * (eulerMascheroniConstant + 2 * log 2)) / Gamma (1 / 2)) (1 / 2) := by
    have := (Real.hasDerivAt_log (x := 1 / 2) (by norm_num)).fun_add
      (Real.hasDerivAt_Gamma_one_half.log (Gamma_pos_of_pos (by norm_num)).ne')
    exact this.congr_deriv (by rw [one_div, one_div])
  have h3 : (fun x => log x + log (Gamma x)) =ᶠ[𝓝 (1 / 2)] fun x => ∑' m, u m x := by
    filter_upwards [isOpen_Ioo.mem_nhds half_mem] with x hx
    rw [log_Gamma_eq hx]; ring
  have := (h2.congr_of_eventuallyEq h3.symm).unique h1
  rw [← this, Gamma_one_half_eq]
  have hp : √π ≠ 0 := (Real.sqrt_pos.2 pi_pos).ne'
  field_simp
  ring

/-! ### The expansion -/

/-- Integrating an order estimate. -/
theorem isBigO_of_deriv {f f' : ℝ → ℝ} (n : ℕ) (h : ∀ᶠ x in 𝓝 (0:ℝ), HasDerivAt f (f' x) x) (h0 : f 0 = 0)
    (hf : f' =O[𝓝 0] fun x => x ^ n) : f =O[𝓝 0] fun x => x ^ (n + 1) := by
  obtain ⟨c, hc⟩ := hf.bound
  obtain ⟨r, hr, hball⟩ := Metric.eventually_nhds_iff_ball.1 (h.and hc)
  refine IsBigO.of_bound c ?_
  filter_upwards [Metric.ball_mem_nhds (0:ℝ) hr] with x hx
  have hc0 : ∀ y ∈ Icc (-|x|) |x|, ‖f' y‖ ≤ c * |x| ^ n := by
    intro y hy
    have hyx : |y| ≤ |x| := abs_le.2 hy
    have hyb : y ∈ Metric.ball (0:ℝ) r := by
      rw [Metric.mem_ball, dist_zero_right] at hx ⊢
      exact lt_of_le_of_lt hyx hx
    have k := (hball y hyb).2
    rw [norm_pow, Real.norm_eq_abs y] at k
    have hcn : 0 ≤ c * |y| ^ n := (norm_nonneg _).trans k
    rcases eq_or_ne (|y| ^ n) 0 with hz | hz
    · rw [hz, mul_zero] at k
      rcases Nat.eq_zero_or_pos n with rfl | hn
      · simp at hz
      · -- `y = 0`: then `f' y = 0`; only `c ≥ 0` could fail
        rcases le_or_gt 0 c with hcc | hcc
        · exact k.trans (by positivity)
        · exfalso
          obtain ⟨w, hw0, hw⟩ : ∃ w : ℝ, w ≠ 0 ∧ w ∈ Metric.ball (0:ℝ) r :=
            ⟨r / 2, by positivity, by rw [Metric.mem_ball, dist_zero_right, Real.norm_eq_abs, abs_of_pos (by positivity)]; linarith⟩
          have kw := (norm_nonneg _).trans (hball w hw).2
          rw [norm_pow, Real.norm_eq_abs] at kw
          have : 0 < |w| ^ n := pow_pos (abs_pos.2 hw0) n
          nlinarith
    · have hpos : 0 < |y| ^ n := lt_of_le_of_ne (by positivity) (Ne.symm hz)
      have hcc : 0 ≤ c := by
        by_contra hneg
        push Not at hneg
        nlinarith
      exact k.trans (mul_le_mul_of_nonneg_left (pow_le_pow_left₀ (abs_nonneg _) hyx n) hcc)
  have hd : ∀ y ∈ Icc (-|x|) |x|, HasDerivWithinAt f (f' y) (Icc (-|x|) |x|) y := by
    intro y hy
    have hyb : y ∈ Metric.ball (0:ℝ) r := by
      rw [Metric.mem_ball, dist_zero_right] at hx ⊢
      exact lt_of_le_of_lt (abs_le.2 hy) hx
    exact (hball y hyb).1.hasDerivWithinAt
  have key := (convex_Icc (-|x|) |x|).norm_image_sub_le_of_norm_hasDerivWithin_le hd hc0
    (x := 0) (y := x) ⟨by simp, abs_nonneg x⟩ ⟨neg_abs_le x, le_abs_self x⟩
  rw [h0, sub_zero, sub_zero] at key
  refine key.trans (le_of_eq ?_)
  rw [norm_pow, Real.norm_eq_abs]
  ring

/-- **`ln Γ` around 3/2.** -/
theorem log_Gamma_expansion :
    (fun x => log (Gamma (3 / 2 + x) / Gamma (3 / 2)) - ((2 - 2 * log 2 - eulerMascheroniConstant) * x
      + (π ^ 2 / 4 - 2) * x ^ 2 + (8 - 7 * Approx.zeta3) / 3 * x ^ 3)) =O[𝓝 0] fun x : ℝ => x ^ 4 := by
  have hI : ∀ᶠ x in 𝓝 (0:ℝ), 1 / 2 + x ∈ Ioo (0:ℝ) 3 := by
    have : ContinuousAt (fun x : ℝ => 1 / 2 + x) 0 := by fun_prop
    exact this.eventually_mem (isOpen_Ioo.mem_nhds (by simpa using half_mem))
  have shift : ∀ {g : ℝ → ℝ} {g' x : ℝ}, HasDerivAt g g' (1 / 2 + x) → HasDerivAt (fun y => g (1 / 2 + y)) g' x := by
    intro g g' x h
    exact h.comp_const_add (1 / 2) x
  obtain ⟨c1, h1⟩ : ∃ c, c = ∑' m, u1 m (1 / 2) := ⟨_, rfl⟩
  obtain ⟨c2, h2⟩ : ∃ c, c = ∑' m, u2 m (1 / 2) := ⟨_, rfl⟩
  obtain ⟨c3, h3⟩ : ∃ c, c = ∑' m, u3 m (1 / 2) := ⟨_, rfl⟩
  have s3 : (fun x => ∑' m, u3 m (1 / 2 + x) - c3) =O[𝓝 0] fun x : ℝ => x ^ 1 := by
    have := (shift (x := 0) (by simpa using deriv_U3 half_mem)).differentiableAt.isBigO_sub
    simpa [h3] using this
  have s2 : (fun x => ∑' m, u2 m (1 / 2 + x) - (c2 + c3 * x)) =O[𝓝 0] fun x : ℝ => x ^ 2 := by
    refine isBigO_of_deriv 1 ?_ (by simp [h2]) s3
    filter_upwards [hI] with x hx
    refine ((shift (deriv_U2 hx)).fun_sub (((hasDerivAt_id x).const_mul c3).const_add c2)).congr_deriv ?_
    simp
  have s1 : (fun x => ∑' m, u1 m (1 / 2 + x) - (c1 + c2 * x + c3 / 2 * x ^ 2)) =O[𝓝 0] fun x : ℝ => x ^ 3 := by
    refine isBigO_of_deriv 2 ?_ (by simp [h1]) s2
    filter_upwards [hI] with x hx
    refine ((shift (deriv_U1 hx)).fun_sub ((((hasDerivAt_id x).const_mul c2).const_add c1).fun_add
      (((hasDerivAt_id x).fun_pow 2).const_mul (c3 / 2)))).congr_deriv ?_
    simp only [id]; push_cast; ring
  have s0 : (fun x => ∑' m, u m (1 / 2 + x) - (∑' m, u m (1 / 2) + c1 * x + c2 / 2 * x ^ 2 + c3 / 6 * x ^ 3))
      =O[𝓝 0] fun x : ℝ => x ^ 4 := by
    refine isBigO_of_deriv 3 ?_ (by simp) s1
    filter_upwards [hI] with x hx
    refine ((shift (deriv_U hx)).fun_sub (((((hasDerivAt_id x).const_mul c1).const_add (∑' m, u m (1 / 2))).fun_add
      (((hasDerivAt_id x).fun_pow 2).const_mul (c2 / 2))).fun_add
      (((hasDerivAt_id x).fun_pow 3).const_mul (c3 / 6)))).congr_deriv ?_
    simp only [id]; push_cast; ring
  rw [U1_half] at h1
  rw [U2_half] at h2
  rw [U3_half] at h3
  refine s0.congr' ?_ EventuallyEq.rfl
  filter_upwards [hI] with x hx
  have g1 : 0 < Gamma (3 / 2 + x) := Gamma_pos_of_pos (by linarith [hx.1])
  have g2 : 0 < Gamma (3 / 2) := Gamma_pos_of_pos (by norm_num)
  rw [log_div g1.ne' g2.ne', show (3 / 2 : ℝ) + x = 1 / 2 + x + 1 by ring, log_Gamma_add_one hx,
    show (3 / 2 : ℝ) = 1 / 2 + 1 by norm_num, log_Gamma_add_one half_mem, h1, h2, h3]
  ring

end Primpy.GammaExp
