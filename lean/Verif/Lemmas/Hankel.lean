import Mathlib.Analysis.SpecialFunctions.Gaussian.GaussianIntegral
import Mathlib.Analysis.SpecialFunctions.Gamma.Beta
import Mathlib.Analysis.SpecialFunctions.Pow.Deriv
import Mathlib.Analysis.Calculus.ParametricIntegral
import Mathlib.MeasureTheory.Integral.IntegralEqImproper
import Mathlib.MeasureTheory.Integral.DominatedConvergence
import Mathlib.Analysis.Calculus.Deriv.Star

/-!
# The Bunch-Davies mode function of power-law inflation

`f'' + (1 - m (m+1)/x²) f = 0` with `f ~ e^{ix}` for `x → ∞` (a Hankel function of order `m + 1/2`), constructed from Hankel's integral
representation, with its limits for `x → ∞` and `x → 0`.
-/

namespace Primpy.Hankel
open Real Set MeasureTheory Filter Topology

/-- the integrand -/
noncomputable def ker (m b y p s : ℝ) : ℂ := ((s ^ p * exp (-b * s) : ℝ) : ℂ) * (1 + Complex.I * (y * s : ℝ)) ^ (m : ℂ)

theorem one_add_slit (r : ℝ) : (1 + Complex.I * (r : ℝ) : ℂ) ∈ Complex.slitPlane := by
  left; simp

theorem one_add_ne (r : ℝ) : (1 + Complex.I * (r : ℝ) : ℂ) ≠ 0 := Complex.slitPlane_ne_zero (one_add_slit r)

theorem norm_pow_le {m r : ℝ} (hm : 0 ≤ m) (hr : 0 ≤ r) : ‖(1 + Complex.I * (r : ℝ) : ℂ) ^ (m : ℂ)‖ ≤ 2 ^ m * (1 + r ^ m) := by
  rw [Complex.norm_cpow_real]
  have h1 : ‖(1 + Complex.I * (r : ℝ) : ℂ)‖ ≤ 1 + r := by
    refine (norm_add_le _ _).trans ?_
    rw [norm_one, norm_mul, Complex.norm_I, one_mul, Complex.norm_real, norm_of_nonneg hr]
  refine (rpow_le_rpow (norm_nonneg _) h1 hm).trans ?_
  rcases le_total r 1 with h | h
  · calc (1 + r) ^ m ≤ 2 ^ m := rpow_le_rpow (by linarith) (by linarith) hm
      _ ≤ _ := by
        have : 0 ≤ r ^ m := rpow_nonneg hr m
        have h2 : (0:ℝ) ≤ 2 ^ m := by positivity
        nlinarith
  · calc (1 + r) ^ m ≤ (2 * r) ^ m := rpow_le_rpow (by linarith) (by linarith) hm
      _ = 2 ^ m * r ^ m := mul_rpow (by norm_num) hr
      _ ≤ _ := by
        have h2 : (0:ℝ) ≤ 2 ^ m := by positivity
        nlinarith

theorem ofReal_mul_cpow {r : ℝ} (hr : 0 < r) {z : ℂ} (hz : z ≠ 0) (w : ℂ) : ((r : ℂ) * z) ^ w = (r : ℂ) ^ w * z ^ w := by
  have hr' : (r : ℂ) ≠ 0 := by exact_mod_cast hr.ne'
  rw [Complex.cpow_def_of_ne_zero (mul_ne_zero hr' hz), Complex.cpow_def_of_ne_zero hr', Complex.cpow_def_of_ne_zero hz,
    Complex.log_ofReal_mul hr hz, ← Complex.exp_add, Complex.ofReal_log hr.le, add_mul]

/-- integrable majorant -/
noncomputable def maj (m b y p s : ℝ) : ℝ := 2 ^ m * (s ^ p * exp (-b * s)) + 2 ^ m * y ^ m * (s ^ (p + m) * exp (-b * s))

theorem norm_ker_le {m b y p s : ℝ} (hm : 0 ≤ m) (hy : 0 ≤ y) (hs : 0 < s) : ‖ker m b y p s‖ ≤ maj m b y p s := by
  unfold ker maj
  rw [norm_mul, Complex.norm_real, norm_of_nonneg (by positivity)]
  refine (mul_le_mul_of_nonneg_left (norm_pow_le hm (mul_nonneg hy hs.le)) (by positivity)).trans (le_of_eq ?_)
  rw [mul_rpow hy hs.le, rpow_add hs]
  ring

theorem integrable_base {b p : ℝ} (hb : 0 < b) (hp : -1 < p) : IntegrableOn (fun s : ℝ => s ^ p * exp (-b * s)) (Ioi 0) := by
  have h := integrableOn_rpow_mul_exp_neg_mul_rpow (p := 1) hp one_pos hb
  simpa only [rpow_one] using h

theorem integrable_maj {m b y p : ℝ} (hm : 0 ≤ m) (hb : 0 < b) (hp : -1 < p) : IntegrableOn (maj m b y p) (Ioi 0) :=
  ((integrable_base hb hp).const_mul _).add ((integrable_base hb (by linarith)).const_mul _)

theorem continuousOn_ker (m b y p : ℝ) : ContinuousOn (ker m b y p) (Ioi 0) := by
  unfold ker
  refine ContinuousOn.mul ?_ ?_
  · refine Complex.continuous_ofReal.comp_continuousOn ?_
    refine ContinuousOn.mul ?_ (by fun_prop)
    exact fun s hs => (continuousAt_rpow_const s p (Or.inl (ne_of_gt hs))).continuousWithinAt
  · exact fun s _ => (ContinuousAt.cpow (f := fun s : ℝ => (1 + Complex.I * ((y * s : ℝ) : ℂ) : ℂ)) (by fun_prop) continuousAt_const
      (one_add_slit (y * s))).continuousWithinAt

theorem meas_ker (m b y p : ℝ) : AEStronglyMeasurable (ker m b y p) (volume.restrict (Ioi 0)) :=
  (continuousOn_ker m b y p).aestronglyMeasurable measurableSet_Ioi

theorem integrable_ker {m b y p : ℝ} (hm : 0 ≤ m) (hb : 0 < b) (hy : 0 ≤ y) (hp : -1 < p) : IntegrableOn (ker m b y p) (Ioi 0) :=
  Integrable.mono' (integrable_maj hm hb hp) (meas_ker m b y p) ((ae_restrict_iff' measurableSet_Ioi).2 (.of_forall fun _ hs => norm_ker_le hm hy hs))

/-- Hankel's integral `∫₀^∞ s^p e^{-bs} (1 + i y s)^m ds` -/
noncomputable def L (m b y p : ℝ) : ℂ := ∫ s in Ioi 0, ker m b y p s

theorem hasDerivAt_L {m b y p : ℝ} (hm : 0 ≤ m) (hb : 0 < b) (hy : 0 ≤ y) (hp : -1 < p) :
    HasDerivAt (fun b => L m b y p) (-L m b y (p + 1)) b := by
  have key := hasDerivAt_integral_of_dominated_loc_of_deriv_le (μ := volume.restrict (Ioi 0)) (x₀ := b) (s := Ioi (b / 2))
    (F := fun b s => ker m b y p s) (F' := fun b s => -ker m b y (p + 1) s) (bound := maj m (b / 2) y (p + 1))
    (Ioi_mem_nhds (by linarith)) (.of_forall fun _ => meas_ker _ _ _ _) (integrable_ker hm hb hy hp) (meas_ker _ _ _ _).neg
    ?_ (integrable_maj hm (by linarith) (by linarith)) ?_
  · have h2 := key.2
    rw [integral_neg] at h2
    exact h2
  · refine (ae_restrict_iff' measurableSet_Ioi).2 (.of_forall fun s (hs : 0 < s) x (hx : b / 2 < x) => ?_)
    rw [norm_neg]
    refine (norm_ker_le hm hy hs).trans ?_
    unfold maj
    have he : exp (-x * s) ≤ exp (-(b / 2) * s) := exp_le_exp.2 (by nlinarith)
    gcongr
  · refine (ae_restrict_iff' measurableSet_Ioi).2 (.of_forall fun s (hs : 0 < s) x _ => ?_)
    unfold ker
    have h1 : HasDerivAt (fun x : ℝ => s ^ p * exp (-x * s)) (s ^ p * (exp (-x * s) * (-1 * s))) x :=
      (((hasDerivAt_id x).neg.mul_const s).exp).const_mul (s ^ p)
    have h2 := h1.ofReal_comp.mul_const ((1 + Complex.I * (y * s : ℝ) : ℂ) ^ (m : ℂ))
    refine h2.congr_deriv ?_
    rw [rpow_add hs, rpow_one]
    push_cast
    ring

/-- The integral of the total derivative of `e^{-bs} (s (1 + i s))^{m+1}`. -/
theorem L_recurrence {m b : ℝ} (hm : 0 ≤ m) (hb : 0 < b) :
    -b * L m b 1 (m + 1) - b * Complex.I * L m b 1 (m + 2) + (m + 1) * L m b 1 m + 2 * Complex.I * (m + 1) * L m b 1 (m + 1) = 0 := by
  have hI := fun p (hp : -1 < p) => integrable_ker hm hb zero_le_one hp
  have hi0 := hI m (by linarith)
  have hi1 := hI (m + 1) (by linarith)
  have hi2 := hI (m + 2) (by linarith)
  -- the primitive
  have hderiv : ∀ s ∈ Ioi (0:ℝ), HasDerivAt (fun s => ker (m + 1) b 1 (m + 1) s)
      (-b * ker m b 1 (m + 1) s - b * Complex.I * ker m b 1 (m + 2) s + (m + 1) * ker m b 1 m s
        + 2 * Complex.I * (m + 1) * ker m b 1 (m + 1) s) s := by
    intro s hs
    have hs : 0 < s := hs
    have h1 : HasDerivAt (fun s : ℝ => s ^ (m + 1) * exp (-b * s))
        ((m + 1) * s ^ (m + 1 - 1) * exp (-b * s) + s ^ (m + 1) * (exp (-b * s) * (-b * 1))) s :=
      (hasDerivAt_rpow_const (Or.inl hs.ne')).fun_mul (((hasDerivAt_id s).const_mul (-b)).exp)
    have h2 : HasDerivAt (fun s : ℝ => (1 + Complex.I * ((1 * s : ℝ) : ℂ) : ℂ)) (Complex.I * ((1 * 1 : ℝ) : ℂ)) s :=
      ((((hasDerivAt_id s).const_mul 1).ofReal_comp).const_mul Complex.I).const_add 1
    have h3 : HasDerivAt (fun s : ℝ => (1 + Complex.I * ((1 * s : ℝ) : ℂ) : ℂ) ^ ((m + 1 : ℝ) : ℂ))
        (((m + 1 : ℝ) : ℂ) * (1 + Complex.I * ((1 * s : ℝ) : ℂ) : ℂ) ^ (((m + 1 : ℝ) : ℂ) - 1) * (Complex.I * ((1 * 1 : ℝ) : ℂ))) s :=
      HasDerivAt.comp (h₂ := fun z : ℂ => z ^ ((m + 1 : ℝ) : ℂ)) s
        (Complex.hasStrictDerivAt_cpow_const (c := ((m + 1 : ℝ) : ℂ)) (one_add_slit (1 * s))).hasDerivAt h2
    have h4 := h1.ofReal_comp.fun_mul h3
    unfold ker
    refine h4.congr_deriv ?_
    have e1 : ((m + 1 : ℝ) : ℂ) - 1 = (m : ℂ) := by push_cast; ring
    have e2 : (1 + Complex.I * ((1 * s : ℝ) : ℂ) : ℂ) ^ ((m + 1 : ℝ) : ℂ) = (1 + Complex.I * ((1 * s : ℝ) : ℂ) : ℂ) ^ (m : ℂ) * (1 + Complex.I * (s : ℂ)) := by
      rw [show ((m + 1 : ℝ) : ℂ) = (m : ℂ) + 1 by push_cast; ring, Complex.cpow_add _ _ (one_add_ne _), Complex.cpow_one, one_mul]
    rw [e1, e2, show m + 1 - 1 = m by ring, rpow_add hs, rpow_add hs m 2, rpow_one, rpow_two]
    push_cast
    ring
  have hlim : Tendsto (fun s => ker (m + 1) b 1 (m + 1) s) atTop (𝓝 0) := by
    have hmaj : Tendsto (maj (m + 1) b 1 (m + 1)) atTop (𝓝 0) := by
      unfold maj
      have h0 : ∀ p : ℝ, Tendsto (fun s : ℝ => s ^ p * exp (-b * s)) atTop (𝓝 0) := fun p => tendsto_rpow_mul_exp_neg_mul_atTop_nhds_zero p b hb
      simpa only [mul_zero, add_zero] using ((h0 (m + 1)).const_mul (2 ^ (m + 1))).add ((h0 (m + 1 + (m + 1))).const_mul (2 ^ (m + 1) * 1 ^ (m + 1)))
    refine squeeze_zero_norm' ?_ hmaj
    filter_upwards [eventually_gt_atTop 0] with s hs
    exact norm_ker_le (by linarith) zero_le_one hs
  have hcont : ContinuousWithinAt (fun s => ker (m + 1) b 1 (m + 1) s) (Ici 0) 0 := by
    unfold ker
    refine ContinuousWithinAt.mul ?_ ?_
    · refine (Complex.continuous_ofReal.continuousAt).comp_continuousWithinAt ?_
      refine ContinuousWithinAt.mul ?_ (by fun_prop)
      exact (continuousAt_rpow_const 0 (m + 1) (Or.inr (by linarith))).continuousWithinAt
    · exact (ContinuousAt.cpow (f := fun s : ℝ => (1 + Complex.I * ((1 * s : ℝ) : ℂ) : ℂ)) (by fun_prop) continuousAt_const
        (one_add_slit (1 * 0))).continuousWithinAt
  have hint : IntegrableOn (fun s => -b * ker m b 1 (m + 1) s - b * Complex.I * ker m b 1 (m + 2) s + (m + 1) * ker m b 1 m s
        + 2 * Complex.I * (m + 1) * ker m b 1 (m + 1) s) (Ioi 0) :=
    (((hi1.const_mul _).sub (hi2.const_mul _)).add (hi0.const_mul _)).add (hi1.const_mul _)
  have h := integral_Ioi_of_hasDerivAt_of_tendsto hcont hderiv hint hlim
  have h0 : ker (m + 1) b 1 (m + 1) 0 = 0 := by
    unfold ker
    rw [zero_rpow (by linarith)]
    simp
  rw [h0, sub_zero] at h
  have e : (∫ s in Ioi 0, (-b * ker m b 1 (m + 1) s - b * Complex.I * ker m b 1 (m + 2) s + (m + 1) * ker m b 1 m s
        + 2 * Complex.I * (m + 1) * ker m b 1 (m + 1) s)) =
      -b * L m b 1 (m + 1) - b * Complex.I * L m b 1 (m + 2) + (m + 1) * L m b 1 m + 2 * Complex.I * (m + 1) * L m b 1 (m + 1) := by
    have i1 : IntegrableOn (fun s => -b * ker m b 1 (m + 1) s) (Ioi 0) := hi1.const_mul _
    have i2 : IntegrableOn (fun s => b * Complex.I * ker m b 1 (m + 2) s) (Ioi 0) := hi2.const_mul _
    have i3 : IntegrableOn (fun s => (m + 1) * ker m b 1 m s) (Ioi 0) := hi0.const_mul _
    have i4 : IntegrableOn (fun s => 2 * Complex.I * (m + 1) * ker m b 1 (m + 1) s) (Ioi 0) := hi1.const_mul _
    have i12 : IntegrableOn (fun s => -b * ker m b 1 (m + 1) s - b * Complex.I * ker m b 1 (m + 2) s) (Ioi 0) := i1.sub i2
    have i123 : IntegrableOn (fun s => -b * ker m b 1 (m + 1) s - b * Complex.I * ker m b 1 (m + 2) s + (m + 1) * ker m b 1 m s) (Ioi 0) := i12.add i3
    rw [integral_add i123 i4, integral_add i12 i3, integral_sub i1 i2, integral_const_mul, integral_const_mul, integral_const_mul, integral_const_mul]
    rfl
  rw [← e, h]

/-- Rescaling of the integration variable. -/
theorem L_scale {m b p : ℝ} (hb : 0 < b) : L m b 1 p = ((b ^ (-(p + 1)) : ℝ) : ℂ) * L m 1 (1 / b) p := by
  unfold L
  have h := integral_comp_mul_left_Ioi (fun s => ker m 1 (1 / b) p s) 0 hb
  rw [mul_zero] at h
  have e : ∀ s ∈ Ioi (0:ℝ), ker m 1 (1 / b) p (b * s) = ((b ^ p : ℝ) : ℂ) * ker m b 1 p s := by
    intro s hs
    have hs : 0 < s := hs
    unfold ker
    rw [mul_rpow hb.le hs.le, show (1 / b) * (b * s) = 1 * s by field_simp, show -1 * (b * s) = -b * s by ring]
    push_cast
    ring
  rw [setIntegral_congr_fun measurableSet_Ioi e, integral_const_mul] at h
  have hbp : ((b ^ p : ℝ) : ℂ) ≠ 0 := by exact_mod_cast (rpow_pos_of_pos hb p).ne'
  have e2 : ((b ^ (-(p + 1)) : ℝ) : ℂ) * ((b ^ p : ℝ) : ℂ) = ((b⁻¹ : ℝ) : ℂ) := by
    rw [← Complex.ofReal_mul, ← rpow_add hb, show -(p + 1) + p = -1 by ring, rpow_neg_one]
  rw [Complex.real_smul] at h
  have : ((b ^ p : ℝ) : ℂ) * (∫ s in Ioi 0, ker m b 1 p s) = ((b ^ p : ℝ) : ℂ) * (((b ^ (-(p + 1)) : ℝ) : ℂ) * ∫ s in Ioi 0, ker m 1 (1 / b) p s) := by
    rw [h, ← e2]; ring
  exact mul_left_cancel₀ hbp this

/-- `y → 0` -/
theorem tendsto_L_zero {m p : ℝ} (hm : 0 ≤ m) (hp : -1 < p) : Tendsto (fun y => L m 1 y p) (𝓝[>] 0) (𝓝 (Gamma (p + 1) : ℝ)) := by
  have e : ((Gamma (p + 1) : ℝ) : ℂ) = ∫ s in Ioi (0:ℝ), ((s ^ p * exp (-1 * s) : ℝ) : ℂ) := by
    rw [Gamma_eq_integral (by linarith), ← integral_complex_ofReal]
    congr 1
    funext s
    rw [show p + 1 - 1 = p by ring, show -1 * s = -s by ring, mul_comm]
  rw [e]
  unfold L
  refine tendsto_integral_filter_of_dominated_convergence (maj m 1 1 p) (.of_forall fun _ => meas_ker _ _ _ _) ?_ (integrable_maj hm one_pos hp) ?_
  · have h1 : Iio (1:ℝ) ∈ 𝓝[>] (0:ℝ) := nhdsWithin_le_nhds (Iio_mem_nhds one_pos)
    filter_upwards [self_mem_nhdsWithin, h1] with y hy hy1
    have hy : 0 < y := hy
    have hy1 : y < 1 := hy1
    refine (ae_restrict_iff' measurableSet_Ioi).2 (.of_forall fun s (hs : 0 < s) => ?_)
    refine (norm_ker_le hm hy.le hs).trans ?_
    unfold maj
    gcongr
  · refine (ae_restrict_iff' measurableSet_Ioi).2 (.of_forall fun s (hs : 0 < s) => ?_)
    have hc : ContinuousAt (fun y => ker m 1 y p s) 0 := by
      unfold ker
      exact ContinuousAt.mul continuousAt_const (ContinuousAt.cpow (by fun_prop) continuousAt_const (one_add_slit _))
    have h0 : ker m 1 0 p s = ((s ^ p * exp (-1 * s) : ℝ) : ℂ) := by
      unfold ker; simp
    rw [← h0]
    exact hc.tendsto.mono_left nhdsWithin_le_nhds

/-- `y → ∞` -/
theorem tendsto_L_atTop {m p : ℝ} (hm : 0 ≤ m) (hp : -1 < p) :
    Tendsto (fun y => ((y ^ (-m) : ℝ) : ℂ) * L m 1 y p) atTop (𝓝 (Complex.I ^ (m : ℂ) * (Gamma (p + m + 1) : ℝ))) := by
  have e : Complex.I ^ (m : ℂ) * ((Gamma (p + m + 1) : ℝ) : ℂ) = ∫ s in Ioi (0:ℝ), ((s ^ (p + m) * exp (-1 * s) : ℝ) : ℂ) * Complex.I ^ (m : ℂ) := by
    rw [integral_mul_const, mul_comm, Gamma_eq_integral (by linarith), ← integral_complex_ofReal]
    congr 2
    funext s
    rw [show p + m + 1 - 1 = p + m by ring, show -1 * s = -s by ring, mul_comm]
  rw [e]
  have e2 : ∀ y : ℝ, ((y ^ (-m) : ℝ) : ℂ) * L m 1 y p = ∫ s in Ioi (0:ℝ), ((y ^ (-m) : ℝ) : ℂ) * ker m 1 y p s := fun y => by
    unfold L; rw [integral_const_mul]
  simp_rw [e2]
  refine tendsto_integral_filter_of_dominated_convergence (maj m 1 1 p) (.of_forall fun _ => (meas_ker _ _ _ _).const_mul _) ?_ (integrable_maj hm one_pos hp) ?_
  · filter_upwards [eventually_ge_atTop 1] with y hy
    have hy0 : 0 < y := by linarith
    refine (ae_restrict_iff' measurableSet_Ioi).2 (.of_forall fun s (hs : 0 < s) => ?_)
    rw [norm_mul, Complex.norm_real, norm_of_nonneg (by positivity)]
    refine (mul_le_mul_of_nonneg_left (norm_ker_le hm hy0.le hs) (by positivity)).trans ?_
    unfold maj
    have h1 : y ^ (-m) ≤ 1 := rpow_le_one_of_one_le_of_nonpos hy (by linarith)
    have h2 : y ^ (-m) * y ^ m = 1 := by rw [← rpow_add hy0]; simp
    have h3 : (0:ℝ) ≤ 2 ^ m * (s ^ p * exp (-1 * s)) := by positivity
    calc y ^ (-m) * (2 ^ m * (s ^ p * exp (-1 * s)) + 2 ^ m * y ^ m * (s ^ (p + m) * exp (-1 * s)))
        = y ^ (-m) * (2 ^ m * (s ^ p * exp (-1 * s))) + (y ^ (-m) * y ^ m) * (2 ^ m * (s ^ (p + m) * exp (-1 * s))) := by ring
      _ ≤ 1 * (2 ^ m * (s ^ p * exp (-1 * s))) + (y ^ (-m) * y ^ m) * (2 ^ m * (s ^ (p + m) * exp (-1 * s))) := by gcongr
      _ = _ := by rw [h2, one_rpow]; ring
  · refine (ae_restrict_iff' measurableSet_Ioi).2 (.of_forall fun s (hs : 0 < s) => ?_)
    -- `y^{-m} (1 + i y s)^m = (1/y + i s)^m`
    have hc : Tendsto (fun y : ℝ => ((s ^ p * exp (-1 * s) : ℝ) : ℂ) * (((1 / y : ℝ) : ℂ) + Complex.I * (s : ℂ)) ^ (m : ℂ)) atTop
        (𝓝 (((s ^ p * exp (-1 * s) : ℝ) : ℂ) * (((0 : ℝ) : ℂ) + Complex.I * (s : ℂ)) ^ (m : ℂ))) := by
      refine Tendsto.const_mul _ ?_
      have hslit : (((0 : ℝ) : ℂ) + Complex.I * (s : ℂ)) ∈ Complex.slitPlane := by right; simp [hs.ne']
      have h1 : ContinuousAt (fun r : ℝ => ((r : ℂ) + Complex.I * (s : ℂ)) ^ (m : ℂ)) 0 :=
        ContinuousAt.cpow (by fun_prop) continuousAt_const hslit
      exact h1.tendsto.comp (tendsto_const_nhds.div_atTop tendsto_id)
    have e3 : ((s ^ p * exp (-1 * s) : ℝ) : ℂ) * (((0 : ℝ) : ℂ) + Complex.I * (s : ℂ)) ^ (m : ℂ)
        = ((s ^ (p + m) * exp (-1 * s) : ℝ) : ℂ) * Complex.I ^ (m : ℂ) := by
      rw [Complex.ofReal_zero, zero_add, mul_comm Complex.I, ofReal_mul_cpow hs Complex.I_ne_zero, ← Complex.ofReal_cpow hs.le, rpow_add hs]
      push_cast
      ring
    rw [← e3]
    refine hc.congr' ?_
    filter_upwards [eventually_gt_atTop 0] with y hy
    unfold ker
    have e4 : (1 + Complex.I * ((y * s : ℝ) : ℂ) : ℂ) = ((y : ℝ) : ℂ) * (((1 / y : ℝ) : ℂ) + Complex.I * (s : ℂ)) := by
      have : (y : ℂ) ≠ 0 := by exact_mod_cast hy.ne'
      push_cast
      field_simp
    have hne : (((1 / y : ℝ) : ℂ) + Complex.I * (s : ℂ)) ≠ 0 := by
      intro h
      have := congrArg Complex.im h
      simp [hs.ne'] at this
    rw [e4, ofReal_mul_cpow hy hne, ← Complex.ofReal_cpow hy.le]
    have h2 : ((y ^ (-m) : ℝ) : ℂ) * ((y ^ m : ℝ) : ℂ) = 1 := by
      rw [← Complex.ofReal_mul, ← rpow_add hy]; simp
    linear_combination (-(((s ^ p * exp (-1 * s) : ℝ) : ℂ) * (((1 / y : ℝ) : ℂ) + Complex.I * (s : ℂ)) ^ (m : ℂ))) * h2

/-! ## The mode function -/

/-- The Bunch-Davies mode function. -/
noncomputable def f (m x : ℝ) : ℂ :=
  Complex.exp (Complex.I * x) * (((2 * x) ^ (m + 1) / Gamma (m + 1) : ℝ) : ℂ) * L m (2 * x) 1 m

/-- Its derivative. -/
noncomputable def f1 (m x : ℝ) : ℂ :=
  Complex.exp (Complex.I * x) * (((2 * x) ^ (m + 1) / Gamma (m + 1) : ℝ) : ℂ) *
    ((Complex.I + ((m + 1) / x : ℝ)) * L m (2 * x) 1 m - 2 * L m (2 * x) 1 (m + 1))

theorem hasDerivAt_exp (x : ℝ) : HasDerivAt (fun x : ℝ => Complex.exp (Complex.I * x)) (Complex.exp (Complex.I * x) * Complex.I) x := by
  have h : HasDerivAt (fun x : ℝ => Complex.I * (x : ℂ)) (Complex.I * ((1 : ℝ) : ℂ)) x := ((hasDerivAt_id x).ofReal_comp).const_mul Complex.I
  have h2 := h.cexp
  refine h2.congr_deriv ?_
  push_cast; ring

theorem hasDerivAt_amp {m x : ℝ} (hx : 0 < x) : HasDerivAt (fun x : ℝ => (((2 * x) ^ (m + 1) / Gamma (m + 1) : ℝ) : ℂ))
    ((((2 * x) ^ (m + 1) / Gamma (m + 1) : ℝ) : ℂ) * ((m + 1) / x : ℝ)) x := by
  have h0 : HasDerivAt (fun x : ℝ => 2 * x) (2 * 1) x := (hasDerivAt_id x).const_mul 2
  have h := ((h0.rpow_const (p := m + 1) (Or.inl (by positivity))).div_const (Gamma (m + 1))).ofReal_comp
  refine h.congr_deriv ?_
  rw [← Complex.ofReal_mul]
  congr 1
  rw [show m + 1 - 1 = m by ring, rpow_add (by positivity : (0:ℝ) < 2 * x), rpow_one]
  field_simp

theorem hasDerivAt_L2 {m x p : ℝ} (hm : 0 ≤ m) (hx : 0 < x) (hp : -1 < p) :
    HasDerivAt (fun x => L m (2 * x) 1 p) (-2 * L m (2 * x) 1 (p + 1)) x := by
  have h0 : HasDerivAt (fun x : ℝ => 2 * x) (2 * 1) x := (hasDerivAt_id x).const_mul 2
  have h := (hasDerivAt_L (m := m) (b := 2 * x) (y := 1) (p := p) hm (by positivity) zero_le_one hp).scomp x h0
  refine h.congr_deriv ?_
  rw [Complex.real_smul]
  push_cast
  ring

theorem hasDerivAt_f {m x : ℝ} (hm : 0 ≤ m) (hx : 0 < x) : HasDerivAt (f m) (f1 m x) x := by
  have h := ((hasDerivAt_exp x).fun_mul (hasDerivAt_amp (m := m) hx)).fun_mul (hasDerivAt_L2 (p := m) hm hx (by linarith))
  refine h.congr_deriv ?_
  unfold f1
  ring

theorem hasDerivAt_f1 {m x : ℝ} (hm : 0 ≤ m) (hx : 0 < x) : HasDerivAt (f1 m) (((m * (m + 1) / x ^ 2 - 1 : ℝ) : ℂ) * f m x) x := by
  have hc : HasDerivAt (fun x : ℝ => Complex.I + (((m + 1) / x : ℝ) : ℂ)) ((-(m + 1) / x ^ 2 : ℝ) : ℂ) x := by
    have h := ((hasDerivAt_inv hx.ne').const_mul (m + 1)).ofReal_comp.const_add Complex.I
    simp only [← div_eq_mul_inv] at h
    refine h.congr_deriv ?_
    push_cast; ring
  have h := ((hasDerivAt_exp x).fun_mul (hasDerivAt_amp (m := m) hx)).fun_mul
    ((hc.fun_mul (hasDerivAt_L2 (p := m) hm hx (by linarith))).fun_sub ((hasDerivAt_L2 (p := m + 1) hm hx (by linarith)).const_mul 2))
  refine h.congr_deriv ?_
  have hr := L_recurrence hm (show 0 < 2 * x by positivity)
  rw [show m + 1 + 1 = m + 2 by ring]
  unfold f
  generalize L m (2 * x) 1 m = L0 at hr ⊢
  generalize L m (2 * x) 1 (m + 1) = L1 at hr ⊢
  generalize L m (2 * x) 1 (m + 2) = L2 at hr ⊢
  generalize Complex.exp (Complex.I * x) = E
  generalize (((2 * x) ^ (m + 1) / Gamma (m + 1) : ℝ) : ℂ) = A
  have hx' : (x : ℂ) ≠ 0 := by exact_mod_cast hx.ne'
  have hI : Complex.I ^ 2 = -1 := Complex.I_sq
  push_cast at hr ⊢
  field_simp
  linear_combination (2 * Complex.I * x * E * A) * hr + (E * A * (x ^ 2 * L0 + 4 * x ^ 2 * L2 - 4 * x * (m + 1) * L1)) * hI

theorem f_eq {m x : ℝ} (hx : 0 < x) : f m x = Complex.exp (Complex.I * x) * (L m 1 (1 / (2 * x)) m / (Gamma (m + 1) : ℝ)) := by
  have hb : 0 < 2 * x := by positivity
  unfold f
  rw [L_scale hb]
  have e : (((2 * x) ^ (m + 1) / Gamma (m + 1) : ℝ) : ℂ) * (((2 * x) ^ (-(m + 1)) : ℝ) : ℂ) = ((Gamma (m + 1) : ℝ) : ℂ)⁻¹ := by
    rw [← Complex.ofReal_mul, ← Complex.ofReal_inv]
    congr 1
    rw [rpow_neg hb.le]
    have : (2 * x) ^ (m + 1) ≠ 0 := (rpow_pos_of_pos hb _).ne'
    field_simp
  rw [div_eq_mul_inv (L m 1 (1 / (2 * x)) m), ← e]
  ring

theorem f1_eq {m x : ℝ} (hx : 0 < x) : f1 m x = Complex.exp (Complex.I * x) *
    (((Complex.I + ((m + 1) / x : ℝ)) * L m 1 (1 / (2 * x)) m - (1 / x : ℝ) * L m 1 (1 / (2 * x)) (m + 1)) / (Gamma (m + 1) : ℝ)) := by
  have hb : 0 < 2 * x := by positivity
  unfold f1
  rw [L_scale hb (p := m), L_scale hb (p := m + 1)]
  have e : (((2 * x) ^ (m + 1) / Gamma (m + 1) : ℝ) : ℂ) * (((2 * x) ^ (-(m + 1)) : ℝ) : ℂ) = ((Gamma (m + 1) : ℝ) : ℂ)⁻¹ := by
    rw [← Complex.ofReal_mul, ← Complex.ofReal_inv]
    congr 1
    rw [rpow_neg hb.le]
    have : (2 * x) ^ (m + 1) ≠ 0 := (rpow_pos_of_pos hb _).ne'
    field_simp
  have e' : (((2 * x) ^ (m + 1) / Gamma (m + 1) : ℝ) : ℂ) * (2 * (((2 * x) ^ (-(m + 1 + 1)) : ℝ) : ℂ)) = ((1 / x : ℝ) : ℂ) * ((Gamma (m + 1) : ℝ) : ℂ)⁻¹ := by
    rw [← Complex.ofReal_inv, ← Complex.ofReal_mul, show (2 : ℂ) = ((2 : ℝ) : ℂ) by norm_num, ← Complex.ofReal_mul, ← Complex.ofReal_mul]
    congr 1
    rw [rpow_neg hb.le, rpow_add hb (m + 1) 1, rpow_one]
    have : (2 * x) ^ (m + 1) ≠ 0 := (rpow_pos_of_pos hb _).ne'
    field_simp
  rw [div_eq_mul_inv ((Complex.I + ((m + 1) / x : ℝ)) * L m 1 (1 / (2 * x)) m - (1 / x : ℝ) * L m 1 (1 / (2 * x)) (m + 1))]
  linear_combination (Complex.exp (Complex.I * x) * (Complex.I + ((m + 1) / x : ℝ)) * L m 1 (1 / (2 * x)) m) * e
    - (Complex.exp (Complex.I * x) * L m 1 (1 / (2 * x)) (m + 1)) * e'

/-- the limit of `x^m f` -/
noncomputable def c0 (m : ℝ) : ℂ := Complex.I ^ (m : ℂ) * ((Gamma (2 * m + 1) / (2 ^ m * Gamma (m + 1)) : ℝ) : ℂ)

theorem norm_c0 {m : ℝ} (hm : 0 ≤ m) : ‖c0 m‖ = Gamma (2 * m + 1) / (2 ^ m * Gamma (m + 1)) := by
  unfold c0
  have h1 : 0 < Gamma (2 * m + 1) := Gamma_pos_of_pos (by linarith)
  have h2 : 0 < Gamma (m + 1) := Gamma_pos_of_pos (by linarith)
  rw [norm_mul, Complex.norm_cpow_real, Complex.norm_I, one_rpow, one_mul, Complex.norm_real, norm_of_nonneg (by positivity)]

theorem gamma_ne {m : ℝ} (hm : 0 ≤ m) : ((Gamma (m + 1) : ℝ) : ℂ) ≠ 0 := by
  exact_mod_cast (Gamma_pos_of_pos (by linarith)).ne'

theorem tendsto_inv_two : Tendsto (fun x : ℝ => 1 / (2 * x)) atTop (𝓝[>] 0) := by
  have h : Tendsto (fun x : ℝ => 2 * x) atTop atTop := tendsto_id.const_mul_atTop two_pos
  exact (tendsto_inv_atTop_nhdsGT_zero.comp h).congr fun x => by simp only [Function.comp, one_div]

theorem tendsto_f_atTop {m : ℝ} (hm : 0 ≤ m) : Tendsto (fun x : ℝ => Complex.exp (-(Complex.I * x)) * f m x) atTop (𝓝 1) := by
  have h := ((tendsto_L_zero (p := m) hm (by linarith)).comp tendsto_inv_two).div_const ((Gamma (m + 1) : ℝ) : ℂ)
  rw [div_self (gamma_ne hm)] at h
  refine h.congr' ?_
  filter_upwards [eventually_gt_atTop 0] with x hx
  rw [f_eq hx, ← mul_assoc, ← Complex.exp_add, neg_add_cancel, Complex.exp_zero, one_mul]
  rfl

theorem tendsto_f1_atTop {m : ℝ} (hm : 0 ≤ m) : Tendsto (fun x : ℝ => Complex.exp (-(Complex.I * x)) * f1 m x) atTop (𝓝 Complex.I) := by
  have h0 := (tendsto_L_zero (p := m) hm (by linarith)).comp tendsto_inv_two
  have h1 := (tendsto_L_zero (p := m + 1) hm (by linarith)).comp tendsto_inv_two
  have hi : ∀ c : ℝ, Tendsto (fun x : ℝ => ((c / x : ℝ) : ℂ)) atTop (𝓝 ((0 : ℝ) : ℂ)) := fun c =>
    (Complex.continuous_ofReal.tendsto 0).comp (tendsto_const_nhds.div_atTop tendsto_id)
  have h := ((((hi (m + 1)).const_add Complex.I).mul h0).sub ((hi 1).mul h1)).div_const ((Gamma (m + 1) : ℝ) : ℂ)
  rw [Complex.ofReal_zero, add_zero, zero_mul, sub_zero, mul_div_assoc, div_self (gamma_ne hm), mul_one] at h
  refine h.congr' ?_
  filter_upwards [eventually_gt_atTop 0] with x hx
  rw [f1_eq hx, ← mul_assoc, ← Complex.exp_add, neg_add_cancel, Complex.exp_zero, one_mul]
  rfl

theorem tendsto_f_zero {m : ℝ} (hm : 0 ≤ m) : Tendsto (fun x : ℝ => ((x ^ m : ℝ) : ℂ) * f m x) (𝓝[>] 0) (𝓝 (c0 m)) := by
  have hy : Tendsto (fun x : ℝ => 1 / (2 * x)) (𝓝[>] 0) atTop := by
    have h : Tendsto (fun x : ℝ => x⁻¹ * (1 / 2)) (𝓝[>] 0) atTop := tendsto_inv_nhdsGT_zero.atTop_mul_const (by norm_num)
    refine h.congr fun x => ?_
    rw [one_div, one_div, mul_inv, mul_comm]
  have h0 := ((tendsto_L_atTop (p := m) hm (by linarith)).comp hy).div_const ((Gamma (m + 1) * 2 ^ m : ℝ) : ℂ)
  have he : Tendsto (fun x : ℝ => Complex.exp (Complex.I * x)) (𝓝[>] 0) (𝓝 (Complex.exp (Complex.I * (0 : ℝ)))) := by
    have hc : Continuous fun x : ℝ => Complex.exp (Complex.I * x) := by fun_prop
    exact (hc.tendsto 0).mono_left nhdsWithin_le_nhds
  have h := he.mul h0
  have e : Complex.exp (Complex.I * (0 : ℝ)) * (Complex.I ^ (m : ℂ) * ((Gamma (m + m + 1) : ℝ) : ℂ) / ((Gamma (m + 1) * 2 ^ m : ℝ) : ℂ)) = c0 m := by
    unfold c0
    rw [Complex.ofReal_zero, mul_zero, Complex.exp_zero, one_mul, show m + m + 1 = 2 * m + 1 by ring]
    push_cast
    ring
  rw [e] at h
  refine h.congr' ?_
  filter_upwards [self_mem_nhdsWithin] with x hx
  have hx : 0 < x := hx
  rw [f_eq hx]
  have h2 : (((1 / (2 * x)) ^ (-m) : ℝ) : ℂ) / ((Gamma (m + 1) * 2 ^ m : ℝ) : ℂ) = ((x ^ m : ℝ) : ℂ) / ((Gamma (m + 1) : ℝ) : ℂ) := by
    rw [← Complex.ofReal_div, ← Complex.ofReal_div]
    congr 1
    rw [one_div, inv_rpow (by positivity), rpow_neg (by positivity), inv_inv, mul_rpow zero_le_two hx.le]
    have : (2:ℝ) ^ m ≠ 0 := (rpow_pos_of_pos two_pos _).ne'
    field_simp
  simp only [Function.comp]
  linear_combination (Complex.exp (Complex.I * x) * L m 1 (1 / (2 * x)) m) * h2

/-! ## Matching deep inside the horizon, evaluation far outside -/

theorem near_atTop {m ρ : ℝ} (hm : 0 ≤ m) (hρ : 0 < ρ) : ∃ X : ℝ, 0 < X ∧ ∀ x, X ≤ x →
    ‖Complex.exp (-(Complex.I * x)) * f m x - 1‖ ≤ ρ ∧ ‖Complex.exp (-(Complex.I * x)) * f1 m x - Complex.I‖ ≤ ρ := by
  have h1 := (Metric.tendsto_nhds.1 (tendsto_f_atTop hm)) ρ hρ
  have h2 := (Metric.tendsto_nhds.1 (tendsto_f1_atTop hm)) ρ hρ
  obtain ⟨X, hX⟩ := eventually_atTop.1 (h1.and h2)
  refine ⟨max X 1, lt_max_of_lt_right one_pos, fun x hx => ?_⟩
  obtain ⟨a, b⟩ := hX x ((le_max_left _ _).trans hx)
  rw [dist_eq_norm] at a b
  exact ⟨a.le, b.le⟩

theorem near_zero {m ρ : ℝ} (hm : 0 ≤ m) (hρ : 0 < ρ) : ∃ η : ℝ, 0 < η ∧ ∀ x, 0 < x → x ≤ η → ‖((x ^ m : ℝ) : ℂ) * f m x - c0 m‖ ≤ ρ := by
  have h1 := (Metric.tendsto_nhds.1 (tendsto_f_zero hm)) ρ hρ
  rw [eventually_nhdsWithin_iff, Metric.eventually_nhds_iff] at h1
  obtain ⟨η, hη, h⟩ := h1
  refine ⟨η / 2, by positivity, fun x hx hx2 => ?_⟩
  have := h (y := x) (by rw [dist_zero_right, norm_of_nonneg hx.le]; linarith) hx
  rw [dist_eq_norm] at this
  exact this.le

/-- a combination of the two mode functions -/
noncomputable def comb (m : ℝ) (α β : ℂ) (x : ℝ) : ℂ := α * f m x + β * (starRingEnd ℂ) (f m x)
/-- its derivative -/
noncomputable def comb1 (m : ℝ) (α β : ℂ) (x : ℝ) : ℂ := α * f1 m x + β * (starRingEnd ℂ) (f1 m x)

theorem hasDerivAt_comb {m x : ℝ} (hm : 0 ≤ m) (hx : 0 < x) (α β : ℂ) : HasDerivAt (comb m α β) (comb1 m α β x) x :=
  ((hasDerivAt_f hm hx).const_mul α).fun_add ((hasDerivAt_f hm hx).star.const_mul β)

theorem hasDerivAt_comb1 {m x : ℝ} (hm : 0 ≤ m) (hx : 0 < x) (α β : ℂ) :
    HasDerivAt (comb1 m α β) (((m * (m + 1) / x ^ 2 - 1 : ℝ) : ℂ) * comb m α β x) x := by
  have h := ((hasDerivAt_f1 hm hx).const_mul α).fun_add ((hasDerivAt_f1 hm hx).star.const_mul β)
  refine h.congr_deriv ?_
  unfold comb
  rw [star_mul', Complex.star_def, Complex.conj_ofReal]
  ring

/-- Coefficients of the combination with given value and slope. -/
theorem exists_coeff {F F1 e : ℂ} (he : ‖e‖ = 1) {t : ℝ} (ht : t ≤ 1 / 10) (h0 : ‖e * F - 1‖ ≤ t) (h1 : ‖e * F1 - Complex.I‖ ≤ t)
    (p p' : ℂ) : ∃ α β : ℂ, α * F + β * (starRingEnd ℂ) F = p ∧ α * F1 + β * (starRingEnd ℂ) F1 = p' ∧
      ‖α‖ ≤ 3 / 2 * (‖p‖ + ‖p'‖) ∧ ‖β‖ ≤ 3 / 2 * (‖p‖ + ‖p'‖) ∧
      (‖p - 1‖ ≤ t → ‖p' - Complex.I‖ ≤ t → |‖α‖ - 1| ≤ 10 * t ∧ ‖β‖ ≤ 5 * t) := by
  have ht0 : 0 ≤ t := (norm_nonneg _).trans h0
  have he' : (starRingEnd ℂ) e * e = 1 := by
    rw [mul_comm, Complex.mul_conj, Complex.normSq_eq_norm_sq, he]; norm_num
  obtain ⟨r, hr⟩ : ∃ r, r = e * F - 1 := ⟨_, rfl⟩
  obtain ⟨s, hs⟩ : ∃ s, s = e * F1 - Complex.I := ⟨_, rfl⟩
  obtain ⟨e', hee⟩ : ∃ e', e' = (starRingEnd ℂ) e := ⟨_, rfl⟩
  rw [← hr] at h0
  rw [← hs] at h1
  rw [← hee] at he'
  have hn' : ‖e'‖ = 1 := by rw [hee, RCLike.norm_conj, he]
  have eF : F = e' * (1 + r) := by rw [hr]; linear_combination -F * he'
  have eF1 : F1 = e' * (Complex.I + s) := by rw [hs]; linear_combination -F1 * he'
  have cF : (starRingEnd ℂ) F = e * (1 + (starRingEnd ℂ) r) := by
    rw [eF, map_mul, map_add, map_one, hee, Complex.conj_conj]
  have cF1 : (starRingEnd ℂ) F1 = e * (-Complex.I + (starRingEnd ℂ) s) := by
    rw [eF1, map_mul, map_add, Complex.conj_I, hee, Complex.conj_conj]
  have hr' : ‖(starRingEnd ℂ) r‖ ≤ t := by rw [RCLike.norm_conj]; exact h0
  have hs' : ‖(starRingEnd ℂ) s‖ ≤ t := by rw [RCLike.norm_conj]; exact h1
  generalize (starRingEnd ℂ) r = r' at *
  generalize (starRingEnd ℂ) s = s' at *
  obtain ⟨D, hD⟩ : ∃ D, D = (1 + r) * (-Complex.I + s') - (Complex.I + s) * (1 + r') := ⟨_, rfl⟩
  have n1 : ∀ z : ℂ, ‖z‖ ≤ t → ‖1 + z‖ ≤ 11 / 10 := fun z hz => by
    refine (norm_add_le _ _).trans ?_; rw [norm_one]; linarith
  have nI : ∀ z : ℂ, ‖z‖ ≤ t → ‖Complex.I + z‖ ≤ 11 / 10 := fun z hz => by
    refine (norm_add_le _ _).trans ?_; rw [Complex.norm_I]; linarith
  have nI' : ∀ z : ℂ, ‖z‖ ≤ t → ‖-Complex.I + z‖ ≤ 11 / 10 := fun z hz => by
    refine (norm_add_le _ _).trans ?_; rw [norm_neg, Complex.norm_I]; linarith
  have hDn : ‖D - -(2 * Complex.I)‖ ≤ 5 * t := by
    have e1 : D - -(2 * Complex.I) = (-Complex.I * r + s' * (1 + r)) - (Complex.I * r' + s * (1 + r')) := by rw [hD]; ring
    rw [e1]
    refine (norm_sub_le _ _).trans ((add_le_add (norm_add_le _ _) (norm_add_le _ _)).trans ?_)
    rw [norm_mul, norm_mul, norm_mul, norm_mul, norm_neg, Complex.norm_I, one_mul, one_mul]
    have a1 := mul_le_mul hs' (n1 r h0) (norm_nonneg _) ht0
    have a2 := mul_le_mul h1 (n1 r' hr') (norm_nonneg _) ht0
    linarith
  have hDge : 3 / 2 ≤ ‖D‖ := by
    have h2 : ‖(-(2 * Complex.I) : ℂ)‖ = 2 := by rw [norm_neg, norm_mul, Complex.norm_I, Complex.norm_ofNat, mul_one]
    have h3 := norm_sub_norm_le (-(2 * Complex.I) : ℂ) D
    rw [norm_sub_rev, h2] at h3
    linarith
  have hD0 : D ≠ 0 := by
    intro h; rw [h, norm_zero] at hDge; linarith
  have hDpos : 0 < ‖D‖ := by linarith
  refine ⟨e * (p * (-Complex.I + s') - p' * (1 + r')) / D, e' * ((1 + r) * p' - (Complex.I + s) * p) / D, ?_, ?_, ?_, ?_, ?_⟩
  · rw [cF, eF]
    field_simp
    rw [hD]
    linear_combination (p * ((1 + r) * (-Complex.I + s') - (Complex.I + s) * (1 + r'))) * he'
  · rw [cF1, eF1]
    field_simp
    rw [hD]
    linear_combination (p' * ((1 + r) * (-Complex.I + s') - (Complex.I + s) * (1 + r'))) * he'
  · rw [norm_div, norm_mul, he, one_mul, div_le_iff₀ hDpos]
    have a1 := mul_le_mul_of_nonneg_left (nI' s' hs') (norm_nonneg p)
    have a2 := mul_le_mul_of_nonneg_left (n1 r' hr') (norm_nonneg p')
    have a3 : ‖p * (-Complex.I + s') - p' * (1 + r')‖ ≤ ‖p‖ * (11 / 10) + ‖p'‖ * (11 / 10) := by
      refine (norm_sub_le _ _).trans ?_
      rw [norm_mul, norm_mul]
      linarith
    nlinarith [norm_nonneg p, norm_nonneg p']
  · rw [norm_div, norm_mul, hn', one_mul, div_le_iff₀ hDpos]
    have a1 := mul_le_mul_of_nonneg_right (nI s h1) (norm_nonneg p)
    have a2 := mul_le_mul_of_nonneg_right (n1 r h0) (norm_nonneg p')
    have a3 : ‖(1 + r) * p' - (Complex.I + s) * p‖ ≤ ‖p‖ * (11 / 10) + ‖p'‖ * (11 / 10) := by
      refine (norm_sub_le _ _).trans ?_
      rw [norm_mul, norm_mul]
      linarith
    nlinarith [norm_nonneg p, norm_nonneg p']
  · intro hp hp'
    have np : ‖p‖ ≤ 11 / 10 := by
      have := n1 (p - 1) hp
      rwa [add_sub_cancel] at this
    have np' : ‖p'‖ ≤ 11 / 10 := by
      have := nI (p' - Complex.I) hp'
      rwa [add_sub_cancel] at this
    constructor
    · rw [norm_div, norm_mul, he, one_mul]
      have a3 : ‖p * (-Complex.I + s') - p' * (1 + r') - -(2 * Complex.I)‖ ≤ 5 * t := by
        have e1 : p * (-Complex.I + s') - p' * (1 + r') - -(2 * Complex.I) = (-Complex.I * (p - 1) + p * s') - ((p' - Complex.I) + p' * r') := by ring
        rw [e1]
        refine (norm_sub_le _ _).trans ((add_le_add (norm_add_le _ _) (norm_add_le _ _)).trans ?_)
        rw [norm_mul, norm_mul, norm_mul, norm_neg, Complex.norm_I, one_mul]
        have a1 := mul_le_mul np hs' (norm_nonneg _) (by norm_num)
        have a2 := mul_le_mul np' hr' (norm_nonneg _) (by norm_num)
        linarith
      have a4 : |‖p * (-Complex.I + s') - p' * (1 + r')‖ - ‖D‖| ≤ 10 * t := by
        refine (abs_norm_sub_norm_le _ _).trans ?_
        have := norm_sub_le (p * (-Complex.I + s') - p' * (1 + r') - -(2 * Complex.I)) (D - -(2 * Complex.I))
        rw [sub_sub_sub_cancel_right] at this
        linarith
      rw [div_sub_one hDpos.ne', abs_div, abs_of_pos hDpos, div_le_iff₀ hDpos]
      nlinarith
    · rw [norm_div, norm_mul, hn', one_mul, div_le_iff₀ hDpos]
      have a3 : ‖(1 + r) * p' - (Complex.I + s) * p‖ ≤ 5 * t := by
        have e1 : (1 + r) * p' - (Complex.I + s) * p = ((p' - Complex.I) + r * p') - (Complex.I * (p - 1) + s * p) := by ring
        rw [e1]
        refine (norm_sub_le _ _).trans ((add_le_add (norm_add_le _ _) (norm_add_le _ _)).trans ?_)
        rw [norm_mul, norm_mul, norm_mul, Complex.norm_I, one_mul]
        have a1 := mul_le_mul h0 np' (norm_nonneg _) ht0
        have a2 := mul_le_mul h1 np (norm_nonneg _) ht0
        linarith
      nlinarith

/-- Everything that is needed about modes that start deep inside the horizon (at `xi ≥ X`) and are looked at far outside
(`x ≤ η`). -/
theorem late {m ρ : ℝ} (hm : 0 ≤ m) (hρ : 0 < ρ) : ∃ t X η : ℝ, 0 < t ∧ 0 < X ∧ 0 < η ∧ ∀ xi, X ≤ xi → ∀ p p' : ℂ, ‖p‖ ≤ 3 → ‖p'‖ ≤ 3 →
    ∃ α β : ℂ, comb m α β xi = p ∧ comb1 m α β xi = p' ∧
      (∀ x x', 0 < x → x ≤ η → 0 < x' → x' ≤ η → ‖((x ^ m : ℝ) : ℂ) * comb m α β x - ((x' ^ m : ℝ) : ℂ) * comb m α β x'‖ ≤ ρ) ∧
      (‖p - 1‖ ≤ t → ‖p' - Complex.I‖ ≤ t → ∀ x, 0 < x → x ≤ η → |‖((x ^ m : ℝ) : ℂ) * comb m α β x‖ - ‖c0 m‖| ≤ ρ) := by
  obtain ⟨t, ht⟩ : ∃ t, t = min (1 / 10) (ρ / (40 * (‖c0 m‖ + 1))) := ⟨_, rfl⟩
  have hc : 0 ≤ ‖c0 m‖ := norm_nonneg _
  have ht0 : 0 < t := by rw [ht]; positivity
  have ht1 : t ≤ 1 / 10 := by rw [ht]; exact min_le_left _ _
  have ht2 : t * (40 * (‖c0 m‖ + 1)) ≤ ρ := by
    rw [← le_div_iff₀ (by positivity), ht]; exact min_le_right _ _
  obtain ⟨X, hX, hXx⟩ := near_atTop hm ht0
  obtain ⟨η, hη, hηx⟩ := near_zero hm (show 0 < ρ / 40 by positivity)
  refine ⟨t, X, η, ht0, hX, hη, fun xi hxi p p' hp hp' => ?_⟩
  have hn : ‖Complex.exp (-(Complex.I * xi))‖ = 1 := by
    rw [Complex.norm_exp]; simp
  obtain ⟨α, β, ha, hb, hα, hβ, hsm⟩ := exists_coeff hn ht1 (hXx xi hxi).1 (hXx xi hxi).2 p p'
  have hval : ∀ x, 0 < x → x ≤ η → ‖((x ^ m : ℝ) : ℂ) * comb m α β x - (α * c0 m + β * (starRingEnd ℂ) (c0 m))‖ ≤ (‖α‖ + ‖β‖) * (ρ / 40) := by
    intro x hx hxη
    have h := hηx x hx hxη
    have e : ((x ^ m : ℝ) : ℂ) * comb m α β x - (α * c0 m + β * (starRingEnd ℂ) (c0 m)) =
        α * (((x ^ m : ℝ) : ℂ) * f m x - c0 m) + β * (starRingEnd ℂ) (((x ^ m : ℝ) : ℂ) * f m x - c0 m) := by
      unfold comb
      rw [map_sub, map_mul, Complex.conj_ofReal]
      ring
    rw [e]
    refine (norm_add_le _ _).trans ?_
    rw [norm_mul, norm_mul, RCLike.norm_conj, ← add_mul]
    exact mul_le_mul_of_nonneg_left h (by positivity)
  refine ⟨α, β, ha, hb, fun x x' hx hxη hx' hxη' => ?_, fun h1 h2 x hx hxη => ?_⟩
  · have a1 := hval x hx hxη
    have a2 := hval x' hx' hxη'
    have := norm_sub_le (((x ^ m : ℝ) : ℂ) * comb m α β x - (α * c0 m + β * (starRingEnd ℂ) (c0 m)))
      (((x' ^ m : ℝ) : ℂ) * comb m α β x' - (α * c0 m + β * (starRingEnd ℂ) (c0 m)))
    rw [sub_sub_sub_cancel_right] at this
    have : ‖α‖ + ‖β‖ ≤ 18 := by linarith
    nlinarith
  · obtain ⟨b1, b2⟩ := hsm h1 h2
    have a1 := hval x hx hxη
    have b3 := abs_le.1 b1
    have hab : ‖α‖ + ‖β‖ ≤ 3 := by linarith
    have c1 : |‖((x ^ m : ℝ) : ℂ) * comb m α β x‖ - ‖α * c0 m‖| ≤ (‖α‖ + ‖β‖) * (ρ / 40) + ‖β‖ * ‖c0 m‖ := by
      refine (abs_norm_sub_norm_le _ _).trans ?_
      have := norm_add_le (((x ^ m : ℝ) : ℂ) * comb m α β x - (α * c0 m + β * (starRingEnd ℂ) (c0 m))) (β * (starRingEnd ℂ) (c0 m))
      rw [norm_mul β, RCLike.norm_conj] at this
      rw [show ((x ^ m : ℝ) : ℂ) * comb m α β x - α * c0 m =
        (((x ^ m : ℝ) : ℂ) * comb m α β x - (α * c0 m + β * (starRingEnd ℂ) (c0 m))) + β * (starRingEnd ℂ) (c0 m) by ring]
      linarith
    have c2 : |‖α * c0 m‖ - ‖c0 m‖| ≤ 10 * t * ‖c0 m‖ := by
      rw [norm_mul, show ‖α‖ * ‖c0 m‖ - ‖c0 m‖ = (‖α‖ - 1) * ‖c0 m‖ by ring, abs_mul, abs_of_nonneg hc]
      exact mul_le_mul_of_nonneg_right b1 hc
    have c3 := abs_sub_le ‖((x ^ m : ℝ) : ℂ) * comb m α β x‖ ‖α * c0 m‖ ‖c0 m‖
    have c4 : ‖β‖ * ‖c0 m‖ ≤ 5 * t * ‖c0 m‖ := mul_le_mul_of_nonneg_right b2 hc
    nlinarith

end Primpy.Hankel
