import Verif.Lemmas.Pivot

/-!
# C71: the ARBDS spectra do not depend on the pivot scale

`P_s_approx_ARBDS` and `P_t_approx_ARBDS` are expansions in `ln(k/k_*)` whose coefficients are evaluated at one
moment, the one belonging to `k_*`.  Any other moment of the same history would have served: to the order
claimed, the prediction for a given `k` may not depend on the choice.  Here the moment is moved along the Hubble
flow and the prediction at fixed `k` is differentiated.
-/

namespace Primpy
open Real Asymptotics Filter Topology Approx

/-- A family of histories with slow-roll parameters of order `t`: at the e-fold `N` it has
`ε_i = t a_i`, and the Hubble flow equations hold there. -/
structure SlowRollFamily (H e1 e2 e3 : ℝ → ℝ → ℝ) (N a1 a2 a3 a4 : ℝ) : Prop where
  flow : ∀ t, HubbleFlow (H t) (e1 t) (e2 t) (e3 t) N (t * a4)
  H_pos : ∀ t, 0 < H t N
  e1 : ∀ t, e1 t N = t * a1
  e2 : ∀ t, e2 t N = t * a2
  e3 : ∀ t, e3 t N = t * a3

/-- What ARBDS of order `n` predicts for `ln P_s` at `ln k = lk` if the pivot scale is the one belonging to the
e-fold `x` (`κ x = ln k_*`); inflation.py:1272-1414. -/
noncomputable def predictS (n : ℕ) (H e1 e2 e3 κ : ℝ → ℝ) (lk x : ℝ) : ℝ :=
  log (Ps0 (flowPoint H e1 e2 e3 x) * arbdsS n (flowPoint H e1 e2 e3 x) (lk - κ x))
/-- The same for `ln P_t`. -/
noncomputable def predictT (n : ℕ) (H e1 e2 e3 κ : ℝ → ℝ) (lk x : ℝ) : ℝ :=
  log (Pt0 (flowPoint H e1 e2 e3 x) * arbdsT n (flowPoint H e1 e2 e3 x) (lk - κ x))

/-- The derivative of a cubic with moving coefficients. -/
theorem cubic_deriv {A0 A1 A2 A3 κ : ℝ → ℝ} {B0 B1 B2 B3 u N : ℝ} (lk : ℝ) (h0 : HasDerivAt A0 B0 N)
    (h1 : HasDerivAt A1 B1 N) (h2 : HasDerivAt A2 B2 N) (h3 : HasDerivAt A3 B3 N) (hk : HasDerivAt κ u N) :
    HasDerivAt (fun x => A0 x + A1 x * (lk - κ x) + A2 x * (lk - κ x) ^ 2 + A3 x * (lk - κ x) ^ 3)
      (B0 + B1 * (lk - κ N) + B2 * (lk - κ N) ^ 2 + B3 * (lk - κ N) ^ 3
        - u * (A1 N + 2 * A2 N * (lk - κ N) + 3 * A3 N * (lk - κ N) ^ 2)) N := by
  have hL := hk.const_sub lk
  refine (((h0.fun_add (h1.fun_mul hL)).fun_add (h2.fun_mul (hL.fun_pow 2))).fun_add
    (h3.fun_mul (hL.fun_pow 3))).congr_deriv ?_
  push_cast
  ring

/-- The derivative of the prediction, in terms of those of prefactor and correction. -/
theorem drift_eq {P F : ℝ → ℝ → ℝ} {N a1 a2 : ℝ} {n : ℕ} {pre D m g u f : ℝ → ℝ}
    (hP : ∀ t, 0 < t → 0 < P t N) (hdP : ∀ t, 0 < t → HasDerivAt (P t) (pre t * P t N) N)
    (hF : ∀ t, F t N = f t) (hdF : ∀ t, HasDerivAt (F t) (D t - u t * (t * m t)) N)
    (hf0 : f 0 = 1) (hf : Continuous f)
    (hr : ∀ t, pre t * f t + D t - (1 - t * a1 - t ^ 2 * (a1 * a2)) * (t * m t) = t ^ (n + 1) * g t) :
    ∀ᶠ t in 𝓝[>] (0:ℝ), HasDerivAt (fun x => log (P t x * F t x))
      ((t ^ (n + 1) * g t - (u t - (1 - t * a1 - t ^ 2 * (a1 * a2))) * (t * m t)) / f t) N := by
  have near : ∀ᶠ t in 𝓝[>] (0:ℝ), 0 < f t :=
    ((hf.tendsto 0).eventually (lt_mem_nhds (by rw [hf0]; exact one_pos))).filter_mono nhdsWithin_le_nhds
  filter_upwards [near, self_mem_nhdsWithin] with t h1 h2
  have hp := (hP t h2).ne'
  have hfF : F t N ≠ 0 := by rw [hF]; exact h1.ne'
  refine (((hdP t h2).fun_mul (hdF t)).log (mul_ne_zero hp hfF)).congr_deriv ?_
  rw [← hr t, hF]
  have := h1.ne'
  field_simp
  ring

/-- From the derivative of prefactor and correction to the order of the drift. -/
theorem drift_order {P F : ℝ → ℝ → ℝ} {N a1 a2 : ℝ} {n : ℕ} {pre D m g u f : ℝ → ℝ}
    (hP : ∀ t, 0 < t → 0 < P t N) (hdP : ∀ t, 0 < t → HasDerivAt (P t) (pre t * P t N) N)
    (hF : ∀ t, F t N = f t) (hdF : ∀ t, HasDerivAt (F t) (D t - u t * (t * m t)) N)
    (hf0 : f 0 = 1) (hf : Continuous f) (hm : Continuous m) (hg : Continuous g)
    (hr : ∀ t, pre t * f t + D t - (1 - t * a1 - t ^ 2 * (a1 * a2)) * (t * m t) = t ^ (n + 1) * g t)
    (hu : (fun t => u t - (1 - t * a1 - t ^ 2 * (a1 * a2))) =O[𝓝[>] 0] fun t => t ^ n) :
    (∀ᶠ t in 𝓝[>] 0, DifferentiableAt ℝ (fun x => log (P t x * F t x)) N) ∧
    (fun t => deriv (fun x => log (P t x * F t x)) N) =O[𝓝[>] 0] fun t => t ^ (n + 1) := by
  have hd := drift_eq hP hdP hF hdF hf0 hf hr
  refine ⟨hd.mono fun t ht => ht.differentiableAt, ?_⟩
  have b1 : (fun t => t ^ (n + 1) * g t) =O[𝓝[>] 0] fun t : ℝ => t ^ (n + 1) :=
    (isBigO_of_factor (n + 1) (Eventually.of_forall fun t => rfl) hg.continuousAt).mono nhdsWithin_le_nhds
  have b2 : (fun t => t * m t) =O[𝓝[>] 0] fun t : ℝ => t ^ 1 :=
    (isBigO_of_factor 1 (Eventually.of_forall fun t => by rw [pow_one]) hm.continuousAt).mono nhdsWithin_le_nhds
  have b3 : (fun t => (u t - (1 - t * a1 - t ^ 2 * (a1 * a2))) * (t * m t)) =O[𝓝[>] 0]
      fun t : ℝ => t ^ (n + 1) := (hu.mul b2).congr_right fun t => by ring
  have b4 : (fun t => (f t)⁻¹) =O[𝓝[>] 0] fun _ : ℝ => (1:ℝ) := by
    have hc : ContinuousAt (fun t => (f t)⁻¹) 0 := hf.continuousAt.inv₀ (by rw [hf0]; exact one_ne_zero)
    exact (hc.norm.isBoundedUnder_le.isBigO_one ℝ).mono nhdsWithin_le_nhds
  have b5 := ((b1.sub b3).mul b4)
  refine (b5.congr' ?_ (Eventually.of_forall fun t => mul_one _))
  filter_upwards [hd] with t ht
  rw [ht.deriv, div_eq_mul_inv]

/-- If the pivot is taken at `k_* = aH`, a third-order expansion drifts at third order. -/
theorem drift_limit {P F : ℝ → ℝ → ℝ} {N a1 a2 : ℝ} {pre D m g u f : ℝ → ℝ}
    (hP : ∀ t, 0 < t → 0 < P t N) (hdP : ∀ t, 0 < t → HasDerivAt (P t) (pre t * P t N) N)
    (hF : ∀ t, F t N = f t) (hdF : ∀ t, HasDerivAt (F t) (D t - u t * (t * m t)) N)
    (hf0 : f 0 = 1) (hf : Continuous f) (hm : Continuous m) (hg : Continuous g)
    (hr : ∀ t, pre t * f t + D t - (1 - t * a1 - t ^ 2 * (a1 * a2)) * (t * m t) = t ^ (3 + 1) * g t)
    (hu : ∀ t, u t = 1 - t * a1) :
    Tendsto (fun t => deriv (fun x => log (P t x * F t x)) N / t ^ 3) (𝓝[>] 0) (𝓝 (-(a1 * a2 * m 0))) := by
  have hd := drift_eq hP hdP hF hdF hf0 hf hr
  have hc : ContinuousAt (fun t => (t * g t - a1 * a2 * m t) / f t) 0 :=
    ContinuousAt.div (by fun_prop) hf.continuousAt (by rw [hf0]; exact one_ne_zero)
  have e : (0 * g 0 - a1 * a2 * m 0) / f 0 = -(a1 * a2 * m 0) := by rw [hf0]; ring
  have := hc.tendsto
  rw [e] at this
  refine (this.mono_left nhdsWithin_le_nhds).congr' ?_
  filter_upwards [hd, self_mem_nhdsWithin] with t ht h0
  have h0' : t ≠ 0 := (Set.mem_Ioi.1 h0).ne'
  rw [ht.deriv, hu]
  by_cases hft : f t = 0
  · rw [hft]; simp
  · field_simp
    ring

namespace Pivot

/-- `Ps0` along the flow. -/
theorem hasDeriv_Ps0 {H e1 e2 e3 : ℝ → ℝ} {N e4 : ℝ} (h : HubbleFlow H e1 e2 e3 N e4) (he : e1 N ≠ 0) :
    HasDerivAt (fun x => Ps0 (flowPoint H e1 e2 e3 x))
      ((-2 * e1 N - e2 N) * Ps0 (flowPoint H e1 e2 e3 N)) N := by
  have hπ : π ≠ 0 := pi_ne_zero
  have k := (h.H.fun_pow 2).fun_div (h.e1.const_mul (8 * π ^ 2)) (by positivity)
  simp only [Ps0, flowPoint]
  refine k.congr_deriv ?_
  push_cast
  field_simp

/-- `Pt0` along the flow. -/
theorem hasDeriv_Pt0 {H e1 e2 e3 : ℝ → ℝ} {N e4 : ℝ} (h : HubbleFlow H e1 e2 e3 N e4) :
    HasDerivAt (fun x => Pt0 (flowPoint H e1 e2 e3 x)) ((-2 * e1 N) * Pt0 (flowPoint H e1 e2 e3 N)) N := by
  have hπ : π ≠ 0 := pi_ne_zero
  have k := ((h.H.div_const π).fun_pow 2).const_mul 2
  simp only [Pt0, flowPoint]
  refine k.congr_deriv ?_
  push_cast
  field_simp

/-- `d ln(aH)/dN = 1 - ε₁`. -/
theorem aH_deriv {H e1 e2 e3 : ℝ → ℝ} {N e4 : ℝ} (h : HubbleFlow H e1 e2 e3 N e4) (hH : 0 < H N) :
    HasDerivAt (fun x => x + log (H x)) (1 - e1 N) N := by
  refine ((hasDerivAt_id N).add (h.H.log hH.ne')).congr_deriv ?_
  field_simp
  ring

/-- The point with the unscaled parameters. -/
def pt (a1 a2 a3 : ℝ) : SRPoint := { H := 1, e1 := a1, e2 := a2, e3 := a3 }

end Pivot

open Pivot

/-- The ARBDS factor as a function of the pivot, scalar. -/
theorem expansionS {H e1 e2 e3 κ : ℝ → ℝ → ℝ} {N a1 a2 a3 a4 : ℝ} {u : ℝ → ℝ}
    (h : SlowRollFamily H e1 e2 e3 N a1 a2 a3 a4) (lk : ℝ → ℝ) (L : ℝ) (hL : ∀ t, lk t - κ t N = L)
    (hk : ∀ t, HasDerivAt (κ t) (u t) N) (n : ℕ) (hn1 : 1 ≤ n) (hn3 : n ≤ 3) (h4 : n = 3 → a4 = 0) :
    ∃ f D m g : ℝ → ℝ,
      (∀ t, arbdsS n (flowPoint (H t) (e1 t) (e2 t) (e3 t) N) (lk t - κ t N) = f t) ∧
      (∀ t, HasDerivAt (fun x => arbdsS n (flowPoint (H t) (e1 t) (e2 t) (e3 t) x) (lk t - κ t x))
        (D t - u t * (t * m t)) N) ∧
      f 0 = 1 ∧ Continuous f ∧ Continuous m ∧ Continuous g ∧ m 0 = as1_1 (pt a1 a2 a3) ∧
      ∀ t, (-2 * (t * a1) - t * a2) * f t + D t - (1 - t * a1 - t ^ 2 * (a1 * a2)) * (t * m t) = t ^ (n + 1) * g t := by
  have hfp : ∀ t, flowPoint (H t) (e1 t) (e2 t) (e3 t) N =
      { H := H t N, e1 := t * a1, e2 := t * a2, e3 := t * a3 } := fun t => by
    simp only [flowPoint, h.e1, h.e2, h.e3]
  have c01 := fun t => hasDeriv_as0_1 (h.flow t) (h.e1 t) (h.e2 t) (h.e3 t)
  have c11 := fun t => hasDeriv_as1_1 (h.flow t) (h.e1 t) (h.e2 t) (h.e3 t)
  have c02 := fun t => hasDeriv_as0_2 (h.flow t) (h.e1 t) (h.e2 t) (h.e3 t)
  have c12 := fun t => hasDeriv_as1_2 (h.flow t) (h.e1 t) (h.e2 t) (h.e3 t)
  have c22 := fun t => hasDeriv_as2_2 (h.flow t) (h.e1 t) (h.e2 t) (h.e3 t)
  have c03 := fun t => hasDeriv_as0_3 (h.flow t) (h.e1 t) (h.e2 t) (h.e3 t)
  have c13 := fun t => hasDeriv_as1_3 (h.flow t) (h.e1 t) (h.e2 t) (h.e3 t)
  have c23 := fun t => hasDeriv_as2_3 (h.flow t) (h.e1 t) (h.e2 t) (h.e3 t)
  have c33 := fun t => hasDeriv_as3_3 (h.flow t) (h.e1 t) (h.e2 t) (h.e3 t)
  have z : HasDerivAt (fun _ : ℝ => (0:ℝ)) 0 N := hasDerivAt_const _ _
  obtain rfl | rfl | rfl : n = 1 ∨ n = 2 ∨ n = 3 := by omega
  · refine ⟨fun t => 1 + t * (as0_1 (pt a1 a2 a3) - 1) + t * as1_1 (pt a1 a2 a3) * L,
      fun t => t ^ 2 * d_as0_1 a1 a2 a3 a4 + t ^ 2 * d_as1_1 a1 a2 a3 a4 * L,
      fun _ => as1_1 (pt a1 a2 a3),
      fun t => (-2 * a1 - a2) * (as0_1 (pt a1 a2 a3) - 1 + as1_1 (pt a1 a2 a3) * L)
        + d_as0_1 a1 a2 a3 a4 + d_as1_1 a1 a2 a3 a4 * L
        + (a1 + t * (a1 * a2)) * as1_1 (pt a1 a2 a3),
      ?_, ?_, by simp, by fun_prop, by fun_prop, by fun_prop, by simp, ?_⟩
    · intro t
      simp only [arbdsS, hfp, hL, scale_as0_1, scale_as1_1, pt]
      ring
    · intro t
      refine (cubic_deriv (lk t) (c01 t) (c11 t) z z (hk t)).congr_of_eventuallyEq
        (Eventually.of_forall fun x => ?_) |>.congr_deriv ?_
      · simp only [arbdsS]; ring
      · rw [hL, hfp]; simp only [scale_as1_1, pt]; ring
    · intro t
      simp only [as1_1, pt]
      ring
  · refine ⟨fun t => 1 + t * (as0_1 (pt a1 a2 a3) - 1) + t ^ 2 * as0_2 (pt a1 a2 a3)
        + (t * as1_1 (pt a1 a2 a3) + t ^ 2 * as1_2 (pt a1 a2 a3)) * L + t ^ 2 * as2_2 (pt a1 a2 a3) * L ^ 2,
      fun t => t ^ 2 * d_as0_1 a1 a2 a3 a4 + t ^ 3 * d_as0_2 a1 a2 a3 a4
        + (t ^ 2 * d_as1_1 a1 a2 a3 a4 + t ^ 3 * d_as1_2 a1 a2 a3 a4) * L
        + t ^ 3 * d_as2_2 a1 a2 a3 a4 * L ^ 2,
      fun t => as1_1 (pt a1 a2 a3) + t * (as1_2 (pt a1 a2 a3) + 2 * as2_2 (pt a1 a2 a3) * L),
      fun t => (-2 * a1 - a2) * (as0_2 (pt a1 a2 a3) + as1_2 (pt a1 a2 a3) * L
          + as2_2 (pt a1 a2 a3) * L ^ 2)
        + d_as0_2 a1 a2 a3 a4 + d_as1_2 a1 a2 a3 a4 * L + d_as2_2 a1 a2 a3 a4 * L ^ 2
        + a1 * (as1_2 (pt a1 a2 a3) + 2 * as2_2 (pt a1 a2 a3) * L)
        + a1 * a2 * (as1_1 (pt a1 a2 a3) + t * (as1_2 (pt a1 a2 a3) + 2 * as2_2 (pt a1 a2 a3) * L)),
      ?_, ?_, by simp, by fun_prop, by fun_prop, by fun_prop, by simp, ?_⟩
    · intro t
      simp only [arbdsS, hfp, hL, scale_as0_1, scale_as1_1, scale_as0_2, scale_as1_2, scale_as2_2, pt]
      ring
    · intro t
      refine (cubic_deriv (lk t) ((c01 t).fun_add (c02 t)) ((c11 t).fun_add (c12 t)) (c22 t) z
        (hk t)).congr_of_eventuallyEq (Eventually.of_forall fun x => ?_) |>.congr_deriv ?_
      · simp only [arbdsS]; ring
      · rw [hL, hfp]; simp only [scale_as1_1, scale_as1_2, scale_as2_2, pt]; ring
    · intro t
      simp only [as0_1, as1_1, as1_2, as2_2, d_as0_1, d_as1_1, pt]
      ring
  · obtain rfl := h4 rfl
    refine ⟨fun t => 1 + t * (as0_1 (pt a1 a2 a3) - 1) + t ^ 2 * as0_2 (pt a1 a2 a3)
          + t ^ 3 * as0_3 (pt a1 a2 a3)
        + (t * as1_1 (pt a1 a2 a3) + t ^ 2 * as1_2 (pt a1 a2 a3) + t ^ 3 * as1_3 (pt a1 a2 a3)) * L
        + (t ^ 2 * as2_2 (pt a1 a2 a3) + t ^ 3 * as2_3 (pt a1 a2 a3)) * L ^ 2
        + t ^ 3 * as3_3 (pt a1 a2 a3) * L ^ 3,
      fun t => t ^ 2 * d_as0_1 a1 a2 a3 0 + t ^ 3 * d_as0_2 a1 a2 a3 0 + t ^ 4 * d_as0_3 a1 a2 a3 0
        + (t ^ 2 * d_as1_1 a1 a2 a3 0 + t ^ 3 * d_as1_2 a1 a2 a3 0 + t ^ 4 * d_as1_3 a1 a2 a3 0) * L
        + (t ^ 3 * d_as2_2 a1 a2 a3 0 + t ^ 4 * d_as2_3 a1 a2 a3 0) * L ^ 2
        + t ^ 4 * d_as3_3 a1 a2 a3 0 * L ^ 3,
      fun t => as1_1 (pt a1 a2 a3) + t * (as1_2 (pt a1 a2 a3) + 2 * as2_2 (pt a1 a2 a3) * L)
        + t ^ 2 * (as1_3 (pt a1 a2 a3) + 2 * as2_3 (pt a1 a2 a3) * L + 3 * as3_3 (pt a1 a2 a3) * L ^ 2),
      fun t => (-2 * a1 - a2) * (as0_3 (pt a1 a2 a3) + as1_3 (pt a1 a2 a3) * L
          + as2_3 (pt a1 a2 a3) * L ^ 2 + as3_3 (pt a1 a2 a3) * L ^ 3)
        + d_as0_3 a1 a2 a3 0 + d_as1_3 a1 a2 a3 0 * L + d_as2_3 a1 a2 a3 0 * L ^ 2 + d_as3_3 a1 a2 a3 0 * L ^ 3
        + a1 * (as1_3 (pt a1 a2 a3) + 2 * as2_3 (pt a1 a2 a3) * L + 3 * as3_3 (pt a1 a2 a3) * L ^ 2)
        + a1 * a2 * (as1_2 (pt a1 a2 a3) + 2 * as2_2 (pt a1 a2 a3) * L
          + t * (as1_3 (pt a1 a2 a3) + 2 * as2_3 (pt a1 a2 a3) * L + 3 * as3_3 (pt a1 a2 a3) * L ^ 2)),
      ?_, ?_, by simp, by fun_prop, by fun_prop, by fun_prop, by simp, ?_⟩
    · intro t
      simp only [arbdsS, hfp, hL, scale_as0_1, scale_as1_1, scale_as0_2, scale_as1_2, scale_as2_2,
        scale_as0_3, scale_as1_3, scale_as2_3, scale_as3_3, pt]
      ring
    · intro t
      refine (cubic_deriv (lk t) (((c01 t).fun_add (c02 t)).fun_add (c03 t))
        (((c11 t).fun_add (c12 t)).fun_add (c13 t)) ((c22 t).fun_add (c23 t)) (c33 t)
        (hk t)).congr_of_eventuallyEq (Eventually.of_forall fun x => ?_) |>.congr_deriv ?_
      · simp only [arbdsS]
      · rw [hL, hfp]
        simp only [scale_as1_1, scale_as1_2, scale_as2_2, scale_as1_3, scale_as2_3, scale_as3_3, pt]; ring
    · intro t
      have i2 : (-2 * a1 - a2) * (as0_1 (pt a1 a2 a3) - 1) + d_as0_1 a1 a2 a3 0 - as1_2 (pt a1 a2 a3)
          + a1 * as1_1 (pt a1 a2 a3) = 0 := by
        simp only [as0_1, as1_1, as1_2, d_as0_1, pt]; ring
      have i2' : (-2 * a1 - a2) * as1_1 (pt a1 a2 a3) + d_as1_1 a1 a2 a3 0 - 2 * as2_2 (pt a1 a2 a3) = 0 := by
        simp only [as1_1, as2_2, d_as1_1, pt]; ring
      have i1 : -2 * a1 - a2 = as1_1 (pt a1 a2 a3) := by simp only [as1_1, pt]
      have i3 : (-2 * a1 - a2) * as0_2 (pt a1 a2 a3) + d_as0_2 a1 a2 a3 0 - as1_3 (pt a1 a2 a3)
          + a1 * as1_2 (pt a1 a2 a3) + a1 * a2 * as1_1 (pt a1 a2 a3) = 0 := by
        simp only [as0_2, as1_1, as1_2, as1_3, d_as0_2, pt]; ring
      have i3' : (-2 * a1 - a2) * as1_2 (pt a1 a2 a3) + d_as1_2 a1 a2 a3 0 - 2 * as2_3 (pt a1 a2 a3)
          + a1 * (2 * as2_2 (pt a1 a2 a3)) = 0 := by
        simp only [as1_2, as2_2, as2_3, d_as1_2, pt]; ring
      have i3'' : (-2 * a1 - a2) * as2_2 (pt a1 a2 a3) + d_as2_2 a1 a2 a3 0 - 3 * as3_3 (pt a1 a2 a3) = 0 := by
        simp only [as2_2, as3_3, d_as2_2, pt]; ring
      linear_combination t * i1 + t ^ 2 * i2 + t ^ 2 * L * i2' + t ^ 3 * i3 + t ^ 3 * L * i3'
        + t ^ 3 * L ^ 2 * i3''

/-- The ARBDS factor as a function of the pivot, tensor. -/
theorem expansionT {H e1 e2 e3 κ : ℝ → ℝ → ℝ} {N a1 a2 a3 a4 : ℝ} {u : ℝ → ℝ}
    (h : SlowRollFamily H e1 e2 e3 N a1 a2 a3 a4) (lk : ℝ → ℝ) (L : ℝ) (hL : ∀ t, lk t - κ t N = L)
    (hk : ∀ t, HasDerivAt (κ t) (u t) N) (n : ℕ) (hn1 : 1 ≤ n) (hn3 : n ≤ 3) :
    ∃ f D m g : ℝ → ℝ,
      (∀ t, arbdsT n (flowPoint (H t) (e1 t) (e2 t) (e3 t) N) (lk t - κ t N) = f t) ∧
      (∀ t, HasDerivAt (fun x => arbdsT n (flowPoint (H t) (e1 t) (e2 t) (e3 t) x) (lk t - κ t x))
        (D t - u t * (t * m t)) N) ∧
      f 0 = 1 ∧ Continuous f ∧ Continuous m ∧ Continuous g ∧ m 0 = at1_1 (pt a1 a2 a3) ∧
      ∀ t, (-2 * (t * a1)) * f t + D t - (1 - t * a1 - t ^ 2 * (a1 * a2)) * (t * m t) = t ^ (n + 1) * g t := by
  have hfp : ∀ t, flowPoint (H t) (e1 t) (e2 t) (e3 t) N =
      { H := H t N, e1 := t * a1, e2 := t * a2, e3 := t * a3 } := fun t => by
    simp only [flowPoint, h.e1, h.e2, h.e3]
  have c01 := fun t => hasDeriv_at0_1 (h.flow t) (h.e1 t) (h.e2 t) (h.e3 t)
  have c11 := fun t => hasDeriv_at1_1 (h.flow t) (h.e1 t) (h.e2 t) (h.e3 t)
  have c02 := fun t => hasDeriv_at0_2 (h.flow t) (h.e1 t) (h.e2 t) (h.e3 t)
  have c12 := fun t => hasDeriv_at1_2 (h.flow t) (h.e1 t) (h.e2 t) (h.e3 t)
  have c22 := fun t => hasDeriv_at2_2 (h.flow t) (h.e1 t) (h.e2 t) (h.e3 t)
  have c03 := fun t => hasDeriv_at0_3 (h.flow t) (h.e1 t) (h.e2 t) (h.e3 t)
  have c13 := fun t => hasDeriv_at1_3 (h.flow t) (h.e1 t) (h.e2 t) (h.e3 t)
  have c23 := fun t => hasDeriv_at2_3 (h.flow t) (h.e1 t) (h.e2 t) (h.e3 t)
  have c33 := fun t => hasDeriv_at3_3 (h.flow t) (h.e1 t) (h.e2 t) (h.e3 t)
  have z : HasDerivAt (fun _ : ℝ => (0:ℝ)) 0 N := hasDerivAt_const _ _
  obtain rfl | rfl | rfl : n = 1 ∨ n = 2 ∨ n = 3 := by omega
  · refine ⟨fun t => 1 + t * (at0_1 (pt a1 a2 a3) - 1) + t * at1_1 (pt a1 a2 a3) * L,
      fun t => t ^ 2 * d_at0_1 a1 a2 a3 a4 + t ^ 2 * d_at1_1 a1 a2 a3 a4 * L,
      fun _ => at1_1 (pt a1 a2 a3),
      fun t => (-2 * a1) * (at0_1 (pt a1 a2 a3) - 1 + at1_1 (pt a1 a2 a3) * L)
        + d_at0_1 a1 a2 a3 a4 + d_at1_1 a1 a2 a3 a4 * L
        + (a1 + t * (a1 * a2)) * at1_1 (pt a1 a2 a3),
      ?_, ?_, by simp, by fun_prop, by fun_prop, by fun_prop, by simp, ?_⟩
    · intro t
      simp only [arbdsT, hfp, hL, scale_at0_1, scale_at1_1, pt]
      ring
    · intro t
      refine (cubic_deriv (lk t) (c01 t) (c11 t) z z (hk t)).congr_of_eventuallyEq
        (Eventually.of_forall fun x => ?_) |>.congr_deriv ?_
      · simp only [arbdsT]; ring
      · rw [hL, hfp]; simp only [scale_at1_1, pt]; ring
    · intro t
      simp only [at1_1, pt]
      ring
  · refine ⟨fun t => 1 + t * (at0_1 (pt a1 a2 a3) - 1) + t ^ 2 * at0_2 (pt a1 a2 a3)
        + (t * at1_1 (pt a1 a2 a3) + t ^ 2 * at1_2 (pt a1 a2 a3)) * L + t ^ 2 * at2_2 (pt a1 a2 a3) * L ^ 2,
      fun t => t ^ 2 * d_at0_1 a1 a2 a3 a4 + t ^ 3 * d_at0_2 a1 a2 a3 a4
        + (t ^ 2 * d_at1_1 a1 a2 a3 a4 + t ^ 3 * d_at1_2 a1 a2 a3 a4) * L
        + t ^ 3 * d_at2_2 a1 a2 a3 a4 * L ^ 2,
      fun t => at1_1 (pt a1 a2 a3) + t * (at1_2 (pt a1 a2 a3) + 2 * at2_2 (pt a1 a2 a3) * L),
      fun t => (-2 * a1) * (at0_2 (pt a1 a2 a3) + at1_2 (pt a1 a2 a3) * L
          + at2_2 (pt a1 a2 a3) * L ^ 2)
        + d_at0_2 a1 a2 a3 a4 + d_at1_2 a1 a2 a3 a4 * L + d_at2_2 a1 a2 a3 a4 * L ^ 2
        + a1 * (at1_2 (pt a1 a2 a3) + 2 * at2_2 (pt a1 a2 a3) * L)
        + a1 * a2 * (at1_1 (pt a1 a2 a3) + t * (at1_2 (pt a1 a2 a3) + 2 * at2_2 (pt a1 a2 a3) * L)),
      ?_, ?_, by simp, by fun_prop, by fun_prop, by fun_prop, by simp, ?_⟩
    · intro t
      simp only [arbdsT, hfp, hL, scale_at0_1, scale_at1_1, scale_at0_2, scale_at1_2, scale_at2_2, pt]
      ring
    · intro t
      refine (cubic_deriv (lk t) ((c01 t).fun_add (c02 t)) ((c11 t).fun_add (c12 t)) (c22 t) z
        (hk t)).congr_of_eventuallyEq (Eventually.of_forall fun x => ?_) |>.congr_deriv ?_
      · simp only [arbdsT]; ring
      · rw [hL, hfp]; simp only [scale_at1_1, scale_at1_2, scale_at2_2, pt]; ring
    · intro t
      simp only [at0_1, at1_1, at1_2, at2_2, d_at0_1, d_at1_1, pt]
      ring
  · refine ⟨fun t => 1 + t * (at0_1 (pt a1 a2 a3) - 1) + t ^ 2 * at0_2 (pt a1 a2 a3)
          + t ^ 3 * at0_3 (pt a1 a2 a3)
        + (t * at1_1 (pt a1 a2 a3) + t ^ 2 * at1_2 (pt a1 a2 a3) + t ^ 3 * at1_3 (pt a1 a2 a3)) * L
        + (t ^ 2 * at2_2 (pt a1 a2 a3) + t ^ 3 * at2_3 (pt a1 a2 a3)) * L ^ 2
        + t ^ 3 * at3_3 (pt a1 a2 a3) * L ^ 3,
      fun t => t ^ 2 * d_at0_1 a1 a2 a3 a4 + t ^ 3 * d_at0_2 a1 a2 a3 a4 + t ^ 4 * d_at0_3 a1 a2 a3 a4
        + (t ^ 2 * d_at1_1 a1 a2 a3 a4 + t ^ 3 * d_at1_2 a1 a2 a3 a4 + t ^ 4 * d_at1_3 a1 a2 a3 a4) * L
        + (t ^ 3 * d_at2_2 a1 a2 a3 a4 + t ^ 4 * d_at2_3 a1 a2 a3 a4) * L ^ 2
        + t ^ 4 * d_at3_3 a1 a2 a3 a4 * L ^ 3,
      fun t => at1_1 (pt a1 a2 a3) + t * (at1_2 (pt a1 a2 a3) + 2 * at2_2 (pt a1 a2 a3) * L)
        + t ^ 2 * (at1_3 (pt a1 a2 a3) + 2 * at2_3 (pt a1 a2 a3) * L + 3 * at3_3 (pt a1 a2 a3) * L ^ 2),
      fun t => (-2 * a1) * (at0_3 (pt a1 a2 a3) + at1_3 (pt a1 a2 a3) * L
          + at2_3 (pt a1 a2 a3) * L ^ 2 + at3_3 (pt a1 a2 a3) * L ^ 3)
        + d_at0_3 a1 a2 a3 a4 + d_at1_3 a1 a2 a3 a4 * L + d_at2_3 a1 a2 a3 a4 * L ^ 2
        + d_at3_3 a1 a2 a3 a4 * L ^ 3
        + a1 * (at1_3 (pt a1 a2 a3) + 2 * at2_3 (pt a1 a2 a3) * L + 3 * at3_3 (pt a1 a2 a3) * L ^ 2)
        + a1 * a2 * (at1_2 (pt a1 a2 a3) + 2 * at2_2 (pt a1 a2 a3) * L
          + t * (at1_3 (pt a1 a2 a3) + 2 * at2_3 (pt a1 a2 a3) * L + 3 * at3_3 (pt a1 a2 a3) * L ^ 2)),
      ?_, ?_, by simp, by fun_prop, by fun_prop, by fun_prop, by simp, ?_⟩
    · intro t
      simp only [arbdsT, hfp, hL, scale_at0_1, scale_at1_1, scale_at0_2, scale_at1_2, scale_at2_2,
        scale_at0_3, scale_at1_3, scale_at2_3, scale_at3_3, pt]
      ring
    · intro t
      refine (cubic_deriv (lk t) (((c01 t).fun_add (c02 t)).fun_add (c03 t))
        (((c11 t).fun_add (c12 t)).fun_add (c13 t)) ((c22 t).fun_add (c23 t)) (c33 t)
        (hk t)).congr_of_eventuallyEq (Eventually.of_forall fun x => ?_) |>.congr_deriv ?_
      · simp only [arbdsT]
      · rw [hL, hfp]
        simp only [scale_at1_1, scale_at1_2, scale_at2_2, scale_at1_3, scale_at2_3, scale_at3_3, pt]; ring
    · intro t
      have i2 : (-2 * a1) * (at0_1 (pt a1 a2 a3) - 1) + d_at0_1 a1 a2 a3 a4 - at1_2 (pt a1 a2 a3)
          + a1 * at1_1 (pt a1 a2 a3) = 0 := by
        simp only [at0_1, at1_1, at1_2, d_at0_1, pt]; ring
      have i2' : (-2 * a1) * at1_1 (pt a1 a2 a3) + d_at1_1 a1 a2 a3 a4 - 2 * at2_2 (pt a1 a2 a3) = 0 := by
        simp only [at1_1, at2_2, d_at1_1, pt]; ring
      have i1 : -2 * a1 = at1_1 (pt a1 a2 a3) := by simp only [at1_1, pt]
      have i3 : (-2 * a1) * at0_2 (pt a1 a2 a3) + d_at0_2 a1 a2 a3 a4 - at1_3 (pt a1 a2 a3)
          + a1 * at1_2 (pt a1 a2 a3) + a1 * a2 * at1_1 (pt a1 a2 a3) = 0 := by
        simp only [at0_2, at1_1, at1_2, at1_3, d_at0_2, pt]; ring
      have i3' : (-2 * a1) * at1_2 (pt a1 a2 a3) + d_at1_2 a1 a2 a3 a4 - 2 * at2_3 (pt a1 a2 a3)
          + a1 * (2 * at2_2 (pt a1 a2 a3)) = 0 := by
        simp only [at1_2, at2_2, at2_3, d_at1_2, pt]; ring
      have i3'' : (-2 * a1) * at2_2 (pt a1 a2 a3) + d_at2_2 a1 a2 a3 a4 - 3 * at3_3 (pt a1 a2 a3) = 0 := by
        simp only [at2_2, at3_3, d_at2_2, pt]; ring
      linear_combination t * i1 + t ^ 2 * i2 + t ^ 2 * L * i2' + t ^ 3 * i3 + t ^ 3 * L * i3'
        + t ^ 3 * L ^ 2 * i3''


theorem prefactorT {H e1 e2 e3 : ℝ → ℝ → ℝ} {N a1 a2 a3 a4 : ℝ}
    (h : SlowRollFamily H e1 e2 e3 N a1 a2 a3 a4) :
    (∀ t, 0 < t → 0 < Pt0 (flowPoint (H t) (e1 t) (e2 t) (e3 t) N)) ∧
    ∀ t, 0 < t → HasDerivAt (fun x => Pt0 (flowPoint (H t) (e1 t) (e2 t) (e3 t) x))
      ((-2 * (t * a1)) * Pt0 (flowPoint (H t) (e1 t) (e2 t) (e3 t) N)) N := by
  have hfp : ∀ t, flowPoint (H t) (e1 t) (e2 t) (e3 t) N =
      { H := H t N, e1 := t * a1, e2 := t * a2, e3 := t * a3 } := fun t => by
    simp only [flowPoint, h.e1, h.e2, h.e3]
  have hP : ∀ t, 0 < t → 0 < Pt0 (flowPoint (H t) (e1 t) (e2 t) (e3 t) N) := fun t ht => by
    rw [hfp]; simp only [Pt0]
    have := h.H_pos t
    positivity
  have hdP : ∀ t, 0 < t → HasDerivAt (fun x => Pt0 (flowPoint (H t) (e1 t) (e2 t) (e3 t) x))
      ((-2 * (t * a1)) * Pt0 (flowPoint (H t) (e1 t) (e2 t) (e3 t) N)) N := fun t _ => by
    have := hasDeriv_Pt0 (h.flow t)
    rwa [h.e1] at this
  exact ⟨hP, hdP⟩


theorem prefactorS {H e1 e2 e3 : ℝ → ℝ → ℝ} {N a1 a2 a3 a4 : ℝ} (ha : 0 < a1)
    (h : SlowRollFamily H e1 e2 e3 N a1 a2 a3 a4) :
    (∀ t, 0 < t → 0 < Ps0 (flowPoint (H t) (e1 t) (e2 t) (e3 t) N)) ∧
    ∀ t, 0 < t → HasDerivAt (fun x => Ps0 (flowPoint (H t) (e1 t) (e2 t) (e3 t) x))
      ((-2 * (t * a1) - t * a2) * Ps0 (flowPoint (H t) (e1 t) (e2 t) (e3 t) N)) N := by
  have hfp : ∀ t, flowPoint (H t) (e1 t) (e2 t) (e3 t) N =
      { H := H t N, e1 := t * a1, e2 := t * a2, e3 := t * a3 } := fun t => by
    simp only [flowPoint, h.e1, h.e2, h.e3]
  have hP : ∀ t, 0 < t → 0 < Ps0 (flowPoint (H t) (e1 t) (e2 t) (e3 t) N) := fun t ht => by
    rw [hfp]; simp only [Ps0]
    have := h.H_pos t
    positivity
  have hdP : ∀ t, 0 < t → HasDerivAt (fun x => Ps0 (flowPoint (H t) (e1 t) (e2 t) (e3 t) x))
      ((-2 * (t * a1) - t * a2) * Ps0 (flowPoint (H t) (e1 t) (e2 t) (e3 t) N)) N := fun t ht => by
    have := hasDeriv_Ps0 (h.flow t) (by rw [h.e1]; positivity)
    rwa [h.e1, h.e2] at this
  exact ⟨hP, hdP⟩

/-- **C71 (scalar).**  Take any history with slow-roll parameters of order `t` and move the pivot along it.  If
`d ln k_*/dN = 1 - ε₁ - ε₁ε₂ + O(tⁿ)`, the ARBDS prediction of order `n ∈ {1,2,3}` for `ln P_s` at any fixed
wavenumber changes by `O(t^{n+1})` per e-fold.  (At third order with `ε₄ = 0`, the value the code uses.) -/
theorem C71_pivot_scalar {H e1 e2 e3 κ : ℝ → ℝ → ℝ} {N a1 a2 a3 a4 : ℝ} {u : ℝ → ℝ} (ha : 0 < a1)
    (h : SlowRollFamily H e1 e2 e3 N a1 a2 a3 a4) (lk : ℝ → ℝ) (L : ℝ) (hL : ∀ t, lk t - κ t N = L)
    (hk : ∀ t, HasDerivAt (κ t) (u t) N) (n : ℕ) (hn1 : 1 ≤ n) (hn3 : n ≤ 3) (h4 : n = 3 → a4 = 0)
    (hu : (fun t => u t - (1 - t * a1 - t ^ 2 * (a1 * a2))) =O[𝓝[>] 0] fun t => t ^ n) :
    (∀ᶠ t in 𝓝[>] 0, DifferentiableAt ℝ (predictS n (H t) (e1 t) (e2 t) (e3 t) (κ t) (lk t)) N) ∧
    (fun t => deriv (predictS n (H t) (e1 t) (e2 t) (e3 t) (κ t) (lk t)) N) =O[𝓝[>] 0] fun t => t ^ (n + 1) := by
  obtain ⟨f, D, m, g, hF, hdF, h0, hf, hm, hg, -, hr⟩ := expansionS h lk L hL hk n hn1 hn3 h4
  exact drift_order (prefactorS ha h).1 (prefactorS ha h).2 hF hdF h0 hf hm hg hr hu

/-- **C71 (tensor).** -/
theorem C71_pivot_tensor {H e1 e2 e3 κ : ℝ → ℝ → ℝ} {N a1 a2 a3 a4 : ℝ} {u : ℝ → ℝ}
    (h : SlowRollFamily H e1 e2 e3 N a1 a2 a3 a4) (lk : ℝ → ℝ) (L : ℝ) (hL : ∀ t, lk t - κ t N = L)
    (hk : ∀ t, HasDerivAt (κ t) (u t) N) (n : ℕ) (hn1 : 1 ≤ n) (hn3 : n ≤ 3)
    (hu : (fun t => u t - (1 - t * a1 - t ^ 2 * (a1 * a2))) =O[𝓝[>] 0] fun t => t ^ n) :
    (∀ᶠ t in 𝓝[>] 0, DifferentiableAt ℝ (predictT n (H t) (e1 t) (e2 t) (e3 t) (κ t) (lk t)) N) ∧
    (fun t => deriv (predictT n (H t) (e1 t) (e2 t) (e3 t) (κ t) (lk t)) N) =O[𝓝[>] 0] fun t => t ^ (n + 1) := by
  obtain ⟨f, D, m, g, hF, hdF, h0, hf, hm, hg, -, hr⟩ := expansionT h lk L hL hk n hn1 hn3
  exact drift_order (prefactorT h).1 (prefactorT h).2 hF hdF h0 hf hm hg hr hu

/-! ### The two ways of assigning a moment to `k_*` -/

/-- **C71, the code's convention, orders 1 and 2.**  With `k_* = aH` (`ln k_* = N + ln H`), which is how `_N_cross`
is found, the predictions of order 1 and 2 are independent of the pivot to the order claimed. -/
theorem C71_horizon_crossing {H e1 e2 e3 : ℝ → ℝ → ℝ} {N a1 a2 a3 a4 : ℝ} (ha : 0 < a1)
    (h : SlowRollFamily H e1 e2 e3 N a1 a2 a3 a4) (L : ℝ) (n : ℕ) (hn1 : 1 ≤ n) (hn2 : n ≤ 2) :
    ((fun t => deriv (predictS n (H t) (e1 t) (e2 t) (e3 t) (fun x => x + log (H t x)) (N + log (H t N) + L)) N)
      =O[𝓝[>] 0] fun t => t ^ (n + 1)) ∧
    ((fun t => deriv (predictT n (H t) (e1 t) (e2 t) (e3 t) (fun x => x + log (H t x)) (N + log (H t N) + L)) N)
      =O[𝓝[>] 0] fun t => t ^ (n + 1)) := by
  have hk := fun t => aH_deriv (h.flow t) (h.H_pos t)
  have hu : (fun t => 1 - e1 t N - (1 - t * a1 - t ^ 2 * (a1 * a2))) =O[𝓝[>] 0] fun t => t ^ n := by
    have : (fun t => 1 - e1 t N - (1 - t * a1 - t ^ 2 * (a1 * a2))) =O[𝓝 0] fun t => t ^ n :=
      isBigO_of_factor (g := fun t => t ^ (2 - n) * (a1 * a2)) n (Eventually.of_forall fun t => by
        rw [h.e1, ← mul_assoc (t ^ n), ← pow_add, show n + (2 - n) = 2 by omega]; ring) (by fun_prop)
    exact this.mono nhdsWithin_le_nhds
  exact ⟨(C71_pivot_scalar ha h (fun t => N + log (H t N) + L) L (fun t => by ring) hk n hn1 (by omega)
      (by omega) hu).2,
    (C71_pivot_tensor h (fun t => N + log (H t N) + L) L (fun t => by ring) hk n hn1 (by omega) hu).2⟩

/-- **C71, the code's convention, order 3.**  With `k_* = aH` the third-order predictions do depend on the pivot at
third order: per e-fold `ln P_s` drifts by `ε₁ε₂(2ε₁+ε₂)` and `ln P_t` by `2ε₁²ε₂`. -/
theorem C71_third_order_drift {H e1 e2 e3 : ℝ → ℝ → ℝ} {N a1 a2 a3 : ℝ} (ha : 0 < a1)
    (h : SlowRollFamily H e1 e2 e3 N a1 a2 a3 0) (L : ℝ) :
    Tendsto (fun t => deriv (predictS 3 (H t) (e1 t) (e2 t) (e3 t) (fun x => x + log (H t x))
      (N + log (H t N) + L)) N / t ^ 3) (𝓝[>] 0) (𝓝 (a1 * a2 * (2 * a1 + a2))) ∧
    Tendsto (fun t => deriv (predictT 3 (H t) (e1 t) (e2 t) (e3 t) (fun x => x + log (H t x))
      (N + log (H t N) + L)) N / t ^ 3) (𝓝[>] 0) (𝓝 (2 * a1 ^ 2 * a2)) := by
  have hk := fun t => aH_deriv (h.flow t) (h.H_pos t)
  have hu : ∀ t, 1 - e1 t N = 1 - t * a1 := fun t => by rw [h.e1]
  constructor
  · obtain ⟨f, D, m, g, hF, hdF, h0, hf, hm, hg, hm0, hr⟩ := expansionS h (fun t => N + log (H t N) + L) L
      (fun t => by ring) hk 3 (by omega) (by omega) (fun _ => rfl)
    have := drift_limit (prefactorS ha h).1 (prefactorS ha h).2 hF hdF h0 hf hm hg hr hu
    rw [hm0] at this
    simp only [as1_1, pt] at this
    rw [show a1 * a2 * (2 * a1 + a2) = -(a1 * a2 * (-2 * a1 - a2)) by ring]
    exact this
  · obtain ⟨f, D, m, g, hF, hdF, h0, hf, hm, hg, hm0, hr⟩ := expansionT h (fun t => N + log (H t N) + L) L
      (fun t => by ring) hk 3 (by omega) (by omega)
    have := drift_limit (prefactorT h).1 (prefactorT h).2 hF hdF h0 hf hm hg hr hu
    rw [hm0] at this
    simp only [at1_1, pt] at this
    rw [show 2 * a1 ^ 2 * a2 = -(a1 * a2 * (-2 * a1)) by ring]
    exact this

/-- **C71, the papers' convention.**  If `k_* = -1/η` with conformal time `dη/dN = 1/(aH)` on the slow-roll
branch `aH|η| = 1 + ε₁ + ε₁² + ε₁ε₂ + O(t³)`, all three orders are independent of the pivot to the order
claimed. -/
theorem C71_conformal_time {H e1 e2 e3 η : ℝ → ℝ → ℝ} {N a1 a2 a3 : ℝ} (ha : 0 < a1)
    (h : SlowRollFamily H e1 e2 e3 N a1 a2 a3 0) (L : ℝ) (n : ℕ) (hn1 : 1 ≤ n) (hn3 : n ≤ 3)
    (hη : ∀ t, HasDerivAt (η t) (1 / (exp N * H t N)) N) (hneg : ∀ t, η t N < 0)
    (hq : (fun t => exp N * H t N * |η t N| - (1 + t * a1 + t ^ 2 * (a1 ^ 2 + a1 * a2))) =O[𝓝[>] 0]
      fun t => t ^ 3) :
    ((fun t => deriv (predictS n (H t) (e1 t) (e2 t) (e3 t) (fun x => log (-1 / η t x)) (log (-1 / η t N) + L)) N)
      =O[𝓝[>] 0] fun t => t ^ (n + 1)) ∧
    ((fun t => deriv (predictT n (H t) (e1 t) (e2 t) (e3 t) (fun x => log (-1 / η t x)) (log (-1 / η t N) + L)) N)
      =O[𝓝[>] 0] fun t => t ^ (n + 1)) := by
  obtain ⟨q, hqd⟩ : ∃ q : ℝ → ℝ, ∀ t, q t = exp N * H t N * |η t N| := ⟨_, fun _ => rfl⟩
  simp only [← hqd] at hq
  have hqpos : ∀ t, 0 < q t := fun t => by
    rw [hqd]; exact mul_pos (mul_pos (exp_pos _) (h.H_pos t)) (abs_pos.2 (hneg t).ne)
  have hk : ∀ t, HasDerivAt (fun x => log (-1 / η t x)) (1 / q t) N := fun t => by
    have hη0 := (hneg t).ne
    have hH := (h.H_pos t).ne'
    refine (((hasDerivAt_const N (-1:ℝ)).fun_div (hη t) hη0).log
      (div_ne_zero (by norm_num) hη0)).congr_deriv ?_
    rw [hqd, abs_of_neg (hneg t)]
    field_simp
    ring
  have hq1 : Tendsto q (𝓝[>] 0) (𝓝 1) := by
    have h1 : Tendsto (fun t : ℝ => t ^ 3) (𝓝[>] 0) (𝓝 0) := by
      have : ContinuousAt (fun t : ℝ => t ^ 3) 0 := by fun_prop
      simpa [ContinuousAt] using this.tendsto.mono_left (nhdsWithin_le_nhds (s := Set.Ioi 0))
    have h2 := hq.trans_tendsto h1
    have h3 : Tendsto (fun t : ℝ => 1 + t * a1 + t ^ 2 * (a1 ^ 2 + a1 * a2)) (𝓝[>] 0) (𝓝 1) := by
      have : ContinuousAt (fun t : ℝ => 1 + t * a1 + t ^ 2 * (a1 ^ 2 + a1 * a2)) 0 := by fun_prop
      simpa [ContinuousAt] using this.tendsto.mono_left (nhdsWithin_le_nhds (s := Set.Ioi 0))
    simpa using h2.add h3
  have hu3 : (fun t => 1 / q t - (1 - t * a1 - t ^ 2 * (a1 * a2))) =O[𝓝[>] 0] fun t => t ^ 3 := by
    have hinv : (fun t => (q t)⁻¹) =O[𝓝[>] 0] fun _ : ℝ => (1:ℝ) :=
      (hq1.inv₀ one_ne_zero).isBigO_one ℝ
    have hb : (fun t : ℝ => 1 - t * a1 - t ^ 2 * (a1 * a2)) =O[𝓝[>] 0] fun _ : ℝ => (1:ℝ) := by
      have : ContinuousAt (fun t : ℝ => 1 - t * a1 - t ^ 2 * (a1 * a2)) 0 := by fun_prop
      exact (this.norm.isBoundedUnder_le.isBigO_one ℝ).mono nhdsWithin_le_nhds
    have e1' : (fun t => 1 - (1 + t * a1 + t ^ 2 * (a1 ^ 2 + a1 * a2)) * (1 - t * a1 - t ^ 2 * (a1 * a2)))
        =O[𝓝[>] 0] fun t : ℝ => t ^ 3 := by
      have : (fun t => 1 - (1 + t * a1 + t ^ 2 * (a1 ^ 2 + a1 * a2)) * (1 - t * a1 - t ^ 2 * (a1 * a2)))
          =O[𝓝 0] fun t : ℝ => t ^ 3 :=
        isBigO_of_factor (g := fun t => a1 * (a1 * a2) + (a1 ^ 2 + a1 * a2) * a1
          + t * ((a1 ^ 2 + a1 * a2) * (a1 * a2))) 3 (Eventually.of_forall fun t => by ring) (by fun_prop)
      exact this.mono nhdsWithin_le_nhds
    have e2' := ((e1'.sub ((hq.mul hb).congr_right fun t => mul_one _)).mul hinv)
    refine e2'.congr (fun t => ?_) (fun t => mul_one _)
    have := (hqpos t).ne'
    field_simp
    ring
  have hu : (fun t => 1 / q t - (1 - t * a1 - t ^ 2 * (a1 * a2))) =O[𝓝[>] 0] fun t => t ^ n := by
    refine hu3.trans ?_
    have : (fun t : ℝ => t ^ 3) =O[𝓝 0] fun t => t ^ n :=
      isBigO_of_factor (g := fun t => t ^ (3 - n)) n (Eventually.of_forall fun t => by
        rw [← pow_add, show n + (3 - n) = 3 by omega]) (by fun_prop)
    exact this.mono nhdsWithin_le_nhds
  exact ⟨(C71_pivot_scalar ha h (fun t => log (-1 / η t N) + L) L (fun t => by ring) hk n hn1 hn3
      (fun _ => rfl) hu).2,
    (C71_pivot_tensor h (fun t => log (-1 / η t N) + L) L (fun t => by ring) hk n hn1 hn3 hu).2⟩

/-! ### LLMS -/

/-- `d/dN` of a quadratic `A0 + A1 (lk - κ) + A2/2 (lk - κ)²` with moving coefficients. -/
theorem quad_deriv {A0 A1 A2 κ : ℝ → ℝ} {B0 B1 B2 u N : ℝ} (lk : ℝ) (h0 : HasDerivAt A0 B0 N)
    (h1 : HasDerivAt A1 B1 N) (h2 : HasDerivAt A2 B2 N) (hk : HasDerivAt κ u N) :
    HasDerivAt (fun x => A0 x + A1 x * (lk - κ x) + A2 x / 2 * (lk - κ x) ^ 2)
      (B0 + B1 * (lk - κ N) + B2 / 2 * (lk - κ N) ^ 2 - u * (A1 N + A2 N * (lk - κ N))) N := by
  have hL := hk.const_sub lk
  refine ((h0.fun_add (h1.fun_mul hL)).fun_add ((h2.div_const 2).fun_mul (hL.fun_pow 2))).congr_deriv ?_
  push_cast
  ring

/-- **C71, LLMS.**  With `k_* = aH` the LLMS predictions for `ln P_s` and `ln P_t` at a fixed wavenumber change by
`O(t³)` per e-fold of the pivot: they are second-order expressions. -/
theorem C71_LLMS {H e1 e2 e3 : ℝ → ℝ → ℝ} {N a1 a2 a3 a4 : ℝ} (ha : 0 < a1)
    (h : SlowRollFamily H e1 e2 e3 N a1 a2 a3 a4) (L : ℝ) :
    ((fun t => deriv (fun x => llmsS (flowPoint (H t) (e1 t) (e2 t) (e3 t) x)
      (N + log (H t N) + L - (x + log (H t x)))) N) =O[𝓝[>] 0] fun t => t ^ 3) ∧
    ((fun t => deriv (fun x => llmsT (flowPoint (H t) (e1 t) (e2 t) (e3 t) x)
      (N + log (H t N) + L - (x + log (H t x)))) N) =O[𝓝[>] 0] fun t => t ^ 3) := by
  have hk := fun t => aH_deriv (h.flow t) (h.H_pos t)
  have g1 : ∀ t, HasDerivAt (e1 t) (t * a1 * (t * a2)) N := fun t => by
    have := (h.flow t).e1; rwa [h.e1, h.e2] at this
  have g2 : ∀ t, HasDerivAt (e2 t) (t * a2 * (t * a3)) N := fun t => by
    have := (h.flow t).e2; rwa [h.e2, h.e3] at this
  have g3 : ∀ t, HasDerivAt (e3 t) (t * a3 * (t * a4)) N := fun t => by
    have := (h.flow t).e3; rwa [h.e3] at this
  have lift : ∀ {f : ℝ → ℝ} (g : ℝ → ℝ), ContinuousAt g 0 → (∀ t, 0 < t → f t = t ^ 3 * g t) →
      f =O[𝓝[>] 0] fun t => t ^ 3 := by
    intro f g hg hf
    have b : (fun t => t ^ 3 * g t) =O[𝓝[>] 0] fun t : ℝ => t ^ 3 :=
      (isBigO_of_factor 3 (Eventually.of_forall fun t => rfl) hg).mono nhdsWithin_le_nhds
    refine b.congr' ?_ EventuallyEq.rfl
    filter_upwards [self_mem_nhdsWithin] with t ht
    exact (hf t ht).symm
  constructor
  · refine lift (fun t => (-2 * C + π ^ 2 / 2 - 7) * (2 * a1 ^ 2 * a2)
        + (-C ^ 2 - 3 * C + 7 * π ^ 2 / 12 - 7) * (a1 * a2 * (a2 + a3))
        + (π ^ 2 / 8 - 1) * (2 * a2 ^ 2 * a3) + (-C ^ 2 / 2 + π ^ 2 / 24) * (a2 * a3 * (a3 + a4))
        + (-4 * a1 ^ 2 * a2 - (2 * C + 3) * (a1 * a2 * (a2 + a3)) - C * (a2 * a3 * (a3 + a4))) * L
        + (-2 * (a1 * a2 * (a2 + a3)) - a2 * a3 * (a3 + a4)) / 2 * L ^ 2
        + a1 * (-2 * a1 ^ 2 - (2 * C + 3) * a1 * a2 - C * a2 * a3 + (-2 * a1 * a2 - a2 * a3) * L))
      (by fun_prop) fun t ht => ?_
    have hP := (prefactorS ha h).1 t ht
    have d0 : HasDerivAt (fun x => log (Ps0 (flowPoint (H t) (e1 t) (e2 t) (e3 t) x))
        + bs0 (flowPoint (H t) (e1 t) (e2 t) (e3 t) x))
        (-2 * (t * a1) - t * a2 + t ^ 2 * (-2 * (C + 1) * (a1 * a2) - C * (a2 * a3))
          + t ^ 3 * ((-2 * C + π ^ 2 / 2 - 7) * (2 * a1 ^ 2 * a2)
        + (-C ^ 2 - 3 * C + 7 * π ^ 2 / 12 - 7) * (a1 * a2 * (a2 + a3))
        + (π ^ 2 / 8 - 1) * (2 * a2 ^ 2 * a3) + (-C ^ 2 / 2 + π ^ 2 / 24) * (a2 * a3 * (a3 + a4)))) N := by
      have k1 := ((prefactorS ha h).2 t ht).log hP.ne'
      have k2 := ((((((g1 t).const_mul (-2 * (C + 1))).fun_sub ((g2 t).const_mul C)).fun_add
          (((g1 t).fun_pow 2).const_mul (-2 * C + π ^ 2 / 2 - 7))).fun_add
          (((g1 t).const_mul (-C ^ 2 - 3 * C + 7 * π ^ 2 / 12 - 7)).fun_mul (g2 t))).fun_add
          (((g2 t).fun_pow 2).const_mul (π ^ 2 / 8 - 1))).fun_add
          (((g2 t).const_mul (-C ^ 2 / 2 + π ^ 2 / 24)).fun_mul (g3 t))
      refine (k1.fun_add k2).congr_deriv ?_
      rw [mul_div_assoc, div_self hP.ne', h.e1, h.e2, h.e3]
      push_cast
      ring
    have d1 : HasDerivAt (fun x => llms_ns (flowPoint (H t) (e1 t) (e2 t) (e3 t) x) - 1)
        (t ^ 2 * (-2 * (a1 * a2) - a2 * a3) + t ^ 3 * (-4 * a1 ^ 2 * a2 - (2 * C + 3) * (a1 * a2 * (a2 + a3))
          - C * (a2 * a3 * (a3 + a4)))) N := by
      simp only [llms_ns, flowPoint]
      refine ((((((((g1 t).const_mul 2).const_sub 1).fun_sub (g2 t)).fun_sub
        (((g1 t).fun_pow 2).const_mul 2)).fun_sub (((g1 t).const_mul (2 * C + 3)).fun_mul (g2 t))).fun_sub
        (((g2 t).const_mul C).fun_mul (g3 t))).sub_const 1).congr_deriv ?_
      rw [h.e1, h.e2, h.e3]
      push_cast
      ring
    have d2 : HasDerivAt (fun x => llms_nsrun (flowPoint (H t) (e1 t) (e2 t) (e3 t) x))
        (t ^ 3 * (-2 * (a1 * a2 * (a2 + a3)) - a2 * a3 * (a3 + a4))) N := by
      simp only [llms_nsrun, flowPoint]
      refine ((((g1 t).const_mul (-2)).fun_mul (g2 t)).fun_sub ((g2 t).fun_mul (g3 t))).congr_deriv ?_
      rw [h.e1, h.e2, h.e3]
      ring
    have := quad_deriv (N + log (H t N) + L) d0 d1 d2 (hk t)
    have e : ∀ x, llmsS (flowPoint (H t) (e1 t) (e2 t) (e3 t) x) (N + log (H t N) + L - (x + log (H t x))) =
        log (Ps0 (flowPoint (H t) (e1 t) (e2 t) (e3 t) x)) + bs0 (flowPoint (H t) (e1 t) (e2 t) (e3 t) x)
        + (llms_ns (flowPoint (H t) (e1 t) (e2 t) (e3 t) x) - 1) * (N + log (H t N) + L - (x + log (H t x)))
        + llms_nsrun (flowPoint (H t) (e1 t) (e2 t) (e3 t) x) / 2
          * (N + log (H t N) + L - (x + log (H t x))) ^ 2 := fun x => rfl
    simp only [e]
    rw [this.deriv, show N + log (H t N) + L - (N + log (H t N)) = L by ring]
    simp only [llms_ns, llms_nsrun, flowPoint, h.e1, h.e2, h.e3]
    ring
  · refine lift (fun t => (-2 * C + π ^ 2 / 2 - 7) * (2 * a1 ^ 2 * a2)
        + (-C ^ 2 - 2 * C + π ^ 2 / 12 - 2) * (a1 * a2 * (a2 + a3))
        + (-4 * a1 ^ 2 * a2 - 2 * (C + 1) * (a1 * a2 * (a2 + a3))) * L
        + (-2 * (a1 * a2 * (a2 + a3))) / 2 * L ^ 2
        + a1 * (-2 * a1 ^ 2 - 2 * (C + 1) * a1 * a2 + -2 * a1 * a2 * L))
      (by fun_prop) fun t ht => ?_
    have hP := (prefactorT h).1 t ht
    have d0 : HasDerivAt (fun x => log (Pt0 (flowPoint (H t) (e1 t) (e2 t) (e3 t) x))
        + bt0 (flowPoint (H t) (e1 t) (e2 t) (e3 t) x))
        (-2 * (t * a1) + t ^ 2 * (-2 * (C + 1) * (a1 * a2))
          + t ^ 3 * ((-2 * C + π ^ 2 / 2 - 7) * (2 * a1 ^ 2 * a2)
        + (-C ^ 2 - 2 * C + π ^ 2 / 12 - 2) * (a1 * a2 * (a2 + a3)))) N := by
      have k1 := ((prefactorT h).2 t ht).log hP.ne'
      have k2 := (((g1 t).const_mul (-2 * (C + 1))).fun_add
          (((g1 t).fun_pow 2).const_mul (-2 * C + π ^ 2 / 2 - 7))).fun_add
          (((g1 t).const_mul (-C ^ 2 - 2 * C + π ^ 2 / 12 - 2)).fun_mul (g2 t))
      refine (k1.fun_add k2).congr_deriv ?_
      rw [mul_div_assoc, div_self hP.ne', h.e1, h.e2]
      push_cast
      ring
    have d1 : HasDerivAt (fun x => llms_nt (flowPoint (H t) (e1 t) (e2 t) (e3 t) x))
        (t ^ 2 * (-2 * (a1 * a2)) + t ^ 3 * (-4 * a1 ^ 2 * a2 - 2 * (C + 1) * (a1 * a2 * (a2 + a3)))) N := by
      simp only [llms_nt, flowPoint]
      refine ((((g1 t).const_mul (-2)).fun_sub
        (((g1 t).fun_pow 2).const_mul 2)).fun_sub (((g1 t).const_mul (2 * (C + 1))).fun_mul (g2 t))).congr_deriv ?_
      rw [h.e1, h.e2]
      push_cast
      ring
    have d2 : HasDerivAt (fun x => llms_ntrun (flowPoint (H t) (e1 t) (e2 t) (e3 t) x))
        (t ^ 3 * (-2 * (a1 * a2 * (a2 + a3)))) N := by
      simp only [llms_ntrun, flowPoint]
      refine (((g1 t).const_mul (-2)).fun_mul (g2 t)).congr_deriv ?_
      rw [h.e1, h.e2]
      ring
    have := quad_deriv (N + log (H t N) + L) d0 d1 d2 (hk t)
    have e : ∀ x, llmsT (flowPoint (H t) (e1 t) (e2 t) (e3 t) x) (N + log (H t N) + L - (x + log (H t x))) =
        log (Pt0 (flowPoint (H t) (e1 t) (e2 t) (e3 t) x)) + bt0 (flowPoint (H t) (e1 t) (e2 t) (e3 t) x)
        + llms_nt (flowPoint (H t) (e1 t) (e2 t) (e3 t) x) * (N + log (H t N) + L - (x + log (H t x)))
        + llms_ntrun (flowPoint (H t) (e1 t) (e2 t) (e3 t) x) / 2
          * (N + log (H t N) + L - (x + log (H t x))) ^ 2 := fun x => rfl
    simp only [e]
    rw [this.deriv, show N + log (H t N) + L - (N + log (H t N)) = L by ring]
    simp only [llms_nt, llms_ntrun, flowPoint, h.e1, h.e2]
    ring

/-- Hypotheses met: the family with `H = e^{-tx/100}`, ... -/
theorem demoFamily : SlowRollFamily (fun t x => exp (-(t / 100) * x))
    (fun t x => t / 100 * exp (t / 50 * x)) (fun t x => t / 50 * exp (t / 30 * x))
    (fun t _ => t / 30) 0 (1 / 100) (1 / 50) (1 / 30) 0 where
  flow t := by
    have l : ∀ c : ℝ, HasDerivAt (fun x : ℝ => exp (c * x)) c 0 := fun c =>
      (((hasDerivAt_id (0:ℝ)).const_mul c).exp).congr_deriv (by simp)
    refine ⟨(l _).congr_deriv ?_, ((l _).const_mul _).congr_deriv ?_, ((l _).const_mul _).congr_deriv ?_,
      (hasDerivAt_const _ _).congr_deriv ?_⟩ <;> simp
  H_pos t := exp_pos _
  e1 t := by simp; ring
  e2 t := by simp; ring
  e3 t := by ring

/-- The third-order drift of the code's convention is not zero for it. -/
example : Tendsto (fun t => deriv (predictS 3 (fun x => exp (-(t / 100) * x)) (fun x => t / 100 * exp (t / 50 * x))
      (fun x => t / 50 * exp (t / 30 * x)) (fun _ => t / 30) (fun x => x + log (exp (-(t / 100) * x))) 1) 0 / t ^ 3)
    (𝓝[>] 0) (𝓝 (1 / 125000)) := by
  have := (C71_third_order_drift (by norm_num) demoFamily 1).1
  norm_num at this ⊢
  exact this

/-- Hypotheses met by the conformal-time version: `η(x) = η₀ + x` with `η₀ = -(1 + ε₁ + ε₁² + ε₁ε₂)`. -/
example : (fun t => deriv (predictS 3 (fun x => exp (-(t / 100) * x)) (fun x => t / 100 * exp (t / 50 * x))
      (fun x => t / 50 * exp (t / 30 * x)) (fun _ => t / 30)
      (fun x => log (-1 / (x - (1 + t * (1 / 100) + t ^ 2 * ((1 / 100) ^ 2 + 1 / 100 * (1 / 50))))))
      (log (-1 / (0 - (1 + t * (1 / 100) + t ^ 2 * ((1 / 100) ^ 2 + 1 / 100 * (1 / 50))))) + 2)) 0)
    =O[𝓝[>] 0] fun t => t ^ 4 := by
  have hp : ∀ t : ℝ, 0 < 1 + t * (1 / 100) + t ^ 2 * ((1 / 100) ^ 2 + 1 / 100 * (1 / 50)) := fun t => by
    nlinarith [sq_nonneg (1 + t / 200), sq_nonneg t]
  refine (C71_conformal_time (by norm_num) demoFamily 2 3 (by norm_num) le_rfl
    (η := fun t x => x - (1 + t * (1 / 100) + t ^ 2 * ((1 / 100) ^ 2 + 1 / 100 * (1 / 50))))
    (fun t => ?_) (fun t => by have := hp t; linarith) ?_).1
  · refine ((hasDerivAt_id (0:ℝ)).sub_const _).congr_deriv ?_
    simp
  · refine (isBigO_zero (fun t : ℝ => t ^ 3) _).congr_left fun t => ?_
    have := hp t
    rw [abs_of_neg (by linarith)]
    simp

end Primpy
