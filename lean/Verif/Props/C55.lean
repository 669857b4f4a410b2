import Verif.Model.SpectraSol
import Mathlib.Analysis.SpecialFunctions.Exp
import Mathlib.Analysis.SpecialFunctions.Log.Deriv

/-!
# C55: the slow-roll spectra agree order by order

Slow-roll order is made precise by scaling: `p.at t` has `ε_i → t ε_i`, `δ_n → tⁿ δ_n` (which is how the
parameters scale together), and "agree through order `n`" means that the difference is `O(t^{n+1})`.
-/

namespace Primpy
open Real Asymptotics Filter Topology Approx

/-- The slow-roll parameters scaled by `t`. -/
def SRPoint.at (p : SRPoint) (t : ℝ) : SRPoint :=
  { p with e1 := t * p.e1, e2 := t * p.e2, e3 := t * p.e3, d1 := t * p.d1, d2 := t ^ 2 * p.d2,
           d3 := t ^ 3 * p.d3, g2 := t ^ 2 * p.g2, g3 := t ^ 3 * p.g3 }

/-- The exact relations between the two parameter families in a flat universe:
`ε₂ = 2(ε₁+δ₁)`, `ε₂ε₃ = dε₂/dN`, and Gong's `ε₂ = dε₁/dN`. -/
structure FlatRelations (p : SRPoint) : Prop where
  e2 : p.e2 = 2 * (p.e1 + p.d1)
  e3 : p.e2 * p.e3 = 4 * p.e1 ^ 2 + 6 * p.e1 * p.d1 + 2 * p.d2 - 2 * p.d1 ^ 2
  g2 : p.g2 = p.e1 * p.e2

theorem C_eq : C = -alpha := by unfold C alpha; ring

/-- A function with a factor `tⁿ` is `O(tⁿ)`. -/
theorem isBigO_of_factor {f g : ℝ → ℝ} (n : ℕ) (h : ∀ᶠ t in 𝓝 0, f t = t ^ n * g t) (hg : ContinuousAt g 0) :
    f =O[𝓝 0] fun t => t ^ n := by
  have h1 : (fun t => t ^ n * g t) =O[𝓝 0] fun t : ℝ => t ^ n * 1 :=
    (isBigO_refl _ _).mul (hg.norm.isBoundedUnder_le.isBigO_one ℝ)
  simp only [mul_one] at h1
  exact h1.congr' (h.mono fun t ht => ht.symm) EventuallyEq.rfl

theorem exp_order (n : ℕ) (b1 b2 : ℝ) :
    (fun t => exp (t * b1 + t ^ 2 * b2) - ∑ i ∈ Finset.range n, (t * b1 + t ^ 2 * b2) ^ i / (i.factorial : ℝ))
      =O[𝓝 0] fun t : ℝ => t ^ n := by
  have h0 : Tendsto (fun t : ℝ => t * b1 + t ^ 2 * b2) (𝓝 0) (𝓝 0) := by
    have : ContinuousAt (fun t : ℝ => t * b1 + t ^ 2 * b2) 0 := by fun_prop
    simpa [ContinuousAt] using this
  have h1 := (Real.exp_sub_sum_range_isBigO_pow n).comp_tendsto h0
  refine h1.trans ?_
  exact isBigO_of_factor (g := fun t => (b1 + t * b2) ^ n) n
    (Eventually.of_forall fun t => by
      simp only [Function.comp]
      rw [← mul_pow]; ring) (by fun_prop)

/-! ### The relations hold in the code -/

/-- In a flat universe with `ε₂ ≠ 0` the cosmic-time slow-roll parameters satisfy the relations. -/
theorem C55_flat_relations_T (N H dphi d2phi d3phi d4phi : ℝ) (hH : H ≠ 0) (hd : dphi ≠ 0)
    (hne : (T.srPoint N H dphi d2phi d3phi d4phi 0).e2 ≠ 0) :
    FlatRelations (T.srPoint N H dphi d2phi d3phi d4phi 0) := by
  simp only [T.srPoint, T.get_epsilon_2H, T.get_dH, T.get_d2H, zero_mul, mul_zero, add_zero, sub_zero] at hne
  have h2 : 2 * H * d2phi + dphi ^ 3 ≠ 0 := by
    intro h
    apply hne
    field_simp
    linear_combination h
  have h3 : -(H * d2phi * 2) - dphi ^ 3 ≠ 0 := by
    intro h; apply h2; linear_combination -h
  constructor
  · simp only [T.srPoint, T.get_epsilon_1H, T.get_epsilon_2H, T.get_delta_1, T.get_dH, T.get_d2H, zero_mul,
      mul_zero, add_zero, sub_zero]
    field_simp
    ring
  · simp only [T.srPoint, T.get_epsilon_1H, T.get_epsilon_2H, T.get_epsilon_3H, T.get_delta_1, T.get_delta_2,
      T.get_dH, T.get_d2H, T.get_d3H, zero_mul, mul_zero, add_zero, sub_zero]
    obtain ⟨w, hw⟩ : ∃ w, w = -(H * d2phi * 2) - dphi ^ 3 := ⟨_, rfl⟩
    have hB : H * (-d2phi * dphi) - 2 * (-dphi ^ 2 / 2) ^ 2 = dphi / 2 * w := by rw [hw]; ring
    have hd2 : d2phi = -(w + dphi ^ 3) / (2 * H) := by rw [hw]; field_simp; ring
    rw [← hw] at h3
    rw [hB, hd2]
    field_simp
    ring
  · simp only [T.srPoint, T.get_epsilon_1H, T.get_epsilon_2H, T.get_epsilon_2H_Gong, T.get_dH, T.get_d2H,
      zero_mul, mul_zero, add_zero, sub_zero]
    field_simp
    ring

/-- In a flat universe with `ε₂ ≠ 0` the e-fold slow-roll parameters satisfy the relations. -/
theorem C55_flat_relations_N (x H dphi d2phi d3phi d4phi : ℝ) (hH : H ≠ 0) (hd : dphi ≠ 0)
    (hne : (N.srPoint x H dphi d2phi d3phi d4phi 0).e2 ≠ 0) :
    FlatRelations (N.srPoint x H dphi d2phi d3phi d4phi 0) := by
  simp only [N.srPoint, N.get_epsilon_2H, N.get_dH, N.get_d2H, zero_mul, zero_div, add_zero, sub_zero] at hne
  have h2 : d2phi ≠ 0 := by
    intro h
    apply hne
    rw [h]
    field_simp
    ring
  constructor
  · simp only [N.srPoint, N.get_epsilon_1H, N.get_epsilon_2H, N.get_delta_1, N.get_dH, N.get_d2H, zero_mul,
      zero_div, add_zero, sub_zero]
    field_simp
    ring
  · simp only [N.srPoint, N.get_epsilon_1H, N.get_epsilon_2H, N.get_epsilon_3H, N.get_delta_1, N.get_delta_2,
      N.get_dH, N.get_d2H, N.get_d3H, zero_mul, zero_div, add_zero, sub_zero]
    have habs : ∀ z y : ℝ, |z ^ 2 * y ^ 2 - 2 * z * (-dphi ^ 2 * H / 2) ^ 2 * y + (-dphi ^ 2 * H / 2) ^ 4| =
        (z * y - (-dphi ^ 2 * H / 2) ^ 2) ^ 2 := by
      intro z y
      rw [show z ^ 2 * y ^ 2 - 2 * z * (-dphi ^ 2 * H / 2) ^ 2 * y + (-dphi ^ 2 * H / 2) ^ 4 =
        (z * y - (-dphi ^ 2 * H / 2) ^ 2) ^ 2 by ring, abs_of_nonneg (sq_nonneg _)]
    rw [habs]
    have h4 : H * (-d2phi * dphi * H - dphi ^ 2 * (-dphi ^ 2 * H / 2) / 2) - (-dphi ^ 2 * H / 2) ^ 2 =
      -d2phi * dphi * H ^ 2 := by ring
    rw [h4]
    field_simp
    ring
  · simp only [N.srPoint, N.get_epsilon_1H, N.get_epsilon_2H, N.get_epsilon_2H_Gong, N.get_dH, N.get_d2H,
      zero_mul, zero_div, add_zero, sub_zero]
    field_simp
    ring

/-! ### Leading order -/

/-- **C55, order 0.**  Without corrections the tensor-to-scalar ratio is `16 ε₁`. -/
theorem C55_r_leading (p : SRPoint) (hH : p.H ≠ 0) (he : p.e1 ≠ 0) : Pt0 p / Ps0 p = 16 * p.e1 := by
  unfold Pt0 Ps0
  field_simp
  ring

/-- **C55, leading amplitudes.**  Every approximation is the leading amplitude times a correction that is
`1 + O(t)`: at vanishing slow-roll parameters the correction is exactly 1. -/
theorem C55_leading (p : SRPoint) (n : ℕ) (L : ℝ) :
    cgsS n (p.at 0) = 1 ∧ cgsT n (p.at 0) = 1 ∧ steS (p.at 0) = 1 ∧ steT (p.at 0) = 1 ∧
    arbdsS n (p.at 0) L = 1 ∧ arbdsT n (p.at 0) L = 1 ∧
    (0 < Ps0 p → exp (llmsS p L) = Ps0 p * exp (bs0 p + (llms_ns p - 1) * L + llms_nsrun p / 2 * L ^ 2)) ∧
    (0 < Pt0 p → exp (llmsT p L) = Pt0 p * exp (bt0 p + llms_nt p * L + llms_ntrun p / 2 * L ^ 2)) ∧
    bs0 (p.at 0) = 0 ∧ bt0 (p.at 0) = 0 ∧ llms_ns (p.at 0) = 1 ∧ llms_nt (p.at 0) = 0 := by
  refine ⟨?_, ?_, ?_, ?_, ?_, ?_, ?_, ?_, ?_, ?_, ?_, ?_⟩
  · match n with
    | 0 => rfl
    | 1 => simp [cgsS, cgsS1, SRPoint.at]
    | 2 => simp [cgsS, cgsS1, cgsS2, SRPoint.at]
    | n + 3 => simp [cgsS, cgsS1, cgsS2, cgsS3, SRPoint.at]
  · match n with
    | 0 => rfl
    | 1 => simp [cgsT, cgsT1, SRPoint.at]
    | 2 => simp [cgsT, cgsT1, cgsT2, SRPoint.at]
    | n + 3 => simp [cgsT, cgsT1, cgsT2, cgsT3, SRPoint.at]
  · simp [steS, SRPoint.at]
  · simp [steT, SRPoint.at]
  · match n with
    | 0 => simp [arbdsS, as0_1, as0_2, as0_3, as1_1, as1_2, as1_3, as2_2, as2_3, as3_3, SRPoint.at]
    | 1 => simp [arbdsS, as0_1, as1_1, SRPoint.at]
    | 2 => simp [arbdsS, as0_1, as0_2, as1_1, as1_2, as2_2, SRPoint.at]
    | n + 3 => simp [arbdsS, as0_1, as0_2, as0_3, as1_1, as1_2, as1_3, as2_2, as2_3, as3_3, SRPoint.at]
  · match n with
    | 0 => simp [arbdsT, at0_1, at0_2, at0_3, at1_1, at1_2, at1_3, at2_2, at2_3, at3_3, SRPoint.at]
    | 1 => simp [arbdsT, at0_1, at1_1, SRPoint.at]
    | 2 => simp [arbdsT, at0_1, at0_2, at1_1, at1_2, at2_2, SRPoint.at]
    | n + 3 => simp [arbdsT, at0_1, at0_2, at0_3, at1_1, at1_2, at1_3, at2_2, at2_3, at3_3, SRPoint.at]
  · intro h
    unfold llmsS
    rw [show log (Ps0 p) + bs0 p + (llms_ns p - 1) * L + llms_nsrun p / 2 * L ^ 2 =
      log (Ps0 p) + (bs0 p + (llms_ns p - 1) * L + llms_nsrun p / 2 * L ^ 2) by ring, exp_add, exp_log h]
  · intro h
    unfold llmsT
    rw [show log (Pt0 p) + bt0 p + llms_nt p * L + llms_ntrun p / 2 * L ^ 2 =
      log (Pt0 p) + (bt0 p + llms_nt p * L + llms_ntrun p / 2 * L ^ 2) by ring, exp_add, exp_log h]
  · simp [bs0, SRPoint.at]
  · simp [bt0, SRPoint.at]
  · simp [llms_ns, SRPoint.at]
  · simp [llms_nt, SRPoint.at]

/-! ### Second order: CGS, STE and LLMS agree -/

/-- **C55, CGS = STE through second order** (scalar, orders 2 and 3 of CGS). -/
theorem C55_CGS_STE_scalar (p : SRPoint) (h : FlatRelations p) (n : ℕ) (hn : 2 ≤ n) :
    (fun t => cgsS n (p.at t) - steS (p.at t)) =O[𝓝 0] fun t => t ^ 3 := by
  have base : ∀ t, cgsS 2 (p.at t) - steS (p.at t) = t ^ 3 *
      (-(-p.e1 * (2 * alpha - t * p.e1)) * p.d2
        + (1 / 3 * (alpha - t * p.e1) ^ 3 - π ^ 2 / 12 * (alpha - t * p.e1) + 4 / 3 - 2 / 3 * zeta3) * p.d3
        + 4 * (-p.e1 * (2 * alpha - t * p.e1)) * p.e1 ^ 2
        + (3 * (-p.e1 * (2 * alpha - t * p.e1)) + 2 * (-p.e1)) * p.e1 * p.d1
        + 3 * (-p.e1 * (2 * alpha - t * p.e1)) * p.d1 ^ 2
        + (-5 / 3 * (alpha - t * p.e1) ^ 3 - 2 * (alpha - t * p.e1) ^ 2 + 20 * (alpha - t * p.e1)
            - 9 / 4 * π ^ 2 * (alpha - t * p.e1) + 16 / 3 + π ^ 2 / 6 - 14 / 3 * zeta3) * p.e1 * p.d2
        + (-3 * (alpha - t * p.e1) ^ 3 + 8 * (alpha - t * p.e1) - 7 / 12 * π ^ 2 * (alpha - t * p.e1) - 4
            + 2 * zeta3) * p.d1 * p.d2) := by
    intro t
    have h3 := h.e3
    simp only [cgsS, cgsS1, cgsS2, steS, SRPoint.at, C_eq, h.e2] at *
    linear_combination -(-alpha ^ 2 / 2 + π ^ 2 / 24) * t ^ 2 * h3
  match n, hn with
  | 2, _ => exact isBigO_of_factor 3 (Eventually.of_forall base) (by fun_prop)
  | n + 3, _ =>
    refine (((isBigO_of_factor 3 (Eventually.of_forall base) (by fun_prop)).add
      (isBigO_of_factor (f := fun t => cgsS3 (p.at t)) (g := fun t =>
        (4 * (alpha - t * p.e1) ^ 2 + 8 * (alpha - t * p.e1) + 16 + 5 * π ^ 2 - 48 * zeta3) * p.e1 ^ 3
        + (-5 / 3 * (alpha - t * p.e1) ^ 3 + 4 * (alpha - t * p.e1) ^ 2 + 32 * (alpha - t * p.e1)
          - 9 / 4 * π ^ 2 * (alpha - t * p.e1) + 88 / 3 + 23 / 3 * π ^ 2 - 230 / 3 * zeta3) * p.e1 ^ 2 * p.d1
        + (3 * (alpha - t * p.e1) ^ 3 + 4 * (alpha - t * p.e1) ^ 2 - 24 * (alpha - t * p.e1)
          + 13 / 4 * π ^ 2 * (alpha - t * p.e1) + 16 + 7 / 3 * π ^ 2 - 30 * zeta3) * p.e1 * p.d1 ^ 2
        + (4 * (alpha - t * p.e1) ^ 3 - 16 * (alpha - t * p.e1) + 5 / 3 * π ^ 2 * (alpha - t * p.e1) + 8
          - 6 * zeta3) * p.d1 ^ 3)
        3 (Eventually.of_forall fun t => by simp only [cgsS3, SRPoint.at]; ring) (by fun_prop)))).congr_left ?_
    intro t
    simp only [cgsS]
    ring

/-- **C55, CGS = STE through second order** (tensor, orders 2 and 3 of CGS). -/
theorem C55_CGS_STE_tensor (p : SRPoint) (h : FlatRelations p) (n : ℕ) (hn : 2 ≤ n) :
    (fun t => cgsT n (p.at t) - steT (p.at t)) =O[𝓝 0] fun t => t ^ 3 := by
  have base : ∀ t, cgsT 2 (p.at t) - steT (p.at t) = t ^ 3 *
      ((-(-p.e1 * (2 * alpha - t * p.e1)) + 2 * -p.e1) * (p.e1 * p.e2)
        + ((alpha - t * p.e1) ^ 3 / 3 - (alpha - t * p.e1) ^ 2 + (2 - π ^ 2 / 12) * (alpha - t * p.e1)
            + π ^ 2 / 12 - 2 / 3 - 2 / 3 * zeta3) * p.g3
        + (2 * (-p.e1 * (2 * alpha - t * p.e1)) - 2 * -p.e1) * p.e1 ^ 2
        + (-5 / 3 * (alpha - t * p.e1) ^ 3 + 2 * (alpha - t * p.e1) ^ 2
            + (8 - 11 / 12 * π ^ 2) * (alpha - t * p.e1) + 7 / 6 * π ^ 2 - 26 / 3 - 2 / 3 * zeta3)
          * p.e1 * (p.e1 * p.e2)) := by
    intro t
    simp only [cgsT, cgsT1, cgsT2, steT, SRPoint.at, C_eq, h.g2]
    ring
  match n, hn with
  | 2, _ => exact isBigO_of_factor 3 (Eventually.of_forall base) (by fun_prop)
  | n + 3, _ =>
    refine (((isBigO_of_factor 3 (Eventually.of_forall base) (by fun_prop)).add
      (isBigO_of_factor (f := fun t => cgsT3 (p.at t)) (g := fun t =>
        (4 / 3 * (alpha - t * p.e1) ^ 3 - 8 * (alpha - t * p.e1) + π ^ 2 * (alpha - t * p.e1) + 16 / 3
          - 14 / 3 * zeta3) * p.e1 ^ 3)
        3 (Eventually.of_forall fun t => by simp only [cgsT3, SRPoint.at]; ring) (by fun_prop)))).congr_left ?_
    intro t
    simp only [cgsT]
    ring

/-- **C55, LLMS = STE through second order** (scalar): the LLMS amplitude `exp(bs0)` at the pivot scale. -/
theorem C55_LLMS_STE_scalar (p : SRPoint) :
    (fun t => exp (bs0 (p.at t)) - steS (p.at t)) =O[𝓝 0] fun t => t ^ 3 := by
  obtain ⟨b1, hb1⟩ : ∃ b1, b1 = -2 * (C + 1) * p.e1 - C * p.e2 := ⟨_, rfl⟩
  obtain ⟨b2, hb2⟩ : ∃ b2, b2 = (-2 * C + π ^ 2 / 2 - 7) * p.e1 ^ 2
    + (-C ^ 2 - 3 * C + 7 * π ^ 2 / 12 - 7) * p.e1 * p.e2 + (π ^ 2 / 8 - 1) * p.e2 ^ 2
    + (-C ^ 2 / 2 + π ^ 2 / 24) * p.e2 * p.e3 := ⟨_, rfl⟩
  refine ((exp_order 3 b1 b2).add (isBigO_of_factor (f := fun t =>
    ∑ i ∈ Finset.range 3, (t * b1 + t ^ 2 * b2) ^ i / (i.factorial : ℝ) - steS (p.at t))
    (g := fun t => b1 * b2 + t * b2 ^ 2 / 2) 3 (Eventually.of_forall fun t => ?_) (by fun_prop))).congr_left ?_
  · simp only [Finset.sum_range_succ, Finset.sum_range_zero, Nat.factorial, steS, SRPoint.at]
    push_cast
    rw [hb1, hb2]
    ring
  · intro t
    have : bs0 (p.at t) = t * b1 + t ^ 2 * b2 := by
      rw [hb1, hb2]; simp only [bs0, SRPoint.at]; ring
    rw [this]
    ring

/-- **C55, LLMS = STE through second order** (tensor). -/
theorem C55_LLMS_STE_tensor (p : SRPoint) :
    (fun t => exp (bt0 (p.at t)) - steT (p.at t)) =O[𝓝 0] fun t => t ^ 3 := by
  obtain ⟨b1, hb1⟩ : ∃ b1, b1 = -2 * (C + 1) * p.e1 := ⟨_, rfl⟩
  obtain ⟨b2, hb2⟩ : ∃ b2, b2 = (-2 * C + π ^ 2 / 2 - 7) * p.e1 ^ 2
    + (-C ^ 2 - 2 * C + π ^ 2 / 12 - 2) * p.e1 * p.e2 := ⟨_, rfl⟩
  refine ((exp_order 3 b1 b2).add (isBigO_of_factor (f := fun t =>
    ∑ i ∈ Finset.range 3, (t * b1 + t ^ 2 * b2) ^ i / (i.factorial : ℝ) - steT (p.at t))
    (g := fun t => b1 * b2 + t * b2 ^ 2 / 2) 3 (Eventually.of_forall fun t => ?_) (by fun_prop))).congr_left ?_
  · simp only [Finset.sum_range_succ, Finset.sum_range_zero, Nat.factorial, steT, SRPoint.at]
    push_cast
    rw [hb1, hb2]
    ring
  · intro t
    have : bt0 (p.at t) = t * b1 + t ^ 2 * b2 := by
      rw [hb1, hb2]; simp only [bt0, SRPoint.at]; ring
    rw [this]
    ring

/-! ### ARBDS agrees to first order only -/

/-- **C55, ARBDS against STE** (scalar).  At the pivot scale the two differ by exactly `2ε₁² + ε₁ε₂` at second
order.  (The ARBDS coefficients belong to the moment `k_* = -1/η`, the code evaluates them where
`k_* = aH`.) -/
theorem C55_ARBDS_STE_scalar (p : SRPoint) (n : ℕ) (hn : 2 ≤ n) :
    (fun t => arbdsS n (p.at t) 0 - steS (p.at t) - t ^ 2 * (2 * p.e1 ^ 2 + p.e1 * p.e2)) =O[𝓝 0]
      fun t => t ^ 3 := by
  match n, hn with
  | 2, _ =>
    refine isBigO_of_factor (g := fun _ => 0) 3 (Eventually.of_forall fun t => ?_) (by fun_prop)
    simp only [arbdsS, as0_1, as0_2, steS, SRPoint.at, C_eq]
    ring
  | n + 3, _ =>
    refine isBigO_of_factor (g := fun _ => as0_3 p) 3 (Eventually.of_forall fun t => ?_) (by fun_prop)
    simp only [arbdsS, as0_1, as0_2, as0_3, steS, SRPoint.at, C_eq]
    ring

/-- **C55, ARBDS against STE** (tensor): they differ by `2ε₁²` at second order. -/
theorem C55_ARBDS_STE_tensor (p : SRPoint) (n : ℕ) (hn : 2 ≤ n) :
    (fun t => arbdsT n (p.at t) 0 - steT (p.at t) - t ^ 2 * (2 * p.e1 ^ 2)) =O[𝓝 0] fun t => t ^ 3 := by
  match n, hn with
  | 2, _ =>
    refine isBigO_of_factor (g := fun _ => 0) 3 (Eventually.of_forall fun t => ?_) (by fun_prop)
    simp only [arbdsT, at0_1, at0_2, steT, SRPoint.at, C_eq]
    ring
  | n + 3, _ =>
    refine isBigO_of_factor (g := fun _ => at0_3 p) 3 (Eventually.of_forall fun t => ?_) (by fun_prop)
    simp only [arbdsT, at0_1, at0_2, at0_3, steT, SRPoint.at, C_eq]
    ring

/-- **C55, first order.**  All methods, at every order they offer beyond leading order, have the same
first-order correction `1 - 2(C+1)ε₁ - Cε₂`, resp. `1 - 2(C+1)ε₁`, at the pivot scale. -/
theorem C55_first_order (p : SRPoint) (h : FlatRelations p) (n : ℕ) (hn : 1 ≤ n) :
    (fun t => cgsS n (p.at t) - (1 + t * (-2 * (C + 1) * p.e1 - C * p.e2))) =O[𝓝 0] (fun t => t ^ 2) ∧
    (fun t => steS (p.at t) - (1 + t * (-2 * (C + 1) * p.e1 - C * p.e2))) =O[𝓝 0] (fun t => t ^ 2) ∧
    (fun t => exp (bs0 (p.at t)) - (1 + t * (-2 * (C + 1) * p.e1 - C * p.e2))) =O[𝓝 0] (fun t => t ^ 2) ∧
    (fun t => arbdsS n (p.at t) 0 - (1 + t * (-2 * (C + 1) * p.e1 - C * p.e2))) =O[𝓝 0] (fun t => t ^ 2) ∧
    (fun t => cgsT n (p.at t) - (1 + t * (-2 * (C + 1) * p.e1))) =O[𝓝 0] (fun t => t ^ 2) ∧
    (fun t => steT (p.at t) - (1 + t * (-2 * (C + 1) * p.e1))) =O[𝓝 0] (fun t => t ^ 2) ∧
    (fun t => exp (bt0 (p.at t)) - (1 + t * (-2 * (C + 1) * p.e1))) =O[𝓝 0] (fun t => t ^ 2) ∧
    (fun t => arbdsT n (p.at t) 0 - (1 + t * (-2 * (C + 1) * p.e1))) =O[𝓝 0] (fun t => t ^ 2) := by
  have up : (fun t : ℝ => t ^ 3) =O[𝓝 0] fun t => t ^ 2 :=
    isBigO_of_factor (g := fun t => t) 2 (Eventually.of_forall fun t => by ring) (by fun_prop)
  have hS : (fun t => steS (p.at t) - (1 + t * (-2 * (C + 1) * p.e1 - C * p.e2))) =O[𝓝 0]
      (fun t => t ^ 2) :=
    isBigO_of_factor (g := fun _ => (2 * C ^ 2 + 2 * C + π ^ 2 / 2 - 5) * p.e1 ^ 2
      + (C ^ 2 / 2 + π ^ 2 / 8 - 1) * p.e2 ^ 2 + (C ^ 2 - C + 7 / 12 * π ^ 2 - 7) * p.e1 * p.e2
      + (-C ^ 2 / 2 + π ^ 2 / 24) * p.e2 * p.e3) 2
      (Eventually.of_forall fun t => by simp only [steS, SRPoint.at]; ring) (by fun_prop)
  have hT : (fun t => steT (p.at t) - (1 + t * (-2 * (C + 1) * p.e1))) =O[𝓝 0] (fun t => t ^ 2) :=
    isBigO_of_factor (g := fun _ => (2 * C ^ 2 + 2 * C + π ^ 2 / 2 - 5) * p.e1 ^ 2
      + (-C ^ 2 - 2 * C + π ^ 2 / 12 - 2) * p.e1 * p.e2) 2
      (Eventually.of_forall fun t => by simp only [steT, SRPoint.at]; ring) (by fun_prop)
  have q2 : ∀ c : ℝ, (fun t : ℝ => t ^ 2 * c) =O[𝓝 0] fun t => t ^ 2 := fun c =>
    isBigO_of_factor (g := fun _ => c) 2 (Eventually.of_forall fun t => rfl) (by fun_prop)
  refine ⟨?_, hS, ?_, ?_, ?_, hT, ?_, ?_⟩
  · match n, hn with
    | 1, _ =>
      refine isBigO_of_factor (g := fun t => -4 * p.e1 ^ 2 - 2 * p.e1 * p.d1
        + (-(alpha - t * p.e1) ^ 2 + π ^ 2 / 12) * p.d2
        + t * (1 / 3 * (alpha - t * p.e1) ^ 3 - π ^ 2 / 12 * (alpha - t * p.e1) + 4 / 3 - 2 / 3 * zeta3) * p.d3) 2
        (Eventually.of_forall fun t => ?_) (by fun_prop)
      simp only [cgsS, cgsS1, SRPoint.at, C_eq, h.e2]
      ring
    | n + 2, _ =>
      exact ((C55_CGS_STE_scalar p h (n + 2) (by omega)).trans up |>.add hS).congr_left fun t => by ring
  · exact ((C55_LLMS_STE_scalar p).trans up |>.add hS).congr_left fun t => by ring
  · match n, hn with
    | 1, _ =>
      refine isBigO_of_factor (g := fun _ => 0) 2 (Eventually.of_forall fun t => ?_) (by fun_prop)
      simp only [arbdsS, as0_1, as1_1, SRPoint.at, C_eq]
      ring
    | n + 2, _ =>
      exact (((C55_ARBDS_STE_scalar p (n + 2) (by omega)).trans up).add hS |>.add
        (q2 (2 * p.e1 ^ 2 + p.e1 * p.e2))).congr_left fun t => by ring
  · match n, hn with
    | 1, _ =>
      refine isBigO_of_factor (g := fun t => -2 * p.e1 ^ 2
        + (-(alpha - t * p.e1) ^ 2 + 2 * (alpha - t * p.e1) - 2 + π ^ 2 / 12) * p.g2
        + t * ((alpha - t * p.e1) ^ 3 / 3 - (alpha - t * p.e1) ^ 2 + (2 - π ^ 2 / 12) * (alpha - t * p.e1)
            + π ^ 2 / 12 - 2 / 3 - 2 / 3 * zeta3) * p.g3) 2
        (Eventually.of_forall fun t => ?_) (by fun_prop)
      simp only [cgsT, cgsT1, SRPoint.at, C_eq]
      ring
    | n + 2, _ =>
      exact ((C55_CGS_STE_tensor p h (n + 2) (by omega)).trans up |>.add hT).congr_left fun t => by ring
  · exact ((C55_LLMS_STE_tensor p).trans up |>.add hT).congr_left fun t => by ring
  · match n, hn with
    | 1, _ =>
      refine isBigO_of_factor (g := fun _ => 0) 2 (Eventually.of_forall fun t => ?_) (by fun_prop)
      simp only [arbdsT, at0_1, at1_1, SRPoint.at, C_eq]
      ring
    | n + 2, _ =>
      exact (((C55_ARBDS_STE_tensor p (n + 2) (by omega)).trans up).add hT |>.add
        (q2 (2 * p.e1 ^ 2))).congr_left fun t => by ring

/-- So ARBDS does not agree with the other methods at second order, in the generic case. -/
theorem C55_ARBDS_not_second_order (p : SRPoint) (n : ℕ) (hn : 2 ≤ n) (hne : 2 * p.e1 ^ 2 + p.e1 * p.e2 ≠ 0) :
    ¬ (fun t => arbdsS n (p.at t) 0 - steS (p.at t)) =O[𝓝 0] fun t => t ^ 3 := by
  intro h
  have h1 : (fun t : ℝ => t ^ 2 * (2 * p.e1 ^ 2 + p.e1 * p.e2)) =O[𝓝 0] fun t => t ^ 3 :=
    (h.sub (C55_ARBDS_STE_scalar p n hn)).congr_left fun t => by ring
  have h2 : (fun t : ℝ => t ^ 3) =o[𝓝 0] fun t => t ^ 2 := isLittleO_pow_pow (by norm_num)
  have h3 := h1.trans_isLittleO h2
  have h4 : (fun t : ℝ => t ^ 2) =o[𝓝 0] fun t : ℝ => t ^ 2 := by
    refine (h3.const_mul_left (2 * p.e1 ^ 2 + p.e1 * p.e2)⁻¹).congr_left fun t => ?_
    rw [mul_comm (t ^ 2), inv_mul_cancel_left₀ hne]
  have h5 := isLittleO_irrefl' (f' := fun t : ℝ => t ^ 2) (l := 𝓝 0) ?_ h4
  · exact h5
  · have : ∃ᶠ t : ℝ in 𝓝[≠] (0 : ℝ), t ^ 2 ≠ 0 :=
      (eventually_nhdsWithin_of_forall (s := {(0 : ℝ)}ᶜ) fun t ht => pow_ne_zero 2 ht).frequently
    exact (this.filter_mono nhdsWithin_le_nhds).mono fun t ht => by simpa using ht

/-! ### Tilt and running -/

/-- The Hubble flow: `H' = -ε₁H`, `ε₁' = ε₁ε₂`, `ε₂' = ε₂ε₃`, `ε₃' = ε₃ε₄` (derivatives with respect to e-folds),
which is what C18 proves of the slow-roll functions along solutions. -/
structure HubbleFlow (H e1 e2 e3 : ℝ → ℝ) (N e4 : ℝ) : Prop where
  H : HasDerivAt H (-e1 N * H N) N
  e1 : HasDerivAt e1 (e1 N * e2 N) N
  e2 : HasDerivAt e2 (e2 N * e3 N) N
  e3 : HasDerivAt e3 (e3 N * e4) N

/-- The point of the flow at `N`. -/
def flowPoint (H e1 e2 e3 : ℝ → ℝ) (N : ℝ) : SRPoint := { H := H N, e1 := e1 N, e2 := e2 N, e3 := e3 N }

/-- `d steS / dN` along the flow. -/
noncomputable def dSteS (p : SRPoint) (e4 : ℝ) : ℝ :=
  -2 * (C + 1) * (p.e1 * p.e2) - C * (p.e2 * p.e3)
    + (2 * C ^ 2 + 2 * C + π ^ 2 / 2 - 5) * (2 * p.e1 ^ 2 * p.e2)
    + (C ^ 2 / 2 + π ^ 2 / 8 - 1) * (2 * p.e2 ^ 2 * p.e3)
    + (C ^ 2 - C + 7 / 12 * π ^ 2 - 7) * (p.e1 * p.e2 * (p.e2 + p.e3))
    + (-C ^ 2 / 2 + π ^ 2 / 24) * (p.e2 * p.e3 * (p.e3 + e4))

noncomputable def dSteT (p : SRPoint) : ℝ :=
  -2 * (C + 1) * (p.e1 * p.e2) + (2 * C ^ 2 + 2 * C + π ^ 2 / 2 - 5) * (2 * p.e1 ^ 2 * p.e2)
    + (-C ^ 2 - 2 * C + π ^ 2 / 12 - 2) * (p.e1 * p.e2 * (p.e2 + p.e3))

/-- **C55, tilt along the flow.**  The logarithm of the STE spectrum and of the horizon-crossing wavenumber
`k = aH`, both as functions of e-folds. -/
theorem C55_flow_derivatives {H e1 e2 e3 : ℝ → ℝ} {N e4 : ℝ} (h : HubbleFlow H e1 e2 e3 N e4)
    (hH : 0 < H N) (he : 0 < e1 N) (hS : 0 < steS (flowPoint H e1 e2 e3 N))
    (hT : 0 < steT (flowPoint H e1 e2 e3 N)) :
    HasDerivAt (fun x => log (Ps0 (flowPoint H e1 e2 e3 x) * steS (flowPoint H e1 e2 e3 x)))
      (-2 * e1 N - e2 N + dSteS (flowPoint H e1 e2 e3 N) e4 / steS (flowPoint H e1 e2 e3 N)) N ∧
    HasDerivAt (fun x => log (Pt0 (flowPoint H e1 e2 e3 x) * steT (flowPoint H e1 e2 e3 x)))
      (-2 * e1 N + dSteT (flowPoint H e1 e2 e3 N) / steT (flowPoint H e1 e2 e3 N)) N ∧
    HasDerivAt (fun x => x + log (H x)) (1 - e1 N) N := by
  have hπ : π ≠ 0 := pi_ne_zero
  have d1 : HasDerivAt (fun x => steS (flowPoint H e1 e2 e3 x)) (dSteS (flowPoint H e1 e2 e3 N) e4) N := by
    have k := ((((((h.e1.const_mul (2 * (C + 1))).const_sub 1).sub (h.e2.const_mul C)).add
      ((h.e1.pow 2).const_mul (2 * C ^ 2 + 2 * C + π ^ 2 / 2 - 5))).add
      ((h.e2.pow 2).const_mul (C ^ 2 / 2 + π ^ 2 / 8 - 1))).add
      ((h.e1.const_mul (C ^ 2 - C + 7 / 12 * π ^ 2 - 7)).mul h.e2)).add
      ((h.e2.const_mul (-C ^ 2 / 2 + π ^ 2 / 24)).mul h.e3)
    refine HasDerivAt.congr_deriv (k.congr_of_eventuallyEq (Eventually.of_forall fun x => ?_)) ?_
    · simp only [steS, flowPoint, Pi.add_apply, Pi.sub_apply, Pi.mul_apply, Pi.pow_apply]
    · simp only [dSteS, flowPoint]
      push_cast
      ring
  have d2 : HasDerivAt (fun x => steT (flowPoint H e1 e2 e3 x)) (dSteT (flowPoint H e1 e2 e3 N)) N := by
    have k := (((h.e1.const_mul (2 * (C + 1))).const_sub 1).add
      ((h.e1.pow 2).const_mul (2 * C ^ 2 + 2 * C + π ^ 2 / 2 - 5))).add
      ((h.e1.const_mul (-C ^ 2 - 2 * C + π ^ 2 / 12 - 2)).mul h.e2)
    refine HasDerivAt.congr_deriv (k.congr_of_eventuallyEq (Eventually.of_forall fun x => ?_)) ?_
    · simp only [steT, flowPoint, Pi.add_apply, Pi.mul_apply, Pi.pow_apply]
    · simp only [dSteT, flowPoint]
      push_cast
      ring
  refine ⟨?_, ?_, ?_⟩
  · have k := (((h.H.pow 2).div (h.e1.const_mul (8 * π ^ 2)) (by positivity)).mul d1).log
      (by
        simp only [Pi.mul_apply, Pi.div_apply, Pi.pow_apply]
        exact mul_ne_zero (div_ne_zero (by positivity) (by positivity)) hS.ne')
    refine HasDerivAt.congr_deriv (k.congr_of_eventuallyEq (Eventually.of_forall fun x => ?_)) ?_
    · simp only [Ps0, flowPoint, Pi.mul_apply, Pi.div_apply, Pi.pow_apply]
    · simp only [Pi.mul_apply, Pi.div_apply, Pi.pow_apply]
      have := hS.ne'
      push_cast
      field_simp
  · have k := ((((h.H.div_const π).pow 2).const_mul 2).mul d2).log
      (by
        simp only [Pi.mul_apply, Pi.pow_apply]
        exact mul_ne_zero (by positivity) hT.ne')
    refine HasDerivAt.congr_deriv (k.congr_of_eventuallyEq (Eventually.of_forall fun x => ?_)) ?_
    · simp only [Pt0, flowPoint, Pi.mul_apply, Pi.pow_apply]
    · simp only [Pi.mul_apply, Pi.pow_apply]
      have := hT.ne'
      push_cast
      field_simp
  · refine ((hasDerivAt_id N).add (h.H.log hH.ne')).congr_deriv ?_
    field_simp
    ring

/-- **C55, tilt.**  `d ln P / d ln k` of the STE spectra along the flow (`d ln k = (1-ε₁) dN`) agrees with the
tilts the LLMS formula uses through second order; in particular it is `-2ε₁ - ε₂`, resp. `-2ε₁`, at first
order. -/
theorem C55_tilt (p : SRPoint) (e4 : ℝ) :
    (fun t => (-2 * (p.at t).e1 - (p.at t).e2 + dSteS (p.at t) (t * e4) / steS (p.at t)) / (1 - (p.at t).e1)
      - (llms_ns (p.at t) - 1)) =O[𝓝 0] (fun t => t ^ 3) ∧
    (fun t => (-2 * (p.at t).e1 + dSteT (p.at t) / steT (p.at t)) / (1 - (p.at t).e1)
      - llms_nt (p.at t)) =O[𝓝 0] (fun t => t ^ 3) ∧
    (fun t => llms_ns (p.at t) - 1 - t * (-2 * p.e1 - p.e2)) =O[𝓝 0] (fun t => t ^ 2) ∧
    (fun t => llms_nt (p.at t) - t * (-2 * p.e1)) =O[𝓝 0] fun t => t ^ 2 := by
  obtain ⟨S1, hS1⟩ : ∃ s, s = -2 * (C + 1) * p.e1 - C * p.e2 := ⟨_, rfl⟩
  obtain ⟨S2, hS2⟩ : ∃ s, s = (2 * C ^ 2 + 2 * C + π ^ 2 / 2 - 5) * p.e1 ^ 2
    + (C ^ 2 / 2 + π ^ 2 / 8 - 1) * p.e2 ^ 2 + (C ^ 2 - C + 7 / 12 * π ^ 2 - 7) * p.e1 * p.e2
    + (-C ^ 2 / 2 + π ^ 2 / 24) * p.e2 * p.e3 := ⟨_, rfl⟩
  obtain ⟨T1, hT1⟩ : ∃ s, s = -2 * (C + 1) * p.e1 := ⟨_, rfl⟩
  obtain ⟨T2, hT2⟩ : ∃ s, s = (2 * C ^ 2 + 2 * C + π ^ 2 / 2 - 5) * p.e1 ^ 2
    + (-C ^ 2 - 2 * C + π ^ 2 / 12 - 2) * p.e1 * p.e2 := ⟨_, rfl⟩
  obtain ⟨b, hb⟩ : ∃ b, b = (2 * C ^ 2 + 2 * C + π ^ 2 / 2 - 5) * (2 * p.e1 ^ 2 * p.e2)
    + (C ^ 2 / 2 + π ^ 2 / 8 - 1) * (2 * p.e2 ^ 2 * p.e3)
    + (C ^ 2 - C + 7 / 12 * π ^ 2 - 7) * (p.e1 * p.e2 * (p.e2 + p.e3))
    + (-C ^ 2 / 2 + π ^ 2 / 24) * (p.e2 * p.e3 * (p.e3 + e4)) := ⟨_, rfl⟩
  obtain ⟨b', hb'⟩ : ∃ b, b = (2 * C ^ 2 + 2 * C + π ^ 2 / 2 - 5) * (2 * p.e1 ^ 2 * p.e2)
    + (-C ^ 2 - 2 * C + π ^ 2 / 12 - 2) * (p.e1 * p.e2 * (p.e2 + p.e3)) := ⟨_, rfl⟩
  have eS : ∀ t, steS (p.at t) = 1 + t * (S1 + t * S2) := fun t => by
    rw [hS1, hS2]; simp only [steS, SRPoint.at]; ring
  have eT : ∀ t, steT (p.at t) = 1 + t * (T1 + t * T2) := fun t => by
    rw [hT1, hT2]; simp only [steT, SRPoint.at]; ring
  have dS : ∀ t, dSteS (p.at t) (t * e4) =
      t ^ 2 * (-2 * (C + 1) * (p.e1 * p.e2) - C * (p.e2 * p.e3)) + t ^ 3 * b := fun t => by
    rw [hb]; simp only [dSteS, SRPoint.at]; ring
  have dT : ∀ t, dSteT (p.at t) = t ^ 2 * (-2 * (C + 1) * (p.e1 * p.e2)) + t ^ 3 * b' := fun t => by
    rw [hb']; simp only [dSteT, SRPoint.at]; ring
  have near : ∀ a b : ℝ, ∀ᶠ t : ℝ in 𝓝 0, 1 + t * (a + t * b) ≠ 0 := by
    intro a b
    have hc : ContinuousAt (fun t : ℝ => 1 + t * (a + t * b)) 0 := by fun_prop
    exact hc.eventually_ne (by simp)
  have near1 : ∀ᶠ t : ℝ in 𝓝 0, 1 - t * p.e1 ≠ 0 := by
    have hc : ContinuousAt (fun t : ℝ => 1 - t * p.e1) 0 := by fun_prop
    exact hc.eventually_ne (by simp)
  refine ⟨?_, ?_, ?_, ?_⟩
  · obtain ⟨x1, hx1⟩ : ∃ x, x = -2 * p.e1 - p.e2 := ⟨_, rfl⟩
    obtain ⟨x2, hx2⟩ : ∃ x, x = -2 * p.e1 ^ 2 - (2 * C + 3) * p.e1 * p.e2 - C * p.e2 * p.e3 := ⟨_, rfl⟩
    refine isBigO_of_factor (g := fun t => (b + x2 * p.e1 + (S1 + t * S2) * (x1 * p.e1 - x2 + t * x2 * p.e1)) /
      ((1 + t * (S1 + t * S2)) * (1 - t * p.e1))) 3 ?_ ?_
    · filter_upwards [near S1 S2, near1] with t h1 h2
      rw [eS, dS]
      have : llms_ns (p.at t) - 1 = t * x1 + t ^ 2 * x2 := by
        rw [hx1, hx2]; simp only [llms_ns, SRPoint.at]; ring
      rw [this]
      simp only [SRPoint.at]
      field_simp
      rw [hx1, hx2]
      ring
    · refine ContinuousAt.div (by fun_prop) (by fun_prop) (by simp)
  · obtain ⟨x2, hx2⟩ : ∃ x, x = -2 * p.e1 ^ 2 - 2 * (C + 1) * p.e1 * p.e2 := ⟨_, rfl⟩
    refine isBigO_of_factor (g := fun t =>
      (b' + x2 * p.e1 + (T1 + t * T2) * (-2 * p.e1 * p.e1 - x2 + t * x2 * p.e1)) /
      ((1 + t * (T1 + t * T2)) * (1 - t * p.e1))) 3 ?_ ?_
    · filter_upwards [near T1 T2, near1] with t h1 h2
      rw [eT, dT]
      have : llms_nt (p.at t) = t * (-2 * p.e1) + t ^ 2 * x2 := by
        rw [hx2]; simp only [llms_nt, SRPoint.at]; ring
      rw [this]
      simp only [SRPoint.at]
      field_simp
      rw [hx2]
      ring
    · refine ContinuousAt.div (by fun_prop) (by fun_prop) (by simp)
  · refine isBigO_of_factor (g := fun _ => -2 * p.e1 ^ 2 - (2 * C + 3) * p.e1 * p.e2 - C * p.e2 * p.e3) 2
      (Eventually.of_forall fun t => ?_) (by fun_prop)
    simp only [llms_ns, SRPoint.at]; ring
  · refine isBigO_of_factor (g := fun _ => -2 * p.e1 ^ 2 - 2 * (C + 1) * p.e1 * p.e2) 2
      (Eventually.of_forall fun t => ?_) (by fun_prop)
    simp only [llms_nt, SRPoint.at]; ring

/-- The logarithmic slope at `L = 0` of a cubic in `L`. -/
theorem log_cubic_slope {f : ℝ → ℝ} (A0 A1 A2 A3 : ℝ) (hf : ∀ L, f L = A0 + A1 * L + A2 * L ^ 2 + A3 * L ^ 3)
    (h0 : A0 ≠ 0) : HasDerivAt (fun L => log (f L)) (A1 / A0) 0 := by
  have k := ((((hasDerivAt_id (0:ℝ)).const_mul A1).const_add A0).add
    (((hasDerivAt_id (0:ℝ)).pow 2).const_mul A2)).add (((hasDerivAt_id (0:ℝ)).pow 3).const_mul A3)
  have k' : HasDerivAt f A1 0 := by
    refine HasDerivAt.congr_deriv (k.congr_of_eventuallyEq (Eventually.of_forall fun x => ?_)) ?_
    · rw [hf]; simp only [Pi.add_apply, Pi.pow_apply, id]
    · simp
  have e : f 0 = A0 := by rw [hf]; ring
  exact (k'.log (by rw [e]; exact h0)).congr_deriv (by rw [e])

/-- Slopes of cubics whose coefficients are slow-roll expansions. -/
theorem slope_order (F : ℝ → ℝ → ℝ) (X : ℝ → ℝ) (a1 a2 a3 x1 x2 y2 y3 : ℝ) (A2 A3 : ℝ → ℝ)
    (hF : ∀ t L, F t L = (1 + t * (a1 + t * (a2 + t * a3))) + (t * x1 + t ^ 2 * y2 + t ^ 3 * y3) * L
      + A2 t * L ^ 2 + A3 t * L ^ 3)
    (hX : ∀ t, X t = t * x1 + t ^ 2 * x2) (hxy : y2 = x2 + x1 * a1) :
    (∀ᶠ t in 𝓝 0, DifferentiableAt ℝ (fun L => log (F t L)) 0) ∧
    (fun t => deriv (fun L => log (F t L)) 0 - X t) =O[𝓝 0] fun t => t ^ 3 := by
  have near : ∀ᶠ t : ℝ in 𝓝 0, 1 + t * (a1 + t * (a2 + t * a3)) ≠ 0 := by
    have hc : ContinuousAt (fun t : ℝ => 1 + t * (a1 + t * (a2 + t * a3))) 0 := by fun_prop
    exact hc.eventually_ne (by simp)
  have hd : ∀ᶠ t in 𝓝 0, HasDerivAt (fun L => log (F t L))
      ((t * x1 + t ^ 2 * y2 + t ^ 3 * y3) / (1 + t * (a1 + t * (a2 + t * a3)))) 0 := by
    filter_upwards [near] with t ht
    exact log_cubic_slope _ _ _ _ (hF t) ht
  refine ⟨hd.mono fun t ht => ht.differentiableAt, ?_⟩
  refine isBigO_of_factor (g := fun t => (y3 - x1 * a2 - x2 * a1 - t * (x1 * a3 + x2 * a2) - t ^ 2 * (x2 * a3)) /
    (1 + t * (a1 + t * (a2 + t * a3)))) 3 ?_ (ContinuousAt.div (by fun_prop) (by fun_prop) (by simp))
  filter_upwards [near, hd] with t h1 h2
  rw [h2.deriv, hX, hxy]
  field_simp
  ring

/-- **C55, ARBDS tilt.**  `d ln P / d ln k` of the ARBDS spectra at the pivot scale agrees with the LLMS tilt
through second order. -/
theorem C55_ARBDS_tilt (p : SRPoint) (n : ℕ) (hn : 2 ≤ n) :
    ((∀ᶠ t in 𝓝 0, DifferentiableAt ℝ (fun L => log (arbdsS n (p.at t) L)) 0) ∧
      (fun t => deriv (fun L => log (arbdsS n (p.at t) L)) 0 - (llms_ns (p.at t) - 1)) =O[𝓝 0]
        fun t => t ^ 3) ∧
    (∀ᶠ t in 𝓝 0, DifferentiableAt ℝ (fun L => log (arbdsT n (p.at t) L)) 0) ∧
      (fun t => deriv (fun L => log (arbdsT n (p.at t) L)) 0 - llms_nt (p.at t)) =O[𝓝 0] fun t => t ^ 3 := by
  match n, hn with
  | 2, _ =>
    refine ⟨slope_order (fun t L => arbdsS 2 (p.at t) L) (fun t => llms_ns (p.at t) - 1)
      (- 2 * (1 - alpha) * p.e1 + alpha * p.e2) (as0_2 p) 0 (as1_1 p)
      (-2 * p.e1 ^ 2 - (2 * C + 3) * p.e1 * p.e2 - C * p.e2 * p.e3) (as1_2 p) 0
      (fun t => as2_2 (p.at t)) (fun _ => 0) ?_ ?_ ?_,
      slope_order (fun t L => arbdsT 2 (p.at t) L) (fun t => llms_nt (p.at t))
      (2 * (-1 + alpha) * p.e1) (at0_2 p) 0 (at1_1 p)
      (-2 * p.e1 ^ 2 - 2 * (C + 1) * p.e1 * p.e2) (at1_2 p) 0
      (fun t => at2_2 (p.at t)) (fun _ => 0) ?_ ?_ ?_⟩
    · intro t L; simp only [arbdsS, as0_1, as0_2, as1_1, as1_2, as2_2, SRPoint.at]; ring
    · intro t; simp only [llms_ns, as1_1, SRPoint.at]; ring
    · simp only [as1_1, as1_2, C_eq]; ring
    · intro t L; simp only [arbdsT, at0_1, at0_2, at1_1, at1_2, at2_2, SRPoint.at]; ring
    · intro t; simp only [llms_nt, at1_1, SRPoint.at]; ring
    · simp only [at1_1, at1_2, C_eq]; ring
  | n + 3, _ =>
    refine ⟨slope_order (fun t L => arbdsS (n + 3) (p.at t) L) (fun t => llms_ns (p.at t) - 1)
      (- 2 * (1 - alpha) * p.e1 + alpha * p.e2) (as0_2 p) (as0_3 p) (as1_1 p)
      (-2 * p.e1 ^ 2 - (2 * C + 3) * p.e1 * p.e2 - C * p.e2 * p.e3) (as1_2 p) (as1_3 p)
      (fun t => as2_2 (p.at t) + as2_3 (p.at t)) (fun t => as3_3 (p.at t)) ?_ ?_ ?_,
      slope_order (fun t L => arbdsT (n + 3) (p.at t) L) (fun t => llms_nt (p.at t))
      (2 * (-1 + alpha) * p.e1) (at0_2 p) (at0_3 p) (at1_1 p)
      (-2 * p.e1 ^ 2 - 2 * (C + 1) * p.e1 * p.e2) (at1_2 p) (at1_3 p)
      (fun t => at2_2 (p.at t) + at2_3 (p.at t)) (fun t => at3_3 (p.at t)) ?_ ?_ ?_⟩
    · intro t L
      simp only [arbdsS, as0_1, as0_2, as0_3, as1_1, as1_2, as1_3, as2_2, as2_3, as3_3, SRPoint.at]; ring
    · intro t; simp only [llms_ns, as1_1, SRPoint.at]; ring
    · simp only [as1_1, as1_2, C_eq]; ring
    · intro t L
      simp only [arbdsT, at0_1, at0_2, at0_3, at1_1, at1_2, at1_3, at2_2, at2_3, at3_3, SRPoint.at]; ring
    · intro t; simp only [llms_nt, at1_1, SRPoint.at]; ring
    · simp only [at1_1, at1_2, C_eq]; ring

/-- Hypotheses met: a point with `ε₁ = 1/100`, `δ₁ = -1/200`, satisfying the flat relations, at which ARBDS
and STE differ at second order. -/
example : ∃ p : SRPoint, FlatRelations p ∧ 2 * p.e1 ^ 2 + p.e1 * p.e2 ≠ 0 ∧ p.H ≠ 0 ∧ p.e1 ≠ 0 :=
  ⟨{ H := 1, e1 := 1 / 100, e2 := 1 / 100, e3 := 1 / 100, d1 := -1 / 200, d2 := 1 / 40000, g2 := 1 / 10000 },
    ⟨by norm_num, by norm_num, by norm_num⟩, by norm_num, by norm_num, by norm_num⟩

/-- Hypotheses met: the flow of power-law inflation with `ε₁` constant. -/
example : HubbleFlow (fun N => exp (-(1 / 10) * N)) (fun _ => 1 / 10) (fun _ => 0) (fun _ => 0) 0 0 where
  H := by
    refine HasDerivAt.congr_deriv (((hasDerivAt_id (0:ℝ)).const_mul (-(1 / 10 : ℝ))).exp) ?_
    simp
  e1 := by simpa using hasDerivAt_const (0:ℝ) (1 / 10 : ℝ)
  e2 := by simpa using hasDerivAt_const (0:ℝ) (0 : ℝ)
  e3 := by simpa using hasDerivAt_const (0:ℝ) (0 : ℝ)

/-- **C55, running.**  Along the flow the first-order tilts change by exactly the LLMS runnings. -/
theorem C55_running {H e1 e2 e3 : ℝ → ℝ} {N e4 : ℝ} (h : HubbleFlow H e1 e2 e3 N e4) :
    HasDerivAt (fun x => -2 * e1 x - e2 x) (llms_nsrun (flowPoint H e1 e2 e3 N)) N ∧
    HasDerivAt (fun x => -2 * e1 x) (llms_ntrun (flowPoint H e1 e2 e3 N)) N := by
  refine ⟨((h.e1.const_mul (-2)).sub h.e2).congr_deriv ?_, (h.e1.const_mul (-2)).congr_deriv ?_⟩
  · simp only [llms_nsrun, flowPoint]; ring
  · simp only [llms_ntrun, flowPoint]; ring

end Primpy
