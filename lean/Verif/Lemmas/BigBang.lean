import Verif.Model.BigBang
import Verif.Props.C56

/-! Auxiliary facts about the Big Bang functions. -/

namespace Primpy
open Real
namespace BB

/-- The numerical value of `get_H0` in each of the three units. -/
theorem get_H0_planck (u : SI) (h : ℝ) : get_H0 u h "planck" = .ok (h * 100000 / u.Mpc_m * u.tp_s) := by
  simp [get_H0]
theorem get_H0_H0 (u : SI) (h : ℝ) : get_H0 u h "H0" = .ok (h * 100) := by
  simp [get_H0]
theorem get_H0_SI (u : SI) (h : ℝ) : get_H0 u h "SI" = .ok (h * 100000 / u.Mpc_m) := by
  simp [get_H0]

theorem H0_pos (u : SI) {h : ℝ} (hh : 0 < h) : 0 < h * 100000 / u.Mpc_m * u.tp_s := by
  have := u.Mpc_pos; have := u.tp_pos; positivity

theorem sign_div (x : ℝ) (hx : x ≠ 0) : -(-(SignType.sign x : ℝ)) / x = 1 / |x| := by
  rcases lt_or_gt_of_ne hx with h | h
  · rw [sign_neg h, abs_of_neg h]; simp [div_neg, neg_div]
  · rw [sign_pos h, abs_of_pos h]; simp

theorem get_a0_planck (u : SI) (h : ℝ) {ΩK : ℝ} (hΩ : ΩK ≠ 0) :
    get_a0 u h ΩK "planck" = .ok (√(1 / |ΩK|) / (h * 100000 / u.Mpc_m * u.tp_s)) := by
  unfold get_a0
  rw [if_neg hΩ, get_H0_planck]
  simp only [bind, Except.bind, sign_div _ hΩ, if_true]

theorem get_a0_flat (u : SI) (h : ℝ) (units : String) : get_a0 u h 0 units = .ok 1 := by
  simp [get_a0]

theorem get_a0_total (u : SI) {h : ℝ} (hh : 0 < h) (ΩK : ℝ) :
    ∃ a0, get_a0 u h ΩK "planck" = .ok a0 ∧ 0 < a0 := by
  by_cases hΩ : ΩK = 0
  · subst hΩ; exact ⟨1, get_a0_flat _ _ _, one_pos⟩
  · refine ⟨_, get_a0_planck u h hΩ, div_pos (sqrt_pos.2 ?_) (H0_pos u hh)⟩
    have := abs_pos.2 hΩ; positivity

/-- The value of the radiation density parameter. -/
noncomputable def OmegaR (u : SI) (h : ℝ) : ℝ :=
  u.rho_r0_kg_im3 / (3 * (h * 100000 / u.Mpc_m) ^ 2 / (8 * π * u.G))

theorem get_Omega_r0_eq (u : SI) (h : ℝ) : get_Omega_r0 u h = .ok (OmegaR u h) := by
  simp [get_Omega_r0, get_rho_crit_kg_im3, get_H0_SI, Except.map, OmegaR]

theorem rho_r0_pos (u : SI) : 0 < u.rho_r0_kg_im3 := by
  have hT : 0 < SI.T_CMB_K := by unfold SI.T_CMB_K; norm_num
  have hN : 0 < SI.N_eff := by unfold SI.N_eff; norm_num
  have hn := C56_g0.1
  have hB : 0 < u.a_B := by
    rw [(C56_radiation u).1]
    have := u.c_pos; have := u.hbar_pos; have := u.k_B_pos; positivity
  have := u.c_pos
  unfold SI.rho_r0_kg_im3 SI.rho_nu0_kg_im3 SI.rho_gamma0_kg_im3
  positivity

theorem OmegaR_pos (u : SI) {h : ℝ} (hh : 0 < h) : 0 < OmegaR u h := by
  have := rho_r0_pos u; have := u.Mpc_pos; have := u.G_pos
  unfold OmegaR
  positivity

/-- The double root: the dividing lines are `4 m c³` with `m (4c³ - 3c) = 1 - m`. -/
theorem double_root (m c L x : ℝ) (hc : m * (4 * c ^ 3 - 3 * c) = 1 - m) :
    radicand 0 m (1 - 0 - m - L) L x =
      m * (x - 2 * c) ^ 2 * (x + c) + (L - 4 * m * c ^ 3) * (1 - x ^ 2) := by
  unfold radicand
  have : 1 - m = m * (4 * c ^ 3 - 3 * c) := hc.symm
  linear_combination x ^ 2 * this

theorem radicand_split (r m L x : ℝ) :
    radicand r m (1 - r - m - L) L x = radicand 0 m (1 - 0 - m - L) L x + r * (x ^ 2 * (x ^ 2 - 1)) := by
  unfold radicand; ring

theorem no_Big_Bang_line_pos {m : ℝ} (hm : 0 < m) :
    ∃ c, 1 / 2 < c ∧ m * (4 * c ^ 3 - 3 * c) = 1 - m ∧ no_Big_Bang_line m = .ok (4 * m * c ^ 3) := by
  unfold no_Big_Bang_line
  rw [if_neg hm.ne']
  by_cases h2 : m ≤ 0.5
  · rw [if_pos ⟨hm, h2⟩]
    have h1 : 1 ≤ (1 - m) / m := by
      rw [le_div_iff₀ hm]; norm_num at h2; linarith
    refine ⟨_, ?_, ?_, rfl⟩
    · have := one_le_cosh (arcosh ((1 - m) / m) / 3); linarith
    · rw [← cosh_three_mul, show 3 * (arcosh ((1 - m) / m) / 3) = arcosh ((1 - m) / m) by ring,
        cosh_arcosh h1]
      field_simp
  · rw [if_neg (by tauto), if_pos (not_le.1 h2).le]
    norm_num at h2
    have h1 : -1 < (1 - m) / m := by rw [lt_div_iff₀ hm]; linarith
    have h3 : (1 - m) / m ≤ 1 := by rw [div_le_iff₀ hm]; linarith
    refine ⟨_, ?_, ?_, rfl⟩
    · rw [← cos_pi_div_three]
      refine cos_lt_cos_of_nonneg_of_le_pi ?_ ?_ ?_
      · have := arccos_nonneg ((1 - m) / m); positivity
      · linarith [pi_pos]
      · have : arccos ((1 - m) / m) < π := by
          rw [← arccos_neg_one]
          exact strictAntiOn_arccos ⟨le_rfl, by norm_num⟩ ⟨h1.le, h3⟩ h1
        linarith
    · rw [← cos_three_mul, show 3 * (arccos ((1 - m) / m) / 3) = arccos ((1 - m) / m) by ring,
        cos_arccos h1.le h3]
      field_simp

theorem expand_recollapse_line_ge {m : ℝ} (hm : 1 ≤ m) :
    ∃ c, 0 ≤ c ∧ c < 1 / 2 ∧ m * (4 * c ^ 3 - 3 * c) = 1 - m ∧
      expand_recollapse_line m = .ok (4 * m * c ^ 3) := by
  have hm0 : 0 < m := by linarith
  have h1 : -1 < (1 - m) / m := by rw [lt_div_iff₀ hm0]; linarith
  have h3 : (1 - m) / m ≤ 0 := by rw [div_le_iff₀ hm0]; linarith
  unfold expand_recollapse_line
  rw [if_neg (by intro h; linarith [h.2]), if_pos hm]
  obtain ⟨θ, hθ⟩ : ∃ θ, θ = arccos ((1 - m) / m) := ⟨_, rfl⟩
  have hcos : cos θ = (1 - m) / m := by rw [hθ]; exact cos_arccos h1.le (by linarith)
  have hlo : π / 2 ≤ θ := by
    rw [hθ, ← arccos_zero]
    exact antitone_arccos h3
  have hhi : θ < π := by
    rw [hθ, ← arccos_neg_one]
    exact strictAntiOn_arccos ⟨le_rfl, by norm_num⟩ ⟨h1.le, by linarith⟩ h1
  rw [← hθ]
  have hflip : cos (θ / 3 + 4 * π / 3) = cos (2 * π / 3 - θ / 3) := by
    rw [← cos_two_pi_sub]; congr 1; ring
  refine ⟨cos (θ / 3 + 4 * π / 3), ?_, ?_, ?_, rfl⟩
  · rw [hflip]
    exact cos_nonneg_of_mem_Icc ⟨by linarith [pi_pos], by linarith⟩
  · rw [hflip, ← cos_pi_div_three]
    exact cos_lt_cos_of_nonneg_of_le_pi (by linarith [pi_pos]) (by linarith [pi_pos]) (by linarith)
  · rw [← cos_three_mul, show 3 * (θ / 3 + 4 * π / 3) = θ + 2 * π + 2 * π by ring,
      cos_add_two_pi, cos_add_two_pi, hcos]
    field_simp

/-- Both lines are numbers for every non-negative matter density. -/
theorem lines_ok {m : ℝ} (hm : 0 ≤ m) :
    (∃ L, no_Big_Bang_line m = .ok L) ∧ ∃ L, expand_recollapse_line m = .ok L := by
  constructor
  · rcases hm.eq_or_lt with h | h
    · exact ⟨1, by simp [no_Big_Bang_line, ← h]⟩
    · obtain ⟨c, -, -, hc⟩ := no_Big_Bang_line_pos h; exact ⟨_, hc⟩
  · by_cases h : m < 1
    · exact ⟨0, by simp [expand_recollapse_line, hm, h]⟩
    · obtain ⟨c, -, -, -, hc⟩ := expand_recollapse_line_ge (not_lt.1 h); exact ⟨_, hc⟩

/-- What `Hubble_parameter` computes when it does not raise. -/
theorem Hubble_eq (u : SI) (N m ΩK h : ℝ) (units : String) {H0 nbb erl a0 : ℝ}
    (h1 : get_H0 u h units = .ok H0) (h2 : no_Big_Bang_line m = .ok nbb)
    (h3 : expand_recollapse_line m = .ok erl) (h4 : get_a0 u h ΩK "planck" = .ok a0)
    (hL : 1 - OmegaR u h - m - ΩK ≤ nbb) :
    Hubble_parameter u N m ΩK h units =
      .ok ((nanSqrt (radicand (OmegaR u h) m ΩK (1 - OmegaR u h - m - ΩK)
        (exp (log a0 - N)))).map (H0 * ·), decide (1 - OmegaR u h - m - ΩK < erl)) := by
  unfold Hubble_parameter
  simp only [h1, get_Omega_r0_eq, h2, h3, h4, bind, Except.bind]
  rw [if_neg (not_lt.2 hL)]

theorem Hubble_error (u : SI) (N m ΩK h : ℝ) (units : String) {H0 nbb : ℝ}
    (h1 : get_H0 u h units = .ok H0) (h2 : no_Big_Bang_line m = .ok nbb)
    (hL : nbb < 1 - OmegaR u h - m - ΩK) :
    Hubble_parameter u N m ΩK h units = .error (.primpyError "BigBangError: no Big Bang") := by
  unfold Hubble_parameter
  simp only [h1, get_Omega_r0_eq, h2, bind, Except.bind]
  rw [if_pos hL]

end BB
end Primpy
