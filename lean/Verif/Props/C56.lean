import Verif.Model.Units

/-!
# C56 — the unit system is consistent

Specification: reduced Planck units are the units in which `c = ħ = k_B = 1` and `8πG = 1`.
-/

namespace Primpy
open Real
namespace SI
variable (u : SI)

theorem mp_pos : 0 < u.mp_kg :=
  sqrt_pos.2 (div_pos (mul_pos u.hbar_pos u.c_pos) (by have := u.G_pos; positivity))
theorem tp_pos : 0 < u.tp_s :=
  sqrt_pos.2 (by have := u.G_pos; have := u.hbar_pos; have := u.c_pos; positivity)
theorem lp_pos : 0 < u.lp_m :=
  sqrt_pos.2 (by have := u.G_pos; have := u.hbar_pos; have := u.c_pos; positivity)
theorem Tp_pos : 0 < u.Tp_K :=
  sqrt_pos.2 (by have := u.G_pos; have := u.hbar_pos; have := u.c_pos; have := u.k_B_pos; positivity)
theorem Mpc_pos : 0 < u.Mpc_m := by
  have := u.parsec_pos; unfold Mpc_m mega; positivity

end SI

/-- Specification: `(m, t, l, T)` (in kg, s, m, K) are the units of mass, time, length and
temperature in which `c`, `ħ`, `k_B` and `8πG` all have the numerical value one.  (A quantity of
dimension `kg^α s^β m^γ K^δ` has numerical value `SI value / (m^α t^β l^γ T^δ)`.) -/
structure IsReducedPlanck (u : SI) (m t l T : ℝ) : Prop where
  pos : 0 < m ∧ 0 < t ∧ 0 < l ∧ 0 < T
  c_one : u.c / (l / t) = 1
  hbar_one : u.hbar / (m * l ^ 2 / t) = 1
  G_one : 8 * π * u.G / (l ^ 3 / (m * t ^ 2)) = 1
  k_one : u.k_B / (m * l ^ 2 / t ^ 2 / T) = 1

namespace C56

theorem c_tp (u : SI) : u.c * u.tp_s = u.lp_m := by
  have hc := u.c_pos
  unfold SI.tp_s SI.lp_m
  rw [show u.c = √(u.c ^ 2) from (sqrt_sq hc.le).symm, ← sqrt_mul (by positivity)]
  rw [sqrt_sq hc.le]
  congr 1
  field_simp

theorem mp_tp (u : SI) : u.mp_kg * u.c ^ 2 * u.tp_s = u.hbar := by
  have hc := u.c_pos; have hh := u.hbar_pos; have hG := u.G_pos
  unfold SI.tp_s SI.mp_kg
  rw [mul_right_comm, ← sqrt_mul (by positivity)]
  have : u.hbar * u.c / (8 * π * u.G) * (8 * π * u.G * u.hbar / u.c ^ 5) = (u.hbar / u.c ^ 2) ^ 2 := by
    field_simp
  rw [this, sqrt_sq (by positivity)]
  field_simp

theorem mp_sq (u : SI) : u.mp_kg ^ 2 * (8 * π * u.G) = u.hbar * u.c := by
  have hc := u.c_pos; have hh := u.hbar_pos; have hG := u.G_pos
  unfold SI.mp_kg
  rw [sq_sqrt (by positivity)]
  field_simp

theorem k_Tp (u : SI) : u.k_B * u.Tp_K = u.mp_kg * u.c ^ 2 := by
  have hc := u.c_pos; have hh := u.hbar_pos; have hG := u.G_pos; have hk := u.k_B_pos
  have h2 : (u.k_B * u.Tp_K) ^ 2 = (u.mp_kg * u.c ^ 2) ^ 2 := by
    unfold SI.mp_kg SI.Tp_K
    rw [mul_pow, mul_pow, sq_sqrt (by positivity), sq_sqrt (by positivity)]
    field_simp
  have a1 : 0 ≤ u.k_B * u.Tp_K := (mul_pos hk u.Tp_pos).le
  have a2 : 0 ≤ u.mp_kg * u.c ^ 2 := (mul_pos u.mp_pos (by positivity)).le
  exact (pow_left_inj₀ a1 a2 two_ne_zero).1 h2

end C56

/-- **C56.**  `mp_kg, tp_s, lp_m, Tp_K` are *the* reduced Planck units. -/
theorem C56_planck (u : SI) : IsReducedPlanck u u.mp_kg u.tp_s u.lp_m u.Tp_K := by
  have hm := u.mp_pos; have ht := u.tp_pos; have hl := u.lp_pos; have hT := u.Tp_pos
  have hc := u.c_pos; have hh := u.hbar_pos; have hG := u.G_pos; have hk := u.k_B_pos
  have e1 := C56.c_tp u
  have e2 := C56.mp_tp u
  have e3 := C56.mp_sq u
  have e4 := C56.k_Tp u
  refine ⟨⟨hm, ht, hl, hT⟩, ?_, ?_, ?_, ?_⟩
  · rw [← e1]; field_simp
  · rw [div_eq_one_iff_eq (by positivity), ← e1, ← e2]; field_simp
  · rw [div_eq_one_iff_eq (by positivity), ← e1, eq_div_iff (by positivity)]
    have : u.c * (8 * π * u.G * (u.mp_kg * u.tp_s ^ 2)) = u.c * (u.c * u.tp_s) ^ 3 := by
      have h1 : u.mp_kg * (8 * π * u.G * (u.mp_kg * u.tp_s ^ 2)) = u.mp_kg * (u.c * u.tp_s) ^ 3 := by
        calc u.mp_kg * (8 * π * u.G * (u.mp_kg * u.tp_s ^ 2))
            = (u.mp_kg ^ 2 * (8 * π * u.G)) * u.tp_s ^ 2 := by ring
          _ = u.hbar * u.c * u.tp_s ^ 2 := by rw [e3]
          _ = (u.mp_kg * u.c ^ 2 * u.tp_s) * u.c * u.tp_s ^ 2 := by rw [e2]
          _ = _ := by ring
      rw [mul_left_cancel₀ hm.ne' h1]
    exact mul_left_cancel₀ hc.ne' this
  · rw [div_eq_one_iff_eq (by positivity), ← e1, eq_div_iff hT.ne', e4]; field_simp

/-- **C56, uniqueness.**  The reduced Planck units are determined by the four conditions, so any other
correct program would define the same numbers. -/
theorem C56_unique (u : SI) {m t l T : ℝ} (h : IsReducedPlanck u m t l T) :
    m = u.mp_kg ∧ t = u.tp_s ∧ l = u.lp_m ∧ T = u.Tp_K := by
  obtain ⟨⟨hm, ht, hl, hT⟩, hc1, hh1, hG1, hk1⟩ := h
  have hc := u.c_pos; have hh := u.hbar_pos; have hG := u.G_pos; have hk := u.k_B_pos
  rw [div_eq_one_iff_eq (by positivity)] at hc1 hh1 hG1 hk1
  have el : l = u.c * t := by rw [hc1]; field_simp
  have eh : u.hbar = m * u.c ^ 2 * t := by rw [hh1, el]; field_simp
  have eG : 8 * π * u.G = u.c ^ 3 * t / m := by rw [hG1, el]; field_simp
  have hm' : m = u.mp_kg := by
    have : m ^ 2 = u.mp_kg ^ 2 := by
      have h8 : 8 * π * u.G ≠ 0 := by positivity
      apply mul_right_cancel₀ h8
      rw [C56.mp_sq, eG, eh]; field_simp
    exact (pow_left_inj₀ hm.le u.mp_pos.le two_ne_zero).1 this
  have ht' : t = u.tp_s := by
    have : m * u.c ^ 2 * t = m * u.c ^ 2 * u.tp_s := by rw [← eh, hm', C56.mp_tp]
    exact mul_left_cancel₀ (by positivity) this
  have hl' : l = u.lp_m := by rw [el, ht', C56.c_tp]
  refine ⟨hm', ht', hl', ?_⟩
  have : u.k_B * T = u.k_B * u.Tp_K := by
    rw [C56.k_Tp, hk1, el, ← hm']; field_simp
  exact mul_left_cancel₀ hk.ne' this

/-- **C56, GeV.**  In natural units (`ħ = c = 1`, energies in GeV) the reduced Planck mass is the
inverse of both the Planck time and the Planck length; `mp_GeV` is the rest energy `mp c²` and
`tp_iGeV` is `tp/ħ`, converted with one GeV = `10⁹ e` joule. -/
theorem C56_GeV (u : SI) :
    u.mp_GeV * u.tp_iGeV = 1 ∧ u.mp_GeV * u.lp_iGeV = 1 ∧ u.tp_iGeV = u.lp_iGeV ∧
    u.mp_GeV * (10 ^ 9 * u.e) = u.mp_kg * u.c ^ 2 ∧
    u.tp_iGeV * u.hbar = u.tp_s * (10 ^ 9 * u.e) ∧
    u.lp_iGeV * (u.hbar * u.c) = u.lp_m * (10 ^ 9 * u.e) := by
  have hc := u.c_pos; have hh := u.hbar_pos; have he := u.e_pos
  have e1 := C56.c_tp u
  have e2 := C56.mp_tp u
  have a1 : u.mp_GeV * u.tp_iGeV = 1 := by
    unfold SI.mp_GeV SI.tp_iGeV SI.giga
    have : u.mp_kg * u.c ^ 2 / (1000000000 * u.e) * (u.tp_s / u.hbar * 1000000000 * u.e) =
        (u.mp_kg * u.c ^ 2 * u.tp_s) / u.hbar := by field_simp
    rw [this, e2]; field_simp
  have a3 : u.tp_iGeV = u.lp_iGeV := by
    unfold SI.tp_iGeV SI.lp_iGeV
    rw [← e1]; field_simp
  refine ⟨a1, by rw [← a3]; exact a1, a3, ?_, ?_, ?_⟩
  · unfold SI.mp_GeV SI.giga; field_simp; ring
  · unfold SI.tp_iGeV SI.giga; field_simp; ring
  · unfold SI.lp_iGeV SI.giga; field_simp; ring

/-- **C56, radiation.**  The radiation constant is `π² k⁴/(15 ħ³ c³)`; in reduced Planck units the
photon energy density is `π²/15 · T⁴`, and `rho_r0_mp_ilp3` is the photon density times
`1 + 7/8 N_eff (4/11)^{4/3}`. -/
theorem C56_radiation (u : SI) :
    u.a_B = π ^ 2 * u.k_B ^ 4 / (15 * u.hbar ^ 3 * u.c ^ 3) ∧
    u.rho_gamma0_kg_im3 / (u.mp_kg / u.lp_m ^ 3) = π ^ 2 / 15 * u.T_CMB_Tp ^ 4 ∧
    u.rho_r0_mp_ilp3 =
      π ^ 2 / 15 * (u.T_CMB_Tp ^ 4 + 7 / 8 * SI.N_eff * u.T_nu_Tp ^ 4) := by
  have hm := u.mp_pos; have ht := u.tp_pos; have hl := u.lp_pos; have hT := u.Tp_pos
  have hc := u.c_pos; have hh := u.hbar_pos; have hk := u.k_B_pos
  have e1 := C56.c_tp u
  have e2 := C56.mp_tp u
  have e4 := C56.k_Tp u
  have hB : u.a_B = π ^ 2 * u.k_B ^ 4 / (15 * u.hbar ^ 3 * u.c ^ 3) := by
    unfold SI.a_B; field_simp; ring
  have hk4 : u.k_B = u.mp_kg * u.c ^ 2 / u.Tp_K := by rw [← e4]; field_simp
  have hg : u.rho_gamma0_kg_im3 / (u.mp_kg / u.lp_m ^ 3) = π ^ 2 / 15 * u.T_CMB_Tp ^ 4 := by
    unfold SI.rho_gamma0_kg_im3 SI.T_CMB_Tp
    rw [hB, hk4, ← e1, ← e2]
    field_simp
  refine ⟨hB, hg, ?_⟩
  unfold SI.rho_r0_mp_ilp3 SI.rho_r0_kg_im3 SI.rho_nu0_kg_im3 SI.T_nu_Tp SI.T_nu_K
  have : u.rho_gamma0_kg_im3 = π ^ 2 / 15 * u.T_CMB_Tp ^ 4 * (u.mp_kg / u.lp_m ^ 3) := by
    rw [← hg]; field_simp
  rw [this]
  unfold SI.T_CMB_Tp
  field_simp

/-- **C56, degrees of freedom.**  `T_nu_TCMB` is the real cube root of 4/11 and `g0` is the entropy
count `2 + 2·(7/8)·N_eff·(T_ν/T_γ)³ = 2 + 7/11 N_eff`. -/
theorem C56_g0 : 0 < SI.T_nu_TCMB ∧ SI.T_nu_TCMB ^ 3 = 4 / 11 ∧
    SI.g0 = 2 + 7 / 11 * SI.N_eff ∧ 0 < SI.g0 := by
  have hp : 0 < SI.T_nu_TCMB := by unfold SI.T_nu_TCMB; positivity
  have h3 : SI.T_nu_TCMB ^ 3 = 4 / 11 := by
    unfold SI.T_nu_TCMB
    rw [← rpow_natCast, ← rpow_mul (by norm_num)]
    norm_num
  refine ⟨hp, h3, ?_, ?_⟩
  · unfold SI.g0; rw [h3]; ring
  · unfold SI.g0; rw [h3]; unfold SI.N_eff; norm_num

/-- **C56, pivot scale.**  A comoving wavenumber of `K_STAR` per megaparsec is `K_STAR_lp` per reduced
Planck length: both are the same number of inverse metres; the pivot scale is 0.05/Mpc. -/
theorem C56_pivot (u : SI) : (u.K_STAR_lp / u.lp_m = SI.K_STAR / u.Mpc_m ∧ SI.K_STAR = 5 / 100) ∧ 0 < u.K_STAR_lp := by
  have hl := u.lp_pos; have hM := u.Mpc_pos
  have hK : 0 < SI.K_STAR := by unfold SI.K_STAR; norm_num
  refine ⟨⟨?_, by unfold SI.K_STAR; norm_num⟩, ?_⟩
  · unfold SI.K_STAR_lp; field_simp
  · unfold SI.K_STAR_lp; positivity

/-- A concrete instance (CODATA 2018 values, rounded): the structure is inhabited. -/
noncomputable def SI.codata : SI where
  c := 299792458
  hbar := 1.054571817e-34
  G := 6.6743e-11
  k_B := 1.380649e-23
  e := 1.602176634e-19
  parsec_m := 3.0856775814913673e16
  c_pos := by norm_num
  hbar_pos := by norm_num
  G_pos := by norm_num
  k_B_pos := by norm_num
  e_pos := by norm_num
  parsec_pos := by norm_num

example : SI.codata.mp_GeV * SI.codata.lp_iGeV = 1 := (C56_GeV _).2.1

end Primpy
