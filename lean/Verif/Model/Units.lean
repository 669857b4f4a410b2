import Verif.Model.Basic
import Mathlib.Analysis.Real.Pi.Bounds

/-!
# primpy/units.py and primpy/parameters.py

The CODATA numbers of `scipy.constants` are a parameter `SI` of the model: nothing is assumed about
them but positivity, so every theorem holds for any CODATA release.
-/

namespace Primpy
open Real

/-- `scipy.constants.{c, hbar, G, k, e, parsec}`; units.py:3-4. -/
structure SI where
  c : ℝ
  hbar : ℝ
  G : ℝ
  k_B : ℝ
  e : ℝ
  parsec_m : ℝ
  c_pos : 0 < c
  hbar_pos : 0 < hbar
  G_pos : 0 < G
  k_B_pos : 0 < k_B
  e_pos : 0 < e
  parsec_pos : 0 < parsec_m

namespace SI
variable (u : SI)

/-- `scipy.constants.mega` -/
def mega : ℝ := 1000000
/-- `scipy.constants.giga` -/
def giga : ℝ := 1000000000

/-- units.py:7 -/
noncomputable def mp_kg : ℝ := √(u.hbar * u.c / (8 * π * u.G))
/-- units.py:8 -/
noncomputable def tp_s : ℝ := √(8 * π * u.G * u.hbar / u.c ^ 5)
/-- units.py:9 -/
noncomputable def lp_m : ℝ := √(8 * π * u.G * u.hbar / u.c ^ 3)
/-- units.py:10 -/
noncomputable def Tp_K : ℝ := √(u.hbar * u.c ^ 5 / (8 * π * u.G * u.k_B ^ 2))
/-- units.py:13 -/
noncomputable def mp_GeV : ℝ := u.mp_kg * u.c ^ 2 / (giga * u.e)
/-- units.py:14 -/
noncomputable def tp_iGeV : ℝ := u.tp_s / u.hbar * giga * u.e
/-- units.py:15 -/
noncomputable def lp_iGeV : ℝ := u.lp_m / u.hbar / u.c * giga * u.e
/-- units.py:18 -/
noncomputable def Mpc_m : ℝ := mega * u.parsec_m
/-- units.py:21 -/
noncomputable def a_B : ℝ := 8 * π ^ 5 * u.k_B ^ 4 / 15 / (2 * π * u.hbar) ^ 3 / u.c ^ 3

/-- parameters.py:4, in 1/Mpc -/
noncomputable def K_STAR : ℝ := 0.05
/-- parameters.py:5 -/
noncomputable def K_STAR_lp : ℝ := K_STAR / u.Mpc_m * u.lp_m
/-- parameters.py:8 -/
noncomputable def T_CMB_K : ℝ := 2.72548
/-- parameters.py:9 -/
noncomputable def T_CMB_Tp : ℝ := T_CMB_K / u.Tp_K
/-- parameters.py:10 -/
noncomputable def T_nu_TCMB : ℝ := (4 / 11 : ℝ) ^ (1 / 3 : ℝ)
/-- parameters.py:11 -/
noncomputable def T_nu_K : ℝ := T_nu_TCMB * T_CMB_K
/-- parameters.py:12 -/
noncomputable def T_nu_Tp : ℝ := T_nu_K / u.Tp_K
/-- parameters.py:13 -/
noncomputable def N_eff : ℝ := 3.044
/-- parameters.py:14 -/
noncomputable def z_BBN : ℝ := 1000000000
/-- parameters.py:17 -/
noncomputable def g0 : ℝ := 2 + 7 / 8 * 2 * N_eff * T_nu_TCMB ^ 3
/-- parameters.py:18 -/
noncomputable def rho_gamma0_kg_im3 : ℝ := u.a_B * T_CMB_K ^ 4 / u.c ^ 2
/-- parameters.py:20 -/
noncomputable def rho_nu0_kg_im3 : ℝ := 7 / 8 * N_eff * T_nu_TCMB ^ 4 * u.rho_gamma0_kg_im3
/-- parameters.py:21 -/
noncomputable def rho_r0_kg_im3 : ℝ := u.rho_gamma0_kg_im3 + u.rho_nu0_kg_im3
/-- parameters.py:22 -/
noncomputable def rho_r0_mp_ilp3 : ℝ := u.rho_r0_kg_im3 / u.mp_kg * u.lp_m ^ 3

end SI
end Primpy
