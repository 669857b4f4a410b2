import Verif.Lemmas.Calibration
import Verif.Props.C56

/-! Reheating algebra shared by C35, C36. -/

namespace Primpy
open Real
namespace Cal
variable (u : SI)

theorem mp_GeV_pos : 0 < u.mp_GeV := by
  have := u.mp_pos; have := u.c_pos; have := u.e_pos
  unfold SI.mp_GeV SI.giga; positivity

theorem lp_iGeV_pos : 0 < u.lp_iGeV := by
  have := u.lp_pos; have := u.c_pos; have := u.e_pos; have := u.hbar_pos
  unfold SI.lp_iGeV SI.giga; positivity

theorem toPlanck_pos {r : ℝ} (h : 0 < r) : 0 < toPlanck u r := by
  have := mp_GeV_pos u; have := lp_iGeV_pos u
  unfold toPlanck; positivity

theorem toGeV_pos {r : ℝ} (h : 0 < r) : 0 < toGeV u r := by
  have := mp_GeV_pos u; have := lp_iGeV_pos u
  unfold toGeV; positivity

theorem toPlanck_toGeV {r : ℝ} (h : 0 ≤ r) : toPlanck u (toGeV u r) = r := by
  have h1 := mp_GeV_pos u; have h2 := lp_iGeV_pos u
  unfold toPlanck toGeV
  rw [← rpow_natCast _ 4, ← rpow_mul (by positivity)]
  norm_num
  field_simp

theorem toGeV_toPlanck {r : ℝ} (h : 0 ≤ r) : toGeV u (toPlanck u r) = r := by
  have h1 := mp_GeV_pos u; have h2 := lp_iGeV_pos u
  unfold toPlanck toGeV
  rw [show r ^ 4 / u.mp_GeV * u.lp_iGeV ^ 3 * u.mp_GeV / u.lp_iGeV ^ 3 = r ^ 4 by field_simp,
    ← rpow_natCast r 4, ← rpow_mul h]
  norm_num

theorem T_CMB_pos : 0 < u.T_CMB_Tp := by
  have := u.Tp_pos
  unfold SI.T_CMB_Tp SI.T_CMB_K; positivity

theorem g0_pos : 0 < SI.g0 := by
  unfold SI.g0 SI.N_eff SI.T_nu_TCMB; positivity

end Cal
end Primpy
