import Verif.Props.C08

/-!
# C61 — the deprecated `phi2efolds` static methods give the same e-fold number as `sr_phi2N`
-/

namespace Primpy
open Real Spec Set

theorem C61_starobinsky (s : Starobinsky) (φ : ℝ) : Starobinsky.phi2efolds φ = s.sr_phi2N φ := by
  have hg : 0 < Starobinsky.gamma := sqrt_pos.mpr (by norm_num)
  have e : log (1 + √2 * Starobinsky.gamma) / Starobinsky.gamma = s.phi_end := by
    rw [add_comm]; rfl
  simp only [Starobinsky.phi2efolds, Starobinsky.sr_phi2N, e]
  field_simp; ring

theorem C61_natural (n : Natural) (h0 : 0 < n.phi0) (φ : ℝ) (h : 0 < φ) (h1 : φ < n.phi0) :
    Natural.phi2efolds φ n.phi0 = .ok (n.sr_phi2N φ) := by
  have hpi := pi_pos
  simp only [Natural.phi2efolds, if_pos h1]
  congr 1
  have b : π * φ / (2 * n.phi0) < π / 2 := by
    rw [div_lt_div_iff₀ (by positivity) (by norm_num)]; nlinarith
  have a : 0 < π * φ / (2 * n.phi0) := by positivity
  have hc : 0 < cos (π * φ / (2 * n.phi0)) := cos_pos_of_mem_Ioo ⟨by linarith, b⟩
  have e1 : φ / (2 * (n.phi0 / π)) = π * φ / (2 * n.phi0) := by field_simp
  have hte : tan (π*n.phi_end/(2*n.phi0))^2 = 1 / (2 * (n.phi0 / π)^2) := by
    have e : π * n.phi_end / (2*n.phi0) = arctan (√2 * π / (2 * n.phi0)) := by
      simp only [Natural.phi_end]; field_simp
    have h2 : √2 ^ 2 = (2:ℝ) := sq_sqrt (by norm_num)
    rw [e, tan_arctan, div_pow, mul_pow, h2]; fsr
  have htan : tan (π*φ/(2*n.phi0))^2 + 1 = 1 / cos (π * φ / (2 * n.phi0))^2 := by
    rw [tan_eq_sin_div_cos]; have := sin_sq_add_cos_sq (π * φ / (2 * n.phi0))
    field_simp; linarith
  rw [Natural.sr_phi2N, hte, htan, e1, one_div (cos _ ^ 2), log_inv, log_pow]
  rw [add_comm (1 / (2 * (n.phi0 / π)^2)) 1]
  push_cast
  have : (n.phi0 / π)^2 = n.phi0^2/π^2 := by rw [div_pow]
  rw [this]; ring

/-- Beyond the period the deprecated function raises `AssertionError`. -/
theorem C61_natural_error (φ phi0 : ℝ) (h : phi0 ≤ φ) :
    ∃ m, Natural.phi2efolds φ phi0 = .error (.assertion m) :=
  ⟨_, by simp only [Natural.phi2efolds, if_neg (not_lt.mpr h)]; rfl⟩

theorem C61_doublewell2 (L phi0 φ : ℝ) (h0 : 0 < phi0) (h1 : φ < phi0) :
    DoubleWell2.phi2efolds φ phi0 =
      .ok ((DoubleWell2 L phi0).sr_phi2N (DoubleWell2.phi_end phi0) φ) := by
  simp only [DoubleWell2.phi2efolds, if_pos h1]
  congr 1
  have hend := (C05_doublewell2 L phi0 h0).mem
  have h2 : √2 ^ 2 = (2:ℝ) := sq_sqrt (by norm_num)
  have s2 := sqrt_pos.mpr (by norm_num : (0:ℝ) < 2)
  have hs : √(4 + 2 * phi0^2) = √2 * √(phi0^2 + 2) := by
    rw [← sqrt_mul (by norm_num)]; congr 1; ring
  have hpe : (phi0 - DoubleWell2.phi_end phi0)^2 = 4 + phi0^2 - 2 * √(4 + 2 * phi0^2) := by
    have e : phi0 - DoubleWell2.phi_end phi0 = √(phi0^2 - 2 * √2 * √(phi0^2 + 2) + 4) := by
      simp only [DoubleWell2.phi_end]; field_simp; ring
    rw [e, hs, sq_sqrt]
    · ring
    · have hT2 : √(phi0^2 + 2)^2 = phi0^2 + 2 := sq_sqrt (by positivity)
      nlinarith [sq_nonneg (√(phi0^2 + 2) - √2)]
  have hpos : 0 < phi0 - DoubleWell2.phi_end phi0 := by
    rcases hend.2.lt_or_eq with h | h
    · linarith
    · exfalso
      have hv := (C05_doublewell2 L phi0 h0).value
      rw [h] at hv
      have hx : (DoubleWell2 L phi0).x phi0 = 0 := by
        simp only [DoubleWell.x, DoubleWell2]; field_simp; ring
      simp only [DoubleWell.get_epsilon_1V, hx] at hv
      simp only [DoubleWell2] at hv
      rw [zero_rpow (by norm_num)] at hv; norm_num at hv
  have hx : 0 < phi0 - φ := by linarith
  have e2 : (φ - phi0)^2 = (phi0 - φ)^2 := by ring
  simp only [DoubleWell.sr_phi2N, DoubleWell2, if_true]
  rw [← hpe, e2, ← div_pow, log_pow, log_div hx.ne' hpos.ne']
  push_cast; ring

theorem C61_doublewell4 (L phi0 φ : ℝ) (h0 : 0 < phi0) (h1 : φ < phi0) :
    DoubleWell4.phi2efolds φ phi0 =
      .ok ((DoubleWell4 L phi0).sr_phi2N (phi0 - √(DoubleWell4.phi_end_squared phi0)) φ) := by
  simp only [DoubleWell4.phi2efolds, if_pos h1]
  congr 1
  have hend := (C05_doublewell4 L phi0 h0)
  have hw : 0 < DoubleWell4.phi_end_squared phi0 := by
    by_contra hc
    rw [sqrt_eq_zero_of_nonpos (not_lt.mp hc), sub_zero] at hend
    have hv := hend.value
    have hx : (DoubleWell4 L phi0).x phi0 = 0 := by
      simp only [DoubleWell.x, DoubleWell4]; field_simp; ring
    simp only [DoubleWell.get_epsilon_1V, hx] at hv
    simp only [DoubleWell4] at hv
    rw [zero_rpow (by norm_num)] at hv; norm_num at hv
  have hx : 0 < phi0 - φ := by linarith
  generalize DoubleWell4.phi_end_squared phi0 = w at *
  have hs : 0 < √w := sqrt_pos.mpr hw
  have hs2 : √w^2 = w := sq_sqrt hw.le
  have r4 : phi0 ^ (4:ℝ) = phi0^4 := by rw [← rpow_natCast]; norm_num
  have m2 : ∀ y : ℝ, 0 < y → y ^ ((2:ℝ) - 4) = 1 / y^2 := fun y hy => by
    rw [show (2:ℝ) - 4 = -2 by norm_num, rpow_neg hy.le, rpow_two, one_div]
  have e : phi0 - (phi0 - √w) = √w := by ring
  have e2 : (φ - phi0)^2 = (phi0 - φ)^2 := by ring
  have h42 : ¬ ((4:ℝ) = 2) := by norm_num
  simp only [DoubleWell.sr_phi2N, DoubleWell4, if_neg h42, e, r4, m2 _ hx, m2 _ hs, hs2, e2]
  norm_num; ring

end Primpy
