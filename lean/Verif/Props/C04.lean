import Verif.Model.Potentials
import Verif.Spec.Potential
import Verif.Lemmas.Pow
import Mathlib.Tactic.NormNum
import Mathlib.Tactic.Positivity

/-!
# C04 — `inv_V` inverts `V` on the branch between the minimum and the plateau / hill top
-/

namespace Primpy
open Real Spec Set

theorem C04_monomial (m : Monomial) (hp : m.p ≠ 0) (hL : m.Lambda ≠ 0) :
    InverseOn (Ioi 0) (Ioi 0) m.V m.inv_V := by
  have hL4 : 0 < m.Lambda^4 := by positivity
  refine ⟨fun φ h => ?_, fun v h => ?_, fun φ h => ?_, fun v h => ?_⟩
  · have h : 0 < φ := h
    exact mul_pos hL4 (rpow_pos_of_pos (abs_pos.mpr h.ne') _)
  · have h : 0 < v := h
    exact rpow_pos_of_pos (by positivity) _
  · have h : 0 < φ := h
    simp only [Monomial.V, Monomial.inv_V, abs_of_pos h]
    rw [mul_div_cancel_left₀ _ hL4.ne', ← rpow_mul h.le, mul_one_div_cancel hp, rpow_one]
  · have h : 0 < v := h
    have hv : 0 < v / m.Lambda^4 := by positivity
    simp only [Monomial.V, Monomial.inv_V]
    rw [abs_of_pos (rpow_pos_of_pos hv _), ← rpow_mul hv.le, one_div_mul_cancel hp, rpow_one]
    field_simp

theorem C04_quadratic (q : Quadratic) (hL : q.Lambda ≠ 0) :
    InverseOn (Ici 0) (Ici 0) q.V q.inv_V := by
  have hL2 : 0 < q.Lambda^2 := by positivity
  refine ⟨fun φ h => ?_, fun v h => ?_, fun φ h => ?_, fun v h => ?_⟩
  · exact mul_nonneg (by positivity) (sq_nonneg φ)
  · exact div_nonneg (sqrt_nonneg v) hL2.le
  · have h : 0 ≤ φ := h
    simp only [Quadratic.V, Quadratic.inv_V]
    have : q.Lambda^4 * φ^2 = (q.Lambda^2 * φ)^2 := by ring
    rw [this, sqrt_sq (by positivity)]; field_simp
  · have h : 0 ≤ v := h
    simp only [Quadratic.V, Quadratic.inv_V, div_pow, sq_sqrt h]; field_simp

private theorem gpos : 0 < Starobinsky.gamma := sqrt_pos.mpr (by norm_num)

theorem C04_starobinsky (s : Starobinsky) (hL : s.Lambda ≠ 0) :
    InverseOn (Ici 0) (Ico 0 (s.Lambda^4)) s.V s.inv_V := by
  have hL2 : 0 < s.Lambda^2 := by positivity
  have hL4 : 0 < s.Lambda^4 := by positivity
  have hg := gpos
  have e0 : ∀ φ, 0 < exp (-Starobinsky.gamma * φ) := fun φ => exp_pos _
  have e1 : ∀ φ, 0 ≤ φ → exp (-Starobinsky.gamma * φ) ≤ 1 := fun φ h => by
    rw [exp_le_one_iff]; nlinarith
  have q0 : ∀ v, v ∈ Ico 0 (s.Lambda^4) → √v / s.Lambda^2 < 1 := fun v h => by
    rw [div_lt_one hL2]
    calc √v < √(s.Lambda^4) := sqrt_lt_sqrt h.1 h.2
      _ = s.Lambda^2 := by
        have : s.Lambda^4 = (s.Lambda^2)^2 := by ring
        rw [this, sqrt_sq hL2.le]
  have q1 : ∀ v, 0 ≤ √v / s.Lambda^2 := fun v => by positivity
  refine ⟨fun φ h => ?_, fun v h => ?_, fun φ h => ?_, fun v h => ?_⟩
  · have h : 0 ≤ φ := h
    have a := e0 φ; have b := e1 φ h
    refine ⟨by simp only [Starobinsky.V]; positivity, ?_⟩
    have : (1 - exp (-Starobinsky.gamma * φ))^2 < 1 := by nlinarith
    simp only [Starobinsky.V]; nlinarith
  · have a := q0 v h; have b := q1 v
    have : log (1 - √v / s.Lambda^2) ≤ 0 := log_nonpos (by linarith) (by linarith)
    exact div_nonneg (by linarith) hg.le
  · have h : 0 ≤ φ := h
    have a := e0 φ; have b := e1 φ h
    simp only [Starobinsky.V, Starobinsky.inv_V]
    have : s.Lambda^4 * (1 - exp (-Starobinsky.gamma * φ))^2 =
        (s.Lambda^2 * (1 - exp (-Starobinsky.gamma * φ)))^2 := by ring
    rw [this, sqrt_sq (mul_nonneg hL2.le (by linarith)), mul_div_cancel_left₀ _ hL2.ne']
    rw [sub_sub_cancel, log_exp]; field_simp
  · have a := q0 v h; have b := q1 v
    simp only [Starobinsky.V, Starobinsky.inv_V]
    have : -Starobinsky.gamma * (-log (1 - √v / s.Lambda^2) / Starobinsky.gamma) =
      log (1 - √v / s.Lambda^2) := by field_simp
    rw [this, exp_log (by linarith), sub_sub_cancel, div_pow, sq_sqrt h.1]
    field_simp

theorem C04_natural (n : Natural) (h0 : 0 < n.phi0) (hL : n.Lambda ≠ 0) :
    InverseOn (Icc 0 n.phi0) (Icc 0 (n.Lambda^4)) n.V n.inv_V := by
  have hL4 : 0 < n.Lambda^4 := by positivity
  have hpi := pi_pos
  refine ⟨fun φ h => ?_, fun v h => ?_, fun φ h => ?_, fun v h => ?_⟩
  · have c1 := cos_le_one (π * φ / n.phi0)
    have c2 := neg_one_le_cos (π * φ / n.phi0)
    simp only [Natural.V]
    constructor
    · have : 0 ≤ 1 - cos (π * φ / n.phi0) := by linarith
      positivity
    · nlinarith
  · have a1 := arccos_nonneg (1 - 2 * v / n.Lambda^4)
    have a2 := arccos_le_pi (1 - 2 * v / n.Lambda^4)
    simp only [Natural.inv_V]
    refine ⟨by positivity, ?_⟩
    rw [div_le_iff₀ hpi]; nlinarith
  · simp only [Natural.V, Natural.inv_V]
    have e : 1 - 2 * (n.Lambda^4 / 2 * (1 - cos (π * φ / n.phi0))) / n.Lambda^4 =
        cos (π * φ / n.phi0) := by field_simp; ring
    rw [e, arccos_cos (div_nonneg (mul_nonneg hpi.le h.1) h0.le)
      (by rw [div_le_iff₀ h0]; exact mul_le_mul_of_nonneg_left h.2 hpi.le)]
    field_simp
  · simp only [Natural.V, Natural.inv_V]
    have e : π * (arccos (1 - 2 * v / n.Lambda^4) * n.phi0 / π) / n.phi0 =
        arccos (1 - 2 * v / n.Lambda^4) := by field_simp
    have k : 0 ≤ 2 * v / n.Lambda^4 ∧ 2 * v / n.Lambda^4 ≤ 2 := by
      refine ⟨div_nonneg (by linarith [h.1]) hL4.le, ?_⟩
      rw [div_le_iff₀ hL4]; nlinarith [h.2]
    rw [e, cos_arccos (by linarith) (by linarith)]
    field_simp; ring

theorem C04_doublewell (d : DoubleWell) (h0 : 0 < d.phi0) (hp : 0 < d.p) (hL : d.Lambda ≠ 0) :
    InverseOn (Icc 0 d.phi0) (Icc 0 (d.Lambda^4)) d.V d.inv_V := by
  have hL2 : 0 < d.Lambda^2 := by positivity
  have hL4 : 0 < d.Lambda^4 := by positivity
  have x0 : ∀ φ ∈ Icc 0 d.phi0, 0 ≤ d.x φ ∧ d.x φ ≤ 1 := fun φ h => by
    have h1 : 0 ≤ φ / d.phi0 := div_nonneg h.1 h0.le
    have h2 : φ / d.phi0 ≤ 1 := by rw [div_le_one h0]; exact h.2
    simp only [DoubleWell.x]; constructor <;> linarith
  have u0 : ∀ φ ∈ Icc 0 d.phi0, 0 ≤ d.x φ ^ d.p ∧ d.x φ ^ d.p ≤ 1 := fun φ h =>
    ⟨rpow_nonneg (x0 φ h).1 _, rpow_le_one (x0 φ h).1 (x0 φ h).2 hp.le⟩
  have q : ∀ v ∈ Icc 0 (d.Lambda^4), 0 ≤ 1 - √v / d.Lambda^2 ∧ 1 - √v / d.Lambda^2 ≤ 1 := by
    intro v h
    have : √v ≤ d.Lambda^2 := by
      have e : d.Lambda^4 = (d.Lambda^2)^2 := by ring
      rw [← sqrt_sq hL2.le, ← e]; exact sqrt_le_sqrt h.2
    have h1 : √v / d.Lambda^2 ≤ 1 := by rw [div_le_one hL2]; exact this
    have h2 : 0 ≤ √v / d.Lambda^2 := by positivity
    constructor <;> linarith
  refine ⟨fun φ h => ?_, fun v h => ?_, fun φ h => ?_, fun v h => ?_⟩
  · have := u0 φ h
    simp only [DoubleWell.V]
    have : (1 - d.x φ ^ d.p)^2 ≤ 1 := by nlinarith
    exact ⟨by positivity, by nlinarith⟩
  · have := q v h
    have a := rpow_nonneg this.1 (1 / d.p)
    have b := rpow_le_one this.1 this.2 (by positivity : 0 ≤ 1 / d.p)
    simp only [DoubleWell.inv_V]
    constructor <;> nlinarith
  · have hu := u0 φ h
    simp only [DoubleWell.V, DoubleWell.inv_V]
    have : d.Lambda^4 * (1 - d.x φ ^ d.p)^2 = (d.Lambda^2 * (1 - d.x φ ^ d.p))^2 := by ring
    rw [this, sqrt_sq (mul_nonneg hL2.le (by linarith)), mul_div_cancel_left₀ _ hL2.ne',
      sub_sub_cancel, ← rpow_mul (x0 φ h).1, mul_one_div_cancel hp.ne', rpow_one]
    simp only [DoubleWell.x]; field_simp; ring
  · have hq := q v h
    simp only [DoubleWell.V, DoubleWell.inv_V, DoubleWell.x]
    have e : 1 - (d.phi0 - d.phi0 * (1 - √v / d.Lambda^2) ^ (1 / d.p)) / d.phi0 =
        (1 - √v / d.Lambda^2) ^ (1 / d.p) := by field_simp; ring
    rw [e, ← rpow_mul hq.1, one_div_mul_cancel hp.ne', rpow_one, sub_sub_cancel, div_pow,
      sq_sqrt h.1]
    field_simp

theorem C04_tmodel (t : Tmodel) (ha : 0 < t.alpha) (hp : 0 < t.p) (hL : 0 < t.Lambda) :
    InverseOn (Ici 0) (Ico 0 (t.Lambda^4)) t.V t.inv_V := by
  have hs : 0 < t.s_6_a := sqrt_pos.mpr (by linarith)
  have hL4 : 0 < t.Lambda^4 := by positivity
  have c0 : ∀ φ, 0 ≤ φ → 0 ≤ t.C φ := fun φ h => by
    simp only [Tmodel.C, tanh_eq_sinh_div_cosh]
    exact div_nonneg (sinh_nonneg_iff.mpr (by positivity)) (cosh_pos _).le
  have c1 : ∀ φ, t.C φ < 1 := fun φ => (abs_lt.mp (abs_tanh_lt_one (φ / t.s_6_a))).2
  have h2p : 0 < 2 * t.p := by linarith
  have eL : (t.Lambda^4) ^ (1 / (2 * t.p)) = t.Lambda ^ (2 / t.p) := by
    rw [← rpow_natCast, ← rpow_mul hL.le]; congr 1; push_cast; field_simp; norm_num
  have hLp : 0 < t.Lambda ^ (2 / t.p) := rpow_pos_of_pos hL _
  have q : ∀ v ∈ Ico 0 (t.Lambda^4), 0 ≤ v ^ (1/(2*t.p)) / t.Lambda ^ (2/t.p) ∧
      v ^ (1/(2*t.p)) / t.Lambda ^ (2/t.p) < 1 := by
    intro v h
    refine ⟨div_nonneg (rpow_nonneg h.1 _) hLp.le, ?_⟩
    rw [div_lt_one hLp, ← eL]
    exact rpow_lt_rpow h.1 h.2 (by positivity)
  refine ⟨fun φ h => ?_, fun v h => ?_, fun φ h => ?_, fun v h => ?_⟩
  · have hc := c0 φ h
    simp only [Tmodel.V]
    have := rpow_lt_one hc (c1 φ) h2p
    have := rpow_nonneg hc (2 * t.p)
    exact ⟨by positivity, by nlinarith⟩
  · have hq := q v h
    simp only [Tmodel.inv_V]
    refine mul_nonneg hs.le ?_
    exact artanh_nonneg hq.1
  · have h : 0 ≤ φ := h
    have hc := c0 φ h
    simp only [Tmodel.V, Tmodel.inv_V]
    rw [mul_rpow hL4.le (rpow_nonneg hc _), eL, mul_div_cancel_left₀ _ hLp.ne', ← rpow_mul hc,
      mul_one_div_cancel h2p.ne', rpow_one]
    simp only [Tmodel.C, artanh_tanh]; field_simp
  · have hq := q v h
    simp only [Tmodel.V, Tmodel.inv_V, Tmodel.C]
    rw [mul_div_cancel_left₀ _ hs.ne', tanh_artanh ⟨by linarith [hq.1], hq.2⟩,
      div_rpow (rpow_nonneg h.1 _) hLp.le, ← rpow_mul h.1, one_div_mul_cancel h2p.ne', rpow_one, ← eL,
      ← rpow_mul hL4.le, one_div_mul_cancel h2p.ne', rpow_one]
    field_simp

theorem C04_radiongauge (g : RadionGauge) (ha : 0 < g.alpha) (hp : g.p ≠ 0) (hL : g.Lambda ≠ 0) :
    InverseOn (Ioi 0) (Ioo 0 (g.Lambda^4)) g.V g.inv_V := by
  have hL4 : 0 < g.Lambda^4 := by positivity
  have q : ∀ v ∈ Ioo 0 (g.Lambda^4), 0 < g.Lambda^4 / v - 1 := fun v h => by
    have : 1 < g.Lambda^4 / v := by rw [lt_div_iff₀ h.1]; linarith [h.2]
    linarith
  refine ⟨fun φ h => ?_, fun v h => ?_, fun φ h => ?_, fun v h => ?_⟩
  · have hu := rpow_pos_of_pos (show 0 < φ from h) g.p
    simp only [RadionGauge.V]
    refine ⟨by positivity, ?_⟩
    rw [div_lt_iff₀ (by positivity)]; nlinarith [mul_pos hL4 ha]
  · exact rpow_pos_of_pos (div_pos ha (q v h)) _
  · have h : 0 < φ := h
    have hu := rpow_pos_of_pos h g.p
    simp only [RadionGauge.V, RadionGauge.inv_V]
    have e : g.alpha / (g.Lambda^4 / (g.Lambda^4 * φ ^ g.p / (g.alpha + φ ^ g.p)) - 1) = φ ^ g.p := by
      have : g.Lambda^4 / (g.Lambda^4 * φ ^ g.p / (g.alpha + φ ^ g.p)) - 1 = g.alpha / φ ^ g.p := by
        field_simp; ring
      rw [this]; field_simp
    rw [e, ← rpow_mul h.le, mul_one_div_cancel hp, rpow_one]
  · have hq := q v h
    have hv := h.1
    have hv2 := h.2
    simp only [RadionGauge.V, RadionGauge.inv_V]
    rw [← rpow_mul (div_pos ha hq).le, one_div_mul_cancel hp, rpow_one]
    have e : g.Lambda^4 / v - 1 = (g.Lambda^4 - v) / v := by field_simp
    have h3 : g.Lambda^4 - v ≠ 0 := by linarith
    rw [e, div_div_eq_mul_div]
    have e2 : g.alpha + g.alpha * v / (g.Lambda^4 - v) = g.alpha * g.Lambda^4 / (g.Lambda^4 - v) := by
      field_simp; ring
    rw [e2]; field_simp

/-- non-vacuity: ordinary members of the two sets, per class -/
example : (0.5 : ℝ) ∈ Ico (0:ℝ) ((Starobinsky.mk 1).Lambda^4) := by norm_num
example : (0.5 : ℝ) ∈ Icc (0:ℝ) ((DoubleWell.mk 1 10 2.5).Lambda^4) ∧
    (3 : ℝ) ∈ Icc (0:ℝ) (DoubleWell.mk 1 10 2.5).phi0 := by constructor <;> constructor <;> norm_num

end Primpy
