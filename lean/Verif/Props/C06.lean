import Verif.Props.C05
import Mathlib.Analysis.SpecialFunctions.Log.Deriv
import Mathlib.MeasureTheory.Integral.IntervalIntegral.IntegrationByParts
import Mathlib.Analysis.SpecialFunctions.Trigonometric.ArctanDeriv

/-!
# C06 — `sr_phi2N` counts the slow-roll e-folds to the end of inflation

`sr_phi2N` vanishes at `phi_end` and has slope `V/V'`; therefore, by the fundamental theorem of
calculus, `sr_phi2N φ = ∫_{phi_end}^φ V/V'`, which is spelled out in `C06_integral`.
-/

namespace Primpy
open Real Spec Set

theorem C06_monomial (m : Monomial) (hp : m.p ≠ 0) (hL : m.Lambda ≠ 0) :
    EfoldCount (Ioi 0) m.V m.dV m.sr_phi2N m.phi_end := by
  have h2 : √2 ^ 2 = (2:ℝ) := sq_sqrt (by norm_num)
  refine ⟨?_, fun φ h => ?_⟩
  · simp only [Monomial.sr_phi2N, Monomial.phi_end, div_pow, mul_pow, h2]; fsr
  · have h : 0 < φ := h
    refine hderiv (((hasDerivAt_pow 2 φ).div_const (2 * m.p)).const_add (-m.p / 4)) ?_
    have hu := (rpow_pos_of_pos h m.p).ne'
    simp only [Monomial.V, Monomial.dV, abs_of_pos h, sign_pos h, SignType.coe_one, rpow_sub1 h.ne']
    fsr

theorem C06_quadratic (q : Quadratic) (hL : q.Lambda ≠ 0) :
    EfoldCount (Ioi 0) q.V q.dV q.sr_phi2N q.phi_end := by
  have := C06_monomial q.toMonomial (by simp [Quadratic.toMonomial]) hL
  refine ⟨this.zero, fun φ h => ?_⟩
  have h' : φ ≠ 0 := ne_of_gt h
  refine hderiv (this.slope φ h) ?_
  simp only [Quadratic.V, Quadratic.dV, Quadratic.toMonomial, Monomial.V, Monomial.dV,
    abs_of_pos (show 0 < φ from h), sign_pos (show 0 < φ from h), SignType.coe_one]
  have e : (2:ℝ) - 1 = 1 := by norm_num
  rw [e, rpow_one, rpow_two]
  fsr

theorem C06_starobinsky (s : Starobinsky) (hL : s.Lambda ≠ 0) :
    EfoldCount (Ioi 0) s.V s.dV s.sr_phi2N s.phi_end := by
  have hg : 0 < Starobinsky.gamma := sqrt_pos.mpr (by norm_num)
  refine ⟨by simp [Starobinsky.sr_phi2N], fun φ h => ?_⟩
  have h : 0 < φ := h
  have hd : HasDerivAt s.sr_phi2N ((-1) / (2 * Starobinsky.gamma)
      + (exp (Starobinsky.gamma * φ) * Starobinsky.gamma) / (2 * Starobinsky.gamma^2)) φ := by
    have h1 : HasDerivAt (fun y : ℝ => (-y + s.phi_end) / (2 * Starobinsky.gamma))
        ((-1) / (2 * Starobinsky.gamma)) φ :=
      (((hasDerivAt_id φ).neg).add_const _).div_const _
    have h2 : HasDerivAt (fun y : ℝ => exp (Starobinsky.gamma * y))
        (exp (Starobinsky.gamma * φ) * Starobinsky.gamma) φ := by
      have := ((hasDerivAt_id φ).const_mul Starobinsky.gamma).exp
      simpa using this
    exact h1.add ((h2.sub_const _).div_const _)
  refine hderiv hd ?_
  simp only [Starobinsky.V, Starobinsky.dV]
  have e1 : exp (-Starobinsky.gamma * φ) = (exp (Starobinsky.gamma * φ))⁻¹ := by
    rw [neg_mul, exp_neg]
  have e2 : exp (-2 * Starobinsky.gamma * φ) = ((exp (Starobinsky.gamma * φ))⁻¹)^2 := by
    rw [← exp_neg, ← exp_nat_mul]; congr 1; push_cast; ring
  have hE : 1 < exp (Starobinsky.gamma * φ) := by rw [one_lt_exp_iff]; positivity
  rw [e1, e2]
  generalize exp (Starobinsky.gamma * φ) = E at *
  generalize Starobinsky.gamma = g at *
  have : E - 1 ≠ 0 := by linarith
  have : E ≠ 0 := by linarith
  field_simp; ring

theorem C06_natural (n : Natural) (h0 : 0 < n.phi0) (hL : n.Lambda ≠ 0) :
    EfoldCount (Ioo 0 n.phi0) n.V n.dV n.sr_phi2N n.phi_end := by
  refine ⟨by simp [Natural.sr_phi2N], fun φ h => ?_⟩
  have hpi := pi_pos
  have a : 0 < π * φ / (2 * n.phi0) := by have := h.1; positivity
  have b : π * φ / (2 * n.phi0) < π / 2 := by
    rw [div_lt_div_iff₀ (by positivity) (by norm_num)]; nlinarith [h.2]
  have hc : 0 < cos (π * φ / (2 * n.phi0)) := cos_pos_of_mem_Ioo ⟨by linarith, b⟩
  have hs : 0 < sin (π * φ / (2 * n.phi0)) := sin_pos_of_pos_of_lt_pi a (by linarith)
  have hl : HasDerivAt (fun y : ℝ => π * y / (2 * n.phi0)) (π / (2 * n.phi0)) φ := by
    simpa using ((hasDerivAt_id φ).const_mul π).div_const (2 * n.phi0)
  have ht : HasDerivAt (fun y : ℝ => tan (π * y / (2 * n.phi0)))
      (1 / cos (π * φ / (2 * n.phi0))^2 * (π / (2 * n.phi0))) φ :=
    HasDerivAt.comp φ (hasDerivAt_tan hc.ne') hl
  have hlog : HasDerivAt (fun y : ℝ => log (tan (π * y / (2 * n.phi0))^2 + 1))
      ((2 * tan (π * φ / (2 * n.phi0)) * (1 / cos (π * φ / (2 * n.phi0))^2 * (π / (2 * n.phi0))))
        / (tan (π * φ / (2 * n.phi0))^2 + 1)) φ := by
    have h1 : HasDerivAt (fun y : ℝ => tan (π * y / (2 * n.phi0))^2 + 1)
        (2 * tan (π * φ / (2 * n.phi0)) * (1 / cos (π * φ / (2 * n.phi0))^2 * (π / (2 * n.phi0)))) φ := by
      refine hderiv ((ht.pow 2).add_const 1) ?_
      push_cast; ring
    exact h1.log (by positivity)
  have hd : HasDerivAt n.sr_phi2N _ φ := (hlog.sub_const _).const_mul (n.phi0^2/π^2)
  refine hderiv hd ?_
  have e : π * φ / n.phi0 = 2 * (π * φ / (2 * n.phi0)) := by field_simp
  simp only [Natural.V, Natural.dV, e, sin_two_mul, cos_two_mul, tan_eq_sin_div_cos]
  have sc := sin_sq_add_cos_sq (π * φ / (2 * n.phi0))
  clear hd hlog ht
  generalize sin (π * φ / (2 * n.phi0)) = S at *
  generalize cos (π * φ / (2 * n.phi0)) = C at *
  have e2 : 1 - (2 * C^2 - 1) = 2 * S^2 := by linarith
  have := hc.ne'
  have := hs.ne'
  have e3 : (S / C)^2 + 1 = 1 / C^2 := by
    field_simp; linarith
  rw [e2, e3]
  fsr

theorem C06_doublewell (d : DoubleWell) (φe : ℝ) (h0 : 0 < d.phi0) (hp : d.p ≠ 0)
    (hL : d.Lambda ≠ 0) :
    EfoldCount (Ioo 0 d.phi0) d.V d.dV (d.sr_phi2N φe) φe := by
  refine ⟨by simp only [DoubleWell.sr_phi2N]; split <;> simp, fun φ h => ?_⟩
  have hy : 0 < d.phi0 - φ := by linarith [h.2]
  have hx : d.x φ = (d.phi0 - φ) / d.phi0 := by simp only [DoubleWell.x]; field_simp
  have hx0 : 0 < d.x φ := by rw [hx]; positivity
  have hx1 : d.x φ < 1 := by rw [hx, div_lt_one h0]; linarith [h.1]
  have hup : d.x φ ^ d.p ≠ 1 := by
    intro hc
    rcases lt_or_gt_of_ne hp with h' | h'
    · have := one_lt_rpow_of_pos_of_lt_one_of_neg hx0 hx1 h'; linarith
    · have := rpow_lt_one hx0.le hx1 h'; linarith
  have hu1 : 1 - d.x φ ^ d.p ≠ 0 := fun hc => hup (by linarith)
  have hu0 := (rpow_pos_of_pos hx0 d.p).ne'
  have hVd : d.V φ / d.dV φ = d.phi0 * d.x φ * (1 - d.x φ ^ d.p) / (2 * d.p * d.x φ ^ d.p) := by
    simp only [DoubleWell.V, DoubleWell.dV, rpow_sub1 hx0.ne']
    have := hx0.ne'
    generalize hN : 1 - d.x φ ^ d.p = M at *
    field_simp
  rw [hVd]
  have hl : HasDerivAt (fun y : ℝ => d.phi0 - y) (-1) φ := (hasDerivAt_id φ).const_sub d.phi0
  by_cases h2 : d.p = 2
  · have hd : HasDerivAt (fun phi => d.phi0^2 * (-log (d.phi0 - phi) + log (d.phi0 - φe)) / 4
        + (d.phi0 - phi)^2 / 8 - (d.phi0 - φe)^2 / 8)
        (d.phi0^2 * (-((-1) / (d.phi0 - φ))) / 4 + (2 * (d.phi0 - φ) * (-1)) / 8) φ := by
      have a1 := ((((hl.log hy.ne').neg).add_const (log (d.phi0 - φe))).const_mul
        (d.phi0^2)).div_const 4
      have a2 := (hl.pow 2).div_const 8
      have a3 := (a1.add a2).sub_const ((d.phi0 - φe)^2 / 8)
      refine hderiv a3 ?_
      push_cast; ring
    have e : d.sr_phi2N φe = fun phi => d.phi0^2 * (-log (d.phi0 - phi) + log (d.phi0 - φe)) / 4
        + (d.phi0 - phi)^2 / 8 - (d.phi0 - φe)^2 / 8 := by
      funext phi; simp only [DoubleWell.sr_phi2N, if_pos h2]
    rw [e]
    refine hderiv hd ?_
    rw [h2, rpow_two, hx]
    have := hy.ne'
    field_simp; ring
  · have hd : HasDerivAt (fun phi => (d.phi0 ^ d.p * (d.phi0 - phi) ^ (2 - d.p) / (2 * (d.p - 2))
      - d.phi0 ^ d.p * (d.phi0 - φe) ^ (2 - d.p) / (2 * (d.p - 2))
      + (d.phi0 - phi)^2 / 4
      - (d.phi0 - φe)^2 / 4) / d.p)
        ((d.phi0 ^ d.p * (((2 - d.p) * ((d.phi0 - φ) ^ (2 - d.p) / (d.phi0 - φ))) * (-1))
          / (2 * (d.p - 2)) + (2 * (d.phi0 - φ) * (-1)) / 4) / d.p) φ := by
      have a0 : HasDerivAt (fun y => (d.phi0 - y) ^ (2 - d.p))
          (((2 - d.p) * ((d.phi0 - φ) ^ (2 - d.p) / (d.phi0 - φ))) * (-1)) φ :=
        HasDerivAt.comp φ (hasDerivAt_rpow hy.ne' (2 - d.p)) hl
      have a1 := ((a0.const_mul (d.phi0 ^ d.p)).div_const (2 * (d.p - 2))).sub_const
        (d.phi0 ^ d.p * (d.phi0 - φe) ^ (2 - d.p) / (2 * (d.p - 2)))
      have a2 := (hl.pow 2).div_const 4
      have a3 := ((a1.add a2).sub_const ((d.phi0 - φe)^2 / 4)).div_const d.p
      refine hderiv a3 ?_
      push_cast; ring
    have hd' : HasDerivAt (d.sr_phi2N φe) _ φ :=
      hd.congr_of_eventuallyEq (Filter.Eventually.of_forall fun phi => by
        simp only [DoubleWell.sr_phi2N, if_neg h2])
    refine hderiv hd' ?_
    have hp2 : d.p - 2 ≠ 0 := fun hc => h2 (by linarith)
    have hup' : d.x φ ^ d.p = (d.phi0 - φ) ^ d.p / d.phi0 ^ d.p := by
      rw [hx, div_rpow hy.le h0.le]
    have e2 : (d.phi0 - φ) ^ (2 - d.p) = (d.phi0 - φ)^2 / (d.phi0 - φ) ^ d.p := by
      rw [rpow_sub hy, rpow_two]
    rw [hup', e2, hx]
    have := hy.ne'
    have := (rpow_pos_of_pos hy d.p).ne'
    have := (rpow_pos_of_pos h0 d.p).ne'
    field_simp; ring

theorem C06_tmodel (t : Tmodel) (ha : 0 < t.alpha) (hp : 0 < t.p) (hL : t.Lambda ≠ 0) :
    EfoldCount (Ioi 0) t.V t.dV t.sr_phi2N t.phi_end := by
  have hs : 0 < t.s_6_a := sqrt_pos.mpr (by linarith)
  refine ⟨?_, fun φ h => ?_⟩
  · simp only [Tmodel.sr_phi2N, Tmodel.phi_end]
    have e : 2 * (t.s_6_a/2 * arsinh (2 * √2 * t.p / t.s_6_a)) / t.s_6_a =
        arsinh (2 * √2 * t.p / t.s_6_a) := by field_simp
    rw [e, cosh_arsinh]
    have e2 : t.s_6_a * √(1 + (2 * √2 * t.p / t.s_6_a)^2) = √(8*t.p^2 + t.s_6_a^2) := by
      rw [← sqrt_sq hs.le]
      conv_lhs => rw [← sqrt_mul (sq_nonneg _)]
      rw [sqrt_sq hs.le]
      congr 1
      have : √2 ^ 2 = (2:ℝ) := sq_sqrt (by norm_num)
      field_simp; rw [this]; ring
    rw [e2]; ring
  · have h : 0 < φ := h
    have hl : HasDerivAt (fun y : ℝ => 2 * y / t.s_6_a) (2 / t.s_6_a) φ := by
      simpa using ((hasDerivAt_id φ).const_mul 2).div_const t.s_6_a
    have hd : HasDerivAt t.sr_phi2N _ φ :=
      (((hl.cosh).const_mul t.s_6_a).sub_const (√(8*t.p^2 + t.s_6_a^2))).const_mul
        (t.s_6_a/(8*t.p))
    refine hderiv hd ?_
    have hC : 0 < t.C φ := by
      simp only [Tmodel.C]; rw [tanh_eq_sinh_div_cosh]
      exact div_pos (sinh_pos_iff.mpr (by positivity)) (cosh_pos _)
    have e2 : 2 * φ / t.s_6_a = 2 * (φ / t.s_6_a) := by ring
    have hu := (rpow_pos_of_pos hC (2 * t.p)).ne'
    simp only [Tmodel.V, Tmodel.dV, rpow_sub1 hC.ne', rpow_add1 hC.ne', e2, sinh_two_mul]
    generalize t.C φ ^ (2 * t.p) = U at *
    simp only [Tmodel.C, tanh_eq_sinh_div_cosh] at *
    have cs := cosh_sq (φ / t.s_6_a)
    have hc := (cosh_pos (φ / t.s_6_a)).ne'
    have hsn : sinh (φ / t.s_6_a) ≠ 0 := (sinh_pos_iff.mpr (by positivity)).ne'
    generalize sinh (φ / t.s_6_a) = S at *
    generalize cosh (φ / t.s_6_a) = C at *
    have e3 : U / (S / C) - U * (S / C) = U / (S * C) := by
      field_simp; rw [cs]; ring
    rw [e3]
    fsr

theorem C06_radiongauge (g : RadionGauge) (φe : ℝ) (ha : 0 < g.alpha) (hp : 0 < g.p)
    (hL : g.Lambda ≠ 0) :
    EfoldCount (Ioi 0) g.V g.dV (g.sr_phi2N φe) φe := by
  refine ⟨by simp [RadionGauge.sr_phi2N], fun φ h => ?_⟩
  have h : 0 < φ := h
  have hd : HasDerivAt (g.sr_phi2N φe) _ φ :=
    ((((hasDerivAt_rpow h.ne' (g.p + 2)).sub_const (φe ^ (g.p + 2))).add
      (((hasDerivAt_pow 2 φ).sub_const (φe^2)).mul_const (g.alpha*g.p/2 + g.alpha))).div_const
        (g.alpha * g.p * (g.p + 2)))
  refine hderiv hd ?_
  have hu := rpow_pos_of_pos h g.p
  simp only [RadionGauge.V, RadionGauge.dV, rpow_sub1 h.ne', rpow_add2 h.ne']
  have : g.p + 2 ≠ 0 := by linarith
  have : g.alpha + φ ^ g.p ≠ 0 := by positivity
  generalize φ ^ g.p = U at *
  generalize hM : g.alpha + U = M at *
  push_cast
  field_simp
  rw [← hM]; ring

/-- What `EfoldCount` means: wherever the interval between the end and `φ` lies on the branch and
`V/V' ≥ 0` there, the returned number is the slow-roll integral `∫ V/V' dφ`. -/
theorem C06_integral {dom : Set ℝ} {V dV N : ℝ → ℝ} {φe φ : ℝ} (h : EfoldCount dom V dV N φe)
    (hsub : uIcc φe φ ⊆ dom) (hpos : ∀ x ∈ uIcc φe φ, 0 ≤ V x / dV x) :
    N φ = ∫ x in φe..φ, V x / dV x := by
  have hd : ∀ x ∈ uIcc φe φ, HasDerivAt N (V x / dV x) x := fun x hx => h.slope x (hsub hx)
  have hi : IntervalIntegrable (fun x => V x / dV x) MeasureTheory.volume φe φ :=
    intervalIntegral.intervalIntegrable_deriv_of_nonneg
      (fun x hx => (hd x hx).continuousAt.continuousWithinAt)
      (fun x hx => hd x (Ioo_subset_Icc_self hx))
      (fun x hx => hpos x (Ioo_subset_Icc_self hx))
  rw [intervalIntegral.integral_eq_sub_of_hasDerivAt hd hi, h.zero, sub_zero]

/-- Non-vacuity: for the Starobinsky potential every field above `phi_end` qualifies. -/
theorem C06_starobinsky_integral (s : Starobinsky) (hL : s.Lambda ≠ 0) (φ : ℝ)
    (h : s.phi_end ≤ φ) : s.sr_phi2N φ = ∫ x in s.phi_end..φ, s.V x / s.dV x := by
  have hpe : 0 < s.phi_end := (C05_starobinsky s).mem
  have hg : 0 < Starobinsky.gamma := sqrt_pos.mpr (by norm_num)
  refine C06_integral (C06_starobinsky s hL) ?_ ?_
  · rw [uIcc_of_le h]; exact fun x hx => lt_of_lt_of_le hpe hx.1
  · rw [uIcc_of_le h]; intro x hx
    have hx0 : 0 < x := lt_of_lt_of_le hpe hx.1
    have : 1 < exp (Starobinsky.gamma * x) := by rw [one_lt_exp_iff]; positivity
    simp only [Starobinsky.V, Starobinsky.dV]
    have : 0 < exp (Starobinsky.gamma * x) - 1 := by linarith
    have := exp_pos (-2 * Starobinsky.gamma * x)
    positivity

end Primpy
