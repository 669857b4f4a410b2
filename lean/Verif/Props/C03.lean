import Verif.Props.C01

/-!
# C03 — the four potential slow-roll parameters form one hierarchy generated by V

Domains: fields where the formulas are finite and where `V`, `V'` (and, for the classes in which the
higher parameters can vanish, `ε₂`, `ε₃`) are non-zero — the definition divides by them.
-/

namespace Primpy
open Real Spec

theorem C03_monomial (m : Monomial) (hp : m.p ≠ 0) (hL : m.Lambda ≠ 0) :
    IsSlowRollHierarchy {φ | φ ≠ 0} m.V m.dV
      m.get_epsilon_1V m.get_epsilon_2V m.get_epsilon_3V m.get_epsilon_4V := by
  have ratio : ∀ φ : ℝ, φ ≠ 0 → m.dV φ / m.V φ = m.p / φ := by
    intro φ h
    have ha := abs_ne_zero.mpr h
    have hr : |φ| ^ m.p ≠ 0 := (rpow_pos_of_pos (abs_pos.mpr h) _).ne'
    simp only [Monomial.dV, Monomial.V, rpow_sub1 ha]
    rcases lt_or_gt_of_ne h with h' | h'
    · rw [sign_neg h'] ; rw [abs_of_neg h'] at hr ⊢; simp only [SignType.coe_neg_one]; field_simp
    · rw [sign_pos h'] ; rw [abs_of_pos h'] at hr ⊢; simp only [SignType.coe_one]; field_simp
  have ratio' : ∀ φ : ℝ, φ ≠ 0 → m.V φ / m.dV φ = φ / m.p := by
    intro φ h; rw [← inv_div, ratio φ h, inv_div]
  have h2 : ∀ φ : ℝ, φ ≠ 0 → HasDerivAt (fun y => 2 * m.p / y^2) (-(4 * m.p) / φ^3) φ := by
    intro φ h
    refine hderiv ((hasDerivAt_const φ (2*m.p)).div (hasDerivAt_pow 2 φ) (pow_ne_zero 2 h)) ?_
    simp; fsr
  refine ⟨fun φ (h : φ ≠ 0) => ?_, fun φ (h : φ ≠ 0) => ?_, fun φ (h : φ ≠ 0) => ?_,
    fun φ (h : φ ≠ 0) => ?_⟩
  · rw [ratio φ h]; simp only [Monomial.get_epsilon_1V]; field_simp
  · refine hderiv ((hasDerivAt_const φ (m.p^2)).div ((hasDerivAt_pow 2 φ).const_mul 2)
      (by positivity)) ?_
    rw [ratio' φ h]
    simp [Monomial.get_epsilon_1V, Monomial.get_epsilon_2V]; fsr
  · refine hderiv (h2 φ h) ?_
    rw [ratio' φ h]
    simp only [Monomial.get_epsilon_3V, Monomial.get_epsilon_2V]; fsr
  · refine hderiv (h2 φ h) ?_
    rw [ratio' φ h]
    simp only [Monomial.get_epsilon_3V, Monomial.get_epsilon_4V]; fsr

theorem C03_quadratic (q : Quadratic) (hL : q.Lambda ≠ 0) :
    IsSlowRollHierarchy {φ | φ ≠ 0} q.V q.dV
      q.get_epsilon_1V q.get_epsilon_2V q.get_epsilon_3V q.get_epsilon_4V := by
  have h := C03_monomial q.toMonomial (by simp [Quadratic.toMonomial]) hL
  have ha : ∀ φ : ℝ, φ ≠ 0 → q.toMonomial.V φ = q.V φ := by
    intro φ _
    simp only [Quadratic.toMonomial, Monomial.V, Quadratic.V]
    have : |φ| ^ (2:ℝ) = |φ| ^ 2 := by norm_cast
    rw [this, sq_abs]
  have hb : ∀ φ : ℝ, φ ≠ 0 → q.toMonomial.dV φ = q.dV φ := by
    intro φ h
    simp only [Quadratic.toMonomial, Monomial.dV, Quadratic.dV]
    have : |φ| ^ ((2:ℝ) - 1) = |φ| := by norm_num
    rw [this, mul_assoc, abs_mul_sign]; ring
  exact ⟨fun φ hφ => by rw [← ha φ hφ, ← hb φ hφ]; exact h.first φ hφ,
    fun φ hφ => by rw [← ha φ hφ, ← hb φ hφ]; exact h.second φ hφ,
    fun φ hφ => by rw [← ha φ hφ, ← hb φ hφ]; exact h.third φ hφ,
    fun φ hφ => by rw [← ha φ hφ, ← hb φ hφ]; exact h.fourth φ hφ⟩

private theorem sgamma_pos : 0 < Starobinsky.gamma := sqrt_pos.mpr (by norm_num)

private theorem sinh_half_sq (g φ : ℝ) :
    sinh (g * φ / 2)^2 = (exp (g * φ) - 1)^2 / (4 * exp (g * φ)) := by
  have e : exp (g * φ) = exp (g * φ / 2)^2 := by rw [← exp_nat_mul]; congr 1; push_cast; ring
  have e' : exp (-(g * φ / 2)) = (exp (g * φ / 2))⁻¹ := exp_neg _
  have := (exp_pos (g * φ / 2)).ne'
  rw [sinh_eq, e, e']; field_simp; ring

theorem C03_starobinsky (s : Starobinsky) (hL : s.Lambda ≠ 0) :
    IsSlowRollHierarchy {φ | φ ≠ 0} s.V s.dV
      s.get_epsilon_1V s.get_epsilon_2V s.get_epsilon_3V s.get_epsilon_4V := by
  set g := Starobinsky.gamma with hg
  have g0 : g ≠ 0 := sgamma_pos.ne'
  have hE : ∀ φ, HasDerivAt (fun y : ℝ => exp (g * y)) (exp (g * φ) * g) φ := fun φ => by
    simpa using ((hasDerivAt_id φ).const_mul g).exp
  have hne : ∀ φ : ℝ, φ ≠ 0 → exp (g * φ) - 1 ≠ 0 := by
    intro φ h e
    have : exp (g * φ) = 1 := by linarith
    rw [exp_eq_one_iff] at this
    exact (mul_ne_zero g0 h) this
  have ratio : ∀ φ : ℝ, φ ≠ 0 → s.dV φ / s.V φ = 2 * g / (exp (g * φ) - 1) := by
    intro φ h
    have h1 := hne φ h
    have h2 := (exp_pos (g * φ)).ne'
    have e1 : exp (-2 * g * φ) = (exp (g * φ)^2)⁻¹ := by
      rw [← exp_nat_mul, ← exp_neg]; congr 1; push_cast; ring
    have e2 : exp (-g * φ) = (exp (g * φ))⁻¹ := by rw [← exp_neg]; congr 1; ring
    have h3 : 1 - (exp (g * φ))⁻¹ ≠ 0 := by
      intro e; apply h1; field_simp at e; linarith
    simp only [Starobinsky.dV, Starobinsky.V, ← hg, e1, e2]
    have h4 : exp (g * φ) * (1 - (exp (g * φ))⁻¹) = exp (g*φ) - 1 := by field_simp
    field_simp
  have ratio' : ∀ φ : ℝ, φ ≠ 0 → s.V φ / s.dV φ = (exp (g * φ) - 1) / (2 * g) := by
    intro φ h; rw [← inv_div, ratio φ h, inv_div]
  have hs2 : ∀ φ : ℝ, s.get_epsilon_2V φ = 4 * g^2 * exp (g * φ) / (exp (g * φ) - 1)^2 := by
    intro φ
    simp only [Starobinsky.get_epsilon_2V, ← hg, sinh_half_sq]
    rw [div_div_eq_mul_div]; ring
  have hs4 : ∀ φ : ℝ, s.get_epsilon_4V φ =
      2 * g^2 * (exp (g*φ) + 3) * exp (g*φ) / ((exp (g*φ) + 1) * (exp (g*φ) - 1)^2) := by
    intro φ
    have := (exp_pos (g * φ)).ne'
    simp only [Starobinsky.get_epsilon_4V, ← hg, sinh_half_sq]
    by_cases h : exp (g*φ) - 1 = 0
    · simp [h]
    · have : exp (g*φ) + 1 ≠ 0 := by positivity
      fsr
  refine ⟨fun φ (h : φ ≠ 0) => ?_, fun φ (h : φ ≠ 0) => ?_, fun φ (h : φ ≠ 0) => ?_,
    fun φ (h : φ ≠ 0) => ?_⟩
  all_goals
    have h1 := hne φ h
    have h1' : 1 - exp (g * φ) ≠ 0 := fun e => h1 (by linarith)
    have h2 := (exp_pos (g * φ)).ne'
    have h3 : exp (g*φ) + 1 ≠ 0 := by positivity
  · rw [ratio φ h]; simp only [Starobinsky.get_epsilon_1V, ← hg]
    have : (1 - exp (g*φ))^2 = (exp (g*φ) - 1)^2 := by ring
    rw [this]; fsr
  · refine hderiv ((hasDerivAt_const φ (2*g^2)).div (((hE φ).const_sub 1).pow 2)
      (pow_ne_zero 2 h1')) ?_
    rw [ratio' φ h, hs2]
    simp only [Starobinsky.get_epsilon_1V, ← hg, Pi.pow_apply]
    have e : exp (g*φ) - 1 = -(1 - exp (g*φ)) := by ring
    rw [e]; fsr
  · have hf : s.get_epsilon_2V = fun y => 4 * g^2 * exp (g * y) / (exp (g * y) - 1)^2 :=
      funext hs2
    rw [hs2, hf]
    refine hderiv (((hE φ).const_mul (4*g^2)).div (((hE φ).sub_const 1).pow 2)
      (pow_ne_zero 2 h1)) ?_
    rw [ratio' φ h]
    simp only [Starobinsky.get_epsilon_3V, ← hg, Pi.pow_apply]
    fsr
  · rw [hs4]
    refine hderiv ((((hE φ).add_const 1).const_mul (2*g^2)).div (((hE φ).sub_const 1).pow 2)
      (pow_ne_zero 2 h1)) ?_
    rw [ratio' φ h]
    simp only [Starobinsky.get_epsilon_3V, ← hg, Pi.pow_apply]
    fsr

theorem C03_natural (n : Natural) (h0 : n.phi0 ≠ 0) (hL : n.Lambda ≠ 0) :
    IsSlowRollHierarchy {φ | sin (π * φ / n.phi0) ≠ 0} n.V n.dV
      n.get_epsilon_1V n.get_epsilon_2V n.get_epsilon_3V n.get_epsilon_4V := by
  have hl : ∀ φ, HasDerivAt (fun y : ℝ => π * y / n.phi0) (π / n.phi0) φ := fun φ => by
    simpa using ((hasDerivAt_id φ).const_mul π).div_const n.phi0
  have hc : ∀ φ, sin (π * φ / n.phi0) ≠ 0 → cos (π * φ / n.phi0) - 1 ≠ 0 := by
    intro φ h e
    have h1 : cos (π * φ / n.phi0) = 1 := by linarith
    have h2 := sin_sq_add_cos_sq (π * φ / n.phi0)
    rw [h1] at h2
    exact h (by nlinarith)
  refine ⟨fun φ h => ?_, fun φ h => ?_, fun φ h => ?_, fun φ h => ?_⟩
  all_goals
    have h : sin (π * φ / n.phi0) ≠ 0 := h
    have h1 := hc φ h
    have hs := sin_sq_add_cos_sq (π * φ / n.phi0)
    have hpi := pi_ne_zero
    have hr : n.V φ / n.dV φ = -(cos (π*φ/n.phi0) - 1) * n.phi0 / (sin (π*φ/n.phi0) * π) := by
      simp only [Natural.V, Natural.dV]; fsr
    have hr' : n.dV φ / n.V φ = (sin (π*φ/n.phi0) * π) / (-(cos (π*φ/n.phi0) - 1) * n.phi0) := by
      rw [← inv_div, hr, inv_div]
  · rw [hr']; simp only [Natural.get_epsilon_1V]; field_simp
  · refine hderiv ((((hl φ).sin.pow 2).const_mul (π^2)).div
      ((((hl φ).cos.sub_const 1).pow 2).const_mul (2*n.phi0^2)) (by positivity)) ?_
    rw [hr]
    simp only [Natural.get_epsilon_1V, Natural.get_epsilon_2V, Pi.pow_apply]
    generalize sin (π*φ/n.phi0) = S at *
    generalize cos (π*φ/n.phi0) = C at *
    have : S^2 = 1 - C^2 := by linarith
    have h3 : S^3 = S * (1 - C^2) := by rw [← this]; ring
    field_simp; norm_num
    rw [h3]; ring
  · refine hderiv ((hasDerivAt_const φ (-2*π^2)).div
      (((hl φ).cos.sub_const 1).const_mul (n.phi0^2)) (by positivity)) ?_
    rw [hr]
    simp only [Natural.get_epsilon_3V, Natural.get_epsilon_2V]
    generalize sin (π*φ/n.phi0) = S at *
    generalize cos (π*φ/n.phi0) = C at *
    fsr
  · refine hderiv ((((hl φ).sin.pow 2).const_mul (π^2)).div
      ((((hl φ).cos.sub_const 1).pow 2).const_mul (n.phi0^2)) (by positivity)) ?_
    rw [hr]
    simp only [Natural.get_epsilon_3V, Natural.get_epsilon_4V, Pi.pow_apply]
    generalize sin (π*φ/n.phi0) = S at *
    generalize cos (π*φ/n.phi0) = C at *
    have : S^2 = 1 - C^2 := by linarith
    have h3 : S^3 = S * (1 - C^2) := by rw [← this]; ring
    field_simp; norm_num
    rw [h3]; ring

theorem C03_doublewell (d : DoubleWell) (h0 : d.phi0 ≠ 0) :
    IsSlowRollHierarchy {φ | PowDom (1 - φ / d.phi0) d.p ∧ d.V φ ≠ 0 ∧ d.dV φ ≠ 0 ∧
        d.get_epsilon_2V φ ≠ 0 ∧ d.get_epsilon_3V φ ≠ 0} d.V d.dV
      d.get_epsilon_1V d.get_epsilon_2V d.get_epsilon_3V d.get_epsilon_4V := by
  have hx : ∀ φ, HasDerivAt d.x (-(1 / d.phi0)) φ := fun φ =>
    ((hasDerivAt_id φ).div_const d.phi0).const_sub 1
  have hp : ∀ φ, d.x φ ≠ 0 → ∀ q, HasDerivAt (fun y => d.x y ^ q)
      (q * (d.x φ ^ q / d.x φ) * (-(1 / d.phi0))) φ :=
    fun φ hne q => (hasDerivAt_rpow hne q).comp φ (hx φ)
  refine ⟨fun φ h => ?_, fun φ h => ?_, fun φ h => ?_, fun φ h => ?_⟩
  all_goals
    obtain ⟨h, hV, hdV, he2, he3⟩ := h
    have h : PowDom (d.x φ) d.p := h
    have hne := h.ne
    have hu := h.rpow_ne
    have hP := hp φ hne
    have hp0 : d.p ≠ 0 := by intro e; apply hdV; simp [DoubleWell.dV, e]
    have hL : d.Lambda ≠ 0 := by intro e; apply hdV; simp [DoubleWell.dV, e]
    have hu1' : 1 - d.x φ ^ d.p ≠ 0 := by intro e; apply hdV; simp [DoubleWell.dV, e]
    have hu1 : d.x φ ^ d.p - 1 ≠ 0 := by intro e; apply hu1'; linarith
    have hu2 : d.p + d.x φ ^ d.p - 1 ≠ 0 := by
      intro e; apply he2; simp [DoubleWell.get_epsilon_2V, e]
    have hu3 : d.p^2 - 3*d.p + 2*(d.x φ ^ d.p)^2 + d.x φ ^ d.p * (d.p^2 + 3*d.p - 4) + 2 ≠ 0 := by
      intro e; apply he3; simp [DoubleWell.get_epsilon_3V, h.two_mul, e]
    have hr : d.V φ / d.dV φ = d.phi0 * d.x φ * (1 - d.x φ ^ d.p) / (2 * d.p * d.x φ ^ d.p) := by
      simp only [DoubleWell.V, DoubleWell.dV, rpow_sub1 hne]; field_simp
    have hr' : d.dV φ / d.V φ = (2 * d.p * d.x φ ^ d.p) / (d.phi0 * d.x φ * (1 - d.x φ ^ d.p)) := by
      rw [← inv_div, hr, inv_div]
  · rw [hr']
    simp only [DoubleWell.get_epsilon_1V, rpow_sub2 hne, h.two_mul]
    have : (d.x φ ^ d.p - 1)^2 = (1 - d.x φ ^ d.p)^2 := by ring
    rw [this]; fsr
  · refine hderiv (((hP (2*d.p-2)).const_mul (2*d.p^2)).div
      ((((hP d.p).sub_const 1).pow 2).const_mul (d.phi0^2)) (by positivity)) ?_
    rw [hr]
    simp only [DoubleWell.get_epsilon_1V, DoubleWell.get_epsilon_2V, rpow_sub2 hne, h.two_mul,
      Pi.pow_apply]
    generalize d.x φ ^ d.p = u at *
    generalize d.x φ = x at *
    fsr
  · refine hderiv ((((hP (d.p-2)).const_mul (4*d.p)).mul
      (((hP d.p).const_add d.p).sub_const 1)).div
      ((((hP d.p).sub_const 1).pow 2).const_mul (d.phi0^2)) (by positivity)) ?_
    rw [hr]
    simp only [DoubleWell.get_epsilon_3V, DoubleWell.get_epsilon_2V, rpow_sub2 hne, h.two_mul,
      Pi.pow_apply, Pi.mul_apply]
    generalize d.x φ ^ d.p = u at *
    generalize d.x φ = x at *
    fsr
  · have h2 : HasDerivAt (fun y : ℝ => d.x y ^ (2 * d.p))
        (2 * d.p * ((d.x φ ^ d.p) ^ 2 / d.x φ) * (-(1 / d.phi0))) φ := by
      have := hP (2 * d.p); rwa [h.two_mul] at this
    refine hderiv ((((hP (d.p-2)).const_mul (2*d.p)).mul
      (((h2.const_mul 2).const_add (d.p^2 - 3*d.p)).add
        ((hP d.p).mul_const (d.p^2 + 3*d.p - 4)) |>.add_const 2)).div
      (((((hP d.p).sub_const 1).pow 2).const_mul (d.phi0^2)).mul
        (((hP d.p).const_add d.p).sub_const 1))
      (mul_ne_zero (by positivity) hu2)) ?_
    rw [hr]
    simp only [DoubleWell.get_epsilon_3V, DoubleWell.get_epsilon_4V, rpow_sub2 hne, h.two_mul,
      h.three_mul, h.four_mul, h.five_mul, Pi.pow_apply, Pi.mul_apply, Pi.add_apply]
    have hfac : d.p^3 - 4*d.p^2 + 5*d.p + 2 * (d.x φ ^ d.p)^5
        + (d.x φ ^ d.p)^4 * (d.p^2 + 5*d.p - 10)
        + (d.x φ ^ d.p)^3 * (d.p^3 + d.p^2 - 20*d.p + 20)
        + (d.x φ ^ d.p)^2 * (-d.p^3 - 9*d.p^2 + 30*d.p - 20)
        + d.x φ ^ d.p * (-d.p^3 + 11*d.p^2 - 20*d.p + 10) - 2 =
        (d.x φ ^ d.p - 1)^2 * (d.p + d.x φ ^ d.p - 1) *
        (d.p^2 - 3*d.p + 2*(d.x φ ^ d.p)^2 + d.x φ ^ d.p * (d.p^2 + 3*d.p - 4) + 2) := by ring
    rw [hfac]
    generalize d.x φ ^ d.p = u at *
    generalize d.x φ = x at *
    clear hfac h2
    generalize hN : d.p^2 - 3*d.p + 2*u^2 + u * (d.p^2 + 3*d.p - 4) + 2 = M at *
    field_simp
    rw [← hN]; norm_num; ring

theorem C03_tmodel (t : Tmodel) (ha : 0 < t.alpha) (hp : t.p ≠ 0) (hL : t.Lambda ≠ 0) :
    IsSlowRollHierarchy {φ | PowDom (tanh (φ / √(6 * t.alpha))) (2 * t.p)} t.V t.dV
      t.get_epsilon_1V t.get_epsilon_2V t.get_epsilon_3V t.get_epsilon_4V := by
  have hs : t.s_6_a ≠ 0 := by
    simp only [Tmodel.s_6_a]; exact (sqrt_pos.mpr (by linarith)).ne'
  have hx : ∀ φ, HasDerivAt t.C ((1 - t.C φ ^ 2) * (1 / t.s_6_a)) φ := fun φ =>
    (hasDerivAt_tanh (φ / t.s_6_a)).comp φ (by simpa using (hasDerivAt_id φ).div_const t.s_6_a)
  have hlt : ∀ φ, t.C φ ^ 2 < 1 := fun φ => by
    rw [sq_lt_one_iff_abs_lt_one]; exact abs_tanh_lt_one _
  have hsh : ∀ φ, t.C φ ≠ 0 → sinh (2 * φ / t.s_6_a) = 2 * t.C φ / (1 - t.C φ ^ 2) := by
    intro φ _
    have hc := (cosh_pos (φ / t.s_6_a)).ne'
    have hh := cosh_sq (φ / t.s_6_a)
    have e : 2 * φ / t.s_6_a = 2 * (φ / t.s_6_a) := by ring
    have hd : cosh (φ / t.s_6_a)^2 - sinh (φ / t.s_6_a)^2 = 1 := by linarith
    rw [e, sinh_two_mul]
    simp only [Tmodel.C, tanh_eq_sinh_div_cosh]
    have : 1 - (sinh (φ / t.s_6_a) / cosh (φ / t.s_6_a))^2 = 1 / cosh (φ / t.s_6_a)^2 := by
      field_simp; exact hd
    rw [this]; field_simp
  have he1 : ∀ φ, t.C φ ≠ 0 → t.get_epsilon_1V φ = 2 * t.p^2 * (1 - t.C φ^2)^2 /
      (t.s_6_a^2 * t.C φ^2) := by
    intro φ h
    have h1 : 1 - t.C φ^2 ≠ 0 := by have := hlt φ; intro e; linarith
    simp only [Tmodel.get_epsilon_1V, hsh φ h]; fsr
  refine ⟨fun φ h => ?_, fun φ h => ?_, fun φ h => ?_, fun φ h => ?_⟩
  all_goals
    have h : PowDom (t.C φ) (2 * t.p) := h
    have hne := h.ne
    have hu := h.rpow_ne
    have h1 : 1 - t.C φ^2 ≠ 0 := by have := hlt φ; intro e; linarith
    have h2 : t.C φ^2 + 1 ≠ 0 := by positivity
    have hr : t.V φ / t.dV φ = t.s_6_a * t.C φ / (2 * t.p * (1 - t.C φ^2)) := by
      simp only [Tmodel.V, Tmodel.dV, rpow_sub1 hne, rpow_add1 hne]
      have : t.C φ ^ (2 * t.p) / t.C φ - t.C φ ^ (2 * t.p) * t.C φ =
        t.C φ ^ (2 * t.p) * (1 - t.C φ^2) / t.C φ := by field_simp
      rw [this]; field_simp
    have hr' : t.dV φ / t.V φ = (2 * t.p * (1 - t.C φ^2)) / (t.s_6_a * t.C φ) := by
      rw [← inv_div, hr, inv_div]
  · rw [hr', he1 φ hne]; fsr
  · have hev : t.get_epsilon_1V =ᶠ[nhds φ] fun y => 2 * t.p^2 * (1 - t.C y^2)^2 /
        (t.s_6_a^2 * t.C y^2) := by
      filter_upwards [(hx φ).continuousAt.eventually_ne hne] with y hy using he1 y hy
    refine HasDerivAt.congr_of_eventuallyEq ?_ hev
    refine hderiv ((((((hx φ).pow 2).const_sub 1).pow 2).const_mul (2*t.p^2)).div
      (((hx φ).pow 2).const_mul (t.s_6_a^2)) (by positivity)) ?_
    rw [hr, he1 φ hne]
    simp only [Tmodel.get_epsilon_2V, Pi.pow_apply]
    generalize t.C φ = C at *
    fsr
  · refine hderiv (((((hx φ).pow 4).const_sub 1).const_mul (4*t.p)).div
      (((hx φ).pow 2).mul_const (t.s_6_a^2)) (by positivity)) ?_
    rw [hr]
    simp only [Tmodel.get_epsilon_2V, Tmodel.get_epsilon_3V, Pi.pow_apply]
    generalize t.C φ = C at *
    fsr
  · refine hderiv ((((((((hx φ).pow 6).neg).add ((hx φ).pow 4)).sub ((hx φ).pow 2)).add_const
      1).const_mul (4*t.p)).div
      ((((hx φ).pow 2).mul_const (t.s_6_a^2)).mul (((hx φ).pow 2).add_const 1))
        (by positivity)) ?_
    rw [hr]
    simp only [Tmodel.get_epsilon_4V, Tmodel.get_epsilon_3V, Pi.pow_apply, Pi.mul_apply,
      Pi.neg_apply, Pi.add_apply, Pi.sub_apply]
    have h3 : t.C φ^6 + t.C φ^4 + t.C φ^2 + 1 ≠ 0 := by positivity
    generalize t.C φ = C at *
    fsr

theorem C03_radiongauge (g : RadionGauge) :
    IsSlowRollHierarchy {φ | PowDom φ g.p ∧ g.alpha + φ ^ g.p ≠ 0 ∧ g.V φ ≠ 0 ∧ g.dV φ ≠ 0 ∧
        g.get_epsilon_2V φ ≠ 0 ∧ g.get_epsilon_3V φ ≠ 0} g.V g.dV
      g.get_epsilon_1V g.get_epsilon_2V g.get_epsilon_3V g.get_epsilon_4V := by
  have hp : ∀ φ : ℝ, φ ≠ 0 → ∀ q, HasDerivAt (fun y : ℝ => y ^ q) (q * (φ ^ q / φ)) φ :=
    fun φ h q => hasDerivAt_rpow h q
  refine ⟨fun φ h => ?_, fun φ h => ?_, fun φ h => ?_, fun φ h => ?_⟩
  all_goals
    obtain ⟨h, hd, hV, hdV, he2, he3⟩ := h
    have hne := h.ne
    have hu := h.rpow_ne
    have hP := hp φ hne
    have hD : HasDerivAt (fun y => g.alpha + y ^ g.p) (g.p * (φ ^ g.p / φ)) φ :=
      (hP g.p).const_add g.alpha
    have hp0 : g.p ≠ 0 := by intro e; apply hdV; simp [RadionGauge.dV, e]
    have ha0 : g.alpha ≠ 0 := by intro e; apply hdV; simp [RadionGauge.dV, e]
    have hL : g.Lambda ≠ 0 := by intro e; apply hdV; simp [RadionGauge.dV, e]
    have hu2 : g.alpha + φ ^ g.p * (g.p + 1) ≠ 0 := by
      intro e; apply he2; simp [RadionGauge.get_epsilon_2V, e]
    have hu2' : g.alpha + g.p * φ ^ g.p + φ ^ g.p ≠ 0 := by
      intro e; apply hu2; linarith
    have hu3 : g.p^2*(g.alpha - φ ^ g.p) * (3*g.alpha - φ ^ g.p)
               - 3 * g.p * (g.alpha^2*g.p - g.alpha*g.p*φ ^ g.p - g.alpha*φ ^ g.p - (φ ^ g.p)^2)
               + 2 * (g.alpha + φ ^ g.p)^2 ≠ 0 := by
      intro e; apply he3; simp only [RadionGauge.get_epsilon_3V, h.two_mul, e]; simp
    have hr : g.V φ / g.dV φ = φ * (g.alpha + φ ^ g.p) / (g.alpha * g.p) := by
      simp only [RadionGauge.V, RadionGauge.dV, rpow_sub1 hne]; field_simp
    have hr' : g.dV φ / g.V φ = (g.alpha * g.p) / (φ * (g.alpha + φ ^ g.p)) := by
      rw [← inv_div, hr, inv_div]
  · rw [hr']; simp only [RadionGauge.get_epsilon_1V]; field_simp
  · refine hderiv ((hasDerivAt_const φ (g.alpha^2*g.p^2)).div
      (((hasDerivAt_pow 2 φ).const_mul 2).mul (hD.pow 2)) (by positivity)) ?_
    rw [hr]
    simp only [RadionGauge.get_epsilon_1V, RadionGauge.get_epsilon_2V, Pi.pow_apply]
    generalize φ ^ g.p = u at *
    fsr
  · refine hderiv ((((hP g.p).mul_const (g.p+1)).const_add g.alpha |>.const_mul
      (2*g.alpha*g.p)).div ((hasDerivAt_pow 2 φ).mul (hD.pow 2)) (by positivity)) ?_
    rw [hr]
    simp only [RadionGauge.get_epsilon_3V, RadionGauge.get_epsilon_2V, Pi.pow_apply, h.two_mul]
    generalize φ ^ g.p = u at *
    have e : g.alpha + g.p * u + u = g.alpha + u * (g.p + 1) := by ring
    rw [e]; clear hu2'
    generalize hN : g.alpha + u * (g.p + 1) = M at *
    field_simp
    rw [← hN]; norm_num; ring
  · have h2 : HasDerivAt (fun y : ℝ => y ^ (2 * g.p)) (2 * g.p * ((φ ^ g.p) ^ 2 / φ)) φ := by
      have := hP (2 * g.p); rwa [h.two_mul] at this
    refine hderiv ((((((((hP g.p).const_sub g.alpha).const_mul (g.p^2)).mul
        ((hP g.p).const_sub (3*g.alpha))).sub
        (((((hP g.p).const_mul (g.alpha*g.p)).const_sub (g.alpha^2*g.p)).sub
          ((hP g.p).const_mul g.alpha)).sub h2 |>.const_mul (3*g.p))).add
        ((hD.pow 2).const_mul 2)).const_mul (g.alpha*g.p)).div
      (((hasDerivAt_pow 2 φ).mul (hD.pow 2)).mul
        ((((hP g.p).const_mul g.p).const_add g.alpha).add (hP g.p)))
      (mul_ne_zero (mul_ne_zero (pow_ne_zero 2 hne) (pow_ne_zero 2 hd)) hu2')) ?_
    rw [hr]
    simp only [RadionGauge.get_epsilon_3V, RadionGauge.get_epsilon_4V, Pi.pow_apply, h.two_mul,
      h.three_mul, Pi.mul_apply, Pi.add_apply, Pi.sub_apply]
    have hfac : g.p^3 * (φ ^ g.p)^2 * (g.alpha - φ ^ g.p) * (g.alpha + φ ^ g.p)^2
              + g.p^2 * φ ^ g.p * (g.alpha - 4*φ ^ g.p) * (g.alpha + φ ^ g.p)^3
              - 5 * g.p * φ ^ g.p * (g.alpha + φ ^ g.p)^4
              - 2 * (g.alpha + φ ^ g.p)^5 =
        -((g.alpha + φ ^ g.p)^2 * (g.alpha + g.p * φ ^ g.p + φ ^ g.p) *
          (g.p^2*(g.alpha - φ ^ g.p) * (3*g.alpha - φ ^ g.p)
               - 3 * g.p * (g.alpha^2*g.p - g.alpha*g.p*φ ^ g.p - g.alpha*φ ^ g.p - (φ ^ g.p)^2)
               + 2 * (g.alpha + φ ^ g.p)^2)) := by ring
    rw [hfac]
    generalize φ ^ g.p = u at *
    clear hfac h2
    generalize hN : g.p^2*(g.alpha - u) * (3*g.alpha - u)
               - 3 * g.p * (g.alpha^2*g.p - g.alpha*g.p*u - g.alpha*u - u^2)
               + 2 * (g.alpha + u)^2 = M at *
    field_simp
    rw [← hN]; norm_num; ring

/-- The other members of the monomial family inherit the hierarchy. -/
theorem C03_linear_cubic_quartic (L : ℝ) (hL : L ≠ 0) :
    IsSlowRollHierarchy {φ | φ ≠ 0} (Linear L).V (Linear L).dV (Linear L).get_epsilon_1V
      (Linear L).get_epsilon_2V (Linear L).get_epsilon_3V (Linear L).get_epsilon_4V ∧
    IsSlowRollHierarchy {φ | φ ≠ 0} (Cubic L).V (Cubic L).dV (Cubic L).get_epsilon_1V
      (Cubic L).get_epsilon_2V (Cubic L).get_epsilon_3V (Cubic L).get_epsilon_4V ∧
    IsSlowRollHierarchy {φ | φ ≠ 0} (Quartic L).V (Quartic L).dV (Quartic L).get_epsilon_1V
      (Quartic L).get_epsilon_2V (Quartic L).get_epsilon_3V (Quartic L).get_epsilon_4V :=
  ⟨C03_monomial _ (by simp [Linear]) hL, C03_monomial _ (by simp [Cubic]) hL,
    C03_monomial _ (by simp [Quartic]) hL⟩

/-- In the hierarchy `ε_{n+1}` is determined: it is minus `V'/V` times the logarithmic derivative. -/
theorem C03_hierarchy_logderiv {dom : Set ℝ} {V dV e1 e2 e3 e4 : ℝ → ℝ}
    (h : IsSlowRollHierarchy dom V dV e1 e2 e3 e4) {φ : ℝ} (hφ : φ ∈ dom) (hV : V φ ≠ 0)
    (hdV : dV φ ≠ 0) (h1 : e1 φ ≠ 0) (h2 : e2 φ ≠ 0) (h3 : e3 φ ≠ 0) :
    e2 φ = -(dV φ / V φ) * (deriv e1 φ / e1 φ) ∧ e3 φ = -(dV φ / V φ) * (deriv e2 φ / e2 φ) ∧
      e4 φ = -(dV φ / V φ) * (deriv e3 φ / e3 φ) := by
  rw [(h.second φ hφ).deriv, (h.third φ hφ).deriv, (h.fourth φ hφ).deriv]
  refine ⟨?_, ?_, ?_⟩ <;> field_simp

/-- Feature potentials inherit the *featureless* slow-roll parameters: `ε₁V` is not `(V'/V)²/2` of
the featured potential.  Witness: dip of amplitude 1/2 and width 1 at `φ = 1`, seen at `φ = 2`. -/
theorem C03_feature_epsilon_wrong :
    (Starobinsky.mk 1).get_epsilon_1V 2 ≠
      ((StarobinskyGaussianDip 1 1 (1/2) 1).dV 2 / (StarobinskyGaussianDip 1 1 (1/2) 1).V 2)^2 / 2 := by
  have h := (C03_starobinsky ⟨1⟩ one_ne_zero).first 2 (by norm_num)
  rw [h]
  simp only [StarobinskyGaussianDip, FeaturePotential, Starobinsky.fns, GaussianDip.fns,
    GaussianDip.F, GaussianDip.dF]
  have hg : 0 < Starobinsky.gamma := sgamma_pos
  have hexp : exp (-Starobinsky.gamma * 2) < 1 := by rw [exp_lt_one_iff]; nlinarith
  have hV : 0 < (Starobinsky.mk 1).V 2 := by
    simp only [Starobinsky.V]
    have : 0 < 1 - exp (-Starobinsky.gamma * 2) := by linarith
    positivity
  have hexp' : 1 < exp (Starobinsky.gamma * 2) := by rw [one_lt_exp_iff]; nlinarith
  have hdV : 0 < (Starobinsky.mk 1).dV 2 := by
    simp only [Starobinsky.dV]
    have : 0 < exp (Starobinsky.gamma * 2) - 1 := by linarith
    positivity
  have hE0 : 0 < exp (-(2 - 1 : ℝ)^2 / (2 * 1^2)) := exp_pos _
  have hE1 : exp (-(2 - 1 : ℝ)^2 / (2 * 1^2)) < 1 := by rw [exp_lt_one_iff]; norm_num
  generalize (Starobinsky.mk 1).V 2 = V at *
  generalize (Starobinsky.mk 1).dV 2 = D at *
  generalize exp (-(2 - 1 : ℝ)^2 / (2 * 1^2)) = E at *
  have h1 : 0 < 1 + -(1/2) * E := by linarith
  have e : (D * (1 + -(1/2) * E) + V * (1/2/1^2 * (2-1) * E)) / (V * (1 + -(1/2) * E)) =
      D / V + E / (2 * (1 + -(1/2) * E)) := by
    generalize 1 + -(1/2) * E = Q at *
    field_simp; norm_num
  rw [e]
  have p1 : 0 < D / V := by positivity
  have p2 : 0 < E / (2 * (1 + -(1/2) * E)) := by positivity
  intro hh
  nlinarith

/-! ## the domains contain ordinary inflationary fields -/

example : (15 : ℝ) ∈ {φ : ℝ | φ ≠ 0} := by simp
example : (5 : ℝ) ∈ {φ | sin (π * φ / (Natural.mk 1 10).phi0) ≠ 0} := by
  show sin (π * 5 / 10) ≠ 0
  have : π * 5 / 10 = π / 2 := by ring
  rw [this, sin_pi_div_two]; exact one_ne_zero
/-- quadratic double well halfway between minimum and hill top: all conditions hold -/
example : (5 : ℝ) ∈ {φ | PowDom (1 - φ / (DoubleWell2 1 10).phi0) (DoubleWell2 1 10).p ∧
    (DoubleWell2 1 10).V φ ≠ 0 ∧ (DoubleWell2 1 10).dV φ ≠ 0 ∧
    (DoubleWell2 1 10).get_epsilon_2V φ ≠ 0 ∧ (DoubleWell2 1 10).get_epsilon_3V φ ≠ 0} := by
  have r1 : ∀ x : ℝ, x ^ ((2:ℝ) - 1) = x := fun x => by norm_num
  have r2 : ∀ x : ℝ, x ^ ((2:ℝ) * 2) = x ^ 4 := fun x => by norm_num
  refine ⟨Or.inl (by norm_num [DoubleWell2]), ?_, ?_, ?_, ?_⟩ <;>
  · simp only [DoubleWell.V, DoubleWell.dV, DoubleWell.get_epsilon_2V, DoubleWell.get_epsilon_3V,
      DoubleWell.x, DoubleWell2, r1, r2, sub_self, rpow_zero, rpow_two]
    norm_num
/-- radion gauge with `p = 2`, `alpha = 1` at `φ = 2` -/
example : (2 : ℝ) ∈ {φ | PowDom φ (RadionGauge2 1 1).p ∧ (RadionGauge2 1 1).alpha + φ ^ (RadionGauge2 1 1).p ≠ 0 ∧
    (RadionGauge2 1 1).V φ ≠ 0 ∧ (RadionGauge2 1 1).dV φ ≠ 0 ∧
    (RadionGauge2 1 1).get_epsilon_2V φ ≠ 0 ∧ (RadionGauge2 1 1).get_epsilon_3V φ ≠ 0} := by
  have r1 : ∀ x : ℝ, x ^ ((2:ℝ) - 1) = x := fun x => by norm_num
  have r2 : ∀ x : ℝ, x ^ ((2:ℝ) * 2) = x ^ 4 := fun x => by norm_num
  refine ⟨Or.inl (by norm_num), ?_, ?_, ?_, ?_, ?_⟩ <;>
  · simp only [RadionGauge.V, RadionGauge.dV, RadionGauge.get_epsilon_2V, RadionGauge.get_epsilon_3V,
      RadionGauge2, r1, r2, rpow_two]
    norm_num

end Primpy
