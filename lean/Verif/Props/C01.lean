import Verif.Model.Potentials
import Verif.Spec.Potential
import Verif.Lemmas.Pow
import Mathlib.Analysis.Calculus.Deriv.Abs
import Mathlib.Analysis.SpecialFunctions.Trigonometric.Deriv
import Mathlib.Analysis.SpecialFunctions.ExpDeriv
import Mathlib.Tactic.NormNum

/-!
# C01 — dV, d2V, d3V, d4V are the derivatives of V, for every featureless class

The domain in each theorem is exactly the set of field values where all five Python formulas return
finite numbers.
-/

namespace Primpy
open Real Spec

/-! ## helpers -/

private theorem hasDerivAt_sign {φ : ℝ} (h : φ ≠ 0) :
    HasDerivAt (fun y : ℝ => (SignType.sign y : ℝ)) 0 φ := by
  rcases lt_or_gt_of_ne h with h | h
  · have : (fun y : ℝ => (SignType.sign y : ℝ)) =ᶠ[nhds φ] fun _ => (-1 : ℝ) := by
      filter_upwards [Iio_mem_nhds h] with y hy
      simp [sign_neg (show y < 0 from hy)]
    exact (hasDerivAt_const φ (-1 : ℝ)).congr_of_eventuallyEq this
  · have : (fun y : ℝ => (SignType.sign y : ℝ)) =ᶠ[nhds φ] fun _ => (1 : ℝ) := by
      filter_upwards [Ioi_mem_nhds h] with y hy
      simp [sign_pos (show 0 < y from hy)]
    exact (hasDerivAt_const φ (1 : ℝ)).congr_of_eventuallyEq this

private theorem sign_sq {φ : ℝ} (h : φ ≠ 0) : ((SignType.sign φ : ℝ)) ^ 2 = 1 := by
  rcases lt_or_gt_of_ne h with h | h
  · simp [sign_neg h]
  · simp [sign_pos h]

private theorem abs_eq_sign_mul {φ : ℝ} : |φ| = (SignType.sign φ : ℝ) * φ := by
  rw [sign_mul_self]

private theorem hasDerivAt_abs_rpow {φ : ℝ} (h : φ ≠ 0) (q : ℝ) :
    HasDerivAt (fun y : ℝ => |y| ^ q) (q * (|φ| ^ q / |φ|) * (SignType.sign φ : ℝ)) φ :=
  (hasDerivAt_rpow (abs_ne_zero.mpr h) q).comp φ (hasDerivAt_abs h)

/-! ## Monomial family -/

theorem C01_monomial (m : Monomial) :
    IsDerivChain {φ | φ ≠ 0} m.V m.dV m.d2V m.d3V m.d4V := by
  have key : ∀ φ : ℝ, φ ≠ 0 → |φ| ≠ 0 := fun φ h => abs_ne_zero.mpr h
  refine ⟨fun φ (h : φ ≠ 0) => ?_, fun φ (h : φ ≠ 0) => ?_, fun φ (h : φ ≠ 0) => ?_,
    fun φ (h : φ ≠ 0) => ?_⟩
  · have := (hasDerivAt_abs_rpow h m.p).const_mul (m.Lambda^4)
    refine hderiv (this) ?_
    simp only [Monomial.dV, rpow_sub1 (key φ h)]; ring
  · have := ((hasDerivAt_abs_rpow h (m.p-1)).const_mul (m.Lambda^4 * m.p)).mul (hasDerivAt_sign h)
    refine hderiv (this) ?_
    have hs := sign_sq h
    simp only [Monomial.d2V, rpow_sub1 (key φ h)]
    have e : φ^2 = |φ|^2 := (sq_abs φ).symm
    have := key φ h
    rw [e]; field_simp; rw [hs]; ring
  · have h1 := ((hasDerivAt_abs_rpow h m.p).const_mul (m.Lambda^4 * m.p * (m.p-1))).div
      ((hasDerivAt_pow 2 φ)) (pow_ne_zero 2 h)
    refine hderiv (h1) ?_
    have hs := sign_sq h
    simp only [Monomial.d3V, rpow_sub3 (key φ h)]
    have := key φ h
    rcases lt_or_gt_of_ne h with h' | h'
    · simp only [sign_neg h', abs_of_neg h', SignType.coe_neg_one]
      simp only [Nat.cast_ofNat, Nat.add_one_sub_one, pow_one, Nat.reduceSub]
      field_simp; ring
    · simp only [sign_pos h', abs_of_pos h', SignType.coe_one]
      simp only [Nat.cast_ofNat, Nat.add_one_sub_one, pow_one, Nat.reduceSub]
      field_simp; ring
  · have := ((hasDerivAt_abs_rpow h (m.p-3)).const_mul
      (m.Lambda^4 * m.p * (m.p^2 - 3*m.p + 2))).mul (hasDerivAt_sign h)
    refine hderiv (this) ?_
    have hs := sign_sq h
    simp only [Monomial.d4V, rpow_sub4 (key φ h), rpow_sub3 (key φ h)]
    have := key φ h
    field_simp; rw [hs]; ring

/-- At the minimum `φ = 0` (where `d2V` and higher are `0/0` or infinite in Python) `dV` still is
the derivative of `V` for every `p > 1`; the equations of motion use nothing else. -/
theorem C01_monomial_at_zero (m : Monomial) (hp : 1 < m.p) : HasDerivAt m.V (m.dV 0) 0 := by
  have h0 : m.dV 0 = 0 := by simp [Monomial.dV]
  rw [h0]
  have hr : HasDerivAt (fun y : ℝ => |y| ^ m.p) 0 0 := by
    rw [hasDerivAt_iff_isLittleO_nhds_zero]
    have h1 := Real.hasDerivAt_rpow_const (x := 0) (p := m.p) (Or.inr hp.le)
    rw [hasDerivAt_iff_isLittleO_nhds_zero] at h1
    have e0 : (0:ℝ) ^ (m.p - 1) = 0 := Real.zero_rpow (by linarith)
    simp only [zero_add, e0, mul_zero, smul_zero, sub_zero,
      Real.zero_rpow (by linarith : m.p ≠ 0), abs_zero] at h1 ⊢
    have ht : Filter.Tendsto (fun h : ℝ => |h|) (nhds 0) (nhds 0) := by
      simpa using (continuous_abs.tendsto (0:ℝ))
    have h2 := h1.comp_tendsto ht
    simp only [Function.comp_def] at h2
    exact h2.trans_isBigO (Asymptotics.isBigO_of_le _ (fun x => by simp))
  exact hderiv (hr.const_mul (m.Lambda^4)) (by simp)

/-- `LinearPotential`, `CubicPotential`, `QuarticPotential`. -/
theorem C01_linear_cubic_quartic (L : ℝ) :
    IsDerivChain {φ | φ ≠ 0} (Linear L).V (Linear L).dV (Linear L).d2V (Linear L).d3V (Linear L).d4V ∧
    IsDerivChain {φ | φ ≠ 0} (Cubic L).V (Cubic L).dV (Cubic L).d2V (Cubic L).d3V (Cubic L).d4V ∧
    IsDerivChain {φ | φ ≠ 0} (Quartic L).V (Quartic L).dV (Quartic L).d2V (Quartic L).d3V
      (Quartic L).d4V :=
  ⟨C01_monomial _, C01_monomial _, C01_monomial _⟩

theorem C01_quadratic (q : Quadratic) :
    IsDerivChain Set.univ q.V q.dV q.d2V q.d3V q.d4V := by
  refine ⟨fun φ _ => ?_, fun φ _ => ?_, fun φ _ => ?_, fun φ _ => ?_⟩
  · refine hderiv ((hasDerivAt_pow 2 φ).const_mul (q.Lambda^4)) ?_
    simp [Quadratic.dV]; ring
  · refine hderiv ((hasDerivAt_id φ).const_mul (2 * q.Lambda^4)) ?_
    simp [Quadratic.d2V]
  · exact hasDerivAt_const φ _
  · exact hasDerivAt_const φ _

/-! ## Starobinsky -/

private theorem hasDerivAt_exp_mul (c φ : ℝ) :
    HasDerivAt (fun y : ℝ => exp (c * y)) (exp (c * φ) * c) φ := by
  simpa using ((hasDerivAt_id φ).const_mul c).exp

theorem C01_starobinsky (s : Starobinsky) :
    IsDerivChain Set.univ s.V s.dV s.d2V s.d3V s.d4V := by
  set g := Starobinsky.gamma with hg
  have e2 : ∀ φ, exp (-2 * g * φ) = exp (-g * φ) ^ 2 := fun φ => by
    rw [← exp_nat_mul]; congr 1; push_cast; ring
  have e1 : ∀ φ, exp (g * φ) * exp (-g * φ) = 1 := fun φ => by
    rw [← exp_add]; simp
  have hA := fun φ => hasDerivAt_exp_mul g φ
  have hB := fun φ => hasDerivAt_exp_mul (-2 * g) φ
  refine ⟨fun φ _ => ?_, fun φ _ => ?_, fun φ _ => ?_, fun φ _ => ?_⟩
  · have := (((hasDerivAt_exp_mul (-g) φ).const_sub 1).pow 2).const_mul (s.Lambda^4)
    refine hderiv (this) ?_
    simp only [Starobinsky.dV, ← hg, e2]
    have h1 := e1 φ
    linear_combination (2 * s.Lambda^4 * g * exp (-g * φ)) * h1
  · have := ((hB φ).const_mul (s.Lambda^4 * 2 * g)).mul ((hA φ).sub_const 1)
    refine hderiv (this) ?_
    simp only [Starobinsky.d2V, ← hg]; ring
  · have := ((hB φ).const_mul (s.Lambda^4 * 2 * g^2)).mul ((hA φ).const_sub 2)
    refine hderiv (this) ?_
    simp only [Starobinsky.d3V, ← hg]; ring
  · have := ((hB φ).const_mul (s.Lambda^4 * 2 * g^3)).mul ((hA φ).sub_const 4)
    refine hderiv (this) ?_
    simp only [Starobinsky.d4V, ← hg]; ring

/-! ## Natural -/

theorem C01_natural (n : Natural) :
    IsDerivChain Set.univ n.V n.dV n.d2V n.d3V n.d4V := by
  have hl : ∀ φ, HasDerivAt (fun y : ℝ => π * y / n.phi0) (π / n.phi0) φ := fun φ => by
    simpa using ((hasDerivAt_id φ).const_mul π).div_const n.phi0
  refine ⟨fun φ _ => ?_, fun φ _ => ?_, fun φ _ => ?_, fun φ _ => ?_⟩
  · refine hderiv (((hl φ).cos.const_sub 1).const_mul (n.Lambda^4 / 2)) ?_
    simp only [Natural.dV]; ring
  · refine hderiv ((((hl φ).sin.const_mul (n.Lambda^4 / 2)).mul_const π).div_const n.phi0) ?_
    simp only [Natural.d2V]; ring
  · refine hderiv (((hl φ).cos.const_mul (n.Lambda^4 / 2)).mul_const ((π / n.phi0)^2)) ?_
    simp only [Natural.d3V]; ring
  · refine hderiv (((hl φ).sin.const_mul (-n.Lambda^4 / 2)).mul_const ((π / n.phi0)^3)) ?_
    simp only [Natural.d4V]; ring

/-! ## Double well -/

theorem C01_doublewell (d : DoubleWell) (h0 : d.phi0 ≠ 0) :
    IsDerivChain {φ | PowDom (1 - φ / d.phi0) d.p} d.V d.dV d.d2V d.d3V d.d4V := by
  have hx : ∀ φ, HasDerivAt d.x (-(1 / d.phi0)) φ := fun φ => by
    exact ((hasDerivAt_id φ).div_const d.phi0).const_sub 1
  have hp : ∀ φ, d.x φ ≠ 0 → ∀ q, HasDerivAt (fun y => d.x y ^ q)
      (q * (d.x φ ^ q / d.x φ) * (-(1 / d.phi0))) φ :=
    fun φ hne q => (hasDerivAt_rpow hne q).comp φ (hx φ)
  refine ⟨fun φ h => ?_, fun φ h => ?_, fun φ h => ?_, fun φ h => ?_⟩
  all_goals
    have h : PowDom (d.x φ) d.p := h
    have hne := h.ne
    have hP := hp φ hne
  · refine hderiv ((((hP d.p).const_sub 1).pow 2).const_mul (d.Lambda^4)) ?_
    simp only [DoubleWell.dV, rpow_sub1 hne]
    simp only [Nat.cast_ofNat, Nat.add_one_sub_one, pow_one, Nat.reduceSub]
    field_simp
  · refine hderiv ((((hP (d.p-1)).const_mul (d.Lambda^4 * 2 * d.p)).div_const d.phi0).mul
      ((hP d.p).const_sub 1)) ?_
    simp only [DoubleWell.d2V, rpow_sub1 hne, rpow_sub2 hne]
    field_simp; ring
  · refine hderiv ((((hP (d.p-2)).const_mul (d.Lambda^4 * 2 * d.p)).div_const (d.phi0^2)).mul
      ((((hP d.p).mul_const (2*d.p - 1)).const_add (-d.p)).add_const 1)) ?_
    simp only [DoubleWell.d3V, rpow_sub2 hne, rpow_sub3 hne]
    field_simp; ring
  · refine hderiv ((((hP (d.p-3)).const_mul (d.Lambda^4 * 2 * d.p)).div_const (d.phi0^3)).mul
      ((((hP d.p).mul_const (-4*d.p^2 + 6*d.p - 2)).const_add (d.p^2 - 3*d.p)).add_const 2)) ?_
    simp only [DoubleWell.d4V, rpow_sub3 hne, rpow_sub4 hne]
    field_simp; ring

/-- The quadratic and quartic double wells, on both sides of the hill top `φ = φ0`. -/
theorem C01_doublewell2_4 (L phi0 : ℝ) (h0 : phi0 ≠ 0) :
    IsDerivChain {φ | φ ≠ phi0} (DoubleWell2 L phi0).V (DoubleWell2 L phi0).dV
      (DoubleWell2 L phi0).d2V (DoubleWell2 L phi0).d3V (DoubleWell2 L phi0).d4V ∧
    IsDerivChain {φ | φ ≠ phi0} (DoubleWell4 L phi0).V (DoubleWell4 L phi0).dV
      (DoubleWell4 L phi0).d2V (DoubleWell4 L phi0).d3V (DoubleWell4 L phi0).d4V := by
  have ne : ∀ φ, φ ≠ phi0 → 1 - φ / phi0 ≠ 0 := fun φ h e => h (by
    field_simp at e; linarith)
  have d2 : ∀ φ, φ ≠ phi0 → PowDom (1 - φ / (DoubleWell2 L phi0).phi0) (DoubleWell2 L phi0).p :=
    fun φ h => Or.inr ⟨ne φ h, 2, by simp [DoubleWell2]⟩
  have d4 : ∀ φ, φ ≠ phi0 → PowDom (1 - φ / (DoubleWell4 L phi0).phi0) (DoubleWell4 L phi0).p :=
    fun φ h => Or.inr ⟨ne φ h, 4, by simp [DoubleWell4]⟩
  have c2 := C01_doublewell (DoubleWell2 L phi0) h0
  have c4 := C01_doublewell (DoubleWell4 L phi0) h0
  exact ⟨⟨fun φ h => c2.d1 φ (d2 φ h), fun φ h => c2.d2 φ (d2 φ h), fun φ h => c2.d3 φ (d2 φ h),
      fun φ h => c2.d4 φ (d2 φ h)⟩,
    ⟨fun φ h => c4.d1 φ (d4 φ h), fun φ h => c4.d2 φ (d4 φ h), fun φ h => c4.d3 φ (d4 φ h),
      fun φ h => c4.d4 φ (d4 φ h)⟩⟩

/-! ## T-model -/

theorem C01_tmodel (t : Tmodel) (ha : 0 < t.alpha) :
    IsDerivChain {φ | PowDom (tanh (φ / √(6 * t.alpha))) (2 * t.p)}
      t.V t.dV t.d2V t.d3V t.d4V := by
  have hs : t.s_6_a ≠ 0 := by
    simp only [Tmodel.s_6_a]; exact (sqrt_pos.mpr (by linarith)).ne'
  have hx : ∀ φ, HasDerivAt t.C ((1 - t.C φ ^ 2) * (1 / t.s_6_a)) φ := fun φ =>
    (hasDerivAt_tanh (φ / t.s_6_a)).comp φ (by simpa using (hasDerivAt_id φ).div_const t.s_6_a)
  have hp : ∀ φ, t.C φ ≠ 0 → ∀ q, HasDerivAt (fun y => t.C y ^ q)
      (q * (t.C φ ^ q / t.C φ) * ((1 - t.C φ ^ 2) * (1 / t.s_6_a))) φ :=
    fun φ hne q => (hasDerivAt_rpow hne q).comp φ (hx φ)
  refine ⟨fun φ h => ?_, fun φ h => ?_, fun φ h => ?_, fun φ h => ?_⟩
  all_goals
    have h : PowDom (t.C φ) (2 * t.p) := h
    have hne := h.ne
    have hP := hp φ hne
  · refine hderiv ((hP (2*t.p)).const_mul (t.Lambda^4)) ?_
    simp only [Tmodel.dV, rpow_sub1 hne, rpow_add1 hne]
    field_simp
  · refine hderiv (((hP (2*t.p-1)).sub (hP (2*t.p+1))).const_mul (2 * (t.p * t.Lambda^4 / t.s_6_a))) ?_
    simp only [Tmodel.d2V, rpow_sub1 hne, rpow_sub2 hne, rpow_add1 hne, rpow_add2 hne, add_zero]
    field_simp; ring
  · refine hderiv (((((hP (2*t.p-2)).mul_const (2*t.p-1)).sub
      (((hP (2*t.p+0)).mul_const 4).mul_const t.p)).add
      ((hP (2*t.p+2)).mul_const (2*t.p+1))).const_mul (2 * t.p * t.Lambda^4 / t.s_6_a^2)) ?_
    simp only [Tmodel.d3V, rpow_sub1 hne, rpow_sub2 hne, rpow_sub3 hne, rpow_add1 hne,
      rpow_add2 hne, rpow_add3 hne, add_zero]
    field_simp; ring
  · refine hderiv ((((((hP (2*t.p-3)).mul_const (2*t.p^2 - 3*t.p + 1)).add
      ((hP (2*t.p-1)).mul_const (-6*t.p^2 + 3*t.p - 1))).add
      ((hP (2*t.p+1)).mul_const (6*t.p^2 + 3*t.p + 1))).add
      ((hP (2*t.p+3)).mul_const (-2*t.p^2 - 3*t.p - 1))).const_mul
        (4 * t.p * t.Lambda^4 / t.s_6_a^3)) ?_
    simp only [Tmodel.d4V, rpow_sub1 hne, rpow_sub2 hne, rpow_sub3 hne, rpow_sub4 hne,
      rpow_add1 hne, rpow_add2 hne, rpow_add3 hne, rpow_add4 hne, add_zero]
    field_simp; ring

/-! ## Radion gauge -/

theorem C01_radiongauge (g : RadionGauge) :
    IsDerivChain {φ | PowDom φ g.p ∧ g.alpha + φ ^ g.p ≠ 0} g.V g.dV g.d2V g.d3V g.d4V := by
  have hp : ∀ φ : ℝ, φ ≠ 0 → ∀ q, HasDerivAt (fun y : ℝ => y ^ q) (q * (φ ^ q / φ)) φ :=
    fun φ h q => hasDerivAt_rpow h q
  refine ⟨fun φ h => ?_, fun φ h => ?_, fun φ h => ?_, fun φ h => ?_⟩
  all_goals
    obtain ⟨h, hd⟩ := h
    have hne := h.ne
    have hP := hp φ hne
    have hD : HasDerivAt (fun y => g.alpha + y ^ g.p) (g.p * (φ ^ g.p / φ)) φ :=
      (hP g.p).const_add g.alpha
  · refine hderiv (((hP g.p).const_mul (g.Lambda^4)).div hD hd) ?_
    simp only [RadionGauge.dV, rpow_sub1 hne]
    field_simp; ring
  · refine hderiv (((hP (g.p-1)).const_mul (g.Lambda^4 * g.alpha * g.p)).div (hD.pow 2)
      (pow_ne_zero 2 hd)) ?_
    simp only [RadionGauge.d2V, rpow_sub1 hne, rpow_sub2 hne, Pi.pow_apply]
    field_simp; ring
  · refine hderiv ((((hP (g.p-2)).const_mul (g.Lambda^4 * g.alpha * g.p)).mul
      ((((hP g.p).const_mul g.p).const_sub (g.alpha * g.p - g.alpha)).sub (hP g.p))).div (hD.pow 3)
      (pow_ne_zero 3 hd)) ?_
    simp only [RadionGauge.d3V, rpow_sub3 hne, rpow_sub2 hne, h.two_mul, Pi.pow_apply, Pi.mul_apply,
      Pi.sub_apply]
    field_simp; ring
  · have h2 : HasDerivAt (fun y : ℝ => y ^ (2 * g.p)) (2 * g.p * ((φ ^ g.p) ^ 2 / φ)) φ := by
      have := hP (2 * g.p); rwa [h.two_mul] at this
    refine hderiv ((((hP (g.p-3)).const_mul (g.Lambda^4 * g.alpha * g.p)).mul
      ((((((hP g.p).const_mul (4*g.alpha)).const_sub (g.alpha^2)).add h2).const_mul (g.p^2)).sub
        ((((hP g.p).const_sub g.alpha).const_mul (3*g.p)).mul hD) |>.add
        ((hD.pow 2).const_mul 2))).div (hD.pow 4) (pow_ne_zero 4 hd)) ?_
    simp only [RadionGauge.d4V, rpow_sub3 hne, rpow_sub4 hne, h.two_mul, Pi.pow_apply, Pi.mul_apply,
      Pi.sub_apply, Pi.add_apply]
    field_simp; ring

/-- `RadionGauge2Potential` for positive `alpha`, at positive and negative fields. -/
theorem C01_radiongauge2 (L alpha : ℝ) (ha : 0 < alpha) :
    IsDerivChain {φ | φ ≠ 0} (RadionGauge2 L alpha).V (RadionGauge2 L alpha).dV
      (RadionGauge2 L alpha).d2V (RadionGauge2 L alpha).d3V (RadionGauge2 L alpha).d4V := by
  have hd : ∀ φ : ℝ, φ ≠ 0 → PowDom φ (RadionGauge2 L alpha).p ∧
      (RadionGauge2 L alpha).alpha + φ ^ (RadionGauge2 L alpha).p ≠ 0 := by
    intro φ h
    refine ⟨Or.inr ⟨h, 2, by simp [RadionGauge2]⟩, ?_⟩
    simp only [RadionGauge2]
    have : φ ^ (2:ℝ) = φ ^ 2 := by norm_cast
    rw [this]; positivity
  have c := C01_radiongauge (RadionGauge2 L alpha)
  exact ⟨fun φ h => c.d1 φ (hd φ h), fun φ h => c.d2 φ (hd φ h), fun φ h => c.d3 φ (hd φ h),
    fun φ h => c.d4 φ (hd φ h)⟩

/-! ## the domains are inhabited by ordinary inflationary fields -/

example : (15 : ℝ) ∈ {φ : ℝ | φ ≠ 0} := by simp
example : (-15 : ℝ) ∈ {φ : ℝ | φ ≠ 0} := by norm_num
example : (3 : ℝ) ∈ {φ | PowDom (1 - φ / (DoubleWell.mk 1 10 2.5).phi0) (DoubleWell.mk 1 10 2.5).p} :=
  Or.inl (by norm_num)
example : (5 : ℝ) ∈ {φ | PowDom (tanh (φ / √(6 * (Tmodel.mk 1 0.7 1).alpha))) (2 * (Tmodel.mk 1 0.7 1).p)} := by
  left
  rw [tanh_eq_sinh_div_cosh]
  exact div_pos (sinh_pos_iff.mpr (div_pos (by norm_num) (sqrt_pos.mpr (by norm_num)))) (cosh_pos _)
example : (5 : ℝ) ∈ {φ | PowDom φ (RadionGauge.mk 1 0.7 1).p ∧
    (RadionGauge.mk 1 0.7 1).alpha + φ ^ (RadionGauge.mk 1 0.7 1).p ≠ 0} :=
  ⟨Or.inl (by norm_num), by
    have : (0:ℝ) < 5 ^ (0.7:ℝ) := rpow_pos_of_pos (by norm_num) _
    simp only; positivity⟩

end Primpy
