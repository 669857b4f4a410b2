import Verif.Props.C01
import Mathlib.Analysis.Calculus.MeanValue

/-!
# C02 — feature potentials

`dV, d2V, d3V` of a feature potential are the derivatives of the featured `V`, for any base class
and any feature function with a correct chain; instantiated for the two shipped classes.
`d4V` is inherited from the featureless base class: it is not the derivative of `d3V`, for *every*
non-trivial feature (`C02_gaussian_d4V_wrong`, `C02_tanh_d4V_wrong`).
-/

namespace Primpy
open Real Spec

theorem C02_feature_chain_partial (dom : Set ℝ) (base : PotFns) (f : FeatureFns)
    (b1 : IsDerivOn dom base.V base.dV) (b2 : IsDerivOn dom base.dV base.d2V)
    (b3 : IsDerivOn dom base.d2V base.d3V)
    (f1 : IsDerivOn dom f.F f.dF) (f2 : IsDerivOn dom f.dF f.d2F)
    (f3 : IsDerivOn dom f.d2F f.d3F) :
    IsDerivOn dom (FeaturePotential base f).V (FeaturePotential base f).dV ∧
    IsDerivOn dom (FeaturePotential base f).dV (FeaturePotential base f).d2V ∧
    IsDerivOn dom (FeaturePotential base f).d2V (FeaturePotential base f).d3V := by
  refine ⟨fun φ h => ?_, fun φ h => ?_, fun φ h => ?_⟩
  · exact hderiv ((b1 φ h).mul ((f1 φ h).const_add 1)) (by simp [FeaturePotential])
  · refine hderiv (((b2 φ h).mul ((f1 φ h).const_add 1)).add ((b1 φ h).mul (f2 φ h))) ?_
    simp only [FeaturePotential]; ring
  · refine hderiv ((((b3 φ h).mul ((f1 φ h).const_add 1)).add
      (((b2 φ h).const_mul 2).mul (f2 φ h))).add ((b1 φ h).mul (f3 φ h))) ?_
    simp only [FeaturePotential]; ring

private theorem gauss_inner (x0 b φ : ℝ) :
    HasDerivAt (fun x : ℝ => -(x - x0)^2 / (2 * b^2)) (-(2 * (φ - x0)) / (2 * b^2)) φ := by
  have := ((((hasDerivAt_id φ).sub_const x0).pow 2).neg).div_const (2 * b^2)
  exact hderiv this (by simp)

private theorem lin (x0 φ : ℝ) : HasDerivAt (fun x : ℝ => x - x0) 1 φ :=
  (hasDerivAt_id φ).sub_const x0

theorem C02_gaussian_feature (x0 a b : ℝ) (hb : b ≠ 0) :
    IsDerivOn Set.univ (GaussianDip.fns x0 a b).F (GaussianDip.fns x0 a b).dF ∧
    IsDerivOn Set.univ (GaussianDip.fns x0 a b).dF (GaussianDip.fns x0 a b).d2F ∧
    IsDerivOn Set.univ (GaussianDip.fns x0 a b).d2F (GaussianDip.fns x0 a b).d3F := by
  refine ⟨fun φ _ => ?_, fun φ _ => ?_, fun φ _ => ?_⟩
  · refine hderiv ((gauss_inner x0 b φ).exp.const_mul (-a)) ?_
    simp only [GaussianDip.fns, GaussianDip.dF]; field_simp
  · refine hderiv (((lin x0 φ).const_mul (a / b^2)).mul (gauss_inner x0 b φ).exp) ?_
    simp only [GaussianDip.fns, GaussianDip.d2F]; field_simp; ring
  · refine hderiv (((((lin x0 φ).pow 2).const_sub (b^2)).const_mul (a / b^4)).mul
      (gauss_inner x0 b φ).exp) ?_
    simp only [GaussianDip.fns, GaussianDip.d3F, Pi.pow_apply]; field_simp; ring

private theorem tanh_inner (x0 b φ : ℝ) :
    HasDerivAt (fun x : ℝ => tanh ((x - x0) / b)) ((1 - tanh ((φ - x0) / b)^2) * (1 / b)) φ :=
  (hasDerivAt_tanh _).comp φ ((lin x0 φ).div_const b)

theorem C02_tanh_feature (x0 a b : ℝ) (hb : b ≠ 0) :
    IsDerivOn Set.univ (TanhStep.fns x0 a b).F (TanhStep.fns x0 a b).dF ∧
    IsDerivOn Set.univ (TanhStep.fns x0 a b).dF (TanhStep.fns x0 a b).d2F ∧
    IsDerivOn Set.univ (TanhStep.fns x0 a b).d2F (TanhStep.fns x0 a b).d3F := by
  refine ⟨fun φ _ => ?_, fun φ _ => ?_, fun φ _ => ?_⟩
  · refine hderiv ((tanh_inner x0 b φ).const_mul a) ?_
    simp only [TanhStep.fns, TanhStep.dF]; field_simp
  · refine hderiv (((((tanh_inner x0 b φ).pow 2).const_sub 1).const_mul (a / b))) ?_
    simp only [TanhStep.fns, TanhStep.d2F]; field_simp; norm_num; ring
  · refine hderiv (((tanh_inner x0 b φ).const_mul (-2 * a / b^2)).mul
      (((tanh_inner x0 b φ).pow 2).const_sub 1)) ?_
    simp only [TanhStep.fns, TanhStep.d3F, Pi.pow_apply]; field_simp; ring

/-- `StarobinskyGaussianDipPotential`: `dV, d2V, d3V` are right everywhere. -/
theorem C02_starobinsky_gaussian_partial (L x0 a b : ℝ) (hb : b ≠ 0) :
    let P := StarobinskyGaussianDip L x0 a b
    IsDerivOn Set.univ P.V P.dV ∧ IsDerivOn Set.univ P.dV P.d2V ∧ IsDerivOn Set.univ P.d2V P.d3V :=
  let c := C01_starobinsky ⟨L⟩
  let f := C02_gaussian_feature x0 a b hb
  C02_feature_chain_partial _ _ _ c.d1 c.d2 c.d3 f.1 f.2.1 f.2.2

/-- `StarobinskyTanhStepPotential`: `dV, d2V, d3V` are right everywhere. -/
theorem C02_starobinsky_tanh_partial (L x0 a b : ℝ) (hb : b ≠ 0) :
    let P := StarobinskyTanhStep L x0 a b
    IsDerivOn Set.univ P.V P.dV ∧ IsDerivOn Set.univ P.dV P.d2V ∧ IsDerivOn Set.univ P.d2V P.d3V :=
  let c := C01_starobinsky ⟨L⟩
  let f := C02_tanh_feature x0 a b hb
  C02_feature_chain_partial _ _ _ c.d1 c.d2 c.d3 f.1 f.2.1 f.2.2

/-! ## the inherited d4V is wrong for every non-trivial feature -/

private theorem const_of_deriv_zero {f : ℝ → ℝ} (h : ∀ x, HasDerivAt f 0 x) (x : ℝ) : f x = f 0 :=
  is_const_of_deriv_eq_zero (fun x => (h x).differentiableAt) (fun x => (h x).deriv) x 0

/-- A function whose fourth derivative vanishes is a cubic. -/
private theorem cubic_of_d4_zero {g g1 g2 g3 : ℝ → ℝ} (h1 : ∀ x, HasDerivAt g (g1 x) x)
    (h2 : ∀ x, HasDerivAt g1 (g2 x) x) (h3 : ∀ x, HasDerivAt g2 (g3 x) x)
    (h4 : ∀ x, HasDerivAt g3 0 x) (x : ℝ) :
    g x = g 0 + g1 0 * x + g2 0 / 2 * x^2 + g3 0 / 6 * x^3 := by
  have e3 : ∀ x, g3 x = g3 0 := const_of_deriv_zero h4
  have e2 : ∀ x, g2 x = g2 0 + g3 0 * x := by
    intro x
    have := const_of_deriv_zero (f := fun x => g2 x - g3 0 * x) (fun x => by
      refine hderiv ((h3 x).sub ((hasDerivAt_id x).const_mul (g3 0))) ?_
      rw [e3 x]; ring) x
    simp only [mul_zero, sub_zero] at this; linarith
  have e1 : ∀ x, g1 x = g1 0 + g2 0 * x + g3 0 / 2 * x^2 := by
    intro x
    have := const_of_deriv_zero (f := fun x => g1 x - (g2 0 * x + g3 0 / 2 * x^2)) (fun x => by
      refine hderiv ((h2 x).sub (((hasDerivAt_id x).const_mul (g2 0)).add
        ((hasDerivAt_pow 2 x).const_mul (g3 0 / 2)))) ?_
      rw [e2 x]; simp; ring) x
    have h0 : g2 0 * 0 + g3 0 / 2 * 0^2 = 0 := by ring
    simp only [h0] at this; linarith
  have := const_of_deriv_zero (f := fun x => g x - (g1 0 * x + g2 0 / 2 * x^2 + g3 0 / 6 * x^3))
    (fun x => by
      refine hderiv ((h1 x).sub ((((hasDerivAt_id x).const_mul (g1 0)).add
        ((hasDerivAt_pow 2 x).const_mul (g2 0 / 2))).add
        ((hasDerivAt_pow 3 x).const_mul (g3 0 / 6)))) ?_
      rw [e1 x]; simp; ring) x
  have h0 : g1 0 * 0 + g2 0 / 2 * 0^2 + g3 0 / 6 * 0^3 = 0 := by ring
  simp only [h0] at this; linarith

private theorem lin_bdd {c M : ℝ} (h : ∀ x, 0 ≤ x → |c * x| ≤ M) : c = 0 := by
  by_contra hc
  have hM : 0 ≤ M := (abs_nonneg _).trans (h 0 le_rfl)
  have := h ((M + 1) / |c|) (by positivity)
  rw [abs_mul, abs_of_nonneg (show 0 ≤ (M+1)/|c| by positivity)] at this
  have hcp : 0 < |c| := abs_pos.mpr hc
  have e : |c| * ((M + 1) / |c|) = M + 1 := by field_simp
  linarith

/-- A cubic bounded on the positive axis is constant. -/
private theorem bounded_cubic {c0 c1 c2 c3 M : ℝ}
    (h : ∀ x, 0 ≤ x → |c0 + c1 * x + c2 * x^2 + c3 * x^3| ≤ M) : c1 = 0 ∧ c2 = 0 ∧ c3 = 0 := by
  have h0 := abs_le.mp (h 0 le_rfl)
  have h3 : c3 = 0 := by
    have : 6 * c3 = 0 := lin_bdd (M := 8 * M) (fun y hy => by
      have k1 := abs_le.mp (h (y+1) (by linarith))
      have k2 := abs_le.mp (h (2*(y+1)) (by linarith))
      have k3 := abs_le.mp (h (3*(y+1)) (by linarith))
      have hb : |6 * c3 * (y+1)^3| ≤ 8 * M := by
        rw [abs_le]; constructor <;> nlinarith
      refine le_trans ?_ hb
      rw [abs_mul, abs_mul (6 * c3)]
      refine mul_le_mul_of_nonneg_left ?_ (abs_nonneg _)
      rw [abs_of_nonneg hy, abs_of_nonneg (by positivity)]
      nlinarith [pow_nonneg hy 3, pow_nonneg hy 2])
    linarith
  subst h3
  have h2 : c2 = 0 := by
    have : 2 * c2 = 0 := lin_bdd (M := 4 * M) (fun y hy => by
      have k1 := abs_le.mp (h (y+1) (by linarith))
      have k2 := abs_le.mp (h (2*(y+1)) (by linarith))
      have hb : |2 * c2 * (y+1)^2| ≤ 4 * M := by
        rw [abs_le]; constructor <;> nlinarith
      refine le_trans ?_ hb
      rw [abs_mul, abs_mul (2 * c2)]
      refine mul_le_mul_of_nonneg_left ?_ (abs_nonneg _)
      rw [abs_of_nonneg hy, abs_of_nonneg (by positivity)]
      nlinarith [pow_nonneg hy 2])
    linarith
  subst h2
  have h1 : c1 = 0 := lin_bdd (M := 2 * M) (fun y hy => by
      have k1 := abs_le.mp (h y hy)
      rw [abs_le]; constructor <;> nlinarith)
  exact ⟨h1, rfl, rfl⟩

/-- If a bounded-on-`[0,∞)` feature product `V₀ F` with `V₀ 0 = 0` contributed nothing to the fourth
derivative, it would vanish identically. -/
private theorem feature_trivial {base : PotFns} {f : FeatureFns}
    (b : IsDerivChain Set.univ base.V base.dV base.d2V base.d3V base.d4V)
    (f1 : IsDerivOn Set.univ f.F f.dF) (f2 : IsDerivOn Set.univ f.dF f.d2F)
    (f3 : IsDerivOn Set.univ f.d2F f.d3F)
    (hd4 : IsDerivOn Set.univ (FeaturePotential base f).d3V (FeaturePotential base f).d4V)
    (h0 : base.V 0 = 0) (M : ℝ) (hM : ∀ x, 0 ≤ x → |base.V x * f.F x| ≤ M) (x : ℝ) :
    base.V x * f.F x = 0 := by
  have c := C02_feature_chain_partial Set.univ base f b.d1 b.d2 b.d3 f1 f2 f3
  have e1 : ∀ x, HasDerivAt (fun x => (FeaturePotential base f).V x - base.V x)
      ((FeaturePotential base f).dV x - base.dV x) x := fun x => (c.1 x trivial).sub (b.d1 x trivial)
  have e2 : ∀ x, HasDerivAt (fun x => (FeaturePotential base f).dV x - base.dV x)
      ((FeaturePotential base f).d2V x - base.d2V x) x :=
    fun x => (c.2.1 x trivial).sub (b.d2 x trivial)
  have e3 : ∀ x, HasDerivAt (fun x => (FeaturePotential base f).d2V x - base.d2V x)
      ((FeaturePotential base f).d3V x - base.d3V x) x :=
    fun x => (c.2.2 x trivial).sub (b.d3 x trivial)
  have e4 : ∀ x, HasDerivAt (fun x => (FeaturePotential base f).d3V x - base.d3V x) 0 x :=
    fun x => hderiv ((hd4 x trivial).sub (b.d4 x trivial)) (by simp [FeaturePotential])
  have hc := cubic_of_d4_zero e1 e2 e3 e4
  have eV : ∀ x, (FeaturePotential base f).V x - base.V x = base.V x * f.F x := fun x => by
    simp only [FeaturePotential]; ring
  simp only [eV] at hc
  have := bounded_cubic (fun y hy => by rw [← hc y]; exact hM y hy)
  rw [hc x, this.1, this.2.1, this.2.2, h0]; ring

private theorem starobinsky_zero (L : ℝ) : (Starobinsky.mk L).fns.V 0 = 0 := by
  simp [Starobinsky.fns, Starobinsky.V]

private theorem gamma_pos : 0 < Starobinsky.gamma := sqrt_pos.mpr (by norm_num)

private theorem starobinsky_le (L x : ℝ) (hx : 0 ≤ x) : |(Starobinsky.mk L).fns.V x| ≤ L^4 := by
  have h1 : exp (-Starobinsky.gamma * x) ≤ 1 := by
    rw [exp_le_one_iff]; nlinarith [gamma_pos]
  have h2 := exp_pos (-Starobinsky.gamma * x)
  have : (1 - exp (-Starobinsky.gamma * x))^2 ≤ 1 := by nlinarith
  simp only [Starobinsky.fns, Starobinsky.V]
  rw [abs_of_nonneg (by positivity)]
  have : 0 ≤ L^4 := by positivity
  nlinarith

private theorem starobinsky_ne (L x : ℝ) (hL : L ≠ 0) (hx : x ≠ 0) :
    (Starobinsky.mk L).fns.V x ≠ 0 := by
  simp only [Starobinsky.fns, Starobinsky.V]
  refine mul_ne_zero (pow_ne_zero 4 hL) (pow_ne_zero 2 ?_)
  intro h
  have : exp (-Starobinsky.gamma * x) = 1 := by linarith
  rw [exp_eq_one_iff] at this
  have := gamma_pos
  rcases mul_eq_zero.mp (by assumption : -Starobinsky.gamma * x = 0) with h | h
  · linarith
  · exact hx h

/-- The documented claim "d4V is the fourth derivative of V" is false for
`StarobinskyGaussianDipPotential`, whatever its (non-zero) amplitude, width and position. -/
theorem C02_gaussian_d4V_wrong (L x0 a b : ℝ) (hL : L ≠ 0) (ha : a ≠ 0) (hb : b ≠ 0) :
    ¬ IsDerivOn Set.univ (StarobinskyGaussianDip L x0 a b).d3V (StarobinskyGaussianDip L x0 a b).d4V := by
  intro hd
  have f := C02_gaussian_feature x0 a b hb
  have := feature_trivial (C01_starobinsky ⟨L⟩) f.1 f.2.1 f.2.2 hd (starobinsky_zero L) (L^4 * |a|)
    (fun x hx => by
      rw [abs_mul]
      refine mul_le_mul (starobinsky_le L x hx) ?_ (abs_nonneg _) (by positivity)
      simp only [GaussianDip.fns, GaussianDip.F, abs_mul, abs_neg, abs_exp]
      have : exp (-(x - x0)^2 / (2 * b^2)) ≤ 1 := by
        rw [exp_le_one_iff, neg_div]; have : 0 ≤ (x - x0)^2 / (2*b^2) := by positivity
        linarith
      nlinarith [abs_nonneg a]) 1
  rcases mul_eq_zero.mp this with h | h
  · exact starobinsky_ne L 1 hL one_ne_zero h
  · simp only [GaussianDip.fns, GaussianDip.F] at h
    exact mul_ne_zero (neg_ne_zero.mpr ha) (exp_pos _).ne' h

/-- Likewise for `StarobinskyTanhStepPotential`. -/
theorem C02_tanh_d4V_wrong (L x0 a b : ℝ) (hL : L ≠ 0) (ha : a ≠ 0) (hb : b ≠ 0) :
    ¬ IsDerivOn Set.univ (StarobinskyTanhStep L x0 a b).d3V (StarobinskyTanhStep L x0 a b).d4V := by
  intro hd
  have f := C02_tanh_feature x0 a b hb
  have key := feature_trivial (C01_starobinsky ⟨L⟩) f.1 f.2.1 f.2.2 hd (starobinsky_zero L) (L^4 * |a|)
    (fun x hx => by
      rw [abs_mul]
      refine mul_le_mul (starobinsky_le L x hx) ?_ (abs_nonneg _) (by positivity)
      simp only [TanhStep.fns, TanhStep.F, abs_mul]
      have : |tanh ((x - x0) / b)| ≤ 1 := (abs_tanh_lt_one _).le
      nlinarith [abs_nonneg a])
  have hx : |x0| + 1 ≠ 0 := by positivity
  rcases mul_eq_zero.mp (key (|x0| + 1)) with h | h
  · exact starobinsky_ne L _ hL hx h
  · simp only [TanhStep.fns, TanhStep.F] at h
    rcases mul_eq_zero.mp h with h | h
    · exact ha h
    · rw [tanh_eq_sinh_div_cosh, div_eq_zero_iff] at h
      rcases h with h | h
      · rw [sinh_eq_zero, div_eq_zero_iff] at h
        rcases h with h | h
        · have := le_abs_self x0; linarith
        · exact hb h
      · exact (cosh_pos _).ne' h

/-- the hypotheses of the instance theorems are met by the parameters of the test-suite -/
example : (0.05 : ℝ) ≠ 0 := by norm_num

end Primpy
