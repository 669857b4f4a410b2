import Verif.Props.C08

/-!
# C12 — the fixed-power classes are the monomial class at that power

`QuadraticPotential` re-implements `V`, `dV`, `d2V`, `d3V`, `d4V` and `inv_V`; they agree with
`MonomialPotential(p=2)` wherever the latter is defined.  The linear, cubic and quartic classes
inherit everything; for them we show the resulting plain formulas.
-/

namespace Primpy
open Real Spec Set

theorem C12_quadratic (L : ℝ) :
    (∀ φ, (Quadratic.mk L).V φ = (Monomial.mk L 2).V φ) ∧
    (∀ φ, (Quadratic.mk L).dV φ = (Monomial.mk L 2).dV φ) ∧
    (∀ φ, φ ≠ 0 → (Quadratic.mk L).d2V φ = (Monomial.mk L 2).d2V φ) ∧
    (∀ φ, (Quadratic.mk L).d3V φ = (Monomial.mk L 2).d3V φ) ∧
    (∀ φ, (Quadratic.mk L).d4V φ = (Monomial.mk L 2).d4V φ) ∧
    (∀ v, 0 ≤ v → (Quadratic.mk L).inv_V v = (Monomial.mk L 2).inv_V v) ∧
    (∀ φ, (Quadratic.mk L).get_epsilon_1V φ = (Monomial.mk L 2).get_epsilon_1V φ) ∧
    (∀ φ, (Quadratic.mk L).get_epsilon_2V φ = (Monomial.mk L 2).get_epsilon_2V φ) ∧
    (∀ φ, (Quadratic.mk L).get_epsilon_3V φ = (Monomial.mk L 2).get_epsilon_3V φ) ∧
    (∀ φ, (Quadratic.mk L).get_epsilon_4V φ = (Monomial.mk L 2).get_epsilon_4V φ) ∧
    (∀ φ, (Quadratic.mk L).sr_phi2N φ = (Monomial.mk L 2).sr_phi2N φ) ∧
    (∀ N, (Quadratic.mk L).sr_N2phi N = (Monomial.mk L 2).sr_N2phi N) ∧
    (Quadratic.mk L).phi_end = (Monomial.mk L 2).phi_end := by
  have e1 : (2:ℝ) - 1 = 1 := by norm_num
  refine ⟨fun φ => ?_, fun φ => ?_, fun φ h => ?_, fun φ => ?_, fun φ => ?_, fun v h => ?_,
    fun _ => rfl, fun _ => rfl, fun _ => rfl, fun _ => rfl, fun _ => rfl, fun _ => rfl, rfl⟩
  · simp only [Quadratic.V, Monomial.V, rpow_two, sq_abs]
  · simp only [Quadratic.dV, Monomial.dV, e1, rpow_one]
    have := sign_mul_abs φ
    calc 2 * L^4 * φ = 2 * L^4 * ((SignType.sign φ : ℝ) * |φ|) := by rw [this]
      _ = _ := by ring
  · simp only [Quadratic.d2V, Monomial.d2V, e1, rpow_two, sq_abs]; fsr
  · simp only [Quadratic.d3V, Monomial.d3V]; ring
  · simp only [Quadratic.d4V, Monomial.d4V]; ring
  · simp only [Quadratic.inv_V, Monomial.inv_V]
    rw [← sqrt_eq_rpow, sqrt_div h]
    have : L^4 = (L^2)^2 := by ring
    rw [this, sqrt_sq (sq_nonneg L)]

/-- The remaining classes, spelled out as ordinary polynomials on `φ > 0`. -/
theorem C12_linear_cubic_quartic (L φ : ℝ) (h : 0 < φ) :
    ((Linear L).V φ = L^4 * φ ∧ (Linear L).dV φ = L^4 ∧ (Linear L).d2V φ = 0 ∧
      (Linear L).get_epsilon_1V φ = 1 / (2 * φ^2)) ∧
    ((Cubic L).V φ = L^4 * φ^3 ∧ (Cubic L).dV φ = 3 * L^4 * φ^2 ∧ (Cubic L).d2V φ = 6 * L^4 * φ ∧
      (Cubic L).d3V φ = 6 * L^4 ∧ (Cubic L).d4V φ = 0) ∧
    ((Quartic L).V φ = L^4 * φ^4 ∧ (Quartic L).dV φ = 4 * L^4 * φ^3 ∧
      (Quartic L).d2V φ = 12 * L^4 * φ^2 ∧ (Quartic L).d3V φ = 24 * L^4 * φ ∧
      (Quartic L).d4V φ = 24 * L^4) := by
  have r3 : φ ^ (3:ℝ) = φ^3 := by rw [← rpow_natCast]; norm_num
  have r4 : φ ^ (4:ℝ) = φ^4 := by rw [← rpow_natCast]; norm_num
  have h' := h.ne'
  simp only [Linear, Cubic, Quartic, Monomial.V, Monomial.dV, Monomial.d2V, Monomial.d3V,
    Monomial.d4V, Monomial.get_epsilon_1V, abs_of_pos h, sign_pos h, SignType.coe_one,
    rpow_sub1 h', rpow_sub3 h', rpow_sub4 h', r3, r4, rpow_one]
  refine ⟨⟨trivial, ?_, ?_, ?_⟩, ⟨trivial, ?_, ?_, ?_, ?_⟩, ⟨trivial, ?_, ?_, ?_, ?_⟩⟩ <;> fsr

/-- Even in the field: `V(-φ) = V(φ)`, `V'(-φ) = -V'(φ)` (so the negative branch is the mirror). -/
theorem C12_even (m : Monomial) (φ : ℝ) : m.V (-φ) = m.V φ ∧ m.dV (-φ) = -m.dV φ := by
  constructor
  · simp only [Monomial.V, abs_neg]
  · simp only [Monomial.dV, abs_neg, Left.sign_neg, SignType.coe_neg]; ring

end Primpy
