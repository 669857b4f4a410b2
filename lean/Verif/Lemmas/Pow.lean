import Verif.Model.Basic
import Mathlib.Analysis.SpecialFunctions.Pow.Deriv
import Mathlib.Analysis.SpecialFunctions.Trigonometric.DerivHyp
import Mathlib.Tactic.FieldSimp
import Mathlib.Tactic.Ring
import Mathlib.Tactic.Linarith

/-! # Helper lemmas on powers and hyperbolic functions -/

namespace Primpy
open Real

/-- clear denominators and close by commutative-ring normalisation -/
macro "fsr" : tactic => `(tactic| (field_simp; try (first | done | ring | (norm_num; done) | (norm_num; ring))))

/-- replace the derivative value by an equal one -/
theorem hderiv {f : ℝ → ℝ} {f' g' x : ℝ} (h : HasDerivAt f f' x) (e : g' = f') :
    HasDerivAt f g' x := e ▸ h

theorem PowDom.ne {x p : ℝ} (h : PowDom x p) : x ≠ 0 := by
  rcases h with h | h
  · exact h.ne'
  · exact h.1

theorem PowDom.rpow_ne {x p : ℝ} (h : PowDom x p) : x ^ p ≠ 0 := by
  rcases h with h | ⟨h, n, rfl⟩
  · exact (rpow_pos_of_pos h p).ne'
  · rw [rpow_intCast]; exact zpow_ne_zero n h

theorem PowDom.rpow_nat_mul {x p : ℝ} (h : PowDom x p) (n : ℕ) : x ^ ((n:ℝ) * p) = (x ^ p) ^ n := by
  rcases h with h | ⟨h, m, rfl⟩
  · rw [mul_comm, rpow_mul h.le, rpow_natCast]
  · have : ((n:ℝ) * (m:ℝ)) = ((m * (n:ℤ) : ℤ) : ℝ) := by push_cast; ring
    rw [this, rpow_intCast, rpow_intCast, zpow_mul, zpow_natCast]

theorem PowDom.two_mul {x p : ℝ} (h : PowDom x p) : x ^ (2 * p) = (x ^ p) ^ 2 := by
  have := h.rpow_nat_mul 2; push_cast at this; exact this
theorem PowDom.three_mul {x p : ℝ} (h : PowDom x p) : x ^ (3 * p) = (x ^ p) ^ 3 := by
  have := h.rpow_nat_mul 3; push_cast at this; exact this
theorem PowDom.four_mul {x p : ℝ} (h : PowDom x p) : x ^ (4 * p) = (x ^ p) ^ 4 := by
  have := h.rpow_nat_mul 4; push_cast at this; exact this
theorem PowDom.five_mul {x p : ℝ} (h : PowDom x p) : x ^ (5 * p) = (x ^ p) ^ 5 := by
  have := h.rpow_nat_mul 5; push_cast at this; exact this

theorem rpow_sub1 {x : ℝ} (h : x ≠ 0) (p : ℝ) : x ^ (p - 1) = x ^ p / x := rpow_sub_one h p
theorem rpow_sub2 {x : ℝ} (h : x ≠ 0) (p : ℝ) : x ^ (p - 2) = x ^ p / x ^ 2 := by
  have := rpow_sub_natCast h p 2; push_cast at this; exact this
theorem rpow_sub3 {x : ℝ} (h : x ≠ 0) (p : ℝ) : x ^ (p - 3) = x ^ p / x ^ 3 := by
  have := rpow_sub_natCast h p 3; push_cast at this; exact this
theorem rpow_sub4 {x : ℝ} (h : x ≠ 0) (p : ℝ) : x ^ (p - 4) = x ^ p / x ^ 4 := by
  have := rpow_sub_natCast h p 4; push_cast at this; exact this
theorem rpow_add1 {x : ℝ} (h : x ≠ 0) (p : ℝ) : x ^ (p + 1) = x ^ p * x := rpow_add_one h p
theorem rpow_add2 {x : ℝ} (h : x ≠ 0) (p : ℝ) : x ^ (p + 2) = x ^ p * x ^ 2 := by
  have := rpow_add_natCast h p 2; push_cast at this; exact this
theorem rpow_add3 {x : ℝ} (h : x ≠ 0) (p : ℝ) : x ^ (p + 3) = x ^ p * x ^ 3 := by
  have := rpow_add_natCast h p 3; push_cast at this; exact this
theorem rpow_add4 {x : ℝ} (h : x ≠ 0) (p : ℝ) : x ^ (p + 4) = x ^ p * x ^ 4 := by
  have := rpow_add_natCast h p 4; push_cast at this; exact this

/-- derivative of a real power away from zero, with the exponent left in the form `x^p / x` -/
theorem hasDerivAt_rpow {x : ℝ} (h : x ≠ 0) (p : ℝ) :
    HasDerivAt (fun y : ℝ => y ^ p) (p * (x ^ p / x)) x := by
  have := Real.hasDerivAt_rpow_const (x := x) (p := p) (Or.inl h)
  rwa [rpow_sub1 h] at this

theorem hasDerivAt_tanh (x : ℝ) : HasDerivAt tanh (1 - tanh x ^ 2) x := by
  have h : HasDerivAt (fun y => sinh y / cosh y) ((cosh x * cosh x - sinh x * sinh x) / cosh x ^ 2) x :=
    (hasDerivAt_sinh x).div (hasDerivAt_cosh x) (cosh_pos x).ne'
  have e : (fun y => sinh y / cosh y) = tanh := by ext y; rw [tanh_eq_sinh_div_cosh]
  rw [e] at h
  convert h using 1
  have := (cosh_pos x).ne'
  rw [tanh_eq_sinh_div_cosh]; field_simp

end Primpy
