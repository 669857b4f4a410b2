import Verif.Lemmas.Exact

/-!
# C17 — the inflating criterion

`inflating > 0` exactly if `w < -1/3`, exactly if `ε₁ < 1` with `ε₁ = -Ḣ/H²` (for every curvature),
exactly if the scale factor accelerates; in both formulations.
-/

namespace Primpy
open Real Spec Set

/-- The acceleration of the scale factor along a universe in cosmic time. -/
theorem C17_acceleration_T {S D : Set ℝ} {e : InflT} {y : ℝ → ℕ → ℝ} (hS : IsOpen S)
    (sol : SolvesODE S e.rows e.call y) (hH : ∀ t ∈ S, 0 < e.H2 (y t))
    (hV : IsDerivOn D e.pot.V e.pot.dV) (hφ : ∀ t ∈ S, InflT.phi (y t) ∈ D) :
    ∃ adot : ℝ → ℝ, IsDerivOn S (fun t => exp (InflT._N (y t))) adot ∧
      IsDerivOn S adot (fun t => exp (InflT._N (y t)) * e.inflating (y t) / 3) := by
  have u := InflT.universe sol hH
  refine ⟨fun t => exp (InflT._N (y t)) * e.H (y t), fun t ht => (u.hubble t ht).exp, fun t ht => ?_⟩
  refine hderiv ((u.hubble t ht).exp.mul (u.dH hS hV hφ t ht)) ?_
  have := u.friedmann t ht
  simp only [InflT.inflating, InflT.V]
  linear_combination (-exp (InflT._N (y t)) / 3) * this

/-- `inflating`, `w` and `ε₁` in cosmic time: `w < -1/3` needs a positive energy density (otherwise
`w` is meaningless); `ε₁ < 1` needs `H² > 0`. -/
theorem C17_criteria_T (e : InflT) (y : ℕ → ℝ) :
    (0 < InflT.dphidt y ^ 2 / 2 + e.V y → (0 < e.inflating y ↔ e.w y < -1/3)) ∧
    (0 < InflT.dphidt y ^ 2 / 2 + e.V y → (e.inflating y = 0 ↔ e.w y = -1/3)) ∧
    (0 < e.H2 y → (0 < e.inflating y ↔
      T.get_epsilon_1H (e.H y) (T.get_dH (InflT._N y) (e.H y) (InflT.dphidt y) e.K) < 1)) := by
  refine ⟨fun h => ?_, fun h => ?_, fun h => ?_⟩
  · simp only [InflT.w, InflT.inflating]; rw [div_lt_iff₀ h]
    constructor <;> intro g <;> linarith
  · simp only [InflT.w, InflT.inflating]; rw [div_eq_iff h.ne']
    constructor <;> intro g <;> linarith
  · have h2 : e.H y ^ 2 = e.H2 y := sq_sqrt h.le
    simp only [T.get_epsilon_1H, T.get_dH, InflT.inflating]; rw [h2, div_lt_one h]
    simp only [InflT.H2, T.get_H2]
    constructor <;> intro g <;> linarith

/-- The same in e-folds. -/
theorem C17_criteria_N (e : InflN) (x : ℝ) (y : ℕ → ℝ) (h : 0 < e.H2 x y) :
    (0 < e.H2 x y * InflN.dphidN y ^ 2 / 2 + e.V y → (0 < e.inflating x y ↔ e.w x y < -1/3)) ∧
    (0 < e.H2 x y * InflN.dphidN y ^ 2 / 2 + e.V y → (e.inflating x y = 0 ↔ e.w x y = -1/3)) ∧
    (0 < e.inflating x y ↔
      N.get_epsilon_1H (e.H x y) (N.get_dH x (e.H x y) (InflN.dphidN y) e.K) < 1) := by
  refine ⟨fun h => ?_, fun h => ?_, ?_⟩
  · simp only [InflN.w, InflN.inflating]; rw [div_lt_iff₀ h]
    constructor <;> intro g <;> linarith
  · simp only [InflN.w, InflN.inflating]; rw [div_eq_iff h.ne']
    constructor <;> intro g <;> linarith
  · have h2 : e.H x y ^ 2 = e.H2 x y := InflN.H_sq h
    have hp : 0 < e.H x y := sqrt_pos.mpr h
    have h6 := InflN.six_ne h
    have e1 : N.get_epsilon_1H (e.H x y) (N.get_dH x (e.H x y) (InflN.dphidN y) e.K)
        = InflN.dphidN y ^2 / 2 - e.K * exp (-2 * x) / e.H2 x y := by
      simp only [N.get_epsilon_1H, N.get_dH]; rw [← h2]; field_simp; ring
    have e2 : e.V y = e.H2 x y * (6 - InflN.dphidN y ^ 2) / 2 + 3 * e.K * exp (-2 * x) := by
      simp only [InflN.H2, N.get_H2]; field_simp; ring
    rw [e1, sub_lt_iff_lt_add, InflN.inflating, e2,
      show (1 + e.K * exp (-2 * x) / e.H2 x y) = (e.H2 x y + e.K * exp (-2 * x)) / e.H2 x y by
        field_simp, lt_div_iff₀ h]
    constructor <;> intro g <;> linarith

/-- In e-folds: `d(aH)/dN`, i.e. `ä/H`, is `a·inflating/(3H)`: the scale factor accelerates exactly
while `inflating > 0`. -/
theorem C17_acceleration_N {S D : Set ℝ} {e : InflN} {y : ℝ → ℕ → ℝ} (hS : IsOpen S)
    (sol : SolvesODE S e.rows e.call y) (hH : ∀ n ∈ S, 0 < e.H2 n (y n))
    (hV : IsDerivOn D e.pot.V e.pot.dV) (hφ : ∀ n ∈ S, InflN.phi (y n) ∈ D) :
    IsDerivOn S (fun n => exp n * e.H n (y n))
      (fun n => exp n * e.inflating n (y n) / (3 * e.H n (y n))) := by
  intro n hn
  have hp : 0 < e.H n (y n) := sqrt_pos.mpr (hH n hn)
  have h6 := InflN.six_ne (hH n hn)
  refine hderiv ((hasDerivAt_exp n).mul (InflN.hasDerivAt_H hS sol hH hV hφ n hn)) ?_
  have e2 : e.V (y n) = e.H n (y n)^2 * (6 - InflN.dphidN (y n) ^ 2) / 2 + 3 * e.K * exp (-2 * n) := by
    rw [InflN.H_sq (hH n hn)]; simp only [InflN.H2, N.get_H2]; field_simp; ring
  simp only [InflN.inflating, e2, ← InflN.H_sq (hH n hn), N.get_dH]
  field_simp; ring

/-- Non-vacuity: power-law inflation inflates at every time; the coasting closed universe sits
exactly on the boundary. -/
example (t : ℝ) (ht : 0 < t) : 0 < Exact.flatT.inflating (Exact.yFlatT t) ∧
    Exact.curvedT.inflating (Exact.yCurvedT t) = 0 := by
  simp only [InflT.inflating, InflT.V, InflT.phi, InflT.dphidt, Exact.flatT, Exact.curvedT,
    Exact.expPot, Exact.yFlatT, Exact.yCurvedT, Exact.exp_neg_two_log ht]
  constructor
  · have : 10 * (1 / t^2) - (2/t)^2 = 6 / t^2 := by field_simp; norm_num
    rw [this]; positivity
  · field_simp; norm_num

end Primpy
