import Verif.Model.Events
import Verif.Props.C17

/-!
# C23 — event functions vanish exactly at the state they are named after

For every event the sign of the function is characterised in terms of the physical quantity, so
that zero, positive and negative are all decided (`Sign`), in both formulations.
-/

namespace Primpy
open Real

/-- `g` has the sign of `a - b`: zero exactly if `a = b`, positive exactly if `a > b`, negative
exactly if `a < b`. -/
def SignOfDiff (g a b : ℝ) : Prop := (g = 0 ↔ a = b) ∧ (0 < g ↔ b < a) ∧ (g < 0 ↔ a < b)

theorem SignOfDiff.sub (a b : ℝ) : SignOfDiff (a - b) a b :=
  ⟨sub_eq_zero, sub_pos, sub_neg⟩

/-- **C23, cosmic time.** -/
theorem C23_T (e : InflT) (d : Direction) (trm : Bool) (v x : ℝ) (y : ℕ → ℝ) :
    -- UntilT: cosmic time
    SignOfDiff (Event.call e.view ⟨.untilT, d, trm, v⟩ x y) x v ∧
    -- UntilN: e-folds
    SignOfDiff (Event.call e.view ⟨.untilN, d, trm, v⟩ x y) (InflT._N y) v ∧
    -- Phi0: the field
    SignOfDiff (Event.call e.view ⟨.phi0, d, trm, v⟩ x y) (InflT.phi y) v ∧
    -- Inflation: V against φ̇² (+ value)
    SignOfDiff (Event.call e.view ⟨.inflation none, d, trm, v⟩ x y)
      (e.pot.V (InflT.phi y)) (InflT.dphidt y ^ 2 + v) ∧
    -- AfterInflationEnd: equation of state p/ρ
    SignOfDiff (Event.call e.view ⟨.afterInflationEnd, d, trm, v⟩ x y)
      ((InflT.dphidt y ^ 2 / 2 - e.pot.V (InflT.phi y)) /
        (InflT.dphidt y ^ 2 / 2 + e.pot.V (InflT.phi y))) v ∧
    -- Collapse: the squared Hubble rate of the Friedmann equation
    SignOfDiff (Event.call e.view ⟨.collapse, d, trm, v⟩ x y)
      ((InflT.dphidt y ^ 2 / 2 + e.pot.V (InflT.phi y)) / 3 - e.K * exp (-2 * InflT._N y)) v := by
  refine ⟨.sub _ _, .sub _ _, .sub _ _, ?_, ?_, ?_⟩
  · have h := SignOfDiff.sub (e.pot.V (InflT.phi y)) (InflT.dphidt y ^ 2 + v)
    have : Event.call e.view ⟨.inflation none, d, trm, v⟩ x y
        = e.pot.V (InflT.phi y) - (InflT.dphidt y ^ 2 + v) := by
      simp [Event.call, InflT.view, InflT.inflating, InflT.V]; ring
    rw [this]; exact h
  · exact .sub _ _
  · have : Event.call e.view ⟨.collapse, d, trm, v⟩ x y
        = ((InflT.dphidt y ^ 2 / 2 + e.pot.V (InflT.phi y)) / 3 - e.K * exp (-2 * InflT._N y)) - v := by
      simp [Event.call, InflT.view, InflT.H2, T.get_H2, InflT.V]
    rw [this]; exact .sub _ _

/-- **C23, e-folds** (`φ̇ = H φ'`). -/
theorem C23_N (e : InflN) (d : Direction) (trm : Bool) (v x : ℝ) (y : ℕ → ℝ) :
    SignOfDiff (Event.call e.view ⟨.untilN, d, trm, v⟩ x y) x v ∧
    (e.track_time = true → SignOfDiff (Event.call e.view ⟨.untilT, d, trm, v⟩ x y) (y 2) v) ∧
    SignOfDiff (Event.call e.view ⟨.phi0, d, trm, v⟩ x y) (InflN.phi y) v ∧
    (0 ≤ e.H2 x y → SignOfDiff (Event.call e.view ⟨.inflation none, d, trm, v⟩ x y)
      (e.pot.V (InflN.phi y)) ((e.H x y * InflN.dphidN y) ^ 2 + v)) ∧
    (0 ≤ e.H2 x y → SignOfDiff (Event.call e.view ⟨.afterInflationEnd, d, trm, v⟩ x y)
      (((e.H x y * InflN.dphidN y) ^ 2 / 2 - e.pot.V (InflN.phi y)) /
        ((e.H x y * InflN.dphidN y) ^ 2 / 2 + e.pot.V (InflN.phi y))) v) ∧
    SignOfDiff (Event.call e.view ⟨.collapse, d, trm, v⟩ x y) (e.H2 x y) v := by
  refine ⟨.sub _ _, fun _ => .sub _ _, .sub _ _, fun h => ?_, fun h => ?_, .sub _ _⟩
  · have h2 : e.H x y ^ 2 = e.H2 x y := sq_sqrt h
    have : Event.call e.view ⟨.inflation none, d, trm, v⟩ x y
        = e.pot.V (InflN.phi y) - ((e.H x y * InflN.dphidN y) ^ 2 + v) := by
      rw [mul_pow, h2]
      simp [Event.call, InflN.view, InflN.inflating, InflN.V]; ring
    rw [this]; exact .sub _ _
  · have h2 : e.H x y ^ 2 = e.H2 x y := sq_sqrt h
    rw [mul_pow, h2]
    exact .sub _ _

/-- **C23, mode exit.**  In either formulation, with `H² > 0` and a positive scale `k`, the event
value has the sign of `aH - k`: the event is the horizon crossing of `k`. -/
theorem C23_modeExit (Q : EqView) (d : Direction) (trm : Bool) (k x : ℝ) (y : ℕ → ℝ)
    (hk : 0 < k) (hH : 0 < Q.H2 x y) :
    SignOfDiff (Event.call Q ⟨.modeExit, d, trm, k⟩ x y) (exp (Q.N x y) * √(Q.H2 x y)) k := by
  have haH : 0 < exp (Q.N x y) * √(Q.H2 x y) := mul_pos (exp_pos _) (sqrt_pos.2 hH)
  have e : Event.call Q ⟨.modeExit, d, trm, k⟩ x y = log (exp (Q.N x y) * √(Q.H2 x y)) - log k := by
    rw [log_mul (exp_pos _).ne' (sqrt_pos.2 hH).ne', log_exp, log_sqrt hH.le]
    simp only [Event.call, abs_of_pos hH]; ring
  rw [e]
  refine ⟨?_, ?_, ?_⟩
  · rw [sub_eq_zero]; exact ⟨fun h => log_injOn_pos haH hk h, fun h => by rw [h]⟩
  · rw [sub_pos]; exact log_lt_log_iff hk haH
  · rw [sub_neg]; exact log_lt_log_iff haH hk

/-- **C23, start/end of inflation.**  With the default `value=0` the inflation event is zero exactly
where `ε₁ = -Ḣ/H² = 1`, positive exactly while the expansion accelerates (cosmic time). -/
theorem C23_inflation_T (e : InflT) (d : Direction) (trm : Bool) (x : ℝ) (y : ℕ → ℝ)
    (hH : 0 < e.H2 y) :
    let g := Event.call e.view ⟨.inflation none, d, trm, 0⟩ x y
    let eps := T.get_epsilon_1H (e.H y) (T.get_dH (InflT._N y) (e.H y) (InflT.dphidt y) e.K)
    SignOfDiff g 1 eps := by
  intro g eps
  have h2 : e.H y ^ 2 = e.H2 y := sq_sqrt hH.le
  have hg : g = 3 * e.H2 y * (1 - eps) := by
    simp only [g, eps, T.get_epsilon_1H, T.get_dH, h2]
    have : e.H2 y ≠ 0 := hH.ne'
    simp only [Event.call, InflT.view, InflT.inflating]
    field_simp
    simp only [InflT.H2, T.get_H2]
    simp; ring
  have h3 : 0 < 3 * e.H2 y := by linarith
  rw [hg]
  refine ⟨?_, ?_, ?_⟩
  · rw [mul_eq_zero, or_iff_right h3.ne', sub_eq_zero]
  · rw [mul_pos_iff_of_pos_left h3, sub_pos]
  · constructor
    · intro h; by_contra hc; have := mul_nonneg h3.le (sub_nonneg.2 (not_lt.1 hc)); linarith
    · intro h; exact mul_neg_of_pos_of_neg h3 (sub_neg.2 h)

/-- **C23, start/end of inflation** (e-folds). -/
theorem C23_inflation_N (e : InflN) (d : Direction) (trm : Bool) (x : ℝ) (y : ℕ → ℝ)
    (hH : 0 < e.H2 x y) :
    let g := Event.call e.view ⟨.inflation none, d, trm, 0⟩ x y
    let eps := N.get_epsilon_1H (e.H x y) (N.get_dH x (e.H x y) (InflN.dphidN y) e.K)
    SignOfDiff g 1 eps := by
  intro g eps
  have h2 : e.H x y ^ 2 = e.H2 x y := InflN.H_sq hH
  have hp : 0 < e.H x y := sqrt_pos.mpr hH
  have h6 := InflN.six_ne hH
  have e1 : eps = InflN.dphidN y ^2 / 2 - e.K * exp (-2 * x) / e.H2 x y := by
    simp only [eps, N.get_epsilon_1H, N.get_dH]; rw [← h2]; field_simp; ring
  have e2 : e.V y = e.H2 x y * (6 - InflN.dphidN y ^ 2) / 2 + 3 * e.K * exp (-2 * x) := by
    simp only [InflN.H2, N.get_H2]; field_simp; ring
  have hg : g = 3 * e.H2 x y * (1 - eps) := by
    rw [e1]
    simp only [g, Event.call, InflN.view, InflN.inflating, e2]
    have := hH.ne'
    field_simp
    simp
    ring
  have h3 : 0 < 3 * e.H2 x y := by linarith
  rw [hg]
  refine ⟨?_, ?_, ?_⟩
  · rw [mul_eq_zero, or_iff_right h3.ne', sub_eq_zero]
  · rw [mul_pos_iff_of_pos_left h3, sub_pos]
  · constructor
    · intro h; by_contra hc; have := mul_nonneg h3.le (sub_nonneg.2 (not_lt.1 hc)); linarith
    · intro h; exact mul_neg_of_pos_of_neg h3 (sub_neg.2 h)

/-- **C23, the `t_i` guard.**  An inflation event with direction ±1 and `t_i` set to the starting
point is never active in the step that begins at the starting point, whatever happens in it; away
from `t_i` it is the plain event. -/
theorem C23_guard (Q : EqView) (d : Direction) (hd : d ≠ .zero) (trm : Bool) (v t_i : ℝ)
    (y₀ : ℕ → ℝ) (gNew : ℝ) :
    ¬ scipyActive d (Event.call Q ⟨.inflation (some t_i), d, trm, v⟩ t_i y₀) gNew ∧
    ∀ x y, x ≠ t_i → Event.call Q ⟨.inflation (some t_i), d, trm, v⟩ x y =
      Event.call Q ⟨.inflation none, d, trm, v⟩ x y := by
  constructor
  · cases d with
    | zero => exact absurd rfl hd
    | pos => simp [scipyActive, Event.call, Direction.val]
    | neg => simp [scipyActive, Event.call, Direction.val]
  · intro x y hx
    simp [Event.call, hx]

/-- **C23, the guard with direction 0** does the opposite: the starting point is always reported. -/
theorem C23_guard_zero (Q : EqView) (trm : Bool) (v t_i : ℝ) (y₀ : ℕ → ℝ) (gNew : ℝ) :
    scipyActive .zero (Event.call Q ⟨.inflation (some t_i), .zero, trm, v⟩ t_i y₀) gNew := by
  simp [scipyActive, Event.call, Direction.val]
  exact le_total 0 gNew

/-- Without the guard an event at its own root is active in the first step whenever the function
moves in the event's direction (or not at all) — what `InflationStartIC` (whose starting point is a
root, C28) would run into. -/
theorem C23_no_guard (Q : EqView) (trm : Bool) (v x₀ : ℝ) (y₀ : ℕ → ℝ) (gNew : ℝ)
    (h0 : Q.inflating x₀ y₀ = v) (hnew : 0 ≤ gNew) :
    scipyActive .pos (Event.call Q ⟨.inflation none, .pos, trm, v⟩ x₀ y₀) gNew := by
  simp [scipyActive, Event.call, h0, hnew]

/-- Non-vacuity: the exact power-law solution has `H² = 4/t² > 0`, so mode `k = 1` and the
sign theorems apply on it. -/
example (t : ℝ) (ht : 0 < t) : 0 < Exact.flatT.view.H2 t (Exact.yFlatT t) := by
  have := Exact.flatT_H2 ht
  simp only [InflT.view]
  rw [this]; positivity

end Primpy
