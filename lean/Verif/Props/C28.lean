import Verif.Props.C26
import Verif.Props.C27

/-!
# C28 — `InflationStartIC` starts exactly at the start of inflation
-/

namespace Primpy
open Real

/-- The numbers in a state vector without NaN. -/
def Numbers (y : ℕ → Option ℝ) (z : ℕ → ℝ) (n : ℕ) : Prop := ∀ i < n, y i = some (z i)

/-- **C28, cosmic time.**  For every potential positive at `phi_i` and every `N_i` with
`aH² = V/2 e^{2N} - K > 0`: the initial state written by the initial condition is on the boundary of
inflation (`inflating = 0`, so `ε₁ = 1`), moves to smaller field values, and `H²` of the equations is
the `H_i²` stored on the object (positive). -/
theorem C28_T (e : InflT) (a : ICArgs) (n : ℝ) (hn : a.N_i = some n) (hΩ : a.Omega_Ki = none)
    (hV : 0 < e.pot.V a.phi_i) (hpos : 0 < e.pot.V a.phi_i / 2 * exp (2 * n) - e.K)
    (heta : e.track_eta = true → a.eta_i ≠ none) (y0 : ℕ → Option ℝ) :
    ∃ ic y z H, InflationStartIC.init (.T e) a = .ok ic ∧ InflationStartIC.call (.T e) ic y0 = .ok y ∧
      Numbers y z 3 ∧ ic.H_i = some H ∧ 0 < H ∧
      InflT.phi z = a.phi_i ∧ InflT._N z = n ∧ InflT.dphidt z < 0 ∧
      e.inflating z = 0 ∧ e.H2 z = H ^ 2 := by
  have hpos' : 0 < e.pot.V a.phi_i / 2 - e.K * exp (-2 * n) := by
    have : e.pot.V a.phi_i / 2 - e.K * exp (-2 * n) =
        (e.pot.V a.phi_i / 2 * exp (2 * n) - e.K) * exp (-2 * n) := by
      rw [sub_mul, mul_assoc, ← exp_add]; simp
    rw [this]; exact mul_pos hpos (exp_pos _)
  obtain ⟨ic, hic⟩ : ∃ ic : IC, ic = ⟨a.phi_i, a.t_i, a.eta_i, a.x_end, e.pot.V a.phi_i,
    e.pot.dV a.phi_i, some n, (nanSqrt (e.pot.V a.phi_i / 2 * exp (2 * n) - e.K)).bind
      fun h => nanDiv (-e.K) (h ^ 2), nanSqrt (e.pot.V a.phi_i / 2 * exp (2 * n) - e.K),
    nanSqrt (e.pot.V a.phi_i / 2 - e.K * exp (-2 * n))⟩ := ⟨_, rfl⟩
  have hinit : InflationStartIC.init (.T e) a = .ok ic := by
    rw [hic]
    simp only [InflationStartIC.init, hn, hΩ, Option.isSome_none, Bool.false_eq_true, if_false,
      Option.bind_some]
    exact if_neg (not_lt.2 hpos.le)
  obtain ⟨y, hy, hrows, -⟩ := C26_inflationstart (.T e) ic
    (by rw [hic]; exact fun h => heta h) y0
  have i0 : Dict.get? (Eqs.T e).idx "phi" = some 0 := by
    obtain ⟨K, pot, te⟩ := e; cases te <;> rfl
  have i1 : Dict.get? (Eqs.T e).idx "dphidt" = some 1 := by
    obtain ⟨K, pot, te⟩ := e; cases te <;> rfl
  have i2 : Dict.get? (Eqs.T e).idx "_N" = some 2 := by
    obtain ⟨K, pot, te⟩ := e; cases te <;> rfl
  have r0 : y 0 = some a.phi_i := by rw [(hrows _ _ i0).1 rfl, hic]
  have r1 : y 1 = some (-√(e.pot.V a.phi_i)) := by
    rw [(hrows _ _ i1).2.2.2.2.1 rfl, hic]; simp [InflationStartIC.dphidt_i, nanSqrt, hV.le]
  have r2 : y 2 = some n := by rw [(hrows _ _ i2).2.1 rfl, hic]
  refine ⟨ic, y, fun i => if i = 0 then a.phi_i else if i = 1 then -√(e.pot.V a.phi_i) else n,
    √(e.pot.V a.phi_i / 2 - e.K * exp (-2 * n)), hinit, hy, ?_, ?_, sqrt_pos.2 hpos', ?_, ?_, ?_, ?_, ?_⟩
  · intro i hi
    match i, hi with
    | 0, _ => simpa using r0
    | 1, _ => simpa using r1
    | 2, _ => simpa using r2
  · rw [hic]; simp only [nanSqrt]; rw [if_pos hpos'.le]
  · simp [InflT.phi]
  · simp [InflT._N]
  · simp [InflT.dphidt, hV]
  · simp [InflT.inflating, InflT.dphidt, InflT.V, InflT.phi, sq_sqrt hV.le]
  · rw [sq_sqrt hpos'.le]
    simp only [InflT.H2, T.get_H2, InflT.dphidt, InflT.V, InflT.phi, InflT._N]
    simp [sq_sqrt hV.le]
    ring

/-- **C28, e-folds.**  The same, provided `V ≠ 3 K e^{-2N}` (at equality the formula for `H²` in
e-folds is `0/0`, see `C28_N_singular`). -/
theorem C28_N (e : InflN) (a : ICArgs) (n : ℝ) (hn : a.N_i = some n) (hΩ : a.Omega_Ki = none)
    (hV : 0 < e.pot.V a.phi_i) (hpos : 0 < e.pot.V a.phi_i / 2 * exp (2 * n) - e.K)
    (hne : e.pot.V a.phi_i ≠ 3 * e.K * exp (-2 * n))
    (ht : e.track_time = true → a.t_i ≠ none) (heta : e.track_eta = true → a.eta_i ≠ none)
    (y0 : ℕ → Option ℝ) :
    ∃ ic y z H, InflationStartIC.init (.N e) a = .ok ic ∧ InflationStartIC.call (.N e) ic y0 = .ok y ∧
      Numbers y z 2 ∧ ic.H_i = some H ∧ 0 < H ∧ IC.x_ini (.N e) ic = some n ∧
      InflN.phi z = a.phi_i ∧ InflN.dphidN z < 0 ∧
      e.inflating n z = 0 ∧ e.H2 n z = H ^ 2 := by
  have hpos' : 0 < e.pot.V a.phi_i / 2 - e.K * exp (-2 * n) := by
    have : e.pot.V a.phi_i / 2 - e.K * exp (-2 * n) =
        (e.pot.V a.phi_i / 2 * exp (2 * n) - e.K) * exp (-2 * n) := by
      rw [sub_mul, mul_assoc, ← exp_add]; simp
    rw [this]; exact mul_pos hpos (exp_pos _)
  obtain ⟨ic, hic⟩ : ∃ ic : IC, ic = ⟨a.phi_i, a.t_i, a.eta_i, a.x_end, e.pot.V a.phi_i,
    e.pot.dV a.phi_i, some n, (nanSqrt (e.pot.V a.phi_i / 2 * exp (2 * n) - e.K)).bind
      fun h => nanDiv (-e.K) (h ^ 2), nanSqrt (e.pot.V a.phi_i / 2 * exp (2 * n) - e.K),
    nanSqrt (e.pot.V a.phi_i / 2 - e.K * exp (-2 * n))⟩ := ⟨_, rfl⟩
  have hinit : InflationStartIC.init (.N e) a = .ok ic := by
    rw [hic]
    simp only [InflationStartIC.init, hn, hΩ, Option.isSome_none, Bool.false_eq_true, if_false,
      Option.bind_some]
    exact if_neg (not_lt.2 hpos.le)
  obtain ⟨y, hy, hrows, -⟩ := C26_inflationstart (.N e) ic
    (by rw [hic]; exact ⟨fun h => ht h, fun h => heta h⟩) y0
  have i0 : Dict.get? (Eqs.N e).idx "phi" = some 0 := by
    obtain ⟨K, pot, tt, te⟩ := e; cases tt <;> cases te <;> rfl
  have i1 : Dict.get? (Eqs.N e).idx "dphidN" = some 1 := by
    obtain ⟨K, pot, tt, te⟩ := e; cases tt <;> cases te <;> rfl
  have r0 : y 0 = some a.phi_i := by rw [(hrows _ _ i0).1 rfl, hic]
  have r1 : y 1 = some (-√(e.pot.V a.phi_i) / √(e.pot.V a.phi_i / 2 - e.K * exp (-2 * n))) := by
    rw [(hrows _ _ i1).2.2.2.2.2 rfl, hic]
    simp only [InflationStartIC.dphidN_i, nanSqrt, if_pos hV.le, if_pos hpos'.le, Option.bind_some,
      nanDiv, if_neg (sqrt_pos.2 hpos').ne']
  have hHpos := sqrt_pos.2 hpos'
  have hsq := sq_sqrt hpos'.le
  obtain ⟨H, hH⟩ : ∃ H, H = √(e.pot.V a.phi_i / 2 - e.K * exp (-2 * n)) := ⟨_, rfl⟩
  rw [← hH] at hHpos hsq r1
  have hz1 : (-√(e.pot.V a.phi_i) / H) ^ 2 = e.pot.V a.phi_i / H ^ 2 := by
    rw [div_pow, neg_sq, sq_sqrt hV.le]
  have hH2 : e.H2 n (fun i => if i = 0 then a.phi_i else -√(e.pot.V a.phi_i) / H) = H ^ 2 := by
    simp only [InflN.H2, N.get_H2, InflN.dphidN, InflN.V, InflN.phi]
    simp only [if_true, one_ne_zero, if_false]
    rw [hz1]
    have hH0 : H ^ 2 ≠ 0 := (pow_pos hHpos 2).ne'
    have hk : e.K * exp (-2 * n) = e.pot.V a.phi_i / 2 - H ^ 2 := by rw [hsq]; ring
    have hne' : 6 * H ^ 2 - e.pot.V a.phi_i ≠ 0 := by
      intro h; apply hne; rw [mul_assoc, hk]; linarith
    have h6 : 6 - e.pot.V a.phi_i / H ^ 2 = (6 * H ^ 2 - e.pot.V a.phi_i) / H ^ 2 := by
      field_simp
    rw [h6]
    rw [div_div_eq_mul_div, div_eq_iff hne']
    linear_combination (-6 * H ^ 2) * hk
  refine ⟨ic, y, fun i => if i = 0 then a.phi_i else -√(e.pot.V a.phi_i) / H, H, hinit, hy, ?_, ?_,
    hHpos, ?_, ?_, ?_, ?_, hH2⟩
  · intro i hi
    match i, hi with
    | 0, _ => simpa using r0
    | 1, _ => simpa using r1
  · rw [hic, hH]; simp only [nanSqrt]; rw [if_pos hpos'.le]
  · rw [hic]; rfl
  · simp [InflN.phi]
  · simp only [InflN.dphidN, one_ne_zero, if_false]
    exact div_neg_of_neg_of_pos (neg_neg_of_pos (sqrt_pos.2 hV)) hHpos
  · unfold InflN.inflating
    rw [hH2]
    simp only [InflN.dphidN, InflN.V, InflN.phi, if_true, one_ne_zero, if_false]
    rw [hz1]
    have := (pow_pos hHpos 2).ne'
    field_simp
    ring

/-- **C28, the exceptional point.**  In a closed universe with `V = 3 K e^{-2N}` (accepted by the
constructor, `H_i² = K e^{-2N}/2 > 0`) the e-fold state has `φ'² = 6`: numerator and denominator of the
formula for `H²` both vanish. -/
theorem C28_N_singular (e : InflN) (a : ICArgs) (n : ℝ) (hn : a.N_i = some n) (hΩ : a.Omega_Ki = none)
    (hK : 0 < e.K) (heq : e.pot.V a.phi_i = 3 * e.K * exp (-2 * n)) :
    ∃ ic v, InflationStartIC.init (.N e) a = .ok ic ∧ InflationStartIC.dphidN_i ic = some v ∧
      6 - v ^ 2 = 0 ∧ e.pot.V a.phi_i - 3 * e.K * exp (-2 * n) = 0 := by
  have he := exp_pos (-2 * n)
  have hV : 0 < e.pot.V a.phi_i := by rw [heq]; positivity
  have hpos' : 0 < e.pot.V a.phi_i / 2 - e.K * exp (-2 * n) := by
    rw [heq]; have := mul_pos hK he; linarith
  have hpos : 0 < e.pot.V a.phi_i / 2 * exp (2 * n) - e.K := by
    have : e.pot.V a.phi_i / 2 * exp (2 * n) - e.K =
        (e.pot.V a.phi_i / 2 - e.K * exp (-2 * n)) * exp (2 * n) := by
      rw [sub_mul, mul_assoc, ← exp_add]; simp
    rw [this]; exact mul_pos hpos' (exp_pos _)
  refine ⟨⟨a.phi_i, a.t_i, a.eta_i, a.x_end, e.pot.V a.phi_i,
    e.pot.dV a.phi_i, some n, (nanSqrt (e.pot.V a.phi_i / 2 * exp (2 * n) - e.K)).bind
      fun h => nanDiv (-e.K) (h ^ 2), nanSqrt (e.pot.V a.phi_i / 2 * exp (2 * n) - e.K),
    nanSqrt (e.pot.V a.phi_i / 2 - e.K * exp (-2 * n))⟩,
    -√(e.pot.V a.phi_i) / √(e.pot.V a.phi_i / 2 - e.K * exp (-2 * n)), ?_, ?_, ?_, by linarith⟩
  · simp only [InflationStartIC.init, hn, hΩ, Option.isSome_none, Bool.false_eq_true, if_false,
      Option.bind_some]
    exact if_neg (not_lt.2 hpos.le)
  · simp only [InflationStartIC.dphidN_i, nanSqrt, if_pos hV.le, if_pos hpos'.le, Option.bind_some,
      nanDiv, if_neg (sqrt_pos.2 hpos').ne']
  · rw [div_pow, neg_sq, sq_sqrt hV.le, sq_sqrt hpos'.le, heq]
    have : e.K * exp (-2 * n) ≠ 0 := (mul_pos hK he).ne'
    field_simp
    norm_num

/-- Hypotheses met by an open universe with `V = 2` at `N_i = 0`, and the singular case by a closed
one with `V = 3`. -/
example : (0:ℝ) < 2 / 2 * exp (2 * 0) - (-1) ∧ (2:ℝ) ≠ 3 * (-1) * exp (-2 * 0) ∧
    (3:ℝ) = 3 * 1 * exp (-2 * 0) := by
  norm_num

end Primpy
