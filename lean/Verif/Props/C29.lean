import Verif.Props.C28

/-!
# C29 — the velocity of `SlowRollIC`
-/

namespace Primpy
open Real

/-- **C29, cosmic time.**  With `H_i² = V/3 - K e^{-2N} > 0` (the Friedmann equation with the kinetic
term neglected) the initial velocity satisfies `3 H_i φ̇ = -V'`, is opposite in sign to `V'`, and the
equations' `H²` at the initial state exceeds `H_i²` by exactly the neglected `φ̇²/6`. -/
theorem C29_T (e : InflT) (a : ICArgs) (n : ℝ) (hn : a.N_i = some n) (hΩ : a.Omega_Ki = none)
    (hpos : 0 < e.pot.V a.phi_i / 3 * exp (2 * n) - e.K)
    (heta : e.track_eta = true → a.eta_i ≠ none) (y0 : ℕ → Option ℝ) :
    ∃ ic y z H, SlowRollIC.init (.T e) a = .ok ic ∧ SlowRollIC.call (.T e) ic y0 = .ok y ∧
      Numbers y z 3 ∧ ic.H_i = some H ∧ 0 < H ∧
      InflT.phi z = a.phi_i ∧ InflT._N z = n ∧
      H ^ 2 = e.pot.V a.phi_i / 3 - e.K * exp (-2 * n) ∧
      3 * H * InflT.dphidt z = -e.pot.dV a.phi_i ∧
      (0 < e.pot.dV a.phi_i → InflT.dphidt z < 0) ∧ (e.pot.dV a.phi_i < 0 → 0 < InflT.dphidt z) ∧
      e.H2 z = H ^ 2 + InflT.dphidt z ^ 2 / 6 := by
  have hpos' : 0 < e.pot.V a.phi_i / 3 - e.K * exp (-2 * n) := by
    have : e.pot.V a.phi_i / 3 - e.K * exp (-2 * n) =
        (e.pot.V a.phi_i / 3 * exp (2 * n) - e.K) * exp (-2 * n) := by
      rw [sub_mul, mul_assoc, ← exp_add]; simp
    rw [this]; exact mul_pos hpos (exp_pos _)
  obtain ⟨H, hH⟩ : ∃ H, H = √(e.pot.V a.phi_i / 3 - e.K * exp (-2 * n)) := ⟨_, rfl⟩
  have hHpos : 0 < H := by rw [hH]; exact sqrt_pos.2 hpos'
  have hsq : H ^ 2 = e.pot.V a.phi_i / 3 - e.K * exp (-2 * n) := by rw [hH]; exact sq_sqrt hpos'.le
  obtain ⟨ic, hic⟩ : ∃ ic : IC, ic = ⟨a.phi_i, a.t_i, a.eta_i, a.x_end, e.pot.V a.phi_i,
    e.pot.dV a.phi_i, some n, nanDiv (-e.K) (e.pot.V a.phi_i / 3 * exp (2 * n) - e.K),
    nanSqrt (e.pot.V a.phi_i / 3 * exp (2 * n) - e.K),
    mulExpNeg (nanSqrt (e.pot.V a.phi_i / 3 * exp (2 * n) - e.K)) (some n)⟩ := ⟨_, rfl⟩
  have hinit : SlowRollIC.init (.T e) a = .ok ic := by
    rw [hic]
    simp only [SlowRollIC.init, hn, hΩ]
    exact if_neg (not_lt.2 hpos.le)
  have hHi : ic.H_i = some H := by
    rw [hic, hH]
    simp only [nanSqrt]
    rw [if_pos hpos.le]
    simp only [mulExpNeg, Option.bind_some, Option.map_some]
    rw [C27.sqrt_scale]
  obtain ⟨y, hy, hrows, -⟩ := C26_slowroll (.T e) ic (by rw [hic]; exact fun h => heta h) y0
  have i0 : Dict.get? (Eqs.T e).idx "phi" = some 0 := by
    obtain ⟨K, pot, te⟩ := e; cases te <;> rfl
  have i1 : Dict.get? (Eqs.T e).idx "dphidt" = some 1 := by
    obtain ⟨K, pot, te⟩ := e; cases te <;> rfl
  have i2 : Dict.get? (Eqs.T e).idx "_N" = some 2 := by
    obtain ⟨K, pot, te⟩ := e; cases te <;> rfl
  have r0 : y 0 = some a.phi_i := by rw [(hrows _ _ i0).1 rfl, hic]
  have r1 : y 1 = some (-e.pot.dV a.phi_i / (3 * H)) := by
    rw [(hrows _ _ i1).2.2.2.2.1 rfl, SlowRollIC.dphidt_i, hHi, hic, Option.bind_some, nanDiv,
      if_neg (by positivity)]
  have r2 : y 2 = some n := by rw [(hrows _ _ i2).2.1 rfl, hic]
  have h3H : 0 < 3 * H := by linarith
  refine ⟨ic, y, fun i => if i = 0 then a.phi_i else if i = 1 then -e.pot.dV a.phi_i / (3 * H) else n,
    H, hinit, hy, ?_, hHi, hHpos, by simp [InflT.phi], by simp [InflT._N], hsq, ?_, ?_, ?_, ?_⟩
  · intro i hi
    match i, hi with
    | 0, _ => simpa using r0
    | 1, _ => simpa using r1
    | 2, _ => simpa using r2
  · simp only [InflT.dphidt, one_ne_zero, if_false, if_true]
    field_simp
  · intro h
    simp only [InflT.dphidt, one_ne_zero, if_false, if_true]
    exact div_neg_of_neg_of_pos (by linarith) h3H
  · intro h
    simp only [InflT.dphidt, one_ne_zero, if_false, if_true]
    exact div_pos (by linarith) h3H
  · rw [hsq]
    simp only [InflT.H2, T.get_H2, InflT.dphidt, InflT.V, InflT.phi, InflT._N, one_ne_zero, if_false,
      if_true, OfNat.ofNat_ne_zero, OfNat.ofNat_ne_one]
    ring

/-- **C29, e-folds.**  The velocity satisfies `3 H_i² φ' = -V'`; the equations' `H²` at the initial
state is `H_i²/(1 - φ'²/6)`. -/
theorem C29_N (e : InflN) (a : ICArgs) (n : ℝ) (hn : a.N_i = some n) (hΩ : a.Omega_Ki = none)
    (hpos : 0 < e.pot.V a.phi_i / 3 * exp (2 * n) - e.K)
    (ht : e.track_time = true → a.t_i ≠ none) (heta : e.track_eta = true → a.eta_i ≠ none)
    (y0 : ℕ → Option ℝ) :
    ∃ ic y z H, SlowRollIC.init (.N e) a = .ok ic ∧ SlowRollIC.call (.N e) ic y0 = .ok y ∧
      Numbers y z 2 ∧ ic.H_i = some H ∧ 0 < H ∧ IC.x_ini (.N e) ic = some n ∧
      InflN.phi z = a.phi_i ∧
      H ^ 2 = e.pot.V a.phi_i / 3 - e.K * exp (-2 * n) ∧
      3 * H ^ 2 * InflN.dphidN z = -e.pot.dV a.phi_i ∧
      (0 < e.pot.dV a.phi_i → InflN.dphidN z < 0) ∧ (e.pot.dV a.phi_i < 0 → 0 < InflN.dphidN z) ∧
      (InflN.dphidN z ^ 2 ≠ 6 → e.H2 n z = H ^ 2 / (1 - InflN.dphidN z ^ 2 / 6)) := by
  have hpos' : 0 < e.pot.V a.phi_i / 3 - e.K * exp (-2 * n) := by
    have : e.pot.V a.phi_i / 3 - e.K * exp (-2 * n) =
        (e.pot.V a.phi_i / 3 * exp (2 * n) - e.K) * exp (-2 * n) := by
      rw [sub_mul, mul_assoc, ← exp_add]; simp
    rw [this]; exact mul_pos hpos (exp_pos _)
  obtain ⟨H, hH⟩ : ∃ H, H = √(e.pot.V a.phi_i / 3 - e.K * exp (-2 * n)) := ⟨_, rfl⟩
  have hHpos : 0 < H := by rw [hH]; exact sqrt_pos.2 hpos'
  have hsq : H ^ 2 = e.pot.V a.phi_i / 3 - e.K * exp (-2 * n) := by rw [hH]; exact sq_sqrt hpos'.le
  obtain ⟨ic, hic⟩ : ∃ ic : IC, ic = ⟨a.phi_i, a.t_i, a.eta_i, a.x_end, e.pot.V a.phi_i,
    e.pot.dV a.phi_i, some n, nanDiv (-e.K) (e.pot.V a.phi_i / 3 * exp (2 * n) - e.K),
    nanSqrt (e.pot.V a.phi_i / 3 * exp (2 * n) - e.K),
    mulExpNeg (nanSqrt (e.pot.V a.phi_i / 3 * exp (2 * n) - e.K)) (some n)⟩ := ⟨_, rfl⟩
  have hinit : SlowRollIC.init (.N e) a = .ok ic := by
    rw [hic]
    simp only [SlowRollIC.init, hn, hΩ]
    exact if_neg (not_lt.2 hpos.le)
  have hHi : ic.H_i = some H := by
    rw [hic, hH]
    simp only [nanSqrt]
    rw [if_pos hpos.le]
    simp only [mulExpNeg, Option.bind_some, Option.map_some]
    rw [C27.sqrt_scale]
  obtain ⟨y, hy, hrows, -⟩ := C26_slowroll (.N e) ic
    (by rw [hic]; exact ⟨fun h => ht h, fun h => heta h⟩) y0
  have i0 : Dict.get? (Eqs.N e).idx "phi" = some 0 := by
    obtain ⟨K, pot, tt, te⟩ := e; cases tt <;> cases te <;> rfl
  have i1 : Dict.get? (Eqs.N e).idx "dphidN" = some 1 := by
    obtain ⟨K, pot, tt, te⟩ := e; cases tt <;> cases te <;> rfl
  have r0 : y 0 = some a.phi_i := by rw [(hrows _ _ i0).1 rfl, hic]
  have r1 : y 1 = some (-e.pot.dV a.phi_i / (3 * H ^ 2)) := by
    rw [(hrows _ _ i1).2.2.2.2.2 rfl, SlowRollIC.dphidN_i, hHi, hic, Option.bind_some, nanDiv,
      if_neg (by positivity)]
  have h3H : 0 < 3 * H ^ 2 := by positivity
  refine ⟨ic, y, fun i => if i = 0 then a.phi_i else -e.pot.dV a.phi_i / (3 * H ^ 2),
    H, hinit, hy, ?_, hHi, hHpos, by rw [hic]; rfl, by simp [InflN.phi], hsq, ?_, ?_, ?_, ?_⟩
  · intro i hi
    match i, hi with
    | 0, _ => simpa using r0
    | 1, _ => simpa using r1
  · simp only [InflN.dphidN, one_ne_zero, if_false]
    field_simp
  · intro h
    simp only [InflN.dphidN, one_ne_zero, if_false]
    exact div_neg_of_neg_of_pos (by linarith) h3H
  · intro h
    simp only [InflN.dphidN, one_ne_zero, if_false]
    exact div_pos (by linarith) h3H
  · intro h6
    have h6' : (6 : ℝ) - InflN.dphidN (fun i => if i = 0 then a.phi_i else
      -e.pot.dV a.phi_i / (3 * H ^ 2)) ^ 2 ≠ 0 := fun h => h6 (by linarith)
    have h7 : 1 - InflN.dphidN (fun i => if i = 0 then a.phi_i else
      -e.pot.dV a.phi_i / (3 * H ^ 2)) ^ 2 / 6 ≠ 0 := fun h => h6' (by linarith)
    unfold InflN.H2 N.get_H2
    rw [div_eq_div_iff h6' h7]
    simp only [InflN.V, InflN.phi, if_true]
    rw [hsq]
    ring

theorem C29.gap (h u : ℝ) (hh : 0 < h) (hu : u ^ 2 < 6) :
    (h ^ 2 + (h * u) ^ 2 / 6 = h ^ 2 / (1 - u ^ 2 / 6) ↔ u = 0) ∧
    h ^ 2 / (1 - u ^ 2 / 6) - (h ^ 2 + (h * u) ^ 2 / 6) = h ^ 2 * (u ^ 4 / 36 / (1 - u ^ 2 / 6)) := by
  have h1 : 0 < 1 - u ^ 2 / 6 := by linarith
  have e : h ^ 2 / (1 - u ^ 2 / 6) - (h ^ 2 + (h * u) ^ 2 / 6) =
      h ^ 2 * (u ^ 4 / 36 / (1 - u ^ 2 / 6)) := by
    have := h1.ne'
    have h6 : (6 : ℝ) - u ^ 2 ≠ 0 := (by linarith : (0:ℝ) < 6 - u ^ 2).ne'
    rw [eq_comm, ← sub_eq_zero]
    field_simp
    ring
  refine ⟨⟨fun hc => ?_, fun hc => by subst hc; simp⟩, e⟩
  have : h ^ 2 * (u ^ 4 / 36 / (1 - u ^ 2 / 6)) = 0 := by rw [← e]; linarith
  rcases mul_eq_zero.1 this with h0 | h0
  · exact absurd h0 (pow_pos hh 2).ne'
  · rw [div_eq_zero_iff] at h0
    rcases h0 with h0 | h0
    · have : u ^ 4 = 0 := by linarith
      exact pow_eq_zero_iff (by norm_num) |>.1 this
    · exact absurd h0 h1.ne'

/-- **C29, the two formulations start slightly apart.**  Same potential, curvature and arguments: both
classes write the same field value, but the Hubble rate the equations then see is larger in the
e-fold formulation by the relative amount `u⁴/36/(1 - u²/6)`, `u = -V'/(3 H_i²)`; the two agree
exactly iff `V' = 0` at the starting point. -/
theorem C29_T_vs_N (eT : InflT) (eN : InflN) (hK : eN.K = eT.K) (hp : eN.pot = eT.pot)
    (a : ICArgs) (n : ℝ) (hn : a.N_i = some n) (hΩ : a.Omega_Ki = none)
    (hpos : 0 < eT.pot.V a.phi_i / 3 * exp (2 * n) - eT.K)
    (hteta : eT.track_eta = true → a.eta_i ≠ none)
    (ht : eN.track_time = true → a.t_i ≠ none) (heta : eN.track_eta = true → a.eta_i ≠ none)
    (y0 : ℕ → Option ℝ) :
    ∃ icT icN yT yN zT zN, SlowRollIC.init (.T eT) a = .ok icT ∧ SlowRollIC.init (.N eN) a = .ok icN ∧
      SlowRollIC.call (.T eT) icT y0 = .ok yT ∧ SlowRollIC.call (.N eN) icN y0 = .ok yN ∧
      Numbers yT zT 3 ∧ Numbers yN zN 2 ∧ InflT.phi zT = InflN.phi zN ∧ icT.H_i = icN.H_i ∧
      (InflN.dphidN zN ^ 2 < 6 →
        (eT.H2 zT = eN.H2 n zN ↔ eT.pot.dV a.phi_i = 0) ∧
        ∃ H, icT.H_i = some H ∧
        eN.H2 n zN - eT.H2 zT =
          H ^ 2 * (InflN.dphidN zN ^ 4 / 36 / (1 - InflN.dphidN zN ^ 2 / 6))) := by
  obtain ⟨icT, yT, zT, H, a1, a2, a3, a4, a5, a6, -, a8, a9, -, -, a12⟩ :=
    C29_T eT a n hn hΩ hpos hteta y0
  obtain ⟨icN, yN, zN, H', b1, b2, b3, b4, b5, -, b6, b8, b9, -, -, b12⟩ :=
    C29_N eN a n hn hΩ (by rw [hK, hp]; exact hpos) ht heta y0
  have hHH : H' = H := by
    have : H' ^ 2 = H ^ 2 := by rw [a8, b8, hK, hp]
    exact (pow_left_inj₀ b5.le a5.le two_ne_zero).1 this
  subst hHH
  have hv : InflT.dphidt zT = H' * InflN.dphidN zN := by
    have h3 : (3 * H') ≠ 0 := by positivity
    apply mul_left_cancel₀ h3
    rw [a9, ← hp, ← b9]; ring
  refine ⟨icT, icN, yT, yN, zT, zN, a1, b1, a2, b2, a3, b3, by rw [a6, b6], by rw [a4, b4], ?_⟩
  intro hu
  obtain ⟨g1, g2⟩ := C29.gap H' (InflN.dphidN zN) b5 hu
  have hN := b12 hu.ne
  rw [hN, a12, hv]
  refine ⟨g1.trans ?_, H', a4, g2⟩
  constructor
  · intro h
    rw [h, hp] at b9; linarith
  · intro h
    rw [hp, h] at b9
    rcases mul_eq_zero.1 (b9.trans neg_zero) with h | h
    · exact absurd h (by positivity)
    · exact h

/-- Hypotheses met: flat, `V = 3`, `N_i = 0`. -/
example : (0:ℝ) < 3 / 3 * exp (2 * 0) - 0 := by norm_num

end Primpy
