import Verif.Model.InitialConditions

/-!
# C27 — giving `N_i` and giving `Omega_Ki` are interchangeable for curved universes
-/

namespace Primpy
open Real

namespace C27

/-- e-folds from curvature density: `e^{2N} = (K/(cV))(1 - 1/Ω)` inverts `Ω = -K/(cV e^{2N} - K)`. -/
theorem fwd {K V c n : ℝ} (hK : K ≠ 0) (hV : 0 < V) (hc : 0 < c) (h : 0 < c * V * exp (2 * n) - K) :
    -K / (c * V * exp (2 * n) - K) < 1 ∧ -K / (c * V * exp (2 * n) - K) ≠ 0 ∧
    K / (c * V) * (1 - 1 / (-K / (c * V * exp (2 * n) - K))) = exp (2 * n) ∧
    -K / (-K / (c * V * exp (2 * n) - K)) = c * V * exp (2 * n) - K := by
  have he := exp_pos (2 * n)
  refine ⟨?_, ?_, ?_, ?_⟩
  · rw [div_lt_one h]
    have : 0 < c * V * exp (2 * n) := by positivity
    linarith
  · exact div_ne_zero (neg_ne_zero.2 hK) h.ne'
  · have := h.ne'
    field_simp
    ring
  · have := h.ne'
    field_simp

theorem bwd {K V c Ω : ℝ} (hV : 0 < V) (hc : 0 < c) (hΩ1 : Ω < 1) (hs : K * Ω < 0) :
    0 < K / (c * V) * (1 - 1 / Ω) ∧
    c * V * (K / (c * V) * (1 - 1 / Ω)) - K = -K / Ω ∧ 0 < -K / Ω := by
  have hcV : 0 < c * V := mul_pos hc hV
  rcases mul_neg_iff.1 hs with ⟨hK, hΩ⟩ | ⟨hK, hΩ⟩
  · have h1 : 1 / Ω < 0 := one_div_neg.2 hΩ
    refine ⟨mul_pos (div_pos hK hcV) (by linarith), ?_, div_pos_of_neg_of_neg (by linarith) hΩ⟩
    have := hΩ.ne
    field_simp; ring
  · have h1 : 1 < 1 / Ω := by rw [lt_div_iff₀ hΩ]; linarith
    refine ⟨mul_pos_of_neg_of_neg (div_neg_of_neg_of_pos hK hcV) (by linarith), ?_,
      div_pos (by linarith) hΩ⟩
    have := hΩ.ne'
    field_simp; ring

theorem two_log_half {x : ℝ} (hx : 0 < x) : exp (2 * (log x / 2)) = x := by
  rw [show 2 * (log x / 2) = log x by ring, exp_log hx]

theorem exp_neg_two (n : ℝ) : exp (-2 * n) = 1 / exp (2 * n) := by
  rw [show -2 * n = -(2 * n) by ring, exp_neg, one_div]

/-- `√(cVe^{2N} - K) e^{-N} = √(cV - K e^{-2N})` -/
theorem sqrt_scale {K W n : ℝ} : √(W * exp (2 * n) - K) * exp (-n) = √(W - K * exp (-2 * n)) := by
  have h1 : √(exp (-2 * n)) = exp (-n) := by
    rw [show -2 * n = -n + -n by ring, exp_add, ← sq, sqrt_sq (exp_pos _).le]
  have h2 : W - K * exp (-2 * n) = (W * exp (2 * n) - K) * exp (-2 * n) := by
    rw [sub_mul, mul_assoc, ← exp_add, show 2 * n + -2 * n = 0 by ring, exp_zero, mul_one]
  rw [h2, sqrt_mul' _ (exp_pos _).le, h1]

end C27

/-- **C27, from `N_i` to `Omega_Ki` and back, `InflationStartIC`.**  The `Omega_Ki` that is inferred
from `N_i`, given instead of `N_i`, constructs the identical initial condition. -/
theorem C27_N_to_Omega_start (E : Eqs) (a : ICArgs) (n : ℝ) (hK : E.K ≠ 0)
    (hV : 0 < E.pot.V a.phi_i) (hn : a.N_i = some n) (hΩ : a.Omega_Ki = none)
    (hpos : 0 < E.pot.V a.phi_i / 2 * exp (2 * n) - E.K) :
    ∃ ic Ω, InflationStartIC.init E a = .ok ic ∧ ic.Omega_Ki = some Ω ∧ ic.N_i = some n ∧
      InflationStartIC.init E { a with N_i := none, Omega_Ki := some Ω } = .ok ic := by
  obtain ⟨V, hVe⟩ : ∃ V, V = E.pot.V a.phi_i := ⟨_, rfl⟩
  rw [← hVe] at hV hpos
  have hc : V / 2 * exp (2 * n) = 1/2 * V * exp (2 * n) := by ring
  have hf := C27.fwd (n := n) hK hV (c := 1/2) (by norm_num) (by rw [← hc]; exact hpos)
  rw [← hc] at hf
  obtain ⟨h1, h2, h3, h4⟩ := hf
  have hsq : (√(V / 2 * exp (2 * n) - E.K)) ^ 2 = V / 2 * exp (2 * n) - E.K := sq_sqrt hpos.le
  have hN : nanLog (2 * E.K / V * (1 - 1 / (-E.K / (V / 2 * exp (2 * n) - E.K)))) = some (2 * n) := by
    have e : 2 * E.K / V = E.K / (1/2 * V) := by field_simp
    rw [e, h3, nanLog, if_pos (exp_pos _), log_exp]
  refine ⟨⟨a.phi_i, a.t_i, a.eta_i, a.x_end, V, E.pot.dV a.phi_i, some n,
    (nanSqrt (V / 2 * exp (2 * n) - E.K)).bind fun h => nanDiv (-E.K) (h ^ 2),
    nanSqrt (V / 2 * exp (2 * n) - E.K), nanSqrt (V / 2 - E.K * exp (-2 * n))⟩,
    -E.K / (V / 2 * exp (2 * n) - E.K), ?_, ?_, rfl, ?_⟩
  · simp only [InflationStartIC.init, hn, hΩ, ← hVe, Option.isSome_none, Bool.false_eq_true, if_false,
      if_neg (not_lt.2 hpos.le), Option.bind_some]
  · simp only [nanSqrt, if_pos hpos.le, Option.bind_some, hsq, nanDiv, if_neg hpos.ne']
  · simp only [InflationStartIC.init, ← hVe, if_neg (not_le.2 h1), if_neg h2, hN, h4, nanSqrt,
      if_pos hpos.le, Option.map_some, hsq, Option.bind_some, nanDiv, if_neg hpos.ne', show 2 * n / 2 = n by ring]

/-- **C27, from `Omega_Ki` to `N_i` and back, `InflationStartIC`.** -/
theorem C27_Omega_to_N_start (E : Eqs) (a : ICArgs) (Ω : ℝ) (hV : 0 < E.pot.V a.phi_i)
    (hn : a.N_i = none) (hΩ : a.Omega_Ki = some Ω) (hΩ1 : Ω < 1) (hs : E.K * Ω < 0) :
    ∃ ic n, InflationStartIC.init E a = .ok ic ∧ ic.N_i = some n ∧ ic.Omega_Ki = some Ω ∧
      InflationStartIC.init E { a with N_i := some n, Omega_Ki := none } = .ok ic := by
  obtain ⟨V, hVe⟩ : ∃ V, V = E.pot.V a.phi_i := ⟨_, rfl⟩
  rw [← hVe] at hV
  obtain ⟨h1, h2, h3⟩ := C27.bwd hV (c := 1/2) (by norm_num) hΩ1 hs
  have hΩ0 : Ω ≠ 0 := by rintro rfl; simp at hs
  have hK0 : E.K ≠ 0 := by intro h; rw [h] at hs; simp at hs
  have e : 2 * E.K / V = E.K / (1/2 * V) := by field_simp
  have hX := C27.two_log_half h1
  have h5 : V / 2 * exp (2 * (log (E.K / (1/2 * V) * (1 - 1 / Ω)) / 2)) - E.K = -E.K / Ω := by
    rw [hX, ← h2]; ring
  refine ⟨⟨a.phi_i, a.t_i, a.eta_i, a.x_end, V, E.pot.dV a.phi_i,
    some (log (E.K / (1/2 * V) * (1 - 1 / Ω)) / 2), some Ω, nanSqrt (-E.K / Ω),
    nanSqrt (V / 2 - E.K * exp (-2 * (log (E.K / (1/2 * V) * (1 - 1 / Ω)) / 2)))⟩,
    log (E.K / (1/2 * V) * (1 - 1 / Ω)) / 2, ?_, rfl, rfl, ?_⟩
  · simp only [InflationStartIC.init, hn, hΩ, ← hVe, if_neg (not_le.2 hΩ1), if_neg hΩ0,
      e, nanLog, if_pos h1, Option.map_some, Option.bind_some]
  · simp only [InflationStartIC.init, ← hVe, Option.isSome_none, Bool.false_eq_true, if_false, h5,
      if_neg (not_lt.2 h3.le), e, nanLog, if_pos h1, Option.map_some, nanSqrt, if_pos h3.le,
      sq_sqrt h3.le, Option.bind_some, nanDiv, if_neg h3.ne']
    congr 3
    field_simp

/-- **C27, from `N_i` to `Omega_Ki` and back, `SlowRollIC`.** -/
theorem C27_N_to_Omega_slowroll (E : Eqs) (a : ICArgs) (n : ℝ) (hK : E.K ≠ 0)
    (hV : 0 < E.pot.V a.phi_i) (hn : a.N_i = some n) (hΩ : a.Omega_Ki = none)
    (hpos : 0 < E.pot.V a.phi_i / 3 * exp (2 * n) - E.K) :
    ∃ ic Ω, SlowRollIC.init E a = .ok ic ∧ ic.Omega_Ki = some Ω ∧ ic.N_i = some n ∧
      SlowRollIC.init E { a with N_i := none, Omega_Ki := some Ω } = .ok ic := by
  obtain ⟨V, hVe⟩ : ∃ V, V = E.pot.V a.phi_i := ⟨_, rfl⟩
  rw [← hVe] at hV hpos
  have hc : V / 3 * exp (2 * n) = 1/3 * V * exp (2 * n) := by ring
  have hf := C27.fwd (n := n) hK hV (c := 1/3) (by norm_num) (by rw [← hc]; exact hpos)
  rw [← hc] at hf
  obtain ⟨h1, h2, h3, h4⟩ := hf
  have hN : nanLog (3 * E.K / V * (1 - 1 / (-E.K / (V / 3 * exp (2 * n) - E.K)))) = some (2 * n) := by
    have e : 3 * E.K / V = E.K / (1/3 * V) := by field_simp
    rw [e, h3, nanLog, if_pos (exp_pos _), log_exp]
  refine ⟨⟨a.phi_i, a.t_i, a.eta_i, a.x_end, V, E.pot.dV a.phi_i, some n,
    some (-E.K / (V / 3 * exp (2 * n) - E.K)), nanSqrt (V / 3 * exp (2 * n) - E.K),
    mulExpNeg (nanSqrt (V / 3 * exp (2 * n) - E.K)) (some n)⟩,
    -E.K / (V / 3 * exp (2 * n) - E.K), ?_, rfl, rfl, ?_⟩
  · simp only [SlowRollIC.init, hn, hΩ, ← hVe, if_neg (not_lt.2 hpos.le), nanDiv, if_neg hpos.ne']
  have e2 : (2 * n) / 2 = n := by ring
  simp only [SlowRollIC.init, ← hVe, if_neg (not_le.2 h1), if_neg h2, hN, h4, nanSqrt,
      if_pos hpos.le, Option.map_some, e2]

/-- **C27, from `Omega_Ki` to `N_i` and back, `SlowRollIC`.** -/
theorem C27_Omega_to_N_slowroll (E : Eqs) (a : ICArgs) (Ω : ℝ) (hV : 0 < E.pot.V a.phi_i)
    (hn : a.N_i = none) (hΩ : a.Omega_Ki = some Ω) (hΩ1 : Ω < 1) (hs : E.K * Ω < 0) :
    ∃ ic n, SlowRollIC.init E a = .ok ic ∧ ic.N_i = some n ∧ ic.Omega_Ki = some Ω ∧
      SlowRollIC.init E { a with N_i := some n, Omega_Ki := none } = .ok ic := by
  obtain ⟨V, hVe⟩ : ∃ V, V = E.pot.V a.phi_i := ⟨_, rfl⟩
  rw [← hVe] at hV
  obtain ⟨h1, h2, h3⟩ := C27.bwd hV (c := 1/3) (by norm_num) hΩ1 hs
  have hΩ0 : Ω ≠ 0 := by rintro rfl; simp at hs
  have hK0 : E.K ≠ 0 := by intro h; rw [h] at hs; simp at hs
  have e : 3 * E.K / V = E.K / (1/3 * V) := by field_simp
  have hX := C27.two_log_half h1
  have h5 : V / 3 * exp (2 * (log (E.K / (1/3 * V) * (1 - 1 / Ω)) / 2)) - E.K = -E.K / Ω := by
    rw [hX, ← h2]; ring
  refine ⟨⟨a.phi_i, a.t_i, a.eta_i, a.x_end, V, E.pot.dV a.phi_i,
    some (log (E.K / (1/3 * V) * (1 - 1 / Ω)) / 2), some Ω, nanSqrt (-E.K / Ω),
    mulExpNeg (nanSqrt (-E.K / Ω)) (some (log (E.K / (1/3 * V) * (1 - 1 / Ω)) / 2))⟩,
    log (E.K / (1/3 * V) * (1 - 1 / Ω)) / 2, ?_, rfl, rfl, ?_⟩
  · simp only [SlowRollIC.init, hn, hΩ, ← hVe, if_neg (not_le.2 hΩ1), if_neg hΩ0,
      e, nanLog, if_pos h1, Option.map_some]
  · simp only [SlowRollIC.init, ← hVe, h5,
      if_neg (not_lt.2 h3.le), e, nanLog, if_pos h1, Option.map_some, nanSqrt, if_pos h3.le,
      nanDiv, if_neg h3.ne']
    congr 3
    field_simp

/-- **C27, Friedmann equation, `InflationStartIC`.**  However the initial condition was specified,
whenever it has a number for `N_i` and `H_i`, these satisfy the Friedmann equation with the assigned
velocity `φ̇`: `H² = (φ̇²/2 + V)/3 - K e^{-2N}`; `aH_i = e^{N_i} H_i`; and `Omega_Ki = -K/(aH)²`. -/
theorem C27_friedmann_start (E : Eqs) (a : ICArgs) (ic : IC) (h : InflationStartIC.init E a = .ok ic)
    (hV : 0 < E.pot.V a.phi_i) (n H : ℝ) (hn : ic.N_i = some n) (hH : ic.H_i = some H)
    (hHpos : 0 < H) :
    ∃ v Ω, InflationStartIC.dphidt_i ic = some v ∧ ic.Omega_Ki = some Ω ∧
      H ^ 2 = (v ^ 2 / 2 + ic.V_i) / 3 - E.K * exp (-2 * n) ∧
      ic.aH_i = some (exp n * H) ∧ Ω = -E.K / (exp n * H) ^ 2 := by
  obtain ⟨V, hVe⟩ : ∃ V, V = E.pot.V a.phi_i := ⟨_, rfl⟩
  rw [← hVe] at hV
  have key : ∀ W : ℝ, nanSqrt (W / 2 - E.K * exp (-2 * n)) = some H →
      H ^ 2 = W / 2 - E.K * exp (-2 * n) ∧ √(W / 2 * exp (2 * n) - E.K) = exp n * H ∧
      W / 2 * exp (2 * n) - E.K = (exp n * H) ^ 2 := by
    intro W hW
    unfold nanSqrt at hW
    split_ifs at hW with h0
    have hHe := Option.some.inj hW
    have h1 := C27.sqrt_scale (K := E.K) (W := W / 2) (n := n)
    have h2 : √(W / 2 * exp (2 * n) - E.K) = exp n * H := by
      rw [← hHe, ← h1, mul_comm (exp n), mul_assoc, ← exp_add]; simp
    refine ⟨by rw [← hHe, sq_sqrt h0], h2, ?_⟩
    rw [← h2, sq_sqrt]
    have : W / 2 * exp (2 * n) - E.K = (W / 2 - E.K * exp (-2 * n)) * exp (2 * n) := by
      rw [sub_mul, mul_assoc, ← exp_add]; simp
    rw [this]; exact mul_nonneg h0 (exp_pos _).le
  unfold InflationStartIC.init at h
  simp only [← hVe] at h
  cases hNi : a.N_i with
  | some m =>
    rw [hNi] at h
    simp only at h
    split_ifs at h with h1 h2
    injection h with h
    subst h
    simp only [Option.some.injEq] at hn
    subst hn
    simp only [Option.bind_some] at hH
    obtain ⟨k1, k2, k3⟩ := key V hH
    refine ⟨-√V, -E.K / (exp m * H) ^ 2, ?_, ?_, ?_, ?_, rfl⟩
    · simp [InflationStartIC.dphidt_i, nanSqrt, hV.le]
    · simp only [nanSqrt, if_pos (not_lt.1 h2), Option.bind_some, k2, nanDiv,
        if_neg (pow_pos (mul_pos (exp_pos m) hHpos) 2).ne']
    · simp only [neg_sq, sq_sqrt hV.le]; rw [k1]; ring
    · simp only [nanSqrt, if_pos (not_lt.1 h2), k2]
  | none =>
    rw [hNi] at h
    simp only at h
    cases hΩ : a.Omega_Ki with
    | none => rw [hΩ] at h; simp at h
    | some Ω =>
      rw [hΩ] at h
      simp only at h
      split_ifs at h with h1 h2
      injection h with h
      subst h
      simp only at hn hH
      simp only [hn, Option.bind_some] at hH
      obtain ⟨k1, k2, k3⟩ := key V hH
      -- the logarithm determines e^{2n}
      have he : exp (2 * n) = 2 * E.K / V * (1 - 1 / Ω) := by
        unfold nanLog at hn
        split_ifs at hn with hp
        · simp only [Option.map_some, Option.some.injEq] at hn
          rw [← hn, C27.two_log_half hp]
        · simp at hn
      have hr : V / 2 * exp (2 * n) - E.K = -E.K / Ω := by
        rw [he]; field_simp; ring
      rw [hr] at k2 k3
      have hpos : 0 < (exp n * H) ^ 2 := pow_pos (mul_pos (exp_pos n) hHpos) 2
      refine ⟨-√V, Ω, ?_, rfl, ?_, ?_, ?_⟩
      · simp [InflationStartIC.dphidt_i, nanSqrt, hV.le]
      · simp only [neg_sq, sq_sqrt hV.le]; rw [k1]; ring
      · simp only [nanSqrt, k2]
        rw [if_pos (by rw [k3]; exact hpos.le)]
      · rw [← k3]
        have hK : E.K ≠ 0 := by
          intro hK; rw [hK, neg_zero, zero_div] at k3; linarith
        field_simp

/-- Hypotheses met: closed universe, `V = 3`, `N_i = 0`, i.e. `aH² = 1/2`; and `Ω = -2`. -/
example : (0 : ℝ) < 3 / 2 * exp (2 * 0) - 1 ∧ (0:ℝ) < 9 / 3 * exp (2 * 0) - 1 ∧
    (1 : ℝ) * (-2) < 0 ∧ (-2 : ℝ) < 1 := by
  rw [mul_zero, exp_zero]; norm_num

end Primpy
