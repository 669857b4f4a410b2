import Verif.Props.C26

/-!
# C30 — which inputs an initial condition rejects
-/

namespace Primpy
open Real

/-- **C30, `SlowRollIC`: complete decision table.** -/
theorem C30_slowroll (E : Eqs) (a : ICArgs) :
    -- both or neither of `N_i`, `Omega_Ki`: TypeError
    ((a.N_i.isSome = a.Omega_Ki.isSome) →
      ∃ m, SlowRollIC.init E a = .error (.typeError m)) ∧
    -- only `N_i`
    (∀ n, a.N_i = some n → a.Omega_Ki = none →
      (E.pot.V a.phi_i / 3 * exp (2 * n) < E.K → SlowRollIC.init E a = .error (.inflationStart "closed")) ∧
      (E.K ≤ E.pot.V a.phi_i / 3 * exp (2 * n) → ∃ ic, SlowRollIC.init E a = .ok ic)) ∧
    -- only `Omega_Ki`
    (∀ Ω, a.N_i = none → a.Omega_Ki = some Ω →
      (1 ≤ Ω → SlowRollIC.init E a = .error (.inflationStart "open")) ∧
      (Ω = 0 → ∃ m, SlowRollIC.init E a = .error (.zeroDivision m)) ∧
      (Ω < 1 → Ω ≠ 0 → ∃ ic, SlowRollIC.init E a = .ok ic)) := by
  refine ⟨fun h => ?_, fun n hn hΩ => ⟨fun h => ?_, fun h => ?_⟩, fun Ω hn hΩ => ⟨fun h => ?_, fun h => ?_,
    fun h h0 => ?_⟩⟩
  · unfold SlowRollIC.init
    cases h1 : a.N_i <;> cases h2 : a.Omega_Ki
    · exact ⟨_, rfl⟩
    · simp [h1, h2] at h
    · simp [h1, h2] at h
    · exact ⟨_, rfl⟩
  · unfold SlowRollIC.init
    simp only [hn, hΩ, if_pos (sub_neg.2 h)]
  · unfold SlowRollIC.init
    simp only [hn, hΩ, if_neg (not_lt.2 (sub_nonneg.2 h))]
    exact ⟨_, rfl⟩
  · unfold SlowRollIC.init
    simp only [hn, hΩ, if_pos h]
  · unfold SlowRollIC.init
    subst h
    exact ⟨"1 / Omega_Ki", by simp [hn, hΩ]⟩
  · unfold SlowRollIC.init
    simp only [hn, hΩ, if_neg (not_le.2 h), if_neg h0]
    exact ⟨_, rfl⟩

/-- **C30, `InflationStartIC`: complete decision table.** -/
theorem C30_inflationstart (E : Eqs) (a : ICArgs) :
    (a.N_i = none → a.Omega_Ki = none → ∃ m, InflationStartIC.init E a = .error (.typeError m)) ∧
    (a.N_i.isSome = true → a.Omega_Ki.isSome = true →
      ∃ m, InflationStartIC.init E a = .error (.assertion m)) ∧
    (∀ n, a.N_i = some n → a.Omega_Ki = none →
      (E.pot.V a.phi_i / 2 * exp (2 * n) < E.K →
        InflationStartIC.init E a = .error (.inflationStart "closed")) ∧
      (E.K ≤ E.pot.V a.phi_i / 2 * exp (2 * n) → ∃ ic, InflationStartIC.init E a = .ok ic)) ∧
    (∀ Ω, a.N_i = none → a.Omega_Ki = some Ω →
      (1 ≤ Ω → InflationStartIC.init E a = .error (.inflationStart "open")) ∧
      (Ω = 0 → ∃ m, InflationStartIC.init E a = .error (.zeroDivision m)) ∧
      (Ω < 1 → Ω ≠ 0 → ∃ ic, InflationStartIC.init E a = .ok ic)) := by
  refine ⟨fun hn hΩ => ?_, fun hn hΩ => ?_, fun n hn hΩ => ⟨fun h => ?_, fun h => ?_⟩,
    fun Ω hn hΩ => ⟨fun h => ?_, fun h => ?_, fun h h0 => ?_⟩⟩
  · unfold InflationStartIC.init; simp only [hn, hΩ]; exact ⟨_, rfl⟩
  · obtain ⟨n, hn⟩ := Option.isSome_iff_exists.1 hn
    unfold InflationStartIC.init
    simp only [hn, hΩ]
    exact ⟨_, rfl⟩
  · unfold InflationStartIC.init
    simp only [hn, hΩ, Option.isSome_none, Bool.false_eq_true, if_false, if_pos (sub_neg.2 h)]
  · unfold InflationStartIC.init
    simp only [hn, hΩ, Option.isSome_none, Bool.false_eq_true, if_false,
      if_neg (not_lt.2 (sub_nonneg.2 h))]
    exact ⟨_, rfl⟩
  · unfold InflationStartIC.init
    simp only [hn, hΩ, if_pos h]
  · unfold InflationStartIC.init
    subst h
    exact ⟨"1 / Omega_Ki", by simp [hn, hΩ]⟩
  · unfold InflationStartIC.init
    simp only [hn, hΩ, if_neg (not_le.2 h), if_neg h0]
    exact ⟨_, rfl⟩

/-- **C30, calling: tracked quantities must be given.** -/
theorem C30_call (E : Eqs) (ic : IC) (vt vN : Option ℝ) (y0 : ℕ → Option ℝ) :
    (∀ K p, E = .other K p → ∃ m, writeY0 E ic vt vN y0 = .error (.notImplemented m)) ∧
    ((∃ e : InflN, E = .N e ∧ e.track_time = true ∧ ic.t_i = none) →
      writeY0 E ic vt vN y0 = .error (.assertion "t_i")) ∧
    ((∃ e : InflN, E = .N e ∧ (e.track_time = true → ic.t_i ≠ none) ∧ e.track_eta = true ∧
        ic.eta_i = none) → writeY0 E ic vt vN y0 = .error (.assertion "eta_i")) ∧
    ((∃ e : InflT, E = .T e ∧ e.track_eta = true ∧ ic.eta_i = none) →
      writeY0 E ic vt vN y0 = .error (.assertion "eta_i")) := by
  refine ⟨?_, ?_, ?_, ?_⟩
  · rintro K p rfl; exact ⟨_, rfl⟩
  · rintro ⟨⟨K, pot, tt, te⟩, rfl, ht, hi⟩
    simp only at ht
    subst ht
    simp only [writeY0, hi]
    cases te <;> rfl
  · rintro ⟨⟨K, pot, tt, te⟩, rfl, ht, he, hi⟩
    simp only at ht he
    subst he
    cases tt with
    | false => simp only [writeY0, hi]; rfl
    | true =>
      obtain ⟨v, hv⟩ : ∃ v, ic.t_i = some v := Option.ne_none_iff_exists'.1 (ht rfl)
      simp only [writeY0, hi, hv]; rfl
  · rintro ⟨⟨K, pot, te⟩, rfl, he, hi⟩
    simp only at he
    subst he
    simp only [writeY0, hi]; rfl

/-- **C30, the boundary is accepted.**  A closed universe exactly at `aH² = 0` is not rejected although
the message says "needs to be > 0": the initial condition is built with `H_i = 0`, without a finite
`Omega_Ki`, and without a finite `dphidN` (the cosmic-time velocity is fine). -/
theorem C30_boundary_accepted (E : Eqs) (a : ICArgs) (n : ℝ) (hn : a.N_i = some n)
    (hΩ : a.Omega_Ki = none) (hb : E.pot.V a.phi_i / 2 * exp (2 * n) = E.K)
    (hV : 0 < E.pot.V a.phi_i) :
    ∃ ic, InflationStartIC.init E a = .ok ic ∧ ic.aH_i = some 0 ∧ ic.H_i = some 0 ∧
      ic.Omega_Ki = none ∧ InflationStartIC.dphidN_i ic = none ∧
      InflationStartIC.dphidt_i ic = some (-√(E.pot.V a.phi_i)) := by
  have h0 : E.pot.V a.phi_i / 2 - E.K * exp (-2 * n) = 0 := by
    rw [← hb, mul_assoc, ← exp_add]; simp
  unfold InflationStartIC.init
  simp only [hn, hΩ, hb, Option.isSome_none, Bool.false_eq_true, if_false, sub_self, lt_irrefl,
    Option.bind_some, h0]
  refine ⟨_, rfl, ?_, ?_, ?_, ?_, ?_⟩ <;>
    simp [nanSqrt, nanDiv, InflationStartIC.dphidN_i, InflationStartIC.dphidt_i, hV.le]

/-- **C30, the boundary of `SlowRollIC` is accepted too**, and there neither velocity is finite. -/
theorem C30_boundary_slowroll (E : Eqs) (a : ICArgs) (n : ℝ) (hn : a.N_i = some n)
    (hΩ : a.Omega_Ki = none) (hb : E.pot.V a.phi_i / 3 * exp (2 * n) = E.K) :
    ∃ ic, SlowRollIC.init E a = .ok ic ∧ ic.aH_i = some 0 ∧ ic.H_i = some 0 ∧
      ic.Omega_Ki = none ∧ SlowRollIC.dphidN_i ic = none ∧ SlowRollIC.dphidt_i ic = none := by
  unfold SlowRollIC.init
  simp only [hn, hΩ, hb, sub_self, lt_irrefl, if_false]
  refine ⟨_, rfl, ?_, ?_, ?_, ?_, ?_⟩ <;>
    simp [nanSqrt, nanDiv, mulExpNeg, SlowRollIC.dphidN_i, SlowRollIC.dphidt_i]

/-- **C30, curvature of the wrong sign is accepted silently.**  `Omega_Ki < 1` with the sign of `K`
(instead of the opposite one), or any `Omega_Ki` in a flat universe, raises nothing; `N_i` is not a
number. -/
theorem C30_wrong_sign_accepted (E : Eqs) (a : ICArgs) (Ω : ℝ) (hn : a.N_i = none)
    (hΩ : a.Omega_Ki = some Ω) (h1 : Ω < 1) (h0 : Ω ≠ 0) (hV : 0 < E.pot.V a.phi_i)
    (hs : 0 ≤ E.K * Ω) :
    ∃ ic, InflationStartIC.init E a = .ok ic ∧ ic.N_i = none ∧ ic.H_i = none := by
  have hneg : ¬ 0 < 2 * E.K / E.pot.V a.phi_i * (1 - 1 / Ω) := by
    have e : 2 * E.K / E.pot.V a.phi_i * (1 - 1 / Ω) =
        2 / E.pot.V a.phi_i * ((E.K * Ω) * (Ω - 1) / Ω ^ 2) := by
      field_simp
    rw [e, not_lt]
    refine mul_nonpos_of_nonneg_of_nonpos (by positivity) ?_
    exact div_nonpos_of_nonpos_of_nonneg (mul_nonpos_of_nonneg_of_nonpos hs (by linarith)) (sq_nonneg _)
  unfold InflationStartIC.init
  simp only [hn, hΩ, if_neg (not_le.2 h1), if_neg h0]
  refine ⟨_, rfl, ?_, ?_⟩
  · simp only [nanLog, if_neg hneg, Option.map_none]
  · simp only [nanLog, if_neg hneg, Option.map_none, Option.bind_none]

/-- **C30, cosmic time without `t_i` is accepted.**  Unlike the tracked case in e-folds nothing checks
`t_i`, and the starting point handed to the solver is `None`. -/
theorem C30_T_without_t_i (e : InflT) (a : ICArgs) (ic : IC) (ht : a.t_i = none)
    (heta : e.track_eta = true → a.eta_i ≠ none)
    (h : InflationStartIC.init (.T e) a = .ok ic) (y0 : ℕ → Option ℝ) :
    (∃ y, InflationStartIC.call (.T e) ic y0 = .ok y) ∧ IC.x_ini (.T e) ic = none := by
  have hti : ic.t_i = a.t_i ∧ ic.eta_i = a.eta_i := by
    unfold InflationStartIC.init at h
    cases h1 : a.N_i with
    | some n =>
      rw [h1] at h; simp only at h
      split_ifs at h
      injection h with h; subst h; exact ⟨rfl, rfl⟩
    | none =>
      rw [h1] at h; simp only at h
      cases h2 : a.Omega_Ki with
      | none => rw [h2] at h; simp at h
      | some Ω =>
        rw [h2] at h; simp only at h
        split_ifs at h
        injection h with h; subst h; exact ⟨rfl, rfl⟩
  refine ⟨?_, by rw [IC.x_ini, hti.1, ht]⟩
  obtain ⟨y, hy, -, -⟩ := C26_inflationstart (.T e) ic (by intro h; rw [hti.2]; exact heta h) y0
  exact ⟨y, hy⟩

/-- Hypotheses met: closed universe with `V = 2` at `N_i = 0` is exactly on the boundary. -/
example : (2:ℝ) / 2 * exp (2 * 0) = 1 := by norm_num

end Primpy
