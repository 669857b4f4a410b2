import Verif.Model.Shooting
import Verif.Props.C26
import Verif.Props.C35
import Verif.Props.C56

/-!
# C31: the shooting initial conditions produce what was asked for
-/

namespace Primpy
open Real
namespace Shooting

/-- Contract of `root_scalar`: the returned value is a root of the objective. -/
def RootContract (O : Oracles) : Prop := ∀ f lo hi r, O.root f lo hi = .ok r → f r = .ok (some 0)

/-- Contract of the terminal event `UntilN`: once seen, the last grid point has reached the bound. -/
def UntilNContract (S : Setup) (O : Oracles) : Prop := ∀ x0 xe y b raw msg, O.integrate x0 xe y (some b) = .ok (raw, msg) →
  (firstEvent raw.events "UntilN").isSome = true → ∃ last, raw.grid.getLast? = some last ∧ b ≤ (view S.E).N last.1 last.2

theorem lastN_eq {S : Setup} {raw : RawSol} {last} (h : raw.grid.getLast? = some last) : lastN S raw = (view S.E).N last.1 last.2 := by
  unfold lastN
  rw [List.getLast?_eq_some_getLast (by simp [RawSol.grid])] at h
  rw [Option.some.inj h]

/-- A run is *as long as* another if inflation starts and ends at the same points: same first grid point, and the same
first start, end and collapse events. -/
def SameInflation (s t : RawSol) : Prop :=
  s.first = t.first ∧ endEvent s.events = endEvent t.events ∧
  ((firstEvent s.events "Collapse").isSome ↔ (firstEvent t.events "Collapse").isSome) ∧
  firstEvent s.events "Inflation_dir1_term0" = firstEvent t.events "Inflation_dir1_term0"

theorem N_tot_same (Q : EqView) (V : ℝ → ℝ) (K : ℝ) {s t : RawSol} (h : SameInflation s t) :
    (inflationSol Q V K s).N_tot = (inflationSol Q V K t).N_tot := by
  obtain ⟨h1, h2, h3, h4⟩ := h
  have hb : (postStart Q s).N_beg = (postStart Q t).N_beg := by
    unfold postStart
    rw [h1, h4]
    by_cases hc : (firstEvent t.events "Collapse").isSome
    · rw [if_pos (h3.2 hc), if_pos hc]
    · rw [if_neg (fun h => hc (h3.1 h)), if_neg hc]
      split_ifs
      · rfl
      · cases firstEvent t.events "Inflation_dir1_term0" <;> rfl
  have he : (postEnd Q V s).N_end = (postEnd Q V t).N_end := by
    unfold postEnd
    rw [h2]
    cases endEvent t.events <;> rfl
  simp only [inflationSol, hb, he]

/-- **C31, `ISIC_Nt`.**  `N_tot > 0` requested, any equations, bracket, integrator and root finder meeting their contracts.
When the initial conditions are set, they are inflation-start conditions for the returned `phi_i` (with the requested
`N_i` or `Omega_Ki`), the trajectory integrated from exactly this state vector inflates for exactly `N_tot` e-folds, and so
does every other run from that state that sees the same start and end of inflation. -/
theorem C31_N_tot (S : Setup) (O : Oracles) (hr : RootContract O) (hu : UntilNContract S O) (N_tot lo hi : ℝ)
    (hN : 0 < N_tot) (r : ℝ) (ic : IC) (y : ℕ → Option ℝ) (hok : isicNt S O N_tot lo hi = .ok (r, ic, y)) :
    InflationStartIC.init S.E ⟨r, S.t_i, S.eta_i, S.x_end, S.N_i, S.Omega_Ki⟩ = .ok ic ∧ ic.phi_i = r ∧
    InflationStartIC.call S.E ic (fun _ => some 0) = .ok y ∧
    ∃ n raw msg, ic.N_i = n ∧ O.integrate (ic.x_ini S.E) ic.x_end y (n.map fun n => n + N_tot + 10) = .ok (raw, msg) ∧
      (inflationSol (view S.E) S.E.pot.V S.E.K raw).N_tot = some N_tot ∧
      (∃ b e, (inflationSol (view S.E) S.E.pot.V S.E.K raw).start.N_beg = some b ∧
        (inflationSol (view S.E) S.E.pot.V S.E.K raw).fin.N_end = some e ∧ e - b = N_tot) ∧
      ∀ outer, SameInflation outer raw → (inflationSol (view S.E) S.E.pot.V S.E.K outer).N_tot = some N_tot := by
  unfold isicNt at hok
  cases h1 : start S hi with
  | error e => rw [h1] at hok; cases hok
  | ok ic0 =>
    rw [h1] at hok
    dsimp only at hok
    cases h2 : O.root (phii2Ntot S O N_tot) lo hi with
    | error e => rw [h2] at hok; cases hok
    | ok r' =>
      rw [h2] at hok
      dsimp only at hok
      cases h3 : start S r' with
      | error e => rw [h3] at hok; cases hok
      | ok ic' =>
        rw [h3] at hok
        dsimp only at hok
        cases h4 : startState S ic' with
        | error e => rw [h4] at hok; cases hok
        | ok y' =>
          rw [h4] at hok
          simp only [Except.ok.injEq, Prod.mk.injEq] at hok
          obtain ⟨rfl, rfl, rfl⟩ := hok
          have hz := hr _ _ _ _ h2
          unfold phii2Ntot at hz
          rw [h3] at hz
          dsimp only at hz
          unfold solve at hz
          rw [h4] at hz
          dsimp only at hz
          have hphi : ic'.phi_i = r' := by
            unfold start InflationStartIC.init at h3
            dsimp only at h3
            split at h3
            · split_ifs at h3
              · cases h3; rfl
            · split at h3
              · split_ifs at h3
                · cases h3; rfl
              · cases h3
          refine ⟨h3, hphi, h4, ic'.N_i, ?_⟩
          cases h5 : O.integrate (ic'.x_ini S.E) ic'.x_end y' (ic'.N_i.map fun n => n + N_tot + 10) with
          | error e => rw [h5] at hz; cases hz
          | ok p =>
            obtain ⟨raw, msg⟩ := p
            rw [h5] at hz
            dsimp only at hz
            refine ⟨raw, msg, rfl, rfl, ?_⟩
            have key : (inflationSol (view S.E) S.E.pot.V S.E.K raw).N_tot = some N_tot := by
              cases h6 : (inflationSol (view S.E) S.E.pot.V S.E.K raw).N_tot with
              | some n =>
                rw [h6] at hz
                simp only [Except.ok.injEq, Option.some.injEq] at hz
                rw [show n = N_tot by linarith]
              | none =>
                exfalso
                rw [h6] at hz
                dsimp only at hz
                have n0 : (0 : ℝ) - N_tot ≠ 0 := by linarith
                split_ifs at hz with c1 c2
                · cases h7 : ic'.N_i with
                  | none => rw [h7] at hz; simp at hz
                  | some n =>
                    rw [h7] at hz
                    simp only [Option.map_some, Except.ok.injEq, Option.some.injEq] at hz
                    rcases c1 with c1 | ⟨n', e1, c1⟩
                    · rw [h7, Option.map_some] at h5
                      obtain ⟨last, hl1, hl2⟩ := hu _ _ _ _ _ _ h5 c1
                      have := hl2.trans_eq (lastN_eq (S := S) hl1).symm
                      linarith
                    · rw [h7, Option.some.injEq] at e1
                      subst e1
                      linarith
                · simp only [Except.ok.injEq, Option.some.injEq] at hz
                  exact n0 hz
                all_goals
                  split at hz
                  · cases hz
                  · simp only [Except.ok.injEq, Option.some.injEq] at hz
                    exact n0 hz
                  · cases hz
            refine ⟨key, ?_, fun outer ho => by rw [N_tot_same _ _ _ ho, key]⟩
            have key' := key
            simp only [inflationSol, Option.bind_eq_some_iff, Option.map_eq_some_iff] at key'
            obtain ⟨e, he, b, hb, hd⟩ := key'
            exact ⟨b, e, hb, he, hd⟩

/-- A root finder on a bracket raises when the objective has the same strict sign at both ends (`root_scalar` with Brent's method). -/
def RejectsSameSign (O : Oracles) : Prop :=
  ∀ f lo hi a b, f lo = .ok (some a) → f hi = .ok (some b) → 0 < a * b → ∃ e, O.root f lo hi = .error e

/-- **C31, the objective.**  A field value that cannot start inflation counts as zero e-folds; so does a run that collapses or whose inflation ends where it
starts; a run that inflates for `n` e-folds counts as `n`.  In each case the objective is that number minus the requested one. -/
theorem C31_objective (S : Setup) (O : Oracles) (N_tot phi : ℝ) :
    (∀ m, InflationStartIC.init S.E ⟨phi, S.t_i, S.eta_i, S.x_end, S.N_i, S.Omega_Ki⟩ = .error (.inflationStart m) →
      phii2Ntot S O N_tot phi = .ok (some (0 - N_tot))) ∧
    ∀ ic y raw msg, InflationStartIC.init S.E ⟨phi, S.t_i, S.eta_i, S.x_end, S.N_i, S.Omega_Ki⟩ = .ok ic →
      InflationStartIC.call S.E ic (fun _ => some 0) = .ok y →
      O.integrate (ic.x_ini S.E) ic.x_end y (ic.N_i.map fun n => n + N_tot + 10) = .ok (raw, msg) →
      (∀ n, (inflationSol (view S.E) S.E.pot.V S.E.K raw).N_tot = some n → phii2Ntot S O N_tot phi = .ok (some (n - N_tot))) ∧
      ((inflationSol (view S.E) S.E.pot.V S.E.K raw).N_tot = none → firstEvent raw.events "UntilN" = none →
        (∀ n last, ic.N_i = some n → raw.grid.getLast? = some last → (view S.E).N last.1 last.2 - n < N_tot) →
        (firstEvent raw.events "Collapse").isSome ∨
          (∃ p, raw.events.get? "Inflation_dir-1_term1" = some [p] ∧ (view S.E).N p.1 p.2 = (view S.E).N raw.first.1 raw.first.2) →
        phii2Ntot S O N_tot phi = .ok (some (0 - N_tot))) := by
  constructor
  · intro m h
    unfold phii2Ntot start
    rw [h]
  · intro ic y raw msg h1 h2 h3
    have hsolve : solve S O ic (ic.N_i.map fun n => n + N_tot + 10) = .ok (raw, msg, inflationSol (view S.E) S.E.pot.V S.E.K raw) := by
      unfold solve startState
      rw [h2]
      dsimp only
      rw [h3]
    constructor
    · intro n hn
      unfold phii2Ntot start
      rw [h1]
      dsimp only
      rw [hsolve]
      dsimp only
      rw [hn]
    · intro hn hu hl hc
      unfold phii2Ntot start
      rw [h1]
      dsimp only
      rw [hsolve]
      dsimp only
      rw [hn]
      dsimp only
      rw [if_neg]
      · by_cases c : seen raw "Collapse"
        · rw [if_pos c]
        · rw [if_neg c]
          rcases hc with hc | ⟨p, hp, hpN⟩
          · exact absurd hc c
          · unfold endAtStart
            rw [hp]
            dsimp only
            rw [decide_eq_true hpN]
      · rintro (hs | ⟨n, e, hs⟩)
        · unfold seen at hs
          rw [hu] at hs
          cases hs
        · have hg := List.getLast?_eq_some_getLast (l := raw.grid) (by simp [RawSol.grid])
          have := hl n _ e hg
          rw [← lastN_eq hg] at this
          exact absurd this (not_lt.2 hs)

/-- **C31, an aborted integration never counts as an answer.**  If inflation did not both start and end, the run did not reach the bound, the universe did not
collapse, and inflation did not end where it starts (the event list is empty, or its single entry lies elsewhere), then the objective of either
shooting class raises, whatever the requested number. -/
theorem C31_aborted (u : SI) (S : Setup) (O : Oracles) (hE : O.emptyTruth ≠ .ok true) (N_tot phi : ℝ) (ic : IC) (y : ℕ → Option ℝ)
    (h1 : InflationStartIC.init S.E ⟨phi, S.t_i, S.eta_i, S.x_end, S.N_i, S.Omega_Ki⟩ = .ok ic)
    (h2 : InflationStartIC.call S.E ic (fun _ => some 0) = .ok y) (raw : RawSol) (msg : String) (bound : Option ℝ)
    (h3 : O.integrate (ic.x_ini S.E) ic.x_end y bound = .ok (raw, msg))
    (hn : (inflationSol (view S.E) S.E.pot.V S.E.K raw).N_tot = none) (hu : firstEvent raw.events "UntilN" = none)
    (hc : firstEvent raw.events "Collapse" = none)
    (he : raw.events.get? "Inflation_dir-1_term1" = some [] ∨
      ∃ p, raw.events.get? "Inflation_dir-1_term1" = some [p] ∧ (view S.E).N p.1 p.2 ≠ (view S.E).N raw.first.1 raw.first.2) :
    (bound = ic.N_i.map (fun n => n + N_tot + 10) →
      (∀ n last, ic.N_i = some n → raw.grid.getLast? = some last → (view S.E).N last.1 last.2 - n < N_tot) →
      ∃ e, phii2Ntot S O N_tot phi = .error e) ∧
    ∀ N_star Omega_K0 h N0, bound = some N0 →
      (∀ last, raw.grid.getLast? = some last → (view S.E).N last.1 last.2 < N0) →
      ∃ e, phii2Nstar u S O N_star Omega_K0 h N0 phi = .error e := by
  have hg := List.getLast?_eq_some_getLast (l := raw.grid) (by simp [RawSol.grid])
  have hcol : ¬ seen raw "Collapse" := by unfold seen; rw [hc]; simp
  have hun : ¬ seen raw "UntilN" := by unfold seen; rw [hu]; simp
  have hend : ∀ b, endAtStart S O raw = .ok b → b = false := by
    intro b hb
    unfold endAtStart at hb
    rcases he with he | ⟨p, he, hp⟩
    · rw [he] at hb
      cases b with
      | false => rfl
      | true => exact absurd hb hE
    · rw [he] at hb
      simp only [Except.ok.injEq] at hb
      rw [← hb, decide_eq_false hp]
  have hsolve : solve S O ic bound = .ok (raw, msg, inflationSol (view S.E) S.E.pot.V S.E.K raw) := by
    unfold solve startState
    rw [h2]
    dsimp only
    rw [h3]
  constructor
  · intro hb hl
    subst hb
    unfold phii2Ntot start
    rw [h1]
    dsimp only
    rw [hsolve]
    dsimp only
    rw [hn]
    dsimp only
    rw [if_neg, if_neg hcol]
    · cases hs : endAtStart S O raw with
      | error e => exact ⟨e, rfl⟩
      | ok b =>
        rw [hend b hs]
        dsimp only
        split_ifs <;> exact ⟨_, rfl⟩
    · rintro (hs | ⟨n, e, hs⟩)
      · exact hun hs
      · have := hl n _ e hg
        rw [← lastN_eq hg] at this
        exact absurd this (not_lt.2 hs)
  · intro N_star Omega_K0 h N0 hb hl
    subst hb
    unfold phii2Nstar start
    rw [h1]
    dsimp only
    rw [hsolve]
    dsimp only
    rw [hn, if_neg (by simp), if_neg, if_neg (by simp), if_neg hcol]
    · cases hs : endAtStart S O raw with
      | error e => exact ⟨e, rfl⟩
      | ok b =>
        rw [hend b hs]
        dsimp only
        split_ifs <;> exact ⟨_, rfl⟩
    · rintro (hs | hs)
      · exact hun hs
      · have := hl _ hg
        rw [← lastN_eq hg] at this
        exact absurd this (not_lt.2 hs)

/-- **C31, too short.**  If the lower bracket end cannot start inflation and the upper one inflates for less than the requested `N_tot > 0`, `ISIC_Nt` raises:
it never settles for a shorter inflation. -/
theorem C31_too_short (S : Setup) (O : Oracles) (hr : RejectsSameSign O) (N_tot lo hi n : ℝ) (hN : 0 < N_tot) (hn : n < N_tot) (m : String)
    (hlo : InflationStartIC.init S.E ⟨lo, S.t_i, S.eta_i, S.x_end, S.N_i, S.Omega_Ki⟩ = .error (.inflationStart m))
    (ic : IC) (y : ℕ → Option ℝ) (raw : RawSol) (msg : String)
    (hhi : InflationStartIC.init S.E ⟨hi, S.t_i, S.eta_i, S.x_end, S.N_i, S.Omega_Ki⟩ = .ok ic)
    (hy : InflationStartIC.call S.E ic (fun _ => some 0) = .ok y)
    (hint : O.integrate (ic.x_ini S.E) ic.x_end y (ic.N_i.map fun n => n + N_tot + 10) = .ok (raw, msg))
    (htot : (inflationSol (view S.E) S.E.pot.V S.E.K raw).N_tot = some n) : ∃ e, isicNt S O N_tot lo hi = .error e := by
  have h1 := (C31_objective S O N_tot lo).1 m hlo
  have h2 := ((C31_objective S O N_tot hi).2 ic y raw msg hhi hy hint).1 n htot
  obtain ⟨e, he⟩ := hr _ lo hi _ _ h1 h2 (mul_pos_of_neg_of_neg (by linarith) (by linarith))
  refine ⟨e, ?_⟩
  unfold isicNt start
  rw [hhi]
  dsimp only
  rw [he]

/-- **C31, `ISIC_NsOk`.**  When the initial conditions are set, the trajectory integrated from exactly this state vector,
calibrated with the given `Omega_K0` and `h`, has `N_star` and `Omega_K0` as requested (and inflates for more than `N_star`
e-folds). -/
theorem C31_N_star (u : SI) (S : Setup) (O : Oracles) (hr : RootContract O) (hu : UntilNContract S O)
    (N_star Omega_K0 h lo hi a0 : ℝ) (hN : N_star ≠ 0) (ha : BB.get_a0 u h Omega_K0 "planck" = .ok a0) (ha0 : 1 < a0)
    (r : ℝ) (ic : IC) (y : ℕ → Option ℝ) (hok : isicNsOk u S O N_star Omega_K0 h lo hi = .ok (r, ic, y)) :
    InflationStartIC.init S.E ⟨r, S.t_i, S.eta_i, S.x_end, S.N_i, S.Omega_Ki⟩ = .ok ic ∧ ic.phi_i = r ∧
    InflationStartIC.call S.E ic (fun _ => some 0) = .ok y ∧
    ∃ raw msg c c' q, O.integrate (ic.x_ini S.E) ic.x_end y (some (log a0)) = .ok (raw, msg) ∧
      calState S.E.K (inflationSol (view S.E) S.E.pot.V S.E.K raw) = some c ∧
      Cal.calibrate u c { method := "Omega_K0", Omega_K0 := some Omega_K0, h := some h } = .ok c' ∧
      c'.cal = some q ∧ q.N_star = N_star ∧ q.Omega_K0 = Omega_K0 ∧
      ∃ n, (inflationSol (view S.E) S.E.pot.V S.E.K raw).N_tot = some n ∧ N_star < n := by
  unfold isicNsOk at hok
  split_ifs at hok with hΩ
  cases h1 : start S hi with
  | error e => rw [h1] at hok; cases hok
  | ok ic0 =>
    rw [h1] at hok
    dsimp only at hok
    rw [ha] at hok
    dsimp only at hok
    cases h2 : O.root (phii2Nstar u S O N_star Omega_K0 h (log a0)) lo hi with
    | error e => rw [h2] at hok; cases hok
    | ok r' =>
      rw [h2] at hok
      dsimp only at hok
      cases h3 : start S r' with
      | error e => rw [h3] at hok; cases hok
      | ok ic' =>
        rw [h3] at hok
        dsimp only at hok
        cases h4 : startState S ic' with
        | error e => rw [h4] at hok; cases hok
        | ok y' =>
          rw [h4] at hok
          simp only [Except.ok.injEq, Prod.mk.injEq] at hok
          obtain ⟨rfl, rfl, rfl⟩ := hok
          have hz := hr _ _ _ _ h2
          unfold phii2Nstar at hz
          rw [h3] at hz
          dsimp only at hz
          unfold solve at hz
          rw [h4] at hz
          dsimp only at hz
          have hphi : ic'.phi_i = r' := by
            unfold start InflationStartIC.init at h3
            dsimp only at h3
            split at h3
            · split_ifs at h3
              · cases h3; rfl
            · split at h3
              · split_ifs at h3
                · cases h3; rfl
              · cases h3
          refine ⟨h3, hphi, h4, ?_⟩
          cases h5 : O.integrate (ic'.x_ini S.E) ic'.x_end y' (some (log a0)) with
          | error e => rw [h5] at hz; cases hz
          | ok p =>
            obtain ⟨raw, msg⟩ := p
            rw [h5] at hz
            dsimp only at hz
            have hlog : 0 < log a0 := log_pos ha0
            have n0 : (0 : ℝ) - N_star ≠ 0 := by simpa using hN
            split_ifs at hz with c1 c2 c3 c4
            · cases h6 : calState S.E.K (inflationSol (view S.E) S.E.pot.V S.E.K raw) with
              | none => rw [h6] at hz; simp at hz
              | some c =>
                rw [h6] at hz
                dsimp only at hz
                have hcK : c.K = S.E.K := by
                  unfold calState at h6
                  simp only [Option.bind_eq_bind, Option.bind_eq_some_iff] at h6
                  obtain ⟨H, -, L, -, h6⟩ := h6
                  cases h6
                  rfl
                have hK0 : S.E.K ≠ 0 := by
                  intro hK0
                  have : nestedArgs S.E.K Omega_K0 h = { method := "N_star", Omega_K0 := some Omega_K0, h := some h } := by
                    unfold nestedArgs defaultMethod; rw [if_pos hK0]
                  rw [this] at hz
                  unfold Cal.calibrate at hz
                  rw [if_pos (by rw [hcK, hK0])] at hz
                  unfold Cal.flat at hz
                  rw [if_pos ⟨Omega_K0, rfl, hΩ⟩] at hz
                  cases hz
                have hargs : nestedArgs S.E.K Omega_K0 h = { method := "Omega_K0", Omega_K0 := some Omega_K0, h := some h } := by
                  unfold nestedArgs defaultMethod; rw [if_neg hK0]
                rw [hargs] at hz
                cases h7 : Cal.calibrate u c { method := "Omega_K0", Omega_K0 := some Omega_K0, h := some h } with
                | error e => rw [h7] at hz; cases hz
                | ok c' =>
                  rw [h7] at hz
                  dsimp only at hz
                  cases h8 : c'.cal with
                  | none => rw [h8] at hz; simp at hz
                  | some q =>
                    rw [h8] at hz
                    simp only [Option.map_some, Except.ok.injEq, Option.some.injEq] at hz
                    refine ⟨raw, msg, c, c', q, rfl, h6, h7, h8, by linarith, ?_, c1⟩
                    obtain ⟨p, hp, rfl⟩ := Cal.calibrate_curved (by rw [hcK]; exact hK0) h7
                    obtain ⟨-, h', Ω', aM, a0', N0', nr, st, I, nc, e1, -, e3, -, -, -, -, rfl⟩ := Cal.curved_ok hp
                    simp only [Cal.finish, Option.some.injEq] at h8
                    subst h8
                    dsimp only
                    unfold Cal.curvedSel at e3
                    dsimp only at e3
                    rw [if_pos rfl] at e3
                    unfold Cal.curvedOmega at e3
                    dsimp only at e3
                    split_ifs at e3
                    simp only [Except.ok.injEq, Prod.mk.injEq] at e3
                    exact e3.1.symm
            · simp only [Except.ok.injEq, Option.some.injEq] at hz
              rcases c2 with c2 | c2
              · obtain ⟨last, hl1, hl2⟩ := hu _ _ _ _ _ _ h5 c2
                have := hl2.trans_eq (lastN_eq (S := S) hl1).symm
                linarith
              · linarith
            · simp only [Except.ok.injEq, Option.some.injEq] at hz
              exact absurd hz n0
            · split at hz
              · cases hz
              · simp only [Except.ok.injEq, Option.some.injEq] at hz
                exact absurd hz n0
            all_goals
              split at hz
              · cases hz
              · simp only [Except.ok.injEq, Option.some.injEq] at hz
                exact absurd hz n0
              · cases hz

/-! ### Non-vacuity: a flat universe with constant potential, whose inflation lasts `phi` e-folds -/

/-- constant potential `V = 1` -/
def demoPot : PotFns := ⟨fun _ => 1, fun _ => 0, fun _ => 0, fun _ => 0, fun _ => 0⟩
def demoS : Setup := ⟨.T ⟨0, demoPot, false⟩, some 0, none, 1000, some 0, none⟩

/-- the run from the state `y` sees the end of inflation `phi` e-folds after the start -/
def demoRun (y : ℕ → Option ℝ) : RawSol :=
  ⟨(0, fun i => (y i).getD 0), [],
    [("Inflation_dir-1_term1", [(1, fun i => if i = 2 then (y 2).getD 0 + (y 0).getD 0 else (y i).getD 0)])]⟩

open Classical in
noncomputable def demoO : Oracles where
  integrate _ _ y _ := .ok (demoRun y, "")
  emptyTruth := .ok false
  root f _ _ := if h : ∃ r, f r = .ok (some 0) then .ok h.choose else .error (.valueError "no root")
  isStepSize _ := false

theorem demo_root : RootContract demoO := by
  intro f lo hi r h
  simp only [demoO] at h
  split_ifs at h with hc
  · cases h
    exact hc.choose_spec

theorem demo_until : UntilNContract demoS demoO := by
  intro x0 xe y b raw msg h hs
  simp only [demoO, Except.ok.injEq, Prod.mk.injEq] at h
  obtain ⟨rfl, -⟩ := h
  simp [seen, firstEvent, demoRun, Dict.get?_cons, Dict.get?_nil] at hs

theorem demo_start (phi : ℝ) : ∃ ic, start demoS phi = .ok ic ∧ ic.phi_i = phi ∧ ic.N_i = some 0 ∧ ic.V_i = 1 := by
  have h : ¬ ((1 : ℝ) / 2 * exp (2 * 0) - 0 < 0) := by norm_num
  exact ⟨_, if_neg h, rfl, rfl, rfl⟩

theorem demo_state {ic : IC} {phi : ℝ} (h1 : ic.phi_i = phi) (h2 : ic.N_i = some 0) (h3 : ic.V_i = 1) :
    startState demoS ic = .ok fun i => if i = 0 then some phi else if i = 1 then some (-1) else some 0 := by
  have hidx : Eqs.idx (.T ⟨0, demoPot, false⟩) = [("phi", 0), ("dphidt", 1), ("_N", 2)] := rfl
  simp only [startState, demoS, InflationStartIC.call, writeY0, hidx, writeRow, Dict.get?_cons, Eqs.track_eta]
  simp [bind, Except.bind, InflationStartIC.dphidt_i, h1, h2, h3, nanSqrt]
  funext i
  simp only [Function.update_apply]
  split_ifs <;> first | rfl | omega

theorem demo_obj (N_tot phi : ℝ) : phii2Ntot demoS demoO N_tot phi = .ok (some (phi - N_tot)) := by
  obtain ⟨ic, h1, h2, h3, h4⟩ := demo_start phi
  unfold phii2Ntot
  rw [h1]
  dsimp only
  unfold solve
  rw [demo_state h2 h3 h4]
  have : (inflationSol (view demoS.E) demoS.E.pot.V demoS.E.K
      (demoRun fun i => if i = 0 then some phi else if i = 1 then some (-1) else some 0)).N_tot = some phi := by
    simp [inflationSol, postEnd, postStart, endEvent, firstEvent, demoRun, Dict.get?_cons, Dict.get?_nil, view, demoS, InflT.view,
      InflT.inflating, InflT._N, InflT.V, InflT.dphidt, demoPot]
  simp only [demoO]
  rw [this]

/-- a solver that gives up after the first point, no event seen -/
noncomputable def abortO : Oracles := { demoO with
  integrate := fun _ _ y _ => .ok (⟨(0, fun i => (y i).getD 0), [], [("Inflation_dir-1_term1", [])]⟩, "Required step size is less than spacing between numbers.") }

/-- `C31_aborted` applies: such a run makes the objective raise for every starting field value and every positive number of e-folds. -/
example (phi : ℝ) {N_tot : ℝ} (hN : 0 < N_tot) : ∃ e, phii2Ntot demoS abortO N_tot phi = .error e := by
  obtain ⟨ic, h1, h2, h3, h4⟩ := demo_start phi
  refine (C31_aborted ⟨1, 1, 1, 1, 1, 1, one_pos, one_pos, one_pos, one_pos, one_pos, one_pos⟩ demoS abortO (by simp [abortO, demoO]) N_tot phi ic _ h1
    (demo_state h2 h3 h4) _ _ (ic.N_i.map fun n => n + N_tot + 10) rfl ?_ ?_ ?_ ?_).1 rfl ?_
  · simp [inflationSol, postEnd, endEvent, firstEvent, Dict.get?_cons, Dict.get?_nil]
  · simp [firstEvent, Dict.get?_cons, Dict.get?_nil]
  · simp [firstEvent, Dict.get?_cons, Dict.get?_nil]
  · left; simp [Dict.get?_cons]
  · intro n last hn hl
    rw [h3] at hn
    simp only [RawSol.grid, List.getLast?_singleton, Option.some.injEq] at hl
    subst hl
    simp only [Option.some.injEq] at hn
    subst hn
    simpa [view, demoS, InflT.view, InflT._N] using hN

/-- `ISIC_Nt` asked for 50 e-folds succeeds. -/
example : RootContract demoO ∧ UntilNContract demoS demoO ∧ ∃ r ic y, isicNt demoS demoO 50 1 100 = .ok (r, ic, y) := by
  refine ⟨demo_root, demo_until, ?_⟩
  unfold isicNt
  obtain ⟨ic, h1, -⟩ := demo_start 100
  rw [h1]
  dsimp only
  have hc : ∃ r, phii2Ntot demoS demoO 50 r = .ok (some 0) := ⟨50, by rw [demo_obj]; norm_num⟩
  have hroot : demoO.root (phii2Ntot demoS demoO 50) 1 100 = .ok hc.choose := by
    simp only [demoO]
    exact dif_pos hc
  rw [hroot]
  dsimp only
  obtain ⟨ic', g1, g2, g3, g4⟩ := demo_start hc.choose
  rw [g1]
  dsimp only
  rw [demo_state g2 g3 g4]
  exact ⟨_, _, _, rfl⟩

/-- A closed universe with `V = phi`: too small a potential cannot start inflation. -/
def closedPot : PotFns := ⟨fun phi => phi, fun _ => 1, fun _ => 0, fun _ => 0, fun _ => 0⟩
def closedS : Setup := ⟨.T ⟨1, closedPot, false⟩, some 0, none, 1000, some 0, none⟩

open Classical in
/-- the root finder of `demoO` with the sign check -/
noncomputable def signO : Oracles :=
  { demoO with root := fun f lo hi =>
      if ∃ a b, f lo = .ok (some a) ∧ f hi = .ok (some b) ∧ 0 < a * b then .error (.valueError "f(a) and f(b) must have different signs")
      else demoO.root f lo hi }

/-- Hypotheses of `C31_too_short` met: `phi = 0` cannot start inflation, `phi = 4` inflates for 4 e-folds, 50 are requested. -/
example : RejectsSameSign signO ∧ RootContract signO ∧ ∃ m ic y raw msg,
    InflationStartIC.init closedS.E ⟨0, closedS.t_i, closedS.eta_i, closedS.x_end, closedS.N_i, closedS.Omega_Ki⟩ = .error (.inflationStart m) ∧
    InflationStartIC.init closedS.E ⟨4, closedS.t_i, closedS.eta_i, closedS.x_end, closedS.N_i, closedS.Omega_Ki⟩ = .ok ic ∧
    InflationStartIC.call closedS.E ic (fun _ => some 0) = .ok y ∧
    signO.integrate (ic.x_ini closedS.E) ic.x_end y (ic.N_i.map fun n => n + 50 + 10) = .ok (raw, msg) ∧
    (inflationSol (view closedS.E) closedS.E.pot.V closedS.E.K raw).N_tot = some 4 := by
  refine ⟨?_, ?_, ?_⟩
  · intro f lo hi a b ha hb hab
    refine ⟨.valueError "f(a) and f(b) must have different signs", ?_⟩
    simp only [signO]
    exact if_pos ⟨a, b, ha, hb, hab⟩
  · intro f lo hi r h
    simp only [signO] at h
    split_ifs at h with hc
    exact demo_root f lo hi r h
  · have h0 : (0 : ℝ) / 2 * exp (2 * 0) - 1 < 0 := by norm_num
    have h4 : ¬ ((4 : ℝ) / 2 * exp (2 * 0) - 1 < 0) := by norm_num
    obtain ⟨ic, hic, k1, k2, k3⟩ : ∃ ic, start closedS 4 = .ok ic ∧ ic.phi_i = 4 ∧ ic.N_i = some 0 ∧ ic.V_i = 4 :=
      ⟨_, if_neg h4, rfl, rfl, rfl⟩
    have hst : startState closedS ic = .ok fun i => if i = 0 then some 4 else if i = 1 then some (-2) else some 0 := by
      have hidx : Eqs.idx (.T ⟨1, closedPot, false⟩) = [("phi", 0), ("dphidt", 1), ("_N", 2)] := rfl
      have hs : √4 = (2 : ℝ) := by rw [show (4 : ℝ) = 2 ^ 2 by norm_num, sqrt_sq (by norm_num)]
      simp only [startState, closedS, InflationStartIC.call, writeY0, hidx, writeRow, Dict.get?_cons, Eqs.track_eta]
      simp [bind, Except.bind, InflationStartIC.dphidt_i, k1, k2, k3, nanSqrt, hs]
      funext i
      simp only [Function.update_apply]
      split_ifs <;> first | rfl | omega
    refine ⟨_, ic, _, _, _, if_pos h0, hic, hst, rfl, ?_⟩
    simp [inflationSol, postEnd, postStart, endEvent, firstEvent, demoRun, Dict.get?_cons, Dict.get?_nil, view, closedS, InflT.view,
      InflT.inflating, InflT._N, InflT.V, InflT.phi, InflT.dphidt, closedPot]
    norm_num

/-! ### Non-vacuity: an open universe with constant potential, for `ISIC_NsOk` -/

def openS : Setup := ⟨.T ⟨-1, demoPot, false⟩, some 0, none, 1000, some 0, none⟩

/-- the state `y` with the number of e-folds replaced -/
def openAt (y : ℕ → Option ℝ) (n : ℝ) : ℝ × (ℕ → ℝ) := (n, fun i => if i = 2 then n else (y i).getD 0)

/-- grid points at 0, 1, 2 e-folds; inflation ends after `phi` e-folds -/
def openRun (y : ℕ → Option ℝ) : RawSol :=
  ⟨openAt y 0, [openAt y 1, openAt y 2], [("Inflation_dir-1_term1", [openAt y ((y 0).getD 0)])]⟩

noncomputable def openO : Oracles := { demoO with integrate := fun _ _ y _ => .ok (openRun y, "") }

/-- `log (aH)` after `n` e-folds -/
noncomputable def openL (n : ℝ) : ℝ := n + log √(1 / 2 + exp (-2 * n))

theorem openL_lt {m n : ℝ} (h : m < n) : openL m < openL n := by
  have e : ∀ n, 2 * openL n = log (exp (2 * n) / 2 + 1) := by
    intro n
    have hp := exp_pos (-2 * n)
    unfold openL
    rw [log_sqrt (by positivity), mul_add, mul_div_cancel₀ _ two_ne_zero]
    conv_lhs => rw [← log_exp (2 * n)]
    rw [← log_mul (exp_ne_zero _) (by positivity), mul_add, ← exp_add]
    congr 1
    rw [show 2 * n + -2 * n = 0 by ring, exp_zero]
    ring
  have : log (exp (2 * m) / 2 + 1) < log (exp (2 * n) / 2 + 1) := by
    apply log_lt_log (by positivity)
    have : exp (2 * m) < exp (2 * n) := exp_lt_exp.2 (by linarith)
    linarith
  rw [← e, ← e] at this
  linarith

theorem openL_pos {n : ℝ} (h : 0 ≤ n) : 0 < openL n := by
  have : 0 < openL 0 := by
    unfold openL
    rw [zero_add]
    apply log_pos
    rw [lt_sqrt zero_le_one]
    norm_num
  rcases h.eq_or_lt with rfl | h
  · exact this
  · exact this.trans (openL_lt h)

theorem open_start (phi : ℝ) : ∃ ic, start openS phi = .ok ic ∧ ic.phi_i = phi ∧ ic.N_i = some 0 ∧ ic.V_i = 1 := by
  have h : ¬ ((1 : ℝ) / 2 * exp (2 * 0) - (-1) < 0) := by norm_num
  exact ⟨_, if_neg h, rfl, rfl, rfl⟩

/-- the start state -/
noncomputable def openY (phi : ℝ) : ℕ → Option ℝ := fun i => if i = 0 then some phi else if i = 1 then some (-1) else some 0

theorem open_state {ic : IC} {phi : ℝ} (h1 : ic.phi_i = phi) (h2 : ic.N_i = some 0) (h3 : ic.V_i = 1) :
    startState openS ic = .ok (openY phi) := by
  have hidx : Eqs.idx (.T ⟨-1, demoPot, false⟩) = [("phi", 0), ("dphidt", 1), ("_N", 2)] := rfl
  simp only [startState, openS, InflationStartIC.call, writeY0, hidx, writeRow, Dict.get?_cons, Eqs.track_eta]
  simp [bind, Except.bind, InflationStartIC.dphidt_i, h1, h2, h3, nanSqrt]
  funext i
  simp only [Function.update_apply, openY]
  split_ifs <;> first | rfl | omega

theorem open_H (phi n : ℝ) : (view openS.E).Hnan (openAt (openY phi) n) = some √(1 / 2 + exp (-2 * n)) := by
  have h : InflT.H2 ⟨-1, demoPot, false⟩ (openAt (openY phi) n).2 = 1 / 2 + exp (-2 * n) := by
    simp only [InflT.H2, T.get_H2, openAt, openY, InflT._N, InflT.dphidt, InflT.V, demoPot]
    norm_num
  have : (view openS.E).H2 (openAt (openY phi) n).1 (openAt (openY phi) n).2 = 1 / 2 + exp (-2 * n) := h
  unfold EqView.Hnan
  rw [this, nanSqrt, if_pos (by positivity)]

theorem open_logH (n : ℝ) : nanLog √(1 / 2 + exp (-2 * n)) = some (log √(1 / 2 + exp (-2 * n))) := by
  unfold nanLog
  rw [if_pos]
  exact sqrt_pos.2 (by positivity)

theorem open_N (phi n : ℝ) : (view openS.E).N (openAt (openY phi) n).1 (openAt (openY phi) n).2 = n := by
  simp [view, openS, InflT.view, openAt, InflT._N]

/-- What the calibration sees. -/
theorem open_cal (phi : ℝ) (h : 2 < phi) :
    (inflationSol (view openS.E) openS.E.pot.V openS.E.K (openRun (openY phi))).N_tot = some phi ∧
    calState openS.E.K (inflationSol (view openS.E) openS.E.pot.V openS.E.K (openRun (openY phi))) =
      some ⟨-1, [0, 1, 2], [openL 0, openL 1, openL 2],
        [√(1 / 2 + exp (-2 * 0)), √(1 / 2 + exp (-2 * 1)), √(1 / 2 + exp (-2 * 2))],
        some ⟨0, phi, phi, 1, √(1 / 2 + exp (-2 * phi)), openL 0, openL phi, [false, true, true]⟩,
        ⟨none, none, none, none, none, none⟩, none⟩ := by
  have hst : postStart (view openS.E) (openRun (openY phi)) =
      ⟨some 0, some √(1 / 2 + exp (-2 * 0)), some (openL 0), none⟩ := by
    unfold postStart
    rw [if_neg (by simp [firstEvent, openRun, Dict.get?_cons]), if_pos]
    · simp only [openRun, open_H, open_N, Option.bind_some, open_logH, Option.map_some, openL]
    · left
      simp [openRun, openAt, openY, view, openS, InflT.view, InflT.inflating, InflT.V, InflT.dphidt, demoPot]
  have hen : postEnd (view openS.E) openS.E.pot.V (openRun (openY phi)) =
      ⟨some phi, some phi, some √(1 / 2 + exp (-2 * phi)), some (openL phi), some 1, none⟩ := by
    unfold postEnd
    have : endEvent (openRun (openY phi)).events = some (openAt (openY phi) phi) := by
      simp [endEvent, firstEvent, openRun, Dict.get?_cons, openY]
    rw [this]
    dsimp only
    rw [open_H, open_N]
    simp only [Option.bind_some, open_logH, Option.map_some, openL]
    simp [view, openS, InflT.view, openAt, openY, InflT.phi, Eqs.pot, demoPot]
  have hgrid : (openRun (openY phi)).grid = [openAt (openY phi) 0, openAt (openY phi) 1, openAt (openY phi) 2] := rfl
  constructor
  · simp only [inflationSol, hst, hen, Option.bind_some, Option.map_some, sub_zero]
  · simp only [inflationSol, hst, hen, hgrid, List.map_cons, List.map_nil, open_H, open_N, calState, Option.bind_some,
      open_logH, Option.map_some, List.mapM_cons, List.mapM_nil, id, Option.bind_eq_bind, sub_zero, Option.pure_def]
    congr 1
    have e1 : (1 : ℝ) < phi := by linarith
    simp [openS, Eqs.K, h, e1, openL]

/-- The calibration of this run, with `h` placing the pivot scale between the last two grid points. -/
theorem open_obj (u : SI) (aM N_star N0 phi : ℝ) (haM : log SI.K_STAR + log aM = (openL 1 + openL 2) / 2) (hp : 0 < aM)
    (h : 2 < phi) (hN : N_star < phi) :
    phii2Nstar u openS openO N_star 1 (u.c / (100000 * aM)) N0 phi = .ok (some (phi - 3 / 2 - N_star)) := by
  obtain ⟨ic, h1, h2, h3, h4⟩ := open_start phi
  have hL := openL_lt (show (1 : ℝ) < 2 by norm_num)
  have hL0 := openL_lt (show (0 : ℝ) < 1 by norm_num)
  have hc := u.c_pos
  have hh : 0 < u.c / (100000 * aM) := by positivity
  obtain ⟨i1, i2⟩ := open_cal phi h
  unfold phii2Nstar
  rw [h1]
  dsimp only
  unfold solve
  rw [open_state h2 h3 h4]
  dsimp only [openO]
  rw [if_pos ⟨phi, i1, hN⟩, i2]
  dsimp only
  have hcal : ∃ c', Cal.calibrate u ⟨-1, [0, 1, 2], [openL 0, openL 1, openL 2],
        [√(1 / 2 + exp (-2 * 0)), √(1 / 2 + exp (-2 * 1)), √(1 / 2 + exp (-2 * 2))],
        some ⟨0, phi, phi, 1, √(1 / 2 + exp (-2 * phi)), openL 0, openL phi, [false, true, true]⟩,
        ⟨none, none, none, none, none, none⟩, none⟩ (nestedArgs openS.E.K 1 (u.c / (100000 * aM))) = .ok c' ∧
      c'.cal.map (fun q => q.N_star - N_star) = some (phi - 3 / 2 - N_star) := by
    unfold Cal.calibrate
    rw [if_neg (by norm_num)]
    have ha : nestedArgs openS.E.K 1 (u.c / (100000 * aM)) =
        { method := "Omega_K0", Omega_K0 := some 1, h := some (u.c / (100000 * aM)) } := by
      unfold nestedArgs
      rw [defaultMethod, if_neg (by simp [openS, Eqs.K])]
    rw [ha]
    unfold Cal.curved
    rw [if_neg (by simp)]
    dsimp only
    rw [if_neg (not_le.2 hh)]
    have haM' : u.c / (u.c / (100000 * aM) * 100 * 1000) * √(-(-1) / 1) = aM := by
      rw [show (-(-1 : ℝ)) / 1 = 1 by norm_num, sqrt_one]
      field_simp
      norm_num
    unfold Cal.curvedSel
    rw [if_pos rfl]
    unfold Cal.curvedOmega
    dsimp only
    rw [if_neg one_ne_zero, if_neg (by simp), haM']
    dsimp only
    have hmask : andMask [false, true, true]
        (firstOccurrence ([openL 0, openL 1, openL 2].map fun l => l - log aM)) = [false, true, true] := by
      apply andMask_nodup
      · rfl
      · simp only [List.map_cons, List.map_nil, List.nodup_cons, List.mem_cons, not_or,
          List.not_mem_nil, not_false_eq_true, and_true, List.nodup_nil]
        refine ⟨⟨?_, ?_⟩, ?_⟩ <;> intro h <;> linarith
    obtain ⟨d, hd⟩ : ∃ d, d = (openL 2 - openL 1) / 2 := ⟨_, rfl⟩
    have hd0 : 0 < d := by rw [hd]; linarith
    have hl : maskSel ([openL 0, openL 1, openL 2].map fun l => l - log aM) [false, true, true] =
        [log SI.K_STAR - d, log SI.K_STAR + d] := by
      simp only [maskSel, List.map_cons, List.map_nil, List.zip_cons_cons, List.zip_nil_right,
        List.filterMap_cons, Bool.false_eq_true, if_false, if_true, List.filterMap_nil]
      congr 1
      · rw [hd]; linarith
      · congr 1; rw [hd]; linarith
    have hn : maskSel [(0 : ℝ), 1, 2] [false, true, true] = [1, 2] := by simp [maskSel]
    have hint : interpL [log SI.K_STAR - d, log SI.K_STAR + d] [1, 2] (log SI.K_STAR) = .ok (3 / 2) := by
      rw [interpL_sorted (by simp; linarith)]
      simp only [List.zip_cons_cons, List.zip_nil_right, interpSorted]
      rw [if_neg (by linarith), if_pos (by linarith)]
      congr 1
      have : log SI.K_STAR + d - (log SI.K_STAR - d) = 2 * d := by ring
      rw [this]; field_simp; ring
    rw [hmask, hl, hn, if_neg (by simp), if_neg ?_, hint]
    · exact ⟨_, rfl, rfl⟩
    · rintro (h | h)
      · have := h (log SI.K_STAR - d) (by simp); linarith
      · have := h (log SI.K_STAR + d) (by simp); linarith
  obtain ⟨c', hc', hq⟩ := hcal
  rw [hc']
  dsimp only
  rw [hq]

/-- `ISIC_NsOk` asked for `N_star = 50`, `Omega_K0 = 1` succeeds (for any values of the physical constants with the Planck
length below a megaparsec), and its scale factor today exceeds 1. -/
example (u : SI) (hu : u.c * u.tp_s < u.Mpc_m) : RootContract openO ∧ UntilNContract openS openO ∧
    ∃ h a0 r ic y, BB.get_a0 u h 1 "planck" = .ok a0 ∧ 1 < a0 ∧ isicNsOk u openS openO 50 1 h 4 100 = .ok (r, ic, y) := by
  have hK : (0 : ℝ) < SI.K_STAR := by unfold SI.K_STAR; norm_num
  obtain ⟨aM, hM⟩ : ∃ aM, aM = exp ((openL 1 + openL 2) / 2) / SI.K_STAR := ⟨_, rfl⟩
  have l1 := openL_pos (show (0 : ℝ) ≤ 1 by norm_num)
  have l2 := openL_pos (show (0 : ℝ) ≤ 2 by norm_num)
  have hM1 : 1 < aM := by
    rw [hM, lt_div_iff₀ hK]
    have : 1 < exp ((openL 1 + openL 2) / 2) := one_lt_exp_iff.2 (by linarith)
    unfold SI.K_STAR
    linarith
  have hp : 0 < aM := by linarith
  have haM : log SI.K_STAR + log aM = (openL 1 + openL 2) / 2 := by
    rw [hM, log_div (exp_ne_zero _) hK.ne', log_exp]; ring
  have hc := u.c_pos
  have ht : 0 < u.tp_s := u.tp_pos
  have hMp := u.Mpc_pos
  have hga : BB.get_a0 u (u.c / (100000 * aM)) 1 "planck" = .ok (1 / (u.c / (100000 * aM) * 100000 / u.Mpc_m * u.tp_s)) := by
    unfold BB.get_a0 BB.get_H0
    simp [bind, Except.bind]
  refine ⟨?_, ?_, u.c / (100000 * aM), ?_⟩
  · exact demo_root
  · intro x0 xe y b raw msg h hs
    simp only [openO, Except.ok.injEq, Prod.mk.injEq] at h
    obtain ⟨rfl, -⟩ := h
    simp [seen, firstEvent, openRun, Dict.get?_cons, Dict.get?_nil] at hs
  · obtain ⟨a0, ha0⟩ : ∃ a0, a0 = 1 / (u.c / (100000 * aM) * 100000 / u.Mpc_m * u.tp_s) := ⟨_, rfl⟩
    rw [← ha0] at hga
    have hc : ∃ r, phii2Nstar u openS openO 50 1 (u.c / (100000 * aM)) (log a0) r = .ok (some 0) :=
      ⟨103 / 2, by rw [open_obj u aM 50 _ _ haM hp (by norm_num) (by norm_num)]; norm_num⟩
    have hroot : openO.root (phii2Nstar u openS openO 50 1 (u.c / (100000 * aM)) (log a0)) 4 100 = .ok hc.choose := by
      simp only [openO, demoO]
      exact dif_pos hc
    obtain ⟨ic, h1, -⟩ := open_start 100
    obtain ⟨ic', g1, g2, g3, g4⟩ := open_start hc.choose
    refine ⟨a0, hc.choose, ic', openY hc.choose, hga, ?_, ?_⟩
    · rw [ha0, lt_div_iff₀ (by positivity), one_mul]
      have : u.c / (100000 * aM) * 100000 / u.Mpc_m * u.tp_s = (u.c * u.tp_s) / (aM * u.Mpc_m) := by field_simp
      rw [this, div_lt_one (by positivity)]
      nlinarith
    · unfold isicNsOk
      rw [if_neg one_ne_zero, h1]
      dsimp only
      rw [hga]
      dsimp only
      rw [hroot]
      dsimp only
      rw [g1]
      dsimp only
      rw [open_state g2 g3 g4]

end Shooting
end Primpy
