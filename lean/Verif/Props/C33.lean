import Verif.Props.C34
import Verif.Props.C32

/-!
# C33 — the error table of `calibrate_scale_factor`

Specification: `FlatRequest` and `CurvedRequest` spell out, argument by argument, what the docstring
of `calibrate_scale_factor` demands.
-/

namespace Primpy
open Real
open Cal

/-- What a call for a flat universe has to satisfy. -/
def FlatRequest (s : CalState) (a : CalArgs) (I : Infl) : Prop :=
  (a.Omega_K0 = none ∨ a.Omega_K0 = some 0) ∧ s.infl = some I ∧
  match a.background with
  | some b => ∃ ns, a.N_star = some ns ∧ 0 < ns ∧ ns = b.N_star
  | none =>
    (a.method = "N_star" ∧ ∃ ns, a.N_star = some ns ∧ 0 < ns ∧ ns ≤ I.N_tot) ∨
    (a.method = "reheating" ∧ (∀ d, a.DeltaN_reh = some d → 0 ≤ d) ∧
      ∀ w, a.w_reh = some w → -1 / 3 ≤ w)

/-- What a call for a curved universe has to satisfy. -/
def CurvedRequest (s : CalState) (a : CalArgs) (I : Infl) : Prop :=
  a.N_star = none ∧ (∃ h, a.h = some h ∧ 0 < h) ∧ s.infl = some I ∧
  ((a.method = "Omega_K0" ∧ ∃ Ω, a.Omega_K0 = some Ω ∧ Ω ≠ 0 ∧ (SignType.sign Ω : ℝ) = -s.K) ∨
   (a.method = "reheating" ∧ a.Omega_K0 = none ∧ (∀ d, a.DeltaN_reh = some d → 0 ≤ d) ∧
      ∀ w, a.w_reh = some w → -1 / 3 ≤ w))

theorem badReheating_iff (a : CalArgs) : badReheating a = false ↔
    (∀ d, a.DeltaN_reh = some d → 0 ≤ d) ∧ ∀ w, a.w_reh = some w → -1 / 3 ≤ w := by
  unfold badReheating
  simp only [decide_eq_false_iff_not, not_or, not_exists, not_and, not_lt]

/-- **C33, success.**  A successful call satisfies the documented demands: in particular no unknown
method, no missing argument, no mismatching curvature, and never without a start and an end of
inflation. -/
theorem C33_success (u : SI) (s s' : CalState) (a : CalArgs) (hok : calibrate u s a = .ok s') :
    ∃ I, if s.K = 0 then FlatRequest s a I else CurvedRequest s a I := by
  by_cases hK : s.K = 0
  · obtain ⟨p, hp, rfl⟩ := calibrate_flat hK hok
    obtain ⟨hΩ, ns, nc, ls, δ, nr, I, st, hs, rfl⟩ := flat_ok hp
    have hΩ' : a.Omega_K0 = none ∨ a.Omega_K0 = some 0 := by
      cases h : a.Omega_K0 with
      | none => exact .inl rfl
      | some Ω => rw [hΩ Ω h]; exact .inr rfl
    unfold flatSel at hs
    unfold FlatRequest
    simp only [hK, if_true]
    cases hb : a.background with
    | some b =>
      rw [hb] at hs
      dsimp only at hs
      unfold flatBackground at hs
      cases hN : a.N_star with
      | none => rw [hN] at hs; cases hs
      | some n =>
        rw [hN] at hs
        dsimp only at hs
        split_ifs at hs with h1
        push Not at h1
        cases hI : s.infl with
        | none => rw [hI] at hs; cases hs
        | some J => exact ⟨J, hΩ', rfl, n, rfl, h1.1, h1.2⟩
    | none =>
      rw [hb] at hs
      dsimp only at hs
      split_ifs at hs with h1 h2
      · obtain ⟨h3, h4, h5, h6, -⟩ := flatNstar_ok hs
        exact ⟨I, hΩ', h5, .inl ⟨h1, ns, h3, h4, h6⟩⟩
      · obtain ⟨h3, h4, -⟩ := flatReheating_ok hs
        exact ⟨I, hΩ', h4, .inr ⟨h2, (badReheating_iff a).1 h3⟩⟩
  · obtain ⟨p, hp, rfl⟩ := calibrate_curved hK hok
    obtain ⟨hN, h, Ω, aM, a0, N0, nr, st, I, nc, hh, h0, hs, hI, -⟩ := curved_ok hp
    refine ⟨I, ?_⟩
    rw [if_neg hK]
    refine ⟨hN, ⟨h, hh, h0⟩, hI, ?_⟩
    unfold curvedSel at hs
    split_ifs at hs with h1 h2
    · left
      refine ⟨h1, ?_⟩
      unfold curvedOmega at hs
      cases hO : a.Omega_K0 with
      | none => rw [hO] at hs; cases hs
      | some Ω' =>
        rw [hO] at hs
        dsimp only at hs
        split_ifs at hs with h3 h4
        exact ⟨Ω', rfl, h3, not_not.1 h4⟩
    · right
      refine ⟨h2, ?_⟩
      unfold curvedReheating at hs
      split_ifs at hs with h3 h4
      exact ⟨by simpa using h3, (badReheating_iff a).1 (by simpa using h4)⟩

/-- **C33, no inflation.**  If inflation did not start or did not end, no argument combination
produces a calibration. -/
theorem C33_no_inflation (u : SI) (s : CalState) (a : CalArgs) (hI : s.infl = none) :
    ∃ e, calibrate u s a = .error e := by
  cases h : calibrate u s a with
  | error e => exact ⟨e, rfl⟩
  | ok s' =>
    obtain ⟨I, h'⟩ := C33_success u s s' a h
    split_ifs at h' with hK
    · rw [h'.2.1] at hI; cases hI
    · rw [h'.2.2.1] at hI; cases hI

/-- **C33, flat universes: the documented exceptions.** -/
theorem C33_flat_errors (u : SI) (s : CalState) (a : CalArgs) (hK : s.K = 0) :
    ((∃ Ω, a.Omega_K0 = some Ω ∧ Ω ≠ 0) → ∃ m, calibrate u s a = .error (.valueError m)) ∧
    (∀ b, (∀ Ω, a.Omega_K0 = some Ω → Ω = 0) → a.background = some b →
      (∀ ns, a.N_star = some ns → ns ≤ 0 ∨ ns ≠ b.N_star) →
        ∃ m, calibrate u s a = .error (.valueError m)) ∧
    ((∀ Ω, a.Omega_K0 = some Ω → Ω = 0) → a.background = none →
      (a.method ≠ "N_star" → a.method ≠ "reheating" →
        ∃ m, calibrate u s a = .error (.notImplemented m)) ∧
      (a.method = "N_star" → (∀ ns, a.N_star = some ns → ns ≤ 0) →
        ∃ m, calibrate u s a = .error (.valueError m)) ∧
      (a.method = "N_star" → ∀ I ns, s.infl = some I → a.N_star = some ns → 0 < ns → I.N_tot < ns →
        ∃ m, calibrate u s a = .error (.insufficientInflation m)) ∧
      (a.method = "reheating" →
        ((∃ d, a.DeltaN_reh = some d ∧ d < 0) ∨ ∃ w, a.w_reh = some w ∧ w < -1 / 3) →
        ∃ m, calibrate u s a = .error (.valueError m))) := by
  unfold calibrate
  rw [if_pos hK]
  unfold flat flatSel
  refine ⟨fun h => ?_, fun b hΩ hb hN => ?_, fun hΩ hb => ⟨fun h1 h2 => ?_, fun h1 h2 => ?_,
    fun h1 I ns hI hN h0 hlt => ?_, fun h1 h2 => ?_⟩⟩
  · rw [if_pos h]; exact ⟨_, rfl⟩
  · rw [if_neg (by rintro ⟨Ω, h, hne⟩; exact hne (hΩ Ω h)), hb]
    dsimp only
    unfold flatBackground
    cases h : a.N_star with
    | none => exact ⟨_, rfl⟩
    | some ns => dsimp only; rw [if_pos (hN ns h)]; exact ⟨_, rfl⟩
  · rw [if_neg (by rintro ⟨Ω, h, hne⟩; exact hne (hΩ Ω h)), hb]
    dsimp only
    rw [if_neg h1, if_neg h2]; exact ⟨_, rfl⟩
  · rw [if_neg (by rintro ⟨Ω, h, hne⟩; exact hne (hΩ Ω h)), hb]
    dsimp only
    rw [if_pos h1]
    unfold flatNstar
    cases h : a.N_star with
    | none => exact ⟨_, rfl⟩
    | some ns => dsimp only; rw [if_pos (h2 ns h)]; exact ⟨_, rfl⟩
  · rw [if_neg (by rintro ⟨Ω, h, hne⟩; exact hne (hΩ Ω h)), hb]
    dsimp only
    rw [if_pos h1]
    unfold flatNstar
    rw [hN, hI]
    dsimp only
    rw [if_neg (not_le.2 h0), if_pos hlt]; exact ⟨_, rfl⟩
  · rw [if_neg (by rintro ⟨Ω, h, hne⟩; exact hne (hΩ Ω h)), hb]
    dsimp only
    rw [if_neg (by rw [h1]; decide), if_pos h1]
    unfold flatReheating
    rw [if_pos (by unfold badReheating; exact decide_eq_true h2)]
    exact ⟨_, rfl⟩

/-- **C33, curved universes: the documented exceptions.** -/
theorem C33_curved_errors (u : SI) (s : CalState) (a : CalArgs) (hK : s.K ≠ 0) :
    ((∃ ns, a.N_star = some ns) → ∃ m, calibrate u s a = .error (.valueError m)) ∧
    (a.N_star = none → (∀ h, a.h = some h → h ≤ 0) →
      ∃ m, calibrate u s a = .error (.valueError m)) ∧
    (∀ h, a.N_star = none → a.h = some h → 0 < h →
      (a.method ≠ "Omega_K0" → a.method ≠ "reheating" →
        ∃ m, calibrate u s a = .error (.notImplemented m)) ∧
      (a.method = "Omega_K0" →
        (∀ Ω, a.Omega_K0 = some Ω → Ω = 0 ∨ (SignType.sign Ω : ℝ) ≠ -s.K) →
        ∃ m, calibrate u s a = .error (.valueError m)) ∧
      (a.method = "reheating" → (∃ Ω, a.Omega_K0 = some Ω) →
        ∃ m, calibrate u s a = .error (.valueError m)) ∧
      (a.method = "reheating" → a.Omega_K0 = none →
        ((∃ d, a.DeltaN_reh = some d ∧ d < 0) ∨ ∃ w, a.w_reh = some w ∧ w < -1 / 3) →
        ∃ m, calibrate u s a = .error (.valueError m))) := by
  unfold calibrate
  rw [if_neg hK]
  unfold curved
  refine ⟨?_, fun hN hh => ?_, fun h hN hh h0 => ⟨fun h1 h2 => ?_, fun h1 h2 => ?_, fun h1 h2 => ?_,
    fun h1 h2 h3 => ?_⟩⟩
  · rintro ⟨ns, h⟩; rw [h]; exact ⟨_, rfl⟩
  · rw [hN, if_neg (by simp)]
    cases h : a.h with
    | none => exact ⟨_, rfl⟩
    | some h' => dsimp only; rw [if_pos (hh h' h)]; exact ⟨_, rfl⟩
  all_goals
    rw [hN, if_neg (by simp), hh]
    dsimp only
    rw [if_neg (not_le.2 h0)]
    unfold curvedSel
  · rw [if_neg h1, if_neg h2]; exact ⟨_, rfl⟩
  · rw [if_pos h1]
    unfold curvedOmega
    cases hO : a.Omega_K0 with
    | none => exact ⟨_, rfl⟩
    | some Ω =>
      dsimp only
      by_cases hz : Ω = 0
      · rw [if_pos hz]; exact ⟨_, rfl⟩
      · rw [if_neg hz, if_pos ((h2 Ω hO).resolve_left hz)]; exact ⟨_, rfl⟩
  · rw [if_neg (by rw [h1]; decide), if_pos h1]
    obtain ⟨Ω, h2⟩ := h2
    unfold curvedReheating
    rw [h2, if_pos (Option.isSome_some)]; exact ⟨_, rfl⟩
  · rw [if_neg (by rw [h1]; decide), if_pos h1]
    unfold curvedReheating
    rw [h2, if_neg (by simp), if_pos (by unfold badReheating; exact decide_eq_true h3)]
    exact ⟨_, rfl⟩

theorem flatNstarReh_err {u : SI} {I : Infl} {δ d : ℝ} {a : CalArgs} {st : Sticky} {e : PyErr}
    (h : flatNstarReh u I δ d a st = .error e) : ∃ m, e = .valueError m := by
  unfold flatNstarReh at h
  split at h
  · cases h
  · split_ifs at h
    · cases h; exact ⟨_, rfl⟩
    · dsimp only at h
      split_ifs at h
      cases h; exact ⟨_, rfl⟩
  · cases h
  · cases h; exact ⟨_, rfl⟩

theorem flatReh_err {u : SI} {I : Infl} {n : ℝ} {a : CalArgs} {st : Sticky} {e : PyErr}
    (h : flatReh u I n a st = .error e) : (∃ m, e = .valueError m) ∨
      (∃ m, e = .notImplemented m) ∧ a.DeltaN_minus1 ≠ none ∧ (a.w_reh ≠ none ∨ a.DeltaN_reh ≠ none) := by
  unfold flatReh at h
  split at h
  · next hi =>
    cases h
    exact .inl ((C32_table _ _ _ _ _).2.2.2 e hi)
  · cases h
  · split at h
    · next hd =>
      split_ifs at h with h1
      · cases h
        right
        refine ⟨⟨_, rfl⟩, by rw [hd]; simp, ?_⟩
        rw [Bool.or_eq_true] at h1
        exact h1.imp (fun h => by intro h'; rw [h'] at h; cases h)
          (fun h => by intro h'; rw [h'] at h; cases h)
      · split at h <;> cases h
    · split at h
      · cases h
      · cases h
      · cases h; exact .inl ⟨_, rfl⟩

theorem interpSorted_err {l : List (ℝ × ℝ)} : ∀ {x : ℝ} {e : PyErr}, interpSorted l x = .error e →
    ∃ m, e = .valueError m := by
  induction l with
  | nil => intro x e h; cases h; exact ⟨_, rfl⟩
  | cons p l ih =>
    intro x e h
    cases l with
    | nil => cases h; exact ⟨_, rfl⟩
    | cons q l =>
      rw [interpSorted] at h
      split_ifs at h
      · cases h; exact ⟨_, rfl⟩
      · exact ih h

theorem curvedReh_err {u : SI} {I : Infl} {n : ℝ} {a : CalArgs} {st : Sticky} {e : PyErr}
    (h : curvedReh u I n a st = .error e) : ∃ m, e = .valueError m := by
  unfold curvedReh at h
  split at h
  · next hi => cases h; exact (C32_table _ _ _ _ _).2.2.2 e hi
  · cases h
  · split at h
    · cases h
    · cases h
    · cases h; exact ⟨_, rfl⟩

/-- **C33, the default method.**  Called without `calibration_method`, a flat universe is calibrated by `N_star` and a curved one by
`Omega_K0`: a successful call without background was given that argument, and it is what the calibrated solution has; it is never the
method that is unknown. -/
theorem C33_default (u : SI) (s : CalState) (a : CalArgs) (hm : a.method = defaultMethod s.K) (hb : a.background = none) :
    (∀ s', calibrate u s a = .ok s' →
      (s.K = 0 → ∃ ns, a.N_star = some ns ∧ 0 < ns ∧ ∃ c, s'.cal = some c ∧ c.N_star = ns) ∧
      (s.K ≠ 0 → ∃ Ω, a.Omega_K0 = some Ω ∧ Ω ≠ 0 ∧ ∃ c, s'.cal = some c ∧ c.Omega_K0 = Ω)) ∧
    calibrate u s a ≠ .error (.notImplemented "Unknown calibration_method") := by
  constructor
  · intro s' hok
    constructor
    · intro hK
      have hm' : a.method = "N_star" := by rw [hm, defaultMethod, if_pos hK]
      obtain ⟨p, hp, rfl⟩ := calibrate_flat hK hok
      obtain ⟨hΩ, ns, nc, ls, δ, nr, I, st, hs, rfl⟩ := flat_ok hp
      unfold flatSel at hs
      rw [hb] at hs
      dsimp only at hs
      rw [if_pos hm'] at hs
      obtain ⟨h3, h4, -⟩ := flatNstar_ok hs
      exact ⟨ns, h3, h4, _, rfl, rfl⟩
    · intro hK
      have hm' : a.method = "Omega_K0" := by rw [hm, defaultMethod, if_neg hK]
      obtain ⟨p, hp, rfl⟩ := calibrate_curved hK hok
      obtain ⟨hN, h, Ω, aM, a0, N0, nr, st, I, nc, hh, h0, hs, hI, -, -, -, rfl⟩ := curved_ok hp
      unfold curvedSel at hs
      rw [if_pos hm'] at hs
      unfold curvedOmega at hs
      cases hO : a.Omega_K0 with
      | none => rw [hO] at hs; cases hs
      | some Ω' =>
        rw [hO] at hs
        dsimp only at hs
        split_ifs at hs with h3 h4
        cases hr : a.rho_reh_GeV with
        | none =>
          rw [hr] at hs
          simp only [Except.ok.injEq, Prod.mk.injEq] at hs
          exact ⟨Ω', rfl, h3, _, rfl, hs.1.symm⟩
        | some r =>
          rw [hr] at hs
          simp only [Except.ok.injEq, Prod.mk.injEq] at hs
          exact ⟨Ω', rfl, h3, _, rfl, hs.1.symm⟩
  · intro h
    have key : ∀ e, calibrate u s a = .error e → ∀ m, e ≠ .notImplemented m := by
      intro e h m hm''
      subst hm''
      unfold calibrate at h
      by_cases hK : s.K = 0
      · have hm' : a.method = "N_star" := by rw [hm, defaultMethod, if_pos hK]
        rw [if_pos hK] at h
        split at h
        · next hf =>
          cases h
          unfold flat at hf
          split_ifs at hf
          any_goals first | (cases hf; done) | skip
          split at hf
          · next hs =>
            cases hf
            unfold flatSel at hs
            rw [hb] at hs
            dsimp only at hs
            rw [if_pos hm'] at hs
            unfold flatNstar at hs
            split at hs
            · cases hs
            · split_ifs at hs
              any_goals first | (cases hs; done) | skip
              split at hs
              · cases hs
              · dsimp only at hs
                split_ifs at hs
                any_goals first | (cases hs; done) | skip
                split at hs
                · next hi => cases hs; obtain ⟨m, hm⟩ := interpSorted_err hi; cases hm
                · split at hs
                  · next hr => cases hs; obtain ⟨m, hm⟩ := flatNstarReh_err hr; cases hm
                  · cases hs
          · cases hf
        · cases h
      · have hm' : a.method = "Omega_K0" := by rw [hm, defaultMethod, if_neg hK]
        rw [if_neg hK] at h
        split at h
        · next hf =>
          cases h
          unfold curved at hf
          split_ifs at hf
          any_goals first | (cases hf; done) | skip
          split at hf
          · cases hf
          · split_ifs at hf
            any_goals first | (cases hf; done) | skip
            split at hf
            · next hs =>
              cases hf
              unfold curvedSel at hs
              rw [if_pos hm'] at hs
              unfold curvedOmega at hs
              split at hs
              · cases hs
              · split_ifs at hs
                any_goals first | (cases hs; done) | skip
                dsimp only at hs
                split at hs <;> cases hs
            · split at hf
              · cases hf
              · dsimp only at hf
                split_ifs at hf
                any_goals first | (cases hf; done) | skip
                split at hf
                · next hi => cases hf; obtain ⟨m, hm⟩ := interpSorted_err hi; cases hm
                · cases hf
        · cases h
    exact key _ h _ rfl

/-- `C33_default` applies: a flat solution calibrated with nothing but `N_star`. -/
example (u : SI) : ∃ s', calibrate u demoFlat { method := defaultMethod demoFlat.K, N_star := some (3 / 2) } = .ok s' := by
  have : defaultMethod demoFlat.K = "N_star" := if_pos rfl
  rw [this]; exact demoFlat_calibrates u

/-- **C33, InsufficientInflationError only for insufficient inflation.**  It is raised only if inflation
is shorter than the requested `N_star`, or the pivot scale never leaves the horizon during inflation:
`aH` at the calibrated pivot lies outside the `aH` of begin and end of inflation (flat, reheating),
respectively outside the modes of the grid (curved). -/
theorem C33_insufficient (u : SI) (s : CalState) (a : CalArgs) (m : String)
    (herr : calibrate u s a = .error (.insufficientInflation m)) :
    ∃ I, s.infl = some I ∧
      if s.K = 0 then a.background = none ∧
        ((a.method = "N_star" ∧ ∃ ns, a.N_star = some ns ∧ I.N_tot < ns) ∨
         (a.method = "reheating" ∧ ∃ N_end dN st, flatReh u I
            (0 - logg a.g_th - log (I.V_end / u.T_CMB_Tp ^ 4) / 4) a s.sticky = .ok (N_end, dN, st) ∧
            (log u.K_STAR_lp < I.logaH_beg + (N_end - I.N_end) ∨
             I.logaH_end + (N_end - I.N_end) < log u.K_STAR_lp)))
      else ∃ h Ω aM a0 N0 nr st, a.h = some h ∧ curvedSel u s a h = .ok (Ω, aM, a0, N0, nr, st) ∧
        ((∀ l ∈ maskSel s.logaH (andMask I.mask (firstOccurrence (s.logaH.map (· - log aM)))),
            log SI.K_STAR < l - log aM) ∨
         ∀ l ∈ maskSel s.logaH (andMask I.mask (firstOccurrence (s.logaH.map (· - log aM)))),
            l - log aM < log SI.K_STAR) := by
  unfold calibrate at herr
  by_cases hK : s.K = 0
  · rw [if_pos hK] at herr
    simp only [hK, if_true]
    have hf : flat u s a = .error (.insufficientInflation m) := by
      cases hp : flat u s a with
      | error e => rw [hp] at herr; cases herr; rfl
      | ok p => rw [hp] at herr; cases herr
    unfold flat at hf
    split_ifs at hf with h1
    · cases hf
    have hs : flatSel u s a = .error (.insufficientInflation m) := by
      split at hf
      · next e he => rw [he]; cases hf; rfl
      · cases hf
    unfold flatSel at hs
    cases hb : a.background with
    | some b =>
      rw [hb] at hs
      dsimp only at hs
      unfold flatBackground at hs
      split at hs
      · cases hs
      · split_ifs at hs
        · cases hs
        · split at hs <;> cases hs
    | none =>
      rw [hb] at hs
      dsimp only at hs
      split_ifs at hs with h2 h3
      · unfold flatNstar at hs
        split at hs
        · cases hs
        · next ns hns =>
          split_ifs at hs with h4
          · cases hs
          split at hs
          · cases hs
          · next I hI =>
            split_ifs at hs with h5
            · exact ⟨I, hI, rfl, .inl ⟨h2, ns, hns, h5⟩⟩
            · dsimp only at hs
              split at hs
              · next hi =>
                cases hs
                obtain ⟨_, h⟩ := interpSorted_err hi
                cases h
              · split at hs
                · next hi =>
                  cases hs
                  obtain ⟨_, h⟩ := flatNstarReh_err hi
                  cases h
                · cases hs
      · unfold flatReheating at hs
        split_ifs at hs with h4
        · cases hs
        split at hs
        · split at hs
          · next hi =>
            cases hs
            rcases flatReh_err hi with ⟨_, h⟩ | ⟨⟨_, h⟩, -⟩ <;> cases h
          · cases hs
        · next I hI =>
          dsimp only at hs
          split at hs
          · next hi =>
            cases hs
            rcases flatReh_err hi with ⟨_, h⟩ | ⟨⟨_, h⟩, -⟩ <;> cases h
          · next N_end dN st hr =>
            split_ifs at hs with h5
            · refine ⟨I, hI, rfl, .inr ⟨h3, N_end, dN, st, hr, ?_⟩⟩
              exact h5.imp (fun h => by linarith) fun h => by linarith
            · split at hs
              · next hi =>
                cases hs
                obtain ⟨_, h⟩ := interpSorted_err hi
                cases h
              · cases hs
      · cases hs
  · rw [if_neg hK] at herr
    simp only [hK, if_false]
    have hf : curved u s a = .error (.insufficientInflation m) := by
      cases hp : curved u s a with
      | error e => rw [hp] at herr; cases herr; rfl
      | ok p => rw [hp] at herr; cases herr
    unfold curved at hf
    split_ifs at hf with h1
    · cases hf
    split at hf
    · cases hf
    · next h hh =>
      split_ifs at hf with h2
      · cases hf
      split at hf
      · next e he =>
        cases hf
        unfold curvedSel at he
        split_ifs at he with h3 h4
        · unfold curvedOmega at he
          split at he
          · cases he
          · split_ifs at he
            · cases he
            · cases he
            · dsimp only at he
              split at he <;> cases he
        · unfold curvedReheating at he
          split_ifs at he
          · cases he
          · cases he
          split at he
          · split at he
            · next hi => cases he; obtain ⟨_, h⟩ := curvedReh_err hi; cases h
            · cases he
          · dsimp only at he
            split at he
            · next hi => cases he; obtain ⟨_, h⟩ := curvedReh_err hi; cases h
            · cases he
        · cases he
      · next Ω aM a0 N0 nr st hsel =>
        split at hf
        · cases hf
        · next I hI =>
          refine ⟨I, hI, h, Ω, aM, a0, N0, nr, st, hh, hsel, ?_⟩
          dsimp only at hf
          split_ifs at hf with h3 h4
          · cases hf
          · rw [maskSel_map] at h4
            simpa only [List.forall_mem_map] using h4
          · split at hf
            · next hi => cases hf; obtain ⟨_, h⟩ := interpSorted_err hi; cases h
            · cases hf

/-- **C33, flat 'N_star' with reheating parameters.**  A successful call has no `DeltaN_reh` argument and at most one of
`rho_reh_GeV`, `w_reh`; a given `w_reh` is at least -1/3, is not 1/3, and the reported reheating duration is not
negative. -/
theorem C33_N_star_reheating (u : SI) (s s' : CalState) (a : CalArgs) (hK : s.K = 0) (hm : a.method = "N_star")
    (hb : a.background = none) (hok : calibrate u s a = .ok s') :
    a.DeltaN_reh = none ∧ (a.rho_reh_GeV = none ∨ a.w_reh = none) ∧
    ∀ w, a.w_reh = some w → w ≠ 1 / 3 ∧ -1 / 3 ≤ w ∧
      ∃ d, s'.sticky.DeltaN_reh = some (some d) ∧ 0 ≤ d := by
  obtain ⟨p, hp, rfl⟩ := calibrate_flat hK hok
  obtain ⟨-, ns, nc, ls, δ, nr, I, st, hs, rfl⟩ := flat_ok hp
  unfold flatSel at hs
  rw [hb] at hs
  dsimp only at hs
  rw [if_pos hm] at hs
  obtain ⟨-, -, -, -, -, -, -, dm1, -, hr⟩ := flatNstar_ok hs
  unfold flatNstarReh at hr
  split at hr
  · next h1 h2 h3 => exact ⟨h3, .inl h1, fun w hw => by rw [h2] at hw; cases hw⟩
  · next w h1 h2 h3 =>
    split_ifs at hr with h4
    dsimp only at hr
    split_ifs at hr with h5
    push Not at h5
    simp only [Except.ok.injEq, Prod.mk.injEq] at hr
    obtain ⟨-, rfl⟩ := hr
    refine ⟨h3, .inl h1, fun w' hw' => ?_⟩
    rw [h2] at hw'
    cases hw'
    exact ⟨h4, h5.2, _, rfl, h5.1⟩
  · next h1 h2 h3 => exact ⟨h3, .inr h2, fun w hw => by rw [h2] at hw; cases hw⟩
  · cases hr

/-- **C33, warnings.**  Unless the calibration is copied from a background, a successful call warns about a negative
reheating duration exactly if the reported `DeltaN_reh` is a negative number, and otherwise about reheating ending
after today exactly if the reported `N_reh` is a number above `N0`; with a copied background there is no warning. -/
theorem C33_warnings (u : SI) (s s' : CalState) (a : CalArgs) (hok : calibrate u s a = .ok s') :
    ∃ c, s'.cal = some c ∧
      (a.background = none →
        (c.warning = 1 ↔ ∃ d, s'.sticky.DeltaN_reh = some (some d) ∧ d < 0) ∧
        (c.warning = 2 ↔ (¬ ∃ d, s'.sticky.DeltaN_reh = some (some d) ∧ d < 0) ∧
          ∃ n, c.N_reh = some n ∧ c.N0 < n) ∧ c.warning ≤ 2) ∧
      (a.background ≠ none → c.warning = 0) := by
  obtain ⟨p, rfl⟩ : ∃ p : Part, s' = finish u s a.background.isSome p := by
    by_cases hK : s.K = 0
    · obtain ⟨p, -, h⟩ := calibrate_flat hK hok
      exact ⟨p, h⟩
    · obtain ⟨p, -, h⟩ := calibrate_curved hK hok
      exact ⟨p, h⟩
  · clear hok
    refine ⟨_, rfl, fun hb => ?_, fun hb => ?_⟩
    · simp only [finish, hb, Option.isSome_none]
      by_cases h1 : ∃ d, p.sticky.DeltaN_reh = some (some d) ∧ d < 0
      · simp [h1]
      · by_cases h2 : ∃ n, p.N_reh_.map (· + p.delta_N_calib) = some n ∧ p.N0 < n
        · simp only [h1, h2]; simp
        · simp only [h1, h2]; simp
    · have : a.background.isSome = true := Option.isSome_iff_ne_none.2 hb
      simp only [finish, this, if_true]

/-- **C33, silently ignored arguments.**  The following arguments have no effect whatsoever, whatever
their value: for a flat universe `h`; with `N_star` also `DeltaN_minus1`; for a curved universe with
`Omega_K0` also `w_reh`, `DeltaN_reh` and `DeltaN_minus1`. -/
theorem C33_ignored (u : SI) (s : CalState) (a : CalArgs) :
    (s.K = 0 → ∀ h, calibrate u s { a with h := h } = calibrate u s a) ∧
    (s.K = 0 → a.method = "N_star" → ∀ d, calibrate u s { a with DeltaN_minus1 := d } = calibrate u s a) ∧
    (s.K ≠ 0 → a.method = "Omega_K0" → ∀ w d d', calibrate u s
      { a with w_reh := w, DeltaN_reh := d, DeltaN_minus1 := d' } = calibrate u s a) := by
  refine ⟨fun hK h => ?_, fun hK hm d => ?_, fun hK hm w d d' => ?_⟩
  · unfold calibrate; simp only [if_pos hK]; rfl
  · unfold calibrate
    simp only [if_pos hK]
    unfold flat flatSel
    simp only [hm, if_true]
    rfl
  · unfold calibrate
    simp only [if_neg hK]
    unfold curved curvedSel
    simp only [hm, if_true]
    rfl

/-- **C33, a limit.**  A flat 'reheating' calibration with `w_reh` and `DeltaN_reh` *and* an `N_star` is
accepted, and the requested `N_star` has no effect on the result. -/
theorem C33_reheating_ignores_N_star (u : SI) (s : CalState) (a : CalArgs) (hK : s.K = 0)
    (hm : a.method = "reheating") (hb : a.background = none) (w d : ℝ) (hw : a.w_reh = some w)
    (hd : a.DeltaN_reh = some d) (hw3 : w ≠ 1 / 3) (hd0 : d ≠ 0) (hdm : a.DeltaN_minus1 = none)
    (hrho : a.rho_reh_GeV = none) (n : Option ℝ) :
    calibrate u s { a with N_star := n } = calibrate u s a := by
  have h : ∀ x : Option ℝ, is_instant_reheating x none (some w) (some d) none = .ok false := by
    intro x
    refine (C32_table _ _ _ _ _).2.2.1.2 (.inr ⟨.inr (.inl ⟨w, rfl, hw3⟩), ?_⟩)
    rintro (h | h | h)
    · exact hw3 (Option.some.inj h)
    · exact hd0 (Option.some.inj h)
    · cases h
  obtain ⟨m, Ω, hh, ns, bg, dr, wr, rho, g, dm⟩ := a
  dsimp only at hm hb hw hd hdm hrho
  subst hm hb hw hd hdm hrho
  unfold calibrate
  simp only [if_pos hK]
  unfold flat flatSel
  have hne : ("reheating" = "N_star") = False := by simp
  simp only [hne, if_false]
  unfold flatReheating flatReh
  simp only [h]
  rfl

/-- Hypotheses met: an accepted call, and the most common misuse. -/
example (u : SI) : (∃ s', calibrate u demoFlat { method := "N_star", N_star := some (3 / 2) } = .ok s') ∧
    ∃ m, calibrate u demoFlat { method := "N_star", N_star := some 4 } =
      .error (.insufficientInflation m) := by
  refine ⟨demoFlat_calibrates u, ?_⟩
  refine ((C33_flat_errors u demoFlat _ rfl).2.2 (by intro Ω h; cases h) rfl).2.2.1 rfl
    ⟨0, 3, 3, 1, 1, 0, 3, [false, true, true, false]⟩ 4 rfl rfl (by norm_num) (by norm_num)

/-- Hypotheses of `C33_N_star_reheating` and `C33_warnings` met. -/
example (u : SI) : ∃ s' c, calibrate u demoFlat { method := "N_star", N_star := some (3 / 2) } = .ok s' ∧ s'.cal = some c ∧ c.warning ≤ 2 := by
  obtain ⟨s', h⟩ := demoFlat_calibrates u
  obtain ⟨c, h1, h2, -⟩ := C33_warnings u demoFlat s' _ h
  exact ⟨s', c, h, h1, (h2 rfl).2.2⟩

end Primpy
