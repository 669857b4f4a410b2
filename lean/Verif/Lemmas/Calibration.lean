import Verif.Lemmas.Interp

/-! Inversion of the successful branches of the calibration. -/

namespace Primpy
open Real
namespace Cal

theorem calibrate_flat {u : SI} {s s' : CalState} {a : CalArgs} (hK : s.K = 0)
    (hok : calibrate u s a = .ok s') :
    ∃ p, flat u s a = .ok p ∧ s' = finish u s a.background.isSome p := by
  unfold calibrate at hok
  rw [if_pos hK] at hok
  cases hp : flat u s a with
  | error e => rw [hp] at hok; cases hok
  | ok p => rw [hp] at hok; exact ⟨p, rfl, (Except.ok.inj hok).symm⟩

theorem calibrate_curved {u : SI} {s s' : CalState} {a : CalArgs} (hK : s.K ≠ 0)
    (hok : calibrate u s a = .ok s') :
    ∃ p, curved u s a = .ok p ∧ s' = finish u s a.background.isSome p := by
  unfold calibrate at hok
  rw [if_neg hK] at hok
  cases hp : curved u s a with
  | error e => rw [hp] at hok; cases hok
  | ok p => rw [hp] at hok; exact ⟨p, rfl, (Except.ok.inj hok).symm⟩

theorem flat_ok {u : SI} {s : CalState} {a : CalArgs} {p : Part} (h : flat u s a = .ok p) :
    (∀ Ω, a.Omega_K0 = some Ω → Ω = 0) ∧
    ∃ ns nc ls δ nr I st, flatSel u s a = .ok (ns, nc, ls, δ, nr, I, st) ∧
      p = { a0 := 1, N0 := 0, Omega_K0 := 0, a0_Mpc := exp ls / SI.K_STAR, N_star := ns,
            N_cross_ := nc, logaH_star := ls, delta_N_calib := δ, N_reh_ := nr,
            infl := { I with mask := andMask I.mask (firstOccurrence
              (s.logaH.map fun l => l + log SI.K_STAR - ls)) },
            logk := maskSel (s.logaH.map fun l => l + log SI.K_STAR - ls)
              (andMask I.mask (firstOccurrence (s.logaH.map fun l => l + log SI.K_STAR - ls))),
            sticky := st } := by
  unfold flat at h
  split_ifs at h with h1
  refine ⟨fun Ω hΩ => by_contra fun hne => h1 ⟨Ω, hΩ, hne⟩, ?_⟩
  cases hs : flatSel u s a with
  | error e => rw [hs] at h; cases h
  | ok r =>
    obtain ⟨ns, nc, ls, δ, nr, I, st⟩ := r
    rw [hs] at h
    exact ⟨ns, nc, ls, δ, nr, I, st, rfl, (Except.ok.inj h).symm⟩

theorem flatNstar_ok {u : SI} {s : CalState} {a : CalArgs} {ns nc ls δ : ℝ} {nr : Option ℝ} {I : Infl}
    {st : Sticky} (h : flatNstar u s a = .ok (ns, nc, ls, δ, nr, I, st)) :
    a.N_star = some ns ∧ 0 < ns ∧ s.infl = some I ∧ ns ≤ I.N_tot ∧ nc = I.N_end - ns ∧
    interpL (maskSel s.N I.mask) (maskSel s.logaH I.mask) nc = .ok ls ∧
    δ = 0 - ls + log u.K_STAR_lp ∧
    ∃ dm1, dm1 = 0 - ns - log (u.K_STAR_lp / exp (ls - nc)) - logg a.g_th -
        log (I.V_end / u.T_CMB_Tp ^ 4) / 4 ∧
      flatNstarReh u I δ dm1 a
        { s.sticky with H_star := some (some (exp (ls - nc)))
                        DeltaN_minus1 := some (some dm1) } = .ok (nr, st) := by
  unfold flatNstar at h
  cases hN : a.N_star with
  | none => rw [hN] at h; cases h
  | some N_star =>
    rw [hN] at h
    dsimp only at h
    split_ifs at h with h1
    cases hI : s.infl with
    | none => rw [hI] at h; cases h
    | some J =>
      rw [hI] at h
      dsimp only at h
      split_ifs at h with h2
      cases hi : interpL (maskSel s.N J.mask) (maskSel s.logaH J.mask) (J.N_end - N_star) with
      | error e => rw [hi] at h; cases h
      | ok l =>
        rw [hi] at h
        dsimp only at h
        split at h
        · cases h
        · next hr =>
          simp only [Except.ok.injEq, Prod.mk.injEq] at h
          obtain ⟨rfl, rfl, rfl, rfl, rfl, rfl, rfl⟩ := h
          exact ⟨rfl, not_le.1 h1, rfl, not_lt.1 h2, rfl, hi, rfl, _, rfl, hr⟩

theorem flatReheating_ok {u : SI} {s : CalState} {a : CalArgs} {ns nc ls δ : ℝ} {nr : Option ℝ}
    {I : Infl} {st : Sticky} (h : flatReheating u s a = .ok (ns, nc, ls, δ, nr, I, st)) :
    badReheating a = false ∧ s.infl = some I ∧
    ∃ N_end dN, flatReh u I (0 - logg a.g_th - log (I.V_end / u.T_CMB_Tp ^ 4) / 4) a s.sticky =
        .ok (N_end, dN, st) ∧
      δ = N_end - I.N_end ∧ ls = 0 + log u.K_STAR_lp - δ ∧ I.logaH_beg ≤ ls ∧ ls ≤ I.logaH_end ∧
      interpL (maskSel s.logaH I.mask) (maskSel s.N I.mask) ls = .ok nc ∧
      ns = I.N_end - nc ∧ nr = dN.map (I.N_end + ·) := by
  unfold flatReheating at h
  split_ifs at h with hbad
  cases hI : s.infl with
  | none =>
    rw [hI] at h
    dsimp only at h
    split at h <;> cases h
  | some J =>
    rw [hI] at h
    dsimp only at h
    split at h
    · cases h
    · next N_end dN st' hr =>
      split_ifs at h with h2
      push Not at h2
      split at h
      · cases h
      · next nc' hi =>
        simp only [Except.ok.injEq, Prod.mk.injEq] at h
        obtain ⟨rfl, rfl, rfl, rfl, rfl, rfl, rfl⟩ := h
        exact ⟨by simpa using hbad, rfl, N_end, dN, hr, rfl, rfl, h2.1, h2.2, hi, rfl, rfl⟩

theorem curved_ok {u : SI} {s : CalState} {a : CalArgs} {p : Part} (hp : curved u s a = .ok p) :
    a.N_star = none ∧ ∃ h Ω aM a0 N0 nr st I nc, a.h = some h ∧ 0 < h ∧
      curvedSel u s a h = .ok (Ω, aM, a0, N0, nr, st) ∧ s.infl = some I ∧
      (∃ x ∈ maskSel (s.logaH.map fun l => l - log aM)
          (andMask I.mask (firstOccurrence (s.logaH.map fun l => l - log aM))), x ≤ log SI.K_STAR) ∧
      (∃ x ∈ maskSel (s.logaH.map fun l => l - log aM)
          (andMask I.mask (firstOccurrence (s.logaH.map fun l => l - log aM))), log SI.K_STAR ≤ x) ∧
      interpL (maskSel (s.logaH.map fun l => l - log aM)
          (andMask I.mask (firstOccurrence (s.logaH.map fun l => l - log aM))))
        (maskSel s.N (andMask I.mask (firstOccurrence (s.logaH.map fun l => l - log aM))))
        (log SI.K_STAR) = .ok nc ∧
      p = { a0 := a0, N0 := N0, Omega_K0 := Ω, a0_Mpc := aM, N_star := I.N_end - nc, N_cross_ := nc,
            logaH_star := log (SI.K_STAR * aM), delta_N_calib := 0, N_reh_ := nr,
            infl := { I with
              mask := andMask I.mask (firstOccurrence (s.logaH.map fun l => l - log aM)) },
            logk := maskSel (s.logaH.map fun l => l - log aM)
              (andMask I.mask (firstOccurrence (s.logaH.map fun l => l - log aM))),
            sticky := st } := by
  unfold curved at hp
  split_ifs at hp with h1
  refine ⟨by simpa using h1, ?_⟩
  cases hh : a.h with
  | none => rw [hh] at hp; cases hp
  | some h =>
    rw [hh] at hp
    dsimp only at hp
    split_ifs at hp with h2
    cases hs : curvedSel u s a h with
    | error e => rw [hs] at hp; cases hp
    | ok r =>
      obtain ⟨Ω, aM, a0, N0, nr, st⟩ := r
      rw [hs] at hp
      dsimp only at hp
      cases hI : s.infl with
      | none => rw [hI] at hp; cases hp
      | some I =>
        rw [hI] at hp
        dsimp only at hp
        split_ifs at hp with h3 h4
        push Not at h4
        split at hp
        · cases hp
        · next nc hi =>
          exact ⟨h, Ω, aM, a0, N0, nr, st, I, nc, rfl, not_le.1 h2, hs, rfl, h4.1, h4.2, hi,
            (Except.ok.inj hp).symm⟩

/-- What a flat calibration assembles from its method-specific results. -/
noncomputable def flatPart (s : CalState) (ns nc ls δ : ℝ) (nr : Option ℝ) (I : Infl) (st : Sticky) : Part :=
  { a0 := 1, N0 := 0, Omega_K0 := 0, a0_Mpc := exp ls / SI.K_STAR, N_star := ns,
    N_cross_ := nc, logaH_star := ls, delta_N_calib := δ, N_reh_ := nr,
    infl := { I with mask := andMask I.mask (firstOccurrence
      (s.logaH.map fun l => l + log SI.K_STAR - ls)) },
    logk := maskSel (s.logaH.map fun l => l + log SI.K_STAR - ls)
      (andMask I.mask (firstOccurrence (s.logaH.map fun l => l + log SI.K_STAR - ls))),
    sticky := st }

theorem calibrate_flat_intro {u : SI} {s : CalState} {a : CalArgs} (hK : s.K = 0)
    (hΩ : a.Omega_K0 = none) {ns nc ls δ : ℝ} {nr : Option ℝ} {I : Infl} {st : Sticky}
    (h : flatSel u s a = .ok (ns, nc, ls, δ, nr, I, st)) :
    calibrate u s a = .ok (finish u s a.background.isSome (flatPart s ns nc ls δ nr I st)) := by
  unfold calibrate
  rw [if_pos hK]
  unfold flat
  rw [if_neg (by rw [hΩ]; rintro ⟨_, h, -⟩; cases h), h]
  rfl

theorem flatReh_offset {u : SI} {I : Infl} {n N_end : ℝ} {a : CalArgs} {dN : Option ℝ} {st0 st : Sticky}
    (h : flatReh u I n a st0 = .ok (N_end, dN, st)) :
    ∃ dm1, st.DeltaN_minus1 = some (some dm1) ∧ N_end = n - dm1 := by
  unfold flatReh at h
  split at h
  · cases h
  · simp only [Except.ok.injEq, Prod.mk.injEq] at h
    obtain ⟨rfl, -, rfl⟩ := h
    exact ⟨0, rfl, by ring⟩
  · split at h
    · split_ifs at h
      split at h
      all_goals
        simp only [Except.ok.injEq, Prod.mk.injEq] at h
        obtain ⟨rfl, -, rfl⟩ := h
        exact ⟨_, rfl, rfl⟩
    · split at h
      · simp only [Except.ok.injEq, Prod.mk.injEq] at h
        obtain ⟨rfl, -, rfl⟩ := h
        exact ⟨_, rfl, rfl⟩
      · simp only [Except.ok.injEq, Prod.mk.injEq] at h
        obtain ⟨rfl, -, rfl⟩ := h
        exact ⟨_, rfl, rfl⟩
      · cases h

end Cal
end Primpy
