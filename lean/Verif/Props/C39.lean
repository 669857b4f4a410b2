import Verif.Props.C36
import Verif.Props.C38

/-!
# C39: the calibrated attributes depend on the last call only

`CalHistory u s0 s`: `s` is what earlier `calibrate_scale_factor` calls made of the freshly integrated
solution `s0`.  Calls may have succeeded or raised; a call that raised may have left *any* values in the
attributes it writes, and may already have reduced `inflation_mask` (inflation.py:728, 836).
-/

namespace Primpy
open Real Cal

/-- Everything earlier calls can do to the solution object, provided no background was copied whose end
of inflation differs from the solution's own. -/
inductive CalHistory (u : SI) (s0 : CalState) : CalState → Prop
  | fresh : CalHistory u s0 s0
  | returned {s s' : CalState} (a : CalArgs) : CalHistory u s0 s →
      (∀ b I, a.background = some b → s0.infl = some I → b.N_end = I.N_end) →
      calibrate u s a = .ok s' → CalHistory u s0 s'
  | raised {s s' : CalState} (a : CalArgs) (e : PyErr) : CalHistory u s0 s →
      calibrate u s a = .error e →
      s'.K = s.K → s'.N = s.N → s'.logaH = s.logaH → s'.H = s.H →
      (s'.infl = s.infl ∨ ∃ I, s.infl = some I ∧
        s'.infl = some { I with mask := andMask I.mask (firstOccurrence s.logaH) }) →
      CalHistory u s0 s'

/-- `t` and `s` differ at most in the attributes a calibration writes and in a reduced mask. -/
structure SameSolution (s0 s : CalState) : Prop where
  K : s.K = s0.K
  N : s.N = s0.N
  logaH : s.logaH = s0.logaH
  H : s.H = s0.H
  infl : s.infl = s0.infl ∨ ∃ I, s0.infl = some I ∧
    s.infl = some { I with mask := andMask I.mask (firstOccurrence s0.logaH) }

theorem flatSel_infl {u : SI} {s : CalState} {a : CalArgs} {ns nc ls δ : ℝ} {nr : Option ℝ} {I : Infl}
    {st : Sticky} (h : flatSel u s a = .ok (ns, nc, ls, δ, nr, I, st)) :
    s.infl = some I ∨ ∃ J b, s.infl = some J ∧ a.background = some b ∧ I = { J with N_end := b.N_end } := by
  unfold flatSel at h
  split at h
  · next b hb =>
    unfold flatBackground at h
    split at h
    · cases h
    · split_ifs at h
      split at h
      · cases h
      · next J hJ =>
        simp only [Except.ok.injEq, Prod.mk.injEq] at h
        obtain ⟨-, -, -, -, -, rfl, -⟩ := h
        exact Or.inr ⟨J, b, hJ, hb, rfl⟩
  · split_ifs at h with h1 h2
    · exact Or.inl (flatNstar_ok h).2.2.1
    · exact Or.inl (flatReheating_ok h).2.1

theorem curved_mask (s : CalState) (x : ℝ) :
    firstOccurrence (s.logaH.map fun l => l - log x) = firstOccurrence s.logaH :=
  firstOccurrence_map (sub_left_injective) s.logaH

/-- How a successful call changes `inflation_mask` and `_N_end`. -/
theorem calibrate_infl {u : SI} {s s' : CalState} {a : CalArgs} (h : calibrate u s a = .ok s') :
    s'.K = s.K ∧ s'.N = s.N ∧ s'.logaH = s.logaH ∧ s'.H = s.H ∧
    ∃ I, s.infl = some I ∧
      (s'.infl = some { I with mask := andMask I.mask (firstOccurrence s.logaH) } ∨
       ∃ b, a.background = some b ∧ s'.infl = some { I with
          N_end := b.N_end, mask := andMask I.mask (firstOccurrence s.logaH) }) := by
  by_cases hK : s.K = 0
  · obtain ⟨p, hp, rfl⟩ := calibrate_flat hK h
    obtain ⟨-, ns, nc, ls, δ, nr, J, st, hs, rfl⟩ := flat_ok hp
    rw [flat_mask]
    refine ⟨rfl, rfl, rfl, rfl, ?_⟩
    rcases flatSel_infl hs with hJ | ⟨I, b, hI, hb, rfl⟩
    · exact ⟨J, hJ, Or.inl rfl⟩
    · exact ⟨I, hI, Or.inr ⟨b, hb, rfl⟩⟩
  · obtain ⟨p, hp, rfl⟩ := calibrate_curved hK h
    obtain ⟨-, h, Ω, aM, a0, N0, nr, st, I, nc, -, -, -, hI, -, -, -, rfl⟩ := curved_ok hp
    rw [curved_mask]
    exact ⟨rfl, rfl, rfl, rfl, I, hI, Or.inl rfl⟩

theorem CalHistory.same {u : SI} {s0 s : CalState} (h : CalHistory u s0 s) : SameSolution s0 s := by
  induction h with
  | fresh => exact ⟨rfl, rfl, rfl, rfl, Or.inl rfl⟩
  | returned a _ hb hok ih =>
    obtain ⟨h1, h2, h3, h4, I, hI, h5⟩ := calibrate_infl hok
    refine ⟨h1.trans ih.K, h2.trans ih.N, h3.trans ih.logaH, h4.trans ih.H, Or.inr ?_⟩
    rw [ih.logaH] at h5
    rcases ih.infl with h6 | ⟨J, h6, h7⟩
    · refine ⟨I, h6 ▸ hI, ?_⟩
      rcases h5 with h5 | ⟨b, hb', h5⟩
      · exact h5
      · rw [h5, hb b I hb' (h6 ▸ hI)]
    · refine ⟨J, h6, ?_⟩
      rw [h7, Option.some.injEq] at hI
      subst hI
      rcases h5 with h5 | ⟨b, hb', h5⟩
      · rw [h5]; simp only [andMask_idem]
      · rw [h5, hb b J hb' h6]; simp only [andMask_idem]
  | raised a e _ _ k1 k2 k3 k4 k5 ih =>
    refine ⟨k1.trans ih.K, k2.trans ih.N, k3.trans ih.logaH, k4.trans ih.H, ?_⟩
    rw [ih.logaH] at k5
    rcases k5 with k5 | ⟨I, k5, k6⟩
    · rw [k5]; exact ih.infl
    · right
      rcases ih.infl with h6 | ⟨J, h6, h7⟩
      · exact ⟨I, h6 ▸ k5, k6⟩
      · refine ⟨J, h6, ?_⟩
        rw [h7, Option.some.injEq] at k5
        subst k5
        rw [k6]; simp only [andMask_idem]

/-! ### Which attributes are left from before -/

open Classical in
/-- The attributes a successful call leaves untouched: everything in the list when a flat calibration is
copied; otherwise `H_star` unless the flat `N_star` method is used, and `rho_reh_mp4` for a curved
`Omega_K0` calibration without `rho_reh_GeV`. -/
noncomputable def leftover (K : ℝ) (a : CalArgs) (old new : Sticky) : Sticky :=
  if K = 0 ∧ a.background.isSome then old
  else if K = 0 ∧ a.method = "N_star" then new
  else if K ≠ 0 ∧ a.method = "Omega_K0" ∧ a.rho_reh_GeV = none then
    { new with H_star := old.H_star, rho_reh_mp4 := old.rho_reh_mp4 }
  else { new with H_star := old.H_star }

theorem flatReh_old (u : SI) (I : Infl) (n : ℝ) (a : CalArgs) (st st0 : Sticky) :
    flatReh u I n a st =
      (flatReh u I n a st0).map fun r => (r.1, r.2.1, { r.2.2 with H_star := st.H_star }) := by
  unfold flatReh
  split
  · rfl
  · rfl
  · split
    · split_ifs
      · rfl
      · split <;> rfl
    · split <;> rfl

theorem curvedReh_old (u : SI) (I : Infl) (n : ℝ) (a : CalArgs) (st st0 : Sticky) :
    curvedReh u I n a st =
      (curvedReh u I n a st0).map fun r => (r.1, r.2.1, { r.2.2 with H_star := st.H_star }) := by
  unfold curvedReh
  split
  · rfl
  · rfl
  · split <;> rfl

theorem flatNstarReh_old (u : SI) (I : Infl) (δ m : ℝ) (a : CalArgs) (st st0 : Sticky) (x y : Slot) :
    flatNstarReh u I δ m a { st with H_star := x, DeltaN_minus1 := y } =
      flatNstarReh u I δ m a { st0 with H_star := x, DeltaN_minus1 := y } := by
  unfold flatNstarReh
  split
  · rfl
  · split_ifs <;> rfl
  · rfl
  · rfl

/-- The flat method-specific part does not read the old attributes. -/
theorem flatSel_old (u : SI) (s s0 : CalState) (a : CalArgs) (hK : s0.K = 0) (hN : s.N = s0.N)
    (hL : s.logaH = s0.logaH) (hI : s.infl = s0.infl) :
    flatSel u s a = (flatSel u s0 a).map fun r =>
      (r.1, r.2.1, r.2.2.1, r.2.2.2.1, r.2.2.2.2.1, r.2.2.2.2.2.1,
        leftover s0.K a s.sticky r.2.2.2.2.2.2) := by
  unfold flatSel
  cases hb : a.background with
  | some b =>
    dsimp only
    unfold flatBackground
    split
    · rfl
    · split_ifs
      · rfl
      · rw [hI]
        split
        · rfl
        · simp [Except.map, leftover, hK, hb]
  | none =>
    dsimp only
    split_ifs with h1 h2
    · unfold flatNstar
      split
      · rfl
      · split_ifs
        · rfl
        · rw [hI]
          split
          · rfl
          · dsimp only
            split_ifs
            · rfl
            · rw [hN, hL]
              split
              · rfl
              · rw [flatNstarReh_old u _ _ _ a s.sticky s0.sticky]
                split
                · rfl
                · simp [Except.map, leftover, hK, hb, h1]
    · unfold flatReheating
      split_ifs
      · rfl
      · rw [hI]
        split
        · rw [flatReh_old u _ _ a s.sticky s0.sticky]
          cases flatReh u ⟨0, 0, 0, 0, 0, 0, 0, []⟩ 0 a s0.sticky <;> rfl
        · next I hI' =>
          dsimp only
          rw [flatReh_old u _ _ a s.sticky s0.sticky]
          cases flatReh u I (0 - logg a.g_th - log (I.V_end / u.T_CMB_Tp ^ 4) / 4) a s0.sticky with
          | error e => rfl
          | ok r =>
            obtain ⟨r1, r2, r3⟩ := r
            dsimp only [Except.map]
            split_ifs
            · rfl
            · rw [hN, hL]
              split
              · rfl
              · simp [Except.map, leftover, hK, hb, h1]
    · rfl

/-- The curved method-specific part does not read the old attributes, nor the mask. -/
theorem curvedSel_old (u : SI) (s s0 : CalState) (a : CalArgs) (h : ℝ) (hK : s0.K ≠ 0) (hKK : s.K = s0.K)
    (hI : s.infl = s0.infl ∨ ∃ I m, s0.infl = some I ∧ s.infl = some { I with mask := m }) :
    curvedSel u s a h = (curvedSel u s0 a h).map fun r =>
      (r.1, r.2.1, r.2.2.1, r.2.2.2.1, r.2.2.2.2.1, leftover s0.K a s.sticky r.2.2.2.2.2) := by
  unfold curvedSel
  split_ifs with h1 h2
  · unfold curvedOmega
    rw [hKK]
    split
    · rfl
    · split_ifs
      · rfl
      · rfl
      · cases hr : a.rho_reh_GeV with
        | none => simp [Except.map, leftover, hK, h1, hr]
        | some ρ =>
          rcases hI with hI | ⟨I, m, hI, hI'⟩
          · rw [hI]; simp [Except.map, leftover, hK, h1, hr]
          · rw [hI, hI']; simp [Except.map, leftover, hK, h1, hr]
  · unfold curvedReheating
    split_ifs
    · rfl
    · rfl
    · rcases hI with hI | ⟨I, m, hI, hI'⟩
      · rw [hI]
        split
        · rw [curvedReh_old u _ _ a s.sticky s0.sticky]
          cases curvedReh u ⟨0, 0, 0, 0, 0, 0, 0, []⟩ 0 a s0.sticky <;> rfl
        · next I hI' =>
          dsimp only
          rw [curvedReh_old u _ _ a s.sticky s0.sticky]
          cases curvedReh u I (I.N_end + logg a.g_th + log (I.V_end / u.T_CMB_Tp ^ 4) / 4) a s0.sticky with
          | error e => rfl
          | ok r => simp [Except.map, leftover, hK, h1, hKK]
      · rw [hI, hI']
        dsimp only
        rw [curvedReh_old u _ _ a s.sticky s0.sticky]
        have : ∀ n st, curvedReh u { I with mask := m } n a st = curvedReh u I n a st := fun _ _ => rfl
        rw [this]
        cases curvedReh u I (I.N_end + logg a.g_th + log (I.V_end / u.T_CMB_Tp ^ 4) / 4) a s0.sticky with
        | error e => rfl
        | ok r => simp [Except.map, leftover, hK, h1, hKK]
  · rfl

theorem leftover_DeltaN (K : ℝ) (a : CalArgs) (old new : Sticky) (h : K ≠ 0 ∨ a.background = none) :
    (leftover K a old new).DeltaN_reh = new.DeltaN_reh := by
  unfold leftover
  split_ifs with h1
  · rcases h with h | h
    · exact absurd h1.1 h
    · rw [h] at h1; simp at h1
  all_goals rfl

/-- `finish` with other leftover attributes. -/
theorem finish_old (u : SI) (s0 s : CalState) (a : CalArgs) (p : Part) (hKK : s.K = s0.K) (hN : s.N = s0.N)
    (hL : s.logaH = s0.logaH) (hH : s.H = s0.H) :
    finish u s a.background.isSome { p with sticky := leftover s0.K a s.sticky p.sticky } =
      { finish u s0 a.background.isSome p with sticky := leftover s0.K a s.sticky p.sticky } := by
  unfold finish
  simp only [hKK, hN, hL, hH]
  cases hb : a.background with
  | some b => rfl
  | none =>
    have e := leftover_DeltaN s0.K a s.sticky p.sticky (Or.inr hb)
    obtain ⟨L, hL⟩ : ∃ L, L = leftover s0.K a s.sticky p.sticky := ⟨_, rfl⟩
    rw [← hL] at e ⊢
    rw [e]

/-- Calibrating a state with a history: same outcome, same exception, same results; only leftover
attributes differ. -/
theorem calibrate_old (u : SI) (s0 s : CalState) (a : CalArgs) (h : SameSolution s0 s)
    (hflat : s0.K = 0 → s.infl = s0.infl) :
    calibrate u s a = (calibrate u s0 a).map fun t =>
      { t with sticky := leftover s0.K a s.sticky t.sticky } := by
  unfold calibrate
  rw [h.K]
  split_ifs with hK
  · unfold flat
    split_ifs
    · rfl
    · rw [flatSel_old u s s0 a hK h.N h.logaH (hflat hK)]
      cases flatSel u s0 a with
      | error e => rfl
      | ok r =>
        obtain ⟨ns, nc, ls, δ, nr, I, st⟩ := r
        dsimp only [Except.map]
        rw [h.logaH]
        congr 1
        exact finish_old u s0 s a
          { a0 := 1, N0 := 0, Omega_K0 := 0, a0_Mpc := exp ls / SI.K_STAR, N_star := ns,
            N_cross_ := nc, logaH_star := ls, delta_N_calib := δ, N_reh_ := nr,
            infl := { I with mask := _ }, logk := _, sticky := st } h.K h.N h.logaH h.H
  · unfold curved
    split_ifs
    · rfl
    · cases a.h with
      | none => rfl
      | some hh =>
        dsimp only
        split_ifs
        · rfl
        · have hI : s.infl = s0.infl ∨ ∃ I m, s0.infl = some I ∧ s.infl = some { I with mask := m } := by
            rcases h.infl with h' | ⟨I, h1, h2⟩
            · exact Or.inl h'
            · exact Or.inr ⟨I, _, h1, h2⟩
          rw [curvedSel_old u s s0 a hh hK h.K hI]
          cases curvedSel u s0 a hh with
          | error e => rfl
          | ok r =>
            obtain ⟨Ω, aM, a0, N0, nr, st⟩ := r
            dsimp only [Except.map]
            rw [h.logaH, h.N]
            cases hI0 : s0.infl with
            | none =>
              rcases h.infl with h' | ⟨I, h1, h2⟩
              · rw [h', hI0]
              · rw [hI0] at h1; cases h1
            | some I =>
              have hm : ∃ m, s.infl = some { I with mask := m } ∧
                  andMask m (firstOccurrence (s0.logaH.map fun l => l - log aM)) =
                    andMask I.mask (firstOccurrence (s0.logaH.map fun l => l - log aM)) := by
                rcases h.infl with h' | ⟨J, h1, h2⟩
                · exact ⟨I.mask, by rw [h', hI0], rfl⟩
                · rw [hI0, Option.some.injEq] at h1
                  subst h1
                  refine ⟨_, h2, ?_⟩
                  rw [curved_mask, andMask_idem]
              obtain ⟨m, hm1, hm2⟩ := hm
              rw [hm1]
              dsimp only
              rw [hm2]
              split_ifs
              · rfl
              · rfl
              · cases interpL (maskSel (s0.logaH.map fun l => l - log aM)
                    (andMask I.mask (firstOccurrence (s0.logaH.map fun l => l - log aM))))
                  (maskSel s0.N (andMask I.mask (firstOccurrence (s0.logaH.map fun l => l - log aM))))
                  (log SI.K_STAR) with
                | error e => rfl
                | ok nc =>
                  dsimp only
                  congr 1
                  exact finish_old u s0 s a
                    { a0 := a0, N0 := N0, Omega_K0 := Ω, a0_Mpc := aM,
                      N_star := I.N_end - nc, N_cross_ := nc,
                      logaH_star := log (SI.K_STAR * aM), delta_N_calib := 0,
                      N_reh_ := nr, infl := { I with mask := _ }, logk := _, sticky := st } h.K h.N h.logaH h.H

/-! ### The theorem -/

/-- **C39, history independence.**  Whatever calibrations were attempted before, a call raises the same
exception or computes the same calibration (`a0`, `N_star`, `_N_cross`, `k`, mask, warning, ...) as on the
fresh solution, and the same `rho_reh_GeV`, `w_reh`, `DeltaN_reh`, `DeltaN_minus1`; `rho_reh_mp4` too unless
the call is a curved `Omega_K0` calibration without `rho_reh_GeV`, and `H_star` for the flat `N_star` method.
(A flat call that copies a background writes none of these last six.)  For flat universes no in-inflation
grid point may repeat the `aH` of an earlier grid point.  Missing: `H_star` and `rho_reh_mp4` in the
other cases, and copied backgrounds with a different end of inflation; both fail, see below. -/
theorem C39_history_partial (u : SI) (s0 s : CalState) (a : CalArgs) (hist : CalHistory u s0 s)
    (hgrid : s0.K = 0 → ∀ I, s0.infl = some I → I.mask.length = s0.logaH.length ∧
      ∀ i : ℕ, I.mask[i]? = some true → ∀ j < i, s0.logaH[j]? ≠ s0.logaH[i]?) :
    (∀ e, calibrate u s a = .error e ↔ calibrate u s0 a = .error e) ∧
    ((∃ t, calibrate u s a = .ok t) ↔ ∃ t, calibrate u s0 a = .ok t) ∧
    ∀ t t0, calibrate u s a = .ok t → calibrate u s0 a = .ok t0 →
      t.cal = t0.cal ∧ t.infl = t0.infl ∧ t.K = t0.K ∧ t.N = t0.N ∧ t.logaH = t0.logaH ∧ t.H = t0.H ∧
      (s0.K ≠ 0 ∨ a.background = none →
        t.sticky.rho_reh_GeV = t0.sticky.rho_reh_GeV ∧ t.sticky.w_reh = t0.sticky.w_reh ∧
        t.sticky.DeltaN_reh = t0.sticky.DeltaN_reh ∧ t.sticky.DeltaN_minus1 = t0.sticky.DeltaN_minus1 ∧
        (s0.K = 0 ∨ a.method = "reheating" ∨ a.rho_reh_GeV ≠ none →
          t.sticky.rho_reh_mp4 = t0.sticky.rho_reh_mp4) ∧
        (s0.K = 0 ∧ a.method = "N_star" → t.sticky.H_star = t0.sticky.H_star)) := by
  have hs := hist.same
  have hflat : s0.K = 0 → s.infl = s0.infl := by
    intro hK
    rcases hs.infl with h | ⟨I, h1, h2⟩
    · exact h
    · obtain ⟨g1, g2⟩ := hgrid hK I h1
      rw [h2, h1, andMask_firstOccurrence g1 g2]
  have key := calibrate_old u s0 s a hs hflat
  cases hc : calibrate u s0 a with
  | error e0 =>
    rw [hc] at key
    rw [key]
    exact ⟨fun e => by simp [Except.map], by simp [Except.map], fun t t0 h => by cases h⟩
  | ok t0 =>
    rw [hc] at key
    rw [key]
    refine ⟨fun e => by simp [Except.map], by simp [Except.map], fun t t0' h h0 => ?_⟩
    simp only [Except.map, Except.ok.injEq] at h h0
    subst h h0
    refine ⟨rfl, rfl, rfl, rfl, rfl, rfl, fun hb => ?_⟩
    have hno : ¬ (s0.K = 0 ∧ a.background.isSome) := by
      rintro ⟨h1, h2⟩
      rcases hb with h | h
      · exact h h1
      · rw [h] at h2; cases h2
    dsimp only
    unfold leftover
    rw [if_neg hno]
    by_cases c1 : s0.K = 0 ∧ a.method = "N_star"
    · rw [if_pos c1]; simp
    · rw [if_neg c1]
      by_cases c2 : s0.K ≠ 0 ∧ a.method = "Omega_K0" ∧ a.rho_reh_GeV = none
      · rw [if_pos c2]
        refine ⟨rfl, rfl, rfl, rfl, ?_, fun h => absurd h c1⟩
        rintro (h | h | h)
        · exact absurd h c2.1
        · rw [c2.2.1] at h; simp at h
        · exact absurd c2.2.2 h
      · rw [if_neg c2]
        exact ⟨rfl, rfl, rfl, rfl, fun _ => rfl, fun h => absurd h c1⟩

/-! ### Where it fails -/

/-- The grid condition of `C39_history_partial` holds for the demonstration solution. -/
theorem demoAt_grid (K x : ℝ) : ∀ I, (demoAt K x).infl = some I → I.mask.length = (demoAt K x).logaH.length ∧
      ∀ i : ℕ, I.mask[i]? = some true → ∀ j < i, (demoAt K x).logaH[j]? ≠ (demoAt K x).logaH[i]? := by
  intro I hI
  simp only [demoAt, Option.some.injEq] at hI
  subst hI
  refine ⟨rfl, fun i hi j hj hEq => ?_⟩
  have hnd : (demoAt K x).logaH.Nodup := by
    simp only [demoAt, List.nodup_cons, List.mem_cons, not_or,
      List.not_mem_nil, not_false_eq_true, and_true, List.nodup_nil]
    refine ⟨⟨?_, ?_, ?_⟩, ⟨?_, ?_⟩, ?_⟩ <;> intro h <;> linarith
  have hil : i < (demoAt K x).logaH.length := by
    by_contra hge
    rw [List.getElem?_eq_none (by simpa [demoAt] using hge)] at hi
    cases hi
  have := (List.getElem?_inj (by omega : j < (demoAt K x).logaH.length) hnd).1 hEq
  omega

/-- **`H_star` is stale.**  After an `N_star` calibration a reheating calibration of the same flat solution
leaves the old `H_star` in place, while on a fresh solution it does not define one. -/
theorem C39_H_star_stale (u : SI) : ∃ (s0 s1 t t0 : CalState) (a1 a2 : CalArgs) (x : ℝ), s0.K = 0 ∧
    a1.method = "N_star" ∧ a2.method = "reheating" ∧
    calibrate u s0 a1 = .ok s1 ∧ calibrate u s1 a2 = .ok t ∧ calibrate u s0 a2 = .ok t0 ∧
    t0.sticky.H_star = none ∧ t.sticky.H_star = some (some x) := by
  obtain ⟨a2, ha⟩ : ∃ a2 : CalArgs, a2 = { method := "reheating", w_reh := some 0, DeltaN_reh := some 1 } :=
    ⟨_, rfl⟩
  obtain ⟨x, t0, h, hst⟩ := demoAt_flat u a2 (by rw [ha]) (by rw [ha]) (by rw [ha]) (by
      rw [ha]
      unfold badReheating
      refine decide_eq_false ?_
      rintro (⟨_, h, h'⟩ | ⟨_, h, h'⟩) <;> cases h <;> norm_num at h') _ _ _ (by
      intro x
      rw [ha]
      unfold flatReh
      rw [show is_instant_reheating none none (some 0) (some 1) none = .ok false by
        simp [is_instant_reheating]]
      dsimp only [demoAt])
  obtain ⟨c, -, s1, c1, h1, -⟩ := C36_reheating_to_N_star u (demoAt 0 x) t0 _ (demoAt_good x) rfl a2
    (by rw [ha]) (by rw [ha]) h
  have hist : CalHistory u (demoAt 0 x) s1 := .returned _ .fresh (by intro b I hb; cases hb) h1
  have hsame := hist.same
  have hinf : s1.infl = (demoAt 0 x).infl := by
    rcases hsame.infl with h' | ⟨I, k1, k2⟩
    · exact h'
    · obtain ⟨g1, g2⟩ := demoAt_grid 0 x I k1
      rw [k2, k1, andMask_firstOccurrence g1 g2]
  have key := calibrate_old u (demoAt 0 x) s1 a2 hsame (fun _ => hinf)
  rw [h] at key
  obtain ⟨y, hy⟩ : ∃ y, s1.sticky.H_star = some (some y) := by
    obtain ⟨p, hp, rfl⟩ := calibrate_flat (show (demoAt 0 x).K = 0 from rfl) h1
    obtain ⟨-, ns, nc, ls, δ, nr, J, st, hs, rfl⟩ := flat_ok hp
    unfold flatSel at hs
    dsimp only at hs
    rw [if_pos rfl] at hs
    obtain ⟨-, -, -, -, -, -, -, m, -, hr⟩ := flatNstar_ok hs
    obtain ⟨q1, -⟩ := flatNstarReh_again hr
    exact ⟨_, q1⟩
  refine ⟨_, s1, _, t0, _, a2, y, rfl, rfl, by rw [ha], h1, key, h, ?_, ?_⟩
  · rw [hst]
  · have : leftover (demoAt 0 x).K a2 s1.sticky t0.sticky = { t0.sticky with H_star := s1.sticky.H_star } := by
      rw [ha]; unfold leftover; simp [demoAt]
    dsimp only
    rw [this]
    exact hy

/-- **`rho_reh_mp4` is stale.**  A curved `Omega_K0` calibration with `rho_reh_GeV` followed by one
without it leaves `rho_reh_GeV` undefined (NaN) but `rho_reh_mp4` at its old value. -/
theorem C39_rho_reh_mp4_stale (u : SI) : ∃ (s0 s1 t t0 : CalState) (a1 a2 : CalArgs) (ρ : ℝ), s0.K = 1 ∧
    calibrate u s0 a1 = .ok s1 ∧ calibrate u s1 a2 = .ok t ∧ calibrate u s0 a2 = .ok t0 ∧
    t0.sticky.rho_reh_mp4 = none ∧ t.sticky.rho_reh_mp4 = some (some ρ) ∧
    t.sticky.rho_reh_GeV = some none := by
  obtain ⟨a1, ha1⟩ : ∃ a : CalArgs, a = {
    method := "Omega_K0", Omega_K0 := some (-1), h := some 0.7, rho_reh_GeV := some 1 } := ⟨_, rfl⟩
  obtain ⟨a2, ha2⟩ : ∃ a : CalArgs, a = { method := "Omega_K0", Omega_K0 := some (-1), h := some 0.7 } :=
    ⟨_, rfl⟩
  have hsel : ∀ (a : CalArgs), a.method = "Omega_K0" → a.Omega_K0 = some (-1) →
      ∀ x, ∃ a0 N0 nr st, curvedSel u (demoAt 1 x) a 0.7 =
        .ok (-1, u.c / (0.7 * 100 * 1000) * √(-1 / -1), a0, N0, nr, st) ∧
        (a.rho_reh_GeV = none → st.rho_reh_GeV = some none ∧ st.rho_reh_mp4 = none) ∧
        (∀ r, a.rho_reh_GeV = some r → st.rho_reh_mp4 = some (some (toPlanck u r))) := by
    intro a hm hΩ x
    unfold curvedSel
    rw [if_pos hm]
    unfold curvedOmega
    rw [hΩ]
    dsimp only
    rw [if_neg (by norm_num), if_neg (by simp [demoAt])]
    cases hr : a.rho_reh_GeV with
    | none => exact ⟨_, _, _, _, rfl, fun _ => ⟨rfl, rfl⟩, fun r h => by cases h⟩
    | some r => exact ⟨_, _, _, _, rfl, (fun h => by cases h), fun r' h => by cases h; rfl⟩
  obtain ⟨x, hx⟩ : ∃ x, x = log SI.K_STAR + log (u.c / (0.7 * 100 * 1000) * √(-1 / -1)) := ⟨_, rfl⟩
  obtain ⟨_, _, _, _, k1, -, k3⟩ := hsel a1 (by rw [ha1]) (by rw [ha1]) x
  obtain ⟨_, _, _, _, l1, l2, -⟩ := hsel a2 (by rw [ha2]) (by rw [ha2]) x
  obtain ⟨s1, h1, hs1⟩ := demoAt_curved_at u 1 one_ne_zero a1 0.7 (by rw [ha1]) (by norm_num) (by rw [ha1])
    _ _ _ _ _ _ x hx k1
  obtain ⟨t0, h2, hs2⟩ := demoAt_curved_at u 1 one_ne_zero a2 0.7 (by rw [ha2]) (by norm_num) (by rw [ha2])
    _ _ _ _ _ _ x hx l1
  have hist : CalHistory u (demoAt 1 x) s1 :=
    .returned a1 .fresh (by intro b I hb; rw [ha1] at hb; cases hb) h1
  have key := calibrate_old u (demoAt 1 x) s1 a2 hist.same (fun h => absurd h one_ne_zero)
  rw [h2] at key
  obtain ⟨l3, l4⟩ := l2 (by rw [ha2])
  refine ⟨_, s1, _, t0, a1, a2, toPlanck u 1, rfl, h1, key, h2, by rw [hs2]; exact l4, ?_, ?_⟩
  all_goals
    have : leftover (demoAt 1 x).K a2 s1.sticky t0.sticky =
        { t0.sticky with H_star := s1.sticky.H_star, rho_reh_mp4 := s1.sticky.rho_reh_mp4 } := by
      rw [ha2]; unfold leftover; simp [demoAt]
    dsimp only
    rw [this]
    dsimp only
  · rw [hs1]; exact k3 1 (by rw [ha1])
  · rw [hs2]; exact l3

/-- **A copied background leaves its end of inflation behind.**  Calibrating with a background whose
`_N_end` differs and then with `N_star` puts the horizon crossing of the pivot scale elsewhere than
calibrating with `N_star` alone. -/
theorem C39_background_stale (u : SI) : ∃ (s0 s1 t t0 : CalState) (a1 a2 : CalArgs) (c c0 : Calib),
    s0.K = 0 ∧ a1.background.isSome ∧ a2.background = none ∧
    calibrate u s0 a1 = .ok s1 ∧ calibrate u s1 a2 = .ok t ∧ calibrate u s0 a2 = .ok t0 ∧
    t.cal = some c ∧ t0.cal = some c0 ∧ c0.logaH_star = 3 / 2 ∧ c.logaH_star = 2 := by
  have hm : andMask [false, true, true, false] (firstOccurrence demoFlat.logaH) =
      [false, true, true, false] := andMask_nodup rfl (by simp [demoFlat])
  obtain ⟨b, hb⟩ : ∃ b : Background, b = ⟨3 / 2, 0, 2, 2, none, 7 / 2⟩ := ⟨_, rfl⟩
  have h1 : flatSel u demoFlat { method := "N_star", N_star := some (3 / 2), background := some b } =
      .ok (3 / 2, 2, 2, 0, none, ⟨0, 7 / 2, 3, 1, 1, 0, 3, [false, true, true, false]⟩, demoFlat.sticky) := by
    unfold flatSel
    dsimp only
    unfold flatBackground
    rw [hb]
    dsimp only
    rw [if_neg (by norm_num)]
    rfl
  have e1 := calibrate_flat_intro (s := demoFlat) rfl rfl h1
  have key : ∀ (s : CalState) (n : ℝ), s.N = demoFlat.N → s.logaH = demoFlat.logaH →
      s.infl = some ⟨0, n, 3, 1, 1, 0, 3, [false, true, true, false]⟩ → 5 / 2 ≤ n → n ≤ 7 / 2 →
      ∃ st, flatSel u s { method := "N_star", N_star := some (3 / 2) } =
        .ok (3 / 2, n - 3 / 2, n - 3 / 2, 0 - (n - 3 / 2) + log u.K_STAR_lp, none,
          ⟨0, n, 3, 1, 1, 0, 3, [false, true, true, false]⟩, st) := by
    intro s n hN hL hI h1 h2
    unfold flatSel
    dsimp only
    rw [if_pos rfl]
    unfold flatNstar
    dsimp only
    rw [if_neg (by norm_num), hI]
    dsimp only
    rw [if_neg (by norm_num), hN, hL, demoFlat_interp _ (by linarith) (by linarith)]
    exact ⟨_, rfl⟩
  obtain ⟨st0, k0⟩ := key demoFlat 3 rfl rfl rfl (by norm_num) (by norm_num)
  obtain ⟨st1, k1⟩ := key (finish u demoFlat true (flatPart demoFlat (3 / 2) 2 2 0 none
      ⟨0, 7 / 2, 3, 1, 1, 0, 3, [false, true, true, false]⟩ demoFlat.sticky)) (7 / 2) rfl rfl (by
      simp only [finish, flatPart]
      rw [flat_mask, hm]) (by norm_num) (by norm_num)
  have e0 := calibrate_flat_intro (s := demoFlat) rfl rfl k0
  have e2 := calibrate_flat_intro (s := finish u demoFlat true (flatPart demoFlat (3 / 2) 2 2 0 none
      ⟨0, 7 / 2, 3, 1, 1, 0, 3, [false, true, true, false]⟩ demoFlat.sticky)) rfl rfl k1
  refine ⟨demoFlat, _, _, _, _, _, _, _, rfl, rfl, rfl, e1, e2, e0, rfl, rfl, ?_, ?_⟩
  · show (3:ℝ) - 3 / 2 = 3 / 2
    norm_num
  · show (7 / 2 : ℝ) - 3 / 2 = 2
    norm_num

/-- Hypotheses of `C39_history_partial` met: a closed universe with a completed calibration behind it,
and a flat one with a failed attempt (an unknown method) that left junk behind. -/
example (u : SI) : (∃ s0 s, s0.K = 1 ∧ CalHistory u s0 s ∧ s.cal.isSome) ∧
    ∃ s0 s, s0.K = 0 ∧ CalHistory u s0 s ∧ s.sticky.H_star = some none := by
  constructor
  · obtain ⟨x, s', h⟩ := demoAt_closed u
    refine ⟨_, s', rfl, .returned _ .fresh (by intro b I hb; cases hb) h, ?_⟩
    obtain ⟨p, -, rfl⟩ := calibrate_curved (show (demoAt 1 x).K ≠ 0 from one_ne_zero) h
    rfl
  · refine ⟨demoFlat, { demoFlat with sticky := ⟨some none, none, none, none, none, none⟩ }, rfl,
      .raised { method := "reheatng" } (.notImplemented "Unknown calibration_method") .fresh ?_ rfl rfl rfl rfl
        (Or.inl rfl), rfl⟩
    unfold calibrate
    rw [if_pos (show demoFlat.K = 0 from rfl)]
    unfold flat flatSel
    simp

end Primpy
