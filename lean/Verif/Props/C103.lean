import Verif.Props.C102

/-!
# C103: calibration by a reheating history, in a curved universe that `solve` returned
-/

namespace Primpy
open Real Set Spec Bunch Approx

/-! ## Specification -/

/-- the call for a curved universe: the Hubble parameter `h` is needed too -/
def Recipe.callCurved (g h : ℝ) (r : Recipe) : CalArgs := { r.call g with h := some h }

/-- The histories that the curved branch continues correctly: with a given final density only pressureless matter (C35, finding on the branch `w_reh` + `rho_reh_GeV`). -/
def Recipe.Sound : Recipe → Prop
  | .diluting w _ => w = 0
  | _ => True

namespace C103

/-! ## Tools -/

/-- the scale factor today is unique -/
theorem today_unique {u : SI} {g ρ N N0 N0' : ℝ} (hg : 0 < g) (h : Thermalised u g ρ N N0) (h' : Thermalised u g ρ N N0') : N0 = N0' := by
  obtain ⟨T, hT, h1, h2⟩ := h
  obtain ⟨T', hT', h3, h4⟩ := h'
  have hTT : T = T' := by
    have : T ^ 4 = T' ^ 4 := by
      have hc : π ^ 2 / 30 * g ≠ 0 := by positivity
      exact mul_left_cancel₀ hc (h1.symm.trans h3)
    exact (pow_left_inj₀ hT.le hT'.le (by norm_num)).1 this
  subst hTT
  have h0 := Cal.g0_pos
  have hc := Cal.T_CMB_pos u
  have : SI.g0 * u.T_CMB_Tp ^ 3 ≠ 0 := by positivity
  have h5 := mul_left_cancel₀ this (h2.symm.trans h4)
  exact exp_injective ((pow_left_inj₀ (exp_pos _).le (exp_pos _).le (by norm_num)).1 h5)

/-- the branch of the code that the recipes take -/
theorem requested {u : SI} {I : Infl} {r : Recipe} (hr : r.Admissible) (hs : r.Sound) {g hh : ℝ} (hg : 0 < g) (hV : 0 < I.V_end) {w d ρ N0 : ℝ} (hist : r.History u I.V_end w d ρ)
    (ht : Thermalised u g ρ (I.N_end + d) N0) (st : Sticky) :
    Cal.badReheating (r.callCurved g hh) = false ∧
      ∃ st', Cal.curvedReh u I (I.N_end + Cal.logg g + log (I.V_end / u.T_CMB_Tp ^ 4) / 4) (r.callCurved g hh) st = .ok (N0, I.N_end + d, st') := by
  obtain ⟨hd, hgiv⟩ := hist
  have hN : N0 = I.N_end + Cal.logg g + log (I.V_end / u.T_CMB_Tp ^ 4) / 4 + d / 4 * (1 - 3 * w) := by
    have := (history_of (u := u) (g := g) (N_end := I.N_end) (N0 := I.N_end + Cal.logg g + log (I.V_end / u.T_CMB_Tp ^ 4) / 4 + d / 4 * (1 - 3 * w)) (w := w) (d := d) hg hV (by ring))
    rw [← hd] at this
    exact today_unique hg ht this
  have calm : is_instant_reheating (r.callCurved g hh).N_star (r.callCurved g hh).rho_reh_GeV (r.callCurved g hh).w_reh (r.callCurved g hh).DeltaN_reh (r.callCurved g hh).DeltaN_minus1 =
      is_instant_reheating (r.call g).N_star (r.call g).rho_reh_GeV (r.call g).w_reh (r.call g).DeltaN_reh (r.call g).DeltaN_minus1 := rfl
  cases r with
  | instant =>
    obtain rfl : d = 0 := hgiv
    refine ⟨by simp [Cal.badReheating, Recipe.call, Recipe.callCurved], ?_⟩
    unfold Cal.curvedReh
    rw [calm, show is_instant_reheating (Recipe.instant.call g).N_star (Recipe.instant.call g).rho_reh_GeV (Recipe.instant.call g).w_reh (Recipe.instant.call g).DeltaN_reh
      (Recipe.instant.call g).DeltaN_minus1 = .ok true by simp [is_instant_reheating, Recipe.call]]
    have hN : N0 = I.N_end + Cal.logg g + log (I.V_end / u.T_CMB_Tp ^ 4) / 4 := by rw [hN]; ring
    rw [hN, add_zero]
    exact ⟨_, rfl⟩
  | lasting w' d' =>
    obtain ⟨rfl, rfl⟩ : w = w' ∧ d = d' := hgiv
    obtain ⟨d0, w0, hi⟩ : 0 ≤ d ∧ -1 / 3 ≤ w ∧ (w = 1 / 3 ↔ d = 0) := hr
    refine ⟨by simp [Cal.badReheating, Recipe.call, Recipe.callCurved, d0, w0], ?_⟩
    unfold Cal.curvedReh
    by_cases hd0 : d = 0
    · have hw0 := hi.2 hd0
      rw [calm, show is_instant_reheating ((Recipe.lasting w d).call g).N_star ((Recipe.lasting w d).call g).rho_reh_GeV ((Recipe.lasting w d).call g).w_reh ((Recipe.lasting w d).call g).DeltaN_reh
        ((Recipe.lasting w d).call g).DeltaN_minus1 = .ok true by simp [is_instant_reheating, Recipe.call, hd0, hw0]]
      have hN : N0 = I.N_end + Cal.logg g + log (I.V_end / u.T_CMB_Tp ^ 4) / 4 := by rw [hN, hd0]; ring
      rw [hN, hd0, add_zero]
      exact ⟨_, rfl⟩
    · have hw0 : w ≠ 1 / 3 := fun h => hd0 (hi.1 h)
      rw [calm, show is_instant_reheating ((Recipe.lasting w d).call g).N_star ((Recipe.lasting w d).call g).rho_reh_GeV ((Recipe.lasting w d).call g).w_reh ((Recipe.lasting w d).call g).DeltaN_reh
        ((Recipe.lasting w d).call g).DeltaN_minus1 = .ok false by
          have hw1 : ¬ w = 3⁻¹ := fun h => hw0 (by rw [h]; norm_num)
          simp [is_instant_reheating, Recipe.call, hd0, hw1]]
      rw [hN]
      exact ⟨_, rfl⟩
  | diluting w' ρ' =>
    obtain ⟨rfl, hρ⟩ : w = w' ∧ ρ = ρ' ^ 4 / u.mp_GeV * u.lp_iGeV ^ 3 := hgiv
    obtain rfl : w = 0 := hs
    refine ⟨by simp [Cal.badReheating, Recipe.call, Recipe.callCurved], ?_⟩
    unfold Cal.curvedReh
    rw [calm, show is_instant_reheating ((Recipe.diluting 0 ρ').call g).N_star ((Recipe.diluting 0 ρ').call g).rho_reh_GeV ((Recipe.diluting 0 ρ').call g).w_reh
      ((Recipe.diluting 0 ρ').call g).DeltaN_reh ((Recipe.diluting 0 ρ').call g).DeltaN_minus1 = .ok false by
        simp [is_instant_reheating, Recipe.call]]
    have hρ' : Cal.toPlanck u ρ' = ρ := hρ.symm
    have hlog : -(1 + 0) / 3 * log (2 / 3 * Cal.toPlanck u ρ' / I.V_end) = d := by
      rw [hρ', hd, show 2 / 3 * (3 / 2 * I.V_end * exp (-3 * (1 + 0) * d)) / I.V_end = exp (-3 * (1 + 0) * d) by field_simp, log_exp]
      ring
    have key : ∀ x, x = d → ∀ st' : Sticky, (Except.ok (I.N_end + Cal.logg g + log (I.V_end / u.T_CMB_Tp ^ 4) / 4 + x / 4 * (1 - 3 * 0), I.N_end + x, st') : Except PyErr _) =
        .ok (N0, I.N_end + d, st') := by
      rintro x rfl st'
      rw [hN]
    exact ⟨_, key _ hlog _⟩

/-- the scale factor today, for every recipe -/
theorem history (u : SI) {r : Recipe} (hr : r.Admissible) {g V N : ℝ} (hg : 0 < g) (hV : 0 < V) (hρ : ∀ w ρ, r = .diluting w ρ → 0 < ρ) :
    ∃ w d ρ N0, r.History u V w d ρ ∧ Thermalised u g ρ (N + d) N0 := by
  obtain ⟨w, d, ρ, -, hh, -⟩ := C102.history u hr hg hV hρ
  refine ⟨w, d, ρ, N + Cal.logg g + log (V / u.T_CMB_Tp ^ 4) / 4 + d / 4 * (1 - 3 * w), hh, ?_⟩
  rw [hh.dilution]
  exact history_of hg hV (by ring)

theorem unfolds (u : SI) {cs : CalState} {I : Infl} (hK : cs.K ≠ 0) (hI : cs.infl = some I) (r : Recipe) (g hh : ℝ) :
    Cal.calibrate u cs (r.callCurved g hh) = match (if hh ≤ 0 then .error (.valueError "little h>0 must be provided") else match Cal.curvedReheating u cs (r.callCurved g hh) hh with
        | .error e => .error e
        | .ok (Ω, a0_Mpc, a0, N0, N_reh_, st) =>
          let logk := cs.logaH.map fun l => l - log a0_Mpc
          let mask := andMask I.mask (firstOccurrence logk)
          let lk := maskSel logk mask
          if lk = [] then .error (.valueError "zero-size array")
          else if (∀ x ∈ lk, log SI.K_STAR < x) ∨ ∀ x ∈ lk, x < log SI.K_STAR then .error (.insufficientInflation "Pivot scale not within range")
          else match interpL lk (maskSel cs.N mask) (log SI.K_STAR) with
            | .error e => .error e
            | .ok N_cross =>
              .ok { a0 := a0, N0 := N0, Omega_K0 := Ω, a0_Mpc := a0_Mpc, N_star := I.N_end - N_cross, N_cross_ := N_cross, logaH_star := log (SI.K_STAR * a0_Mpc), delta_N_calib := 0,
                    N_reh_ := N_reh_, infl := { I with mask := mask }, logk := lk, sticky := st } : Except PyErr Part) with
      | .error e => .error e
      | .ok p => .ok (Cal.finish u cs false p) := by
  have b : (r.callCurved g hh).background = none := by cases r <;> rfl
  have n : (r.callCurved g hh).N_star = none := by cases r <;> rfl
  have m : (r.callCurved g hh).method = "reheating" := by cases r <;> rfl
  have k : (r.callCurved g hh).h = some hh := rfl
  have sel : Cal.curvedSel u cs (r.callCurved g hh) hh = Cal.curvedReheating u cs (r.callCurved g hh) hh := by
    unfold Cal.curvedSel
    rw [m, if_neg (by decide), if_pos rfl]
  unfold Cal.calibrate
  rw [if_neg hK]
  unfold Cal.curved
  rw [n, k, b]
  dsimp only
  rw [if_neg (by simp), sel, hI]
  rfl

/-- the inadmissible recipes, and `h ≤ 0`, are refused -/
theorem refused (u : SI) {cs : CalState} {I : Infl} (hK : cs.K ≠ 0) (hI : cs.infl = some I) {r : Recipe} {hh : ℝ} (hr : ¬ (0 < hh ∧ r.Admissible)) (g : ℝ) :
    ∃ msg, Cal.calibrate u cs (r.callCurved g hh) = .error (.valueError msg) := by
  rw [unfolds u hK hI]
  by_cases h0 : hh ≤ 0
  · rw [if_pos h0]; exact ⟨_, rfl⟩
  rw [if_neg h0]
  have hr : ¬ r.Admissible := fun h => hr ⟨not_le.1 h0, h⟩
  suffices hs : ∃ msg, Cal.curvedReheating u cs (r.callCurved g hh) hh = .error (.valueError msg) by
    obtain ⟨msg, he⟩ := hs
    rw [he]
    exact ⟨msg, rfl⟩
  have hΩ : (r.callCurved g hh).Omega_K0 = none := by cases r <;> rfl
  unfold Cal.curvedReheating
  rw [hΩ, if_neg (by simp)]
  by_cases hb : Cal.badReheating (r.callCurved g hh) = true
  · rw [if_pos hb]; exact ⟨_, rfl⟩
  rw [if_neg hb, hI]
  dsimp only
  suffices hs : is_instant_reheating (r.call g).N_star (r.call g).rho_reh_GeV (r.call g).w_reh (r.call g).DeltaN_reh (r.call g).DeltaN_minus1 =
      .error (.valueError "instant reheating requires all other parameters to match") by
    unfold Cal.curvedReh
    have hs : is_instant_reheating (r.callCurved g hh).N_star (r.callCurved g hh).rho_reh_GeV (r.callCurved g hh).w_reh (r.callCurved g hh).DeltaN_reh (r.callCurved g hh).DeltaN_minus1 =
      .error (.valueError "instant reheating requires all other parameters to match") := hs
    rw [hs]
    exact ⟨_, rfl⟩
  cases r with
  | instant => exact absurd trivial hr
  | lasting w d =>
    have hb' : 0 ≤ d ∧ -1 / 3 ≤ w := ⟨not_lt.1 fun hc => hb (decide_eq_true (.inl ⟨d, rfl, hc⟩)), not_lt.1 fun hc => hb (decide_eq_true (.inr ⟨w, rfl, hc⟩))⟩
    have hi : ¬ (w = 1 / 3 ↔ d = 0) := fun hi => hr ⟨hb'.1, hb'.2, hi⟩
    by_cases hw : w = 1 / 3
    · have hd : d ≠ 0 := fun hd => hi ⟨fun _ => hd, fun _ => hw⟩
      have hw' : w = 3⁻¹ := by rw [hw]; norm_num
      simp [is_instant_reheating, Recipe.call, hw', hd]
    · have hd : d = 0 := by by_contra hd; exact hi ⟨fun h => absurd h hw, fun h => absurd h hd⟩
      have hw' : ¬ w = 3⁻¹ := fun h => hw (by rw [h]; norm_num)
      simp [is_instant_reheating, Recipe.call, hw', hd]
  | diluting w ρ =>
    have hb' : -1 / 3 ≤ w := not_lt.1 fun hc => hb (decide_eq_true (.inr ⟨w, rfl, hc⟩))
    have hw : w = 1 / 3 := by by_contra hw; exact hr ⟨hb', hw⟩
    have hw' : w = 3⁻¹ := by rw [hw]; norm_num
    simp [is_instant_reheating, Recipe.call, hw']

/-- what the calibration does once the history is fixed -/
theorem cases (u : SI) {cs : CalState} {I : Infl} (hK : cs.K ≠ 0) (hI : cs.infl = some I) {r : Recipe} {g hh N0 d : ℝ} {st' : Sticky} (h0 : 0 < hh)
    (hbad : Cal.badReheating (r.callCurved g hh) = false)
    (hr : Cal.curvedReh u I (I.N_end + Cal.logg g + log (I.V_end / u.T_CMB_Tp ^ 4) / 4) (r.callCurved g hh) cs.sticky = .ok (N0, I.N_end + d, st')) {a0 : ℝ}
    (ha : a0 = exp N0 * u.lp_m / u.Mpc_m) {lk : List ℝ} {M : List Bool} (hM : M = andMask I.mask (firstOccurrence (cs.logaH.map fun l => l - log a0)))
    (hlk : lk = maskSel (cs.logaH.map fun l => l - log a0) M) :
    ((∃ c, Cal.calibrate u cs (r.callCurved g hh) = .ok c) ↔ (∃ x ∈ lk, x ≤ log SI.K_STAR) ∧ (∃ x ∈ lk, log SI.K_STAR ≤ x) ∧ ∃ y, interpL lk (maskSel cs.N M) (log SI.K_STAR) = .ok y) ∧
    (lk ≠ [] → ((∀ x ∈ lk, log SI.K_STAR < x) ∨ ∀ x ∈ lk, x < log SI.K_STAR) → ∃ msg, Cal.calibrate u cs (r.callCurved g hh) = .error (.insufficientInflation msg)) ∧
    ∀ c, Cal.calibrate u cs (r.callCurved g hh) = .ok c → ∃ κ, c.cal = some κ ∧ κ.N0 = N0 ∧ κ.a0_Mpc = a0 ∧ κ.N_end = I.N_end ∧ κ.N_reh = some (I.N_end + d) ∧
      κ.Omega_K0 = -cs.K * (u.c / 1000 / (100 * hh) / a0) ^ 2 := by
  have hsel : Cal.curvedReheating u cs (r.callCurved g hh) hh = .ok (-cs.K * u.c ^ 2 / (a0 * hh * 100 * 1000) ^ 2, a0, exp N0, N0, some (I.N_end + d), st') := by
    have hΩ : (r.callCurved g hh).Omega_K0 = none := by cases r <;> rfl
    have hg : (r.callCurved g hh).g_th = g := by cases r <;> rfl
    unfold Cal.curvedReheating
    rw [hΩ, if_neg (by simp), if_neg (by rw [hbad]; simp), hI]
    dsimp only
    rw [hg, hr]
    dsimp only
    rw [← ha]
  rw [unfolds u hK hI, if_neg (not_le.2 h0), hsel]
  dsimp only
  rw [← hM, ← hlk]
  by_cases hnil : lk = []
  · rw [if_pos hnil]
    refine ⟨⟨fun ⟨c, hc⟩ => (by cases hc), fun ⟨⟨x, hx, _⟩, _⟩ => by rw [hnil] at hx; simp at hx⟩, fun h => absurd hnil h, fun c hc => by cases hc⟩
  rw [if_neg hnil]
  by_cases hout : (∀ x ∈ lk, log SI.K_STAR < x) ∨ ∀ x ∈ lk, x < log SI.K_STAR
  · rw [if_pos hout]
    refine ⟨⟨fun ⟨c, hc⟩ => (by cases hc), fun ⟨⟨x, hx, h1⟩, ⟨z, hz, h2⟩, _⟩ => ?_⟩, fun _ _ => ⟨_, rfl⟩, fun c hc => by cases hc⟩
    rcases hout with ho | ho
    · exact absurd (ho x hx) (not_lt.2 h1)
    · exact absurd (ho z hz) (not_lt.2 h2)
  rw [if_neg hout]
  refine ⟨?_, fun _ h => absurd h hout, fun c hc => ?_⟩
  · push Not at hout
    cases hi : interpL lk (maskSel cs.N M) (log SI.K_STAR) with
    | error e => exact ⟨fun ⟨c, hc⟩ => (by cases hc), fun ⟨_, _, y, hy⟩ => (by cases hy)⟩
    | ok y => exact ⟨fun _ => ⟨hout.1, hout.2, y, rfl⟩, fun _ => ⟨_, rfl⟩⟩
  · cases hi : interpL lk (maskSel cs.N M) (log SI.K_STAR) with
    | error e => rw [hi] at hc; cases hc
    | ok y =>
      rw [hi] at hc
      have hc := Except.ok.inj hc
      rw [← hc]
      refine ⟨_, rfl, rfl, rfl, ?_, ?_, ?_⟩
      · show I.N_end + 0 = _
        rw [add_zero]
      · show some (I.N_end + d + 0) = _
        rw [add_zero]
      · show -cs.K * u.c ^ 2 / (a0 * hh * 100 * 1000) ^ 2 = _
        rw [mul_div_assoc, ← div_pow, div_div, div_div]
        congr 3; ring

section
variable {ivp : SolveIvp} {E : Eqs} {D S : Set ℝ} {ic : ICCall} {kw : SolveKw} {t : List ℝ} {Y : ℝ → ℕ → ℝ} {x0 x1 : ℝ} (h : Solved ivp E D S ic kw t Y x0 x1)
include h

/-- the selected grid points and the pivot scale -/
theorem bracket {xb xe : ℝ} (hx : x0 ≤ xb ∧ xb < xe ∧ xe ≤ x1) (hacc : ∀ x ∈ Icc xb xe, 0 ≤ E.accel Y x) {cs : CalState} {I : Infl} (eN : cs.N = t.map (E.efolds Y))
    (eL : cs.logaH = t.map fun x => log (E.aH Y x)) (hlen : I.mask.length = t.length) (hsel : ∀ (i : ℕ) z, t[i]? = some z → (I.mask[i]? = some true ↔ z ∈ Ioo xb xe)) {a0 : ℝ} (ha0 : 0 < a0)
    {lk : List ℝ} {M : List Bool} (hM : M = andMask I.mask (firstOccurrence (cs.logaH.map fun l => l - log a0))) (hlk : lk = maskSel (cs.logaH.map fun l => l - log a0) M) :
    ((∃ x ∈ lk, x ≤ log SI.K_STAR) ∧ (∃ x ∈ lk, log SI.K_STAR ≤ x) ∧ (∃ y, interpL lk (maskSel cs.N M) (log SI.K_STAR) = .ok y) ↔ FreshlyBracketed E Y t xb xe (SI.K_STAR * a0)) ∧
    (∀ {i x}, FreshPoint E Y t xb xe i x → lk ≠ []) ∧
    ((∀ i x, FreshPoint E Y t xb xe i x → SI.K_STAR * a0 < E.aH Y x) → ∀ x ∈ lk, log SI.K_STAR < x) ∧
    ((∀ i x, FreshPoint E Y t xb xe i x → E.aH Y x < SI.K_STAR * a0) → ∀ x ∈ lk, x < log SI.K_STAR) := by
  have hphS : Icc xb xe ⊆ S := fun x hx' => h.inside ⟨hx.1.trans hx'.1, hx'.2.trans hx.2.2⟩
  have tS : ∀ x ∈ t, x ∈ S := fun x hx => by
    obtain ⟨_, _, _, _, _, _, _, _, _, _, _, _, hI, _⟩ := h.run
    exact h.inside (hI.inside x hx)
  have pos : ∀ x ∈ t, 0 < E.aH Y x := fun x hx => C92.aH_pos h.solution (tS x hx)
  have mono := C99.aH_mono h.isOpen h.solution h.dV hphS hacc
  have fr : ∀ (i : ℕ) x, t[i]? = some x → (M[i]? = some true ↔ FreshPoint E Y t xb xe i x) := fun i x hx => by
    rw [hM, eL]; exact C99.mask_fresh hlen pos hsel _ i x hx
  have lt_idx : ∀ {a b : ℕ} {v w : ℝ}, t[a]? = some v → t[b]? = some w → v < w → a < b := fun {a b v w} hv hw hvw => by
    obtain ⟨h1, rfl⟩ := List.getElem?_eq_some_iff.1 hv
    obtain ⟨h2, rfl⟩ := List.getElem?_eq_some_iff.1 hw
    by_contra hc
    rcases (not_lt.1 hc).eq_or_lt with e | e
    · subst e; exact lt_irrefl _ hvw
    · exact lt_asymm hvw (List.pairwise_iff_getElem.1 h.sorted _ _ h2 h1 e)
  have strict : ∀ {i j : ℕ} {p r : ℝ}, FreshPoint E Y t xb xe i p → FreshPoint E Y t xb xe j r → p < r → E.aH Y p < E.aH Y r := fun {i j p r} fp frr hpr =>
    (mono ⟨fp.2.1.1.le, fp.2.1.2.le⟩ ⟨frr.2.1.1.le, frr.2.1.2.le⟩ hpr.le).lt_of_ne (frr.2.2 i p (lt_idx fp.1 frr.1 hpr) fp.1)
  have hl : (maskSel t M).Pairwise fun a b => log (E.aH Y a) - log a0 < log (E.aH Y b) - log a0 :=
    (h.sorted.sublist (C92.maskSel_sublist t M)).imp_of_mem fun {a b} ha hb hab => by
      obtain ⟨i, i1, i2⟩ := C99.mem_sel.1 ha
      obtain ⟨j, j1, j2⟩ := C99.mem_sel.1 hb
      have := log_lt_log (pos a (List.mem_of_getElem? i1)) (strict ((fr i a i1).1 i2) ((fr j b j1).1 j2) hab)
      linarith
  have elk : lk = maskSel (t.map fun x => log (E.aH Y x) - log a0) M := by rw [hlk, eL, List.map_map]; rfl
  have hKS : 0 < SI.K_STAR := by unfold SI.K_STAR; norm_num
  have le1 : ∀ x ∈ t, (log (E.aH Y x) - log a0 ≤ log SI.K_STAR ↔ E.aH Y x ≤ SI.K_STAR * a0) := fun x hx => by
    rw [← log_le_log_iff (pos x hx) (by positivity), log_mul hKS.ne' ha0.ne']
    exact sub_le_iff_le_add
  have le2 : ∀ x ∈ t, (log SI.K_STAR ≤ log (E.aH Y x) - log a0 ↔ SI.K_STAR * a0 ≤ E.aH Y x) := fun x hx => by
    rw [← log_le_log_iff (by positivity) (pos x hx), log_mul hKS.ne' ha0.ne']
    exact le_sub_iff_add_le
  have mem : ∀ {v : ℝ}, v ∈ lk ↔ ∃ i x, FreshPoint E Y t xb xe i x ∧ v = log (E.aH Y x) - log a0 := fun {v} => by
    rw [elk, maskSel_map, List.mem_map]
    constructor
    · rintro ⟨x, hx, rfl⟩
      obtain ⟨i, i1, i2⟩ := C99.mem_sel.1 hx
      exact ⟨i, x, (fr i x i1).1 i2, rfl⟩
    · rintro ⟨i, x, hf, rfl⟩
      exact ⟨x, C99.mem_sel.2 ⟨i, hf.1, (fr i x hf.1).2 hf⟩, rfl⟩
  have hi := C99.interpL_iff (f := fun x => log (E.aH Y x) - log a0) (g := E.efolds Y) hl (log SI.K_STAR)
  refine ⟨?_, fun {i x} hf hn => ?_, fun hall v hv => ?_, fun hall v hv => ?_⟩
  · rw [eN]
    constructor
    · rintro ⟨-, -, hy⟩
      rw [elk, hi] at hy
      obtain ⟨i, j, p, r, hp, hr, mi, mj, h1, h2, h3⟩ := hy
      have fp := (fr i p hp).1 mi
      have frr := (fr j r hr).1 mj
      refine ⟨i, j, p, r, fp, frr, ?_, (le1 p (List.mem_of_getElem? hp)).1 h2, (le2 r (List.mem_of_getElem? hr)).1 h3⟩
      by_contra hc
      have := mono ⟨frr.2.1.1.le, frr.2.1.2.le⟩ ⟨fp.2.1.1.le, fp.2.1.2.le⟩ (not_lt.1 hc)
      have := log_le_log (pos r (List.mem_of_getElem? hr)) this
      linarith
    · rintro ⟨i, j, p, r, fp, frr, hpr, h2, h3⟩
      have mp := List.mem_of_getElem? fp.1
      have mr := List.mem_of_getElem? frr.1
      have k2 := (le1 p mp).2 h2
      have k3 := (le2 r mr).2 h3
      have k1 := log_lt_log (pos p mp) (strict fp frr hpr)
      refine ⟨⟨_, mem.2 ⟨i, p, fp, rfl⟩, k2⟩, ⟨_, mem.2 ⟨j, r, frr, rfl⟩, k3⟩, ?_⟩
      rw [elk, hi]
      exact ⟨i, j, p, r, fp.1, frr.1, (fr i p fp.1).2 fp, (fr j r frr.1).2 frr, by linarith, k2, k3⟩
  · have := mem.2 ⟨i, x, hf, rfl⟩
    rw [hn] at this
    simp at this
  · obtain ⟨i, x, hf, rfl⟩ := mem.1 hv
    have k := hall i x hf
    rw [← not_le] at k ⊢
    exact fun hc => k ((le1 x (List.mem_of_getElem? hf.1)).1 hc)
  · obtain ⟨i, x, hf, rfl⟩ := mem.1 hv
    have k := hall i x hf
    rw [← not_le] at k ⊢
    exact fun hc => k ((le2 x (List.mem_of_getElem? hf.1)).1 hc)

end

end C103

section
variable {ivp : SolveIvp} {fmtE : ℝ → String} {E : Eqs} {D S : Set ℝ} {ic : ICCall} {kw : SolveKw} {t : List ℝ} {Y : ℝ → ℕ → ℝ} {x0 x1 : ℝ} (h : Solved ivp E D S ic kw t Y x0 x1)
  {o : Dict Attr} {s : InflSol} (hs : solve ivp fmtE E ic [] kw = .ok (o, s)) {m : List Bool} (hm : s.inflation_mask = some m)
include h hs hm

/-- **C103**: for the object that `solve` returns once it has found inflation in a closed or open universe, calibrating by a reheating history places today at the scale factor `exp N0`
(Planck lengths, as the curvature fixes the scale) for which the plasma at the end of reheating becomes, through conserved entropy, the one seen today; this is a unique number, it is
today's scale factor of the calibrated object, `Omega_K0` is the density parameter that this radius of curvature and `h` mean, and the calibration (with the spectra) succeeds exactly if
two grid points of the phase (with new values of `aH`) bracket the pivot scale.  If all of them have `aH` on one side of it, the error is `InsufficientInflationError`; inadmissible histories, and
`h ≤ 0`, raise `ValueError`. -/
theorem C103_reheating (hK : E.K ≠ 0) : ∃ sr cs xb xe, slowRoll E o s = some sr ∧ Shooting.calState E.K s = some cs ∧ ReportedPhase E Y x0 x1 s xb xe ∧
    ∀ {κ : Type} (u : SI) (spline : κ → List (ℝ × ℝ) → ℝ → ℝ) (P : PSol) (kws : κ) (method : String) (order : ℕ) (r : Recipe) (g hh : ℝ),
      P.st = cs → KnownMethod method order →
      (¬ (0 < hh ∧ r.Admissible) → ∃ msg, calibrateP u spline sr P (r.callCurved g hh) method kws order = .error (.valueError msg)) ∧
      (0 < hh → r.Admissible → r.Sound → 0 < g → (∀ w ρ, r = .diluting w ρ → 0 < ρ) → 0 < E.pot.V (Y xe 0) →
        (∃ w d ρ N0, r.History u (E.pot.V (Y xe 0)) w d ρ ∧ Thermalised u g ρ (E.efolds Y xe + d) N0) ∧
        ∀ w d ρ N0, r.History u (E.pot.V (Y xe 0)) w d ρ → Thermalised u g ρ (E.efolds Y xe + d) N0 →
          ((∃ Q, calibrateP u spline sr P (r.callCurved g hh) method kws order = .ok Q) ↔ FreshlyBracketed E Y t xb xe (u.K_STAR_lp * exp N0)) ∧
          ((∃ i x, FreshPoint E Y t xb xe i x) → ((∀ i x, FreshPoint E Y t xb xe i x → u.K_STAR_lp * exp N0 < E.aH Y x) ∨ ∀ i x, FreshPoint E Y t xb xe i x → E.aH Y x < u.K_STAR_lp * exp N0) →
            ∃ msg, calibrateP u spline sr P (r.callCurved g hh) method kws order = .error (.insufficientInflation msg)) ∧
          ∀ Q, calibrateP u spline sr P (r.callCurved g hh) method kws order = .ok Q → ∃ cal, Q.st.cal = some cal ∧ cal.N0 = N0 ∧ cal.N_end = E.efolds Y xe ∧
            cal.N_reh = some (E.efolds Y xe + d) ∧ cal.a0_Mpc = exp N0 * (u.lp_m / u.Mpc_m) ∧ cal.Omega_K0 = -E.K * (u.c / 1000 / (100 * hh) / cal.a0_Mpc) ^ 2) := by
  obtain ⟨sr, cs, I, xb, xe, hsr, hcs, eK, eN, eL, eI, hph, -, iE, -, hlen, hsel⟩ := C99.state h hs hm
  obtain ⟨f1, f2, f3, f4⟩ := C102.infl_fields hcs eI
  have hx : x0 ≤ xb ∧ xb < xe ∧ xe ≤ x1 := hph.ordered
  obtain ⟨-, v1, -⟩ := C101.ends h hs (xe := xe) ⟨by linarith, hx.2.2⟩ hph.ends
  have iV : I.V_end = E.pot.V (Y xe 0) := Option.some.inj (f3.symm.trans v1)
  have hK' : cs.K ≠ 0 := by rw [eK]; exact hK
  refine ⟨sr, cs, xb, xe, hsr, hcs, hph, fun {κ} u spline P kws method order r g hh hP hk => ?_⟩
  have hbg : (r.callCurved g hh).background = none := by cases r <;> rfl
  refine ⟨fun hr => ?_, fun h0 hr hsd hg hρ hV => ⟨C103.history u hr hg hV hρ, fun w d ρ N0 hist ht => ?_⟩⟩
  · obtain ⟨msg, he⟩ := C103.refused u hK' eI hr g
    exact ⟨msg, C99.derived_error (by rw [hP]; exact he)⟩
  rw [← iV] at hist hV
  rw [← iE] at ht
  obtain ⟨hbad, st', hreh⟩ := C103.requested (hh := hh) hr hsd hg hV hist ht cs.sticky
  obtain ⟨a0, ha⟩ : ∃ a0, a0 = exp N0 * u.lp_m / u.Mpc_m := ⟨_, rfl⟩
  obtain ⟨M, hM⟩ : ∃ M, M = andMask I.mask (firstOccurrence (cs.logaH.map fun l => l - log a0)) := ⟨_, rfl⟩
  obtain ⟨lk, hlk⟩ : ∃ lk, lk = maskSel (cs.logaH.map fun l => l - log a0) M := ⟨_, rfl⟩
  obtain ⟨c1, c2, c3⟩ := C103.cases u hK' eI h0 hbad hreh ha hM hlk
  have ha0 : 0 < a0 := by
    have := u.lp_pos; have := u.Mpc_pos
    rw [ha]
    have := exp_pos N0
    positivity
  have target : SI.K_STAR * a0 = u.K_STAR_lp * exp N0 := by
    rw [ha]; unfold SI.K_STAR_lp; ring
  obtain ⟨b1, b2, b3, b4⟩ := C103.bracket h hx hph.accelerates eN eL hlen hsel ha0 hM hlk
  rw [target] at b1 b3 b4
  refine ⟨?_, fun ⟨i, x, hf⟩ ho => ?_, fun Q hQ => ?_⟩
  · rw [C99.derived hbg hk, hP, c1, b1]
  · obtain ⟨msg, he⟩ := c2 (b2 hf) (ho.imp b3 b4)
    exact ⟨msg, C99.derived_error (by rw [hP]; exact he)⟩
  · have hcal := C94.calibrateP_ok hbg hQ
    rw [hP] at hcal
    obtain ⟨κ', k1, k2, k3, k4, k5, k6⟩ := c3 _ hcal
    refine ⟨κ', k1, k2, k4.trans iE, by rw [k5, iE], by rw [k3, ha]; ring, by rw [k6, k3, eK]⟩

end

namespace C103.Ex
open C93.Ex C99.ExOpen

/-- some plasma content continues a given history to a given scale factor today -/
theorem plasma (u : SI) {ρ : ℝ} (hρ : 0 < ρ) (N N0 : ℝ) : ∃ g, 0 < g ∧ Thermalised u g ρ N N0 := by
  have h0 := Cal.g0_pos
  have hT := Cal.T_CMB_pos u
  have hpi := pi_pos
  obtain ⟨C, hC⟩ : ∃ C, C = SI.g0 * u.T_CMB_Tp ^ 3 * exp N0 ^ 3 / exp N ^ 3 := ⟨_, rfl⟩
  have C0 : 0 < C := by rw [hC]; positivity
  obtain ⟨T, hTd⟩ : ∃ T, T = 30 * ρ / (π ^ 2 * C) := ⟨_, rfl⟩
  have T0 : 0 < T := by rw [hTd]; positivity
  refine ⟨C / T ^ 3, by positivity, T, T0, ?_, ?_⟩
  · have : π ^ 2 / 30 * (C / T ^ 3) * T ^ 4 = π ^ 2 / 30 * C * T := by field_simp
    rw [this, hTd]
    field_simp
  · have : C / T ^ 3 * T ^ 3 = C := by field_simp
    rw [this, hC]
    field_simp

theorem points {i : ℕ} {x : ℝ} (hf : FreshPoint E Y (grid ev) 0 π i x) : x = π / 2 ∨ x = 2 * π / 3 := by
  have g : grid ev = [0, π / 2, 2 * π / 3, 7 / 2] := by rw [grid, x1_ev]; rfl
  rw [g] at hf
  have hpi := pi_lt_d2
  have := List.mem_of_getElem? hf.1
  simp only [List.mem_cons, List.not_mem_nil, or_false] at this
  rcases this with h | h | h | h
  · have := hf.2.1.1; linarith
  · exact .inl h
  · exact .inr h
  · have := hf.2.1.2; linarith

/-- `C103_reheating` applies: whatever the sound history, there are plasmas for which the calibration succeeds, and plasmas for which inflation was too short. -/
example (u : SI) (fmtE : ℝ → String) : ∃ (ic : IC) (o : Dict Attr) (s : InflSol) (sr : SlowRoll) (cs : CalState),
    solve ivp fmtE E (ICCall.inflationStart E ic) [] C93.Ex.kw = .ok (o, s) ∧ slowRoll E o s = some sr ∧ Shooting.calState E.K s = some cs ∧
    ∀ (spline : Unit → List (ℝ × ℝ) → ℝ → ℝ), ∀ r ∈ [Recipe.instant, .lasting (1 / 5) 5, .diluting 0 1], r.Admissible ∧ r.Sound ∧
      (∃ g, 0 < g ∧ ∃ Q, calibrateP u spline sr ⟨cs, Caches.empty, none⟩ (r.callCurved g (7 / 10)) "LLMS" () 0 = .ok Q) ∧
      ∃ g, 0 < g ∧ ∃ msg, calibrateP u spline sr ⟨cs, Caches.empty, none⟩ (r.callCurved g (7 / 10)) "LLMS" () 0 = .error (.insufficientInflation msg) := by
  obtain ⟨ic, o, s, m, hS, hs, hm, hph⟩ := found u fmtE
  obtain ⟨sr, cs, xb, xe, hsr, hcs, hp, hall⟩ := C103_reheating hS hs hm (show (-1 : ℝ) ≠ 0 by norm_num)
  obtain ⟨e1, e2⟩ := hph xb xe hp
  have hKs := (C56_pivot u).2
  have hpi := pi_gt_three
  have hpi' := pi_lt_d2
  have hV : 0 < E.pot.V (Y xe 0) := by
    have h1 : pot.V (φ π) - f π ^ 2 = 0 := accel_zero.2
    have h2 := f_sq (t := π) (mem_S (by linarith) (by linarith))
    rw [e2]
    show 0 < pot.V (φ π)
    rw [sub_eq_zero.1 h1, h2]
    have m := mem_S (t := π) (by linarith) (by linarith)
    have k1 := p_pos m
    have k2 := a_pos m
    positivity
  have at_points : ∀ {i : ℕ} {x : ℝ}, FreshPoint E Y (grid ev) xb xe i x → x = π / 2 ∨ x = 2 * π / 3 := fun {i x} hf => points (by rw [e1, e2] at hf; exact hf)
  have fresh : ∃ i x, FreshPoint E Y (grid ev) xb xe i x := by
    obtain ⟨i, j, p, r, hp, -⟩ := (bracketed (y := 10) e1 e2).2 (by norm_num)
    exact ⟨i, p, hp⟩
  refine ⟨ic, o, s, sr, cs, hs, hsr, hcs, fun spline r hr => ?_⟩
  obtain ⟨P, hPd⟩ : ∃ P : PSol, P = ⟨cs, Caches.empty, none⟩ := ⟨_, rfl⟩
  have hP : P.st = cs := by rw [hPd]
  rw [← hPd]
  have adm : r.Admissible ∧ r.Sound ∧ ∀ w ρ, r = .diluting w ρ → 0 < ρ := by
    simp only [List.mem_cons, List.not_mem_nil, or_false] at hr
    rcases hr with rfl | rfl | rfl
    · exact ⟨trivial, trivial, fun w ρ h => by cases h⟩
    · refine ⟨⟨by norm_num, by norm_num, by norm_num⟩, trivial, fun w ρ h => by cases h⟩
    · refine ⟨⟨by norm_num, by norm_num⟩, rfl, fun w ρ h => ?_⟩
      cases h; norm_num
  have sub := fun g (hg : 0 < g) => (hall u spline P () "LLMS" 0 r g (7 / 10) hP (.inr (.inl rfl))).2 (by norm_num) adm.1 adm.2.1 hg adm.2.2 hV
  obtain ⟨⟨w, d, ρ, -, hh, -⟩, -⟩ := sub 1 one_pos
  have pos : 0 < ρ := by rw [hh.dilution]; positivity
  have tgt : ∀ q : ℝ, 0 < q → u.K_STAR_lp * exp (log (q / u.K_STAR_lp)) = q := fun q hq => by
    rw [exp_log (div_pos hq hKs), mul_div_cancel₀ _ hKs.ne']
  refine ⟨adm.1, adm.2.1, ?_, ?_⟩
  · obtain ⟨g, hg, ht⟩ := plasma u pos (E.efolds Y xe + d) (log (10 / u.K_STAR_lp))
    obtain ⟨k, -⟩ := (sub g hg).2 w d ρ _ hh ht
    rw [tgt 10 (by norm_num), bracketed e1 e2] at k
    exact ⟨g, hg, k.2 (by norm_num)⟩
  · obtain ⟨g, hg, ht⟩ := plasma u pos (E.efolds Y xe + d) (log (11 / u.K_STAR_lp))
    obtain ⟨-, k, -⟩ := (sub g hg).2 w d ρ _ hh ht
    rw [tgt 11 (by norm_num)] at k
    refine ⟨g, hg, k fresh (.inr fun i x hf => ?_)⟩
    rw [aH (mem_S (by linarith [(e1 ▸ hf.2.1.1 : (0:ℝ) < x)]) (by linarith [(e2 ▸ hf.2.1.2 : x < π)]))]
    rcases at_points hf with rfl | rfl
    · rw [cos_pi_div_two]; norm_num
    · rw [cos_23]; norm_num

end C103.Ex
end Primpy
