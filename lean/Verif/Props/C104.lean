import Verif.Props.C102

/-!
# C104: one reheating history, one calibration, however it is described
-/

namespace Primpy
open Real Set Spec Bunch Approx

namespace C104

/-- reheating of `d` e-folds with the equation of state `w` -/
def lasting (g w d : ℝ) (h : Option ℝ) : CalArgs := { method := "reheating", w_reh := some w, DeltaN_reh := some d, g_th := g, h := h }
/-- reheating with the equation of state `w` down to the energy density `ρ` (`ρ^(1/4)` in GeV) -/
def diluting (g w ρ : ℝ) (h : Option ℝ) : CalArgs := { method := "reheating", w_reh := some w, rho_reh_GeV := some ρ, g_th := g, h := h }
/-- reheating down to `ρ`, with inflation ending `δ` e-folds earlier than with instant reheating -/
def shiftingTo (g δ ρ : ℝ) (h : Option ℝ) : CalArgs := { method := "reheating", DeltaN_minus1 := some δ, rho_reh_GeV := some ρ, g_th := g, h := h }
/-- inflation ending `δ` e-folds earlier than with instant reheating -/
def shifting (g δ : ℝ) (h : Option ℝ) : CalArgs := { method := "reheating", DeltaN_minus1 := some δ, g_th := g, h := h }
/-- the ways to ask for instant reheating -/
noncomputable def instants (g : ℝ) (h : Option ℝ) : List CalArgs :=
  [{ method := "reheating", g_th := g, h := h }, { method := "reheating", w_reh := some (1 / 3), g_th := g, h := h }, { method := "reheating", DeltaN_reh := some 0, g_th := g, h := h },
    { method := "reheating", DeltaN_minus1 := some 0, g_th := g, h := h }, { method := "reheating", w_reh := some (1 / 3), DeltaN_reh := some 0, g_th := g, h := h },
    { method := "reheating", w_reh := some (1 / 3), DeltaN_minus1 := some 0, g_th := g, h := h }, { method := "reheating", DeltaN_reh := some 0, DeltaN_minus1 := some 0, g_th := g, h := h },
    { method := "reheating", w_reh := some (1 / 3), DeltaN_reh := some 0, DeltaN_minus1 := some 0, g_th := g, h := h }]

/-- calls that the calibration treats alike -/
structure Alike (u : SI) (s : CalState) (a b : CalArgs) : Prop where
  ma : a.method = "reheating"
  mb : b.method = "reheating"
  oa : a.Omega_K0 = none
  ob : b.Omega_K0 = none
  h : a.h = b.h
  na : a.N_star = none
  nb : b.N_star = none
  ba : a.background = none
  bb : b.background = none
  g : a.g_th = b.g_th
  bad : Cal.badReheating a = Cal.badReheating b

theorem Alike.flat {u : SI} {s : CalState} {a b : CalArgs} {I : Infl} (hI : s.infl = some I) (hK : s.K = 0) (h : Alike u s a b)
    (hr : ∀ st, Cal.flatReh u I (0 - Cal.logg b.g_th - log (I.V_end / u.T_CMB_Tp ^ 4) / 4) a st = Cal.flatReh u I (0 - Cal.logg b.g_th - log (I.V_end / u.T_CMB_Tp ^ 4) / 4) b st) :
    Cal.calibrate u s a = Cal.calibrate u s b := by
  have e : Cal.flatReheating u s a = Cal.flatReheating u s b := by
    unfold Cal.flatReheating
    rw [h.bad, hI, h.g]
    dsimp only
    rw [hr]
  have sel : Cal.flatSel u s a = Cal.flatSel u s b := by
    unfold Cal.flatSel
    rw [h.ba, h.bb]
    dsimp only
    rw [h.ma, h.mb, if_neg (by decide), if_pos rfl, if_neg (by decide), if_pos rfl, e]
  have f : Cal.flat u s a = Cal.flat u s b := by
    unfold Cal.flat
    rw [h.oa, h.ob, sel]
  unfold Cal.calibrate
  rw [if_pos hK, if_pos hK, f, h.ba, h.bb]

theorem Alike.curved {u : SI} {s : CalState} {a b : CalArgs} {I : Infl} (hI : s.infl = some I) (hK : s.K ≠ 0) (h : Alike u s a b) (hr : ∀ N st, Cal.curvedReh u I N a st = Cal.curvedReh u I N b st) :
    Cal.calibrate u s a = Cal.calibrate u s b := by
  have e : ∀ hh, Cal.curvedSel u s a hh = Cal.curvedSel u s b hh := fun hh => by
    unfold Cal.curvedSel Cal.curvedReheating
    rw [h.ma, h.mb, h.bad, hI, h.g, h.oa, h.ob]
    dsimp only
    rw [hr]
    simp
  have f : Cal.curved u s a = Cal.curved u s b := by
    unfold Cal.curved
    rw [h.na, h.nb, h.h]
    simp only [e]
  unfold Cal.calibrate
  rw [if_neg hK, if_neg hK, f, h.ba, h.bb]

theorem spectra {κ : Type} {u : SI} {spline : κ → List (ℝ × ℝ) → ℝ → ℝ} {sr : SlowRoll} {P : PSol} {a b : CalArgs} (ha : a.background = none) (hb : b.background = none)
    (h : Cal.calibrate u P.st a = Cal.calibrate u P.st b) (method : String) (kws : κ) (order : ℕ) :
    calibrateP u spline sr P a method kws order = calibrateP u spline sr P b method kws order := by
  unfold calibrateP
  rw [h, ha, hb]


/-- the hypotheses on the data of the history: `d > 0` e-folds with the equation of state `w` dilute `3V/2` to `ρ` -/
structure Data (u : SI) (V w d ρ : ℝ) : Prop where
  posV : 0 < V
  posd : 0 < d
  decel : -1 / 3 ≤ w
  matter : w ≠ 1 / 3
  posρ : 0 < ρ
  history : ρ ^ 4 / u.mp_GeV * u.lp_iGeV ^ 3 = 3 / 2 * V * exp (-3 * (1 + w) * d)

section
variable {u : SI} {V w d ρ : ℝ} (h : Data u V w d ρ)
include h

theorem Data.planck : Cal.toPlanck u ρ = 3 / 2 * V * exp (-3 * (1 + w) * d) := h.history

theorem Data.gev : Cal.toGeV u (3 / 2 * V * exp (-3 * (1 + w) * d)) = ρ := by
  rw [← h.planck]; exact Cal.toGeV_toPlanck u h.posρ.le

theorem Data.log1 : log (3 / 2 * V / Cal.toPlanck u ρ) = 3 * (1 + w) * d := by
  have := h.posV
  rw [h.planck, show 3 / 2 * V / (3 / 2 * V * exp (-3 * (1 + w) * d)) = exp (3 * (1 + w) * d) by
    rw [show -3 * (1 + w) * d = -(3 * (1 + w) * d) by ring, exp_neg]; field_simp, log_exp]

theorem Data.dur : log (3 / 2 * V / Cal.toPlanck u ρ) / (3 * (1 + w)) = d := by
  have : (1 : ℝ) + w ≠ 0 := by have := h.decel; linarith
  rw [h.log1]; field_simp

theorem Data.w3 : ¬ w = 3⁻¹ := fun k => h.matter (by rw [k]; norm_num)

theorem Data.shift : d / 4 * (1 - 3 * w) ≠ 0 := by
  have h1 := h.posd
  have h2 : 1 - 3 * w ≠ 0 := fun k => h.matter (by linarith)
  have : d / 4 ≠ 0 := by positivity
  exact mul_ne_zero this h2

theorem Data.bad (g : ℝ) (hh : Option ℝ) : Cal.badReheating (lasting g w d hh) = false ∧ Cal.badReheating (diluting g w ρ hh) = false := by
  have h1 := h.posd.le
  have h2 := h.decel
  constructor <;> simp [Cal.badReheating, lasting, diluting, h1, h2]

theorem Data.inst (g : ℝ) (hh : Option ℝ) : ∀ a ∈ [lasting g w d hh, diluting g w ρ hh, shiftingTo g (d / 4 * (1 - 3 * w)) ρ hh, shifting g (d / 4 * (1 - 3 * w)) hh],
    is_instant_reheating a.N_star a.rho_reh_GeV a.w_reh a.DeltaN_reh a.DeltaN_minus1 = .ok false := by
  have h1 := h.posd.ne'
  have h2 := h.w3
  have h3 := h.shift
  obtain ⟨δ, hδ⟩ : ∃ δ, δ = d / 4 * (1 - 3 * w) := ⟨_, rfl⟩
  rw [← hδ] at h3 ⊢
  intro a ha
  simp only [List.mem_cons, List.not_mem_nil, or_false] at ha
  rcases ha with rfl | rfl | rfl | rfl
  all_goals simp [is_instant_reheating, lasting, diluting, shiftingTo, shifting, h1, h2, h3]

theorem Data.flatLD (I : Infl) (hV : I.V_end = V) (g : ℝ) (hh : Option ℝ) (N : ℝ) (st : Sticky) :
    Cal.flatReh u I N (lasting g w d hh) st = Cal.flatReh u I N (diluting g w ρ hh) st := by
  unfold Cal.flatReh
  rw [h.inst g hh _ (by simp), h.inst g hh (diluting g w ρ hh) (by simp)]
  dsimp only [lasting, diluting]
  rw [hV, h.dur, h.gev, h.planck]

theorem Data.flatLS (I : Infl) (hV : I.V_end = V) (g : ℝ) (hh : Option ℝ) (st : Sticky) :
    Cal.flatReh u I (0 - Cal.logg g - log (I.V_end / u.T_CMB_Tp ^ 4) / 4) (lasting g w d hh) st =
      Cal.flatReh u I (0 - Cal.logg g - log (I.V_end / u.T_CMB_Tp ^ 4) / 4) (shiftingTo g (d / 4 * (1 - 3 * w)) ρ hh) st := by
  have hT := Cal.T_CMB_pos u
  have hV0 := h.posV
  have hρ := Cal.toPlanck_pos u h.posρ
  have e : 0 - Cal.logg g + log (3 / 2 * u.T_CMB_Tp ^ 4 / Cal.toPlanck u ρ) / 4 - (0 - Cal.logg g - log (V / u.T_CMB_Tp ^ 4) / 4 - d / 4 * (1 - 3 * w)) = d := by
    have k := h.log1
    rw [log_div (by positivity) hρ.ne', log_mul (by norm_num) hV0.ne'] at k
    rw [log_div (by positivity) hρ.ne', log_mul (by norm_num) (by positivity), log_div hV0.ne' (by positivity)]
    linear_combination k / 4
  have e2 : (BB.fdiv (log (3 / 2 * V / Cal.toPlanck u ρ)) (3 * d)).map (· - 1) = some w := by
    have := h.posd.ne'
    unfold BB.fdiv
    rw [if_neg (by positivity), h.log1]
    show some _ = _
    congr 1; field_simp; ring
  unfold Cal.flatReh
  rw [h.inst g hh _ (by simp), h.inst g hh (shiftingTo g (d / 4 * (1 - 3 * w)) ρ hh) (by simp)]
  dsimp only [lasting, shiftingTo]
  show _ = (Except.ok _ : Except PyErr _)
  rw [hV, e, e2, h.gev, h.planck]

end


/-- pressureless matter: the two descriptions agree in curved universes as well -/
theorem dust {u : SI} {V d ρ : ℝ} (h : Data u V 0 d ρ) (I : Infl) (hV : I.V_end = V) (g : ℝ) (hh : Option ℝ) (N : ℝ) (st : Sticky) :
    Cal.curvedReh u I N (lasting g 0 d hh) st = Cal.curvedReh u I N (diluting g 0 ρ hh) st := by
  have e : -(1 + 0) / 3 * log (2 / 3 * Cal.toPlanck u ρ / V) = d := by
    have := h.posV
    rw [h.planck, show 2 / 3 * (3 / 2 * V * exp (-3 * (1 + 0) * d)) / V = exp (-3 * (1 + 0) * d) by field_simp, log_exp]
    ring
  unfold Cal.curvedReh
  rw [h.inst g hh _ (by simp), h.inst g hh (diluting g 0 ρ hh) (by simp)]
  dsimp only [lasting, diluting]
  rw [hV, e, h.gev, h.planck]

/-- instant reheating -/
theorem instant_facts (g : ℝ) (hh : Option ℝ) : ∀ a ∈ instants g hh, a.method = "reheating" ∧ a.Omega_K0 = none ∧ a.h = hh ∧ a.N_star = none ∧ a.background = none ∧ a.g_th = g ∧
    Cal.badReheating a = false ∧ is_instant_reheating a.N_star a.rho_reh_GeV a.w_reh a.DeltaN_reh a.DeltaN_minus1 = .ok true := by
  intro a ha
  simp only [instants, List.mem_cons, List.not_mem_nil, or_false] at ha
  rcases ha with rfl | rfl | rfl | rfl | rfl | rfl | rfl | rfl
  all_goals refine ⟨rfl, rfl, rfl, rfl, rfl, rfl, ?_, ?_⟩
  all_goals first | (simp [is_instant_reheating]; done) | (simp [Cal.badReheating]; try norm_num)

theorem flat_inst (u : SI) (I : Infl) (N : ℝ) (st : Sticky) {a b : CalArgs} (ha : is_instant_reheating a.N_star a.rho_reh_GeV a.w_reh a.DeltaN_reh a.DeltaN_minus1 = .ok true)
    (hb : is_instant_reheating b.N_star b.rho_reh_GeV b.w_reh b.DeltaN_reh b.DeltaN_minus1 = .ok true) :
    Cal.flatReh u I N a st = Cal.flatReh u I N b st ∧ Cal.curvedReh u I N a st = Cal.curvedReh u I N b st := by
  unfold Cal.flatReh Cal.curvedReh
  rw [ha, hb]
  exact ⟨rfl, rfl⟩

/-- only the end of inflation matters for the calibration of a flat universe -/
theorem same_end {u : SI} {s : CalState} {a b : CalArgs} {I : Infl} (hI : s.infl = some I) (hK : s.K = 0) (h : Alike u s a b) (hb : Cal.badReheating b = false) {Ne : ℝ} {dN dN' : Option ℝ}
    {st st' : Sticky} (ra : Cal.flatReh u I (0 - Cal.logg b.g_th - log (I.V_end / u.T_CMB_Tp ^ 4) / 4) a s.sticky = .ok (Ne, dN, st))
    (rb : Cal.flatReh u I (0 - Cal.logg b.g_th - log (I.V_end / u.T_CMB_Tp ^ 4) / 4) b s.sticky = .ok (Ne, dN', st')) :
    (∀ e, Cal.calibrate u s a = .error e → Cal.calibrate u s b = .error e) ∧ ∀ c, Cal.calibrate u s a = .ok c → ∃ c' κ κ', Cal.calibrate u s b = .ok c' ∧ c.cal = some κ ∧ c'.cal = some κ' ∧
      c'.infl = c.infl ∧ κ' = { κ with N_reh_ := κ'.N_reh_, N_reh := κ'.N_reh, warning := κ'.warning } ∧ κ'.N_reh = dN'.map (Ne + ·) := by
  have sel : ∀ x, (x = a ∨ x = b) → Cal.flatSel u s x = Cal.flatReheating u s x := fun x hx => by
    have hbk : x.background = none := by rcases hx with rfl | rfl; exacts [h.ba, h.bb]
    have hm : x.method = "reheating" := by rcases hx with rfl | rfl; exacts [h.ma, h.mb]
    unfold Cal.flatSel
    rw [hbk]
    dsimp only
    rw [hm, if_neg (by decide), if_pos rfl]
  have unf : ∀ x dx sx, Cal.badReheating x = false → x.g_th = b.g_th → Cal.flatReh u I (0 - Cal.logg b.g_th - log (I.V_end / u.T_CMB_Tp ^ 4) / 4) x s.sticky = .ok (Ne, dx, sx) →
      Cal.flatReheating u s x = if 0 + log u.K_STAR_lp - (Ne - I.N_end) < I.logaH_beg ∨ I.logaH_end < 0 + log u.K_STAR_lp - (Ne - I.N_end) then .error (.insufficientInflation "Pivot scale not within range")
      else match interpL (maskSel s.logaH I.mask) (maskSel s.N I.mask) (0 + log u.K_STAR_lp - (Ne - I.N_end)) with
        | .error e => .error e
        | .ok N_cross => .ok (I.N_end - N_cross, N_cross, 0 + log u.K_STAR_lp - (Ne - I.N_end), Ne - I.N_end, dx.map (I.N_end + ·), I, sx) := fun x dx sx h1 h2 h3 => by
    unfold Cal.flatReheating
    rw [if_neg (by rw [h1]; simp), hI]
    dsimp only
    rw [h2, h3]
    rfl
  have ua := unf a dN st (h.bad.trans hb) h.g ra
  have ub := unf b dN' st' hb rfl rb
  have err : ∀ x, (x = a ∨ x = b) → ∀ {e : PyErr}, Cal.flatReheating u s x = .error e → Cal.calibrate u s x = .error e := fun x hx e he => by
    have hΩ : x.Omega_K0 = none := by rcases hx with rfl | rfl; exacts [h.oa, h.ob]
    unfold Cal.calibrate
    rw [if_pos hK]
    unfold Cal.flat
    rw [if_neg (by rw [hΩ]; rintro ⟨_, h, -⟩; cases h), sel x hx, he]
  by_cases ho : 0 + log u.K_STAR_lp - (Ne - I.N_end) < I.logaH_beg ∨ I.logaH_end < 0 + log u.K_STAR_lp - (Ne - I.N_end)
  · rw [if_pos ho] at ua ub
    rw [err a (.inl rfl) ua, err b (.inr rfl) ub]
    exact ⟨fun e he => he, fun c hc => by cases hc⟩
  rw [if_neg ho] at ua ub
  cases hi : interpL (maskSel s.logaH I.mask) (maskSel s.N I.mask) (0 + log u.K_STAR_lp - (Ne - I.N_end)) with
  | error e =>
    rw [hi] at ua ub
    rw [err a (.inl rfl) ua, err b (.inr rfl) ub]
    exact ⟨fun e he => he, fun c hc => by cases hc⟩
  | ok y =>
    rw [hi] at ua ub
    have ca := Cal.calibrate_flat_intro hK h.oa ((sel a (.inl rfl)).trans ua)
    have cb := Cal.calibrate_flat_intro hK h.ob ((sel b (.inr rfl)).trans ub)
    rw [ca]
    refine ⟨fun e he => (by cases he), fun c hc => ?_⟩
    rw [← Except.ok.inj hc]
    refine ⟨_, _, _, cb, rfl, rfl, rfl, ?_, ?_⟩
    · rfl
    · show (dN'.map (I.N_end + ·)).map (· + (Ne - I.N_end)) = _
      cases dN' with
      | none => rfl
      | some x => show some _ = some _; congr 1; ring

end C104
open C104

section
variable {κ : Type} (u : SI) (spline : κ → List (ℝ × ℝ) → ℝ → ℝ) (sr : SlowRoll) {P : PSol} {I : Infl} (hI : P.st.infl = some I) (kws : κ) (method : String) (order : ℕ) (g : ℝ) (hh : Option ℝ)
include hI

/-- **C104, instant reheating**: all ways to ask for instant reheating give the same result (or error), in flat and curved universes. -/
theorem C104_instant : ∀ a ∈ instants g hh, ∀ b ∈ instants g hh, calibrateP u spline sr P a method kws order = calibrateP u spline sr P b method kws order := by
  intro a ha b hb
  obtain ⟨a1, a2, a3, a4, a5, a6, a7, a8⟩ := instant_facts g hh a ha
  obtain ⟨b1, b2, b3, b4, b5, b6, b7, b8⟩ := instant_facts g hh b hb
  have al : Alike u P.st a b := ⟨a1, b1, a2, b2, a3.trans b3.symm, a4, b4, a5, b5, a6.trans b6.symm, a7.trans b7.symm⟩
  refine spectra a5 b5 ?_ method kws order
  by_cases hK : P.st.K = 0
  · exact al.flat hI hK fun st => (flat_inst u I _ st a8 b8).1
  · exact al.curved hI hK fun N st => (flat_inst u I N st a8 b8).2

variable {w d ρ : ℝ} (hdat : Data u I.V_end w d ρ)
include hdat

/-- **C104, flat universes**: a reheating phase of `d` e-folds with the equation of state `w`, at the end of which the density is `ρ`, can be given by `w_reh` and `DeltaN_reh`, by `w_reh` and
`rho_reh_GeV`, or by `rho_reh_GeV` and the shift `DeltaN_minus1` of the end of inflation; the calibrated object with its spectra (or the error) is the same. -/
theorem C104_descriptions (hK : P.st.K = 0) :
    calibrateP u spline sr P (diluting g w ρ hh) method kws order = calibrateP u spline sr P (lasting g w d hh) method kws order ∧
      calibrateP u spline sr P (shiftingTo g (d / 4 * (1 - 3 * w)) ρ hh) method kws order = calibrateP u spline sr P (lasting g w d hh) method kws order := by
  obtain ⟨b1, b2⟩ := hdat.bad g hh
  constructor
  · have al : Alike u P.st (lasting g w d hh) (diluting g w ρ hh) := ⟨rfl, rfl, rfl, rfl, rfl, rfl, rfl, rfl, rfl, rfl, b1.trans b2.symm⟩
    exact (spectra rfl rfl (al.flat hI hK fun st => hdat.flatLD I rfl g hh _ st) method kws order).symm
  · have al : Alike u P.st (lasting g w d hh) (shiftingTo g (d / 4 * (1 - 3 * w)) ρ hh) := ⟨rfl, rfl, rfl, rfl, rfl, rfl, rfl, rfl, rfl, rfl, b1.trans (by simp [Cal.badReheating, shiftingTo])⟩
    exact (spectra rfl rfl (al.flat hI hK fun st => hdat.flatLS I rfl g hh st) method kws order).symm

/-- **C104, unspecified reheating**: given the shift `DeltaN_minus1` alone, the calibration fails with the same error, or the spectra are the same and so is the calibration, except that the end of reheating
is not known. -/
theorem C104_agnostic (hK : P.st.K = 0) :
    (∀ e, calibrateP u spline sr P (lasting g w d hh) method kws order = .error e → calibrateP u spline sr P (shifting g (d / 4 * (1 - 3 * w)) hh) method kws order = .error e) ∧
      ∀ Q, calibrateP u spline sr P (lasting g w d hh) method kws order = .ok Q → ∃ Q' cal cal', calibrateP u spline sr P (shifting g (d / 4 * (1 - 3 * w)) hh) method kws order = .ok Q' ∧
        Q'.pars = Q.pars ∧ Q'.caches = Q.caches ∧ Q'.st.infl = Q.st.infl ∧ Q.st.cal = some cal ∧ Q'.st.cal = some cal' ∧ cal'.N_reh = none ∧
        cal' = { cal with N_reh_ := cal'.N_reh_, N_reh := none, warning := cal'.warning } := by
  obtain ⟨b1, b2⟩ := hdat.bad g hh
  have hb : Cal.badReheating (shifting g (d / 4 * (1 - 3 * w)) hh) = false := by simp [Cal.badReheating, shifting]
  have al : Alike u P.st (lasting g w d hh) (shifting g (d / 4 * (1 - 3 * w)) hh) := ⟨rfl, rfl, rfl, rfl, rfl, rfl, rfl, rfl, rfl, rfl, b1.trans hb.symm⟩
  obtain ⟨N, hN⟩ : ∃ N, N = 0 - Cal.logg g - log (I.V_end / u.T_CMB_Tp ^ 4) / 4 := ⟨_, rfl⟩
  have ra : ∃ st, Cal.flatReh u I N (lasting g w d hh) P.st.sticky = .ok (N - d / 4 * (1 - 3 * w), some d, st) := by
    unfold Cal.flatReh
    rw [hdat.inst g hh _ (by simp)]
    exact ⟨_, rfl⟩
  have rb : ∃ st, Cal.flatReh u I N (shifting g (d / 4 * (1 - 3 * w)) hh) P.st.sticky = .ok (N - d / 4 * (1 - 3 * w), none, st) := by
    unfold Cal.flatReh
    rw [hdat.inst g hh (shifting g (d / 4 * (1 - 3 * w)) hh) (by simp)]
    exact ⟨_, rfl⟩
  rw [hN] at ra rb
  obtain ⟨sa, ra⟩ := ra
  obtain ⟨sb, rb⟩ := rb
  obtain ⟨k1, k2⟩ := same_end hI hK al hb ra rb
  constructor
  · intro e he
    unfold calibrateP at he ⊢
    cases hc : Cal.calibrate u P.st (lasting g w d hh) with
    | error e' =>
      rw [hc] at he
      rw [k1 e' hc]
      exact he
    | ok c =>
      rw [hc] at he
      obtain ⟨c', κ1, κ2, h1, h2, h3, h4, h5, h6⟩ := k2 c hc
      rw [h1]
      have hgr : gridOf sr c' = gridOf sr c := by
        unfold gridOf
        rw [h2, h3, h4, h5]
        cases c.infl <;> rfl
      change deriveP spline sr method kws order c P.caches = _ at he
      show deriveP spline sr method kws order c' P.caches = _
      unfold deriveP at he ⊢
      rw [hgr]
      cases hg : gridOf sr c with
      | none => rw [hg] at he; exact he
      | some G =>
        rw [hg] at he
        dsimp only at he ⊢
        cases hd : (derive spline method kws order G P.caches).current with
        | none => rw [hd] at he; exact he
        | some S => rw [hd] at he; cases he
  · intro Q hQ
    unfold calibrateP at hQ ⊢
    cases hc : Cal.calibrate u P.st (lasting g w d hh) with
    | error e' => rw [hc] at hQ; cases hQ
    | ok c =>
      rw [hc] at hQ
      obtain ⟨c', κ1, κ2, h1, h2, h3, h4, h5, h6⟩ := k2 c hc
      rw [h1]
      have hgr : gridOf sr c' = gridOf sr c := by
        unfold gridOf
        rw [h2, h3, h4, h5]
        cases c.infl <;> rfl
      change deriveP spline sr method kws order c P.caches = _ at hQ
      have goal : ∃ Q', deriveP spline sr method kws order c' P.caches = .ok Q' ∧ Q'.pars = Q.pars ∧ Q'.caches = Q.caches ∧ Q'.st = c' ∧ Q.st = c := by
        unfold deriveP at hQ ⊢
        rw [hgr]
        cases hg : gridOf sr c with
        | none => rw [hg] at hQ; cases hQ
        | some G =>
          rw [hg] at hQ
          dsimp only at hQ ⊢
          cases hd : (derive spline method kws order G P.caches).current with
          | none => rw [hd] at hQ; cases hQ
          | some S =>
            rw [hd] at hQ
            dsimp only at hQ ⊢
            rw [← Except.ok.inj hQ]
            exact ⟨_, rfl, rfl, rfl, rfl, rfl⟩
      obtain ⟨Q', g1, g2, g3, g4, g5⟩ := goal
      refine ⟨Q', κ1, κ2, g1, g2, g3, by rw [g4, g5, h4], by rw [g5, h2], by rw [g4, h3], h6, ?_⟩
      have h6 : κ2.N_reh = none := h6
      rw [h6] at h5
      exact h5

end

/-- **C104, curved universes**: pressureless reheating can be given by its duration or by the density at its end. (For other equations of state the two disagree, C35.) -/
theorem C104_dust {κ : Type} (u : SI) (spline : κ → List (ℝ × ℝ) → ℝ → ℝ) (sr : SlowRoll) {P : PSol} {I : Infl} (hI : P.st.infl = some I) (kws : κ) (method : String) (order : ℕ) (g : ℝ) (hh : Option ℝ)
    {d ρ : ℝ} (hdat : Data u I.V_end 0 d ρ) :
    calibrateP u spline sr P (diluting g 0 ρ hh) method kws order = calibrateP u spline sr P (lasting g 0 d hh) method kws order := by
  obtain ⟨b1, b2⟩ := hdat.bad g hh
  have al : Alike u P.st (lasting g 0 d hh) (diluting g 0 ρ hh) := ⟨rfl, rfl, rfl, rfl, rfl, rfl, rfl, rfl, rfl, rfl, b1.trans b2.symm⟩
  refine (spectra rfl rfl ?_ method kws order).symm
  by_cases hK : P.st.K = 0
  · exact al.flat hI hK fun st => hdat.flatLD I rfl g hh _ st
  · exact al.curved hI hK fun N st => dust hdat I rfl g hh N st

namespace C104.Ex
open C92.Ex

/-- every history has a density at its end -/
theorem data (u : SI) {V w d : ℝ} (hV : 0 < V) (hd : 0 < d) (hw : -1 / 3 ≤ w) (hw' : w ≠ 1 / 3) : ∃ ρ, Data u V w d ρ := by
  have h0 : 0 < 3 / 2 * V * exp (-3 * (1 + w) * d) := by positivity
  exact ⟨_, hV, hd, hw, hw', Cal.toGeV_pos u h0, Cal.toPlanck_toGeV u h0.le⟩

/-- `C104` applies to the universe of C102, where the calibration with five e-folds of matter succeeds: so do all the other descriptions, with the same spectra. -/
example (u : SI) (fmtE : ℝ → String) : ∃ (o : Dict Attr) (s : InflSol) (sr : SlowRoll) (cs : CalState), solve ivp fmtE E (ICCall.slowRoll E C90.Ex.ic) [] C90.Ex.kw = .ok (o, s) ∧
    slowRoll E o s = some sr ∧ Shooting.calState E.K s = some cs ∧ ∀ (spline : Unit → List (ℝ × ℝ) → ℝ → ℝ), ∃ g ρ Q Q', 0 < g ∧
      calibrateP u spline sr ⟨cs, Caches.empty, none⟩ (lasting g 0 5 none) "CGS" () 3 = .ok Q ∧
      calibrateP u spline sr ⟨cs, Caches.empty, none⟩ (diluting g 0 ρ none) "CGS" () 3 = .ok Q ∧
      calibrateP u spline sr ⟨cs, Caches.empty, none⟩ (shiftingTo g (5 / 4) ρ none) "CGS" () 3 = .ok Q ∧
      calibrateP u spline sr ⟨cs, Caches.empty, none⟩ (shifting g (5 / 4) none) "CGS" () 3 = .ok Q' ∧ Q'.pars = Q.pars := by
  obtain ⟨o, s, sr, cs, hs, hsr, hcs, hall⟩ := C102.Ex.runs u fmtE
  obtain ⟨I, hI, hV⟩ : ∃ I, cs.infl = some I ∧ 0 < I.V_end := by
    obtain ⟨o', s', m, hs', hm, hph⟩ := C99.Ex.found u fmtE
    obtain ⟨rfl, rfl⟩ := Prod.mk.inj (Except.ok.inj (hs.symm.trans hs'))
    obtain ⟨sr', cs', xb, xe, hsr', hcs', hp, hV, -⟩ := C102_reheating C94.Ex.solved hs hm rfl
    obtain ⟨sr2, cs2, I, xb2, xe2, hsr2, hcs2, -, -, -, eI, hph2, -⟩ := C99.state C94.Ex.solved hs hm
    obtain rfl : cs2 = cs := Option.some.inj (hcs2.symm.trans hcs)
    obtain ⟨-, -, f3, -⟩ := C102.infl_fields hcs2 eI
    have hx := hph2.ordered
    obtain ⟨-, v1, -⟩ := C101.ends C94.Ex.solved hs (xe := xe) ⟨by have := hp.ordered; linarith, hp.ordered.2.2⟩ hp.ends
    exact ⟨I, eI, by rw [Option.some.inj (f3.symm.trans v1)]; exact hV⟩
  have hK : cs.K = 0 := by
    obtain ⟨o', s', m, hs', hm, hph⟩ := C99.Ex.found u fmtE
    obtain ⟨rfl, rfl⟩ := Prod.mk.inj (Except.ok.inj (hs.symm.trans hs'))
    obtain ⟨sr2, cs2, I, xb2, xe2, hsr2, hcs2, eK, -⟩ := C99.state C94.Ex.solved hs hm
    obtain rfl : cs2 = cs := Option.some.inj (hcs2.symm.trans hcs)
    exact eK
  refine ⟨o, s, sr, cs, hs, hsr, hcs, fun spline => ?_⟩
  obtain ⟨-, ⟨g, hg, Q, hQ⟩, -⟩ := (hall spline).1 (.lasting 0 5) (by simp)
  obtain ⟨ρ, hρ⟩ := data u hV (w := 0) (d := 5) (by norm_num) (by norm_num) (by norm_num)
  have hQ : calibrateP u spline sr ⟨cs, Caches.empty, none⟩ (lasting g 0 5 none) "CGS" () 3 = .ok Q := hQ
  have hI' : (⟨cs, Caches.empty, none⟩ : PSol).st.infl = some I := hI
  have hK' : (⟨cs, Caches.empty, none⟩ : PSol).st.K = 0 := hK
  obtain ⟨h1, h2⟩ := C104_descriptions u spline sr hI' () "CGS" 3 g none hρ hK'
  obtain ⟨-, h3⟩ := C104_agnostic u spline sr hI' () "CGS" 3 g none hρ hK'
  obtain ⟨Q', -, -, h4, h5, -⟩ := h3 Q hQ
  have e : (5 : ℝ) / 4 * (1 - 3 * 0) = 5 / 4 := by norm_num
  rw [e] at h2 h4
  exact ⟨g, ρ, Q, Q', hg, hQ, h1.trans hQ, h2.trans hQ, h4, h5⟩

end C104.Ex
end Primpy
