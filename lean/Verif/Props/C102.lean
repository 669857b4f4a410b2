import Verif.Props.C101
import Verif.Props.C35

/-!
# C102: calibration by a reheating history, in a flat universe that `solve` returned
-/

namespace Primpy
open Real Set Spec Bunch Approx

/-! ## Specification -/

/-- The ways to describe reheating to `calibrate_scale_factor(calibration_method='reheating')` that fix a history: nothing (radiation from the end of inflation on), the equation of
state `w` and the duration `d` in e-folds, or the equation of state and the energy density `ρ` at the end, as `ρ^(1/4)` in GeV. -/
inductive Recipe
  | instant
  | lasting (w d : ℝ)
  | diluting (w ρ : ℝ)

/-- the call; `g` are the relativistic degrees of freedom at the end of reheating -/
def Recipe.call (g : ℝ) : Recipe → CalArgs
  | .instant => { method := "reheating", g_th := g }
  | .lasting w d => { method := "reheating", w_reh := some w, DeltaN_reh := some d, g_th := g }
  | .diluting w ρ => { method := "reheating", w_reh := some w, rho_reh_GeV := some ρ, g_th := g }

/-- Which of them are admissible: no contraction, no acceleration during reheating, and radiation (`w = 1/3`) exactly if reheating is instantaneous. -/
def Recipe.Admissible : Recipe → Prop
  | .instant => True
  | .lasting w d => 0 ≤ d ∧ -1 / 3 ≤ w ∧ (w = 1 / 3 ↔ d = 0)
  | .diluting w _ => -1 / 3 ≤ w ∧ w ≠ 1 / 3

/-- The history: `d` e-folds during which the density falls as `a^{-3(1+w)}` from `3V/2` to `ρ`. -/
structure Recipe.History (u : SI) (V : ℝ) (r : Recipe) (w d ρ : ℝ) : Prop where
  dilution : ρ = 3 / 2 * V * exp (-3 * (1 + w) * d)
  given : match r with
    | .instant => d = 0
    | .lasting w' d' => w = w' ∧ d = d'
    | .diluting w' ρ' => w = w' ∧ ρ = ρ' ^ 4 / u.mp_GeV * u.lp_iGeV ^ 3

/-- The comoving Hubble scale `aH` in the units where the scale factor today is 1, if inflation ends at the time `xe` with the scale factor `exp Nf`. -/
noncomputable def Eqs.aHToday (E : Eqs) (Y : ℝ → ℕ → ℝ) (xe Nf x : ℝ) : ℝ := exp (Nf - (E.efolds Y xe - E.efolds Y x)) * E.hubble Y x

namespace C102

/-! ## Tools -/

/-- the comoving Hubble scale in the two units -/
theorem today_eq (E : Eqs) (Y : ℝ → ℕ → ℝ) (xe Nf x : ℝ) : E.aHToday Y xe Nf x = exp (Nf - E.efolds Y xe) * E.aH Y x := by
  unfold Eqs.aHToday Eqs.aH Eqs.hubble
  rw [← mul_assoc, ← exp_add]
  congr 2; ring

/-- the attributes of the state are those of the solution -/
theorem infl_fields {K : ℝ} {s : InflSol} {cs : CalState} (h : Shooting.calState K s = some cs) {I : Infl} (hI : cs.infl = some I) :
    s.start.logaH_beg = some I.logaH_beg ∧ s.fin.logaH_end = some I.logaH_end ∧ s.fin.V_end = some I.V_end ∧ s.fin.N_end = some I.N_end := by
  unfold Shooting.calState at h
  obtain ⟨H, -, h⟩ := Option.bind_eq_some_iff.1 h
  obtain ⟨L, -, h⟩ := Option.bind_eq_some_iff.1 h
  have h := (Option.some.inj h).symm
  subst h
  dsimp only at hI
  obtain ⟨b, h1, hI⟩ := Option.bind_eq_some_iff.1 hI
  obtain ⟨e, h2, hI⟩ := Option.bind_eq_some_iff.1 hI
  obtain ⟨n, h3, hI⟩ := Option.bind_eq_some_iff.1 hI
  obtain ⟨v, h4, hI⟩ := Option.bind_eq_some_iff.1 hI
  obtain ⟨hh, h5, hI⟩ := Option.bind_eq_some_iff.1 hI
  obtain ⟨lb, h6, hI⟩ := Option.bind_eq_some_iff.1 hI
  obtain ⟨le, h7, hI⟩ := Option.bind_eq_some_iff.1 hI
  obtain ⟨m, h8, hI⟩ := Option.bind_eq_some_iff.1 hI
  rw [← Option.some.inj hI]
  exact ⟨h6, h7, h4, h2⟩

section
variable {ivp : SolveIvp} {fmtE : ℝ → String} {E : Eqs} {D S : Set ℝ} {ic : ICCall} {kw : SolveKw} {t : List ℝ} {Y : ℝ → ℕ → ℝ} {x0 x1 : ℝ}
  (h : Solved ivp E D S ic kw t Y x0 x1) {o : Dict Attr} {s : InflSol} (hs : solve ivp fmtE E ic [] kw = .ok (o, s))
include h hs

/-- the comoving Hubble scales recorded at the ends of the phase are those of the trajectory there -/
theorem edges {xb xe : ℝ} (hp : ReportedPhase E Y x0 x1 s xb xe) :
    s.start.logaH_beg = some (log (E.aH Y xb)) ∧ s.fin.logaH_end = some (log (E.aH Y xe)) := by
  obtain ⟨c, y0, q, res, y, te, ye, hic, hq, hivp, sh, hres, hI, hpl⟩ := h.run
  have hE := C91.shipped h.solution
  obtain ⟨o2, raw, hs2, hg, hev, -⟩ := C90_solve ivp fmtE E hE ic kw c y0 q hic hq hivp sh
  rw [hs] at hs2
  obtain ⟨-, hraw⟩ := Prod.mk.inj (Except.ok.inj hs2)
  have hQ : ∀ x, (C90.view E).inflating x (C90.trunc E.idx.length Y x) = (C90.view E).inflating x (Y x) := fun x => C91.inflating_congr hE C91.trunc_lt x
  have hQN : ∀ x, (C90.view E).N x (C90.trunc E.idx.length Y x) = E.efolds Y x := fun x => C91.N_congr hE C91.trunc_lt x
  have hQH : ∀ x, (C90.view E).H2 x (C90.trunc E.idx.length Y x) = (C90.view E).H2 x (Y x) := fun x => C92.H2_congr hE C91.trunc_lt x
  have hf := C90.faithful (raw := raw) (fmtE := fmtE) (C90.Integrated.trunc hI hpl hQ) (fun x i hi => by rw [C90.trunc, if_neg (by omega)]) sh hg hev hpl
  obtain ⟨mN, -, -⟩ := C92.facts h.isOpen h.convex h.solution h.dV
  obtain ⟨k1, k2, k3⟩ := hp.ordered
  have hbS : xb ∈ S := h.inside ⟨k1, by linarith⟩
  have heS : xe ∈ S := h.inside ⟨by linarith, k3⟩
  -- a recorded point with the right number of e-folds gives the right comoving Hubble scale
  have key : ∀ {x z : ℝ}, x ∈ S → z ∈ S → (C90.view E).N x (C90.trunc E.idx.length Y x) = E.efolds Y z →
      (some ((C90.view E).N x (C90.trunc E.idx.length Y x))).bind (fun n => ((C90.view E).Hnan (x, C90.trunc E.idx.length Y x)).bind fun h => (nanLog h).map (n + ·)) = some (log (E.aH Y z)) := by
    intro x z hx hz he
    rw [hQN] at he
    have : x = z := mN.injOn hx hz he
    subst this
    have hH := C92.H2_pos h.solution x hx
    simp only [EqView.Hnan, hQH, hQN, nanSqrt, if_pos hH.le, Option.bind_some, nanLog, if_pos (sqrt_pos.2 hH), Option.map_some, Eqs.aH]
    rw [log_mul (exp_pos _).ne' (sqrt_pos.2 hH).ne', log_exp]
  constructor
  · have hst : s.start = postStart (C90.view E) raw := by rw [hraw]; rfl
    have hb := hp.begins
    rw [hst] at hb ⊢
    unfold postStart at hb ⊢
    by_cases h1 : (firstEvent raw.events "Collapse").isSome = true
    · rw [if_pos h1] at hb; cases hb
    · rw [if_neg h1] at hb ⊢
      by_cases h2 : 0 ≤ (C90.view E).inflating raw.first.1 raw.first.2 ∨ (C90.view E).w raw.first.1 raw.first.2 ≤ -1 / 3
      · rw [if_pos h2] at hb ⊢
        dsimp only at hb ⊢
        rw [hf.start] at hb ⊢
        exact key h.start hbS (Option.some.inj hb)
      · rw [if_neg h2] at hb ⊢
        cases he : firstEvent raw.events "Inflation_dir1_term0" with
        | none => rw [he] at hb; cases hb
        | some p =>
          rw [he] at hb
          dsimp only at hb ⊢
          obtain ⟨l, hl, hpm⟩ : ∃ l, raw.events.get? "Inflation_dir1_term0" = some l ∧ p ∈ l := by
            unfold firstEvent at he
            cases hg : raw.events.get? "Inflation_dir1_term0" with
            | none => rw [hg] at he; simp at he
            | some l =>
              rw [hg] at he
              exact ⟨l, rfl, List.mem_of_mem_head? (by simpa using he)⟩
          have hp2 := hf.events _ l hl p hpm
          have hp1 := (hf.begins l hl).sound p.1 (List.mem_map_of_mem hpm)
          have : p = (p.1, C90.trunc E.idx.length Y p.1) := Prod.ext rfl hp2
          rw [this] at hb ⊢
          exact key (h.inside ⟨hp1.after.le, hp1.before⟩) hbS (Option.some.inj hb)
  · have hen : s.fin = postEnd (C90.view E) E.pot.V raw := by rw [hraw]; rfl
    have hb := hp.ends
    rw [hen] at hb ⊢
    unfold postEnd at hb ⊢
    cases hev' : endEvent raw.events with
    | none => rw [hev'] at hb; cases hb
    | some p =>
      rw [hev'] at hb
      dsimp only at hb ⊢
      obtain ⟨key', hk, l, hl, hpm⟩ : ∃ key ∈ ["Inflation_dir-1_term1", "Inflation_dir-1_term0"], ∃ l, raw.events.get? key = some l ∧ p ∈ l := by
        have ft : ∀ key, firstEvent raw.events key = some p → ∃ l, raw.events.get? key = some l ∧ p ∈ l := fun key h => by
          unfold firstEvent at h
          cases hg : raw.events.get? key with
          | none => rw [hg] at h; simp at h
          | some l =>
            rw [hg] at h
            exact ⟨l, rfl, List.mem_of_mem_head? (by simpa using h)⟩
        unfold endEvent at hev'
        cases h1 : firstEvent raw.events "Inflation_dir-1_term1" with
        | some q =>
          rw [h1] at hev'
          dsimp only at hev'
          rw [hev'] at h1
          exact ⟨_, by simp, ft _ h1⟩
        | none =>
          rw [h1] at hev'
          dsimp only at hev'
          exact ⟨_, by simp, ft _ hev'⟩
      have hp2 := hf.events _ l hl p hpm
      have hp1 := (hf.ends key' hk l hl).sound p.1 (List.mem_map_of_mem hpm)
      have : p = (p.1, C90.trunc E.idx.length Y p.1) := Prod.ext rfl hp2
      rw [this] at hb ⊢
      exact key (h.inside ⟨hp1.after.le, hp1.before⟩) heS (Option.some.inj hb)

end

/-- where the acceleration of a flat universe vanishes, its potential energy is positive -/
theorem potential_pos {E : Eqs} {D S : Set ℝ} {Y : ℝ → ℕ → ℝ} (hT : E.Trajectory D S Y) (hK : E.K = 0) {x : ℝ} (hx : x ∈ S) (h0 : E.accel Y x = 0) : 0 < E.pot.V (Y x 0) := by
  have hH := C92.H2_pos hT x hx
  cases E with
  | other K p => exact absurd hT (by simp [Eqs.Trajectory])
  | T e =>
    have hK : e.K = 0 := hK
    have h0 : e.pot.V (Y x 0) - Y x 1 ^ 2 = 0 := h0
    have hH : 0 < e.H2 (Y x) := hH
    have e2 : e.H2 (Y x) = (Y x 1 ^ 2 / 2 + e.pot.V (Y x 0)) / 3 - e.K * exp (-2 * InflT._N (Y x)) := rfl
    rw [e2, hK] at hH
    show 0 < e.pot.V (Y x 0)
    nlinarith
  | N e =>
    have hK : e.K = 0 := hK
    have h0 : e.pot.V (Y x 0) - e.H2 x (Y x) * Y x 1 ^ 2 = 0 := h0
    have hH : 0 < e.H2 x (Y x) := hH
    show 0 < e.pot.V (Y x 0)
    have hV : e.pot.V (Y x 0) = e.H2 x (Y x) * Y x 1 ^ 2 := by linarith
    rcases (mul_nonneg hH.le (sq_nonneg (Y x 1))).eq_or_lt with h | h
    · have e2 : e.H2 x (Y x) = (2 * e.pot.V (Y x 0) - 6 * e.K * exp (-2 * x)) / (6 - Y x 1 ^ 2) := rfl
      rw [e2, hK, hV, ← h] at hH
      norm_num at hH
    · rw [hV]; exact h


/-- the branch of the code that the admissible recipes take -/
theorem requested {u : SI} {I : Infl} {r : Recipe} (hr : r.Admissible) {g : ℝ} (hg : 0 < g) (hV : 0 < I.V_end) {w d ρ Nf : ℝ} (hh : r.History u I.V_end w d ρ)
    (ht : Thermalised u g ρ (Nf + d) 0) (st : Sticky) :
    Cal.badReheating (r.call g) = false ∧ ∃ st', Cal.flatReh u I (0 - Cal.logg g - log (I.V_end / u.T_CMB_Tp ^ 4) / 4) (r.call g) st = .ok (Nf, some d, st') := by
  obtain ⟨hd, hgiv⟩ := hh
  have hN : Nf = 0 - Cal.logg g - log (I.V_end / u.T_CMB_Tp ^ 4) / 4 - d / 4 * (1 - 3 * w) := by
    have := (history_of (u := u) (g := g) (N_end := 0 - Cal.logg g - log (I.V_end / u.T_CMB_Tp ^ 4) / 4 - d / 4 * (1 - 3 * w)) (N0 := 0) (w := w) (d := d) hg hV rfl)
    rw [← hd] at this
    have := Thermalised.unique hg ht this
    linarith
  cases r with
  | instant =>
    obtain rfl : d = 0 := hgiv
    refine ⟨by simp [Cal.badReheating, Recipe.call], ?_⟩
    unfold Cal.flatReh
    rw [show is_instant_reheating (Recipe.instant.call g).N_star (Recipe.instant.call g).rho_reh_GeV (Recipe.instant.call g).w_reh (Recipe.instant.call g).DeltaN_reh
      (Recipe.instant.call g).DeltaN_minus1 = .ok true by simp [is_instant_reheating, Recipe.call]]
    have hN : Nf = 0 - Cal.logg g - log (I.V_end / u.T_CMB_Tp ^ 4) / 4 := by rw [hN]; ring
    rw [hN]
    exact ⟨_, rfl⟩
  | lasting w' d' =>
    obtain ⟨rfl, rfl⟩ : w = w' ∧ d = d' := hgiv
    obtain ⟨d0, w0, hi⟩ : 0 ≤ d ∧ -1 / 3 ≤ w ∧ (w = 1 / 3 ↔ d = 0) := hr
    refine ⟨by simp [Cal.badReheating, Recipe.call, d0, w0], ?_⟩
    unfold Cal.flatReh
    by_cases hd0 : d = 0
    · have hw0 := hi.2 hd0
      rw [show is_instant_reheating ((Recipe.lasting w d).call g).N_star ((Recipe.lasting w d).call g).rho_reh_GeV ((Recipe.lasting w d).call g).w_reh ((Recipe.lasting w d).call g).DeltaN_reh
        ((Recipe.lasting w d).call g).DeltaN_minus1 = .ok true by simp [is_instant_reheating, Recipe.call, hd0, hw0]]
      have hN : Nf = 0 - Cal.logg g - log (I.V_end / u.T_CMB_Tp ^ 4) / 4 := by rw [hN, hd0]; ring
      rw [hN, hd0]
      exact ⟨_, rfl⟩
    · have hw0 : w ≠ 1 / 3 := fun h => hd0 (hi.1 h)
      rw [show is_instant_reheating ((Recipe.lasting w d).call g).N_star ((Recipe.lasting w d).call g).rho_reh_GeV ((Recipe.lasting w d).call g).w_reh ((Recipe.lasting w d).call g).DeltaN_reh
        ((Recipe.lasting w d).call g).DeltaN_minus1 = .ok false by
          have hw1 : ¬ w = 3⁻¹ := fun h => hw0 (by rw [h]; norm_num)
          simp [is_instant_reheating, Recipe.call, hd0, hw1]]
      rw [hN]
      exact ⟨_, rfl⟩
  | diluting w' ρ' =>
    obtain ⟨rfl, hρ⟩ : w = w' ∧ ρ = ρ' ^ 4 / u.mp_GeV * u.lp_iGeV ^ 3 := hgiv
    obtain ⟨w0, w1⟩ : -1 / 3 ≤ w ∧ w ≠ 1 / 3 := hr
    refine ⟨by simp [Cal.badReheating, Recipe.call, w0], ?_⟩
    unfold Cal.flatReh
    rw [show is_instant_reheating ((Recipe.diluting w ρ').call g).N_star ((Recipe.diluting w ρ').call g).rho_reh_GeV ((Recipe.diluting w ρ').call g).w_reh
      ((Recipe.diluting w ρ').call g).DeltaN_reh ((Recipe.diluting w ρ').call g).DeltaN_minus1 = .ok false by
        have hw1 : ¬ w = 3⁻¹ := fun h => w1 (by rw [h]; norm_num)
        simp [is_instant_reheating, Recipe.call, hw1]]
    have hρ' : Cal.toPlanck u ρ' = ρ := hρ.symm
    have hlog : log (3 / 2 * I.V_end / Cal.toPlanck u ρ') / (3 * (1 + w)) = d := by
      rw [hρ', hd, show 3 / 2 * I.V_end / (3 / 2 * I.V_end * exp (-3 * (1 + w) * d)) = exp (3 * (1 + w) * d) by
        rw [show -3 * (1 + w) * d = -(3 * (1 + w) * d) by ring, exp_neg]; field_simp, log_exp]
      have : (1 : ℝ) + w ≠ 0 := by linarith
      field_simp
    have key : ∀ x, x = d → ∀ st' : Sticky, (Except.ok (0 - Cal.logg g - log (I.V_end / u.T_CMB_Tp ^ 4) / 4 - x / 4 * (1 - 3 * w), some x, st') : Except PyErr _) = .ok (Nf, some d, st') := by
      rintro x rfl st'
      rw [hN]
    exact ⟨_, key _ hlog _⟩

/-- every admissible recipe describes a history that can be continued to today -/
theorem history (u : SI) {r : Recipe} (hr : r.Admissible) {g V : ℝ} (hg : 0 < g) (hV : 0 < V) (hρ : ∀ w ρ, r = .diluting w ρ → 0 < ρ) :
    ∃ w d ρ Nf, r.History u V w d ρ ∧ Thermalised u g ρ (Nf + d) 0 := by
  have fin : ∀ w d : ℝ, ∃ Nf, Thermalised u g (3 / 2 * V * exp (-3 * (1 + w) * d)) (Nf + d) 0 := fun w d => ⟨_, history_of hg hV rfl⟩
  cases r with
  | instant =>
    obtain ⟨Nf, h⟩ := fin 0 0
    exact ⟨_, _, _, Nf, ⟨rfl, rfl⟩, h⟩
  | lasting w d =>
    obtain ⟨Nf, h⟩ := fin w d
    exact ⟨_, _, _, Nf, ⟨rfl, rfl, rfl⟩, h⟩
  | diluting w ρ =>
    have h0 : 0 < Cal.toPlanck u ρ := Cal.toPlanck_pos u (hρ w ρ rfl)
    have h1 : (1 : ℝ) + w ≠ 0 := by have := hr.1; linarith
    obtain ⟨Nf, h⟩ := fin w (log (3 / 2 * V / Cal.toPlanck u ρ) / (3 * (1 + w)))
    refine ⟨_, _, _, Nf, ⟨rfl, rfl, ?_⟩, h⟩
    show _ = Cal.toPlanck u ρ
    rw [show -3 * (1 + w) * (log (3 / 2 * V / Cal.toPlanck u ρ) / (3 * (1 + w))) = -log (3 / 2 * V / Cal.toPlanck u ρ) by field_simp, exp_neg, exp_log (by positivity)]
    field_simp

/-- the inadmissible recipes are refused -/
theorem refused (u : SI) {cs : CalState} {I : Infl} (hK : cs.K = 0) (hI : cs.infl = some I) {r : Recipe} (hr : ¬ r.Admissible) (g : ℝ) :
    ∃ msg, Cal.calibrate u cs (r.call g) = .error (.valueError msg) := by
  have err : ∀ {e : PyErr}, Cal.flatReheating u cs (r.call g) = .error e → Cal.calibrate u cs (r.call g) = .error e := fun {e} he => by
    unfold Cal.calibrate
    rw [if_pos hK]
    unfold Cal.flat
    rw [if_neg (by cases r <;> simp [Recipe.call])]
    unfold Cal.flatSel
    rw [show (r.call g).background = none by cases r <;> rfl]
    dsimp only
    rw [show (r.call g).method = "reheating" by cases r <;> rfl, if_neg (by decide), if_pos rfl, he]
  by_cases hb : Cal.badReheating (r.call g) = true
  · exact ⟨_, err (by unfold Cal.flatReheating; rw [if_pos hb])⟩
  have late : ∀ {msg}, is_instant_reheating (r.call g).N_star (r.call g).rho_reh_GeV (r.call g).w_reh (r.call g).DeltaN_reh (r.call g).DeltaN_minus1 = .error (.valueError msg) →
      ∃ msg, Cal.calibrate u cs (r.call g) = .error (.valueError msg) := fun {msg} he => ⟨msg, err (by
    unfold Cal.flatReheating
    rw [if_neg hb, hI]
    dsimp only
    unfold Cal.flatReh
    rw [he])⟩
  cases r with
  | instant => exact absurd trivial hr
  | lasting w d =>
    have hb' : 0 ≤ d ∧ -1 / 3 ≤ w := ⟨not_lt.1 fun hc => hb (decide_eq_true (.inl ⟨d, rfl, hc⟩)), not_lt.1 fun hc => hb (decide_eq_true (.inr ⟨w, rfl, hc⟩))⟩
    have hi : ¬ (w = 1 / 3 ↔ d = 0) := fun hi => hr ⟨hb'.1, hb'.2, hi⟩
    refine late (msg := "instant reheating requires all other parameters to match") ?_
    by_cases hw : w = 1 / 3
    · have hd : d ≠ 0 := fun hd => hi ⟨fun _ => hd, fun _ => hw⟩
      have hw' : w = 3⁻¹ := by rw [hw]; norm_num
      simp [is_instant_reheating, Recipe.call, hw', hd]
    · have hd : d = 0 := by by_contra hd; exact hi ⟨fun h => absurd h hw, fun h => absurd h hd⟩
      have hw' : ¬ w = 3⁻¹ := fun h => hw (by rw [h]; norm_num)
      simp [is_instant_reheating, Recipe.call, hw', hd]
  | diluting w ρ =>
    have hb' : -1 / 3 ≤ w := not_lt.1 fun hc => hb (decide_eq_true (.inr ⟨w, rfl, hc⟩))
    have hw : w = 1 / 3 := by by_contra hw; exact hr ⟨hb', hw⟩
    refine late (msg := "instant reheating requires all other parameters to match") ?_
    have hw' : w = 3⁻¹ := by rw [hw]; norm_num
    simp [is_instant_reheating, Recipe.call, hw']

/-- what the calibration does once the history is fixed -/
theorem cases (u : SI) {cs : CalState} {I : Infl} (hK : cs.K = 0) (hI : cs.infl = some I) {r : Recipe} {g Nf d : ℝ} {st' : Sticky}
    (hbad : Cal.badReheating (r.call g) = false)
    (hr : Cal.flatReh u I (0 - Cal.logg g - log (I.V_end / u.T_CMB_Tp ^ 4) / 4) (r.call g) cs.sticky = .ok (Nf, some d, st')) {l : ℝ} (hl : l = log u.K_STAR_lp - (Nf - I.N_end)) :
    ((l < I.logaH_beg ∨ I.logaH_end < l) → ∃ msg, Cal.calibrate u cs (r.call g) = .error (.insufficientInflation msg)) ∧
    (I.logaH_beg ≤ l → l ≤ I.logaH_end → ∀ e, interpL (maskSel cs.logaH I.mask) (maskSel cs.N I.mask) l = .error e → Cal.calibrate u cs (r.call g) = .error e) ∧
    (I.logaH_beg ≤ l → l ≤ I.logaH_end → ∀ y, interpL (maskSel cs.logaH I.mask) (maskSel cs.N I.mask) l = .ok y →
      ∃ c κ, Cal.calibrate u cs (r.call g) = .ok c ∧ c.cal = some κ ∧ κ.N_end = Nf ∧ κ.N_reh = some (Nf + d) ∧ κ.N0 = 0) := by
  have hgth : (r.call g).g_th = g := by cases r <;> rfl
  have hΩ : (r.call g).Omega_K0 = none := by cases r <;> rfl
  have hl' : 0 + log u.K_STAR_lp - (Nf - I.N_end) = l := by rw [hl]; ring
  have sel : Cal.flatSel u cs (r.call g) = Cal.flatReheating u cs (r.call g) := by
    unfold Cal.flatSel
    rw [show (r.call g).background = none by cases r <;> rfl]
    dsimp only
    rw [show (r.call g).method = "reheating" by cases r <;> rfl, if_neg (by decide), if_pos rfl]
  have err : ∀ {e : PyErr}, Cal.flatReheating u cs (r.call g) = .error e → Cal.calibrate u cs (r.call g) = .error e := fun {e} he => by
    unfold Cal.calibrate
    rw [if_pos hK]
    unfold Cal.flat
    rw [if_neg (by rw [hΩ]; rintro ⟨_, h, -⟩; cases h), sel, he]
  have unf : Cal.flatReheating u cs (r.call g) = if l < I.logaH_beg ∨ I.logaH_end < l then .error (.insufficientInflation "Pivot scale not within range")
      else match interpL (maskSel cs.logaH I.mask) (maskSel cs.N I.mask) l with
        | .error e => .error e
        | .ok N_cross => .ok (I.N_end - N_cross, N_cross, l, Nf - I.N_end, some (I.N_end + d), I, st') := by
    unfold Cal.flatReheating
    rw [if_neg (by rw [hbad]; simp), hI]
    dsimp only
    rw [hgth, hr]
    dsimp only
    rw [hl']
    rfl
  refine ⟨fun ho => ⟨_, err (by rw [unf, if_pos ho])⟩, fun h1 h2 e he => err (by rw [unf, if_neg (by rintro (k | k) <;> linarith), he]), fun h1 h2 y hy => ?_⟩
  rw [if_neg (by rintro (k | k) <;> linarith), hy] at unf
  refine ⟨_, _, Cal.calibrate_flat_intro hK hΩ (sel.trans unf), rfl, ?_, ?_, rfl⟩
  · show I.N_end + (Nf - I.N_end) = Nf
    ring
  · show some (I.N_end + d + (Nf - I.N_end)) = _
    congr 1; ring

end C102

section
variable {ivp : SolveIvp} {fmtE : ℝ → String} {E : Eqs} {D S : Set ℝ} {ic : ICCall} {kw : SolveKw} {t : List ℝ} {Y : ℝ → ℕ → ℝ} {x0 x1 : ℝ} (h : Solved ivp E D S ic kw t Y x0 x1)
  {o : Dict Attr} {s : InflSol} (hs : solve ivp fmtE E ic [] kw = .ok (o, s)) {m : List Bool} (hm : s.inflation_mask = some m)
include h hs hm

/-- **C102**: for the object that `solve` returns once it has found inflation in a flat universe, calibrating by a reheating history places the end of inflation at the scale factor
`exp Nf` that makes the plasma at the end of reheating, through conserved entropy, the one that is seen today; this is a unique number, and the calibration (with the spectra) succeeds
exactly if two grid points of the phase then bracket the pivot scale.  If the pivot scale does not leave the horizon during the phase, the error is `InsufficientInflationError`, otherwise
(no grid points around it) `ValueError`; inadmissible histories raise `ValueError`. -/
theorem C102_reheating (hK : E.K = 0) : ∃ sr cs xb xe, slowRoll E o s = some sr ∧ Shooting.calState E.K s = some cs ∧ ReportedPhase E Y x0 x1 s xb xe ∧ 0 < E.pot.V (Y xe 0) ∧
    ((∀ x ∈ Ioo xb xe, 0 < E.accel Y x) → ∀ {κ : Type} (u : SI) (spline : κ → List (ℝ × ℝ) → ℝ → ℝ) (P : PSol) (kws : κ) (method : String) (order : ℕ) (r : Recipe) (g : ℝ),
      P.st = cs → KnownMethod method order → 0 < g → (∀ w ρ, r = .diluting w ρ → 0 < ρ) →
      (¬ r.Admissible → ∃ msg, calibrateP u spline sr P (r.call g) method kws order = .error (.valueError msg)) ∧
      (r.Admissible → (∃ w d ρ Nf, r.History u (E.pot.V (Y xe 0)) w d ρ ∧ Thermalised u g ρ (Nf + d) 0) ∧
        ∀ w d ρ Nf, r.History u (E.pot.V (Y xe 0)) w d ρ → Thermalised u g ρ (Nf + d) 0 →
          ((∃ Q, calibrateP u spline sr P (r.call g) method kws order = .ok Q) ↔ Bracketed t (Ioo xb xe) (E.aHToday Y xe Nf) u.K_STAR_lp) ∧
          (u.K_STAR_lp < E.aHToday Y xe Nf xb ∨ E.aHToday Y xe Nf xe < u.K_STAR_lp →
            ∃ msg, calibrateP u spline sr P (r.call g) method kws order = .error (.insufficientInflation msg)) ∧
          (E.aHToday Y xe Nf xb ≤ u.K_STAR_lp → u.K_STAR_lp ≤ E.aHToday Y xe Nf xe → ∀ err, calibrateP u spline sr P (r.call g) method kws order = .error err →
            ∃ msg, err = .valueError msg) ∧
          ∀ Q, calibrateP u spline sr P (r.call g) method kws order = .ok Q → ∃ cal, Q.st.cal = some cal ∧ cal.N0 = 0 ∧ cal.N_end = Nf ∧ cal.N_reh = some (Nf + d))) := by
  obtain ⟨sr, cs, I, xb, xe, hsr, hcs, eK, eN, eL, eI, hph, -, iE, -, hlen, hsel⟩ := C99.state h hs hm
  obtain ⟨f1, f2, f3, f4⟩ := C102.infl_fields hcs eI
  obtain ⟨g1, g2⟩ := C102.edges h hs hph
  have hx : x0 ≤ xb ∧ xb < xe ∧ xe ≤ x1 := hph.ordered
  obtain ⟨-, v1, -⟩ := C101.ends h hs (xe := xe) ⟨by linarith, hx.2.2⟩ hph.ends
  have iB : I.logaH_beg = log (E.aH Y xb) := Option.some.inj (f1.symm.trans g1)
  have iL : I.logaH_end = log (E.aH Y xe) := Option.some.inj (f2.symm.trans g2)
  have iV : I.V_end = E.pot.V (Y xe 0) := Option.some.inj (f3.symm.trans v1)
  have hphS : Icc xb xe ⊆ S := fun x hx' => h.inside ⟨hx.1.trans hx'.1, hx'.2.trans hx.2.2⟩
  have hV : 0 < E.pot.V (Y xe 0) := C102.potential_pos h.solution hK (hphS ⟨hx.2.1.le, le_rfl⟩) hph.stops
  refine ⟨sr, cs, xb, xe, hsr, hcs, hph, hV, fun hacc {κ} u spline P kws method order r g hP hk hg hρ => ?_⟩
  have hKs := (C56_pivot u).2
  have hbg : (r.call g).background = none := by cases r <;> rfl
  refine ⟨fun hr => ?_, fun hr => ⟨C102.history u hr hg hV hρ, fun w d ρ Nf hh ht => ?_⟩⟩
  · obtain ⟨msg, he⟩ := C102.refused u (eK.trans hK) eI hr g
    exact ⟨msg, C99.derived_error (by rw [hP]; exact he)⟩
  rw [← iV] at hh hV
  obtain ⟨hbad, st', hreh⟩ := C102.requested hr hg hV hh ht cs.sticky
  obtain ⟨l, hl⟩ : ∃ l, l = log u.K_STAR_lp - (Nf - I.N_end) := ⟨_, rfl⟩
  obtain ⟨c1, c2, c3⟩ := C102.cases u (eK.trans hK) eI hbad hreh hl
  -- the comoving Hubble scale
  have aHp : ∀ x ∈ Icc xb xe, 0 < E.aH Y x := fun x hx => C92.aH_pos h.solution (hphS hx)
  have today : ∀ x, E.aHToday Y xe Nf x = exp (Nf - I.N_end) * E.aH Y x := fun x => by
    rw [iE]; exact C102.today_eq ..
  have low : ∀ x ∈ Icc xb xe, (log (E.aH Y x) ≤ l ↔ E.aHToday Y xe Nf x ≤ u.K_STAR_lp) := fun x hx => by
    rw [today, hl, ← log_le_log_iff (mul_pos (exp_pos _) (aHp x hx)) hKs, log_mul (exp_pos _).ne' (aHp x hx).ne', log_exp]
    constructor <;> intro k <;> linarith
  have high : ∀ x ∈ Icc xb xe, (l ≤ log (E.aH Y x) ↔ u.K_STAR_lp ≤ E.aHToday Y xe Nf x) := fun x hx => by
    rw [today, hl, ← log_le_log_iff hKs (mul_pos (exp_pos _) (aHp x hx)), log_mul (exp_pos _).ne' (aHp x hx).ne', log_exp]
    constructor <;> intro k <;> linarith
  have mb : xb ∈ Icc xb xe := ⟨le_rfl, hx.2.1.le⟩
  have me : xe ∈ Icc xb xe := ⟨hx.2.1.le, le_rfl⟩
  have maH : StrictMonoOn (E.aH Y) (Icc xb xe) := by
    obtain ⟨-, -, d, hd, hdpos⟩ := C92.facts h.isOpen h.convex h.solution h.dV
    exact strictMonoOn_of_deriv_pos (convex_Icc _ _) (fun x hx => (hd x (hphS hx)).continuousAt.continuousWithinAt) fun x hx => by
      rw [(hd x (hphS (interior_subset hx))).deriv]
      rw [interior_Icc] at hx
      exact hdpos x (hphS ⟨hx.1.le, hx.2.le⟩) (hacc x hx)
  have mL : StrictMonoOn (fun x => log (E.aH Y x)) (Icc xb xe) := fun p hp q hq hpq => log_lt_log (aHp p hp) (maH hp hq hpq)
  have cc : Ioo xb xe ⊆ Icc xb xe := Ioo_subset_Icc_self
  have inP : ∀ w ∈ maskSel t I.mask, w ∈ Ioo xb xe := fun w hw => by
    obtain ⟨k, h1, h2⟩ := C99.mem_sel.1 hw
    exact (hsel k w h1).1 h2
  have srt : (maskSel t I.mask).Pairwise fun a b => log (E.aH Y a) < log (E.aH Y b) :=
    (h.sorted.sublist (C92.maskSel_sublist t I.mask)).imp_of_mem fun {a b} ha hb hab => mL (cc (inP a ha)) (cc (inP b hb)) hab
  have key : (∃ y, interpL (maskSel cs.logaH I.mask) (maskSel cs.N I.mask) l = .ok y) ↔ Bracketed t (Ioo xb xe) (E.aHToday Y xe Nf) u.K_STAR_lp := by
    rw [eN, eL, C99.interpL_iff srt]
    constructor
    · rintro ⟨i, j, p, q, hi, hj, mi, mj, h1, h2, h3⟩
      have pi := (hsel i p hi).1 mi
      have pj := (hsel j q hj).1 mj
      exact ⟨p, List.mem_of_getElem? hi, q, List.mem_of_getElem? hj, pi, pj, (mL.lt_iff_lt (cc pi) (cc pj)).1 h1, (low p (cc pi)).1 h2, (high q (cc pj)).1 h3⟩
    · rintro ⟨p, hp, q, hq, pi, pj, hpq, h2, h3⟩
      obtain ⟨i, hi⟩ := List.mem_iff_getElem?.1 hp
      obtain ⟨j, hj⟩ := List.mem_iff_getElem?.1 hq
      exact ⟨i, j, p, q, hi, hj, (hsel i p hi).2 pi, (hsel j q hj).2 pj, mL (cc pi) (cc pj) hpq, (low p (cc pi)).2 h2, (high q (cc pj)).2 h3⟩
  have range : Bracketed t (Ioo xb xe) (E.aHToday Y xe Nf) u.K_STAR_lp → I.logaH_beg ≤ l ∧ l ≤ I.logaH_end := by
    rintro ⟨p, hp, q, hq, pi, pj, hpq, h2, h3⟩
    rw [iB, iL]
    exact ⟨(mL mb (cc pi) pi.1).le.trans ((low p (cc pi)).2 h2), ((high q (cc pj)).2 h3).trans (mL (cc pj) me pj.2).le⟩
  have out : (l < I.logaH_beg ∨ I.logaH_end < l) ↔ (u.K_STAR_lp < E.aHToday Y xe Nf xb ∨ E.aHToday Y xe Nf xe < u.K_STAR_lp) := by
    rw [iB, iL, ← not_le, ← not_le, low xb mb, high xe me, not_le, not_le]
  refine ⟨?_, fun ho => ?_, fun h1 h2 err herr => ?_, fun Q hQ => ?_⟩
  · rw [C99.derived hbg hk, hP]
    constructor
    · rintro ⟨c, hc⟩
      by_cases ho : l < I.logaH_beg ∨ I.logaH_end < l
      · obtain ⟨msg, he⟩ := c1 ho
        rw [he] at hc; cases hc
      · push Not at ho
        rw [← key]
        cases hi : interpL (maskSel cs.logaH I.mask) (maskSel cs.N I.mask) l with
        | ok y => exact ⟨y, rfl⟩
        | error e => rw [c2 ho.1 ho.2 e hi] at hc; cases hc
    · intro hB
      obtain ⟨y, hy⟩ := key.2 hB
      obtain ⟨c, -, hc, -⟩ := c3 (range hB).1 (range hB).2 y hy
      exact ⟨c, hc⟩
  · obtain ⟨msg, he⟩ := c1 (out.2 ho)
    exact ⟨msg, C99.derived_error (by rw [hP]; exact he)⟩
  · have ho : ¬ (l < I.logaH_beg ∨ I.logaH_end < l) := by rw [out]; rintro (k | k) <;> linarith
    push Not at ho
    cases hi : interpL (maskSel cs.logaH I.mask) (maskSel cs.N I.mask) l with
    | ok y =>
      obtain ⟨c, -, hc, -⟩ := c3 ho.1 ho.2 y hi
      obtain ⟨Q, hQ⟩ := (C99.derived (u := u) (spline := spline) (sr := sr) (P := P) hbg hk (kws := kws)).2 (by rw [hP]; exact ⟨c, hc⟩)
      rw [hQ] at herr; cases herr
    | error e =>
      rw [C99.derived_error (by rw [hP]; exact c2 ho.1 ho.2 e hi)] at herr
      obtain ⟨msg, he⟩ := C99.interp_error hi
      exact ⟨msg, (Except.error.inj herr).symm.trans he⟩
  · have hcal := C94.calibrateP_ok hbg hQ
    rw [hP] at hcal
    by_cases ho : l < I.logaH_beg ∨ I.logaH_end < l
    · obtain ⟨msg, he⟩ := c1 ho
      rw [he] at hcal; cases hcal
    · push Not at ho
      cases hi : interpL (maskSel cs.logaH I.mask) (maskSel cs.N I.mask) l with
      | error e => rw [c2 ho.1 ho.2 e hi] at hcal; cases hcal
      | ok y =>
        obtain ⟨c, κ', hc, k1, k2, k3, k4⟩ := c3 ho.1 ho.2 y hi
        rw [hcal] at hc
        rw [← Except.ok.inj hc] at k1
        exact ⟨κ', k1, k4, k2, k3⟩

end

namespace C102.Ex
open C92.Ex

/-- some plasma content continues a given history to today from a given scale factor -/
theorem plasma (u : SI) {ρ : ℝ} (hρ : 0 < ρ) (N : ℝ) : ∃ g, 0 < g ∧ Thermalised u g ρ N 0 := by
  have h0 := Cal.g0_pos
  have hT := Cal.T_CMB_pos u
  have hpi := pi_pos
  obtain ⟨C, hC⟩ : ∃ C, C = SI.g0 * u.T_CMB_Tp ^ 3 * exp (0 : ℝ) ^ 3 / exp N ^ 3 := ⟨_, rfl⟩
  have C0 : 0 < C := by rw [hC]; positivity
  obtain ⟨T, hTd⟩ : ∃ T, T = 30 * ρ / (π ^ 2 * C) := ⟨_, rfl⟩
  have T0 : 0 < T := by rw [hTd]; positivity
  refine ⟨C / T ^ 3, by positivity, T, T0, ?_, ?_⟩
  · have : π ^ 2 / 30 * (C / T ^ 3) * T ^ 4 = π ^ 2 / 30 * C * T := by field_simp
    rw [this, hTd]
    field_simp
  · have : C / T ^ 3 * T ^ 3 = C := by field_simp
    rw [this, hC]
    field_simp

/-- `C102_reheating` applies: whatever the admissible history, there are plasmas for which the calibration succeeds, and plasmas for which the pivot scale was outside the horizon already when inflation
began; reheating by radiation for an e-fold is refused. -/
theorem runs (u : SI) (fmtE : ℝ → String) : ∃ (o : Dict Attr) (s : InflSol) (sr : SlowRoll) (cs : CalState), solve ivp fmtE E (ICCall.slowRoll E C90.Ex.ic) [] C90.Ex.kw = .ok (o, s) ∧
    slowRoll E o s = some sr ∧ Shooting.calState E.K s = some cs ∧ ∀ (spline : Unit → List (ℝ × ℝ) → ℝ → ℝ),
      (∀ r ∈ [Recipe.instant, .lasting 0 5, .diluting 0 1], r.Admissible ∧
        (∃ g, 0 < g ∧ ∃ Q, calibrateP u spline sr ⟨cs, Caches.empty, none⟩ (r.call g) "CGS" () 3 = .ok Q) ∧
        ∃ g, 0 < g ∧ ∃ msg, calibrateP u spline sr ⟨cs, Caches.empty, none⟩ (r.call g) "CGS" () 3 = .error (.insufficientInflation msg)) ∧
      ∃ msg, calibrateP u spline sr ⟨cs, Caches.empty, none⟩ ((Recipe.lasting (1 / 3) 1).call 100) "CGS" () 3 = .error (.valueError msg) := by
  obtain ⟨o, s, m, hs, hm, hph⟩ := C99.Ex.found u fmtE
  obtain ⟨sr, cs, xb, xe, hsr, hcs, hp, hV, hall⟩ := C102_reheating C94.Ex.solved hs hm rfl
  obtain ⟨e1, e2⟩ := hph xb xe hp
  obtain ⟨r1, r2, r3⟩ := hj_root
  have hKs := (C56_pivot u).2
  have hx := hp.ordered
  have km : KnownMethod "CGS" 3 := .inl ⟨rfl, le_rfl⟩
  have in2 : (-2 : ℝ) ∈ Ioo xb xe := by rw [e1, e2]; constructor <;> nlinarith
  have in1 : (-1 : ℝ) ∈ Ioo xb xe := by rw [e1, e2]; constructor <;> nlinarith
  have hS : Icc xb xe ⊆ Iio 0 := fun x hx => by
    rw [e2] at hx
    have := hx.2
    show x < 0
    nlinarith
  have H0 : ∀ x ∈ Icc xb xe, 0 < E.hubble Exact.yHjT x := fun x hx => sqrt_pos.2 (C92.H2_pos C94.Ex.solved.solution x (hS hx))
  obtain ⟨F, hF⟩ : ∃ F, F = fun Nf x => E.aHToday Exact.yHjT xe Nf x := ⟨_, rfl⟩
  -- the end of inflation can be placed anywhere
  have place : ∀ z ∈ Icc xb xe, ∀ q : ℝ, 0 < q → ∃ Nf, F Nf z = q := fun z hz q hq => by
    refine ⟨log (q / E.hubble Exact.yHjT z) + (E.efolds Exact.yHjT xe - E.efolds Exact.yHjT z), ?_⟩
    rw [hF]
    show exp (_ - _) * _ = _
    rw [add_sub_cancel_right, exp_log (div_pos hq (H0 z hz)), div_mul_cancel₀ _ (H0 z hz).ne']
  have mono : ∀ Nf, F Nf (-2) ≤ F Nf (-1) := fun Nf => by
    have h1 := C99.aH_mono C94.Ex.solved.isOpen C94.Ex.solved.solution C94.Ex.solved.dV (a := xb) (b := xe) hS hp.accelerates (Ioo_subset_Icc_self in2) (Ioo_subset_Icc_self in1) (by norm_num)
    have e : ∀ x, F Nf x = exp (Nf - E.efolds Exact.yHjT xe) * E.aH Exact.yHjT x := fun x => by
      rw [hF]
      exact C102.today_eq ..
    rw [e, e]
    exact mul_le_mul_of_nonneg_left h1 (exp_pos _).le
  have acc : ∀ x ∈ Ioo xb xe, 0 < E.accel Exact.yHjT x := fun x hx => by
    rw [accel]
    rw [e1, e2] at hx
    nlinarith [hx.1, hx.2]
  -- every history has a positive density at its end
  have pos : ∀ {r : Recipe} {w d ρ : ℝ}, r.History u (E.pot.V (Exact.yHjT xe 0)) w d ρ → 0 < ρ := fun h => by
    rw [h.dilution]; positivity
  refine ⟨o, s, sr, cs, hs, hsr, hcs, fun spline => ?_⟩
  obtain ⟨P, hPd⟩ : ∃ P : PSol, P = ⟨cs, Caches.empty, none⟩ := ⟨_, rfl⟩
  have hP : P.st = cs := by rw [hPd]
  rw [← hPd]
  have sub := fun r g (hg : 0 < g) hρ => hall acc u spline P () "CGS" 3 r g hP km hg hρ
  refine ⟨fun r hr => ?_, ?_⟩
  · have adm : r.Admissible ∧ ∀ w ρ, r = .diluting w ρ → 0 < ρ := by
      simp only [List.mem_cons, List.not_mem_nil, or_false] at hr
      rcases hr with rfl | rfl | rfl
      · exact ⟨trivial, fun w ρ h => by cases h⟩
      · refine ⟨⟨by norm_num, by norm_num, by norm_num⟩, fun w ρ h => by cases h⟩
      · refine ⟨⟨by norm_num, by norm_num⟩, fun w ρ h => ?_⟩
        cases h; norm_num
    have sub := fun g (hg : 0 < g) => (sub r g hg adm.2).2 adm.1
    obtain ⟨⟨w, d, ρ, -, hh, -⟩, -⟩ := sub 1 one_pos
    refine ⟨adm.1, ?_, ?_⟩
    · obtain ⟨Nf, hNf⟩ := place (-2) (Ioo_subset_Icc_self in2) _ hKs
      obtain ⟨g, hg, ht⟩ := plasma u (pos hh) (Nf + d)
      have hB : Bracketed grid (Ioo xb xe) (E.aHToday Exact.yHjT xe Nf) u.K_STAR_lp := by
        have m2 := mono Nf
        rw [hNf, hF] at m2
        rw [hF] at hNf
        exact ⟨-2, by simp [grid], -1, by simp [grid], in2, in1, by norm_num, hNf.le, m2⟩
      obtain ⟨k, -⟩ := (sub g hg).2 w d ρ Nf hh ht
      exact ⟨g, hg, k.2 hB⟩
    · obtain ⟨Nf, hNf⟩ := place xb ⟨le_rfl, hx.2.1.le⟩ (2 * u.K_STAR_lp) (by linarith)
      obtain ⟨g, hg, ht⟩ := plasma u (pos hh) (Nf + d)
      have ho : u.K_STAR_lp < E.aHToday Exact.yHjT xe Nf xb := by
        rw [hF] at hNf
        have hNf : E.aHToday Exact.yHjT xe Nf xb = 2 * u.K_STAR_lp := hNf
        rw [hNf]; linarith
      obtain ⟨-, k, -⟩ := (sub g hg).2 w d ρ Nf hh ht
      exact ⟨g, hg, k (.inl ho)⟩
  · refine (sub (.lasting (1 / 3) 1) 100 (by norm_num) (fun w ρ h => by cases h)).1 ?_
    rintro ⟨-, -, h⟩
    norm_num at h

end C102.Ex
end Primpy
