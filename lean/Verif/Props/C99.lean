import Verif.Props.C93
import Verif.Props.C94

/-!
# C99: when the chain from `solve` to the spectra succeeds

A run whose events are recorded faithfully, that accelerates somewhere and decelerates later, has everything that the calibration reads; and the calibration, and with it
the spectra, succeed *exactly* if two grid points of the reported phase bracket the pivot scale.
-/

namespace Primpy
open Real Set Spec Bunch Approx

/-! ## Specification -/

/-- the approximation methods and orders that exist -/
def KnownMethod (m : String) (n : ℕ) : Prop := (m = "CGS" ∧ n ≤ 3) ∨ m = "LLMS" ∨ m = "STE" ∨ (m = "ARBDS" ∧ 1 ≤ n ∧ n ≤ 3)

/-- two grid points of `S` bracket the value `y` of `f` -/
def Bracketed (t : List ℝ) (S : Set ℝ) (f : ℝ → ℝ) (y : ℝ) : Prop := ∃ p ∈ t, ∃ r ∈ t, p ∈ S ∧ r ∈ S ∧ p < r ∧ f p ≤ y ∧ y ≤ f r

/-- the same with grid points whose `aH` is not that of an earlier grid point -/
def FreshlyBracketed (E : Eqs) (Y : ℝ → ℕ → ℝ) (t : List ℝ) (xb xe y : ℝ) : Prop :=
  ∃ (i j : ℕ) (p r : ℝ), FreshPoint E Y t xb xe i p ∧ FreshPoint E Y t xb xe j r ∧ p < r ∧ E.aH Y p ≤ y ∧ y ≤ E.aH Y r

/-- What `solve(ic, **kw)` must watch to see the phase: the call tracks `InflationEvent(direction=-1)`; no collapse is recorded; and the trajectory accelerates at the start, or
the call tracks `InflationEvent(direction=+1)` without stopping there. -/
def Watched (ivp : SolveIvp) (E : Eqs) (ic : ICCall) (kw : SolveKw) (Y : ℝ → ℕ → ℝ) (x0 : ℝ) : Prop :=
  ∀ c y0 q, ic (kw.rtol.getD (1 / 10 ^ 10)) (kw.atol.getD (1 / 10 ^ 12)) kw.rest (fun _ => some 0) = .ok (c, y0) → Requested E kw c y0 q →
    (∃ ev ∈ q.events, (∃ t_i, ev.kind = .inflation t_i) ∧ ev.direction = .neg) ∧
    (∀ res t y te ye, ivp E q = .ok res → IvpShape E.idx.length q.events.length res t y te ye →
      ∀ (j : ℕ) ev ts, q.events[j]? = some ev → te[j]? = some ts → ev.kind = .collapse → ts = []) ∧
    (0 ≤ E.accel Y x0 ∨ (E.accel Y x0 < 0 ∧ ∃ ev ∈ q.events, (∃ t_i, ev.kind = .inflation t_i) ∧ ev.direction = .pos ∧ ev.terminal = false))

namespace C99

/-! ## Tools -/

/-- linear interpolation is defined exactly between two nodes -/
theorem interp_iff {l : List (ℝ × ℝ)} : ∀ {x : ℝ}, l.Pairwise (fun a b => a.1 < b.1) →
    ((∃ y, interpSorted l x = .ok y) ↔ ∃ p ∈ l, ∃ r ∈ l, p.1 < r.1 ∧ p.1 ≤ x ∧ x ≤ r.1) := by
  induction l with
  | nil => intro x _; simp [interpSorted]
  | cons p l ih =>
    intro x hl
    cases l with
    | nil => simp [interpSorted]
    | cons q l =>
      obtain ⟨hp, hl'⟩ := List.pairwise_cons.1 hl
      have hpq := hp q (by simp)
      rw [interpSorted]
      by_cases h1 : x < p.1
      · rw [if_pos h1]
        refine ⟨fun ⟨y, hy⟩ => (by cases hy), ?_⟩
        rintro ⟨a, ha, r, hr, har, hax, hxr⟩
        rcases List.mem_cons.1 ha with rfl | ha
        · exact absurd hax (not_le.2 h1)
        · exact absurd hax (not_le.2 (h1.trans (hp a ha)))
      · rw [if_neg h1]
        by_cases h2 : x ≤ q.1
        · rw [if_pos h2]
          exact ⟨fun _ => ⟨p, by simp, q, by simp, hpq, not_lt.1 h1, h2⟩, fun _ => ⟨_, rfl⟩⟩
        · rw [if_neg h2, ih hl']
          have h2 := not_le.1 h2
          constructor
          · rintro ⟨a, ha, r, hr, h⟩
            exact ⟨a, List.mem_cons_of_mem _ ha, r, List.mem_cons_of_mem _ hr, h⟩
          · rintro ⟨a, ha, r, hr, har, hax, hxr⟩
            have hr' : r ∈ q :: l := by
              rcases List.mem_cons.1 hr with rfl | hr
              · linarith
              · exact hr
            rcases List.mem_cons.1 ha with rfl | ha
            · exact ⟨q, by simp, r, hr', h2.trans_le hxr, h2.le, hxr⟩
            · exact ⟨a, ha, r, hr', har, hax, hxr⟩

/-- the selected grid points -/
theorem mem_sel {t : List ℝ} {m : List Bool} {z : ℝ} : z ∈ maskSel t m ↔ ∃ i : ℕ, t[i]? = some z ∧ m[i]? = some true := by
  refine ⟨C92.maskSel_mem, fun ⟨i, h1, h2⟩ => ?_⟩
  exact (List.of_mem_zip (maskSel_zip_mem t t m i z z h2 h1 h1)).1

/-- `interp1d` on selected grid points is defined exactly between two of them -/
theorem interpL_iff {t : List ℝ} {m : List Bool} {f g : ℝ → ℝ} (hf : (maskSel t m).Pairwise fun a b => f a < f b) (x : ℝ) :
    (∃ y, interpL (maskSel (t.map f) m) (maskSel (t.map g) m) x = .ok y) ↔
      ∃ (i j : ℕ) (p r : ℝ), t[i]? = some p ∧ t[j]? = some r ∧ m[i]? = some true ∧ m[j]? = some true ∧ f p < f r ∧ f p ≤ x ∧ x ≤ f r := by
  have hz : (maskSel (t.map f) m).zip (maskSel (t.map g) m) = (maskSel t m).map fun z => (f z, g z) := by
    rw [maskSel_map, maskSel_map, List.zip_map']
  have hp : ((maskSel t m).map fun z => (f z, g z)).Pairwise fun a b => a.1 < b.1 := by
    rw [List.pairwise_map]; exact hf
  rw [interpL_sorted (by rw [hz]; exact hp), hz, interp_iff hp]
  constructor
  · rintro ⟨a, ha, b, hb, h1, h2, h3⟩
    obtain ⟨p, hp, rfl⟩ := List.mem_map.1 ha
    obtain ⟨r, hr, rfl⟩ := List.mem_map.1 hb
    obtain ⟨i, i1, i2⟩ := mem_sel.1 hp
    obtain ⟨j, j1, j2⟩ := mem_sel.1 hr
    exact ⟨i, j, p, r, i1, j1, i2, j2, h1, h2, h3⟩
  · rintro ⟨i, j, p, r, i1, j1, i2, j2, h1, h2, h3⟩
    exact ⟨_, List.mem_map_of_mem (mem_sel.2 ⟨i, i1, i2⟩), _, List.mem_map_of_mem (mem_sel.2 ⟨j, j1, j2⟩), h1, h2, h3⟩

/-- where the beginning of inflation is known, so is `aH` there -/
theorem start_known {Q : EqView} {y : ℝ → ℕ → ℝ} {x0 x1 : ℝ} {raw : RawSol} (hf : Faithful Q y x0 x1 raw) (hH : ∀ x ∈ Icc x0 x1, 0 < Q.H2 x (y x)) {b : ℝ}
    (hb : (postStart Q raw).N_beg = some b) : ∃ l, (postStart Q raw).logaH_beg = some l := by
  have h01 : x0 ∈ Icc x0 x1 := by
    have := (hf.grid raw.first (by simp [RawSol.grid])).1
    rwa [hf.start] at this
  have key : ∀ x ∈ Icc x0 x1, ∃ l, ((some (Q.N x (y x))).bind fun n => (Q.Hnan (x, y x)).bind fun h => (nanLog h).map (n + ·)) = some l := fun x hx => by
    have hH := hH x hx
    refine ⟨Q.N x (y x) + log √(Q.H2 x (y x)), ?_⟩
    simp only [EqView.Hnan, nanSqrt, if_pos hH.le, Option.bind_some, nanLog, if_pos (sqrt_pos.2 hH), Option.map_some]
  unfold postStart at hb ⊢
  by_cases h1 : (firstEvent raw.events "Collapse").isSome = true
  · rw [if_pos h1] at hb; cases hb
  · rw [if_neg h1] at hb ⊢
    by_cases h2 : 0 ≤ Q.inflating raw.first.1 raw.first.2 ∨ Q.w raw.first.1 raw.first.2 ≤ -1 / 3
    · rw [if_pos h2]
      dsimp only
      rw [hf.start]
      exact key x0 h01
    · rw [if_neg h2] at hb ⊢
      cases he : firstEvent raw.events "Inflation_dir1_term0" with
      | none => rw [he] at hb; cases hb
      | some p =>
        dsimp only
        obtain ⟨l, hl, hp⟩ : ∃ l, raw.events.get? "Inflation_dir1_term0" = some l ∧ p ∈ l := by
          unfold firstEvent at he
          cases hg : raw.events.get? "Inflation_dir1_term0" with
          | none => rw [hg] at he; simp at he
          | some l =>
            rw [hg] at he
            exact ⟨l, rfl, List.mem_of_mem_head? (by simpa using he)⟩
        have hp2 := hf.events _ l hl p hp
        have hp1 := (hf.begins l hl).sound p.1 (List.mem_map_of_mem hp)
        have : p = (p.1, y p.1) := Prod.ext rfl hp2
        rw [this]
        exact key p.1 ⟨hp1.after.le, hp1.before⟩

/-- where the end of inflation is known, so are the potential, `H` and `aH` there -/
theorem end_known {Q : EqView} {y : ℝ → ℕ → ℝ} {x0 x1 : ℝ} {raw : RawSol} (V : ℝ → ℝ) (hf : Faithful Q y x0 x1 raw) (hH : ∀ x ∈ Icc x0 x1, 0 < Q.H2 x (y x)) {e : ℝ}
    (he : (postEnd Q V raw).N_end = some e) :
    (∃ h, (postEnd Q V raw).H_end = some h) ∧ (∃ l, (postEnd Q V raw).logaH_end = some l) ∧ ∃ v, (postEnd Q V raw).V_end = some v := by
  unfold postEnd at he ⊢
  cases hev : endEvent raw.events with
  | none => rw [hev] at he; cases he
  | some p =>
    dsimp only
    obtain ⟨key, hk, l, hl, hp⟩ : ∃ key ∈ ["Inflation_dir-1_term1", "Inflation_dir-1_term0"], ∃ l, raw.events.get? key = some l ∧ p ∈ l := by
      have ft : ∀ key, firstEvent raw.events key = some p → ∃ l, raw.events.get? key = some l ∧ p ∈ l := fun key h => by
        unfold firstEvent at h
        cases hg : raw.events.get? key with
        | none => rw [hg] at h; simp at h
        | some l =>
          rw [hg] at h
          exact ⟨l, rfl, List.mem_of_mem_head? (by simpa using h)⟩
      unfold endEvent at hev
      cases h1 : firstEvent raw.events "Inflation_dir-1_term1" with
      | some q =>
        rw [h1] at hev
        dsimp only at hev
        rw [hev] at h1
        exact ⟨_, by simp, ft _ h1⟩
      | none =>
        rw [h1] at hev
        dsimp only at hev
        exact ⟨_, by simp, ft _ hev⟩
    have hp2 := hf.events _ l hl p hp
    have hp1 := (hf.ends key hk l hl).sound p.1 (List.mem_map_of_mem hp)
    have hH := hH p.1 ⟨hp1.after.le, hp1.before⟩
    rw [← hp2] at hH
    simp only [EqView.Hnan, nanSqrt, if_pos hH.le, Option.bind_some, nanLog, if_pos (sqrt_pos.2 hH), Option.map_some]
    exact ⟨⟨_, rfl⟩, ⟨_, rfl⟩, ⟨_, rfl⟩⟩

/-- everything the calibration reads exists -/
theorem state {ivp : SolveIvp} {fmtE : ℝ → String} {E : Eqs} {D S : Set ℝ} {ic : ICCall} {kw : SolveKw} {t : List ℝ} {Y : ℝ → ℕ → ℝ} {x0 x1 : ℝ} (h : Solved ivp E D S ic kw t Y x0 x1)
    {o : Dict Attr} {s : InflSol} (hs : solve ivp fmtE E ic [] kw = .ok (o, s)) {m : List Bool} (hm : s.inflation_mask = some m) :
    ∃ sr cs I xb xe, slowRoll E o s = some sr ∧ Shooting.calState E.K s = some cs ∧ cs.K = E.K ∧ cs.N = t.map (E.efolds Y) ∧ cs.logaH = t.map (fun x => log (E.aH Y x)) ∧
      cs.infl = some I ∧ ReportedPhase E Y x0 x1 s xb xe ∧ I.N_beg = E.efolds Y xb ∧ I.N_end = E.efolds Y xe ∧ I.N_tot = E.efolds Y xe - E.efolds Y xb ∧
      I.mask.length = t.length ∧ ∀ (i : ℕ) z, t[i]? = some z → (I.mask[i]? = some true ↔ z ∈ Ioo xb xe) := by
  obtain ⟨c, y0, q, res, y, te, ye, hic, hq, hivp, sh, hres, hI, hp⟩ := h.run
  obtain ⟨o', s', hs', sN, sL, hsr, ⟨sH, -⟩, hph⟩ := C94.arrays ivp fmtE hic hq hivp sh hres h.isOpen h.convex h.solution h.dV h.start h.inside h.density hI hp h.clean
  rw [hs] at hs'
  obtain ⟨rfl, rfl⟩ := Prod.mk.inj (Except.ok.inj hs')
  obtain ⟨xb, xe, h0b, hbe, he1, hNb, hNe, ⟨hpos, hneg, hbd, hz⟩, hlen, hsel⟩ := hph m hm
  have hE := C91.shipped h.solution
  obtain ⟨o2, raw, hs2, hg, hev, -⟩ := C90_solve ivp fmtE E hE ic kw c y0 q hic hq hivp sh
  rw [hs] at hs2
  obtain ⟨-, hraw⟩ := Prod.mk.inj (Except.ok.inj hs2)
  have hQ : ∀ x, (C90.view E).inflating x (C90.trunc E.idx.length Y x) = (C90.view E).inflating x (Y x) := fun x => C91.inflating_congr hE C91.trunc_lt x
  have hQH : ∀ x, (C90.view E).H2 x (C90.trunc E.idx.length Y x) = (C90.view E).H2 x (Y x) := fun x => C92.H2_congr hE C91.trunc_lt x
  have hf := C90.faithful (raw := raw) (fmtE := fmtE) (C90.Integrated.trunc hI hp hQ) (fun x i hi => by rw [C90.trunc, if_neg (by omega)]) sh hg hev hp
  have hH : ∀ x ∈ Icc x0 x1, 0 < (C90.view E).H2 x (C90.trunc E.idx.length Y x) := fun x hx => by
    rw [hQH]; exact C92.H2_pos h.solution x (h.inside hx)
  have hst : s.start = postStart (C90.view E) raw := by rw [hraw]; rfl
  have hen : s.fin = postEnd (C90.view E) E.pot.V raw := by rw [hraw]; rfl
  have hNt : s.N_tot = some (E.efolds Y xe - E.efolds Y xb) := by
    have : s.N_tot = s.fin.N_end.bind fun e => s.start.N_beg.map (e - ·) := by rw [hraw]; rfl
    rw [this, hNb, hNe]; rfl
  obtain ⟨lb, hlb⟩ := start_known hf hH (hst ▸ hNb)
  obtain ⟨⟨he, hhe⟩, ⟨le, hle⟩, ⟨v, hv⟩⟩ := end_known E.pot.V hf hH (hen ▸ hNe)
  rw [← hst] at hlb
  rw [← hen] at hhe hle hv
  refine ⟨_, ⟨E.K, s.N, t.map (fun x => log (E.aH Y x)), t.map (E.hubble Y), some ⟨E.efolds Y xb, E.efolds Y xe, E.efolds Y xe - E.efolds Y xb, v, he, lb, le, m⟩,
    ⟨none, none, none, none, none, none⟩, none⟩, _, xb, xe, hsr, ?_, rfl, sN, rfl, rfl, ⟨⟨h0b, hbe, he1⟩, hNb, hNe, hpos, hneg, hbd, hz⟩, rfl, rfl, rfl, hlen, hsel⟩
  unfold Shooting.calState
  rw [sL, sH, C92.mapM_some, C92.mapM_some, hNb, hNe, hNt, hlb, hhe, hle, hv, hm]
  rfl

/-- the spectra are derived whenever the calibration succeeds -/
theorem derived {κ : Type} {u : SI} {spline : κ → List (ℝ × ℝ) → ℝ → ℝ} {sr : SlowRoll} {P : PSol} {a : CalArgs} (hb : a.background = none) {m : String} {kws : κ} {n : ℕ}
    (hm : KnownMethod m n) : (∃ Q, calibrateP u spline sr P a m kws n = .ok Q) ↔ ∃ c, Cal.calibrate u P.st a = .ok c := by
  constructor
  · rintro ⟨Q, hQ⟩
    exact ⟨_, C94.calibrateP_ok hb hQ⟩
  · rintro ⟨c, hc⟩
    obtain ⟨g, hg⟩ := gridOf_calibrate u sr hc
    obtain ⟨S, hS⟩ : ∃ S, named spline m n kws g = some S := by
      rcases hm with ⟨rfl, hn⟩ | rfl | rfl | ⟨rfl, hn⟩
      · exact ⟨specCGS spline kws n g, by simp [named, hn]⟩
      · exact ⟨specLLMS spline kws g, by simp [named]⟩
      · exact ⟨specSTE spline kws g, by simp [named]⟩
      · exact ⟨specARBDS spline kws n g, by simp [named, hn]⟩
    unfold calibrateP
    rw [hc]
    simp only [hb, Option.isSome_none, Bool.false_eq_true, if_false, deriveP, hg, derive_current spline m n kws g P.caches hS]
    exact ⟨_, rfl⟩

theorem derived_error {κ : Type} {u : SI} {spline : κ → List (ℝ × ℝ) → ℝ → ℝ} {sr : SlowRoll} {P : PSol} {a : CalArgs} {m : String} {kws : κ} {n : ℕ} {e : PyErr}
    (h : Cal.calibrate u P.st a = .error e) : calibrateP u spline sr P a m kws n = .error e := by
  unfold calibrateP
  rw [h]

theorem interp_error {l : List (ℝ × ℝ)} {x : ℝ} {e : PyErr} (h : interpSorted l x = .error e) : ∃ msg, e = .valueError msg := by
  induction l with
  | nil => rw [interpSorted] at h; · exact ⟨_, (Except.error.inj h).symm⟩
           · intro p q l h; cases h
  | cons p l ih =>
    cases l with
    | nil => rw [interpSorted] at h; · exact ⟨_, (Except.error.inj h).symm⟩
             · intro p q l h; cases h
    | cons q l =>
      rw [interpSorted] at h
      by_cases h1 : x < p.1
      · rw [if_pos h1] at h; exact ⟨_, (Except.error.inj h).symm⟩
      · rw [if_neg h1] at h
        by_cases h2 : x ≤ q.1
        · rw [if_pos h2] at h; cases h
        · rw [if_neg h2] at h; exact ih h

/-- what the method `N_star` does, in the four cases -/
theorem flat_cases (u : SI) {cs : CalState} {I : Infl} (hK : cs.K = 0) (hI : cs.infl = some I) (n g : ℝ) (rho : Option ℝ) :
    (n ≤ 0 → ∃ msg, Cal.calibrate u cs { method := "N_star", N_star := some n, g_th := g, rho_reh_GeV := rho } = .error (.valueError msg)) ∧
    (0 < n → I.N_tot < n → ∃ msg, Cal.calibrate u cs { method := "N_star", N_star := some n, g_th := g, rho_reh_GeV := rho } = .error (.insufficientInflation msg)) ∧
    (0 < n → n ≤ I.N_tot → ∀ e, interpL (maskSel cs.N I.mask) (maskSel cs.logaH I.mask) (I.N_end - n) = .error e →
      Cal.calibrate u cs { method := "N_star", N_star := some n, g_th := g, rho_reh_GeV := rho } = .error e) ∧
    (0 < n → n ≤ I.N_tot → ∀ y, interpL (maskSel cs.N I.mask) (maskSel cs.logaH I.mask) (I.N_end - n) = .ok y →
      ∃ c, Cal.calibrate u cs { method := "N_star", N_star := some n, g_th := g, rho_reh_GeV := rho } = .ok c) := by
  have err : ∀ {a : CalArgs} {e : PyErr}, a.Omega_K0 = none → Cal.flatSel u cs a = .error e → Cal.calibrate u cs a = .error e := fun {a e} hΩ he => by
    unfold Cal.calibrate
    rw [if_pos hK]
    unfold Cal.flat
    rw [if_neg (by rw [hΩ]; rintro ⟨_, h, -⟩; cases h), he]
  refine ⟨fun hn => ⟨"N_star>0 must be given", err rfl ?_⟩, fun hn ht => ⟨"N_tot < N_star", err rfl ?_⟩, fun hn ht e he => err rfl ?_, fun hn ht y hy => ?_⟩
  · unfold Cal.flatSel
    dsimp only
    rw [if_pos rfl]
    unfold Cal.flatNstar
    dsimp only
    rw [if_pos hn]
  · unfold Cal.flatSel
    dsimp only
    rw [if_pos rfl]
    unfold Cal.flatNstar
    dsimp only
    rw [if_neg (not_le.2 hn), hI]
    dsimp only
    rw [if_pos ht]
  · unfold Cal.flatSel
    dsimp only
    rw [if_pos rfl]
    unfold Cal.flatNstar
    dsimp only
    rw [if_neg (not_le.2 hn), hI]
    dsimp only
    rw [if_neg (not_lt.2 ht), he]
  · have hsel : ∃ nc δ nr J st, Cal.flatSel u cs { method := "N_star", N_star := some n, g_th := g, rho_reh_GeV := rho } = .ok (n, nc, y, δ, nr, J, st) := by
      unfold Cal.flatSel
      dsimp only
      rw [if_pos rfl]
      unfold Cal.flatNstar
      dsimp only
      rw [if_neg (not_le.2 hn), hI]
      dsimp only
      rw [if_neg (not_lt.2 ht), hy]
      dsimp only
      cases rho with
      | none => exact ⟨_, _, _, _, _, rfl⟩
      | some r => exact ⟨_, _, _, _, _, rfl⟩
    obtain ⟨nc, δ, nr, J, st, hsel⟩ := hsel
    exact ⟨_, Cal.calibrate_flat_intro hK rfl hsel⟩

/-- the method `Omega_K0` of the curved calibration, up to the pivot crossing -/
theorem curved_cases (u : SI) {cs : CalState} {I : Infl} (hK : cs.K = 1 ∨ cs.K = -1) (hI : cs.infl = some I) (Ω h g : ℝ) (rho : Option ℝ) {a0 : ℝ}
    (ha : a0 = u.c / (h * 100 * 1000) * √(-cs.K / Ω)) {lk : List ℝ} {M : List Bool} (hM : M = andMask I.mask (firstOccurrence (cs.logaH.map fun l => l - log a0)))
    (hlk : lk = maskSel (cs.logaH.map fun l => l - log a0) M) :
    (∃ c, Cal.calibrate u cs { method := "Omega_K0", Omega_K0 := some Ω, h := some h, g_th := g, rho_reh_GeV := rho } = .ok c) ↔
      0 < h ∧ Ω * cs.K < 0 ∧ (∃ x ∈ lk, x ≤ log SI.K_STAR) ∧ (∃ x ∈ lk, log SI.K_STAR ≤ x) ∧ ∃ y, interpL lk (maskSel cs.N M) (log SI.K_STAR) = .ok y := by
  have hK0 : cs.K ≠ 0 := by rcases hK with h | h <;> rw [h] <;> norm_num
  obtain ⟨a, had⟩ : ∃ a : CalArgs, a = { method := "Omega_K0", Omega_K0 := some Ω, h := some h, g_th := g, rho_reh_GeV := rho } := ⟨_, rfl⟩
  have aΩ : a.Omega_K0 = some Ω := by rw [had]
  have aN : a.N_star = none := by rw [had]
  have ah : a.h = some h := by rw [had]
  have am : a.method = "Omega_K0" := by rw [had]
  rw [← had]
  have hcal : (∃ c, Cal.calibrate u cs a = .ok c) ↔ ∃ p, Cal.curved u cs a = .ok p := by
    unfold Cal.calibrate
    rw [if_neg hK0]
    cases Cal.curved u cs a with
    | error e => exact ⟨fun ⟨c, hc⟩ => (by cases hc), fun ⟨c, hc⟩ => (by cases hc)⟩
    | ok p => exact ⟨fun _ => ⟨p, rfl⟩, fun _ => ⟨_, rfl⟩⟩
  rw [hcal]
  have sgn : Ω ≠ 0 → ((SignType.sign Ω : ℝ) = -cs.K ↔ Ω * cs.K < 0) := fun h0 => by
    rcases lt_or_gt_of_ne h0 with hn | hp
    · rw [sign_neg hn, SignType.coe_neg_one]
      rcases hK with h | h <;> rw [h]
      · exact ⟨fun _ => by linarith, fun _ => rfl⟩
      · exact ⟨fun h => by norm_num at h, fun h => by linarith⟩
    · rw [sign_pos hp, SignType.coe_one]
      rcases hK with h | h <;> rw [h]
      · exact ⟨fun h => by norm_num at h, fun h => by linarith⟩
      · exact ⟨fun _ => by linarith, fun _ => by norm_num⟩
  have osel : ∀ h0 : Ω ≠ 0, Ω * cs.K < 0 → ∃ A N r st, Cal.curvedOmega u cs a h = .ok (Ω, a0, A, N, r, st) := fun h0 hs => by
    unfold Cal.curvedOmega
    rw [aΩ]
    dsimp only
    rw [if_neg h0, if_neg (not_not.2 ((sgn h0).2 hs)), ← ha]
    cases a.rho_reh_GeV with
    | none => exact ⟨_, _, _, _, rfl⟩
    | some r => exact ⟨_, _, _, _, rfl⟩
  have obad : ¬ Ω * cs.K < 0 → ∃ e, Cal.curvedOmega u cs a h = .error e := fun hs => by
    unfold Cal.curvedOmega
    rw [aΩ]
    dsimp only
    by_cases h0 : Ω = 0
    · rw [if_pos h0]; exact ⟨_, rfl⟩
    · rw [if_neg h0, if_pos fun hc => hs ((sgn h0).1 hc)]; exact ⟨_, rfl⟩
  unfold Cal.curved
  rw [aN, ah]
  dsimp only
  rw [if_neg (by simp)]
  by_cases hh : h ≤ 0
  · rw [if_pos hh]
    exact ⟨fun ⟨c, hc⟩ => (by cases hc), fun hc => absurd hh (not_le.2 hc.1)⟩
  rw [if_neg hh]
  have hh := not_le.1 hh
  have esel : Cal.curvedSel u cs a h = Cal.curvedOmega u cs a h := by
    unfold Cal.curvedSel
    rw [if_pos am]
  rw [esel]
  by_cases hs : Ω * cs.K < 0
  swap
  · obtain ⟨e, he⟩ := obad hs
    rw [he]
    exact ⟨fun ⟨c, hc⟩ => (by cases hc), fun hc => absurd hc.2.1 hs⟩
  have h0 : Ω ≠ 0 := by rintro rfl; simp at hs
  obtain ⟨A, N, r, st, he⟩ := osel h0 hs
  rw [he]
  dsimp only
  rw [hI]
  dsimp only
  rw [← hM, ← hlk]
  by_cases hnil : lk = []
  · rw [if_pos hnil]
    refine ⟨fun ⟨c, hc⟩ => (by cases hc), fun hc => ?_⟩
    obtain ⟨x, hx, -⟩ := hc.2.2.1
    rw [hnil] at hx; simp at hx
  rw [if_neg hnil]
  by_cases hout : (∀ x ∈ lk, log SI.K_STAR < x) ∨ ∀ x ∈ lk, x < log SI.K_STAR
  · rw [if_pos hout]
    refine ⟨fun ⟨c, hc⟩ => (by cases hc), fun ⟨_, _, ⟨x, hx, h1⟩, ⟨z, hz, h2⟩, _⟩ => ?_⟩
    rcases hout with ho | ho
    · exact absurd (ho x hx) (not_lt.2 h1)
    · exact absurd (ho z hz) (not_lt.2 h2)
  rw [if_neg hout]
  push Not at hout
  cases hi : interpL lk (maskSel cs.N M) (log SI.K_STAR) with
  | error e => exact ⟨fun ⟨c, hc⟩ => (by cases hc), fun ⟨_, _, _, _, y, hy⟩ => (by cases hy)⟩
  | ok y => exact ⟨fun _ => ⟨hh, hs, hout.1, hout.2, y, rfl⟩, fun _ => ⟨_, rfl⟩⟩

/-- the selected grid points after removing repeated values of `aH` -/
theorem mask_fresh {E : Eqs} {Y : ℝ → ℕ → ℝ} {t : List ℝ} {M : List Bool} (hlen : M.length = t.length) (hp : ∀ x ∈ t, 0 < E.aH Y x) {xb xe : ℝ}
    (hsel : ∀ (i : ℕ) z, t[i]? = some z → (M[i]? = some true ↔ z ∈ Ioo xb xe)) (d : ℝ) (i : ℕ) (x : ℝ) (hx : t[i]? = some x) :
    (andMask M (firstOccurrence ((t.map fun x => log (E.aH Y x)).map fun l => l - d)))[i]? = some true ↔ FreshPoint E Y t xb xe i x := by
  have hi : i < t.length := (List.getElem?_eq_some_iff.1 hx).1
  obtain ⟨c, hc⟩ : ∃ c, M[i]? = some c := ⟨_, List.getElem?_eq_getElem (by omega)⟩
  have hs := hsel i x hx
  rw [hc] at hs
  simp only [andMask, firstOccurrence, List.getElem?_zipWith, List.getElem?_map, List.length_map, List.getElem?_range hi, hc, hx, Option.map_some]
  simp only [Option.some.injEq, Bool.and_eq_true, decide_eq_true_eq]
  rw [Option.some.injEq] at hs
  rw [hs]
  constructor
  · rintro ⟨h1, h2⟩
    refine ⟨hx, h1, fun l v hl hv he => ?_⟩
    have := h2 l hl
    rw [hv] at this
    simp only [Option.map_some, ne_eq, Option.some.injEq] at this
    exact this (by rw [he])
  · rintro ⟨-, h1, h2⟩
    refine ⟨h1, fun l hl he => ?_⟩
    obtain ⟨v, hv⟩ : ∃ v, t[l]? = some v := ⟨_, List.getElem?_eq_getElem (by omega)⟩
    rw [hv] at he
    simp only [Option.map_some, Option.some.injEq] at he
    have he : log (E.aH Y v) = log (E.aH Y x) := by linarith
    exact h2 l v hl hv (by rw [← exp_log (hp v (List.mem_of_getElem? hv)), he, exp_log (hp x (List.mem_of_getElem? hx))])

/-- `aH` does not decrease while the expansion accelerates -/
theorem aH_mono {E : Eqs} {D S : Set ℝ} {Y : ℝ → ℕ → ℝ} (hS : IsOpen S) (hT : E.Trajectory D S Y) (hV : IsDerivOn D E.pot.V E.pot.dV) {a b : ℝ}
    (hsub : Icc a b ⊆ S) (hacc : ∀ x ∈ Icc a b, 0 ≤ E.accel Y x) : MonotoneOn (E.aH Y) (Icc a b) := by
  obtain ⟨d, hd, hpos⟩ : ∃ d : ℝ → ℝ, IsDerivOn S (E.aH Y) d ∧ ∀ x ∈ S, 0 ≤ E.accel Y x → 0 ≤ d x := by
    cases E with
    | other K p => exact absurd hT (by simp [Eqs.Trajectory])
    | T e =>
      obtain ⟨sol, hH, hφ⟩ := hT
      have u := InflT.universe sol hH
      obtain ⟨adot, h1, h2⟩ := C17_acceleration_T hS sol hH hV hφ
      refine ⟨fun t => exp (InflT._N (Y t)) * e.inflating (Y t) / 3, fun x hx => ?_, fun x hx h => ?_⟩
      · refine (h2 x hx).congr_of_eventuallyEq ?_
        filter_upwards [hS.mem_nhds hx] with z hz
        exact ((h1 z hz).unique (u.hubble z hz).exp).symm
      · have h : 0 ≤ e.inflating (Y x) := h
        exact div_nonneg (mul_nonneg (exp_pos (InflT._N (Y x))).le h) three_pos.le
    | N e =>
      obtain ⟨sol, hH, hφ⟩ := hT
      refine ⟨_, C17_acceleration_N hS sol hH hV hφ, fun x hx h => ?_⟩
      have h : 0 ≤ e.inflating x (Y x) := h
      have hp : 0 < e.H x (Y x) := sqrt_pos.mpr (hH x hx)
      positivity
  refine monotoneOn_of_deriv_nonneg (convex_Icc _ _) (fun x hx => (hd x (hsub hx)).continuousAt.continuousWithinAt)
    (fun x hx => (hd x (hsub (interior_subset hx))).differentiableAt.differentiableWithinAt) fun x hx => ?_
  have hx := interior_subset hx
  rw [(hd x (hsub hx)).deriv]
  exact hpos x (hsub hx) (hacc x hx)

end C99

section
variable {ivp : SolveIvp} {fmtE : ℝ → String} {E : Eqs} {D S : Set ℝ} {ic : ICCall} {kw : SolveKw} {t : List ℝ} {Y : ℝ → ℕ → ℝ} {x0 x1 : ℝ} (h : Solved ivp E D S ic kw t Y x0 x1)
  {o : Dict Attr} {s : InflSol} (hs : solve ivp fmtE E ic [] kw = .ok (o, s)) {m : List Bool} (hm : s.inflation_mask = some m)
include h hs hm

/-- **C99, flat universes**: for the object that `solve` returns once it has found inflation, `calibrate_scale_factor(N_star=n)` and the spectra derived from it succeed exactly
if `n > 0` and two grid points of the phase bracket `n` e-folds before its end; asked for more e-folds than there are, it raises `InsufficientInflationError`, and a
`ValueError` otherwise. -/
theorem C99_flat (hK : E.K = 0) : ∃ sr cs xb xe, slowRoll E o s = some sr ∧ Shooting.calState E.K s = some cs ∧ ReportedPhase E Y x0 x1 s xb xe ∧
    ∀ {κ : Type} (u : SI) (spline : κ → List (ℝ × ℝ) → ℝ → ℝ) (P : PSol) (kws : κ) (method : String) (order : ℕ) (n g : ℝ) (rho : Option ℝ), P.st = cs → KnownMethod method order →
      ((∃ Q, calibrateP u spline sr P { method := "N_star", N_star := some n, g_th := g, rho_reh_GeV := rho } method kws order = .ok Q) ↔
        0 < n ∧ Bracketed t (Ioo xb xe) (E.efolds Y) (E.efolds Y xe - n)) ∧
      (0 < n → E.efolds Y xe - E.efolds Y xb < n → ∃ msg,
        calibrateP u spline sr P { method := "N_star", N_star := some n, g_th := g, rho_reh_GeV := rho } method kws order = .error (.insufficientInflation msg)) ∧
      (¬ (0 < n ∧ E.efolds Y xe - E.efolds Y xb < n) → ∀ err,
        calibrateP u spline sr P { method := "N_star", N_star := some n, g_th := g, rho_reh_GeV := rho } method kws order = .error err → ∃ msg, err = .valueError msg) := by
  obtain ⟨sr, cs, I, xb, xe, hsr, hcs, eK, eN, eL, eI, hph, -, iE, iT, hlen, hsel⟩ := C99.state h hs hm
  refine ⟨sr, cs, xb, xe, hsr, hcs, hph, fun {κ} u spline P kws method order n g rho hP hk => ?_⟩
  obtain ⟨c1, c2, c3, c4⟩ := C99.flat_cases u (eK.trans hK) eI n g rho
  rw [C99.derived rfl hk, hP]
  have hx : x0 ≤ xb ∧ xb < xe ∧ xe ≤ x1 := hph.ordered
  have hphS : Icc xb xe ⊆ S := fun x hx' => h.inside ⟨hx.1.trans hx'.1, hx'.2.trans hx.2.2⟩
  have mN : StrictMonoOn (E.efolds Y) S := (C92.facts h.isOpen h.convex h.solution h.dV).1
  have inP : ∀ w ∈ maskSel t I.mask, w ∈ Ioo xb xe := fun w hw => by
    obtain ⟨k, h1, h2⟩ := C99.mem_sel.1 hw
    exact (hsel k w h1).1 h2
  have sub : ∀ w ∈ Ioo xb xe, w ∈ S := fun w hw => hphS ⟨hw.1.le, hw.2.le⟩
  have hl : (maskSel t I.mask).Pairwise fun a b => E.efolds Y a < E.efolds Y b :=
    (h.sorted.sublist (C92.maskSel_sublist t I.mask)).imp_of_mem fun {a b} ha hb hab => mN (sub a (inP a ha)) (sub b (inP b hb)) hab
  have key : (∃ y, interpL (maskSel cs.N I.mask) (maskSel cs.logaH I.mask) (I.N_end - n) = .ok y) ↔ Bracketed t (Ioo xb xe) (E.efolds Y) (E.efolds Y xe - n) := by
    rw [eN, eL, iE, C99.interpL_iff hl]
    constructor
    · rintro ⟨i, j, p, r, hi, hj, mi, mj, h1, h2, h3⟩
      have pi := (hsel i p hi).1 mi
      have pj := (hsel j r hj).1 mj
      exact ⟨p, List.mem_of_getElem? hi, r, List.mem_of_getElem? hj, pi, pj, (mN.lt_iff_lt (sub p pi) (sub r pj)).1 h1, h2, h3⟩
    · rintro ⟨p, hp, r, hr, pi, pj, hpr, h2, h3⟩
      obtain ⟨i, hi⟩ := List.mem_iff_getElem?.1 hp
      obtain ⟨j, hj⟩ := List.mem_iff_getElem?.1 hr
      exact ⟨i, j, p, r, hi, hj, (hsel i p hi).2 pi, (hsel j r hj).2 pj, mN (sub p pi) (sub r pj) hpr, h2, h3⟩
  have tot : Bracketed t (Ioo xb xe) (E.efolds Y) (E.efolds Y xe - n) → n ≤ I.N_tot := by
    rintro ⟨p, hp, r, hr, pi, pj, hpr, h2, h3⟩
    have := mN (hphS ⟨le_rfl, hx.2.1.le⟩) (sub p pi) pi.1
    rw [iT]; linarith
  refine ⟨⟨fun ⟨c, hc⟩ => ?_, fun ⟨hn, hB⟩ => ?_⟩, fun hn ht => ?_, fun hne err herr => ?_⟩
  · by_cases hn : n ≤ 0
    · obtain ⟨msg, he⟩ := c1 hn
      rw [he] at hc; cases hc
    · have hn := not_le.1 hn
      refine ⟨hn, ?_⟩
      by_cases ht : I.N_tot < n
      · obtain ⟨msg, he⟩ := c2 hn ht
        rw [he] at hc; cases hc
      · rw [← key]
        cases hi : interpL (maskSel cs.N I.mask) (maskSel cs.logaH I.mask) (I.N_end - n) with
        | ok y => exact ⟨y, rfl⟩
        | error e => rw [c3 hn (not_lt.1 ht) e hi] at hc; cases hc
  · obtain ⟨y, hy⟩ := key.2 hB
    exact c4 hn (tot hB) y hy
  · obtain ⟨msg, he⟩ := c2 hn (by rw [iT]; exact ht)
    exact ⟨msg, C99.derived_error (by rw [hP]; exact he)⟩
  · by_cases hn : n ≤ 0
    · obtain ⟨msg, he⟩ := c1 hn
      rw [C99.derived_error (by rw [hP]; exact he)] at herr
      exact ⟨msg, (Except.error.inj herr).symm⟩
    · have hn := not_le.1 hn
      have ht : n ≤ I.N_tot := by
        rw [iT]; by_contra hc; exact hne ⟨hn, not_le.1 hc⟩
      cases hi : interpL (maskSel cs.N I.mask) (maskSel cs.logaH I.mask) (I.N_end - n) with
      | ok y =>
        obtain ⟨Q, hQ⟩ := (C99.derived (u := u) (spline := spline) (sr := sr) (P := P) rfl hk (kws := kws)).2 (by rw [hP]; exact c4 hn ht y hi)
        rw [hQ] at herr; cases herr
      | error e =>
        rw [C99.derived_error (by rw [hP]; exact c3 hn ht e hi)] at herr
        obtain ⟨msg, he⟩ := C99.interp_error hi
        exact ⟨msg, (Except.error.inj herr).symm.trans he⟩

/-- **C99, curved universes**: `calibrate_scale_factor(Omega_K0=Ω, h=h)` and the spectra derived from it succeed exactly if `h > 0`, `Ω` has the sign opposite to the curvature, and two
grid points of the phase (with new values of `aH`) bracket the pivot scale: `aH = K_STAR a0`, with today's scale factor `a0 = c/(100 h) √(-K/Ω)` in megaparsecs. -/
theorem C99_curved (hK : E.K ≠ 0) : ∃ sr cs xb xe, slowRoll E o s = some sr ∧ Shooting.calState E.K s = some cs ∧ ReportedPhase E Y x0 x1 s xb xe ∧
    ∀ {κ : Type} (u : SI) (spline : κ → List (ℝ × ℝ) → ℝ → ℝ) (P : PSol) (kws : κ) (method : String) (order : ℕ) (Ω hh g : ℝ) (rho : Option ℝ), P.st = cs → KnownMethod method order →
      ((∃ Q, calibrateP u spline sr P { method := "Omega_K0", Omega_K0 := some Ω, h := some hh, g_th := g, rho_reh_GeV := rho } method kws order = .ok Q) ↔
        0 < hh ∧ Ω * E.K < 0 ∧ FreshlyBracketed E Y t xb xe (SI.K_STAR * (u.c / 1000 / (100 * hh) * √(-E.K / Ω)))) := by
  obtain ⟨sr, cs, I, xb, xe, hsr, hcs, eK, eN, eL, eI, hph, -, iE, iT, hlen, hsel⟩ := C99.state h hs hm
  refine ⟨sr, cs, xb, xe, hsr, hcs, hph, fun {κ} u spline P kws method order Ω hh g rho hP hk => ?_⟩
  have hK1 : cs.K = 1 ∨ cs.K = -1 := by rw [eK]; exact h.curvature.resolve_left hK
  obtain ⟨a0, ha⟩ : ∃ a0, a0 = u.c / (hh * 100 * 1000) * √(-cs.K / Ω) := ⟨_, rfl⟩
  obtain ⟨M, hM⟩ : ∃ M, M = andMask I.mask (firstOccurrence (cs.logaH.map fun l => l - log a0)) := ⟨_, rfl⟩
  obtain ⟨lk, hlk⟩ : ∃ lk, lk = maskSel (cs.logaH.map fun l => l - log a0) M := ⟨_, rfl⟩
  rw [C99.derived rfl hk, hP, C99.curved_cases u hK1 eI Ω hh g rho ha hM hlk, eK]
  have ea : u.c / 1000 / (100 * hh) * √(-E.K / Ω) = a0 := by
    rw [ha, eK]; congr 1
    rw [div_div]; congr 1; ring
  rw [ea]
  have hx : x0 ≤ xb ∧ xb < xe ∧ xe ≤ x1 := hph.ordered
  have hphS : Icc xb xe ⊆ S := fun x hx' => h.inside ⟨hx.1.trans hx'.1, hx'.2.trans hx.2.2⟩
  have tS : ∀ x ∈ t, x ∈ S := fun x hx => by
    obtain ⟨_, _, _, _, _, _, _, _, _, _, _, _, hI, _⟩ := h.run
    exact h.inside (hI.inside x hx)
  have pos : ∀ x ∈ t, 0 < E.aH Y x := fun x hx => C92.aH_pos h.solution (tS x hx)
  have mono := C99.aH_mono h.isOpen h.solution h.dV hphS hph.accelerates
  have fr : ∀ (i : ℕ) x, t[i]? = some x → (M[i]? = some true ↔ FreshPoint E Y t xb xe i x) := fun i x hx => by
    rw [hM, eL]; exact C99.mask_fresh hlen pos hsel _ i x hx
  have lt_idx : ∀ {a b : ℕ} {v w : ℝ}, t[a]? = some v → t[b]? = some w → v < w → a < b := fun {a b v w} hv hw hvw => by
    obtain ⟨h1, rfl⟩ := List.getElem?_eq_some_iff.1 hv
    obtain ⟨h2, rfl⟩ := List.getElem?_eq_some_iff.1 hw
    by_contra hc
    rcases (not_lt.1 hc).eq_or_lt with e | e
    · subst e; exact lt_irrefl _ hvw
    · exact lt_asymm hvw (List.pairwise_iff_getElem.1 h.sorted _ _ h2 h1 e)
  have strict : ∀ {i j : ℕ} {p r : ℝ}, FreshPoint E Y t xb xe i p → FreshPoint E Y t xb xe j r → p < r → E.aH Y p < E.aH Y r := fun {i j p r} fp frr hpr =>
    (mono ⟨fp.2.1.1.le, fp.2.1.2.le⟩ ⟨frr.2.1.1.le, frr.2.1.2.le⟩ hpr.le).lt_of_ne (frr.2.2 i p (lt_idx fp.1 frr.1 hpr) fp.1)
  have hl : (maskSel t M).Pairwise fun a b => log (E.aH Y a) - log a0 < log (E.aH Y b) - log a0 :=
    (h.sorted.sublist (C92.maskSel_sublist t M)).imp_of_mem fun {a b} ha hb hab => by
      obtain ⟨i, i1, i2⟩ := C99.mem_sel.1 ha
      obtain ⟨j, j1, j2⟩ := C99.mem_sel.1 hb
      have := log_lt_log (pos a (List.mem_of_getElem? i1)) (strict ((fr i a i1).1 i2) ((fr j b j1).1 j2) hab)
      linarith
  have elk : lk = maskSel (t.map fun x => log (E.aH Y x) - log a0) M := by rw [hlk, eL, List.map_map]; rfl
  refine and_congr_right fun hpos => and_congr_right fun hsg => ?_
  have ha0 : 0 < a0 := by
    have h1 : 0 < -E.K / Ω := by
      rcases hK1 with h1 | h1
      · rw [eK] at h1; rw [h1] at hsg ⊢
        exact div_pos_of_neg_of_neg (by norm_num) (by linarith)
      · rw [eK] at h1; rw [h1] at hsg ⊢
        exact div_pos (by norm_num) (by linarith)
    have := u.c_pos
    rw [ha, eK]
    have := sqrt_pos.2 h1
    positivity
  have hKS : 0 < SI.K_STAR := by unfold SI.K_STAR; norm_num
  have le1 : ∀ x ∈ t, (log (E.aH Y x) - log a0 ≤ log SI.K_STAR ↔ E.aH Y x ≤ SI.K_STAR * a0) := fun x hx => by
    rw [← log_le_log_iff (pos x hx) (by positivity), log_mul hKS.ne' ha0.ne']
    exact sub_le_iff_le_add
  have le2 : ∀ x ∈ t, (log SI.K_STAR ≤ log (E.aH Y x) - log a0 ↔ SI.K_STAR * a0 ≤ E.aH Y x) := fun x hx => by
    rw [← log_le_log_iff (by positivity) (pos x hx), log_mul hKS.ne' ha0.ne']
    exact le_sub_iff_add_le
  have hi := C99.interpL_iff (f := fun x => log (E.aH Y x) - log a0) (g := E.efolds Y) hl (log SI.K_STAR)
  rw [elk, eN, hi]
  constructor
  · rintro ⟨-, -, i, j, p, r, hp, hr, mi, mj, h1, h2, h3⟩
    have fp := (fr i p hp).1 mi
    have frr := (fr j r hr).1 mj
    refine ⟨i, j, p, r, fp, frr, ?_, (le1 p (List.mem_of_getElem? hp)).1 h2, (le2 r (List.mem_of_getElem? hr)).1 h3⟩
    by_contra hc
    have := mono ⟨frr.2.1.1.le, frr.2.1.2.le⟩ ⟨fp.2.1.1.le, fp.2.1.2.le⟩ (not_lt.1 hc)
    have := log_le_log (pos r (List.mem_of_getElem? hr)) this
    linarith
  · rintro ⟨i, j, p, r, fp, frr, hpr, h2, h3⟩
    have mp := List.mem_of_getElem? fp.1
    have mr := List.mem_of_getElem? frr.1
    have sp := C99.mem_sel.2 ⟨i, fp.1, (fr i p fp.1).2 fp⟩
    have sr' := C99.mem_sel.2 ⟨j, frr.1, (fr j r frr.1).2 frr⟩
    have k2 := (le1 p mp).2 h2
    have k3 := (le2 r mr).2 h3
    have k1 := log_lt_log (pos p mp) (strict fp frr hpr)
    refine ⟨⟨_, ?_, k2⟩, ⟨_, ?_, k3⟩, i, j, p, r, fp.1, frr.1, (fr i p fp.1).2 fp, (fr j r frr.1).2 frr, by linarith, k2, k3⟩
    · rw [maskSel_map]; exact List.mem_map_of_mem sp
    · rw [maskSel_map]; exact List.mem_map_of_mem sr'

end

/-- **C99, `solve` finds the phase**: if the events are watched and the trajectory accelerates somewhere and decelerates later, `solve` succeeds and has the `inflation_mask` that the
two theorems above speak about. -/
theorem C99_delivers {ivp : SolveIvp} (fmtE : ℝ → String) {E : Eqs} {D S : Set ℝ} {ic : ICCall} {kw : SolveKw} {t : List ℝ} {Y : ℝ → ℕ → ℝ} {x0 x1 : ℝ} (h : Solved ivp E D S ic kw t Y x0 x1)
    (hw : Watched ivp E ic kw Y x0) {a b : ℝ} (ha : x0 ≤ a) (hab : a < b) (hb : b ≤ x1) (hga : 0 < E.accel Y a) (hgb : E.accel Y b < 0) :
    ∃ o s m, solve ivp fmtE E ic [] kw = .ok (o, s) ∧ s.inflation_mask = some m := by
  obtain ⟨c, y0, q, res, y, te, ye, hic, hq, hivp, sh, -, hI, hp⟩ := h.run
  obtain ⟨w1, w2, w3⟩ := hw c y0 q hic hq
  exact C90_found ivp fmtE (C91.shipped h.solution) hic hq hivp sh hI hp w1 (w2 res t y te ye hivp sh) ha hab hb hga hgb w3

/-- **C99, a flat universe from `solve` to the spectra**: no intermediate object is assumed to exist. -/
theorem C99_pipeline {ivp : SolveIvp} (fmtE : ℝ → String) {E : Eqs} {D S : Set ℝ} {ic : ICCall} {kw : SolveKw} {t : List ℝ} {Y : ℝ → ℕ → ℝ} {x0 x1 : ℝ} (h : Solved ivp E D S ic kw t Y x0 x1)
    (hw : Watched ivp E ic kw Y x0) {a b : ℝ} (ha : x0 ≤ a) (hab : a < b) (hb : b ≤ x1) (hga : 0 < E.accel Y a) (hgb : E.accel Y b < 0) (hK : E.K = 0) :
    ∃ o s sr cs xb xe, solve ivp fmtE E ic [] kw = .ok (o, s) ∧ slowRoll E o s = some sr ∧ Shooting.calState E.K s = some cs ∧ ReportedPhase E Y x0 x1 s xb xe ∧
      ∀ {κ : Type} (u : SI) (spline : κ → List (ℝ × ℝ) → ℝ → ℝ) (P : PSol) (kws : κ) (n g : ℝ) (rho : Option ℝ), Interpolates spline → P.st = cs → 0 < n →
        Bracketed t (Ioo xb xe) (E.efolds Y) (E.efolds Y xe - n) →
        ∃ Q cal, calibrateP u spline sr P { method := "N_star", N_star := some n, g_th := g, rho_reh_GeV := rho } "CGS" kws 0 = .ok Q ∧ Q.st.cal = some cal ∧
          ∀ i x, FreshPoint E Y t xb xe i x → ∀ ε, 0 < ε → HasDerivAt (fun y => log (E.hubble Y y)) (-(E.rate Y x * ε)) x →
            ask spline sr Q Spectrum.s "CGS" 0 kws (E.aH Y x / cal.a0_Mpc) = .ok (E.hubble Y x ^ 2 / (8 * π ^ 2 * ε)) ∧
            ask spline sr Q Spectrum.t "CGS" 0 kws (E.aH Y x / cal.a0_Mpc) = .ok (2 * E.hubble Y x ^ 2 / π ^ 2) := by
  obtain ⟨o, s, m, hs, hm⟩ := C99_delivers fmtE h hw ha hab hb hga hgb
  obtain ⟨sr, cs, xb, xe, hsr, hcs, hph, hall⟩ := C99_flat h hs hm hK
  refine ⟨o, s, sr, cs, xb, xe, hs, hsr, hcs, hph, fun {κ} u spline P kws n g rho hsp hP hn hB => ?_⟩
  obtain ⟨Q, hQ⟩ := (hall u spline P kws "CGS" 0 n g rho hP (.inl ⟨rfl, by norm_num⟩)).1.2 ⟨hn, hB⟩
  obtain ⟨cal, xb', xe', hcal, hph', hlead⟩ := C94_leading_order h hs hsr hcs u hsp hP rfl hQ
  have hx := hph.ordered
  have hx' := hph'.ordered
  have mN : StrictMonoOn (E.efolds Y) S := (C92.facts h.isOpen h.convex h.solution h.dV).1
  have inS : ∀ z, x0 ≤ z → z ≤ x1 → z ∈ S := fun z h1 h2 => h.inside ⟨h1, h2⟩
  obtain rfl : xb = xb' := mN.injOn (inS _ hx.1 (by linarith)) (inS _ hx'.1 (by linarith)) (Option.some.inj (hph.begins.symm.trans hph'.begins))
  obtain rfl : xe = xe' := mN.injOn (inS _ (by linarith) hx.2.2) (inS _ (by linarith) hx'.2.2) (Option.some.inj (hph.ends.symm.trans hph'.ends))
  exact ⟨Q, cal, hQ, hcal, hlead⟩

namespace C99.Ex
open C92.Ex

theorem watched : Watched ivp E (ICCall.slowRoll E C90.Ex.ic) C90.Ex.kw Exact.yHjT (-3) := by
  intro c y0 q _ hq
  have he : q.events = [⟨.inflation none, .neg, false, 0⟩] := hq.events.1 _ rfl
  refine ⟨by rw [he]; exact ⟨_, List.mem_singleton_self _, ⟨_, rfl⟩, rfl⟩, ?_, .inl ?_⟩
  · intro res t y te ye _ _ j ev ts h1 _ h3
    rw [he] at h1
    match j with
    | j + 1 => simp at h1
    | 0 =>
      simp only [List.getElem?_cons_zero, Option.some.injEq] at h1
      rw [← h1] at h3
      cases h3
  · rw [accel]; norm_num

/-- the phase that the example reports: from `t = -3` to `t = -√½` -/
theorem found (u : SI) (fmtE : ℝ → String) : ∃ o s m, solve ivp fmtE E (ICCall.slowRoll E C90.Ex.ic) [] C90.Ex.kw = .ok (o, s) ∧ s.inflation_mask = some m ∧
    ∀ xb xe, ReportedPhase E Exact.yHjT (-3) (-1 / 10) s xb xe → xb = -3 ∧ xe = -√(1 / 2) := by
  obtain ⟨o, s, m, hs, hm⟩ := C99_delivers fmtE C94.Ex.solved watched (a := -3) (b := -1 / 10) le_rfl (by norm_num) le_rfl (by rw [accel]; norm_num) (by rw [accel]; norm_num)
  refine ⟨o, s, m, hs, hm, fun xb xe hp => ?_⟩
  obtain ⟨y0, q, hic, hq, he⟩ := C90.Ex.called
  have hE : E.Shipped := by intro K p h; cases h
  have hs' : IvpShape E.idx.length q.events.length res grid rows C90.Ex.te C90.Ex.ye := by rw [he]; exact shape
  obtain ⟨o', raw, hs1, hg, hev, -⟩ := C90_solve ivp fmtE E hE (ICCall.slowRoll E C90.Ex.ic) C90.Ex.kw _ y0 q hic hq (res := res) rfl hs'
  obtain ⟨cs, cs', κ, -, -, -, hb, hend⟩ := calibrated u fmtE hg (by rw [he] at hev; exact hev)
  have hse : (o', inflationSol (C90.view E) E.pot.V E.K raw) = (o, s) := Except.ok.inj (hs1.symm.trans hs)
  have hse : inflationSol (C90.view E) E.pot.V E.K raw = s := (Prod.mk.inj hse).2
  rw [hse] at hb hend
  have h1 : -9 = -xb ^ 2 := Option.some.inj (hb.symm.trans hp.begins)
  have h2 : -1 / 2 = -xe ^ 2 := Option.some.inj (hend.symm.trans hp.ends)
  obtain ⟨o1, o2, o3⟩ := hp.ordered
  obtain ⟨r1, r2, r3⟩ := hj_root
  exact ⟨by nlinarith, by nlinarith⟩

/-- the grid points `-2` and `-1` bracket every e-fold number between `-4` and `-1`, and no other -/
theorem bracketed {xb xe y : ℝ} (hb : xb = -3) (he : xe = -√(1 / 2)) : Bracketed grid (Ioo xb xe) (E.efolds Exact.yHjT) y ↔ -4 ≤ y ∧ y ≤ -1 := by
  obtain ⟨r1, r2, r3⟩ := hj_root
  have n : ∀ x, E.efolds Exact.yHjT x = -x ^ 2 := fun x => rfl
  have sel : ∀ x ∈ grid, x ∈ Ioo xb xe → x = -2 ∨ x = -1 := fun x hx hm => by
    simp only [grid, List.mem_cons, List.not_mem_nil, or_false] at hx
    rw [hb, he] at hm
    rcases hx with h | h | h | h
    · rw [h] at hm; exact absurd hm.1 (lt_irrefl _)
    · exact .inl h
    · exact .inr h
    · rw [h] at hm
      have := hm.2
      nlinarith
  constructor
  · rintro ⟨p, hp, r, hr, pi, ri, hpr, h1, h2⟩
    rw [n] at h1 h2
    rcases sel p hp pi with rfl | rfl <;> rcases sel r hr ri with rfl | rfl <;> constructor <;> linarith
  · rintro ⟨h1, h2⟩
    refine ⟨-2, by simp [grid], -1, by simp [grid], ?_, ?_, by norm_num, by rw [n]; linarith, by rw [n]; linarith⟩
    · rw [hb, he]; constructor <;> nlinarith
    · rw [hb, he]; constructor <;> nlinarith

/-- `C99_flat` and `C99_delivers` apply: between `1/2` and `7/2` e-folds can be asked for, and no other number. -/
example (u : SI) (fmtE : ℝ → String) : ∃ (o : Dict Attr) (s : InflSol) (sr : SlowRoll) (cs : CalState), solve ivp fmtE E (ICCall.slowRoll E C90.Ex.ic) [] C90.Ex.kw = .ok (o, s) ∧
    slowRoll E o s = some sr ∧ Shooting.calState E.K s = some cs ∧ ∀ (spline : Unit → List (ℝ × ℝ) → ℝ → ℝ) (n : ℝ),
      ((∃ Q, calibrateP u spline sr ⟨cs, Caches.empty, none⟩ { method := "N_star", N_star := some n } "CGS" () 3 = .ok Q) ↔ 1 / 2 ≤ n ∧ n ≤ 7 / 2) ∧
      (17 / 2 < n → ∃ msg, calibrateP u spline sr ⟨cs, Caches.empty, none⟩ { method := "N_star", N_star := some n } "CGS" () 3 = .error (.insufficientInflation msg)) := by
  obtain ⟨o, s, m, hs, hm, hph⟩ := found u fmtE
  obtain ⟨sr, cs, xb, xe, hsr, hcs, hp, hall⟩ := C99_flat C94.Ex.solved hs hm rfl
  obtain ⟨e1, e2⟩ := hph xb xe hp
  obtain ⟨r1, r2, r3⟩ := hj_root
  have ne : E.efolds Exact.yHjT xe = -1 / 2 := by
    show -xe ^ 2 = _
    rw [e2, neg_sq, r1]; norm_num
  have nb : E.efolds Exact.yHjT xb = -9 := by
    show -xb ^ 2 = _
    rw [e1]; norm_num
  refine ⟨o, s, sr, cs, hs, hsr, hcs, fun spline n => ?_⟩
  obtain ⟨h1, h2, -⟩ := hall u spline ⟨cs, Caches.empty, none⟩ () "CGS" 3 n 100 none rfl (.inl ⟨rfl, le_rfl⟩)
  rw [bracketed e1 e2, ne] at h1
  rw [ne, nb] at h2
  refine ⟨h1.trans ⟨fun ⟨_, a, b⟩ => ⟨by linarith, by linarith⟩, fun ⟨a, b⟩ => ⟨by linarith, by linarith, by linarith⟩⟩, fun hn => h2 (by linarith) (by linarith)⟩

/-- `C99_pipeline` applies, with `n = 1`. -/
example (u : SI) (fmtE : ℝ → String) {sp : Unit → List (ℝ × ℝ) → ℝ → ℝ} (hsp : Interpolates sp) : ∃ (o : Dict Attr) (s : InflSol) (sr : SlowRoll) (cs : CalState) (Q : PSol) (c : Calib),
    solve ivp fmtE E (ICCall.slowRoll E C90.Ex.ic) [] C90.Ex.kw = .ok (o, s) ∧ slowRoll E o s = some sr ∧ Shooting.calState E.K s = some cs ∧
    calibrateP u sp sr ⟨cs, Caches.empty, none⟩ { method := "N_star", N_star := some 1 } "CGS" () 0 = .ok Q ∧ Q.st.cal = some c := by
  obtain ⟨o', s', m', hs', -, hph⟩ := found u fmtE
  obtain ⟨o, s, sr, cs, xb, xe, hs, hsr, hcs, hp, hall⟩ := C99_pipeline fmtE C94.Ex.solved watched (a := -3) (b := -1 / 10) le_rfl (by norm_num) le_rfl
    (by rw [accel]; norm_num) (by rw [accel]; norm_num) rfl
  obtain ⟨rfl, rfl⟩ := Prod.mk.inj (Except.ok.inj (hs'.symm.trans hs))
  obtain ⟨e1, e2⟩ := hph xb xe hp
  obtain ⟨r1, r2, r3⟩ := hj_root
  have ne : E.efolds Exact.yHjT xe = -1 / 2 := by
    show -xe ^ 2 = _
    rw [e2, neg_sq, r1]; norm_num
  obtain ⟨Q, c, hQ, hc, -⟩ := hall u sp ⟨cs, Caches.empty, none⟩ () 1 100 none hsp rfl one_pos (by rw [bracketed e1 e2, ne]; norm_num)
  exact ⟨_, _, sr, cs, Q, c, hs, hsr, hcs, hQ, hc⟩

end C99.Ex

namespace C99.ExOpen
open C93.Ex

/-- the integrator of the example -/
noncomputable def ivp : SolveIvp := fun _ q => .ok (res q.events)
def ev : List Event := [⟨.inflation none, .neg, false, 0⟩]

theorem x1_ev : x1 ev = 7 / 2 := by simp [x1, stopsAt, ev]

theorem solved {ic : IC} (h1 : ic.phi_i = 0) (h2 : ic.N_i = some 0) (h3 : ic.V_i = 160) :
    Solved ivp E D S (ICCall.inflationStart E ic) C93.Ex.kw (grid ev) Y 0 (7 / 2) := by
  obtain ⟨y, hy, hyi⟩ := state_ok h1 h2 h3
  have hic : ICCall.inflationStart E ic (C93.Ex.kw.rtol.getD (1 / 10 ^ 10)) (C93.Ex.kw.atol.getD (1 / 10 ^ 12)) C93.Ex.kw.rest (fun _ => some 0) = .ok (ic, y) := by
    simp only [ICCall.inflationStart, hy, bind, Except.bind]
  obtain ⟨q, hq, hqe⟩ : ∃ q, Requested E C93.Ex.kw ic y q ∧ q.events = ev := ⟨_, requested E C93.Ex.kw ic y, rfl⟩
  have pl : PlainInflation ev := by
    intro e he hk
    rw [ev, List.mem_singleton] at he
    rw [he] at hk ⊢
    trivial
  have hI := integrated ev pl
  rw [x1_ev] at hI
  have hx := x1_bounds ev
  rw [x1_ev] at hx
  exact {
    run := ⟨ic, y, q, res q.events, rows ev, te ev, ye ev, hic, hq, rfl, by rw [hqe]; exact shape ev, rfl, by rw [hqe]; exact hI, by rw [hqe]; exact pl⟩
    curvature := .inr (.inr rfl)
    isOpen := isOpen_Ioo
    convex := convex_Ioo _ _
    solution := trajectory
    dV := facts.2.2.1
    d2V := facts.2.2.2.1
    d3V := facts.2.2.2.2.1
    start := mem_S le_rfl (by norm_num)
    inside := fun x hx => mem_S hx.1 hx.2
    density := by
      show 0 < e.H2 (Y 0) + -1 * exp (-2 * log (a 0))
      rw [facts.2.2.2.2.2.2.2 0 (mem_S le_rfl (by norm_num))]
      norm_num [a]
    sorted := sorted ev
    clean := clean _ }

theorem watched {ic : IC} : Watched ivp E (ICCall.inflationStart E ic) C93.Ex.kw Y 0 := by
  intro c y0 q _ hq
  have he : q.events = [⟨.inflation none, .neg, false, 0⟩] := hq.events.1 _ rfl
  refine ⟨by rw [he]; exact ⟨_, List.mem_singleton_self _, ⟨_, rfl⟩, rfl⟩, ?_, .inl ?_⟩
  · intro res t y te ye _ _ j ev ts h1 _ h3
    rw [he] at h1
    match j with
    | j + 1 => simp at h1
    | 0 =>
      simp only [List.getElem?_cons_zero, Option.some.injEq] at h1
      rw [← h1] at h3
      cases h3
  · show 0 ≤ e.inflating (Y 0)
    rw [accel_zero.1]

theorem aH {x : ℝ} (hx : x ∈ S) : E.aH Y x = 10 - cos x := by
  show exp (log (a x)) * √(e.H2 (Y x)) = _
  have := a_pos hx
  have h := aH_pos x
  rw [facts.2.2.2.2.2.2.2 x hx, exp_log this, sqrt_sq (div_nonneg h.le this.le)]
  field_simp

/-- the phase that the example reports: from `t = 0` to `t = π` -/
theorem found (u : SI) (fmtE : ℝ → String) : ∃ ic o s m, Solved ivp E D S (ICCall.inflationStart E ic) C93.Ex.kw (grid ev) Y 0 (7 / 2) ∧
    solve ivp fmtE E (ICCall.inflationStart E ic) [] C93.Ex.kw = .ok (o, s) ∧ s.inflation_mask = some m ∧
    ∀ xb xe, ReportedPhase E Y 0 (7 / 2) s xb xe → xb = 0 ∧ xe = π := by
  obtain ⟨ic, -, h1, -, h2, h3⟩ := start_ok
  have hpi := pi_gt_three
  have hpi' := pi_lt_d2
  have hS := solved h1 h2 h3
  obtain ⟨o, s, m, hs, hm⟩ := C99_delivers fmtE hS watched (a := π / 2) (b := 7 / 2) (by linarith) (by linarith) le_rfl
    (accel_pos (by linarith) (by linarith)) (accel_neg (by linarith) le_rfl)
  refine ⟨ic, o, s, m, hS, hs, hm, fun xb xe hp => ?_⟩
  obtain ⟨y, hy, hyi⟩ := state_ok h1 h2 h3
  have hE : E.Shipped := fun K p h => by cases h
  have hok : ICCall.inflationStart E ic (C93.Ex.kw.rtol.getD (1 / 10 ^ 10)) (C93.Ex.kw.atol.getD (1 / 10 ^ 12)) C93.Ex.kw.rest (fun _ => some 0) = .ok (ic, y) := by
    simp only [ICCall.inflationStart, hy, bind, Except.bind]
  obtain ⟨q, hq, hqe⟩ : ∃ q, Requested E C93.Ex.kw ic y q ∧ q.events = [⟨.inflation none, .neg, false, 0⟩] := ⟨_, requested E C93.Ex.kw ic y, rfl⟩
  obtain ⟨o', raw, hs1, hg, hev, -⟩ := C90_solve ivp fmtE E hE (ICCall.inflationStart E ic) C93.Ex.kw ic y q hok hq (res := res q.events) rfl (shape _)
  have hse : (o', inflationSol (C90.view E) E.pot.V E.K raw) = (o, s) := Except.ok.inj (hs1.symm.trans hs)
  have hse : inflationSol (C90.view E) E.pot.V E.K raw = s := (Prod.mk.inj hse).2
  obtain ⟨cs, cs', κ, htot, -⟩ := run_calibrated u (fmtE := fmtE) (q := q) hg hev (j := 0) (k := "Inflation_dir-1_term0")
    (Or.inr ⟨rfl, by rw [hqe]; simp only [List.map_cons, List.map_nil, Event.name]; decide⟩) (by
      rw [hqe]
      refine ⟨rfl, fun j hj => ?_⟩
      rw [List.getElem?_eq_none (by simp; omega)]; simp) (by rw [hqe]; rfl) (by rw [hqe]; rfl)
  have hN : (inflationSol (C90.view E) E.pot.V E.K raw).N_tot =
      (inflationSol (C90.view E) E.pot.V E.K raw).fin.N_end.bind fun z => (inflationSol (C90.view E) E.pot.V E.K raw).start.N_beg.map (z - ·) := rfl
  rw [htot, hse, hp.begins, hp.ends] at hN
  have hN : log (1 + 10 * π) = log (a xe) - log (a xb) := Option.some.inj hN
  obtain ⟨k1, k2, k3⟩ := hp.ordered
  have hxe : xe ≤ π := by
    by_contra h
    push Not at h
    have h1 : 0 ≤ e.inflating (Y xe) := hp.accelerates xe ⟨k2.le, le_rfl⟩
    have h2 := accel_neg h k3
    linarith
  have v0 : a 0 = 1 := by norm_num [a]
  have ve : a π = 1 + 10 * π := by simp only [a, sin_pi]; ring
  have m0 : 0 < a 0 := by rw [v0]; norm_num
  have mb : xb ∈ S := mem_S k1 (by linarith)
  have me : xe ∈ S := mem_S (by linarith) k3
  rw [← ve] at hN
  constructor
  · rcases k1.eq_or_lt with h | h
    · exact h.symm
    · have g1 := log_lt_log m0 (a_mono h)
      have g2 : log (a xe) ≤ log (a π) := by
        rcases hxe.eq_or_lt with h | h
        · rw [h]
        · exact (log_lt_log (a_pos me) (a_mono h)).le
      rw [v0, log_one] at g1
      linarith
  · rcases hxe.eq_or_lt with h | h
    · exact h
    · have g1 := log_lt_log (a_pos me) (a_mono h)
      have g2 : log (a 0) ≤ log (a xb) := by
        rcases k1.eq_or_lt with h | h
        · rw [h]
        · exact (log_lt_log m0 (a_mono h)).le
      rw [v0, log_one] at g2
      linarith

/-- the grid points `π/2` and `2π/3` bracket the values of `aH` between `10` and `10.5`, and no other -/
theorem bracketed {xb xe y : ℝ} (hb : xb = 0) (he : xe = π) : FreshlyBracketed E Y (grid ev) xb xe y ↔ 10 ≤ y ∧ y ≤ 21 / 2 := by
  subst hb he
  have hpi := pi_gt_three
  have hpi' := pi_lt_d2
  have a0 : E.aH Y 0 = 9 := by rw [aH (mem_S le_rfl (by norm_num)), cos_zero]; norm_num
  have a1 : E.aH Y (π / 2) = 10 := by rw [aH (mem_S (by linarith) (by linarith)), cos_pi_div_two]; norm_num
  have a2 : E.aH Y (2 * π / 3) = 21 / 2 := by rw [aH (mem_S (by linarith) (by linarith)), cos_23]; norm_num
  have g : grid ev = [0, π / 2, 2 * π / 3, 7 / 2] := by rw [grid, x1_ev]; rfl
  rw [FreshlyBracketed, g]
  have sel : ∀ {i : ℕ} {p : ℝ}, FreshPoint E Y [0, π / 2, 2 * π / 3, 7 / 2] 0 π i p → p = π / 2 ∨ p = 2 * π / 3 := fun {i p} hp => by
    have := List.mem_of_getElem? hp.1
    simp only [List.mem_cons, List.not_mem_nil, or_false] at this
    rcases this with h | h | h | h
    · have := hp.2.1.1; linarith
    · exact .inl h
    · exact .inr h
    · have := hp.2.1.2; linarith
  constructor
  · rintro ⟨i, j, p, r, fp, fr, hpr, h1, h2⟩
    rcases sel fp with rfl | rfl <;> rcases sel fr with rfl | rfl <;> first | rw [a1] at h1 | rw [a2] at h1
    · rw [a1] at h2; constructor <;> linarith
    · rw [a2] at h2; constructor <;> linarith
    · rw [a1] at h2; constructor <;> linarith
    · rw [a2] at h2; constructor <;> linarith
  · rintro ⟨h1, h2⟩
    refine ⟨1, 2, π / 2, 2 * π / 3, ⟨rfl, ⟨by linarith, by linarith⟩, fun l v hl hv => ?_⟩, ⟨rfl, ⟨by linarith, by linarith⟩, fun l v hl hv => ?_⟩, by linarith, by rw [a1]; exact h1,
      by rw [a2]; exact h2⟩
    · obtain rfl : l = 0 := by omega
      obtain rfl : 0 = v := Option.some.inj hv
      rw [a0, a1]; norm_num
    · rcases (by omega : l = 0 ∨ l = 1) with rfl | rfl
      · obtain rfl : 0 = v := Option.some.inj hv
        rw [a0, a2]; norm_num
      · obtain rfl : π / 2 = v := Option.some.inj hv
        rw [a1, a2]; norm_num

/-- `C99_curved` applies: with `Omega_K0 = 1` the pivot scale must lie between `aH = 10` and `aH = 10.5`; `Omega_K0 = -1` never works. -/
example (u : SI) (fmtE : ℝ → String) : ∃ (ic : IC) (o : Dict Attr) (s : InflSol) (sr : SlowRoll) (cs : CalState),
    solve ivp fmtE E (ICCall.inflationStart E ic) [] C93.Ex.kw = .ok (o, s) ∧ slowRoll E o s = some sr ∧ Shooting.calState E.K s = some cs ∧
    ∀ (spline : Unit → List (ℝ × ℝ) → ℝ → ℝ) (h : ℝ),
      ((∃ Q, calibrateP u spline sr ⟨cs, Caches.empty, none⟩ { method := "Omega_K0", Omega_K0 := some 1, h := some h } "LLMS" () 0 = .ok Q) ↔
        0 < h ∧ 10 ≤ SI.K_STAR * (u.c / 1000 / (100 * h)) ∧ SI.K_STAR * (u.c / 1000 / (100 * h)) ≤ 21 / 2) ∧
      ¬ ∃ Q, calibrateP u spline sr ⟨cs, Caches.empty, none⟩ { method := "Omega_K0", Omega_K0 := some (-1), h := some h } "LLMS" () 0 = .ok Q := by
  obtain ⟨ic, o, s, m, hS, hs, hm, hph⟩ := found u fmtE
  obtain ⟨sr, cs, xb, xe, hsr, hcs, hp, hall⟩ := C99_curved hS hs hm (show (-1 : ℝ) ≠ 0 by norm_num)
  obtain ⟨e1, e2⟩ := hph xb xe hp
  have eK : E.K = -1 := rfl
  refine ⟨ic, o, s, sr, cs, hs, hsr, hcs, fun spline h => ⟨?_, ?_⟩⟩
  · have := hall u spline ⟨cs, Caches.empty, none⟩ () "LLMS" 0 1 h 100 none rfl (.inr (.inl rfl))
    rw [bracketed e1 e2, eK] at this
    rw [this]
    simp
  · have := hall u spline ⟨cs, Caches.empty, none⟩ () "LLMS" 0 (-1) h 100 none rfl (.inr (.inl rfl))
    rw [this, eK]
    rintro ⟨-, h, -⟩
    norm_num at h

end C99.ExOpen
end Primpy
