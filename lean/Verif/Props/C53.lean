import Verif.Lemmas.Perturbations

/-!
# C53: the spectrum is completely filled
-/

namespace Primpy
open Real
namespace Pert

theorem oneMode_has {osc : Oscode} {b : Bg} {kw : OscKw} {k : ℝ} {r : ModeSpectra} (h : oneMode osc b kw k = .ok r)
    {vac : String} (hv : vac ∈ kw.vacuum) : (∃ v, r.P_s.get? vac = some v) ∧ ∃ v, r.P_t.get? vac = some v := by
  obtain ⟨stop, s, t, pb, pe, s1, s2, t1, t2, Ps, -, -, -, -, -, hs, ht, hP⟩ := oneMode_ok h
  obtain ⟨_, P, _, -, -, hgs, -⟩ := (combineAll_get hs).1 vac hv
  obtain ⟨_, P', _, -, -, hgt, -⟩ := (combineAll_get ht).1 vac hv
  refine ⟨?_, P', hgt⟩
  rw [hP]
  split_ifs
  · rw [Dict.get?_set]
    split_ifs
    · exact ⟨_, rfl⟩
    · exact ⟨P, hgs⟩
  · exact ⟨P, hgs⟩

theorem store_get {d d' : Dict (List (Option ℝ))} {i : ℕ} {src : Dict (Option ℝ)} {vac : String} (h : store d i src vac = .ok d') :
    ∃ v, src.get? vac = some v ∧ ∀ w, d'.get? w = (d.get? w).map fun arr => if w = vac then arr.set i v else arr := by
  unfold store at h
  split at h
  next arr v ha hv =>
    cases h
    refine ⟨v, hv, fun w => ?_⟩
    rw [Dict.get?_set]
    split_ifs with hw
    · subst hw; rw [ha]; rfl
    · simp
  · cases h

theorem store_ok {d : Dict (List (Option ℝ))} {i : ℕ} {src : Dict (Option ℝ)} {vac : String} (h1 : ∃ arr, d.get? vac = some arr)
    (h2 : ∃ v, src.get? vac = some v) : ∃ d', store d i src vac = .ok d' := by
  obtain ⟨arr, ha⟩ := h1
  obtain ⟨v, hv⟩ := h2
  exact ⟨_, by unfold store; rw [ha, hv]⟩

/-- What storing one mode does to the arrays. -/
theorem storeAll_get {i : ℕ} {m : ModeSpectra} {vacs : List String} {P P' : PPS} (h : storeAll i m vacs P = .ok P') :
    P'.k = P.k ∧ P'.k_iMpc = P.k_iMpc ∧ ∀ w,
      P'.P_s.get? w = (P.P_s.get? w).map (fun arr => if w ∈ vacs then arr.set i ((m.P_s.get? w).getD none) else arr) ∧
      P'.P_t.get? w = (P.P_t.get? w).map (fun arr => if w ∈ vacs then arr.set i ((m.P_t.get? w).getD none) else arr) := by
  induction vacs generalizing P with
  | nil =>
    cases h
    exact ⟨rfl, rfl, fun w => by simp⟩
  | cons vac rest ih =>
    unfold storeAll at h
    split at h
    next s t hs ht =>
      obtain ⟨e1, e2, e3⟩ := ih h
      obtain ⟨v, hv, gs⟩ := store_get hs
      obtain ⟨v', hv', gt⟩ := store_get ht
      refine ⟨e1, e2, fun w => ?_⟩
      obtain ⟨f1, f2⟩ := e3 w
      rw [f1, f2]
      dsimp only
      rw [gs, gt, Option.map_map, Option.map_map]
      constructor
      · congr 1
        funext arr
        simp only [Function.comp, List.mem_cons]
        by_cases hw : w = vac
        · subst hw
          simp [hv, List.set_set]
        · simp [hw]
      · congr 1
        funext arr
        simp only [Function.comp, List.mem_cons]
        by_cases hw : w = vac
        · subst hw
          simp [hv', List.set_set]
        · simp [hw]
    · cases h
    · cases h

theorem storeAll_ok {i : ℕ} {m : ModeSpectra} {vacs : List String} {P : PPS}
    (h1 : ∀ v ∈ vacs, (∃ arr, P.P_s.get? v = some arr) ∧ ∃ arr, P.P_t.get? v = some arr)
    (h2 : ∀ v ∈ vacs, (∃ x, m.P_s.get? v = some x) ∧ ∃ x, m.P_t.get? v = some x) : ∃ P', storeAll i m vacs P = .ok P' := by
  induction vacs generalizing P with
  | nil => exact ⟨P, rfl⟩
  | cons vac rest ih =>
    obtain ⟨a1, a2⟩ := h1 vac (by simp)
    obtain ⟨b1, b2⟩ := h2 vac (by simp)
    obtain ⟨s, hs⟩ := store_ok (i := i) a1 b1
    obtain ⟨t, ht⟩ := store_ok (i := i) a2 b2
    unfold storeAll
    rw [hs, ht]
    dsimp only
    obtain ⟨_, -, gs⟩ := store_get hs
    obtain ⟨_, -, gt⟩ := store_get ht
    apply ih
    · intro v hv
      obtain ⟨⟨c1, d1⟩, c2, d2⟩ := h1 v (by simp [hv])
      dsimp only
      rw [gs, gt, d1, d2]
      exact ⟨⟨_, rfl⟩, _, rfl⟩
    · exact fun v hv => h2 v (by simp [hv])

/-- The arrays exist. -/
def Has (vacs : List String) (P : PPS) : Prop := ∀ v ∈ vacs, (∃ arr, P.P_s.get? v = some arr) ∧ ∃ arr, P.P_t.get? v = some arr

theorem storeAll_has {i : ℕ} {m : ModeSpectra} {vacs vacs' : List String} {P P' : PPS} (h : storeAll i m vacs P = .ok P')
    (hP : Has vacs' P) : Has vacs' P' := by
  obtain ⟨-, -, e⟩ := storeAll_get h
  intro v hv
  obtain ⟨⟨c1, d1⟩, c2, d2⟩ := hP v hv
  obtain ⟨f1, f2⟩ := e v
  rw [f1, f2, d1, d2]
  exact ⟨⟨_, rfl⟩, _, rfl⟩

/-- The single-wavenumber call is one pass of the loop. -/
theorem single_eq (osc : Oscode) (b : Bg) (kw : OscKw) (k : ℝ) : solveOscode1 osc b k kw = oneMode osc b kw k := by
  unfold solveOscode1
  cases h : oneMode osc b kw k with
  | error e => rfl
  | ok m =>
    dsimp only
    have hP : Has kw.vacuum (PPS.init b [k] kw.vacuum) := by
      have aux : ∀ (l : List String) (d : Dict (List (Option ℝ))) (w : String), (w ∈ l ∨ ∃ a, d.get? w = some a) →
          ∃ a, (l.foldl (fun d vac => d.set vac ([k].map fun _ => none)) d).get? w = some a := by
        intro l
        induction l with
        | nil => intro d w h; simpa using h
        | cons x l ih =>
          intro d w h
          apply ih
          by_cases hx : w = x
          · right; exact ⟨_, by rw [Dict.get?_set, if_pos hx]⟩
          · rw [Dict.get?_set, if_neg hx]
            simpa [hx] using h
      exact fun v hv => ⟨aux _ _ _ (.inl hv), aux _ _ _ (.inl hv)⟩
    obtain ⟨P', hP'⟩ := storeAll_ok (i := 0) hP (fun v hv => oneMode_has h hv)
    rw [hP']

theorem init_get (b : Bg) (ks : List ℝ) (vacs : List String) (w : String) :
    (PPS.init b ks vacs).P_s.get? w = (if w ∈ vacs then some (ks.map fun _ => none) else none) ∧
    (PPS.init b ks vacs).P_t.get? w = if w ∈ vacs then some (ks.map fun _ => none) else none := by
  have aux : ∀ (l : List String) (d : Dict (List (Option ℝ))) (w : String),
      (l.foldl (fun d vac => d.set vac (ks.map fun _ => none)) d).get? w = if w ∈ l then some (ks.map fun _ => none) else d.get? w := by
    intro l
    induction l with
    | nil => intro d w; simp
    | cons x l ih =>
      intro d w
      rw [List.foldl_cons, ih, Dict.get?_set]
      by_cases h1 : w ∈ l <;> by_cases h2 : w = x <;> simp [h1, h2]
  constructor
  · simp only [PPS.init]; rw [aux]; simp
  · simp only [PPS.init]; rw [aux]; simp

/-- Effect of the loop on the arrays: entry `i + j` is that of the `j`-th wavenumber, all other entries are untouched. -/
theorem loop_get {osc : Oscode} {b : Bg} {kw : OscKw} {i : ℕ} {ks : List ℝ} {P P' : PPS} (h : loop osc b kw i ks P = .ok P') :
    P'.k = P.k ∧ P'.k_iMpc = P.k_iMpc ∧ ∃ rs : List ModeSpectra, rs.length = ks.length ∧
      (∀ (j : ℕ) (k : ℝ), ks[j]? = some k → ∃ r, rs[j]? = some r ∧ oneMode osc b kw k = .ok r) ∧
      ∀ w ∈ kw.vacuum, ∀ arr : List (Option ℝ),
        (P.P_s.get? w = some arr → ∃ arr', P'.P_s.get? w = some arr' ∧ arr'.length = arr.length ∧ (∀ j < i, arr'[j]? = arr[j]?) ∧
          ∀ (j : ℕ) (r : ModeSpectra), rs[j]? = some r → i + j < arr.length → arr'[i + j]? = r.P_s.get? w) ∧
        (P.P_t.get? w = some arr → ∃ arr', P'.P_t.get? w = some arr' ∧ arr'.length = arr.length ∧ (∀ j < i, arr'[j]? = arr[j]?) ∧
          ∀ (j : ℕ) (r : ModeSpectra), rs[j]? = some r → i + j < arr.length → arr'[i + j]? = r.P_t.get? w) := by
  induction ks generalizing i P with
  | nil =>
    unfold loop at h
    cases h
    exact ⟨rfl, rfl, [], rfl, by simp, fun w _ arr => ⟨fun ha => ⟨arr, ha, rfl, by simp, by simp⟩, fun ha => ⟨arr, ha, rfl, by simp, by simp⟩⟩⟩
  | cons k ks ih =>
    unfold loop at h
    split at h
    · cases h
    next m hm =>
    split at h
    · cases h
    next Q hQ =>
    obtain ⟨e1, e2, rs, hl, hrs, hget⟩ := ih h
    obtain ⟨f1, f2, f3⟩ := storeAll_get hQ
    refine ⟨e1.trans f1, e2.trans f2, m :: rs, by simp [hl], ?_, ?_⟩
    · intro j k' hj
      cases j with
      | zero => simp only [List.getElem?_cons_zero, Option.some.injEq] at hj ⊢; subst hj; exact ⟨m, rfl, hm⟩
      | succ j => simp only [List.getElem?_cons_succ] at hj ⊢; exact hrs j k' hj
    · intro w hw arr
      obtain ⟨g1, g2⟩ := f3 w
      obtain ⟨⟨v, hv⟩, v', hv'⟩ := oneMode_has hm hw
      constructor
      · intro ha
        rw [ha, Option.map_some, if_pos hw, hv, Option.getD_some] at g1
        obtain ⟨arr', q1, q2, q3, q4⟩ := (hget w hw _).1 g1
        rw [List.length_set] at q2 q4
        refine ⟨arr', q1, q2, fun j hj => ?_, fun j r hj hlt => ?_⟩
        · rw [q3 j (by omega), List.getElem?_set_ne (by omega)]
        · cases j with
          | zero =>
            simp only [List.getElem?_cons_zero, Option.some.injEq] at hj
            subst hj
            rw [add_zero, q3 i (by omega), List.getElem?_set_self (by omega), hv]
          | succ j =>
            simp only [List.getElem?_cons_succ] at hj
            rw [← q4 j r hj (by omega)]
            congr 1
            omega
      · intro ha
        rw [ha, Option.map_some, if_pos hw, hv', Option.getD_some] at g2
        obtain ⟨arr', q1, q2, q3, q4⟩ := (hget w hw _).2 g2
        rw [List.length_set] at q2 q4
        refine ⟨arr', q1, q2, fun j hj => ?_, fun j r hj hlt => ?_⟩
        · rw [q3 j (by omega), List.getElem?_set_ne (by omega)]
        · cases j with
          | zero =>
            simp only [List.getElem?_cons_zero, Option.some.injEq] at hj
            subst hj
            rw [add_zero, q3 i (by omega), List.getElem?_set_self (by omega), hv']
          | succ j =>
            simp only [List.getElem?_cons_succ] at hj
            rw [← q4 j r hj (by omega)]
            congr 1
            omega

/-- **C53.**  `solve_oscode` for any array of wavenumbers (any length, order, repetitions), any background and integrator.  The
returned wavenumbers are the requested ones, and for each requested vacuum the arrays `P_s_<vac>`, `P_t_<vac>` have one
entry per wavenumber: the value the single-wavenumber call returns for that wavenumber. -/
theorem C53_filled {osc : Oscode} {b : Bg} {kw : OscKw} {ks : List ℝ} {P : PPS} (h : solveOscode osc b ks kw = .ok P) :
    P.k = ks ∧ P.k_iMpc = ks.map (fun k => k * SI.K_STAR / exp b.logaH_star) ∧
    ∀ vac ∈ kw.vacuum, ∃ Ps Pt : List (Option ℝ), P.P_s.get? vac = some Ps ∧ P.P_t.get? vac = some Pt ∧
      Ps.length = ks.length ∧ Pt.length = ks.length ∧
      ∀ (i : ℕ) (k : ℝ), ks[i]? = some k → ∃ r vs vt, solveOscode1 osc b k kw = .ok r ∧
        r.P_s.get? vac = some vs ∧ r.P_t.get? vac = some vt ∧ Ps[i]? = some vs ∧ Pt[i]? = some vt := by
  unfold solveOscode at h
  obtain ⟨e1, e2, rs, hl, hrs, hget⟩ := loop_get h
  refine ⟨e1, e2, fun vac hvac => ?_⟩
  obtain ⟨i1, i2⟩ := init_get b ks kw.vacuum vac
  rw [if_pos hvac] at i1 i2
  obtain ⟨Ps, p1, p2, -, p4⟩ := (hget vac hvac _).1 i1
  obtain ⟨Pt, q1, q2, -, q4⟩ := (hget vac hvac _).2 i2
  rw [List.length_map] at p2 q2 p4 q4
  refine ⟨Ps, Pt, p1, q1, p2, q2, fun i k hk => ?_⟩
  obtain ⟨r, hr, hone⟩ := hrs i k hk
  obtain ⟨⟨vs, hvs⟩, vt, hvt⟩ := oneMode_has hone hvac
  have hi : i < ks.length := (List.getElem?_eq_some_iff.1 hk).1
  refine ⟨r, vs, vt, by rw [single_eq, hone], hvs, hvt, ?_, ?_⟩
  · have := p4 i r hr (by omega)
    rw [zero_add] at this
    rw [this, hvs]
  · have := q4 i r hr (by omega)
    rw [zero_add] at this
    rw [this, hvt]

theorem loop_ok {osc : Oscode} {b : Bg} {kw : OscKw} {i : ℕ} {ks : List ℝ} {P : PPS} (hP : Has kw.vacuum P) :
    (∀ e, loop osc b kw i ks P = .error e ↔ ∃ (j : ℕ) (k : ℝ), ks[j]? = some k ∧ oneMode osc b kw k = .error e ∧
      ∀ (l : ℕ) (k' : ℝ), l < j → ks[l]? = some k' → ∃ r, oneMode osc b kw k' = .ok r) ∧
    ((∃ P', loop osc b kw i ks P = .ok P') ↔ ∀ k ∈ ks, ∃ r, oneMode osc b kw k = .ok r) := by
  induction ks generalizing i P with
  | nil => unfold loop; simp
  | cons k ks ih =>
    unfold loop
    cases hm : oneMode osc b kw k with
    | error e =>
      dsimp only
      constructor
      · intro e'
        constructor
        · intro h
          cases h
          exact ⟨0, k, rfl, hm, by simp⟩
        · rintro ⟨j, k', hj, he, hall⟩
          cases j with
          | zero => simp only [List.getElem?_cons_zero, Option.some.injEq] at hj; subst hj; rw [hm] at he; cases he; rfl
          | succ j =>
            obtain ⟨r, hr⟩ := hall 0 k (by omega) rfl
            rw [hm] at hr; cases hr
      · constructor
        · rintro ⟨_, h⟩; cases h
        · intro h
          obtain ⟨r, hr⟩ := h k (by simp)
          rw [hm] at hr; cases hr
    | ok m =>
      dsimp only
      obtain ⟨Q, hQ⟩ := storeAll_ok (i := i) hP (fun v hv => oneMode_has hm hv)
      rw [hQ]
      dsimp only
      obtain ⟨ih1, ih2⟩ := ih (i := i + 1) (storeAll_has hQ hP)
      constructor
      · intro e
        rw [ih1]
        constructor
        · rintro ⟨j, k', hj, he, hall⟩
          refine ⟨j + 1, k', by simpa using hj, he, fun l k'' hl hk => ?_⟩
          cases l with
          | zero => simp only [List.getElem?_cons_zero, Option.some.injEq] at hk; subst hk; exact ⟨m, hm⟩
          | succ l => exact hall l k'' (by omega) (by simpa using hk)
        · rintro ⟨j, k', hj, he, hall⟩
          cases j with
          | zero => simp only [List.getElem?_cons_zero, Option.some.injEq] at hj; subst hj; rw [hm] at he; cases he
          | succ j =>
            exact ⟨j, k', by simpa using hj, he, fun l k'' hl hk => hall (l + 1) k'' (by omega) (by simpa using hk)⟩
      · rw [ih2]
        constructor
        · intro h k' hk'
          rcases List.mem_cons.1 hk' with rfl | h'
          · exact ⟨m, hm⟩
          · exact h k' h'
        · intro h k' hk'
          exact h k' (by simp [hk'])

theorem init_has (b : Bg) (ks : List ℝ) (vacs : List String) : Has vacs (PPS.init b ks vacs) := by
  intro v hv
  obtain ⟨i1, i2⟩ := init_get b ks vacs v
  rw [if_pos hv] at i1 i2
  exact ⟨⟨_, i1⟩, _, i2⟩

/-- **C53, errors.**  The array call succeeds exactly if the single call succeeds for every wavenumber, and raises exactly the
error of the first wavenumber for which the single call raises. -/
theorem C53_errors (osc : Oscode) (b : Bg) (kw : OscKw) (ks : List ℝ) :
    ((∃ P, solveOscode osc b ks kw = .ok P) ↔ ∀ k ∈ ks, ∃ r, solveOscode1 osc b k kw = .ok r) ∧
    ∀ e, solveOscode osc b ks kw = .error e ↔ ∃ (j : ℕ) (k : ℝ), ks[j]? = some k ∧ solveOscode1 osc b k kw = .error e ∧
      ∀ (l : ℕ) (k' : ℝ), l < j → ks[l]? = some k' → ∃ r, solveOscode1 osc b k' kw = .ok r := by
  simp only [single_eq]
  exact ⟨(loop_ok (init_has b ks kw.vacuum)).2, (loop_ok (init_has b ks kw.vacuum)).1⟩

/-- **C53, one vacuum does not disturb another.**  The entries of a vacuum do not depend on which other vacua are requested. -/
theorem C53_vacua {osc : Oscode} {b : Bg} {kw kw' : OscKw} (hkw : kw' = { kw with vacuum := kw'.vacuum }) {k : ℝ} {r r' : ModeSpectra}
    (h : solveOscode1 osc b k kw = .ok r) (h' : solveOscode1 osc b k kw' = .ok r') {vac : String} (hv : vac ∈ kw.vacuum)
    (hv' : vac ∈ kw'.vacuum) : r'.P_s.get? vac = r.P_s.get? vac ∧ r'.P_t.get? vac = r.P_t.get? vac := by
  rw [single_eq] at h h'
  obtain ⟨stop, s, t, pb, pe, s1, s2, t1, t2, Ps, a1, a2, a3, a4, a5, a6, a7, a8⟩ := oneMode_ok h
  obtain ⟨stop', s', t', pb', pe', s1', s2', t1', t2', Ps', b1, b2, b3, b4, b5, b6, b7, b8⟩ := oneMode_ok h'
  obtain ⟨f1, f2, f3, f4, f5⟩ : kw'.fac_beg = kw.fac_beg ∧ kw'.fac_end = kw.fac_end ∧ kw'.y0 = kw.y0 ∧ kw'.num_eval = kw.num_eval ∧
      kw'.drop_closed_large_scales = kw.drop_closed_large_scales := by rw [hkw]; exact ⟨rfl, rfl, rfl, rfl, rfl⟩
  rw [f1, f2] at b1
  rw [f1] at b3 b5
  have hstop : stop' = stop := by rw [a1] at b1; exact (Except.ok.inj b1).symm
  subst hstop
  rw [a2, Option.some.injEq, Prod.mk.injEq] at b2
  obtain ⟨rfl, rfl⟩ := b2
  obtain rfl : pb' = pb := by rw [a3] at b3; exact (Option.some.inj b3).symm
  obtain rfl : pe' = pe := by rw [a4] at b4; exact (Option.some.inj b4).symm
  have hargs : ∀ m x dx, args b kw' (idxBeg b kw.fac_beg k) stop' m pb' pe' x dx = args b kw (idxBeg b kw.fac_beg k) stop' m pb' pe' x dx := by
    intro m x dx; simp only [args, f4]
  simp only [hargs, f3] at b5
  obtain ⟨c1, c2, c3, c4⟩ := a5 _ rfl
  obtain ⟨d1, d2, d3, d4⟩ := b5 _ rfl
  rw [c1] at d1; rw [c2] at d2; rw [c3] at d3; rw [c4] at d4
  cases d1; cases d2; cases d3; cases d4
  obtain ⟨v1, P1, Pe1, x1, x2, x3, -⟩ := (combineAll_get a6).1 vac hv
  obtain ⟨v2, P2, Pe2, y1, y2, y3, -⟩ := (combineAll_get b6).1 vac hv'
  obtain ⟨v3, P3, Pe3, z1, z2, z3, -⟩ := (combineAll_get a7).1 vac hv
  obtain ⟨v4, P4, Pe4, w1, w2, w3, -⟩ := (combineAll_get b7).1 vac hv'
  rw [x1] at y1; cases y1
  rw [z1] at w1; cases w1
  rw [x2] at y2; cases y2
  rw [z2] at w2; cases w2
  refine ⟨?_, by rw [w3, z3]⟩
  rw [a8, b8, f5]
  split_ifs
  · rw [Dict.get?_set, Dict.get?_set, x3, y3]
  · rw [x3, y3]

/-- The single call succeeds on the demonstration background. -/
theorem demo_single (K k : ℝ) (h1 : 1 / 2 ≤ k) (h2 : k ≤ 1) (drop : Bool) :
    ∃ r, solveOscode1 demoOsc (demoBg K) k { drop_closed_large_scales := drop, vacuum := ["k", "RST"] } = .ok r := by
  have hb : idxBeg (demoBg K) 0 k = 0 := if_pos rfl
  have hk : 0 < k := by linarith
  rw [single_eq]
  unfold oneMode
  dsimp only
  rw [hb, demo_idxEnd K k h1 h2]
  simp [modes, demoBg, runs, oscCall, demoOsc, pick, combineAll, byName, combine, ab, bind, Except.bind, pure, Except.pure]

/-- Hypotheses met: two wavenumbers, two vacua. -/
example : ∃ P, solveOscode demoOsc (demoBg 0) [1, 1 / 2, 1] { drop_closed_large_scales := true, vacuum := ["k", "RST"] } = .ok P := by
  refine (C53_errors _ _ _ _).1.2 fun k hk => ?_
  have : k = 1 ∨ k = 1 / 2 := by simpa [or_comm, or_assoc] using hk
  rcases this with rfl | rfl
  · exact demo_single 0 1 (by norm_num) le_rfl true
  · exact demo_single 0 (1 / 2) le_rfl (by norm_num) true

end Pert
end Primpy
