import Verif.Model.Solution
import Verif.Lemmas.Dict
import Verif.Props.C21

/-!
# C22 — post-processing of a solution (`Equations.sol`)
-/

namespace Primpy

/-- A variable name that does not collide with the attributes `Equations.sol` itself uses. -/
def CleanName (n : String) : Prop :=
  n ≠ "x" ∧ n ≠ "y" ∧ n ≠ "independent_variable" ∧ n ≠ "event_keys" ∧ ∀ m, n ≠ m ++ "_events"

/-- `j` is the last position at which `k` occurs in `ks`. -/
def LastAt (ks : List String) (k : String) (j : ℕ) : Prop :=
  ks[j]? = some k ∧ ∀ j', j < j' → ks[j']? ≠ some k

namespace C22

theorem events_ne {a b : String} (h : a ≠ b) : a ++ "_events" ≠ b ++ "_events" := by
  intro e; exact h (by simpa using e)

theorem setRows_ok (y : List (List ℝ)) (idx : Dict ℕ) (hnd : (idx.map Prod.fst).Nodup)
    (h : ∀ p ∈ idx, p.1 ≠ "y" ∧ p.2 < y.length) : ∀ s : Dict Attr, s.get? "y" = some (.rows y) →
    ∃ s', setRows idx s = .ok s' ∧ ∀ k, s'.get? k = match idx.get? k with
      | some i => some (.arr (y.getD i []))
      | none => s.get? k := by
  induction idx with
  | nil => intro s _; exact ⟨s, rfl, fun k => rfl⟩
  | cons p idx ih =>
    obtain ⟨name, i⟩ := p
    intro s hs
    simp only [List.map_cons, List.nodup_cons] at hnd
    obtain ⟨hny, hi⟩ := h (name, i) (by simp)
    simp only at hny hi
    obtain ⟨s', hs', hk⟩ := ih hnd.2 (fun p hp => h p (List.mem_cons_of_mem _ hp))
      (s.set name (.arr (y.getD i []))) (by rw [Dict.get?_set, if_neg (Ne.symm hny), hs])
    refine ⟨s', ?_, ?_⟩
    · unfold setRows
      have hg : y.getD i [] = y[i] := by simp [List.getD, List.getElem?_eq_getElem hi]
      rw [hg] at hs'
      simp only [hs, Attr.getRows, pyGet, bind, Except.bind, List.getElem?_eq_getElem hi]
      exact hs'
    · intro k
      rw [hk, Dict.get?_cons]
      by_cases hkn : k = name
      · subst hkn
        have : Dict.get? idx k = none := Dict.get?_eq_none.2 hnd.1
        simp [this, Dict.get?_set]
      · simp only [hkn, if_false]
        cases Dict.get? idx k with
        | none => simp [Dict.get?_set, hkn]
        | some j => rfl

theorem mapM_pyGet (i : ℕ) (value : List (List ℝ)) (h : ∀ st ∈ value, i < st.length) :
    value.mapM (fun st => pyGet st i) = .ok (value.map (fun st => st.getD i 0)) := by
  induction value with
  | nil => rfl
  | cons st value ih =>
    have hi : i < st.length := h st (by simp)
    rw [List.mapM_cons, ih (fun s hs => h s (List.mem_cons_of_mem _ hs))]
    simp [pyGet, List.getElem?_eq_getElem hi, bind, Except.bind, pure, Except.pure]

theorem columnOf_ok (i : ℕ) (d : Dict (List (List ℝ)))
    (h : ∀ p ∈ d, ∀ st ∈ p.2, i < st.length) :
    ∃ c, columnOf i d = .ok c ∧
      ∀ k, c.get? k = (d.get? k).map fun value => value.map fun st => st.getD i 0 := by
  induction d with
  | nil => exact ⟨[], rfl, fun k => rfl⟩
  | cons p d ih =>
    obtain ⟨key, value⟩ := p
    obtain ⟨c, hc, hk⟩ := ih (fun p hp => h p (List.mem_cons_of_mem _ hp))
    refine ⟨(key, value.map fun st => st.getD i 0) :: c, ?_, ?_⟩
    · unfold columnOf
      rw [mapM_pyGet i value (h (key, value) (by simp)), hc]
      rfl
    · intro k
      rw [Dict.get?_cons, Dict.get?_cons, hk]
      split_ifs <;> rfl

theorem setEventRows_ok (ye : Dict (List (List ℝ))) (idx : Dict ℕ)
    (hnd : (idx.map Prod.fst).Nodup)
    (h : ∀ p ∈ idx, p.1 ≠ "y" ∧ ∀ q ∈ ye, ∀ st ∈ q.2, p.2 < st.length) :
    ∀ s : Dict Attr, s.get? "y_events" = some (.evStates ye) →
    ∃ s', setEventRows idx s = .ok s' ∧
      (∀ name i, idx.get? name = some i → ∃ c, s'.get? (name ++ "_events") = some (.evArr c) ∧
        ∀ k, c.get? k = (ye.get? k).map fun value => value.map fun st => st.getD i 0) ∧
      (∀ k, (∀ name ∈ idx.map Prod.fst, k ≠ name ++ "_events") → s'.get? k = s.get? k) := by
  induction idx with
  | nil => intro s _; exact ⟨s, rfl, by simp, fun k _ => rfl⟩
  | cons p idx ih =>
    obtain ⟨name, i⟩ := p
    intro s hs
    simp only [List.map_cons, List.nodup_cons] at hnd
    obtain ⟨hny, hi⟩ := h (name, i) (by simp)
    simp only at hny hi
    obtain ⟨c, hc, hck⟩ := columnOf_ok i ye hi
    have hne : "y_events" ≠ name ++ "_events" := events_ne (a := "y") (Ne.symm hny)
    obtain ⟨s', hs', hrow, hrest⟩ := ih hnd.2 (fun p hp => h p (List.mem_cons_of_mem _ hp))
      (s.set (name ++ "_events") (.evArr c)) (by rw [Dict.get?_set, if_neg hne, hs])
    refine ⟨s', ?_, ?_, ?_⟩
    · unfold setEventRows
      rw [hs]
      simp only [Attr.getStates, bind, Except.bind, hc]
      exact hs'
    · intro n j hn
      rw [Dict.get?_cons] at hn
      by_cases hnn : n = name
      · subst hnn
        simp only [if_true, Option.some.injEq] at hn
        subst hn
        refine ⟨c, ?_, hck⟩
        rw [hrest, Dict.get?_set, if_pos rfl]
        intro m hm
        exact events_ne fun e => hnd.1 (e ▸ hm)
      · rw [if_neg hnn] at hn
        exact hrow n j hn
    · intro k hk
      simp only [List.map_cons, List.mem_cons, forall_eq_or_imp] at hk
      rw [hrest k hk.2, Dict.get?_set, if_neg hk.1]

theorem foldl_get? {α : Type} (l : List (String × α)) (k : String) (v : α) :
    Dict.get? (l.foldl (fun d p => Dict.set d p.1 p.2) []) k = some v ↔
      ∃ j : ℕ, l[j]? = some (k, v) ∧ ∀ j' : ℕ, j < j' → ∀ w, l[j']? ≠ some (k, w) := by
  induction l using List.reverseRecOn with
  | nil => simp
  | append_singleton l p ih =>
    obtain ⟨q, w⟩ := p
    rw [List.foldl_append, List.foldl_cons, List.foldl_nil, Dict.get?_set]
    by_cases hkq : k = q
    · subst hkq
      simp only [if_true, Option.some.injEq]
      constructor
      · rintro rfl
        refine ⟨l.length, by simp, ?_⟩
        intro j' hj' w
        rw [List.getElem?_eq_none (by simp; omega)]
        simp
      · rintro ⟨j, hj, hlast⟩
        have hjl : j < (l ++ [(k, w)]).length := by
          by_contra hcon
          rw [List.getElem?_eq_none (by omega)] at hj
          simp at hj
        have : j = l.length := by
          by_contra hne
          have : j < l.length := by simp at hjl; omega
          exact hlast l.length this w (by simp)
        subst this
        simpa using hj
    · simp only [hkq, if_false]
      rw [ih]
      constructor
      · rintro ⟨j, hj, hlast⟩
        have hjl : j < l.length := by
          by_contra hcon
          rw [List.getElem?_eq_none (by omega)] at hj
          simp at hj
        refine ⟨j, by rw [List.getElem?_append_left hjl]; exact hj, ?_⟩
        intro j' hj' u
        by_cases h1 : j' < l.length
        · rw [List.getElem?_append_left h1]; exact hlast j' hj' u
        · by_cases h2 : j' = l.length
          · subst h2; simp [Ne.symm hkq]
          · rw [List.getElem?_eq_none (by simp; omega)]; simp
      · rintro ⟨j, hj, hlast⟩
        have hjl : j < l.length := by
          by_contra hcon
          by_cases h2 : j = l.length
          · subst h2; simp at hj; exact hkq hj.1.symm
          · rw [List.getElem?_eq_none (by simp; omega)] at hj; simp at hj
        rw [List.getElem?_append_left hjl] at hj
        refine ⟨j, hj, ?_⟩
        intro j' hj' u hu
        have h1 : j' < l.length := by
          by_contra hcon
          rw [List.getElem?_eq_none (by omega)] at hu
          simp at hu
        exact hlast j' hj' u (by rw [List.getElem?_append_left h1]; exact hu)

theorem dictZip_get? {α : Type} (ks : List String) (vs : List α) (hl : ks.length = vs.length)
    (k : String) (v : α) : (dictZip ks vs).get? k = some v ↔ ∃ j, LastAt ks k j ∧ vs[j]? = some v := by
  unfold dictZip
  rw [foldl_get?]
  constructor
  · rintro ⟨j, hj, hlast⟩
    rw [List.getElem?_zip_eq_some] at hj
    refine ⟨j, ⟨hj.1, ?_⟩, hj.2⟩
    intro j' hj' hk
    have hlt : j' < vs.length := by
      by_contra hcon
      rw [List.getElem?_eq_none (by omega)] at hk
      simp at hk
    exact hlast j' hj' vs[j'] (by
      rw [List.getElem?_zip_eq_some]; exact ⟨hk, List.getElem?_eq_getElem hlt⟩)
  · rintro ⟨j, ⟨hk, hlast⟩, hv⟩
    refine ⟨j, by rw [List.getElem?_zip_eq_some]; exact ⟨hk, hv⟩, ?_⟩
    intro j' hj' w hw
    rw [List.getElem?_zip_eq_some] at hw
    exact hlast j' hj' hw.1

theorem lastAt_unique {ks : List String} {k : String} {i j : ℕ} (hi : LastAt ks k i)
    (hj : LastAt ks k j) : i = j := by
  rcases lt_trichotomy i j with h | h | h
  · exact absurd hj.1 (hi.2 j h)
  · exact h
  · exact absurd hi.1 (hj.2 i h)

theorem mem_dictZip {α : Type} (ks : List String) (vs : List α) :
    ∀ p ∈ dictZip ks vs, p.2 ∈ vs := by
  have mem_set : ∀ (d : Dict α) (k : String) (v : α) (p), p ∈ d.set k v → p ∈ d ∨ p.2 = v := by
    intro d k v
    induction d with
    | nil => intro p hp; simp [Dict.set] at hp; right; rw [hp]
    | cons q d ih =>
      obtain ⟨a, b⟩ := q
      intro p hp
      unfold Dict.set at hp
      split_ifs at hp with h
      · rcases List.mem_cons.1 hp with hp | hp
        · right; rw [hp]
        · left; simp [hp]
      · rcases List.mem_cons.1 hp with hp | hp
        · left; simp [hp]
        · rcases ih p hp with h' | h'
          · left; simp [h']
          · right; exact h'
  have gen : ∀ (l : List (String × α)) (d : Dict α) (p),
      p ∈ l.foldl (fun d p => Dict.set d p.1 p.2) d → p ∈ d ∨ p.2 ∈ l.map Prod.snd := by
    intro l
    induction l with
    | nil => intro d p hp; left; exact hp
    | cons q l ih =>
      intro d p hp
      rcases ih _ p hp with h | h
      · rcases mem_set _ _ _ _ h with h' | h'
        · left; exact h'
        · right; simp [h']
      · right; simp [h]
  intro p hp
  rcases gen _ _ p hp with h | h
  · simp at h
  · rw [List.mem_map] at h
    obtain ⟨⟨a, b⟩, hab, hb⟩ := h
    rw [← hb]
    exact (List.of_mem_zip hab).2

end C22

/-- **C22, rows and independent variable.**  For every registration history with distinct clean
names and every scipy result (a matrix with as many rows as variables, `t`, and event lists of
matching length), post-processing succeeds and

* the independent variable is available as `x` and under its own name,
* the `i`-th row of `y` is available under the `i`-th variable's name,
* `<x>_events`, `x_events` map each event name to its times,
* `y_events` maps it to its states and `<variable>_events` to that variable's column of them
  (if several events carry the same name, the last one of them is what is stored),
* an attribute `t` remains only if it is the independent variable or a variable,
* every other attribute of the scipy result is unchanged. -/
theorem C22_postprocessing (h : List RegCall) (hnd : (addedNames h).Nodup) (xname : String)
    (hx : (afterCalls h).independent_variable = some xname)
    (hclean : ∀ n ∈ xname :: addedNames h, CleanName n) (hxn : xname ∉ addedNames h)
    (s : Dict Attr) (t : List ℝ) (y : List (List ℝ)) (ks : List String) (te : List (List ℝ))
    (ye : List (List (List ℝ)))
    (ht : s.get? "t" = some (.arr t)) (hy : s.get? "y" = some (.rows y))
    (hk : s.get? "event_keys" = some (.keys ks)) (hte : s.get? "t_events" = some (.tEvents te))
    (hye : s.get? "y_events" = some (.yEvents ye))
    (hrows : y.length = (addedNames h).length)
    (hlt : ks.length = te.length) (hly : ks.length = ye.length)
    (hstates : ∀ v ∈ ye, ∀ st ∈ v, st.length = (addedNames h).length) :
    ∃ s', (afterCalls h).sol s = .ok s' ∧
      s'.get? "independent_variable" = some (.str xname) ∧
      s'.get? "x" = some (.arr t) ∧ s'.get? xname = some (.arr t) ∧
      s'.get? "y" = some (.rows y) ∧
      (∀ i (hi : i < y.length) a, (addedNames h)[i]? = some a → s'.get? a = some (.arr y[i])) ∧
      (∃ d, s'.get? (xname ++ "_events") = some (.evArr d) ∧ s'.get? "x_events" = some (.evArr d) ∧
        ∀ k v, d.get? k = some v ↔ ∃ j, LastAt ks k j ∧ te[j]? = some v) ∧
      (∃ d, s'.get? "y_events" = some (.evStates d) ∧
        ∀ k v, d.get? k = some v ↔ ∃ j, LastAt ks k j ∧ ye[j]? = some v) ∧
      (∀ i a, (addedNames h)[i]? = some a → ∃ d, s'.get? (a ++ "_events") = some (.evArr d) ∧
        ∀ k v, d.get? k = some v ↔ ∃ j states, LastAt ks k j ∧ ye[j]? = some states ∧
          v = states.map fun st => st.getD i 0) ∧
      (xname ≠ "t" → "t" ∉ addedNames h → s'.get? "t" = none) ∧
      (∀ k, k ∉ xname :: addedNames h → (∀ m ∈ xname :: addedNames h, k ≠ m ++ "_events") →
        k ∉ ["t", "x", "independent_variable", "x_events", "t_events", "y_events"] →
        s'.get? k = s.get? k) := by
  have hidx := C21.idx_eq h hnd
  have hget : ∀ a i, Dict.get? (addedNames h).zipIdx a = some i ↔ (addedNames h)[i]? = some a :=
    fun a i => C21.get?_zipIdx hnd a i
  have hkeys : ((addedNames h).zipIdx.map Prod.fst) = addedNames h := by simp
  have hcn : ∀ n ∈ addedNames h, CleanName n := fun n hn => hclean n (List.mem_cons_of_mem _ hn)
  have hcx : CleanName xname := hclean xname (by simp)
  have hnone : ∀ k, k ∉ addedNames h → Dict.get? (addedNames h).zipIdx k = none := by
    intro k hk; rw [Dict.get?_eq_none, hkeys]; exact hk
  have hmem : ∀ p ∈ (addedNames h).zipIdx, p.1 ∈ addedNames h ∧ p.2 < (addedNames h).length := by
    intro p hp
    rw [List.mem_zipIdx_iff_getElem?] at hp
    refine ⟨List.mem_of_getElem? hp, ?_⟩
    by_contra hcon
    rw [List.getElem?_eq_none (by omega)] at hp
    simp at hp
  have nx : "x" ∉ addedNames h := fun hm => (hcn _ hm).1 rfl
  have ny : "y" ∉ addedNames h := fun hm => (hcn _ hm).2.1 rfl
  have ni : "independent_variable" ∉ addedNames h := fun hm => (hcn _ hm).2.2.1 rfl
  have nk : "event_keys" ∉ addedNames h := fun hm => (hcn _ hm).2.2.2.1 rfl
  have nev : ∀ m, m ++ "_events" ∉ addedNames h := fun m hm => (hcn _ hm).2.2.2.2 m rfl
  have nte : "t_events" ∉ addedNames h := nev "t"
  have nye : "y_events" ∉ addedNames h := nev "y"
  have nxe : "x_events" ∉ addedNames h := nev "x"
  have xx := hcx.1
  have xy := hcx.2.1
  have xi := hcx.2.2.1
  have xk := hcx.2.2.2.1
  have xev : ∀ m, m ++ "_events" ≠ xname := fun m => (hcx.2.2.2.2 m).symm
  have xte : "t_events" ≠ xname := xev "t"
  have xye : "y_events" ≠ xname := xev "y"
  have xxe : "x_events" ≠ xname := xev "x"
  -- stage 1
  obtain ⟨s1, hs1⟩ : ∃ s1, s1 = ((s.set "independent_variable" (.str xname)).set "x" (.arr t)).del "t" :=
    ⟨_, rfl⟩
  have g1 : ∀ k, s1.get? k = if k = "t" then none else if k = "x" then some (.arr t) else
      if k = "independent_variable" then some (.str xname) else s.get? k := by
    intro k; rw [hs1, Dict.get?_del, Dict.get?_set, Dict.get?_set]
  obtain ⟨s2, hs2, g2⟩ := C22.setRows_ok y (addedNames h).zipIdx (by rw [hkeys]; exact hnd)
    (fun p hp => ⟨fun e => ny (e ▸ (hmem p hp).1), by rw [hrows]; exact (hmem p hp).2⟩) s1
    (by rw [g1]; simp [hy])
  have g2' : ∀ k, k ∉ addedNames h → s2.get? k = s1.get? k := by
    intro k hk; rw [g2, hnone k hk]
  obtain ⟨s3, hs3⟩ : ∃ s3, s3 = s2.set xname (.arr t) := ⟨_, rfl⟩
  have g3 : ∀ k, s3.get? k = if k = xname then some (.arr t) else s2.get? k := by
    intro k; rw [hs3, Dict.get?_set]
  obtain ⟨s4, hs4⟩ : ∃ s4, s4 = s3.set "x_events" (.evArr (dictZip ks te)) := ⟨_, rfl⟩
  obtain ⟨s5, hs5⟩ : ∃ s5, s5 = (((s4.del "t_events").set (xname ++ "_events")
    (.evArr (dictZip ks te))).del "y_events").set "y_events" (.evStates (dictZip ks ye)) := ⟨_, rfl⟩
  have g5 : ∀ k, s5.get? k = if k = "y_events" then some (.evStates (dictZip ks ye)) else
      if k = xname ++ "_events" then some (.evArr (dictZip ks te)) else
      if k = "t_events" then none else
      if k = "x_events" then some (.evArr (dictZip ks te)) else s3.get? k := by
    intro k
    rw [hs5, Dict.get?_set, Dict.get?_del, Dict.get?_set, Dict.get?_del, hs4, Dict.get?_set]
    by_cases h1 : k = "y_events" <;> simp [h1]
  have hxye : xname ++ "_events" ≠ "y_events" := C22.events_ne (b := "y") xy
  obtain ⟨s6, hs6, grow, grest⟩ := C22.setEventRows_ok (dictZip ks ye) (addedNames h).zipIdx
    (by rw [hkeys]; exact hnd)
    (fun p hp => ⟨fun e => ny (e ▸ (hmem p hp).1), fun q hq st hst => by
      rw [hstates q.2 (C22.mem_dictZip ks ye q hq) st hst]; exact (hmem p hp).2⟩) s5
    (by rw [g5]; simp)
  rw [hkeys] at grest
  -- final lookup for keys that are not `<variable>_events`
  have g6 : ∀ k, (∀ m, k ≠ m ++ "_events") → s6.get? k = s3.get? k := by
    intro k hkm
    rw [grest k (fun n _ => hkm n), g5]
    rw [if_neg (show k ≠ "y_events" from hkm "y"), if_neg (hkm xname),
      if_neg (show k ≠ "t_events" from hkm "t"), if_neg (show k ≠ "x_events" from hkm "x")]
  have h7 : "_events".length = 7 := rfl
  have ex : ∀ m, "x" ≠ m ++ "_events" := by
    intro m e
    have := congrArg String.length e
    rw [String.length_append, h7, show "x".length = 1 from rfl] at this
    omega
  have ey : ∀ m, "y" ≠ m ++ "_events" := by
    intro m e
    have := congrArg String.length e
    rw [String.length_append, h7, show "y".length = 1 from rfl] at this
    omega
  have et : ∀ m, "t" ≠ m ++ "_events" := by
    intro m e
    have := congrArg String.length e
    rw [String.length_append, h7, show "t".length = 1 from rfl] at this
    omega
  have ei : ∀ m, "independent_variable" ≠ m ++ "_events" := by
    intro m e
    have := congrArg (fun s => s.toList.reverse) e
    simp at this
  refine ⟨s6, ?_, ?_, ?_, ?_, ?_, ?_, ?_, ?_, ?_, ?_, ?_⟩
  · unfold Equations.sol
    rw [hx, hidx]
    simp only [bind, Except.bind]
    have a1 : Dict.get? (Dict.set s "independent_variable" (Attr.str xname)) "t" = some (.arr t) := by
      rw [Dict.get?_set]; simp [ht]
    rw [a1]
    simp only [Attr.getArr]
    rw [← hs1, hs2]
    have a2 : s2.get? "x" = some (.arr t) := by rw [g2' _ nx, g1]; simp
    simp only [a2]
    rw [← hs3]
    have a3 : s3.get? "event_keys" = some (.keys ks) := by
      rw [g3, if_neg (Ne.symm xk), g2' _ nk, g1]; simp [hk]
    have a4 : s3.get? "t_events" = some (.tEvents te) := by
      rw [g3, if_neg xte, g2' _ nte, g1]; simp [hte]
    have a5 : s3.get? "y_events" = some (.yEvents ye) := by
      rw [g3, if_neg xye, g2' _ nye, g1]; simp [hye]
    simp only [a3, Attr.getKeys, a4, Attr.getT, ← hs4]
    have a6 : s4.get? "t_events" = some (.tEvents te) := by
      rw [hs4, Dict.get?_set]; simp [a4]
    have a7 : Dict.get? (Dict.set (Dict.del s4 "t_events") (xname ++ "_events")
        (Attr.evArr (dictZip ks te))) "y_events" = some (.yEvents ye) := by
      rw [Dict.get?_set, if_neg (Ne.symm hxye), Dict.get?_del, hs4, Dict.get?_set]
      simp [a5]
    simp only [a6, a7, Attr.getY]
    rw [← hs5]
    exact hs6
  · rw [g6 _ ei, g3, if_neg (Ne.symm xi), g2' _ ni, g1]; simp
  · rw [g6 _ ex, g3, if_neg (Ne.symm xx), g2' _ nx, g1]; simp
  · rw [g6 _ (fun m => (xev m).symm), g3, if_pos rfl]
  · rw [g6 _ ey, g3, if_neg (Ne.symm xy), g2' _ ny, g1]; simp [hy]
  · intro i hi a ha
    have ham : a ∈ addedNames h := List.mem_of_getElem? ha
    rw [g6 _ (hcn a ham).2.2.2.2, g3, if_neg (fun e => hxn (by rw [← e]; exact ham)), g2,
      (hget a i).2 ha]
    simp [List.getD, List.getElem?_eq_getElem hi]
  · refine ⟨dictZip ks te, ?_, ?_, C22.dictZip_get? ks te hlt⟩
    · rw [grest _ (fun m hm => C22.events_ne fun e => hxn (by rw [e]; exact hm)), g5, if_neg hxye,
        if_pos rfl]
    · rw [grest "x_events" (fun m hm => C22.events_ne (a := "x") fun e => nx (by rw [e]; exact hm)), g5]
      simp
  · refine ⟨dictZip ks ye, ?_, C22.dictZip_get? ks ye hly⟩
    rw [grest "y_events" (fun m hm => C22.events_ne (a := "y") fun e => ny (by rw [e]; exact hm)), g5]
    simp
  · intro i a ha
    obtain ⟨c, hc, hck⟩ := grow a i ((hget a i).2 ha)
    refine ⟨c, hc, ?_⟩
    intro k v
    rw [hck]
    constructor
    · intro hv
      rw [Option.map_eq_some_iff] at hv
      obtain ⟨states, hst, hv⟩ := hv
      obtain ⟨j, hj, hje⟩ := (C22.dictZip_get? ks ye hly k states).1 hst
      exact ⟨j, states, hj, hje, hv.symm⟩
    · rintro ⟨j, states, hj, hje, rfl⟩
      rw [(C22.dictZip_get? ks ye hly k states).2 ⟨j, hj, hje⟩]
      rfl
  · intro hxt htn
    rw [g6 _ et, g3, if_neg (Ne.symm hxt), g2' _ htn, g1]; simp
  · intro k hkn hkm hkr
    simp only [List.mem_cons, not_or, List.not_mem_nil, not_false_eq_true, and_true] at hkn hkr
    rw [grest k (fun m hm => hkm m (List.mem_cons_of_mem _ hm)), g5, if_neg hkr.2.2.2.2.2,
      if_neg (hkm xname (by simp)), if_neg hkr.2.2.2.2.1, if_neg hkr.2.2.2.1, g3, if_neg hkn.1,
      g2' _ hkn.2, g1, if_neg hkr.1, if_neg hkr.2.1, if_neg hkr.2.2.1]

/-- With pairwise distinct event names "the last position" is simply "the position". -/
theorem C22_distinct_keys {ks : List String} (hnd : ks.Nodup) (k : String) (j : ℕ) :
    LastAt ks k j ↔ ks[j]? = some k := by
  refine ⟨fun h => h.1, fun h => ⟨h, fun j' hj' h' => ?_⟩⟩
  have hj : j < ks.length := by
    by_contra hc; rw [List.getElem?_eq_none (by omega)] at h; simp at h
  have hj2 : j' < ks.length := by
    by_contra hc; rw [List.getElem?_eq_none (by omega)] at h'; simp at h'
  rw [List.getElem?_eq_getElem hj] at h
  rw [List.getElem?_eq_getElem hj2] at h'
  have := (List.Nodup.getElem_inj_iff hnd).1 ((Option.some.inj h).trans (Option.some.inj h').symm)
  omega

/-- **C22, without events** (a scipy result to which no `event_keys` was attached): the same
attributes for rows and independent variable, nothing else touched. -/
theorem C22_no_events (h : List RegCall) (hnd : (addedNames h).Nodup) (xname : String)
    (hx : (afterCalls h).independent_variable = some xname)
    (hclean : ∀ n ∈ xname :: addedNames h, CleanName n) (hxn : xname ∉ addedNames h)
    (s : Dict Attr) (t : List ℝ) (y : List (List ℝ))
    (ht : s.get? "t" = some (.arr t)) (hy : s.get? "y" = some (.rows y))
    (hk : s.get? "event_keys" = none) (hrows : y.length = (addedNames h).length) :
    ∃ s', (afterCalls h).sol s = .ok s' ∧
      s'.get? "x" = some (.arr t) ∧ s'.get? xname = some (.arr t) ∧
      (∀ i (hi : i < y.length) a, (addedNames h)[i]? = some a → s'.get? a = some (.arr y[i])) ∧
      (∀ k, k ∉ xname :: addedNames h → k ∉ ["t", "x", "independent_variable"] →
        s'.get? k = s.get? k) := by
  have hidx := C21.idx_eq h hnd
  have hget : ∀ a i, Dict.get? (addedNames h).zipIdx a = some i ↔ (addedNames h)[i]? = some a :=
    fun a i => C21.get?_zipIdx hnd a i
  have hkeys : ((addedNames h).zipIdx.map Prod.fst) = addedNames h := by simp
  have hcn : ∀ n ∈ addedNames h, CleanName n := fun n hn => hclean n (List.mem_cons_of_mem _ hn)
  have hcx : CleanName xname := hclean xname (by simp)
  have hnone : ∀ k, k ∉ addedNames h → Dict.get? (addedNames h).zipIdx k = none := by
    intro k hk; rw [Dict.get?_eq_none, hkeys]; exact hk
  have hmem : ∀ p ∈ (addedNames h).zipIdx, p.1 ∈ addedNames h ∧ p.2 < (addedNames h).length := by
    intro p hp
    rw [List.mem_zipIdx_iff_getElem?] at hp
    refine ⟨List.mem_of_getElem? hp, ?_⟩
    by_contra hcon
    rw [List.getElem?_eq_none (by omega)] at hp
    simp at hp
  have nx : "x" ∉ addedNames h := fun hm => (hcn _ hm).1 rfl
  have ny : "y" ∉ addedNames h := fun hm => (hcn _ hm).2.1 rfl
  have nk : "event_keys" ∉ addedNames h := fun hm => (hcn _ hm).2.2.2.1 rfl
  obtain ⟨s1, hs1⟩ : ∃ s1, s1 = ((s.set "independent_variable" (.str xname)).set "x" (.arr t)).del "t" :=
    ⟨_, rfl⟩
  have g1 : ∀ k, s1.get? k = if k = "t" then none else if k = "x" then some (.arr t) else
      if k = "independent_variable" then some (.str xname) else s.get? k := by
    intro k; rw [hs1, Dict.get?_del, Dict.get?_set, Dict.get?_set]
  obtain ⟨s2, hs2, g2⟩ := C22.setRows_ok y (addedNames h).zipIdx (by rw [hkeys]; exact hnd)
    (fun p hp => ⟨fun e => ny (e ▸ (hmem p hp).1), by rw [hrows]; exact (hmem p hp).2⟩) s1
    (by rw [g1]; simp [hy])
  have g2' : ∀ k, k ∉ addedNames h → s2.get? k = s1.get? k := by
    intro k hk; rw [g2, hnone k hk]
  have a1 : Dict.get? (Dict.set s "independent_variable" (Attr.str xname)) "t" = some (.arr t) := by
    rw [Dict.get?_set]; simp [ht]
  have a2 : s2.get? "x" = some (.arr t) := by rw [g2' _ nx, g1]; simp
  have a3 : (s2.set xname (.arr t)).get? "event_keys" = none := by
    rw [Dict.get?_set, if_neg (Ne.symm hcx.2.2.2.1), g2' _ nk, g1]; simp [hk]
  refine ⟨s2.set xname (.arr t), ?_, ?_, ?_, ?_, ?_⟩
  · unfold Equations.sol
    rw [hx, hidx]
    simp only [bind, Except.bind]
    rw [a1]
    simp only [Attr.getArr]
    rw [← hs1, hs2]
    simp only [a2, a3]
  · rw [Dict.get?_set, if_neg (Ne.symm hcx.1), a2]
  · rw [Dict.get?_set, if_pos rfl]
  · intro i hi a ha
    have ham : a ∈ addedNames h := List.mem_of_getElem? ha
    rw [Dict.get?_set, if_neg (fun e => hxn (by rw [← e]; exact ham)), g2, (hget a i).2 ha]
    simp [List.getD, List.getElem?_eq_getElem hi]
  · intro k hkn hkr
    simp only [List.mem_cons, not_or, List.not_mem_nil, not_false_eq_true, and_true] at hkn hkr
    rw [Dict.get?_set, if_neg hkn.1, g2' _ hkn.2, g1, if_neg hkr.1, if_neg hkr.2.1, if_neg hkr.2.2]

/-- **C22, the clean-name hypothesis is needed.**  A variable called `y` followed by any other
variable makes post-processing fail. -/
theorem C22_variable_named_y (b : String) (t r0 : List ℝ) (rest : List (List ℝ)) (hb : b ≠ "y") :
    ∃ m, (afterCalls [.indep "t", .add ["y", b]]).sol [("t", .arr t), ("y", .rows (r0 :: rest))] =
      .error (.typeError m) := by
  refine ⟨"matrix expected", ?_⟩
  have : (afterCalls [.indep "t", .add ["y", b]]).idx = [("y", 0), (b, 1)] := by
    simp [afterCalls, RegCall.run, Equations.add_variable, Equations.add_variable1, Equations.new,
      Equations.set_independent_variable, Dict.set, hb]
  unfold Equations.sol
  rw [this]
  rfl

/-- The hypotheses of `C22_postprocessing` are met by the registration of
`InflationEquationsT(track_eta=True)`, two grid points, and a terminal event seen once together
with one never seen. -/
example : ∃ s', (afterCalls [.indep "t", .add ["phi", "dphidt", "_N"], .add ["eta"]]).sol
    [("t", .arr [0, 1]), ("y", .rows [[9, 8], [-1, -2], [0, 5], [0, 3]]),
     ("event_keys", .keys ["Inflation_dir-1_term1", "Collapse"]),
     ("t_events", .tEvents [[1], []]), ("y_events", .yEvents [[[8, -2, 5, 3]], []]),
     ("success", .other 1)] = .ok s' ∧
    s'.get? "_N" = some (.arr [0, 5]) ∧ s'.get? "success" = some (.other 1) ∧
    ∃ d, s'.get? "_N_events" = some (.evArr d) ∧ d.get? "Inflation_dir-1_term1" = some [5] ∧
      d.get? "Collapse" = some [] := by
  have clean : ∀ n ∈ ["t", "phi", "dphidt", "_N", "eta"], CleanName n := by
    intro n hn
    have h7 : "_events".length = 7 := rfl
    have key : n.length < 7 ∧ n ≠ "x" ∧ n ≠ "y" ∧ n ≠ "independent_variable" ∧ n ≠ "event_keys" := by
      simp only [List.mem_cons, List.not_mem_nil, or_false] at hn
      rcases hn with rfl | rfl | rfl | rfl | rfl <;> decide
    refine ⟨key.2.1, key.2.2.1, key.2.2.2.1, key.2.2.2.2, fun m e => ?_⟩
    have := congrArg String.length e
    rw [String.length_append, h7] at this
    omega
  obtain ⟨s', hs, -, -, -, -, hrow, -, -, hev, -, hrest⟩ := C22_postprocessing
    [.indep "t", .add ["phi", "dphidt", "_N"], .add ["eta"]] (by simp [addedNames]) "t" rfl
    (by simpa [addedNames] using clean) (by simp [addedNames])
    [("t", .arr [0, 1]), ("y", .rows [[9, 8], [-1, -2], [0, 5], [0, 3]]),
     ("event_keys", .keys ["Inflation_dir-1_term1", "Collapse"]),
     ("t_events", .tEvents [[1], []]), ("y_events", .yEvents [[[8, -2, 5, 3]], []]),
     ("success", .other 1)] _ _ _ _ _ rfl rfl rfl rfl rfl rfl rfl rfl (by simp [addedNames])
  refine ⟨s', hs, hrow 2 (by simp) "_N" rfl, ?_, ?_⟩
  · rw [hrest "success" (by simp [addedNames]) ?_ (by simp)]
    · rfl
    · intro m _ e
      have := congrArg (fun s => s.toList.reverse) e
      simp at this
  · obtain ⟨d, hd, hdk⟩ := hev 2 "_N" rfl
    refine ⟨d, hd, ?_, ?_⟩
    · rw [hdk]
      exact ⟨0, [[8, -2, 5, 3]], (C22_distinct_keys (by simp) _ _).2 rfl, rfl, by simp⟩
    · rw [hdk]
      exact ⟨1, [], (C22_distinct_keys (by simp) _ _).2 rfl, rfl, by simp⟩

end Primpy
