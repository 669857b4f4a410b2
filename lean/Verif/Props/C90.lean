import Verif.Lemmas.Solver
import Verif.Props.C26
import Verif.Props.C77

/-!
# C90: `solve` — from initial conditions and keyword arguments to the post-processed solution

`scipy.integrate.solve_ivp` is an oracle.  The theorems say what it is asked, and what `solve` makes of its answer: every attribute of the returned object, for
every answer of the shape scipy documents; and, if the answer samples a solution of the equations and records the events faithfully, the physical meaning of the
attributes that describe inflation.
-/

namespace Primpy
open Real Set Spec Bunch

/-! ## Specification -/

/-- the name of the independent variable -/
def Eqs.xname : Eqs → String | .T _ => "t" | .N _ => "_N" | .other _ _ => ""

/-- One of the two shipped classes. -/
def Eqs.Shipped (E : Eqs) : Prop := ∀ K p, E ≠ .other K p

/-- The request that has to reach scipy, given the keyword arguments `kw` of `solve` and the attributes `c` and the state vector `y` of the initial condition:
start in time or e-folds according to the formulation, the user's end point, one number per variable, the user's events (none if not given), the
user's solver settings, and primpy's defaults where the user gave none. -/
structure Requested (E : Eqs) (kw : SolveKw) (c : IC) (y : ℕ → Option ℝ) (q : IvpCall) : Prop where
  start_time : ∀ e, E = .T e → q.x_ini = c.t_i
  start_efolds : ∀ e, E = .N e → q.x_ini = c.N_i
  stop : q.x_end = c.x_end
  size : q.y0.length = E.idx.length
  state : ∀ i < E.idx.length, q.y0[i]? = some (y i)
  events : (∀ l, kw.events = some l → q.events = l) ∧ (kw.events = none → q.events = [])
  method : (∀ m, kw.method = some m → q.method = m) ∧ (kw.method = none → q.method = "RK45")
  rtol : (∀ m, kw.rtol = some m → q.rtol = m) ∧ (kw.rtol = none → q.rtol = 1 / 10000000000)
  atol : (∀ m, kw.atol = some m → q.atol = m) ∧ (kw.atol = none → q.atol = 1 / 1000000000000)
  rest : q.rest = kw.rest

/-- The shape of a scipy result for `n` variables and `m` events: grid `t` (never empty), one row of the same length per variable, and for each event the places
and the states at which it happened. -/
structure IvpShape (n m : ℕ) (res : Dict Attr) (t : List ℝ) (y : List (List ℝ)) (te : List (List ℝ)) (ye : List (List (List ℝ))) : Prop where
  t_ne : t ≠ []
  get_t : res.get? "t" = some (.arr t)
  get_y : res.get? "y" = some (.rows y)
  get_te : res.get? "t_events" = some (.tEvents te)
  get_ye : res.get? "y_events" = some (.yEvents ye)
  rows : y.length = n
  cols : ∀ r ∈ y, r.length = t.length
  te_len : te.length = m
  ye_len : ye.length = m
  occ : ∀ (j : ℕ) ts ss, te[j]? = some ts → ye[j]? = some ss → ts.length = ss.length
  states : ∀ v ∈ ye, ∀ st ∈ v, st.length = n

/-! ## Post-processing of the two shipped classes -/

namespace C90

theorem getD_lt {α : Type} {l : List α} {i : ℕ} (d : α) (h : i < l.length) : l.getD i d = l[i] := by
  simp [List.getD, List.getElem?_eq_getElem h]

theorem clean : ∀ n ∈ ["t", "phi", "dphidt", "dphidN", "_N", "eta"], CleanName n := by
  intro n hn
  have h7 : "_events".length = 7 := rfl
  have key : n.length < 7 ∧ n ≠ "x" ∧ n ≠ "y" ∧ n ≠ "independent_variable" ∧ n ≠ "event_keys" := by
    simp only [List.mem_cons, List.not_mem_nil, or_false] at hn
    rcases hn with rfl | rfl | rfl | rfl | rfl | rfl <;> decide
  refine ⟨key.2.1, key.2.2.1, key.2.2.2.1, key.2.2.2.2, fun m e => ?_⟩
  have := congrArg String.length e
  rw [String.length_append, h7] at this
  omega

/-- the attributes after `Equations.sol`, for any registration history -/
theorem post (h : List RegCall) (hnd : (addedNames h).Nodup) (xname : String) (hx : (afterCalls h).independent_variable = some xname)
    (hsub : ∀ n ∈ xname :: addedNames h, n ∈ ["t", "phi", "dphidt", "dphidN", "_N", "eta"]) (hxn : xname ∉ addedNames h)
    {res : Dict Attr} {t : List ℝ} {y : List (List ℝ)} {te : List (List ℝ)} {ye : List (List (List ℝ))} {ks : List String}
    (sh : IvpShape (addedNames h).length ks.length res t y te ye) :
    ∃ s, (afterCalls h).sol (res.set "event_keys" (.keys ks)) = .ok s ∧ s.get? "x" = some (.arr t) ∧ s.get? xname = some (.arr t) ∧ s.get? "y" = some (.rows y) ∧
      s.get? "independent_variable" = some (.str xname) ∧ s.get? "event_keys" = some (.keys ks) ∧
      (∀ i a, (addedNames h)[i]? = some a → s.get? a = some (.arr (y.getD i []))) ∧
      (∃ d, s.get? "x_events" = some (.evArr d) ∧ s.get? (xname ++ "_events") = some (.evArr d) ∧ ∀ k, d.get? k = ((ivpEvents ks te ye).get? k).map (·.map Prod.fst)) ∧
      (∃ d, s.get? "y_events" = some (.evStates d) ∧ ∀ k, (d.get? k).map (·.map state) = ((ivpEvents ks te ye).get? k).map (·.map Prod.snd)) ∧
      (∀ i a, (addedNames h)[i]? = some a → ∃ d, s.get? (a ++ "_events") = some (.evArr d) ∧ ∀ k, d.get? k = ((ivpEvents ks te ye).get? k).map (·.map fun p => p.2 i)) ∧
      (∀ k, k ∉ xname :: addedNames h → (∀ m ∈ xname :: addedNames h, k ≠ m ++ "_events") →
        k ∉ ["t", "x", "independent_variable", "x_events", "t_events", "y_events", "event_keys"] → s.get? k = res.get? k) := by
  have g : ∀ k, k ≠ "event_keys" → (res.set "event_keys" (.keys ks)).get? k = res.get? k := fun k hk => by rw [Dict.get?_set, if_neg hk]
  have cn : ∀ n ∈ xname :: addedNames h, CleanName n := fun n hn => clean n (hsub n hn)
  have hl : ks.length = te.length := sh.te_len.symm
  have hl' : ks.length = ye.length := sh.ye_len.symm
  obtain ⟨s, hs, hind, hX, hXn, hY, hrow, ⟨dx, hdx, hdx', hdk⟩, ⟨dy, hdy, hdyk⟩, hev, -, hrest⟩ := C22_postprocessing h hnd xname hx cn hxn
    (res.set "event_keys" (.keys ks)) t y ks te ye (by rw [g _ (by decide)]; exact sh.get_t) (by rw [g _ (by decide)]; exact sh.get_y)
    (by rw [Dict.get?_set, if_pos rfl]) (by rw [g _ (by decide)]; exact sh.get_te) (by rw [g _ (by decide)]; exact sh.get_ye) sh.rows hl hl' sh.states
  have both : ∀ {k : String} {j : ℕ}, LastAt ks k j → ∃ ts ss, te[j]? = some ts ∧ ye[j]? = some ss := fun hj => by
    obtain ⟨ts, h1⟩ := exists_getElem? (l := te) (hl ▸ hj.lt)
    obtain ⟨ss, h2⟩ := exists_getElem? (l := ye) (hl' ▸ hj.lt)
    exact ⟨ts, ss, h1, h2⟩
  refine ⟨s, hs, hX, hXn, hY, hind, ?_, fun i a ha => ?_, ⟨dx, hdx', hdx, ?_⟩, ⟨dy, hdy, fun k => ?_⟩, fun i a ha => ?_, fun k h1 h2 h3 => ?_⟩
  · rw [hrest "event_keys" (fun hm => (cn _ hm).2.2.2.1 rfl) (fun m _ e => ?_) (by decide), Dict.get?_set, if_pos rfl]
    have := congrArg (fun s => s.toList.reverse) e
    simp at this
  · have hi : i < y.length := by
      rw [sh.rows]
      by_contra hc
      rw [List.getElem?_eq_none (by omega)] at ha
      cases ha
    rw [hrow i hi a ha, getD_lt _ hi]
  · refine dict_eq_map hl hl' sh.occ (g := fun ts _ => ts) (fun k v => ?_) (fun ts ss hlen => ?_)
    · rw [hdk]
      constructor
      · rintro ⟨j, hj, hv⟩
        obtain ⟨ts, ss, h1, h2⟩ := both hj
        exact ⟨j, v, ss, hj, hv, h2, rfl⟩
      · rintro ⟨j, ts, ss, hj, h1, -, rfl⟩; exact ⟨j, hj, h1⟩
    · rw [List.map_fst_zip (by simp [hlen])]
  · apply Option.ext
    intro v
    simp only [Option.map_eq_some_iff, dictZip_pairs_get? hl hl', hdyk]
    constructor
    · rintro ⟨ss, ⟨j, hj, h2⟩, rfl⟩
      obtain ⟨ts, -, h1, -⟩ := both hj
      exact ⟨_, ⟨j, ts, ss, hj, h1, h2, rfl⟩, by rw [List.map_snd_zip (by simp [sh.occ j ts ss h1 h2])]⟩
    · rintro ⟨-, ⟨j, ts, ss, hj, h1, h2, rfl⟩, rfl⟩
      exact ⟨ss, ⟨j, hj, h2⟩, by rw [List.map_snd_zip (by simp [sh.occ j ts ss h1 h2])]⟩
  · obtain ⟨d, hd, hk⟩ := hev i a ha
    refine ⟨d, hd, dict_eq_map hl hl' sh.occ (g := fun _ ss => ss.map fun st => st.getD i 0) (fun k v => ?_) (fun ts ss hlen => ?_)⟩
    · rw [hk]
      constructor
      · rintro ⟨j, ss, hj, h2, rfl⟩
        obtain ⟨ts, -, h1, -⟩ := both hj
        exact ⟨j, ts, ss, hj, h1, h2, rfl⟩
      · rintro ⟨j, ts, ss, hj, -, h2, rfl⟩; exact ⟨j, ss, hj, h2, rfl⟩
    · rw [show (fun p : ℝ × (ℕ → ℝ) => p.2 i) = (fun f : ℕ → ℝ => f i) ∘ Prod.snd from rfl, ← List.map_map, List.map_snd_zip (by simp [hlen]), List.map_map]
      rfl
  · rw [hrest k h1 h2 (fun hm => h3 (by simp only [List.mem_cons, List.not_mem_nil, or_false] at hm ⊢; tauto)),
      g k (fun e => h3 (by simp [e]))]

theorem onGrid_row {t : List ℝ} {y : List (List ℝ)} (i : ℕ) (hi : i < y.length) (hc : ∀ r ∈ y, r.length = t.length) :
    onGrid t y (fun _ v => v i) = y.getD i [] := by
  have hlen : (y.getD i []).length = t.length := by rw [getD_lt _ hi]; exact hc _ (List.getElem_mem hi)
  obtain ⟨r, hr⟩ : ∃ r, r = y.getD i [] := ⟨_, rfl⟩
  have hc : onGrid t y (fun _ v => v i) = (List.range t.length).map fun j => r.getD j 0 := by rw [hr]; rfl
  rw [hc, ← hr]
  rw [← hr] at hlen
  apply List.ext_getElem
  · simp [hlen]
  · intro j h1 h2
    rw [List.getElem_map, List.getElem_range, getD_lt _ h2]

theorem onGrid_x {t : List ℝ} {y : List (List ℝ)} : onGrid t y (fun x _ => x) = t := by
  apply List.ext_getElem
  · simp [onGrid]
  · intro j h1 h2
    simp only [onGrid, List.getElem_map, List.getElem_range]
    exact getD_lt _ h2

/-- The registration history of the constructors. -/
def history : Eqs → List RegCall
  | .T e => [.indep "t", .add ["phi", "dphidt", "_N"]] ++ if e.track_eta then [.add ["eta"]] else []
  | .N e => [.indep "_N", .add ["phi", "dphidN"]] ++ (if e.track_time then [.add ["t"]] else []) ++ if e.track_eta then [.add ["eta"]] else []
  | .other _ _ => []

/-- the view used for post-processing -/
noncomputable abbrev view (E : Eqs) : EqView := Shooting.view E

theorem sol_ok (E : Eqs) (hE : E.Shipped) {res : Dict Attr} {t : List ℝ} {y : List (List ℝ)} {te : List (List ℝ)} {ye : List (List (List ℝ))} {ks : List String}
    (sh : IvpShape E.idx.length ks.length res t y te ye) {raw : RawSol} (hraw : IsRaw ks t y te ye raw) :
    ∃ s, E.sol (res.set "event_keys" (.keys ks)) = .ok (s, inflationSol (view E) E.pot.V E.K raw) ∧ s.get? "x" = some (.arr t) ∧ s.get? E.xname = some (.arr t) ∧
      s.get? "y" = some (.rows y) ∧ s.get? "independent_variable" = some (.str E.xname) ∧ s.get? "event_keys" = some (.keys ks) ∧
      (∀ a i, E.idx.get? a = some i → s.get? a = some (.arr (y.getD i []))) ∧
      (∃ d, s.get? "x_events" = some (.evArr d) ∧ s.get? (E.xname ++ "_events") = some (.evArr d) ∧ ∀ k, d.get? k = (raw.events.get? k).map (·.map Prod.fst)) ∧
      (∀ a i, E.idx.get? a = some i → ∃ d, s.get? (a ++ "_events") = some (.evArr d) ∧ ∀ k, d.get? k = (raw.events.get? k).map (·.map fun p => p.2 i)) ∧
      (∀ k ∈ ["success", "message", "status", "nfev", "njev", "nlu", "sol"], s.get? k = res.get? k) ∧
      (∀ k, k ∉ E.xname :: E.idx.map Prod.fst → (∀ m : String, k ≠ m ++ "_events") →
        k ∉ ["t", "x", "independent_variable", "x_events", "t_events", "y_events", "event_keys"] → s.get? k = res.get? k) := by
  have others : ∀ k ∈ ["success", "message", "status", "nfev", "njev", "nlu", "sol"], k ∉ ["t", "phi", "dphidt", "dphidN", "_N", "eta"] ∧
      (∀ m : String, k ≠ m ++ "_events") ∧ k ∉ ["t", "x", "independent_variable", "x_events", "t_events", "y_events", "event_keys"] := by
    intro k hk
    simp only [List.mem_cons, List.not_mem_nil, or_false] at hk
    rcases hk with rfl | rfl | rfl | rfl | rfl | rfl | rfl <;> refine ⟨by decide, fun m e => ?_, by decide⟩ <;>
      · have := congrArg (fun s => s.toList.reverse) e
        simp at this
  cases E with
  | other K p => exact absurd rfl (hE K p)
  | T e =>
    obtain ⟨K, pot, te'⟩ := e
    have hh : ∀ b, (⟨K, pot, b⟩ : InflT).eqs = afterCalls (history (.T ⟨K, pot, b⟩)) := fun b => by cases b <;> rfl
    have hidx : (Eqs.T ⟨K, pot, te'⟩).idx = (addedNames (history (.T ⟨K, pot, te'⟩))).zipIdx := by cases te' <;> rfl
    have hnd : (addedNames (history (.T ⟨K, pot, te'⟩))).Nodup := by cases te' <;> simp [history, addedNames]
    have hlen : (Eqs.T ⟨K, pot, te'⟩).idx.length = (addedNames (history (.T ⟨K, pot, te'⟩))).length := by rw [hidx]; simp
    rw [hlen] at sh
    have hsub : ∀ n ∈ "t" :: addedNames (history (.T ⟨K, pot, te'⟩)), n ∈ ["t", "phi", "dphidt", "dphidN", "_N", "eta"] := by
      cases te' <;> simp [history, addedNames]
    obtain ⟨s, hs, hx, hxn, hy, hind, hkeys, hrow, hxe, hye, hev, hrest⟩ := post _ hnd "t" (by cases te' <;> rfl) hsub (by cases te' <;> simp [history, addedNames]) sh
    rw [← hraw.events] at hxe hye hev
    have idxN : (addedNames (history (.T ⟨K, pot, te'⟩)))[2]? = some "_N" := by cases te' <;> rfl
    have idxP : (addedNames (history (.T ⟨K, pot, te'⟩)))[0]? = some "phi" := by cases te' <;> rfl
    have h2 : 2 < y.length := by rw [sh.rows]; cases te' <;> simp [history, addedNames]
    have att : Attrs (view (.T ⟨K, pot, te'⟩)) s t y raw.events :=
      { hx := hx, hy := hy, hN := by rw [hrow 2 _ idxN, ← onGrid_row 2 h2 sh.cols]; rfl, NE := hev 2 _ idxN, PE := hev 0 _ idxP
        XE := by obtain ⟨d, h1, -, h3⟩ := hxe; exact ⟨d, h1, h3⟩
        YE := hye }
    have hb := inflationSolB_eq (V := pot.V) (K := K) (eqs := InflT.eqs ⟨K, pot, te'⟩) (by rw [hh te']; exact hs) att hraw.grid
    refine ⟨s, hb, hx, hxn, hy, hind, hkeys, fun a i ha => ?_, hxe, fun a i ha => ?_, fun k hk => ?_, fun k h1 h2 h3 => ?_⟩
    · rw [hidx, C21.get?_zipIdx hnd] at ha; exact hrow i a ha
    · rw [hidx, C21.get?_zipIdx hnd] at ha; exact hev i a ha
    · obtain ⟨o1, o2, o3⟩ := others k hk
      exact hrest k (fun hm => o1 (hsub k hm)) (fun m _ => o2 m) o3
    · rw [hidx] at h1
      exact hrest k (by simpa [Eqs.xname, List.zipIdx_map_fst] using h1) (fun m _ => h2 m) h3
  | N e =>
    obtain ⟨K, pot, tt, te'⟩ := e
    have hh : ∀ a b, (⟨K, pot, a, b⟩ : InflN).eqs = afterCalls (history (.N ⟨K, pot, a, b⟩)) := fun a b => by cases a <;> cases b <;> rfl
    have hidx : (Eqs.N ⟨K, pot, tt, te'⟩).idx = (addedNames (history (.N ⟨K, pot, tt, te'⟩))).zipIdx := by cases tt <;> cases te' <;> rfl
    have hnd : (addedNames (history (.N ⟨K, pot, tt, te'⟩))).Nodup := by cases tt <;> cases te' <;> simp [history, addedNames]
    have hlen : (Eqs.N ⟨K, pot, tt, te'⟩).idx.length = (addedNames (history (.N ⟨K, pot, tt, te'⟩))).length := by rw [hidx]; simp
    rw [hlen] at sh
    have hsub : ∀ n ∈ "_N" :: addedNames (history (.N ⟨K, pot, tt, te'⟩)), n ∈ ["t", "phi", "dphidt", "dphidN", "_N", "eta"] := by
      cases tt <;> cases te' <;> simp [history, addedNames]
    obtain ⟨s, hs, hx, hxn, hy, hind, hkeys, hrow, hxe, hye, hev, hrest⟩ := post _ hnd "_N" (by cases tt <;> cases te' <;> rfl) hsub
      (by cases tt <;> cases te' <;> simp [history, addedNames]) sh
    rw [← hraw.events] at hxe hye hev
    have idxP : (addedNames (history (.N ⟨K, pot, tt, te'⟩)))[0]? = some "phi" := by cases tt <;> cases te' <;> rfl
    have att : Attrs (view (.N ⟨K, pot, tt, te'⟩)) s t y raw.events :=
      { hx := hx, hy := hy, hN := by rw [hxn]; exact congrArg (fun l => some (Attr.arr l)) onGrid_x.symm
        NE := by obtain ⟨d, -, h2, h3⟩ := hxe; exact ⟨d, h2, h3⟩
        PE := hev 0 _ idxP
        XE := by obtain ⟨d, h1, -, h3⟩ := hxe; exact ⟨d, h1, h3⟩
        YE := hye }
    have hb := inflationSolB_eq (V := pot.V) (K := K) (eqs := InflN.eqs ⟨K, pot, tt, te'⟩) (by rw [hh tt te']; exact hs) att hraw.grid
    refine ⟨s, hb, hx, hxn, hy, hind, hkeys, fun a i ha => ?_, hxe, fun a i ha => ?_, fun k hk => ?_, fun k h1 h2 h3 => ?_⟩
    · rw [hidx, C21.get?_zipIdx hnd] at ha; exact hrow i a ha
    · rw [hidx, C21.get?_zipIdx hnd] at ha; exact hev i a ha
    · obtain ⟨o1, o2, o3⟩ := others k hk
      exact hrest k (fun hm => o1 (hsub k hm)) (fun m _ => o2 m) o3
    · rw [hidx] at h1
      exact hrest k (by simpa [Eqs.xname, List.zipIdx_map_fst] using h1) (fun m _ => h2 m) h3

end C90

/-! ## What is asked, and what is returned -/

/-- the request `solve` makes -/
theorem requested (E : Eqs) (kw : SolveKw) (c : IC) (y : ℕ → Option ℝ) :
    Requested E kw c y ⟨c.x_ini E, c.x_end, (List.range E.idx.length).map y, kw.events.getD [], kw.method.getD "RK45", kw.rtol.getD (1 / 10 ^ 10), kw.atol.getD (1 / 10 ^ 12), kw.rest⟩ where
  start_time := by rintro e rfl; rfl
  start_efolds := by rintro e rfl; rfl
  stop := rfl
  size := by simp
  state := fun i hi => by simp [hi]
  events := ⟨fun l hl => by simp [hl], fun hl => by simp [hl]⟩
  method := ⟨fun l hl => by simp [hl], fun hl => by simp [hl]⟩
  rtol := ⟨fun l hl => by simp [hl], fun hl => by simp [hl]; norm_num⟩
  atol := ⟨fun l hl => by simp [hl], fun hl => by simp [hl]; norm_num⟩
  rest := rfl

/-- the request is unique -/
theorem Requested.unique {E : Eqs} (hE : E.Shipped) {kw : SolveKw} {c : IC} {y : ℕ → Option ℝ} {q q' : IvpCall} (h : Requested E kw c y q) (h' : Requested E kw c y q') : q = q' := by
  obtain ⟨x, z, y0, ev, m, r, a, rs⟩ := q
  obtain ⟨x', z', y0', ev', m', r', a', rs'⟩ := q'
  have e1 : x = x' := by
    cases E with
    | T e => exact (h.start_time e rfl).trans (h'.start_time e rfl).symm
    | N e => exact (h.start_efolds e rfl).trans (h'.start_efolds e rfl).symm
    | other K p => exact absurd rfl (hE K p)
  have e2 : z = z' := h.stop.trans h'.stop.symm
  have e3 : y0 = y0' := by
    have l1 : y0.length = _ := h.size
    have l2 : y0'.length = _ := h'.size
    apply List.ext_getElem?
    intro i
    by_cases hi : i < E.idx.length
    · exact (h.state i hi).trans (h'.state i hi).symm
    · rw [List.getElem?_eq_none (by omega), List.getElem?_eq_none (by omega)]
  have e4 : ev = ev' := by
    cases hk : kw.events with
    | none => exact (h.events.2 hk).trans (h'.events.2 hk).symm
    | some l => exact (h.events.1 l hk).trans (h'.events.1 l hk).symm
  have e5 : m = m' := by
    cases hk : kw.method with
    | none => exact (h.method.2 hk).trans (h'.method.2 hk).symm
    | some l => exact (h.method.1 l hk).trans (h'.method.1 l hk).symm
  have e6 : r = r' := by
    cases hk : kw.rtol with
    | none => exact (h.rtol.2 hk).trans (h'.rtol.2 hk).symm
    | some l => exact (h.rtol.1 l hk).trans (h'.rtol.1 l hk).symm
  have e7 : a = a' := by
    cases hk : kw.atol with
    | none => exact (h.atol.2 hk).trans (h'.atol.2 hk).symm
    | some l => exact (h.atol.1 l hk).trans (h'.atol.1 l hk).symm
  have e8 : rs = rs' := h.rest.trans h'.rest.symm
  rw [e1, e2, e3, e4, e5, e6, e7, e8]

theorem solve_eq {ivp : SolveIvp} {fmtE : ℝ → String} {E : Eqs} {ic : ICCall} {kw : SolveKw} {c : IC} {y : ℕ → Option ℝ} {q : IvpCall} (hE : E.Shipped)
    (hic : ic (kw.rtol.getD (1 / 10 ^ 10)) (kw.atol.getD (1 / 10 ^ 12)) kw.rest (fun _ => some 0) = .ok (c, y)) (hq : Requested E kw c y q) :
    solve ivp fmtE E ic [] kw = (ivp E q >>= fun res => E.sol (res.set "event_keys" (.keys (q.events.map (Event.name fmtE))))) := by
  have hu := hq.unique hE (requested E kw c y)
  unfold solve
  rw [hu]
  simp only [bind, Except.bind, hic]

/-- **C90, the returned object.**  Let the initial condition succeed, and let scipy answer the request described by `Requested` with a result of the documented
shape.  Then `solve` succeeds, and for the object it returns

* the grid is available as `x` and under the name of the independent variable, and each variable's row under its own name,
* `x_events`, `<independent variable>_events` and `<variable>_events` give, for the name of each tracked event, the places and that variable's values there (for
  several events of one name, those of the last), all taken from one and the same list of events,
* `success`, `message`, `status`, … are scipy's,
* start, end, duration and mask of inflation, `H`, `w`, `logaH`, `Omega_K` are those of `inflationSol` (C25, C77, C78) on exactly these grid points and
  events. -/
theorem C90_solve (ivp : SolveIvp) (fmtE : ℝ → String) (E : Eqs) (hE : E.Shipped) (ic : ICCall) (kw : SolveKw) (c : IC) (y0 : ℕ → Option ℝ) (q : IvpCall)
    (hic : ic (kw.rtol.getD (1 / 10 ^ 10)) (kw.atol.getD (1 / 10 ^ 12)) kw.rest (fun _ => some 0) = .ok (c, y0)) (hq : Requested E kw c y0 q)
    {res : Dict Attr} {t : List ℝ} {y : List (List ℝ)} {te : List (List ℝ)} {ye : List (List (List ℝ))} (hivp : ivp E q = .ok res)
    (sh : IvpShape E.idx.length q.events.length res t y te ye) :
    ∃ b raw, solve ivp fmtE E ic [] kw = .ok (b, inflationSol (C90.view E) E.pot.V E.K raw) ∧
      raw.grid = (List.range t.length).map (fun j => (t.getD j 0, fun i => (y.getD i []).getD j 0)) ∧
      (∀ k l, raw.events.get? k = some l ↔ ∃ j ts ss, LastAt (q.events.map (Event.name fmtE)) k j ∧ te[j]? = some ts ∧ ye[j]? = some ss ∧
        l = ts.zip (ss.map fun st i => st.getD i 0)) ∧
      b.get? "x" = some (.arr t) ∧ b.get? E.xname = some (.arr t) ∧ b.get? "y" = some (.rows y) ∧ b.get? "independent_variable" = some (.str E.xname) ∧
      (∀ a i, E.idx.get? a = some i → ∃ r, y[i]? = some r ∧ b.get? a = some (.arr r)) ∧
      (∃ d, b.get? "x_events" = some (.evArr d) ∧ b.get? (E.xname ++ "_events") = some (.evArr d) ∧ ∀ k, d.get? k = (raw.events.get? k).map (·.map Prod.fst)) ∧
      (∀ a i, E.idx.get? a = some i → ∃ d, b.get? (a ++ "_events") = some (.evArr d) ∧ ∀ k, d.get? k = (raw.events.get? k).map (·.map fun p => p.2 i)) ∧
      (∀ k ∈ ["success", "message", "status", "nfev", "njev", "nlu", "sol"], b.get? k = res.get? k) := by
  have sh' : IvpShape E.idx.length (q.events.map (Event.name fmtE)).length res t y te ye := by rw [List.length_map]; exact sh
  obtain ⟨raw, hraw⟩ := exists_raw (q.events.map (Event.name fmtE)) y te ye sh.t_ne
  obtain ⟨s, hs, hx, hxn, hy, hind, -, hrow, hxe, hev, hrest, -⟩ := C90.sol_ok E hE sh' hraw
  refine ⟨s, raw, ?_, by rw [hraw.grid]; rfl, fun k l => ?_, hx, hxn, hy, hind, fun a i ha => ?_, hxe, hev, hrest⟩
  · rw [solve_eq hE hic hq, hivp]; exact hs
  · rw [hraw.events, dictZip_pairs_get? (by rw [sh'.te_len]) (by rw [sh'.ye_len])]; rfl
  · have hi : i < y.length := by
      rw [sh.rows]
      cases E with
      | other K p => exact absurd rfl (hE K p)
      | T e =>
        obtain ⟨K, pot, te'⟩ := e
        have hidx : (Eqs.T ⟨K, pot, te'⟩).idx = (addedNames (C90.history (.T ⟨K, pot, te'⟩))).zipIdx := by cases te' <;> rfl
        have hnd : (addedNames (C90.history (.T ⟨K, pot, te'⟩))).Nodup := by cases te' <;> simp [C90.history, addedNames]
        rw [hidx] at ha ⊢
        rw [C21.get?_zipIdx hnd] at ha
        have := (List.getElem?_eq_some_iff.1 ha).1
        simpa using this
      | N e =>
        obtain ⟨K, pot, tt, te'⟩ := e
        have hidx : (Eqs.N ⟨K, pot, tt, te'⟩).idx = (addedNames (C90.history (.N ⟨K, pot, tt, te'⟩))).zipIdx := by cases tt <;> cases te' <;> rfl
        have hnd : (addedNames (C90.history (.N ⟨K, pot, tt, te'⟩))).Nodup := by cases tt <;> cases te' <;> simp [C90.history, addedNames]
        rw [hidx] at ha ⊢
        rw [C21.get?_zipIdx hnd] at ha
        have := (List.getElem?_eq_some_iff.1 ha).1
        simpa using this
    exact ⟨y[i], List.getElem?_eq_getElem hi, by rw [hrow a i ha, C90.getD_lt _ hi]⟩

/-- **C90, everything else.**  An attribute of the returned object that is neither the grid, a variable nor one of the event dictionaries is scipy's, and is absent if scipy's
result does not have it. -/
theorem C90_others (ivp : SolveIvp) (fmtE : ℝ → String) (E : Eqs) (hE : E.Shipped) (ic : ICCall) (kw : SolveKw) (c : IC) (y0 : ℕ → Option ℝ) (q : IvpCall)
    (hic : ic (kw.rtol.getD (1 / 10 ^ 10)) (kw.atol.getD (1 / 10 ^ 12)) kw.rest (fun _ => some 0) = .ok (c, y0)) (hq : Requested E kw c y0 q)
    {res : Dict Attr} {t : List ℝ} {y : List (List ℝ)} {te : List (List ℝ)} {ye : List (List (List ℝ))} (hivp : ivp E q = .ok res)
    (sh : IvpShape E.idx.length q.events.length res t y te ye) {b : Dict Attr} {s : InflSol} (hs : solve ivp fmtE E ic [] kw = .ok (b, s)) (k : String)
    (h1 : k ∉ E.xname :: E.idx.map Prod.fst) (h2 : ∀ m : String, k ≠ m ++ "_events")
    (h3 : k ∉ ["t", "x", "independent_variable", "x_events", "t_events", "y_events", "event_keys"]) : b.get? k = res.get? k := by
  have sh' : IvpShape E.idx.length (q.events.map (Event.name fmtE)).length res t y te ye := by rw [List.length_map]; exact sh
  obtain ⟨raw, hraw⟩ := exists_raw (q.events.map (Event.name fmtE)) y te ye sh.t_ne
  obtain ⟨b', hb', -, -, -, -, -, -, -, -, -, hrest⟩ := C90.sol_ok E hE sh' hraw
  rw [solve_eq hE hic hq, hivp] at hs
  have hs : E.sol (res.set "event_keys" (.keys (q.events.map (Event.name fmtE)))) = .ok (b, s) := hs
  rw [hb'] at hs
  obtain ⟨rfl, -⟩ := Prod.mk.inj (Except.ok.inj hs)
  exact hrest k h1 h2 h3

/-- The scipy result starts at the requested point with the requested state (scipy without `t_eval`). -/
structure StartsAt (q : IvpCall) (t : List ℝ) (y : List (List ℝ)) : Prop where
  grid : ∀ x, q.x_ini = some x → t.head? = some x
  rows : ∀ (i : ℕ) (v : ℝ) (r : List ℝ), q.y0[i]? = some (some v) → y[i]? = some r → r.head? = some v

/-- the value an initial condition sets for the quantity `name`; `vt`, `vN`: the field velocity with respect to time and e-folds -/
def icValue (c : IC) (vt vN : Option ℝ) (name : String) : Option ℝ :=
  if name = "phi" then some c.phi_i else if name = "_N" then c.N_i else if name = "t" then c.t_i else if name = "eta" then c.eta_i
  else if name = "dphidt" then vt else if name = "dphidN" then vN else none

/-- **C90, the solution starts where the user said.**  For `SlowRollIC` and `InflationStartIC` in both formulations: if the tracked quantities were given and
scipy's answer starts at the requested point, every array named after a variable, and the one named after the independent variable, begins with the value of the
initial condition: `phi_i`, `N_i`, `t_i`, `eta_i`, and the velocity of the class. -/
theorem C90_initial (ivp : SolveIvp) (fmtE : ℝ → String) (E : Eqs) (hE : E.Shipped) (c : IC) (hg : GivesTracked E c) (kw : SolveKw) (slow : Bool) :
    ∃ q y0, Requested E kw c y0 q ∧ ∀ (res : Dict Attr) (t : List ℝ) (y : List (List ℝ)) (te : List (List ℝ)) (ye : List (List (List ℝ))), ivp E q = .ok res →
      IvpShape E.idx.length q.events.length res t y te ye → StartsAt q t y →
      ∃ b sol, solve ivp fmtE E (if slow then ICCall.slowRoll E c else ICCall.inflationStart E c) [] kw = .ok (b, sol) ∧
        ∀ name v, (name = E.xname ∨ name ∈ E.idx.map Prod.fst) →
          icValue c (if slow then SlowRollIC.dphidt_i c else InflationStartIC.dphidt_i c) (if slow then SlowRollIC.dphidN_i c else InflationStartIC.dphidN_i c) name = some v →
          ∃ a, b.get? name = some (.arr a) ∧ a.head? = some v := by
  obtain ⟨y0, hy0, hrow⟩ : ∃ y0, (if slow then SlowRollIC.call E c (fun _ => some 0) else InflationStartIC.call E c (fun _ => some 0)) = .ok y0 ∧
      ∀ name i, E.idx.get? name = some i → RowSpec c (if slow then SlowRollIC.dphidt_i c else InflationStartIC.dphidt_i c)
        (if slow then SlowRollIC.dphidN_i c else InflationStartIC.dphidN_i c) name (y0 i) := by
    cases slow with
    | true => obtain ⟨y, h, h', -⟩ := C26_slowroll E c hg fun _ => some 0; exact ⟨y, h, h'⟩
    | false => obtain ⟨y, h, h', -⟩ := C26_inflationstart E c hg fun _ => some 0; exact ⟨y, h, h'⟩
  refine ⟨_, y0, requested E kw c y0, fun res t y te ye hivp sh st => ?_⟩
  have hic : (if slow then ICCall.slowRoll E c else ICCall.inflationStart E c) (kw.rtol.getD (1 / 10 ^ 10)) (kw.atol.getD (1 / 10 ^ 12)) kw.rest (fun _ => some 0) = .ok (c, y0) := by
    cases slow with
    | true => simp only [if_true] at hy0 ⊢; simp only [ICCall.slowRoll, hy0, bind, Except.bind]
    | false => simp only [Bool.false_eq_true, if_false] at hy0 ⊢; simp only [ICCall.inflationStart, hy0, bind, Except.bind]
  obtain ⟨b, raw, hs, -, -, -, hxn, -, -, hrows, -⟩ := C90_solve ivp fmtE E hE _ kw c y0 _ hic (requested E kw c y0) hivp sh
  refine ⟨b, _, hs, fun name v hn hv => ?_⟩
  by_cases hm : name ∈ E.idx.map Prod.fst
  · obtain ⟨i, hi⟩ : ∃ i, E.idx.get? name = some i := by
      cases h : E.idx.get? name with
      | none => exact absurd hm (Dict.get?_eq_none.1 h)
      | some i => exact ⟨i, rfl⟩
    obtain ⟨r, hr, hb⟩ := hrows name i hi
    obtain ⟨s1, s2, s3, s4, s5, s6⟩ := hrow name i hi
    refine ⟨r, hb, st.rows i v r ?_ hr⟩
    have hil : i < E.idx.length := by rw [← sh.rows]; exact (List.getElem?_eq_some_iff.1 hr).1
    rw [(requested E kw c y0).state i hil]
    generalize (if slow = true then SlowRollIC.dphidt_i c else InflationStartIC.dphidt_i c) = vt at hv s5
    generalize (if slow = true then SlowRollIC.dphidN_i c else InflationStartIC.dphidN_i c) = vN at hv s6
    unfold icValue at hv
    congr 1
    split_ifs at hv with c1 c2 c3 c4 c5 c6
    · rw [s1 c1, hv]
    · rw [s2 c2, hv]
    · rw [s3 c3, hv]
    · rw [s4 c4, hv]
    · rw [s5 c5, hv]
    · rw [s6 c6, hv]
  · rcases hn with rfl | hn
    · refine ⟨t, hxn, st.grid v ?_⟩
      cases E with
      | other K p => exact absurd rfl (hE K p)
      | T e =>
        have : icValue c _ _ "t" = some v := hv
        simpa [icValue, IC.x_ini] using this
      | N e =>
        have : icValue c _ _ "_N" = some v := hv
        simpa [icValue, IC.x_ini] using this
    · exact absurd hn hm

/-- **C90, failures.**  `solve` raises what the initial condition raises, whatever else is passed; any further positional argument is rejected (although the
documentation promises to hand it on), without integrating; and otherwise `solve` raises what scipy raises. -/
theorem C90_errors (ivp : SolveIvp) (fmtE : ℝ → String) (E : Eqs) (hE : E.Shipped) (ic : ICCall) (kw : SolveKw) :
    (∀ err args, ic (kw.rtol.getD (1 / 10 ^ 10)) (kw.atol.getD (1 / 10 ^ 12)) kw.rest (fun _ => some 0) = .error err → solve ivp fmtE E ic args kw = .error err) ∧
    (∀ c y, ic (kw.rtol.getD (1 / 10 ^ 10)) (kw.atol.getD (1 / 10 ^ 12)) kw.rest (fun _ => some 0) = .ok (c, y) →
      (∀ args, args ≠ [] → ∃ m, solve ivp fmtE E ic args kw = .error (.typeError m)) ∧
      (∀ q err, Requested E kw c y q → ivp E q = .error err → solve ivp fmtE E ic [] kw = .error err)) := by
  refine ⟨fun err args h => ?_, fun c y h => ⟨fun args ha => ?_, fun q err hq he => ?_⟩⟩
  · unfold solve; simp only [bind, Except.bind, h]
  · cases args with
    | nil => exact absurd rfl ha
    | cons a l => exact ⟨_, by unfold solve; simp only [bind, Except.bind, h]; rfl⟩
  · rw [solve_eq hE h hq, he]; rfl

/-! ## The inflationary phase, from the integrator's contract -/

/-- Contract of the integrator: on `[x0, x1]` it sampled the trajectory `Y` (with `n` components), it recorded the places of the directed inflation events
faithfully (`Detects`), with the states there, and it stopped at the first terminal one. -/
structure Integrated (Q : EqView) (n : ℕ) (events : List Event) (Y : ℝ → ℕ → ℝ) (x0 x1 : ℝ) (t : List ℝ) (y : List (List ℝ)) (te : List (List ℝ)) (ye : List (List (List ℝ))) : Prop where
  start : t.head? = some x0
  inside : ∀ x ∈ t, x ∈ Icc x0 x1
  sampled : ∀ (j : ℕ) x, t[j]? = some x → ∀ i < n, (y.getD i []).getD j 0 = Y x i
  stated : ∀ (j : ℕ) ts ss, te[j]? = some ts → ye[j]? = some ss → ∀ (a : ℕ) x st, ts[a]? = some x → ss[a]? = some st → ∀ i < n, st.getD i 0 = Y x i
  detected : ∀ (j : ℕ) ev ts, events[j]? = some ev → te[j]? = some ts → (∃ t_i, ev.kind = .inflation t_i) → ev.direction ≠ .zero →
    Detects (fun x => ev.call Q x (Y x)) x0 x1 ev.direction.val ts
  stopped : ∀ (j : ℕ) ev ts, events[j]? = some ev → te[j]? = some ts → ev.terminal = true → ∀ c ∈ ts, c = x1

/-- The tracked inflation events are the plain ones, `InflationEvent(equations, direction, terminal)`. -/
def PlainInflation (events : List Event) : Prop := ∀ ev ∈ events, (∃ t_i, ev.kind = .inflation t_i) → ev.kind = .inflation none ∧ ev.value = 0

namespace C90

theorem call_plain {Q : EqView} {ev : Event} (h : ev.kind = .inflation none ∧ ev.value = 0) (x : ℝ) (y : ℕ → ℝ) : ev.call Q x y = Q.inflating x y := by
  obtain ⟨k, d, b, v⟩ := ev
  obtain ⟨h1, h2⟩ := h
  simp only at h1 h2
  subst h1 h2
  simp [Event.call]

theorem lastAt_event {fmtE : ℝ → String} {events : List Event} {k : String} {j : ℕ} (h : LastAt (events.map (Event.name fmtE)) k j) :
    ∃ ev, events[j]? = some ev ∧ ev ∈ events ∧ ev.name fmtE = k := by
  have := h.1
  rw [List.getElem?_map, Option.map_eq_some_iff] at this
  obtain ⟨ev, h1, h2⟩ := this
  exact ⟨ev, h1, List.mem_of_getElem? h1, h2⟩

theorem faithful {Q : EqView} {n : ℕ} {fmtE : ℝ → String} {events : List Event} {Y : ℝ → ℕ → ℝ} {x0 x1 : ℝ} {res : Dict Attr} {t : List ℝ} {y : List (List ℝ)}
    {te : List (List ℝ)} {ye : List (List (List ℝ))} {raw : RawSol} (hI : Integrated Q n events Y x0 x1 t y te ye) (hY : ∀ x i, n ≤ i → Y x i = 0)
    (sh : IvpShape n events.length res t y te ye) (hg : raw.grid = ivpGrid t y)
    (hev : ∀ k l, raw.events.get? k = some l ↔ ∃ j ts ss, LastAt (events.map (Event.name fmtE)) k j ∧ te[j]? = some ts ∧ ye[j]? = some ss ∧ l = ts.zip (ss.map state))
    (hp : PlainInflation events) : Faithful Q Y x0 x1 raw := by
  have col : ∀ (j : ℕ) x, t[j]? = some x → colAt y j = Y x := fun j x hx => by
    funext i
    by_cases hi : i < n
    · exact hI.sampled j x hx i hi
    · rw [hY x i (not_lt.1 hi)]
      have : y.getD i [] = [] := by simp [List.getD, List.getElem?_eq_none (show y.length ≤ i by rw [sh.rows]; omega)]
      simp only [colAt, this]
      rfl
  have dir : ∀ {k : String} {d : Direction} {l : List (ℝ × (ℕ → ℝ))}, d ≠ .zero → (∀ ev : Event, ev.name fmtE = k → ev.IsInflation d) → raw.events.get? k = some l →
      Detects (fun x => Q.inflating x (Y x)) x0 x1 d.val (l.map Prod.fst) := by
    intro k d l hd hk hl
    obtain ⟨j, ts, ss, hj, h1, h2, rfl⟩ := (hev k l).1 hl
    obtain ⟨ev, he, hm, hn⟩ := lastAt_event hj
    obtain ⟨hinf, rfl⟩ := hk ev hn
    have := hI.detected j ev ts he h1 hinf hd
    rw [List.map_fst_zip (by simp [sh.occ j ts ss h1 h2])]
    have e : (fun x => ev.call Q x (Y x)) = fun x => Q.inflating x (Y x) := funext fun x => call_plain (hp ev hm hinf) x _
    rwa [e] at this
  refine ⟨?_, fun p hp => ?_, fun k l hl p hp => ?_, fun l hl => ?_, fun k hk l hl => ?_⟩
  · obtain ⟨x, t', rfl⟩ : ∃ x t', t = x :: t' := by
      cases t with
      | nil => exact absurd rfl sh.t_ne
      | cons a b => exact ⟨a, b, rfl⟩
    have hx : x = x0 := by simpa using hI.start
    subst hx
    have h0 : raw.grid[0]? = some raw.first := rfl
    rw [hg] at h0
    have h1 : (ivpGrid (x :: t') y)[0]? = some (x, colAt y 0) := by simp [ivpGrid, onGrid]
    rw [h1, col 0 x rfl] at h0
    exact (Option.some.inj h0).symm
  · rw [hg] at hp
    simp only [ivpGrid, onGrid, List.mem_map, List.mem_range] at hp
    obtain ⟨j, hj, rfl⟩ := hp
    have hx : t[j]? = some (t.getD j 0) := by rw [List.getElem?_eq_getElem hj, getD_lt _ hj]
    exact ⟨hI.inside _ (List.mem_of_getElem? hx), col j _ hx⟩
  · obtain ⟨j, ts, ss, hj, h1, h2, rfl⟩ := (hev k l).1 hl
    obtain ⟨a, ha⟩ := List.mem_iff_getElem?.1 hp
    rw [List.getElem?_zip_eq_some, List.getElem?_map, Option.map_eq_some_iff] at ha
    obtain ⟨hx, st, hst, hs⟩ := ha
    rw [← hs]
    funext i
    by_cases hi : i < n
    · exact hI.stated j ts ss h1 h2 a _ st hx hst i hi
    · rw [hY _ i (not_lt.1 hi)]
      have : st.length ≤ i := by rw [sh.states ss (List.mem_of_getElem? h2) st (List.mem_of_getElem? hst)]; omega
      simp [state, List.getElem?_eq_none this]
  · have := dir (d := .pos) (by decide) (fun ev h => ((C24_start_key fmtE ev).1 h).1) hl
    simpa [Direction.val] using this
  · have hk' : ∀ ev : Event, ev.name fmtE = k → ev.IsInflation .neg := fun ev h => by
      simp only [List.mem_cons, List.not_mem_nil, or_false] at hk
      rcases hk with rfl | rfl
      · exact ((C24_end_key fmtE ev).1.1 h).1
      · exact ((C24_end_key fmtE ev).2.1 h).1
    have := dir (d := .neg) (by decide) hk' hl
    simpa [Direction.val] using this

theorem stops {Q : EqView} {n : ℕ} {fmtE : ℝ → String} {events : List Event} {Y : ℝ → ℕ → ℝ} {x0 x1 : ℝ} {t : List ℝ} {y : List (List ℝ)}
    {te : List (List ℝ)} {ye : List (List (List ℝ))} {raw : RawSol} (hI : Integrated Q n events Y x0 x1 t y te ye)
    (hev : ∀ k l, raw.events.get? k = some l ↔ ∃ j ts ss, LastAt (events.map (Event.name fmtE)) k j ∧ te[j]? = some ts ∧ ye[j]? = some ss ∧ l = ts.zip (ss.map state))
    (hseen : Seen raw.events "Inflation_dir-1_term1") : StopsAtEnd raw x1 := by
  refine ⟨hseen, ?_⟩
  rintro p ⟨l, hl⟩
  obtain ⟨j, ts, ss, hj, h1, h2, hz⟩ := (hev _ _).1 hl
  obtain ⟨ev, he, -, hn⟩ := lastAt_event hj
  refine hI.stopped j ev ts he h1 ((C24_end_key fmtE ev).1.1 hn).2 p.1 ?_
  have hm : p ∈ ts.zip (ss.map state) := by rw [← hz]; exact List.mem_cons_self ..
  exact (List.of_mem_zip (a := p.1) (b := p.2) hm).1

/-- the components beyond the `n` registered ones, which do not exist, set to zero -/
def trunc (n : ℕ) (Y : ℝ → ℕ → ℝ) (x : ℝ) (i : ℕ) : ℝ := if i < n then Y x i else 0

theorem Integrated.trunc {Q : EqView} {n : ℕ} {events : List Event} {Y : ℝ → ℕ → ℝ} {x0 x1 : ℝ} {t : List ℝ} {y : List (List ℝ)}
    {te : List (List ℝ)} {ye : List (List (List ℝ))} (hI : Integrated Q n events Y x0 x1 t y te ye) (hp : PlainInflation events)
    (hQ : ∀ x, Q.inflating x (trunc n Y x) = Q.inflating x (Y x)) : Integrated Q n events (trunc n Y) x0 x1 t y te ye := by
  refine ⟨hI.start, hI.inside, fun j x hx i hi => ?_, fun j ts ss h1 h2 a x st h3 h4 i hi => ?_, fun j ev ts h1 h2 h3 h4 => ?_, hI.stopped⟩
  · rw [C90.trunc, if_pos hi]; exact hI.sampled j x hx i hi
  · rw [C90.trunc, if_pos hi]; exact hI.stated j ts ss h1 h2 a x st h3 h4 i hi
  · have := hI.detected j ev ts h1 h2 h3 h4
    have pl := hp ev (List.mem_of_getElem? h1) h3
    simp only [call_plain pl, hQ] at this ⊢
    exact this

end C90

/-- **C90, the phase of inflation (cosmic time).**  Call `solve` on an initial condition for `InflationEquationsT`; let scipy answer the request by sampling, on
`[t0, t1]`, an expanding solution `Y` of the equations with positive density at the start, recording the tracked (plain) inflation events faithfully.  If the
returned object has an `inflation_mask`, there are times `tb < te` such that the scale factor accelerates throughout `[tb, te]` and decelerates from `t0` to `tb`;
`_N_beg`, `_N_end`, `N_tot` are the e-folds at `tb`, at `te`, and between them; the mask selects exactly the entries of the returned `t` that lie strictly
between `tb` and `te`; and if the terminal end event was seen, no entry that is left out, except possibly the first, lies in accelerated expansion. -/
theorem C90_phase_time (ivp : SolveIvp) (fmtE : ℝ → String) {S D : Set ℝ} {e : InflT} {ic : ICCall} {kw : SolveKw} {c : IC} {y0 : ℕ → Option ℝ} {q : IvpCall}
    (hic : ic (kw.rtol.getD (1 / 10 ^ 10)) (kw.atol.getD (1 / 10 ^ 12)) kw.rest (fun _ => some 0) = .ok (c, y0)) (hq : Requested (.T e) kw c y0 q)
    {res : Dict Attr} {t : List ℝ} {y : List (List ℝ)} {te : List (List ℝ)} {ye : List (List (List ℝ))} (hivp : ivp (.T e) q = .ok res)
    (sh : IvpShape e.rows q.events.length res t y te ye) {Y : ℝ → ℕ → ℝ} {t0 t1 : ℝ} (hS : IsOpen S) (hc : Convex ℝ S)
    (sol : SolvesODE S e.rows e.call Y) (hH : ∀ t ∈ S, 0 < e.H2 (Y t)) (hV : IsDerivOn D e.pot.V e.pot.dV) (hφ : ∀ t ∈ S, InflT.phi (Y t) ∈ D)
    (hsub : Icc t0 t1 ⊆ S) (hρ : 0 < InflT.dphidt (Y t0) ^ 2 / 2 + e.V (Y t0)) (hI : Integrated e.view e.rows q.events Y t0 t1 t y te ye) (hp : PlainInflation q.events)
    (hclean : StartsCleanly (fun t => e.inflating (Y t)) t0 t1) :
    ∃ b s, solve ivp fmtE (.T e) ic [] kw = .ok (b, s) ∧ b.get? "t" = some (.arr t) ∧ ∀ m, s.inflation_mask = some m →
      ∃ tb tf, ∃ adot addot : ℝ → ℝ, IsDerivOn S (fun t => exp (InflT._N (Y t))) adot ∧ IsDerivOn S adot addot ∧ t0 ≤ tb ∧ tb < tf ∧ tf ≤ t1 ∧
        (∀ t ∈ Icc tb tf, 0 ≤ addot t) ∧ (∀ t ∈ Icc t0 tb, t < tb → addot t ≤ 0) ∧ addot tf = 0 ∧
        s.start.N_beg = some (InflT._N (Y tb)) ∧ s.fin.N_end = some (InflT._N (Y tf)) ∧ s.N_tot = some (InflT._N (Y tf) - InflT._N (Y tb)) ∧
        m.length = t.length ∧ (∀ (i : ℕ) x, t[i]? = some x → (m[i]? = some true ↔ tb < x ∧ x < tf)) ∧
        ((∃ d l, b.get? "_N_events" = some (.evArr d) ∧ d.get? "Inflation_dir-1_term1" = some l ∧ l ≠ []) →
          ∀ (i : ℕ) x, t[i]? = some x → m[i]? ≠ some true → x ≠ t0 → addot x ≤ 0) := by
  have hE : (Eqs.T e).Shipped := fun K p h => by cases h
  have hlen : (Eqs.T e).idx.length = e.rows := rfl
  obtain ⟨b, raw, hs, hg, hev, -, hxn, -, -, -, -, hvar, -⟩ := C90_solve ivp fmtE (.T e) hE ic kw c y0 q hic hq hivp (by rw [hlen]; exact sh)
  have h3 : 3 ≤ e.rows := by rw [InflT.rows_eq]; split_ifs <;> omega
  have tr : ∀ x i, i < 3 → C90.trunc e.rows Y x i = Y x i := fun x i hi => by rw [C90.trunc, if_pos (by omega)]
  have tN : ∀ x, InflT._N (C90.trunc e.rows Y x) = InflT._N (Y x) := fun x => tr x 2 (by norm_num)
  have tP : ∀ x, InflT.phi (C90.trunc e.rows Y x) = InflT.phi (Y x) := fun x => tr x 0 (by norm_num)
  have tD : ∀ x, InflT.dphidt (C90.trunc e.rows Y x) = InflT.dphidt (Y x) := fun x => tr x 1 (by norm_num)
  have tV : ∀ x, e.V (C90.trunc e.rows Y x) = e.V (Y x) := fun x => by unfold InflT.V; rw [tP]
  have tH : ∀ x, e.H2 (C90.trunc e.rows Y x) = e.H2 (Y x) := fun x => by unfold InflT.H2; rw [tN, tD, tV]
  have tI : ∀ x, e.inflating (C90.trunc e.rows Y x) = e.inflating (Y x) := fun x => by unfold InflT.inflating; rw [tV, tD]
  have tC : ∀ x, e.call x (C90.trunc e.rows Y x) = e.call x (Y x) := fun x => by
    simp only [InflT.call, InflT.dVdphi, tN, tP, tD, tH]
  have sol' : SolvesODE S e.rows e.call (C90.trunc e.rows Y) := fun x hx i hi => by
    rw [tC]
    have : (fun s => C90.trunc e.rows Y s i) = fun s => Y s i := funext fun s => by rw [C90.trunc, if_pos hi]
    rw [this]; exact sol x hx i hi
  have hf := C90.faithful (raw := raw) (fmtE := fmtE) (C90.Integrated.trunc hI hp tI) (fun x i hi => by rw [C90.trunc, if_neg (by omega)]) sh hg hev hp
  refine ⟨b, _, hs, hxn, fun m hm => ?_⟩
  obtain ⟨tb, tf, adot, addot, h1, h2, h0b, hbe, he1, hpos, hneg, hz, hNb, hNe, hNt, -, ⟨hml, hsel⟩, -, hstop⟩ :=
    C77_time (s := raw) hS hc sol' (fun x hx => by rw [tH]; exact hH x hx) hV (fun x hx => by rw [tP]; exact hφ x hx) hsub (by rw [tD, tV]; exact hρ) hf
      (by simp only [tI]; exact hclean) hm
  simp only [tN] at h1 hNb hNe hNt
  have glen : raw.grid.length = t.length := by rw [hg]; simp
  have gx : ∀ (i : ℕ) x (hi : i < raw.grid.length), t[i]? = some x → raw.grid[i].1 = x := fun i x hi hx => by
    have : i < t.length := by omega
    have e1 : raw.grid[i]? = some (t.getD i 0, fun k => (y.getD k []).getD i 0) := by rw [hg]; simp [this]
    rw [List.getElem?_eq_getElem hi] at e1
    rw [Option.some.inj e1]
    rw [List.getElem?_eq_getElem this] at hx
    rw [C90.getD_lt _ this]; exact Option.some.inj hx
  refine ⟨tb, tf, adot, addot, h1, h2, h0b, hbe, he1, hpos, hneg, hz, hNb, hNe, hNt, by rw [hml, glen], fun i x hx => ?_, ?_⟩
  · have hi : i < raw.grid.length := by rw [glen]; exact (List.getElem?_eq_some_iff.1 hx).1
    rw [hsel i hi, gx i x hi hx]; rfl
  · rintro ⟨d, l, hd, hl, hne⟩ i x hx hmi hx0
    have hi : i < raw.grid.length := by rw [glen]; exact (List.getElem?_eq_some_iff.1 hx).1
    obtain ⟨d', hd', hk⟩ := hvar "_N" 2 (by cases h : e.track_eta <;> simp [Eqs.idx, InflT.eqs, h] <;> rfl)
    have hdd : d = d' := by
      rw [show "_N" ++ "_events" = "_N_events" from rfl, hd] at hd'
      injection hd' with hd'; injection hd'
    subst hdd
    rw [hk] at hl
    obtain ⟨l', hl', rfl⟩ := Option.map_eq_some_iff.1 hl
    have hseen : Seen raw.events "Inflation_dir-1_term1" := by
      cases l' with
      | nil => simp at hne
      | cons p l' => exact ⟨p, l', hl'⟩
    have := hstop (C90.stops hI hev hseen) i hi hmi (by rw [gx i x hi hx]; exact hx0)
    rwa [gx i x hi hx] at this

/-- **C90, the phase of inflation (e-folds).**  The same for `InflationEquationsN`; the acceleration is read off the growth of `aH` (`d(aH)/dN = ä/H`). -/
theorem C90_phase_efolds (ivp : SolveIvp) (fmtE : ℝ → String) {S D : Set ℝ} {e : InflN} {ic : ICCall} {kw : SolveKw} {c : IC} {y0 : ℕ → Option ℝ} {q : IvpCall}
    (hic : ic (kw.rtol.getD (1 / 10 ^ 10)) (kw.atol.getD (1 / 10 ^ 12)) kw.rest (fun _ => some 0) = .ok (c, y0)) (hq : Requested (.N e) kw c y0 q)
    {res : Dict Attr} {t : List ℝ} {y : List (List ℝ)} {te : List (List ℝ)} {ye : List (List (List ℝ))} (hivp : ivp (.N e) q = .ok res)
    (sh : IvpShape e.rows q.events.length res t y te ye) {Y : ℝ → ℕ → ℝ} {n0 n1 : ℝ} (hS : IsOpen S)
    (sol : SolvesODE S e.rows e.call Y) (hH : ∀ n ∈ S, 0 < e.H2 n (Y n)) (hV : IsDerivOn D e.pot.V e.pot.dV) (hφ : ∀ n ∈ S, InflN.phi (Y n) ∈ D)
    (hsub : Icc n0 n1 ⊆ S) (hρ : 0 < e.H2 n0 (Y n0) * InflN.dphidN (Y n0) ^ 2 / 2 + e.V (Y n0)) (hI : Integrated e.view e.rows q.events Y n0 n1 t y te ye)
    (hp : PlainInflation q.events) (hclean : StartsCleanly (fun n => e.inflating n (Y n)) n0 n1) :
    ∃ b s, solve ivp fmtE (.N e) ic [] kw = .ok (b, s) ∧ b.get? "_N" = some (.arr t) ∧ ∀ m, s.inflation_mask = some m →
      ∃ nb nf, ∃ daH : ℝ → ℝ, IsDerivOn S (fun n => exp n * e.H n (Y n)) daH ∧ n0 ≤ nb ∧ nb < nf ∧ nf ≤ n1 ∧
        (∀ n ∈ Icc nb nf, 0 ≤ daH n) ∧ (∀ n ∈ Icc n0 nb, n < nb → daH n ≤ 0) ∧ daH nf = 0 ∧
        s.start.N_beg = some nb ∧ s.fin.N_end = some nf ∧ s.N_tot = some (nf - nb) ∧
        m.length = t.length ∧ (∀ (i : ℕ) x, t[i]? = some x → (m[i]? = some true ↔ nb < x ∧ x < nf)) ∧
        ((∃ d l, b.get? "_N_events" = some (.evArr d) ∧ d.get? "Inflation_dir-1_term1" = some l ∧ l ≠ []) →
          ∀ (i : ℕ) x, t[i]? = some x → m[i]? ≠ some true → x ≠ n0 → daH x ≤ 0) := by
  have hE : (Eqs.N e).Shipped := fun K p h => by cases h
  have hlen : (Eqs.N e).idx.length = e.rows := rfl
  obtain ⟨b, raw, hs, hg, hev, -, hxn, -, -, -, hxe, -, -⟩ := C90_solve ivp fmtE (.N e) hE ic kw c y0 q hic hq hivp (by rw [hlen]; exact sh)
  have h2r : 2 ≤ e.rows := by rw [InflN.rows_eq]; split_ifs <;> omega
  have tr : ∀ x i, i < 2 → C90.trunc e.rows Y x i = Y x i := fun x i hi => by rw [C90.trunc, if_pos (by omega)]
  have tP : ∀ x, InflN.phi (C90.trunc e.rows Y x) = InflN.phi (Y x) := fun x => tr x 0 (by norm_num)
  have tD : ∀ x, InflN.dphidN (C90.trunc e.rows Y x) = InflN.dphidN (Y x) := fun x => tr x 1 (by norm_num)
  have tV : ∀ x, e.V (C90.trunc e.rows Y x) = e.V (Y x) := fun x => by unfold InflN.V; rw [tP]
  have tH : ∀ x, e.H2 x (C90.trunc e.rows Y x) = e.H2 x (Y x) := fun x => by unfold InflN.H2; rw [tD, tV]
  have tH' : ∀ x, e.H x (C90.trunc e.rows Y x) = e.H x (Y x) := fun x => by unfold InflN.H; rw [tH]
  have tI : ∀ x, e.inflating x (C90.trunc e.rows Y x) = e.inflating x (Y x) := fun x => by unfold InflN.inflating; rw [tV, tD, tH]
  have tC : ∀ x, e.call x (C90.trunc e.rows Y x) = e.call x (Y x) := fun x => by
    simp only [InflN.call, InflN.dVdphi, tP, tD, tH]
  have sol' : SolvesODE S e.rows e.call (C90.trunc e.rows Y) := fun x hx i hi => by
    rw [tC]
    have : (fun s => C90.trunc e.rows Y s i) = fun s => Y s i := funext fun s => by rw [C90.trunc, if_pos hi]
    rw [this]; exact sol x hx i hi
  have hf := C90.faithful (raw := raw) (fmtE := fmtE) (C90.Integrated.trunc hI hp tI) (fun x i hi => by rw [C90.trunc, if_neg (by omega)]) sh hg hev hp
  refine ⟨b, _, hs, hxn, fun m hm => ?_⟩
  obtain ⟨tb, tf, daH, h1, h0b, hbe, he1, hpos, hneg, hz, hNb, hNe, hNt, ⟨hml, hsel⟩, -, hstop⟩ :=
    C77_efolds (s := raw) hS sol' (fun x hx => by rw [tH]; exact hH x hx) hV (fun x hx => by rw [tP]; exact hφ x hx) hsub (by rw [tH, tD, tV]; exact hρ) hf
      (by simp only [tI]; exact hclean) hm
  simp only [tH'] at h1
  have glen : raw.grid.length = t.length := by rw [hg]; simp
  have gx : ∀ (i : ℕ) x (hi : i < raw.grid.length), t[i]? = some x → raw.grid[i].1 = x := fun i x hi hx => by
    have : i < t.length := by omega
    have e1 : raw.grid[i]? = some (t.getD i 0, fun k => (y.getD k []).getD i 0) := by rw [hg]; simp [this]
    rw [List.getElem?_eq_getElem hi] at e1
    rw [Option.some.inj e1]
    rw [List.getElem?_eq_getElem this] at hx
    rw [C90.getD_lt _ this]; exact Option.some.inj hx
  refine ⟨tb, tf, daH, h1, h0b, hbe, he1, hpos, hneg, hz, hNb, hNe, hNt, by rw [hml, glen], fun i x hx => ?_, ?_⟩
  · have hi : i < raw.grid.length := by rw [glen]; exact (List.getElem?_eq_some_iff.1 hx).1
    rw [hsel i hi, gx i x hi hx]; rfl
  · rintro ⟨d, l, hd, hl, hne⟩ i x hx hmi hx0
    have hi : i < raw.grid.length := by rw [glen]; exact (List.getElem?_eq_some_iff.1 hx).1
    obtain ⟨d', -, hd', hk⟩ := hxe
    have hdd : d = d' := by
      rw [show (Eqs.N e).xname ++ "_events" = "_N_events" from rfl, hd] at hd'
      injection hd' with hd'; injection hd'
    subst hdd
    rw [hk] at hl
    obtain ⟨l', hl', rfl⟩ := Option.map_eq_some_iff.1 hl
    have hseen : Seen raw.events "Inflation_dir-1_term1" := by
      cases l' with
      | nil => simp at hne
      | cons p l' => exact ⟨p, l', hl'⟩
    have := hstop (C90.stops hI hev hseen) i hi hmi (by rw [gx i x hi hx]; exact hx0)
    rwa [gx i x hi hx] at this

theorem C90.exists_lastAt {ks : List String} {k : String} (h : k ∈ ks) : ∃ j, LastAt ks k j := by
  induction ks using List.reverseRecOn with
  | nil => simp at h
  | append_singleton l a ih =>
    by_cases ha : a = k
    · refine ⟨l.length, by simp [ha], fun j' hj => ?_⟩
      rw [List.getElem?_eq_none (by simp; omega)]; simp
    · have hl : k ∈ l := by
        rcases List.mem_append.1 h with h | h
        · exact h
        · simp at h; exact absurd h.symm ha
      obtain ⟨j, hj, hj'⟩ := ih hl
      have hlt : j < l.length := (List.getElem?_eq_some_iff.1 hj).1
      refine ⟨j, by rw [List.getElem?_append_left hlt]; exact hj, fun j' h1 => ?_⟩
      by_cases h2 : j' < l.length
      · rw [List.getElem?_append_left h2]; exact hj' j' h1
      · by_cases h3 : j' = l.length
        · rw [h3]; simp [ha]
        · rw [List.getElem?_eq_none (by simp; omega)]; simp

/-- **C90, inflation is found.**  With `InflationEvent(direction=-1)` tracked, and either acceleration at the start or `InflationEvent(direction=+1)` tracked and not
terminal: if no collapse was recorded, and the sampled trajectory accelerates somewhere and decelerates later, the returned object has an `inflation_mask`. -/
theorem C90_found (ivp : SolveIvp) (fmtE : ℝ → String) {E : Eqs} (hE : E.Shipped) {ic : ICCall} {kw : SolveKw} {c : IC} {y0 : ℕ → Option ℝ} {q : IvpCall}
    (hic : ic (kw.rtol.getD (1 / 10 ^ 10)) (kw.atol.getD (1 / 10 ^ 12)) kw.rest (fun _ => some 0) = .ok (c, y0)) (hq : Requested E kw c y0 q)
    {res : Dict Attr} {t : List ℝ} {y : List (List ℝ)} {te : List (List ℝ)} {ye : List (List (List ℝ))} (hivp : ivp E q = .ok res)
    (sh : IvpShape E.idx.length q.events.length res t y te ye) {Y : ℝ → ℕ → ℝ} {x0 x1 : ℝ} (hI : Integrated (C90.view E) E.idx.length q.events Y x0 x1 t y te ye)
    (hp : PlainInflation q.events) (hend : ∃ ev ∈ q.events, (∃ t_i, ev.kind = .inflation t_i) ∧ ev.direction = .neg)
    (hcoll : ∀ (j : ℕ) ev ts, q.events[j]? = some ev → te[j]? = some ts → ev.kind = .collapse → ts = [])
    {a b : ℝ} (ha : x0 ≤ a) (hab : a < b) (hb : b ≤ x1) (hga : 0 < (C90.view E).inflating a (Y a)) (hgb : (C90.view E).inflating b (Y b) < 0)
    (hstart : 0 ≤ (C90.view E).inflating x0 (Y x0) ∨
      ((C90.view E).inflating x0 (Y x0) < 0 ∧ ∃ ev ∈ q.events, (∃ t_i, ev.kind = .inflation t_i) ∧ ev.direction = .pos ∧ ev.terminal = false)) :
    ∃ o s m, solve ivp fmtE E ic [] kw = .ok (o, s) ∧ s.inflation_mask = some m := by
  obtain ⟨o, raw, hs, hg, hev, -⟩ := C90_solve ivp fmtE E hE ic kw c y0 q hic hq hivp sh
  have tI : ∀ x, (C90.view E).inflating x (C90.trunc E.idx.length Y x) = (C90.view E).inflating x (Y x) := fun x => by
    cases E with
    | other K p => exact absurd rfl (hE K p)
    | T e =>
      have h3 : 3 ≤ (Eqs.T e).idx.length := by show 3 ≤ e.rows; rw [InflT.rows_eq]; split_ifs <;> omega
      have tr : ∀ i, i < 3 → C90.trunc (Eqs.T e).idx.length Y x i = Y x i := fun i hi => by rw [C90.trunc, if_pos (by omega)]
      show e.inflating _ = e.inflating _
      simp only [InflT.inflating, InflT.V, InflT.phi, InflT.dphidt, tr 0 (by norm_num), tr 1 (by norm_num)]
    | N e =>
      have h3 : 2 ≤ (Eqs.N e).idx.length := by show 2 ≤ e.rows; rw [InflN.rows_eq]; split_ifs <;> omega
      have tr : ∀ i, i < 2 → C90.trunc (Eqs.N e).idx.length Y x i = Y x i := fun i hi => by rw [C90.trunc, if_pos (by omega)]
      show e.inflating _ _ = e.inflating _ _
      simp only [InflN.inflating, InflN.H2, InflN.V, InflN.phi, InflN.dphidN, tr 0 (by norm_num), tr 1 (by norm_num)]
  have hf := C90.faithful (raw := raw) (fmtE := fmtE) (C90.Integrated.trunc hI hp tI) (fun x i hi => by rw [C90.trunc, if_neg (by omega)]) sh hg hev hp
  have tracked : ∀ ev ∈ q.events, ∃ l, raw.events.get? (ev.name fmtE) = some l := fun ev hm => by
    obtain ⟨j, hj⟩ := C90.exists_lastAt (List.mem_map_of_mem (f := Event.name fmtE) hm)
    have hl := hj.lt
    rw [List.length_map] at hl
    obtain ⟨ts, h1⟩ := exists_getElem? (l := te) (j := j) (by rw [sh.te_len]; exact hl)
    obtain ⟨ss, h2⟩ := exists_getElem? (l := ye) (j := j) (by rw [sh.ye_len]; exact hl)
    exact ⟨_, (hev _ _).2 ⟨j, ts, ss, hj, h1, h2, rfl⟩⟩
  obtain ⟨m, hm⟩ := C77_found (s := raw) E.pot.V E.K hf (fun hsn => by
      obtain ⟨p, l, hl⟩ := hsn
      obtain ⟨j, ts, ss, hj, h1, h2, hz⟩ := (hev _ _).1 hl
      obtain ⟨ev, he, -, hn⟩ := C90.lastAt_event hj
      obtain ⟨d, b', v, rfl⟩ := (C24_collapse_key fmtE ev).1 hn
      have := hcoll j _ ts he h1 rfl
      rw [this] at hz
      simp at hz)
    (by
      obtain ⟨ev, hm, hi, hd⟩ := hend
      obtain ⟨l, hl⟩ := tracked ev hm
      refine ⟨ev.name fmtE, ?_, l, hl⟩
      cases hterm : ev.terminal with
      | true => rw [(C24_end_key fmtE ev).1.2 ⟨⟨hi, hd⟩, hterm⟩]; simp
      | false => rw [(C24_end_key fmtE ev).2.2 ⟨⟨hi, hd⟩, hterm⟩]; simp)
    ha hab hb (by rw [tI]; exact hga) (by rw [tI]; exact hgb) (by
      rcases hstart with h | ⟨h, ev, hm, hi, hd, ht⟩
      · left; rw [tI]; exact h
      · right
        refine ⟨by rw [tI]; exact h, ?_⟩
        obtain ⟨l, hl⟩ := tracked ev hm
        rw [(C24_start_key fmtE ev).2 ⟨⟨hi, hd⟩, ht⟩] at hl
        exact ⟨l, hl⟩)
  exact ⟨o, _, m, hs, hm⟩

/-! ## The hypotheses are met

The exact solution `φ = -2t`, `N = -t²` of `V = 3φ² - 2` from `t = -3` to `t = -1/10`, with the end of inflation at `t = -√(1/2)`. -/

namespace C90.Ex

noncomputable def E : Eqs := .T Exact.hjT
/-- the state at `t` as scipy stores it -/
noncomputable def st (t : ℝ) : List ℝ := [-2 * t, -2, -t ^ 2]
noncomputable def grid : List ℝ := [-3, -1, -1 / 10]
noncomputable def rows : List (List ℝ) := [grid.map fun t => -2 * t, grid.map fun _ => -2, grid.map fun t => -t ^ 2]
noncomputable def te : List (List ℝ) := [[-√(1 / 2)]]
noncomputable def ye : List (List (List ℝ)) := [[st (-√(1 / 2))]]
noncomputable def res : Dict Attr := [("t", .arr grid), ("y", .rows rows), ("t_events", .tEvents te), ("y_events", .yEvents ye), ("success", .other 1)]
noncomputable def ivp : SolveIvp := fun _ _ => .ok res
/-- `φ_i = 6`, `N_i = -9`, `H_i = 6` at `t_i = -3` -/
noncomputable def ic : IC := ⟨6, some (-3), none, -1 / 10, 106, 36, some (-9), some 0, none, some 6⟩
def kw : SolveKw := ⟨some [⟨.inflation none, .neg, false, 0⟩], some "DOP853", none, none, []⟩

theorem shape : IvpShape Exact.hjT.rows 1 res grid rows te ye where
  t_ne := by simp [grid]
  get_t := rfl
  get_y := rfl
  get_te := rfl
  get_ye := rfl
  rows := by rw [InflT.rows_eq]; rfl
  cols := by simp [rows]
  te_len := rfl
  ye_len := rfl
  occ := fun j ts ss h1 h2 => by
    match j with
    | 0 => simp only [te, ye, List.getElem?_cons_zero, Option.some.injEq] at h1 h2; rw [← h1, ← h2]; rfl
    | j + 1 => simp [te] at h1
  states := by simp [ye, st, InflT.rows_eq, Exact.hjT]

theorem rows3 : Exact.hjT.rows = 3 := by rw [InflT.rows_eq]; rfl

theorem integrated : Integrated Exact.hjT.view Exact.hjT.rows [⟨.inflation none, .neg, false, 0⟩] Exact.yHjT (-3) (-1 / 10) grid rows te ye where
  start := rfl
  inside := by
    intro x hx
    simp only [grid, List.mem_cons, List.not_mem_nil, or_false] at hx
    rcases hx with rfl | rfl | rfl <;> constructor <;> norm_num
  sampled := fun j x hx i hi => by
    rw [rows3] at hi
    match j with
    | 0 => simp only [grid, List.getElem?_cons_zero, Option.some.injEq] at hx; subst hx; interval_cases i <;> simp [rows, grid, Exact.yHjT]
    | 1 => simp only [grid, List.getElem?_cons_succ, List.getElem?_cons_zero, Option.some.injEq] at hx; subst hx; interval_cases i <;> simp [rows, grid, Exact.yHjT]
    | 2 => simp only [grid, List.getElem?_cons_succ, List.getElem?_cons_zero, Option.some.injEq] at hx; subst hx; interval_cases i <;> simp [rows, grid, Exact.yHjT]
    | j + 3 => simp [grid] at hx
  stated := fun j ts ss h1 h2 a x s h3 h4 i hi => by
    rw [rows3] at hi
    match j with
    | j + 1 => simp [te] at h1
    | 0 =>
      simp only [te, ye, List.getElem?_cons_zero, Option.some.injEq] at h1 h2
      subst h1 h2
      match a with
      | a + 1 => simp at h3
      | 0 =>
        simp only [List.getElem?_cons_zero, Option.some.injEq] at h3 h4
        subst h3 h4
        interval_cases i <;> simp [st, Exact.yHjT]
  detected := fun j ev ts h1 h2 _ _ => by
    match j with
    | j + 1 => simp at h1
    | 0 =>
      simp only [te, List.getElem?_cons_zero, Option.some.injEq] at h1 h2
      subst h1 h2
      have := hj_faithful2.ends "Inflation_dir-1_term0" (by simp) _ rfl
      simpa [Event.call, Direction.val] using this
  stopped := fun j ev ts h1 h2 h3 => by
    match j with
    | j + 1 => simp at h1
    | 0 =>
      simp only [List.getElem?_cons_zero, Option.some.injEq] at h1
      subst h1
      cases h3

theorem plain : PlainInflation [⟨.inflation none, .neg, false, 0⟩] := by
  intro ev hm _
  rw [List.mem_singleton] at hm
  subst hm
  exact ⟨rfl, rfl⟩

theorem called : ∃ y0 q, ICCall.slowRoll (.T Exact.hjT) ic (kw.rtol.getD (1 / 10 ^ 10)) (kw.atol.getD (1 / 10 ^ 12)) kw.rest (fun _ => some 0) = .ok (ic, y0) ∧
    Requested (.T Exact.hjT) kw ic y0 q ∧ q.events = [⟨.inflation none, .neg, false, 0⟩] := by
  obtain ⟨y0, hy0, -, -⟩ := C26_slowroll (.T Exact.hjT) ic (by intro h; cases h) fun _ => some 0
  refine ⟨y0, _, ?_, requested (.T Exact.hjT) kw ic y0, rfl⟩
  simp only [ICCall.slowRoll, hy0, bind, Except.bind]

/-- `C90_phase_time` applies, and so does `C90_solve`. -/
example (fmtE : ℝ → String) : ∃ b s, solve ivp fmtE (.T Exact.hjT) (ICCall.slowRoll (.T Exact.hjT) ic) [] kw = .ok (b, s) ∧ b.get? "t" = some (.arr grid) := by
  obtain ⟨y0, q, hic, hq, he⟩ := called
  obtain ⟨b, s, hs, ht, -⟩ := C90_phase_time ivp fmtE (S := Iio 0) (D := univ) (res := res) (t0 := -3) (t1 := -1 / 10) hic hq rfl (by rw [he]; exact shape) isOpen_Iio (convex_Iio 0) Exact.hjT_sol
    (fun t ht => by rw [Exact.hjT_H2]; have : t < 0 := ht; exact pow_pos (by linarith) 2) Exact.hjPot_chain.d1 (fun _ _ => mem_univ _)
    (fun t ht => by have := ht.2; show t < 0; linarith)
    (by simp only [InflT.V, InflT.phi, InflT.dphidt, Exact.hjT, Exact.hjPot, Exact.yHjT]; norm_num) (by rw [he]; exact integrated) (by rw [he]; exact plain)
    (fun h => by simp only [hj_inflating] at h; norm_num at h)
  exact ⟨b, s, hs, ht⟩

/-- `C90_found` applies: the returned object has a mask. -/
example (fmtE : ℝ → String) : ∃ b s m, solve ivp fmtE (.T Exact.hjT) (ICCall.slowRoll (.T Exact.hjT) ic) [] kw = .ok (b, s) ∧ s.inflation_mask = some m := by
  obtain ⟨y0, q, hic, hq, he⟩ := called
  refine C90_found ivp fmtE (res := res) (Y := Exact.yHjT) (x0 := -3) (x1 := -1 / 10) (a := -3) (b := -1 / 10) (fun K p h => by cases h) hic hq rfl (by rw [he]; exact shape) (by rw [he]; exact integrated) (by rw [he]; exact plain)
    ?_ ?_ le_rfl (by norm_num) le_rfl ?_ ?_ (Or.inl ?_)
  · rw [he]; exact ⟨_, List.mem_singleton_self _, ⟨_, rfl⟩, rfl⟩
  · intro j ev ts h1 _ h3
    rw [he] at h1
    match j with
    | j + 1 => simp at h1
    | 0 =>
      simp only [List.getElem?_cons_zero, Option.some.injEq] at h1
      subst h1
      cases h3
  · show 0 < Exact.hjT.inflating (Exact.yHjT (-3)); rw [hj_inflating]; norm_num
  · show Exact.hjT.inflating (Exact.yHjT (-1 / 10)) < 0; rw [hj_inflating]; norm_num
  · show 0 ≤ Exact.hjT.inflating (Exact.yHjT (-3)); rw [hj_inflating]; norm_num

/-- `C90_initial` applies: the scipy answer starts at the requested point. -/
example : ∃ q y0, Requested E kw ic y0 q ∧ StartsAt q grid rows ∧ GivesTracked E ic := by
  have g : GivesTracked E ic := by intro h; cases h
  obtain ⟨y0, hy0, hrow, -⟩ := C26_slowroll E ic g fun _ => some 0
  have r0 := (hrow "phi" 0 rfl).1 rfl
  have r1 := (hrow "dphidt" 1 rfl).2.2.2.2.1 rfl
  have r2 := (hrow "_N" 2 rfl).2.1 rfl
  refine ⟨_, y0, requested E kw ic y0, ⟨fun x hx => ?_, fun i v r h1 h2 => ?_⟩, g⟩
  · have : some (-3) = some x := hx
    rw [← this]; rfl
  · have hi : i < 3 := by
      have := (List.getElem?_eq_some_iff.1 h2).1
      simpa [rows] using this
    rw [(requested E kw ic y0).state i (by show i < Exact.hjT.rows; rw [rows3]; exact hi)] at h1
    have h1 := Option.some.inj h1
    interval_cases i
    · rw [r0] at h1
      simp only [rows, List.getElem?_cons_zero, Option.some.injEq] at h2
      rw [← h2, ← h1]; simp [grid, ic]; norm_num
    · rw [r1] at h1
      simp only [rows, List.getElem?_cons_succ, List.getElem?_cons_zero, Option.some.injEq] at h2
      rw [← h2, ← h1]; simp [grid, ic, SlowRollIC.dphidt_i, nanDiv]; norm_num
    · rw [r2] at h1
      simp only [rows, List.getElem?_cons_succ, List.getElem?_cons_zero, Option.some.injEq] at h2
      rw [← h2, ← h1]; simp [grid, ic]; norm_num

end C90.Ex
end Primpy
