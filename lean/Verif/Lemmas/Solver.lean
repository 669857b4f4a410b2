import Verif.Model.Solver
import Verif.Props.C22
import Verif.Props.C25

/-!
# Post-processing on the scipy object refines post-processing on grid points and events
-/

namespace Primpy
open Bunch

theorem Dict.contains_eq {α : Type} (d : Dict α) (k : String) : d.contains k = (d.get? k).isSome := by
  rw [Bool.eq_iff_iff, Dict.contains_iff]
  cases h : d.get? k with
  | none => simpa using Dict.get?_eq_none.1 h
  | some v =>
    simp only [Option.isSome_some, iff_true]
    by_contra hc
    rw [Dict.get?_eq_none.2 hc] at h
    cases h

theorem notTracked_congr {α β : Type} {d : Dict α} {e : Dict β} (h : ∀ k, (d.get? k).isSome = (e.get? k).isSome) :
    startNotTracked d = startNotTracked e := by
  simp only [startNotTracked, Dict.contains_eq, h]

theorem endKind_congr {α β : Type} {d : Dict α} {e : Dict β} (h : ∀ k, (d.get? k).isSome = (e.get? k).isSome) (w : ℝ) :
    endKind d w = endKind e w := by
  simp only [endKind, Dict.contains_eq, h]

/-- The grid points of a scipy result. -/
def ivpGrid (t : List ℝ) (y : List (List ℝ)) : List (ℝ × (ℕ → ℝ)) := onGrid t y Prod.mk

/-- The events of a scipy result: name ↦ list of (place, state); the last of several events of the same name. -/
def ivpEvents (ks : List String) (te : List (List ℝ)) (ye : List (List (List ℝ))) : Dict (List (ℝ × (ℕ → ℝ))) :=
  dictZip ks (List.zipWith (fun ts ss => ts.zip (ss.map state)) te ye)

/-- A scipy result as grid points and events. -/
structure IsRaw (ks : List String) (t : List ℝ) (y : List (List ℝ)) (te : List (List ℝ)) (ye : List (List (List ℝ))) (raw : RawSol) : Prop where
  grid : raw.grid = ivpGrid t y
  events : raw.events = ivpEvents ks te ye

theorem exists_raw (ks : List String) {t : List ℝ} (y : List (List ℝ)) (te : List (List ℝ)) (ye : List (List (List ℝ))) (ht : t ≠ []) :
    ∃ raw, IsRaw ks t y te ye raw := by
  cases h : ivpGrid t y with
  | nil => simp [ivpGrid, onGrid, ht] at h
  | cons p l => exact ⟨⟨p, l, ivpEvents ks te ye⟩, by rw [h]; rfl, rfl⟩

/-- The attributes a post-processed scipy object has, in terms of grid points and events. -/
structure Attrs (Q : EqView) (s : Dict Attr) (t : List ℝ) (y : List (List ℝ)) (ev : Dict (List (ℝ × (ℕ → ℝ)))) : Prop where
  hx : s.get? "x" = some (.arr t)
  hy : s.get? "y" = some (.rows y)
  hN : s.get? "_N" = some (.arr (onGrid t y Q.N))
  NE : ∃ d, s.get? "_N_events" = some (.evArr d) ∧ ∀ k, d.get? k = (ev.get? k).map (·.map fun p => Q.N p.1 p.2)
  PE : ∃ d, s.get? "phi_events" = some (.evArr d) ∧ ∀ k, d.get? k = (ev.get? k).map (·.map fun p => Q.phi p.1 p.2)
  XE : ∃ d, s.get? "x_events" = some (.evArr d) ∧ ∀ k, d.get? k = (ev.get? k).map (·.map Prod.fst)
  YE : ∃ d, s.get? "y_events" = some (.evStates d) ∧ ∀ k, (d.get? k).map (·.map state) = (ev.get? k).map (·.map Prod.snd)

theorem firstOf_map {ev : Dict (List (ℝ × (ℕ → ℝ)))} {d : Dict (List ℝ)} {f : ℝ × (ℕ → ℝ) → ℝ}
    (h : ∀ k, d.get? k = (ev.get? k).map (·.map f)) (k : String) : firstOf d k = (firstEvent ev k).map f := by
  unfold firstOf firstEvent
  rw [h k]
  cases ev.get? k with
  | none => rfl
  | some l => cases l <;> rfl

theorem firstEvent_get {ev : Dict (List (ℝ × (ℕ → ℝ)))} {k : String} {p : ℝ × (ℕ → ℝ)} (h : firstEvent ev k = some p) :
    ∃ l, ev.get? k = some (p :: l) := by
  unfold firstEvent at h
  cases h' : ev.get? k with
  | none => rw [h'] at h; cases h
  | some l =>
    rw [h'] at h
    cases l with
    | nil => cases h
    | cons q l => simp at h; exact ⟨l, by rw [h]⟩

theorem isSome_map {α β : Type} {d : Dict α} {e : Dict β} {f : β → α} (h : ∀ k, d.get? k = (e.get? k).map f) (k : String) :
    (d.get? k).isSome = (e.get? k).isSome := by rw [h]; simp

theorem endAtB_eq {Q : EqView} {V : ℝ → ℝ} {s : Dict Attr} {t : List ℝ} {y : List (List ℝ)} {ev : Dict (List (ℝ × (ℕ → ℝ)))}
    (h : Attrs Q s t y ev) {k : String} {p : ℝ × (ℕ → ℝ)} (hp : firstEvent ev k = some p) :
    endAtB Q V s k (Q.N p.1 p.2) = .ok ⟨some (Q.N p.1 p.2), some (Q.phi p.1 p.2), Q.Hnan p, addLog (some (Q.N p.1 p.2)) (Q.Hnan p), some (V (Q.phi p.1 p.2)), none⟩ := by
  obtain ⟨l, hl⟩ := firstEvent_get hp
  obtain ⟨PE, hP, hP'⟩ := h.PE
  obtain ⟨XE, hX, hX'⟩ := h.XE
  obtain ⟨YE, hY, hY'⟩ := h.YE
  have a := hP' k
  have b := hX' k
  have c := hY' k
  rw [hl] at a b c
  simp only [Option.map_some, List.map_cons] at a b c
  obtain ⟨ys, hys⟩ : ∃ ys, YE.get? k = some ys := by
    cases h : YE.get? k with
    | none => rw [h] at c; cases c
    | some v => exact ⟨v, rfl⟩
  rw [hys] at c
  cases ys with
  | nil => simp at c
  | cons y1 ys =>
    simp only [Option.map_some, List.map_cons, Option.some.injEq, List.cons.injEq] at c
    simp only [endAtB, hP, hX, hY, evArr, Attr.getStates, key, a, b, hys, pyGet, bind, Except.bind, List.getElem?_cons_zero, c.1]

theorem startB_eq {Q : EqView} {s : Dict Attr} {t : List ℝ} {y : List (List ℝ)} {raw : RawSol}
    (h : Attrs Q s t y raw.events) (hg : raw.grid = ivpGrid t y) : startB Q s (onGrid t y Q.w) = .ok (postStart Q raw) := by
  classical
  obtain ⟨NE, hN, hN'⟩ := h.NE
  obtain ⟨x0, t', rfl⟩ : ∃ x0 t', t = x0 :: t' := by
    cases t with
    | nil => simp [ivpGrid, onGrid, RawSol.grid] at hg
    | cons a b => exact ⟨a, b, rfl⟩
  have hgr : ∀ {α : Type} (f : ℝ → (ℕ → ℝ) → α), (onGrid (x0 :: t') y f)[0]? = some (f x0 (colAt y 0)) := by
    intro α f; simp [onGrid]
  have hf : raw.first = (x0, colAt y 0) := by
    have : raw.grid[0]? = some raw.first := rfl
    rw [hg] at this
    have h2 : (ivpGrid (x0 :: t') y)[0]? = some (x0, colAt y 0) := hgr _
    rw [h2] at this
    exact (Option.some.inj this).symm
  unfold startB postStart
  simp only [hN, evArr, bind, Except.bind, firstOf_map hN', hf]
  cases hc : firstEvent raw.events "Collapse" with
  | some p => rfl
  | none =>
    simp only [Option.map_none, Option.isSome_none, Bool.false_eq_true, if_false, h.hx, h.hy, Attr.getArr, Attr.getRows, pyGet, List.getElem?_cons_zero, hgr]
    by_cases hi : 0 ≤ Q.inflating x0 (colAt y 0) ∨ Q.w x0 (colAt y 0) ≤ -1/3
    · rw [if_pos hi, if_pos hi]
      simp only [h.hN, Attr.getArr, hgr]
      rfl
    · rw [if_neg hi, if_neg hi]
      cases hs : firstEvent raw.events "Inflation_dir1_term0" with
      | none => simp only [Option.map_none]; rw [notTracked_congr (isSome_map hN')]; rfl
      | some p =>
        obtain ⟨l, hl⟩ := firstEvent_get hs
        obtain ⟨XE, hX, hX'⟩ := h.XE
        obtain ⟨YE, hY, hY'⟩ := h.YE
        have b := hX' "Inflation_dir1_term0"
        have c := hY' "Inflation_dir1_term0"
        rw [hl] at b c
        simp only [Option.map_some, List.map_cons] at b c
        obtain ⟨ys, hys⟩ : ∃ ys, YE.get? "Inflation_dir1_term0" = some ys := by
          cases h : YE.get? "Inflation_dir1_term0" with
          | none => rw [h] at c; cases c
          | some v => exact ⟨v, rfl⟩
        rw [hys] at c
        cases ys with
        | nil => simp at c
        | cons y1 ys =>
          simp only [Option.map_some, List.map_cons, Option.some.injEq, List.cons.injEq] at c
          simp only [Option.map_some, hX, hY, Attr.getStates, key, b, hys, List.getElem?_cons_zero, c.1]
          rfl

theorem endB_eq {Q : EqView} {V : ℝ → ℝ} {s : Dict Attr} {t : List ℝ} {y : List (List ℝ)} {raw : RawSol}
    (h : Attrs Q s t y raw.events) (hg : raw.grid = ivpGrid t y) : endB Q V s (onGrid t y Q.w) = .ok (postEnd Q V raw) := by
  obtain ⟨NE, hN, hN'⟩ := h.NE
  have hw : onGrid t y Q.w = raw.grid.map fun p => Q.w p.1 p.2 := by
    rw [hg]; simp [ivpGrid, onGrid]
  unfold endB postEnd endEvent
  simp only [hN, evArr, bind, Except.bind, firstOf_map hN']
  cases h1 : firstEvent raw.events "Inflation_dir-1_term1" with
  | some p => simp only [Option.map_some, endAtB_eq h h1]; rfl
  | none =>
    simp only [Option.map_none]
    cases h2 : firstEvent raw.events "Inflation_dir-1_term0" with
    | some p => simp only [Option.map_some, endAtB_eq h h2]; rfl
    | none =>
      simp only [Option.map_none, hw, List.getLast?_map]
      rw [List.getLast?_eq_some_getLast (by simp [RawSol.grid])]
      simp only [Option.map_some, endKind_congr (isSome_map hN')]

/-- The code that looks everything up on the scipy object computes what the model on grid points and events computes. -/
theorem inflationSolB_eq {eqs : Equations} {Q : EqView} {V : ℝ → ℝ} {K : ℝ} {res s : Dict Attr} {t : List ℝ} {y : List (List ℝ)} {raw : RawSol}
    (hs : eqs.sol res = .ok s) (h : Attrs Q s t y raw.events) (hg : raw.grid = ivpGrid t y) :
    inflationSolB eqs Q V K res = .ok (s, inflationSol Q V K raw) := by
  have hmap : ∀ {α : Type} (f : ℝ → (ℕ → ℝ) → α), onGrid t y f = raw.grid.map fun p => f p.1 p.2 := by
    intro α f; rw [hg]; simp [ivpGrid, onGrid]
  unfold inflationSolB inflationSol
  simp only [hs, bind, Except.bind, h.hx, h.hy, h.hN, Attr.getArr, Attr.getRows, startB_eq h hg, endB_eq h hg]
  simp only [hmap, List.zipWith_map, List.zipWith_self]
  rfl

/-! ## The dictionaries -/

theorem dictZip_pairs_get? {ks : List String} {te : List (List ℝ)} {ye : List (List (List ℝ))} (hl : ks.length = te.length) (hl' : ks.length = ye.length)
    (k : String) (l : List (ℝ × (ℕ → ℝ))) : (ivpEvents ks te ye).get? k = some l ↔
      ∃ j ts ss, LastAt ks k j ∧ te[j]? = some ts ∧ ye[j]? = some ss ∧ l = ts.zip (ss.map state) := by
  unfold ivpEvents
  rw [C22.dictZip_get? _ _ (by simp; omega)]
  constructor
  · rintro ⟨j, hj, hv⟩
    rw [List.getElem?_zipWith] at hv
    cases h1 : te[j]? with
    | none => rw [h1] at hv; cases hv
    | some ts =>
      cases h2 : ye[j]? with
      | none => rw [h1, h2] at hv; cases hv
      | some ss => rw [h1, h2] at hv; exact ⟨j, ts, ss, hj, h1, h2, (Option.some.inj hv).symm⟩
  · rintro ⟨j, ts, ss, hj, h1, h2, rfl⟩
    exact ⟨j, hj, by rw [List.getElem?_zipWith, h1, h2]⟩

/-- dictionaries described by the same last positions agree -/
theorem dict_eq_map {ks : List String} {te : List (List ℝ)} {ye : List (List (List ℝ))} (hl : ks.length = te.length) (hl' : ks.length = ye.length)
    (hocc : ∀ (j : ℕ) ts ss, te[j]? = some ts → ye[j]? = some ss → ts.length = ss.length) {α : Type} {d : Dict (List α)} {f : ℝ × (ℕ → ℝ) → α} {g : List ℝ → List (List ℝ) → List α}
    (hd : ∀ k v, d.get? k = some v ↔ ∃ j ts ss, LastAt ks k j ∧ te[j]? = some ts ∧ ye[j]? = some ss ∧ v = g ts ss)
    (hg : ∀ ts ss, ts.length = ss.length → g ts ss = (ts.zip (ss.map state)).map f) (k : String) :
    d.get? k = ((ivpEvents ks te ye).get? k).map (·.map f) := by
  apply Option.ext
  intro v
  rw [hd]
  simp only [Option.map_eq_some_iff, dictZip_pairs_get? hl hl']
  constructor
  · rintro ⟨j, ts, ss, hj, h1, h2, rfl⟩
    exact ⟨_, ⟨j, ts, ss, hj, h1, h2, rfl⟩, (hg ts ss (hocc j ts ss h1 h2)).symm⟩
  · rintro ⟨_, ⟨j, ts, ss, hj, h1, h2, rfl⟩, rfl⟩
    exact ⟨j, ts, ss, hj, h1, h2, (hg ts ss (hocc j ts ss h1 h2)).symm⟩

theorem exists_getElem? {α : Type} {l : List α} {j : ℕ} (h : j < l.length) : ∃ v, l[j]? = some v := ⟨_, List.getElem?_eq_getElem h⟩

theorem LastAt.lt {ks : List String} {k : String} {j : ℕ} (h : LastAt ks k j) : j < ks.length := by
  by_contra hc
  have := h.1
  rw [List.getElem?_eq_none (by omega)] at this
  cases this

end Primpy
