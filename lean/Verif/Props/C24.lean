import Verif.Model.InflationSol
import Verif.Lemmas.Dict
import Verif.Props.C17

/-!
# C24 — events are looked up under the names under which they are stored

`fmtE` (Python's `'%e'` formatting) is arbitrary throughout.
-/

namespace Primpy

/-- `ev` is an `InflationEvent` with the given direction. -/
def Event.IsInflation (ev : Event) (d : Direction) : Prop :=
  (∃ t_i, ev.kind = .inflation t_i) ∧ ev.direction = d

namespace C24

theorem modeExit_ne (fmtE : ℝ → String) (d : Direction) (b : Bool) (v : ℝ) (s : String)
    (h : s.toList.head? ≠ some 'M') : Event.name fmtE ⟨.modeExit, d, b, v⟩ ≠ s := by
  intro e
  apply h
  rw [← e]
  simp [Event.name]

end C24

/-- **C24, start.**  The post-processing key `Inflation_dir1_term0` is the name of exactly the
non-terminal inflation events with direction +1. -/
theorem C24_start_key (fmtE : ℝ → String) (ev : Event) :
    ev.name fmtE = "Inflation_dir1_term0" ↔ ev.IsInflation .pos ∧ ev.terminal = false := by
  obtain ⟨k, d, b, v⟩ := ev
  cases k with
  | modeExit =>
    simp only [Event.IsInflation, reduceCtorEq, exists_false, false_and, iff_false]
    exact C24.modeExit_ne fmtE d b v _ (by decide)
  | inflation t_i => cases d <;> cases b <;> simp [Event.name, Event.IsInflation, Direction.fmt, fmtBool]
  | _ => cases d <;> cases b <;> simp [Event.name, Event.IsInflation, Direction.fmt, fmtBool]

/-- **C24, end.**  The two end keys are the names of exactly the inflation events with direction
-1, terminal and non-terminal. -/
theorem C24_end_key (fmtE : ℝ → String) (ev : Event) :
    (ev.name fmtE = "Inflation_dir-1_term1" ↔ ev.IsInflation .neg ∧ ev.terminal = true) ∧
    (ev.name fmtE = "Inflation_dir-1_term0" ↔ ev.IsInflation .neg ∧ ev.terminal = false) := by
  obtain ⟨k, d, b, v⟩ := ev
  cases k with
  | modeExit =>
    simp only [Event.IsInflation, reduceCtorEq, exists_false, false_and, iff_false]
    exact ⟨C24.modeExit_ne fmtE d b v _ (by decide), C24.modeExit_ne fmtE d b v _ (by decide)⟩
  | _ => cases d <;> cases b <;> simp [Event.name, Event.IsInflation, Direction.fmt, fmtBool]

/-- **C24, collapse.** -/
theorem C24_collapse_key (fmtE : ℝ → String) (ev : Event) :
    ev.name fmtE = "Collapse" ↔ ∃ d b v, ev = ⟨.collapse, d, b, v⟩ := by
  obtain ⟨k, d, b, v⟩ := ev
  cases k with
  | modeExit =>
    simp only [Event.mk.injEq, reduceCtorEq, false_and, exists_false, iff_false]
    exact C24.modeExit_ne fmtE d b v _ (by decide)
  | _ => cases d <;> cases b <;> simp [Event.name, Direction.fmt, fmtBool]

/-- **C24, end warning.**  For every list of events, the end warning says "not tracking" exactly if
no inflation event with direction -1 is among them. -/
theorem C24_end_warning (fmtE : ℝ → String) (evs : List Event)
    (events : Dict (List (ℝ × (ℕ → ℝ))))
    (hkeys : ∀ k, k ∈ events.map Prod.fst ↔ ∃ ev ∈ evs, ev.name fmtE = k) (w : ℝ) :
    endKind events w = 0 ↔ ∀ ev ∈ evs, ¬ ev.IsInflation .neg := by
  have key : (!events.contains "Inflation_dir-1_term1" &&
      !events.contains "Inflation_dir-1_term0") = true ↔ ∀ ev ∈ evs, ¬ ev.IsInflation .neg := by
    rw [Bool.and_eq_true, Bool.not_eq_true', Bool.not_eq_true', ← Bool.not_eq_true,
      ← Bool.not_eq_true, Dict.contains_iff, Dict.contains_iff, hkeys, hkeys]
    constructor
    · rintro ⟨h1, h2⟩ ev hev hi
      cases ht : ev.terminal
      · exact h2 ⟨ev, hev, (C24_end_key fmtE ev).2.2 ⟨hi, ht⟩⟩
      · exact h1 ⟨ev, hev, (C24_end_key fmtE ev).1.2 ⟨hi, ht⟩⟩
    · intro h
      exact ⟨fun ⟨ev, hev, hn⟩ => h ev hev ((C24_end_key fmtE ev).1.1 hn).1,
        fun ⟨ev, hev, hn⟩ => h ev hev ((C24_end_key fmtE ev).2.1 hn).1⟩
  unfold endKind
  split_ifs with h1 h2
  · simpa using key.1 h1
  · simpa using fun hc => h1 (key.2 hc)
  · simpa using fun hc => h1 (key.2 hc)

/-- The class of an event (specification): 0 `UntilT`, 1 `UntilN`, 2 `Inflation`, 3 `AfterInflationEnd`, 4 `Collapse`, 5 `Phi0`, 6 `ModeExit`. -/
def Event.cls (ev : Event) : ℕ :=
  match ev.kind with
  | .untilT => 0 | .untilN => 1 | .inflation _ => 2 | .afterInflationEnd => 3 | .collapse => 4 | .phi0 => 5 | .modeExit => 6

/-- **C24, no two different events share a key.**  Two events are stored under the same key exactly if they belong to the same class and, for the classes
with a direction, have the same direction and terminal flag (and, for mode exits, the same formatted value). -/
theorem C24_no_clash (fmtE : ℝ → String) (a b : Event) :
    a.name fmtE = b.name fmtE ↔ a.cls = b.cls ∧
      (a.cls ∈ [0, 1, 4] ∨ (a.direction = b.direction ∧ a.terminal = b.terminal ∧ (a.cls = 6 → fmtE a.value = fmtE b.value))) := by
  have hM : ∀ d t v (c : Event), c.cls ≠ 6 → Event.name fmtE ⟨.modeExit, d, t, v⟩ ≠ c.name fmtE := by
    intro d t v c hc
    refine C24.modeExit_ne fmtE d t v _ ?_
    obtain ⟨k, d', t', v'⟩ := c
    cases k <;> simp [Event.cls] at hc <;> simp [Event.name]
  by_cases ha : a.cls = 6
  · obtain ⟨k, d, t, v⟩ := a
    have hk : k = .modeExit := by cases k <;> simp [Event.cls] at ha ⊢
    subst hk
    by_cases hb : b.cls = 6
    · obtain ⟨k, d', t', v'⟩ := b
      have hk : k = .modeExit := by cases k <;> simp [Event.cls] at hb ⊢
      subst hk
      cases d <;> cases d' <;> cases t <;> cases t' <;>
        simp [Event.name, Event.cls, Direction.fmt, fmtBool, String.ext_iff]
    · constructor
      · intro h; exact absurd h (hM d t v b hb)
      · rintro ⟨h, -⟩; exact absurd (h.symm.trans ha) hb
  · by_cases hb : b.cls = 6
    · obtain ⟨k, d', t', v'⟩ := b
      have hk : k = .modeExit := by cases k <;> simp [Event.cls] at hb ⊢
      subst hk
      constructor
      · intro h; exact absurd h.symm (hM d' t' v' a ha)
      · rintro ⟨h, -⟩; exact absurd (h.trans hb) ha
    · obtain ⟨k, d, t, v⟩ := a
      obtain ⟨k', d', t', v'⟩ := b
      cases k <;> cases k' <;> (first | (exact absurd rfl ha) | (exact absurd rfl hb) |
        (cases d <;> cases d' <;> cases t <;> cases t' <;> simp [Event.name, Event.cls, Direction.fmt, fmtBool]))

/-- **C24, kinds of end warning.**  With an end event tracked, the warning says "still inflating" exactly if `w < -1/3` at the last point. -/
theorem C24_end_warning_kinds (fmtE : ℝ → String) (evs : List Event) (events : Dict (List (ℝ × (ℕ → ℝ))))
    (hkeys : ∀ k, k ∈ events.map Prod.fst ↔ ∃ ev ∈ evs, ev.name fmtE = k) (w : ℝ) :
    (endKind events w = 1 ↔ (∃ ev ∈ evs, ev.IsInflation .neg) ∧ w < -1/3) ∧ (endKind events w = 2 ↔ (∃ ev ∈ evs, ev.IsInflation .neg) ∧ -1/3 ≤ w) := by
  have h0 := C24_end_warning fmtE evs events hkeys w
  have ex : (∃ ev ∈ evs, ev.IsInflation .neg) ↔ endKind events w ≠ 0 := by rw [ne_eq, h0]; push Not; rfl
  rw [ex]
  unfold endKind
  split_ifs with h1 h2
  · simp
  · simp; linarith
  · simp; linarith

/-- **C24, "still inflating" is true (cosmic time).**  If no end of inflation was recorded, the warning says "still inflating" exactly if an end event is
tracked and the universe accelerates at the last grid point. -/
theorem C24_still_inflating_time (fmtE : ℝ → String) (e : InflT) (V : ℝ → ℝ) (s : RawSol) (evs : List Event)
    (hkeys : ∀ k, k ∈ s.events.map Prod.fst ↔ ∃ ev ∈ evs, ev.name fmtE = k) (hno : endEvent s.events = none)
    (y : ℕ → ℝ) (x : ℝ) (hlast : s.grid.getLast? = some (x, y)) (hr : 0 < InflT.dphidt y ^ 2 / 2 + e.V y) :
    (postEnd e.view V s).warning = some (.inflationEnd 1) ↔ (∃ ev ∈ evs, ev.IsInflation .neg) ∧ 0 < e.inflating y := by
  have hl : s.grid.getLast (by simp [RawSol.grid]) = (x, y) := by
    rw [List.getLast?_eq_some_getLast (by simp [RawSol.grid])] at hlast; simpa using hlast
  rw [(C17_criteria_T e y).1 hr, ← (C24_end_warning_kinds fmtE evs s.events hkeys _).1]
  simp only [postEnd, hno, hl, Option.some.injEq, Warn.inflationEnd.injEq]
  rfl

/-- **C24, "still inflating" is true (e-folds).** -/
theorem C24_still_inflating_efolds (fmtE : ℝ → String) (e : InflN) (V : ℝ → ℝ) (s : RawSol) (evs : List Event)
    (hkeys : ∀ k, k ∈ s.events.map Prod.fst ↔ ∃ ev ∈ evs, ev.name fmtE = k) (hno : endEvent s.events = none)
    (y : ℕ → ℝ) (x : ℝ) (hlast : s.grid.getLast? = some (x, y)) (hH : 0 < e.H2 x y) (hr : 0 < e.H2 x y * InflN.dphidN y ^ 2 / 2 + e.V y) :
    (postEnd e.view V s).warning = some (.inflationEnd 1) ↔ (∃ ev ∈ evs, ev.IsInflation .neg) ∧ 0 < e.inflating x y := by
  have hl : s.grid.getLast (by simp [RawSol.grid]) = (x, y) := by
    rw [List.getLast?_eq_some_getLast (by simp [RawSol.grid])] at hlast; simpa using hlast
  rw [(C17_criteria_N e x y hH).1 hr, ← (C24_end_warning_kinds fmtE evs s.events hkeys _).1]
  simp only [postEnd, hno, hl, Option.some.injEq, Warn.inflationEnd.injEq]
  rfl

/-- **C24 fails for the start warning.**  No event of any class has a name the start warning looks
for, so whatever is tracked — including the inflation event with direction +1 — it claims that the
event is not tracked. -/
theorem C24_start_warning_wrong (fmtE : ℝ → String) (evs : List Event)
    (events : Dict (List (ℝ × (ℕ → ℝ))))
    (hkeys : ∀ k, k ∈ events.map Prod.fst → ∃ ev ∈ evs, ev.name fmtE = k) :
    startNotTracked events = true := by
  have never : ∀ ev : Event, ev.name fmtE ≠ "Inflation_dir+1_term1" ∧
      ev.name fmtE ≠ "Inflation_dir+1_term0" := by
    rintro ⟨k, d, b, v⟩
    cases k with
    | modeExit => exact ⟨C24.modeExit_ne fmtE d b v _ (by decide),
        C24.modeExit_ne fmtE d b v _ (by decide)⟩
    | _ => cases d <;> cases b <;> simp [Event.name, Direction.fmt, fmtBool]
  unfold startNotTracked
  rw [Bool.and_eq_true, Bool.not_eq_true', Bool.not_eq_true', ← Bool.not_eq_true,
      ← Bool.not_eq_true, Dict.contains_iff, Dict.contains_iff]
  refine ⟨fun h => ?_, fun h => ?_⟩
  · obtain ⟨ev, -, hn⟩ := hkeys _ h; exact (never ev).1 hn
  · obtain ⟨ev, -, hn⟩ := hkeys _ h; exact (never ev).2 hn

/-- **C24 fails for terminal start events.**  If the evolution does not start inflating and the
only tracked start events are terminal ones, the start of inflation is reported as undetermined even
though a transition was recorded. -/
theorem C24_terminal_start_missed (fmtE : ℝ → String) (Q : EqView) (s : RawSol) (evs : List Event)
    (hkeys : ∀ k, k ∈ s.events.map Prod.fst → ∃ ev ∈ evs, ev.name fmtE = k)
    (hterm : ∀ ev ∈ evs, ev.IsInflation .pos → ev.terminal = true)
    (hstart : Q.inflating s.first.1 s.first.2 < 0) (hw : -1/3 < Q.w s.first.1 s.first.2) :
    (postStart Q s).N_beg = none := by
  have hno : firstEvent s.events "Inflation_dir1_term0" = none := by
    have : s.events.get? "Inflation_dir1_term0" = none := by
      rw [Dict.get?_eq_none]
      intro h
      obtain ⟨ev, hev, hn⟩ := hkeys _ h
      obtain ⟨hi, ht⟩ := (C24_start_key fmtE ev).1 hn
      rw [hterm ev hev hi] at ht
      exact absurd ht (by simp)
    simp [firstEvent, this]
  unfold postStart
  split_ifs with h1 h2
  · rfl
  · rcases h2 with h | h
    · linarith
    · linarith
  · rw [hno]

/-- Hypotheses met: tracking a terminal start event that was seen once at `x = 1`. -/
example : ∃ (evs : List Event) (events : Dict (List (ℝ × (ℕ → ℝ)))),
    (∀ k, k ∈ events.map Prod.fst ↔ ∃ ev ∈ evs, ev.name (fun _ => "") = k) ∧
    (∀ ev ∈ evs, ev.IsInflation .pos → ev.terminal = true) ∧
    (firstEvent events "Inflation_dir1_term1").isSome := by
  refine ⟨[⟨.inflation none, .pos, true, 0⟩], [("Inflation_dir1_term1", [(1, fun _ => 0)])], ?_, ?_, ?_⟩
  · intro k; simp [Event.name, Direction.fmt, fmtBool, eq_comm]
  · simp
  · simp [firstEvent, Dict.get?_cons]

/-- Power-law inflation tracked with a terminal end event that was never seen: the warning is "still inflating". -/
example : (postEnd Exact.flatT.view Exact.flatT.pot.V
    ⟨(1, Exact.yFlatT 1), [(2, Exact.yFlatT 2)], [("Inflation_dir-1_term1", [])]⟩).warning = some (.inflationEnd 1) := by
  have h := C24_still_inflating_time (fun _ => "") Exact.flatT Exact.flatT.pot.V
    ⟨(1, Exact.yFlatT 1), [(2, Exact.yFlatT 2)], [("Inflation_dir-1_term1", [])]⟩ [⟨.inflation none, .neg, true, 0⟩]
    (fun k => by simp [Event.name, Direction.fmt, fmtBool, eq_comm]) (by simp [endEvent, firstEvent, Dict.get?_cons, Dict.get?_nil])
    (Exact.yFlatT 2) 2 (by simp [RawSol.grid]) (by simp only [InflT.V, Exact.flatT, Exact.expPot]; positivity)
  refine h.2 ⟨⟨_, List.mem_singleton.2 rfl, ⟨none, rfl⟩, rfl⟩, ?_⟩
  simp only [InflT.inflating, InflT.V, InflT.phi, InflT.dphidt, Exact.flatT, Exact.expPot, Exact.yFlatT, Exact.exp_neg_two_log two_pos]
  norm_num

end Primpy
