import Verif.Props.C24
import Verif.Props.C23

/-!
# C25 — start, end, duration and mask of inflation

`Observed ev key p`: the event stored under `key` was seen, first at `p`.
-/

namespace Primpy
open Real

/-- The event was recorded at least once and `p` is its first occurrence. -/
def Observed (events : Dict (List (ℝ × (ℕ → ℝ)))) (key : String) (p : ℝ × (ℕ → ℝ)) : Prop :=
  ∃ l, events.get? key = some (p :: l)

/-- The event was recorded at least once. -/
def Seen (events : Dict (List (ℝ × (ℕ → ℝ)))) (key : String) : Prop := ∃ p, Observed events key p

theorem C25.firstEvent_eq_some {events : Dict (List (ℝ × (ℕ → ℝ)))} {key : String}
    {p : ℝ × (ℕ → ℝ)} : firstEvent events key = some p ↔ Observed events key p := by
  unfold firstEvent Observed
  cases h : events.get? key with
  | none => simp
  | some l => cases l <;> simp

theorem C25.firstEvent_isSome {events : Dict (List (ℝ × (ℕ → ℝ)))} {key : String} :
    (firstEvent events key).isSome = true ↔ Seen events key := by
  rw [Option.isSome_iff_exists]
  exact exists_congr fun p => C25.firstEvent_eq_some

theorem C25.observed_unique {events : Dict (List (ℝ × (ℕ → ℝ)))} {key : String}
    {p q : ℝ × (ℕ → ℝ)} (hp : Observed events key p) (hq : Observed events key q) : p = q := by
  obtain ⟨l, hl⟩ := hp
  obtain ⟨m, hm⟩ := hq
  rw [hl] at hm
  simpa using (List.cons.inj (Option.some.inj hm)).1

/-- Whether the first grid point counts as inflating (criterion `inflating ≥ 0` or `w ≤ -1/3`). -/
def StartsInflating (Q : EqView) (s : RawSol) : Prop :=
  0 ≤ Q.inflating s.first.1 s.first.2 ∨ Q.w s.first.1 s.first.2 ≤ -1/3

/-- In cosmic time with positive energy density, `StartsInflating` says `φ̇² ≤ V` there. -/
theorem C25_starts_inflating_T (e : InflT) (s : RawSol)
    (hρ : 0 < InflT.dphidt s.first.2 ^ 2 / 2 + e.V s.first.2) :
    StartsInflating e.view s ↔ InflT.dphidt s.first.2 ^ 2 ≤ e.pot.V (InflT.phi s.first.2) := by
  have h1 := (C17_criteria_T e s.first.2).1 hρ
  have h2 := (C17_criteria_T e s.first.2).2.1 hρ
  have h0 : 0 ≤ e.inflating s.first.2 ↔ e.w s.first.2 ≤ -1/3 := by
    rw [le_iff_lt_or_eq, le_iff_lt_or_eq, h1, eq_comm, h2]
  have h3 : 0 ≤ e.inflating s.first.2 ↔ InflT.dphidt s.first.2 ^ 2 ≤ e.pot.V (InflT.phi s.first.2) := by
    simp only [InflT.inflating, InflT.V, sub_nonneg]
  unfold StartsInflating
  simp only [InflT.view]
  rw [← h0, or_self, h3]

/-- In e-folds with `H² > 0` and positive energy density, it says `(H φ')² ≤ V`. -/
theorem C25_starts_inflating_N (e : InflN) (s : RawSol) (hH : 0 < e.H2 s.first.1 s.first.2)
    (hρ : 0 < e.H2 s.first.1 s.first.2 * InflN.dphidN s.first.2 ^ 2 / 2 + e.V s.first.2) :
    StartsInflating e.view s ↔
      (e.H s.first.1 s.first.2 * InflN.dphidN s.first.2) ^ 2 ≤ e.pot.V (InflN.phi s.first.2) := by
  have h1 := (C17_criteria_N e s.first.1 s.first.2 hH).1 hρ
  have h2 := (C17_criteria_N e s.first.1 s.first.2 hH).2.1 hρ
  have h0 : 0 ≤ e.inflating s.first.1 s.first.2 ↔ e.w s.first.1 s.first.2 ≤ -1/3 := by
    rw [le_iff_lt_or_eq, le_iff_lt_or_eq, h1, eq_comm, h2]
  have h3 : 0 ≤ e.inflating s.first.1 s.first.2 ↔
      (e.H s.first.1 s.first.2 * InflN.dphidN s.first.2) ^ 2 ≤ e.pot.V (InflN.phi s.first.2) := by
    rw [mul_pow, InflN.H_sq hH]
    simp only [InflN.inflating, InflN.V, sub_nonneg]
  unfold StartsInflating
  simp only [InflN.view]
  rw [← h0, or_self, h3]

/-- **C25, start.**  `_N_beg` is a number exactly if the universe did not collapse and either the
first grid point inflates (then it is that point's `_N`) or the start event was observed (then it is
the `_N` of its first occurrence).  `H_beg` belongs to the same point. -/
theorem C25_start (Q : EqView) (V : ℝ → ℝ) (K : ℝ) (s : RawSol) (n : ℝ) :
    (inflationSol Q V K s).start.N_beg = some n ↔
      ¬ Seen s.events "Collapse" ∧ ∃ p, n = Q.N p.1 p.2 ∧
        (inflationSol Q V K s).start.H_beg = Q.Hnan p ∧
        ((StartsInflating Q s ∧ p = s.first) ∨
          (¬ StartsInflating Q s ∧ Observed s.events "Inflation_dir1_term0" p)) := by
  simp only [inflationSol]
  unfold postStart
  by_cases hc : Seen s.events "Collapse"
  · simp [C25.firstEvent_isSome.2 hc, hc]
  · rw [if_neg (fun h => hc (C25.firstEvent_isSome.1 h))]
    by_cases hi : StartsInflating Q s <;> have hi' := hi <;> unfold StartsInflating at hi'
    · rw [if_pos hi']
      simp [hc, hi, eq_comm]
    · rw [if_neg hi']
      cases hf : firstEvent s.events "Inflation_dir1_term0" with
      | none =>
        simp only [reduceCtorEq, hc, not_false_eq_true, hi, false_and, true_and, false_or, false_iff,
          not_exists, not_and]
        intro p _ _ hp
        rw [C25.firstEvent_eq_some.2 hp] at hf
        exact absurd hf (by simp)
      | some p =>
        have hp := C25.firstEvent_eq_some.1 hf
        simp only [Option.some.injEq, hc, not_false_eq_true, hi, false_and, true_and, false_or]
        constructor
        · rintro rfl; exact ⟨p, rfl, rfl, hp⟩
        · rintro ⟨q, hn, -, hq⟩
          rw [hn, C25.observed_unique hp hq]

/-- **C25, start warnings.**  A warning is issued exactly if `_N_beg` is NaN; it is the collapse
warning exactly if the universe collapsed. -/
theorem C25_start_warning (Q : EqView) (V : ℝ → ℝ) (K : ℝ) (s : RawSol) :
    ((inflationSol Q V K s).start.N_beg = none ↔ (inflationSol Q V K s).start.warning ≠ none) ∧
    ((inflationSol Q V K s).start.warning = some .collapse ↔ Seen s.events "Collapse") := by
  simp only [inflationSol]
  unfold postStart
  by_cases hc : Seen s.events "Collapse"
  · simp [C25.firstEvent_isSome.2 hc, hc]
  · rw [if_neg (fun h => hc (C25.firstEvent_isSome.1 h))]
    by_cases hi : StartsInflating Q s <;> have hi' := hi <;> unfold StartsInflating at hi'
    · rw [if_pos hi']; simp [hc]
    · rw [if_neg hi']
      cases hf : firstEvent s.events "Inflation_dir1_term0" <;> simp [hc]

/-- The point taken as the end of inflation: the first occurrence of the terminal end event if it
was observed, else the first occurrence of the non-terminal one. -/
def EndPoint (s : RawSol) (p : ℝ × (ℕ → ℝ)) : Prop :=
  Observed s.events "Inflation_dir-1_term1" p ∨
    (¬ Seen s.events "Inflation_dir-1_term1" ∧ Observed s.events "Inflation_dir-1_term0" p)

/-- **C25, end.**  If an end event was observed, all `*_end` attributes are those of its point (and
no warning is issued); otherwise all are NaN and the end warning is issued. -/
theorem C25_end (Q : EqView) (V : ℝ → ℝ) (K : ℝ) (s : RawSol) :
    (∀ p, EndPoint s p →
      let r := (inflationSol Q V K s).fin
      r.N_end = some (Q.N p.1 p.2) ∧ r.phi_end = some (Q.phi p.1 p.2) ∧ r.H_end = Q.Hnan p ∧
      r.V_end = some (V (Q.phi p.1 p.2)) ∧ r.warning = none ∧
      (0 < Q.H2 p.1 p.2 → r.logaH_end = some (Q.N p.1 p.2 + log √(Q.H2 p.1 p.2)))) ∧
    ((¬ ∃ p, EndPoint s p) →
      let r := (inflationSol Q V K s).fin
      r.N_end = none ∧ r.phi_end = none ∧ r.H_end = none ∧ r.V_end = none ∧ r.logaH_end = none ∧
      ∃ k, r.warning = some (.inflationEnd k)) := by
  constructor
  · intro p hp
    have hf : endEvent s.events = some p := by
      unfold endEvent
      rcases hp with hp | ⟨hn, hp⟩
      · rw [C25.firstEvent_eq_some.2 hp]
      · have : firstEvent s.events "Inflation_dir-1_term1" = none := by
          cases hh : firstEvent s.events "Inflation_dir-1_term1" with
          | none => rfl
          | some q => exact absurd ⟨q, C25.firstEvent_eq_some.1 hh⟩ hn
        rw [this]
        exact C25.firstEvent_eq_some.2 hp
    simp only [inflationSol]
    unfold postEnd
    rw [hf]
    refine ⟨rfl, rfl, rfl, rfl, rfl, fun hH => ?_⟩
    have hs : 0 < √(Q.H2 p.1 p.2) := sqrt_pos.2 hH
    simp [EqView.Hnan, nanSqrt, hH.le, nanLog, hs]
  · intro hno
    have h1 : firstEvent s.events "Inflation_dir-1_term1" = none := by
      cases hh : firstEvent s.events "Inflation_dir-1_term1" with
      | none => rfl
      | some q => exact absurd ⟨q, Or.inl (C25.firstEvent_eq_some.1 hh)⟩ hno
    have hns : ¬ Seen s.events "Inflation_dir-1_term1" := by
      rintro ⟨q, hq⟩; exact hno ⟨q, Or.inl hq⟩
    have h0 : firstEvent s.events "Inflation_dir-1_term0" = none := by
      cases hh : firstEvent s.events "Inflation_dir-1_term0" with
      | none => rfl
      | some q => exact absurd ⟨q, Or.inr ⟨hns, C25.firstEvent_eq_some.1 hh⟩⟩ hno
    simp only [inflationSol]
    unfold postEnd
    have hf : endEvent s.events = none := by unfold endEvent; rw [h1, h0]
    rw [hf]
    exact ⟨rfl, rfl, rfl, rfl, rfl, _, rfl⟩

/-- **C25, duration and mask.**  `N_tot` is a number exactly if both start and end are, and then it
is their difference; the mask exists in exactly that case and selects exactly the grid points
strictly between start and end. -/
theorem C25_duration_mask (Q : EqView) (V : ℝ → ℝ) (K : ℝ) (s : RawSol) :
    let r := inflationSol Q V K s
    (∀ d, r.N_tot = some d ↔ ∃ b e, r.start.N_beg = some b ∧ r.fin.N_end = some e ∧ d = e - b) ∧
    (r.inflation_mask = none ↔ r.N_tot = none) ∧
    (∀ m b e, r.start.N_beg = some b → r.fin.N_end = some e → r.inflation_mask = some m →
      m.length = s.grid.length ∧
      ∀ i (hi : i < s.grid.length), m[i]? = some true ↔
        b < Q.N s.grid[i].1 s.grid[i].2 ∧ Q.N s.grid[i].1 s.grid[i].2 < e) := by
  intro r
  have hr : r = inflationSol Q V K s := rfl
  refine ⟨?_, ?_, ?_⟩
  · intro d
    have : r.N_tot = r.fin.N_end.bind fun e => r.start.N_beg.map (e - ·) := rfl
    rw [this]
    cases r.fin.N_end <;> cases r.start.N_beg <;> simp [eq_comm]
  · have h1 : r.N_tot = r.fin.N_end.bind fun e => r.start.N_beg.map (e - ·) := rfl
    have h2 : r.inflation_mask = r.start.N_beg.bind fun b => r.fin.N_end.map fun e =>
      r.N.map fun n => decide (b < n) && decide (n < e) := by
      simp only [hr, inflationSol]
    rw [h1, h2]
    cases r.fin.N_end <;> cases r.start.N_beg <;> simp
  · intro m b e hb he hm
    have h2 : r.inflation_mask = r.start.N_beg.bind fun b => r.fin.N_end.map fun e =>
      r.N.map fun n => decide (b < n) && decide (n < e) := by
      simp only [hr, inflationSol]
    rw [h2, hb, he] at hm
    simp only [Option.bind_some, Option.map_some, Option.some.injEq] at hm
    subst hm
    have hN : r.N = s.grid.map fun p => Q.N p.1 p.2 := rfl
    refine ⟨by simp [hN], fun i hi => ?_⟩
    simp [hN, List.getElem?_eq_getElem hi]

/-- **C25, density parameter.**  At every grid point with `H² > 0`, the stored curvature density is
`-K/(aH)²`. -/
theorem C25_Omega_K (Q : EqView) (V : ℝ → ℝ) (K : ℝ) (s : RawSol) (i : ℕ) (hi : i < s.grid.length)
    (hH : 0 < Q.H2 s.grid[i].1 s.grid[i].2) :
    (inflationSol Q V K s).Omega_K[i]? = some (some
      (-K / (exp (Q.N s.grid[i].1 s.grid[i].2) * √(Q.H2 s.grid[i].1 s.grid[i].2)) ^ 2)) := by
  have hs : 0 < √(Q.H2 s.grid[i].1 s.grid[i].2) := sqrt_pos.2 hH
  have e : ∀ n h : ℝ, 0 < h → exp (-2 * (n + log h)) = 1 / (exp n * h) ^ 2 := by
    intro n h hh
    rw [show -2 * (n + log h) = -(n + log h + (n + log h)) by ring, exp_neg, exp_add, exp_add,
      exp_log hh]
    field_simp
  simp [inflationSol, List.getElem?_eq_getElem hi, EqView.Hnan, nanSqrt, hH.le, nanLog, hs]
  have := e (Q.N s.grid[i].1 s.grid[i].2) _ hs
  rw [neg_mul] at this
  rw [this]
  ring

/-- What the solver guarantees about recorded events: each recorded point is a root of the event's
function (external contract). -/
def EventsAreRoots (fmtE : ℝ → String) (Q : EqView) (evs : List Event) (s : RawSol) : Prop :=
  ∀ key l, s.events.get? key = some l → ∃ ev ∈ evs, ev.name fmtE = key ∧
    ∀ p ∈ l, ev.call Q p.1 p.2 = 0

/-- **C25, where the reported quantities exist**: at each grid point `H` is a number exactly if `H² ≥ 0`, and `logaH` and `Omega_K` are finite numbers exactly
if `H² > 0`; then they are `√H²`, `N + log H` and `-K/(aH)²`.  All arrays have one entry per grid point. -/
theorem C25_finite (Q : EqView) (V : ℝ → ℝ) (K : ℝ) (s : RawSol) :
    let r := inflationSol Q V K s
    r.N.length = s.grid.length ∧ r.w.length = s.grid.length ∧ r.H.length = s.grid.length ∧ r.logaH.length = s.grid.length ∧ r.Omega_K.length = s.grid.length ∧
    ∀ i (hi : i < s.grid.length), let p := s.grid[i]
      r.N[i]? = some (Q.N p.1 p.2) ∧ r.w[i]? = some (Q.w p.1 p.2) ∧
      (∀ h, r.H[i]? = some (some h) ↔ 0 ≤ Q.H2 p.1 p.2 ∧ h = √(Q.H2 p.1 p.2)) ∧
      (∀ l, r.logaH[i]? = some (some l) ↔ 0 < Q.H2 p.1 p.2 ∧ l = Q.N p.1 p.2 + log √(Q.H2 p.1 p.2)) ∧
      (∀ o, r.Omega_K[i]? = some (some o) ↔ 0 < Q.H2 p.1 p.2 ∧ o = -K / (exp (Q.N p.1 p.2) * √(Q.H2 p.1 p.2)) ^ 2) := by
  intro r
  have e : ∀ n h : ℝ, 0 < h → exp (-2 * (n + log h)) = 1 / (exp n * h) ^ 2 := by
    intro n h hh
    rw [show -2 * (n + log h) = -(n + log h + (n + log h)) by ring, exp_neg, exp_add, exp_add, exp_log hh]
    field_simp
  refine ⟨by simp [r, inflationSol], by simp [r, inflationSol], by simp [r, inflationSol], by simp [r, inflationSol], by simp [r, inflationSol], fun i hi => ?_⟩
  refine ⟨by simp [r, inflationSol, List.getElem?_eq_getElem hi], by simp [r, inflationSol, List.getElem?_eq_getElem hi], fun h => ?_, fun l => ?_, fun o => ?_⟩
  · simp only [r, inflationSol, List.getElem?_map, List.getElem?_eq_getElem hi, Option.map_some, Option.some.injEq, EqView.Hnan, nanSqrt]
    split_ifs with h0
    · simp [h0, eq_comm]
    · simp [h0]
  · simp only [r, inflationSol, List.getElem?_map, List.getElem?_eq_getElem hi, Option.map_some, Option.some.injEq, EqView.Hnan, nanSqrt]
    split_ifs with h0
    · simp only [Option.bind_some, nanLog, sqrt_pos]
      split_ifs with h1
      · simp [h1, eq_comm]
      · simp [h1]
    · have : ¬ 0 < Q.H2 s.grid[i].1 s.grid[i].2 := fun h => h0 h.le
      simp [this]
  · simp only [r, inflationSol, List.getElem?_map, List.getElem?_eq_getElem hi, Option.map_some, Option.some.injEq, EqView.Hnan, nanSqrt]
    split_ifs with h0
    · simp only [Option.bind_some, nanLog, sqrt_pos]
      split_ifs with h1
      · rw [Option.map_some, Option.map_some, Option.some.injEq, e _ _ (sqrt_pos.2 h1), mul_one_div, eq_comm]
        simp only [h1, true_and]
      · simp [h1]
    · have : ¬ 0 < Q.H2 s.grid[i].1 s.grid[i].2 := fun h => h0 h.le
      simp [this]

/-- **C25, state at the end of inflation.**  If the recorded events are roots (and the tracked
inflation events use the default `value=0` without guard), then at the reported end of inflation
`φ̇² = V`, so `H_end² = V_end/2 - K e^{-2 N_end}` (cosmic time). -/
theorem C25_end_state_T (fmtE : ℝ → String) (e : InflT) (evs : List Event) (s : RawSol)
    (hroots : EventsAreRoots fmtE e.view evs s)
    (hplain : ∀ ev ∈ evs, ev.IsInflation .neg → ev.kind = .inflation none ∧ ev.value = 0)
    (p : ℝ × (ℕ → ℝ)) (hp : EndPoint s p) :
    let r := (inflationSol e.view e.pot.V e.K s).fin
    InflT.dphidt p.2 ^ 2 = e.pot.V (InflT.phi p.2) ∧
    ∃ n v, r.N_end = some n ∧ r.V_end = some v ∧
      ∀ h, r.H_end = some h → h ^ 2 = v / 2 - e.K * exp (-2 * n) := by
  intro r
  have key : InflT.dphidt p.2 ^ 2 = e.pot.V (InflT.phi p.2) := by
    have : ∃ ev ∈ evs, ev.IsInflation .neg ∧ ev.call e.view p.1 p.2 = 0 := by
      rcases hp with ⟨l, hl⟩ | ⟨-, l, hl⟩
      · obtain ⟨ev, hev, hn, hc⟩ := hroots _ _ hl
        exact ⟨ev, hev, ((C24_end_key fmtE ev).1.1 hn).1, hc p (by simp)⟩
      · obtain ⟨ev, hev, hn, hc⟩ := hroots _ _ hl
        exact ⟨ev, hev, ((C24_end_key fmtE ev).2.1 hn).1, hc p (by simp)⟩
    obtain ⟨ev, hev, hi, hc⟩ := this
    obtain ⟨hk, hv⟩ := hplain ev hev hi
    obtain ⟨k, d, b, v⟩ := ev
    simp only at hk hv
    subst hk hv
    have := ((C23_T e d b 0 p.1 p.2).2.2.2.1).1.1 hc
    linarith
  obtain ⟨h1, -, h3, h4, -, -⟩ := (C25_end e.view e.pot.V e.K s).1 p hp
  refine ⟨key, _, _, h1, h4, fun h hh => ?_⟩
  have hh' : e.view.Hnan p = some h := by rw [← h3]; exact hh
  unfold EqView.Hnan nanSqrt at hh'
  split_ifs at hh' with h0
  · rw [← Option.some.inj hh', sq_sqrt h0]
    simp only [InflT.view, InflT.H2, T.get_H2, InflT.V, key]
    ring

/-- Non-vacuity: a two-point solution in the exact power-law potential with an end event recorded
and no collapse — the start is its first point. -/
example (Q : EqView) (s : RawSol) (p : ℝ × (ℕ → ℝ)) (h : 0 ≤ Q.inflating s.first.1 s.first.2)
    (hev : s.events = [("Collapse", []), ("Inflation_dir-1_term1", [p])]) :
    (inflationSol Q (fun _ => 1) 0 s).N_tot = some (Q.N p.1 p.2 - Q.N s.first.1 s.first.2) := by
  have hc : ¬ Seen s.events "Collapse" := by
    rintro ⟨q, l, hl⟩
    rw [hev] at hl
    simp [Dict.get?_cons] at hl
  rw [(C25_duration_mask Q _ 0 s).1]
  refine ⟨_, _, (C25_start Q _ 0 s _).2 ⟨hc, s.first, rfl, ?_, Or.inl ⟨Or.inl h, rfl⟩⟩,
    ((C25_end Q _ 0 s).1 p (Or.inl ⟨[], ?_⟩)).1, rfl⟩
  · simp only [inflationSol]
    unfold postStart
    rw [if_neg (fun h => hc (C25.firstEvent_isSome.1 h)), if_pos (Or.inl h)]
  · rw [hev]; simp [Dict.get?_cons]

/-- Hypotheses of `C25_end_state_T` met: the coasting closed universe sits on the boundary of
inflation, so any of its points is a root of the end event. -/
example : ∃ (s : RawSol) (evs : List Event) (p : ℝ × (ℕ → ℝ)),
    EventsAreRoots (fun _ => "") Exact.curvedT.view evs s ∧
    (∀ ev ∈ evs, ev.IsInflation .neg → ev.kind = .inflation none ∧ ev.value = 0) ∧
    EndPoint s p := by
  refine ⟨⟨(1, Exact.yCurvedT 1), [], [("Inflation_dir-1_term1", [(1, Exact.yCurvedT 1)])]⟩,
    [⟨.inflation none, .neg, true, 0⟩], (1, Exact.yCurvedT 1), ?_, by simp, Or.inl ⟨[], ?_⟩⟩
  · intro key l hl
    simp only [Dict.get?_cons, Dict.get?_nil] at hl
    split_ifs at hl with hk
    refine ⟨⟨.inflation none, .neg, true, 0⟩, by simp, by rw [hk]; rfl, fun p hp => ?_⟩
    rw [← Option.some.inj hl] at hp
    simp only [List.mem_singleton] at hp
    subst hp
    simp only [Event.call, reduceCtorEq, if_false, InflT.view, sub_zero, InflT.inflating, InflT.V,
      InflT.phi, InflT.dphidt, Exact.curvedT, Exact.expPot, Exact.yCurvedT]
    norm_num
  · simp [Dict.get?_cons]

end Primpy
