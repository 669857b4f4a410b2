import Verif.Model.ShootingSolve
import Verif.Props.C67
import Verif.Props.C90
import Verif.Lemmas.ExactStart

/-!
# C91: what is reported about inflation depends on the initial state only; `ISIC_Nt` through `solve`
-/

namespace Primpy
open Real Set Spec Bunch

/-! ## Specification -/

/-- `Y` is an expanding solution of the background equations on `S`, with the field in `D`. -/
def Eqs.Trajectory (E : Eqs) (D S : Set ℝ) (Y : ℝ → ℕ → ℝ) : Prop :=
  match E with
  | .T e => SolvesODE S e.rows e.call Y ∧ (∀ x ∈ S, 0 < e.H2 (Y x)) ∧ ∀ x ∈ S, Y x 0 ∈ D
  | .N e => SolvesODE S e.rows e.call Y ∧ (∀ x ∈ S, 0 < e.H2 x (Y x)) ∧ ∀ x ∈ S, Y x 0 ∈ D
  | .other _ _ => False

/-- scipy's answer `res` to the request `q` is a faithful run: it starts at the requested point and state and samples a solution `Y` of the equations from `x0` to
`x1` (`Integrated`, C90); each recorded inflation event is a sign change of that solution, also if the run was stopped there; an `UntilN` event happens at its bound;
and a terminal event is the last grid point. -/
structure Run (E : Eqs) (D : Set ℝ) (q : IvpCall) (res : Dict Attr) (t : List ℝ) (y : List (List ℝ)) (te : List (List ℝ)) (ye : List (List (List ℝ)))
    (S : Set ℝ) (Y : ℝ → ℕ → ℝ) (x0 x1 : ℝ) : Prop where
  shape : IvpShape E.idx.length q.events.length res t y te ye
  solution : E.Trajectory D S Y
  isOpen : IsOpen S
  convex : Convex ℝ S
  start : x0 ∈ S
  sub : Ico x0 x1 ⊆ S
  from_x : q.x_ini = some x0
  from_y : ∀ i < E.idx.length, q.y0[i]? = some (some (Y x0 i))
  integrated : Integrated (C90.view E) E.idx.length q.events Y x0 x1 t y te ye
  crosses : ∀ (j : ℕ) ev ts, q.events[j]? = some ev → te[j]? = some ts → (∃ t_i, ev.kind = .inflation t_i) → ev.direction ≠ .zero →
    ∀ c ∈ ts, ∃ b, c < b ∧ Icc c b ⊆ S ∧ ∀ x ∈ Ioc c b, 0 < ev.direction.val * ev.call (C90.view E) x (Y x)
  bound : ∀ (j : ℕ) ev ts, q.events[j]? = some ev → te[j]? = some ts → ev.kind = .untilN → ∀ c ∈ ts, (C90.view E).N c (Y c) = ev.value
  last : ∀ (j : ℕ) ev ts, q.events[j]? = some ev → te[j]? = some ts → ev.terminal = true → ∀ c ∈ ts, t.getLast? = some c

namespace C91

theorem rowsT (e : InflT) : 3 ≤ (Eqs.T e).idx.length := by show 3 ≤ e.rows; rw [InflT.rows_eq]; split_ifs <;> omega
theorem rowsN (e : InflN) : 2 ≤ (Eqs.N e).idx.length := by show 2 ≤ e.rows; rw [InflN.rows_eq]; split_ifs <;> omega

theorem inflating_congr {E : Eqs} (hE : E.Shipped) {y z : ℕ → ℝ} (h : ∀ i < E.idx.length, y i = z i) (x : ℝ) :
    (C90.view E).inflating x y = (C90.view E).inflating x z := by
  cases E with
  | other K p => exact absurd rfl (hE K p)
  | T e =>
    have := rowsT e
    show e.inflating _ = e.inflating _
    simp only [InflT.inflating, InflT.V, InflT.phi, InflT.dphidt, h 0 (by omega), h 1 (by omega)]
  | N e =>
    have := rowsN e
    show e.inflating _ _ = e.inflating _ _
    simp only [InflN.inflating, InflN.H2, InflN.V, InflN.phi, InflN.dphidN, h 0 (by omega), h 1 (by omega)]

theorem N_congr {E : Eqs} (hE : E.Shipped) {y z : ℕ → ℝ} (h : ∀ i < E.idx.length, y i = z i) (x : ℝ) :
    (C90.view E).N x y = (C90.view E).N x z := by
  cases E with
  | other K p => exact absurd rfl (hE K p)
  | T e => have := rowsT e; exact h 2 (by omega)
  | N e => rfl

theorem shipped {E : Eqs} {D S : Set ℝ} {Y : ℝ → ℕ → ℝ} (h : E.Trajectory D S Y) : E.Shipped := by
  rintro K p rfl; exact h

/-- trajectories from the same point agree -/
theorem traj_unique {E : Eqs} {D S1 S2 : Set ℝ} {Y1 Y2 : ℝ → ℕ → ℝ} {d3 : ℝ → ℝ} (hD : IsOpen D) (h1 : IsDerivOn D E.pot.V E.pot.dV) (h2 : IsDerivOn D E.pot.dV E.pot.d2V)
    (h3 : IsDerivOn D E.pot.d2V d3) (t1 : E.Trajectory D S1 Y1) (t2 : E.Trajectory D S2 Y2) (o1 : IsOpen S1) (o2 : IsOpen S2) (c1 : Convex ℝ S1) (c2 : Convex ℝ S2)
    {x0 : ℝ} (m1 : x0 ∈ S1) (m2 : x0 ∈ S2) (h0 : ∀ i < E.idx.length, Y1 x0 i = Y2 x0 i) : ∀ x ∈ S1, x ∈ S2 → ∀ i < E.idx.length, Y1 x i = Y2 x i := by
  intro x hx1 hx2
  have hpre : IsPreconnected (S1 ∩ S2) := (c1.inter c2).isPreconnected
  cases E with
  | other K p => exact absurd t1 (by simp [Eqs.Trajectory])
  | T e =>
    exact C67_time_unique (o1.inter o2) hpre hD h1 h2 h3 (fun s hs => t1.1 s hs.1) (fun s hs => t2.1 s hs.2) (fun s hs => t1.2.1 s hs.1) (fun s hs => t1.2.2 s hs.1)
      ⟨m1, m2⟩ h0 x ⟨hx1, hx2⟩
  | N e =>
    exact C67_efolds_unique (o1.inter o2) hpre hD h1 h2 h3 (fun s hs => t1.1 s hs.1) (fun s hs => t2.1 s hs.2) (fun s hs => t1.2.1 s hs.1) (fun s hs => t1.2.2 s hs.1)
      ⟨m1, m2⟩ h0 x ⟨hx1, hx2⟩

/-- the first sign change of one run is not before that of another run of the same function -/
theorem head_le {g1 g2 : ℝ → ℝ} {x0 X1 X2 s c1 c2 b1 : ℝ} {l1 l2 : List ℝ} (d1 : Detects g1 x0 X1 s (c1 :: l1)) (d2 : Detects g2 x0 X2 s (c2 :: l2)) (hb : c1 < b1)
    (hcr : ∀ x ∈ Ioc c1 b1, 0 < s * g1 x) (hag : ∀ x, x0 < x → x ≤ b1 → x < X2 → g1 x = g2 x) : c2 ≤ c1 := by
  by_contra hc
  push Not at hc
  have k1 := d1.sound c1 (List.mem_cons_self ..)
  have k2 := d2.sound c2 (List.mem_cons_self ..)
  obtain ⟨a, ha0, hac, hl⟩ := k1.left
  have hX : c2 ≤ X2 := k2.before
  obtain ⟨a', ha'⟩ : ∃ a', a' = (a + c1) / 2 := ⟨_, rfl⟩
  have a1 : a < a' := by linarith
  have a2 : a' < c1 := by linarith
  obtain ⟨b', hb1, hb2, hb3⟩ : ∃ b', c1 < b' ∧ b' ≤ b1 ∧ b' < c2 :=
    ⟨min b1 ((c1 + c2) / 2), lt_min hb (by linarith), min_le_left .., lt_of_le_of_lt (min_le_right ..) (by linarith)⟩
  have x0a : x0 < a' := by linarith
  obtain ⟨c, hcm, -, hcb⟩ := d2.complete a' b' x0a.le (by linarith) (by linarith)
    (by rw [← hag a' x0a (by linarith) (by linarith)]; exact hl a' ⟨a1.le, a2⟩ x0a)
    (by rw [← hag b' (by linarith) hb2 (by linarith)]; exact hcr b' ⟨hb1, hb2⟩)
  rcases List.mem_cons.1 hcm with rfl | hcl
  · linarith
  · have := (List.pairwise_cons.1 d2.sorted).1 c hcl
    linarith

theorem trunc_congr {n : ℕ} {Y1 Y2 : ℝ → ℕ → ℝ} {x : ℝ} (h : ∀ i < n, Y1 x i = Y2 x i) : C90.trunc n Y1 x = C90.trunc n Y2 x := by
  funext i
  unfold C90.trunc
  split_ifs with hi
  · exact h i hi
  · rfl

theorem trunc_lt {n : ℕ} {Y : ℝ → ℕ → ℝ} {x : ℝ} : ∀ i < n, C90.trunc n Y x i = Y x i := fun i hi => by rw [C90.trunc, if_pos hi]

/-- a run in terms of grid points and events -/
structure RawRun (E : Eqs) (S : Set ℝ) (Y : ℝ → ℕ → ℝ) (x0 x1 : ℝ) (raw : RawSol) : Prop where
  first : raw.first = (x0, C90.trunc E.idx.length Y x0)
  event : ∀ k p (d : Direction), Observed raw.events k p → (d = .pos ∧ k = "Inflation_dir1_term0" ∨ d = .neg ∧ k ∈ ["Inflation_dir-1_term1", "Inflation_dir-1_term0"]) →
    p.2 = C90.trunc E.idx.length Y p.1 ∧ p.1 ∈ S ∧ ∃ l b, Detects (fun x => (C90.view E).inflating x (Y x)) x0 x1 d.val (p.1 :: l) ∧ p.1 < b ∧ Icc p.1 b ⊆ S ∧
      ∀ x ∈ Ioc p.1 b, 0 < d.val * (C90.view E).inflating x (Y x)

theorem rawRun {E : Eqs} {D : Set ℝ} {q : IvpCall} {res : Dict Attr} {t : List ℝ} {y : List (List ℝ)} {te : List (List ℝ)} {ye : List (List (List ℝ))}
    {S : Set ℝ} {Y : ℝ → ℕ → ℝ} {x0 x1 : ℝ} {fmtE : ℝ → String} {raw : RawSol} (r : Run E D q res t y te ye S Y x0 x1) (hp : PlainInflation q.events)
    (hg : raw.grid = ivpGrid t y)
    (hev : ∀ k l, raw.events.get? k = some l ↔ ∃ j ts ss, LastAt (q.events.map (Event.name fmtE)) k j ∧ te[j]? = some ts ∧ ye[j]? = some ss ∧ l = ts.zip (ss.map state)) :
    RawRun E S Y x0 x1 raw := by
  have hE := shipped r.solution
  have hQ : ∀ x, (C90.view E).inflating x (C90.trunc E.idx.length Y x) = (C90.view E).inflating x (Y x) := fun x => inflating_congr hE trunc_lt x
  have hf := C90.faithful (fmtE := fmtE) (C90.Integrated.trunc r.integrated hp hQ) (fun x i hi => by rw [C90.trunc, if_neg (by omega)]) r.shape hg hev hp
  refine ⟨hf.start, fun k p d ho hk => ?_⟩
  obtain ⟨l, hl⟩ := ho
  have hd : d ≠ .zero := by rcases hk with ⟨rfl, -⟩ | ⟨rfl, -⟩ <;> decide
  have hinf : ∀ ev : Event, ev.name fmtE = k → (∃ t_i, ev.kind = .inflation t_i) ∧ ev.direction = d := by
    intro ev hn
    rcases hk with ⟨rfl, rfl⟩ | ⟨rfl, hk⟩
    · exact ((C24_start_key fmtE ev).1 hn).1
    · simp only [List.mem_cons, List.not_mem_nil, or_false] at hk
      rcases hk with rfl | rfl
      · exact ((C24_end_key fmtE ev).1.1 hn).1
      · exact ((C24_end_key fmtE ev).2.1 hn).1
  have hdet : Detects (fun x => (C90.view E).inflating x (Y x)) x0 x1 d.val (p.1 :: l.map Prod.fst) := by
    rcases hk with ⟨rfl, rfl⟩ | ⟨rfl, hk⟩
    · have := hf.begins _ hl
      simpa [hQ, Direction.val] using this
    · have := hf.ends k hk _ hl
      simpa [hQ, Direction.val] using this
  obtain ⟨j, ts, ss, hj, h1, h2, hz⟩ := (hev _ _).1 hl
  obtain ⟨ev, he, hm, hn⟩ := C90.lastAt_event hj
  obtain ⟨hi, rfl⟩ := hinf ev hn
  have hpm : p.1 ∈ ts := by
    have hm : p ∈ ts.zip (ss.map state) := by rw [← hz]; exact List.mem_cons_self ..
    exact (List.of_mem_zip (a := p.1) (b := p.2) hm).1
  obtain ⟨b, hb, hsub, hpos⟩ := r.crosses j ev ts he h1 hi hd p.1 hpm
  refine ⟨hf.events k _ hl p (List.mem_cons_self ..), hsub ⟨le_rfl, hb.le⟩, _, b, hdet, hb, hsub, fun x hx => ?_⟩
  have := hpos x hx
  rwa [C90.call_plain (hp ev hm hi)] at this

/-- the first recorded events of two runs from the same state agree -/
theorem event_eq {E : Eqs} {D S1 S2 : Set ℝ} {Y1 Y2 : ℝ → ℕ → ℝ} {x0 X1 X2 : ℝ} {raw1 raw2 : RawSol} (hE : E.Shipped)
    (hY : ∀ x ∈ S1, x ∈ S2 → ∀ i < E.idx.length, Y1 x i = Y2 x i) (s1 : Ico x0 X1 ⊆ S1) (s2 : Ico x0 X2 ⊆ S2)
    (r1 : RawRun E S1 Y1 x0 X1 raw1) (r2 : RawRun E S2 Y2 x0 X2 raw2) {k1 k2 : String} {p1 p2 : ℝ × (ℕ → ℝ)} {d : Direction}
    (o1 : Observed raw1.events k1 p1) (o2 : Observed raw2.events k2 p2)
    (hk1 : d = .pos ∧ k1 = "Inflation_dir1_term0" ∨ d = .neg ∧ k1 ∈ ["Inflation_dir-1_term1", "Inflation_dir-1_term0"])
    (hk2 : d = .pos ∧ k2 = "Inflation_dir1_term0" ∨ d = .neg ∧ k2 ∈ ["Inflation_dir-1_term1", "Inflation_dir-1_term0"]) : p1 = p2 := by
  obtain ⟨e1, m1, l1, b1, det1, hb1, sub1, pos1⟩ := r1.event k1 p1 d o1 hk1
  obtain ⟨e2, m2, l2, b2, det2, hb2, sub2, pos2⟩ := r2.event k2 p2 d o2 hk2
  have in1 : ∀ x, x0 < x → x ≤ b1 → x ∈ S1 := fun x hx hxb => by
    by_cases h : x < p1.1
    · exact s1 ⟨hx.le, lt_of_lt_of_le h (det1.sound _ (List.mem_cons_self ..)).before⟩
    · exact sub1 ⟨not_lt.1 h, hxb⟩
  have in2 : ∀ x, x0 < x → x ≤ b2 → x ∈ S2 := fun x hx hxb => by
    by_cases h : x < p2.1
    · exact s2 ⟨hx.le, lt_of_lt_of_le h (det2.sound _ (List.mem_cons_self ..)).before⟩
    · exact sub2 ⟨not_lt.1 h, hxb⟩
  have ge := head_le det1 det2 hb1 pos1 fun x hx hxb hX => inflating_congr hE (hY x (in1 x hx hxb) (s2 ⟨hx.le, hX⟩)) x
  have le := head_le det2 det1 hb2 pos2 fun x hx hxb hX => (inflating_congr hE (hY x (s1 ⟨hx.le, hX⟩) (in2 x hx hxb)) x).symm
  have e : p1.1 = p2.1 := le_antisymm le ge
  refine Prod.ext e ?_
  rw [e1, e2, ← e]
  exact trunc_congr (hY _ m1 (e ▸ m2))

theorem endPoint_keys {raw : RawSol} {p : ℝ × (ℕ → ℝ)} (h : endEvent raw.events = some p) :
    ∃ k ∈ ["Inflation_dir-1_term1", "Inflation_dir-1_term0"], Observed raw.events k p := by
  unfold endEvent at h
  cases h1 : firstEvent raw.events "Inflation_dir-1_term1" with
  | some q => rw [h1] at h; exact ⟨_, by simp, C25.firstEvent_eq_some.1 (h1.trans h)⟩
  | none => rw [h1] at h; exact ⟨_, by simp, C25.firstEvent_eq_some.1 h⟩

/-- two runs from the same state report the same -/
theorem same {E : Eqs} {D S1 S2 : Set ℝ} {Y1 Y2 : ℝ → ℕ → ℝ} {x0 X1 X2 : ℝ} {raw1 raw2 : RawSol} (hE : E.Shipped)
    (hY : ∀ x ∈ S1, x ∈ S2 → ∀ i < E.idx.length, Y1 x i = Y2 x i) (s1 : Ico x0 X1 ⊆ S1) (s2 : Ico x0 X2 ⊆ S2) (m1 : x0 ∈ S1) (m2 : x0 ∈ S2)
    (r1 : RawRun E S1 Y1 x0 X1 raw1) (r2 : RawRun E S2 Y2 x0 X2 raw2) (V : ℝ → ℝ) :
    ((postStart (C90.view E) raw1).N_beg ≠ none → (postStart (C90.view E) raw2).N_beg ≠ none → postStart (C90.view E) raw1 = postStart (C90.view E) raw2) ∧
    ((postEnd (C90.view E) V raw1).N_end ≠ none → (postEnd (C90.view E) V raw2).N_end ≠ none → postEnd (C90.view E) V raw1 = postEnd (C90.view E) V raw2) := by
  have hfirst : raw1.first = raw2.first := by rw [r1.first, r2.first, trunc_congr (hY x0 m1 m2)]
  constructor
  · intro n1 n2
    unfold postStart at n1 n2 ⊢
    by_cases c1 : (firstEvent raw1.events "Collapse").isSome
    · rw [if_pos c1] at n1; exact absurd rfl n1
    by_cases c2 : (firstEvent raw2.events "Collapse").isSome
    · rw [if_pos c2] at n2; exact absurd rfl n2
    rw [if_neg c1] at n1 ⊢
    rw [if_neg c2] at n2 ⊢
    rw [hfirst] at n1 ⊢
    by_cases hs : 0 ≤ (C90.view E).inflating raw2.first.1 raw2.first.2 ∨ (C90.view E).w raw2.first.1 raw2.first.2 ≤ -1/3
    · rw [if_pos hs, if_pos hs]
    · rw [if_neg hs] at n1 n2 ⊢
      rw [if_neg hs]
      cases h1 : firstEvent raw1.events "Inflation_dir1_term0" with
      | none => rw [h1] at n1; exact absurd rfl n1
      | some p1 =>
        cases h2 : firstEvent raw2.events "Inflation_dir1_term0" with
        | none => rw [h2] at n2; exact absurd rfl n2
        | some p2 =>
          have := event_eq (D := D) (d := .pos) hE hY s1 s2 r1 r2 (C25.firstEvent_eq_some.1 h1) (C25.firstEvent_eq_some.1 h2) (Or.inl ⟨rfl, rfl⟩) (Or.inl ⟨rfl, rfl⟩)
          rw [this]
  · intro n1 n2
    unfold postEnd at n1 n2 ⊢
    cases h1 : endEvent raw1.events with
    | none => rw [h1] at n1; exact absurd rfl n1
    | some p1 =>
      cases h2 : endEvent raw2.events with
      | none => rw [h2] at n2; exact absurd rfl n2
      | some p2 =>
        obtain ⟨k1, hk1, o1⟩ := endPoint_keys h1
        obtain ⟨k2, hk2, o2⟩ := endPoint_keys h2
        have := event_eq (D := D) (d := .neg) hE hY s1 s2 r1 r2 o1 o2 (Or.inr ⟨rfl, hk1⟩) (Or.inr ⟨rfl, hk2⟩)
        rw [this]

theorem N_tot_some {Q : EqView} {V : ℝ → ℝ} {K : ℝ} {raw : RawSol} (h : (inflationSol Q V K raw).N_tot ≠ none) :
    (postStart Q raw).N_beg ≠ none ∧ (postEnd Q V raw).N_end ≠ none := by
  have e : (inflationSol Q V K raw).N_tot = (postEnd Q V raw).N_end.bind fun e => (postStart Q raw).N_beg.map (e - ·) := rfl
  rw [e] at h
  constructor
  · intro hb; rw [hb] at h; cases h' : (postEnd Q V raw).N_end <;> rw [h'] at h <;> exact h rfl
  · intro hb; rw [hb] at h; exact h rfl

end C91

/-- **C91, what is reported depends on the initial state only.**  Two calls of `solve` for the same equations (any curvature, any potential with three derivatives
where the field goes), with whatever classes of initial conditions, events, solver settings and even implementations of `solve_ivp`, provided they start at the
same point and state and scipy's answers are faithful runs.  If both objects report the start of inflation, all `*_beg` attributes agree; if both report the end,
all `*_end` attributes agree; and if both report `N_tot`, they report the same. -/
theorem C91_independent (ivp1 ivp2 : SolveIvp) (fmt1 fmt2 : ℝ → String) {E : Eqs} {D : Set ℝ} {d3 : ℝ → ℝ} (hD : IsOpen D) (h1 : IsDerivOn D E.pot.V E.pot.dV)
    (h2 : IsDerivOn D E.pot.dV E.pot.d2V) (h3 : IsDerivOn D E.pot.d2V d3)
    {ic1 ic2 : ICCall} {kw1 kw2 : SolveKw} {c1 c2 : IC} {z1 z2 : ℕ → Option ℝ} {q1 q2 : IvpCall}
    (hic1 : ic1 (kw1.rtol.getD (1 / 10 ^ 10)) (kw1.atol.getD (1 / 10 ^ 12)) kw1.rest (fun _ => some 0) = .ok (c1, z1)) (hq1 : Requested E kw1 c1 z1 q1)
    (hic2 : ic2 (kw2.rtol.getD (1 / 10 ^ 10)) (kw2.atol.getD (1 / 10 ^ 12)) kw2.rest (fun _ => some 0) = .ok (c2, z2)) (hq2 : Requested E kw2 c2 z2 q2)
    (hx : q1.x_ini = q2.x_ini) (hy : q1.y0 = q2.y0) {res1 res2 : Dict Attr} (ha1 : ivp1 E q1 = .ok res1) (ha2 : ivp2 E q2 = .ok res2)
    {t1 t2 : List ℝ} {y1 y2 : List (List ℝ)} {te1 te2 : List (List ℝ)} {ye1 ye2 : List (List (List ℝ))} {S1 S2 : Set ℝ} {Y1 Y2 : ℝ → ℕ → ℝ} {a1 a2 b1 b2 : ℝ}
    (r1 : Run E D q1 res1 t1 y1 te1 ye1 S1 Y1 a1 b1) (r2 : Run E D q2 res2 t2 y2 te2 ye2 S2 Y2 a2 b2) (hp1 : PlainInflation q1.events) (hp2 : PlainInflation q2.events) :
    ∃ o1 s1 o2 s2, solve ivp1 fmt1 E ic1 [] kw1 = .ok (o1, s1) ∧ solve ivp2 fmt2 E ic2 [] kw2 = .ok (o2, s2) ∧
      (s1.start.N_beg ≠ none → s2.start.N_beg ≠ none → s1.start = s2.start) ∧ (s1.fin.N_end ≠ none → s2.fin.N_end ≠ none → s1.fin = s2.fin) ∧
      (s1.N_tot ≠ none → s2.N_tot ≠ none → s1.N_tot = s2.N_tot) := by
  have hE := C91.shipped r1.solution
  obtain ⟨o1, raw1, hs1, hg1, hev1, -⟩ := C90_solve ivp1 fmt1 E hE ic1 kw1 c1 z1 q1 hic1 hq1 ha1 r1.shape
  obtain ⟨o2, raw2, hs2, hg2, hev2, -⟩ := C90_solve ivp2 fmt2 E hE ic2 kw2 c2 z2 q2 hic2 hq2 ha2 r2.shape
  have e : a1 = a2 := by
    have := r1.from_x
    rw [hx, r2.from_x] at this
    exact (Option.some.inj this).symm
  subst e
  have hY := C91.traj_unique hD h1 h2 h3 r1.solution r2.solution r1.isOpen r2.isOpen r1.convex r2.convex r1.start r2.start fun i hi => by
    have := r1.from_y i hi
    rw [hy, r2.from_y i hi] at this
    exact (Option.some.inj (Option.some.inj this)).symm
  obtain ⟨hst, hen⟩ := C91.same (D := D) hE hY r1.sub r2.sub r1.start r2.start (C91.rawRun r1 hp1 hg1 hev1) (C91.rawRun r2 hp2 hg2 hev2) E.pot.V
  refine ⟨o1, _, o2, _, hs1, hs2, hst, hen, fun n1 n2 => ?_⟩
  obtain ⟨u1, v1⟩ := C91.N_tot_some n1
  obtain ⟨u2, v2⟩ := C91.N_tot_some n2
  have k1 := hst u1 u2
  have k2 := hen v1 v2
  show (postEnd _ _ raw1).N_end.bind (fun e => (postStart _ raw1).N_beg.map (e - ·)) = (postEnd _ _ raw2).N_end.bind fun e => (postStart _ raw2).N_beg.map (e - ·)
  rw [k1, k2]

/-! ## `ISIC_Nt` -/

namespace C91

theorem bind_ok {α β : Type} {x : Except PyErr α} {f : α → Except PyErr β} {b : β} (h : (x >>= f) = .ok b) : ∃ a, x = .ok a ∧ f a = .ok b := by
  cases x with
  | error e => simp [bind, Except.bind] at h
  | ok a => exact ⟨a, rfl, h⟩

theorem key_ok {α : Type} {d : Dict α} {k : String} {v : α} (h : Bunch.key d k = .ok v) : d.get? k = some v := by
  unfold Bunch.key at h
  cases hd : d.get? k with
  | none => rw [hd] at h; cases h
  | some w => rw [hd] at h; injection h with h; rw [h]

theorem evArr_ok {n : String} {a : Option Attr} {d : Dict (List ℝ)} (h : Bunch.evArr n a = .ok d) : a = some (.evArr d) := by
  unfold Bunch.evArr at h
  split at h
  · injection h with h; rw [h]
  · cases h
  · cases h

theorem getArr_ok {a : Option Attr} {l : List ℝ} (h : Attr.getArr a = .ok l) : a = some (.arr l) := by
  unfold Attr.getArr at h
  split at h
  · injection h with h; rw [h]
  · cases h
  · cases h

theorem lastOf_ok {l : List ℝ} {x : ℝ} (h : ISIC.lastOf l = .ok x) : l.getLast? = some x := by
  unfold ISIC.lastOf at h
  cases hl : l.getLast? with
  | none => rw [hl] at h; cases h
  | some w => rw [hl] at h; injection h with h; rw [h]

theorem plain_events (bound : ℝ) : PlainInflation (ISIC.events bound) := by
  intro ev hm hk
  simp only [ISIC.events, List.mem_cons, List.not_mem_nil, or_false] at hm
  rcases hm with rfl | rfl | rfl | rfl
  · exact ⟨rfl, rfl⟩
  · exact ⟨rfl, rfl⟩
  · obtain ⟨_, h⟩ := hk; cases h
  · obtain ⟨_, h⟩ := hk; cases h

theorem untilN_event {fmtE : ℝ → String} {bound : ℝ} {ev : Event} (hm : ev ∈ ISIC.events bound) (hn : ev.name fmtE = "UntilN") :
    ev = ⟨.untilN, .zero, true, bound⟩ := by
  simp only [ISIC.events, List.mem_cons, List.not_mem_nil, or_false] at hm
  rcases hm with rfl | rfl | rfl | rfl
  · exact absurd hn (by simp only [Event.name]; decide)
  · exact absurd hn (by simp only [Event.name]; decide)
  · rfl
  · exact absurd hn (by simp only [Event.name]; decide)

/-- the array `_N` of the returned object -/
theorem N_array {E : Eqs} (hE : E.Shipped) {b : Dict Attr} {res : Dict Attr} {t : List ℝ} {y : List (List ℝ)} {te : List (List ℝ)} {ye : List (List (List ℝ))} {m : ℕ}
    (sh : IvpShape E.idx.length m res t y te ye) (hx : b.get? E.xname = some (.arr t))
    (hrow : ∀ a i, E.idx.get? a = some i → ∃ r, y[i]? = some r ∧ b.get? a = some (.arr r)) :
    b.get? "_N" = some (.arr (onGrid t y (C90.view E).N)) := by
  cases E with
  | other K p => exact absurd rfl (hE K p)
  | T e =>
    obtain ⟨K, pot, te'⟩ := e
    obtain ⟨r, hr, hb⟩ := hrow "_N" 2 (by cases te' <;> rfl)
    have h2 : 2 < y.length := (List.getElem?_eq_some_iff.1 hr).1
    have := C90.onGrid_row (t := t) (y := y) 2 h2 sh.cols
    rw [hb]
    have e : y.getD 2 [] = r := by simp [List.getD, hr]
    rw [← e, ← this]
    rfl
  | N e =>
    have h : b.get? "_N" = some (.arr t) := hx
    rw [h]
    exact congrArg (fun l => some (Attr.arr l)) C90.onGrid_x.symm

theorem onGrid_last {t : List ℝ} {y : List (List ℝ)} {f : ℝ → (ℕ → ℝ) → ℝ} {x : ℝ} (h : t.getLast? = some x) :
    (onGrid t y f).getLast? = some (f x (colAt y (t.length - 1))) := by
  have ht : t ≠ [] := by rintro rfl; simp at h
  have hpos : 0 < t.length := List.length_pos_iff.2 ht
  rw [List.getLast?_eq_getElem?] at h ⊢
  have hl : (onGrid t y f).length = t.length := by simp [onGrid]
  rw [hl]
  have hlt : t.length - 1 < t.length := by omega
  simp only [onGrid, List.getElem?_map, List.getElem?_range hlt, Option.map_some]
  rw [List.getElem?_eq_getElem hlt] at h
  rw [C90.getD_lt _ hlt, Option.some.inj h]

/-- the objective is small at a run from the final state only if that run reports a duration, and it is then the deviation from the requested one -/
theorem inner {V : ISIC.Env} {S : Shooting.Setup} {D : Set ℝ} {N_tot rtol atol : ℝ} {kw : Dict Attr} {r v : ℝ} {ic : IC} {y : ℕ → Option ℝ} (hN : |v| < N_tot)
    (hs : Shooting.start S r = .ok ic) (hc : InflationStartIC.call S.E ic (fun _ => some 0) = .ok y) (h0 : ISIC.phii2Ntot V S N_tot rtol atol kw r = .ok (some v))
    (hE : S.E.Shipped)
    (hrun : ∀ q res, q.x_ini = ic.x_ini S.E → q.y0 = (List.range S.E.idx.length).map y → PlainInflation q.events → V.ivp S.E q = .ok res →
      ∃ t y te ye X Y x0 x1, Run S.E D q res t y te ye X Y x0 x1) :
    ∃ kw', ∃ q res b s, ICCall.inflationStart S.E ic (kw'.rtol.getD (1 / 10 ^ 10)) (kw'.atol.getD (1 / 10 ^ 12)) kw'.rest (fun _ => some 0) = .ok (ic, y) ∧
      Requested S.E kw' ic y q ∧ PlainInflation q.events ∧ V.ivp S.E q = .ok res ∧ solve V.ivp V.fmtE S.E (ICCall.inflationStart S.E ic) [] kw' = .ok (b, s) ∧ s.N_tot = some (N_tot + v) := by
  have hv := abs_lt.1 hN
  unfold ISIC.phii2Ntot at h0
  rw [hs] at h0
  dsimp only at h0
  obtain ⟨bound, hbd⟩ : ∃ bound, bound = ((ic.N_i.map fun n => n + N_tot + 10).getD 0) := ⟨_, rfl⟩
  rw [← hbd] at h0
  obtain ⟨⟨b, s⟩, hsol, hobj⟩ := bind_ok h0
  obtain ⟨kw', hkw⟩ : ∃ kw' : SolveKw, kw' = ⟨some (ISIC.events bound), none, some rtol, some atol, kw⟩ := ⟨_, rfl⟩
  rw [← hkw] at hsol
  have hic : ICCall.inflationStart S.E ic (kw'.rtol.getD (1 / 10 ^ 10)) (kw'.atol.getD (1 / 10 ^ 12)) kw'.rest (fun _ => some 0) = .ok (ic, y) := by
    simp only [ICCall.inflationStart, hc, bind, Except.bind]
  obtain ⟨q, hqd⟩ : ∃ q : IvpCall, q = ⟨ic.x_ini S.E, ic.x_end, (List.range S.E.idx.length).map y, kw'.events.getD [], kw'.method.getD "RK45",
    kw'.rtol.getD (1 / 10 ^ 10), kw'.atol.getD (1 / 10 ^ 12), kw'.rest⟩ := ⟨_, rfl⟩
  have hq : Requested S.E kw' ic y q := hqd ▸ requested S.E kw' ic y
  have hqe : q.events = ISIC.events bound := by rw [hqd, hkw]; rfl
  have hqx : q.x_ini = ic.x_ini S.E := by rw [hqd]
  have hqy : q.y0 = (List.range S.E.idx.length).map y := by rw [hqd]
  have hpl : PlainInflation q.events := by rw [hqe]; exact plain_events bound
  obtain ⟨res, hres⟩ : ∃ res, V.ivp S.E q = .ok res := by
    have h := solve_eq (ivp := V.ivp) (fmtE := V.fmtE) hE hic hq
    rw [hsol] at h
    obtain ⟨res, h1, -⟩ := bind_ok h.symm
    exact ⟨res, h1⟩
  refine ⟨kw', q, res, b, s, hic, hq, hpl, hres, hsol, ?_⟩
  obtain ⟨t, y', te, ye, X, Y, x0, x1, run⟩ := hrun q res hqx hqy hpl hres
  obtain ⟨b', raw, hs', hg, hev, -, hxn, -, -, hrow, hxe, hvev, -⟩ := C90_solve V.ivp V.fmtE S.E hE _ kw' ic y q hic hq hres run.shape
  have hbb : b = b' := by rw [hsol] at hs'; injection hs' with h; injection h
  subst hbb
  unfold ISIC.objective at hobj
  cases hn : s.N_tot with
  | some n =>
    rw [hn] at hobj
    injection hobj with h
    injection h with h
    rw [show n = N_tot + v by linarith]
  | none =>
    exfalso
    rw [hn] at hobj
    dsimp only at hobj
    obtain ⟨NE, hNE, hobj⟩ := bind_ok hobj
    obtain ⟨u, hu, hobj⟩ := bind_ok hobj
    obtain ⟨Ns, hNs, hobj⟩ := bind_ok hobj
    obtain ⟨lst, hlst, hobj⟩ := bind_ok hobj
    have hNE := evArr_ok hNE
    have hu := key_ok hu
    have hNs := getArr_ok hNs
    have hlst := lastOf_ok hlst
    split_ifs at hobj with hcase
    · cases hi : ic.N_i with
      | none => rw [hi] at hobj; cases hobj
      | some n =>
        rw [hi] at hobj hcase
        injection hobj with hobj
        injection hobj with hobj
        rcases hcase with hu' | ⟨n', e, hle⟩
        · -- the run was stopped by `UntilN`
          have hb' : bound = n + N_tot + 10 := by rw [hbd, hi]; rfl
          have hNev : ∀ k, NE.get? k = (raw.events.get? k).map (·.map fun p => (C90.view S.E).N p.1 p.2) := by
            cases hEe : S.E with
            | other K p => exact absurd hEe (hE K p)
            | T e =>
              rw [hEe] at hvev
              obtain ⟨K, pot, te'⟩ := e
              obtain ⟨d, hd, hk⟩ := hvev "_N" 2 (by cases te' <;> rfl)
              have hd' : b.get? "_N_events" = some (.evArr d) := hd
              rw [hNE] at hd'
              injection hd' with h; injection h with h
              rw [h]; exact hk
            | N e =>
              rw [hEe] at hxe
              obtain ⟨d, -, hd, hk⟩ := hxe
              have hd' : b.get? "_N_events" = some (.evArr d) := hd
              rw [hNE] at hd'
              injection hd' with h; injection h with h
              rw [h]; exact hk
          rw [hNev, Option.map_eq_some_iff] at hu
          obtain ⟨l, hl, rfl⟩ := hu
          obtain ⟨j, ts, ss, hj, h1, h2, rfl⟩ := (hev _ _).1 hl
          obtain ⟨ev, he, hm, hnm⟩ := C90.lastAt_event hj
          rw [hqe] at hm
          have hev' := untilN_event hm hnm
          obtain ⟨c, hc⟩ : ∃ c, c ∈ ts := by
            cases ts with
            | nil => simp at hu'
            | cons c l => exact ⟨c, List.mem_cons_self ..⟩
          have hbnd := run.bound j ev ts he h1 (by rw [hev']) c hc
          have hlast := run.last j ev ts he h1 (by rw [hev']) c hc
          have hNarr := N_array hE run.shape hxn hrow
          rw [hNs] at hNarr
          have hNarr : Ns = onGrid t y' (C90.view S.E).N := by injection hNarr with h; injection h
          rw [hNarr, onGrid_last hlast] at hlst
          have hcol : (C90.view S.E).N c (colAt y' (t.length - 1)) = (C90.view S.E).N c (Y c) := by
            refine N_congr hE (fun i hi => ?_) c
            refine run.integrated.sampled (t.length - 1) c ?_ i hi
            rw [← List.getLast?_eq_getElem?]; exact hlast
          have hlst := Option.some.inj hlst
          rw [hcol, hbnd, hev', hb'] at hlst
          have hlst : n + N_tot + 10 = lst := hlst
          linarith
        · injection e with e
          subst e
          linarith
    · obtain ⟨cc, hcc, hobj⟩ := bind_ok hobj
      split_ifs at hobj with hcase2
      · injection hobj with hobj
        injection hobj with hobj
        linarith
      · obtain ⟨ee, hee, hobj⟩ := bind_ok hobj
        obtain ⟨fst, hfst, hobj⟩ := bind_ok hobj
        obtain ⟨z, hz, hobj⟩ := bind_ok hobj
        cases z with
        | true =>
          simp only [if_true] at hobj
          injection hobj with hobj
          injection hobj with hobj
          linarith
        | false =>
          simp only [Bool.false_eq_true, if_false] at hobj
          split at hobj
          · cases hobj
          · split_ifs at hobj

end C91

/-- **C91, `ISIC_Nt` through `solve`.**  `solve(ISIC_Nt(equations, N_tot, phi_i_bracket, …), **kwargs)` with `N_tot > 0`: any equations, bracket, `N_i` or `Omega_Ki`,
events and solver settings.  If the shooting finds initial conditions and scipy's runs from these are faithful, the returned object starts from `InflationStartIC`
conditions with the requested `N_i` or `Omega_Ki`; and if it reports `N_tot`, that deviates from the requested one by no more than the residual `ε` the root finder leaves in
the objective (nothing, if it finds an exact zero) — although the nested integrations were run with other events and another method. -/
theorem C91_N_tot (V : ISIC.Env) (S : Shooting.Setup) {D : Set ℝ} {d3 : ℝ → ℝ} (hD : IsOpen D) (h1 : IsDerivOn D S.E.pot.V S.E.pot.dV)
    (h2 : IsDerivOn D S.E.pot.dV S.E.pot.d2V) (h3 : IsDerivOn D S.E.pot.d2V d3) {ε : ℝ}
    (hroot : ∀ f lo hi r, V.root f lo hi = .ok r → ∃ v, f r = .ok (some v) ∧ |v| ≤ ε) {N_tot lo hi : ℝ} (hN : ε < N_tot) {kw : SolveKw} {ic : IC} {y : ℕ → Option ℝ} {q : IvpCall} {res : Dict Attr}
    (hok : ISIC.nt V S N_tot lo hi (kw.rtol.getD (1 / 10 ^ 10)) (kw.atol.getD (1 / 10 ^ 12)) kw.rest (fun _ => some 0) = .ok (ic, y)) (hq : Requested S.E kw ic y q)
    (hp : PlainInflation q.events) (hres : V.ivp S.E q = .ok res)
    (hrun : ∀ q' res', q'.x_ini = q.x_ini → q'.y0 = q.y0 → PlainInflation q'.events → V.ivp S.E q' = .ok res' →
      ∃ t y te ye X Y x0 x1, Run S.E D q' res' t y te ye X Y x0 x1) :
    InflationStartIC.init S.E ⟨ic.phi_i, S.t_i, S.eta_i, S.x_end, S.N_i, S.Omega_Ki⟩ = .ok ic ∧
    ∃ b s, solve V.ivp V.fmtE S.E (ISIC.nt V S N_tot lo hi) [] kw = .ok (b, s) ∧ ∀ n, s.N_tot = some n → |n - N_tot| ≤ ε := by
  obtain ⟨t, yy, te, ye, X, Y, x0, x1, run⟩ := hrun q res rfl rfl hp hres
  have hE := C91.shipped run.solution
  have hqu := hq.unique hE (requested S.E kw ic y)
  have hqx : q.x_ini = ic.x_ini S.E := by rw [hqu]
  have hqy : q.y0 = (List.range S.E.idx.length).map y := by rw [hqu]
  obtain ⟨ic0, hhi, hok'⟩ := C91.bind_ok hok
  obtain ⟨r, hr, hok'⟩ := C91.bind_ok hok'
  obtain ⟨ic', hs, hok'⟩ := C91.bind_ok hok'
  obtain ⟨y', hc, hok'⟩ := C91.bind_ok hok'
  injection hok' with e
  injection e with e1 e2
  subst e1 e2
  obtain ⟨v, hv, hvε⟩ := hroot _ _ _ _ hr
  obtain ⟨kw', q', res', b', s', hic', hq', hpl', hres', hsol', hn'⟩ := C91.inner (hvε.trans_lt hN) hs hc hv hE
    fun q' res' a1 a2 a3 a4 => hrun q' res' (a1.trans hqx.symm) (a2.trans hqy.symm) a3 a4
  have hqu' := hq'.unique hE (requested S.E kw' ic' y')
  obtain ⟨t', yy', te', ye', X', Y', x0', x1', run'⟩ := hrun q' res' (by rw [hqu', hqx]) (by rw [hqu', hqy]) hpl' hres'
  obtain ⟨o1, s1, o2, s2, k1, k2, -, -, htot⟩ := C91_independent V.ivp V.ivp V.fmtE V.fmtE hD h1 h2 h3 hic' hq' hok hq (by rw [hqu', hqx]) (by rw [hqu', hqy])
    hres' hres run' run hpl' hp
  refine ⟨?_, o2, s2, k2, fun n hn => ?_⟩
  · have hphi : ic'.phi_i = r := by
      have h3 := hs
      unfold Shooting.start InflationStartIC.init at h3
      dsimp only at h3
      split at h3
      · split_ifs at h3
        · cases h3; rfl
      · split at h3
        · split_ifs at h3
          · cases h3; rfl
        · cases h3
    rw [hphi]; exact hs
  · rw [hsol'] at k1
    injection k1 with k1
    injection k1 with _ k1
    rw [← k1, hn', hn] at htot
    rw [← Option.some.inj (htot (by simp) (by simp)), add_sub_cancel_left]
    exact hvε

namespace C91

theorem gives {E : Eqs} {ic : IC} {vt vN : Option ℝ} {y0 y : ℕ → Option ℝ} (h : writeY0 E ic vt vN y0 = .ok y) : GivesTracked E ic := by
  unfold writeY0 at h
  dsimp only at h
  cases E with
  | other K p => cases h
  | T e =>
    intro ht hn
    obtain ⟨y1, h1, h⟩ := bind_ok h
    obtain ⟨y2, h2, h⟩ := bind_ok h
    obtain ⟨y3, h3, h⟩ := bind_ok h
    rw [if_pos (show (Eqs.T e).track_eta = true from ht), if_pos (by rw [hn]; rfl)] at h
    cases h
  | N e =>
    obtain ⟨y1, h1, h⟩ := bind_ok h
    by_cases htt : e.track_time = true
    · rw [if_pos htt] at h
      by_cases hti : ic.t_i.isNone = true
      · rw [if_pos hti] at h
        cases h
      · rw [if_neg hti] at h
        obtain ⟨y2, h2, h⟩ := bind_ok h
        obtain ⟨y3, h3, h⟩ := bind_ok h
        refine ⟨fun _ hn => hti (by rw [hn]; rfl), fun ht hn => ?_⟩
        rw [if_pos (show (Eqs.N e).track_eta = true from ht), if_pos (by rw [hn]; rfl)] at h
        cases h
    · rw [if_neg htt] at h
      obtain ⟨y2, h2, h⟩ := bind_ok h
      obtain ⟨y3, h3, h⟩ := bind_ok h
      refine ⟨fun ht => absurd ht htt, fun ht hn => ?_⟩
      rw [if_pos (show (Eqs.N e).track_eta = true from ht), if_pos (by rw [hn]; rfl)] at h
      cases h

/-- inflation-start conditions lie on the boundary of inflation -/
theorem boundary {E : Eqs} {D S : Set ℝ} {Y : ℝ → ℕ → ℝ} {x0 : ℝ} {a : ICArgs} {ic : IC} {y : ℕ → Option ℝ} (hT : E.Trajectory D S Y) (hx0 : x0 ∈ S)
    (hi : InflationStartIC.init E a = .ok ic) (hc : InflationStartIC.call E ic (fun _ => some 0) = .ok y) (hx : ic.x_ini E = some x0)
    (hy : ∀ i < E.idx.length, y i = some (Y x0 i)) : (C90.view E).inflating x0 (Y x0) = 0 := by
  obtain ⟨y', hc', hrow, -⟩ := C26_inflationstart E ic (gives hc) fun _ => some 0
  have e : y' = y := by rw [hc] at hc'; injection hc' with h; exact h.symm
  subst e
  have hV : ic.V_i = E.pot.V ic.phi_i ∧ ic.H_i = ic.N_i.bind fun n => nanSqrt (E.pot.V ic.phi_i / 2 - E.K * exp (-2 * n)) := by
    have h3 := hi
    unfold InflationStartIC.init at h3
    dsimp only at h3
    split at h3
    · split_ifs at h3
      · cases h3; exact ⟨rfl, rfl⟩
    · split at h3
      · split_ifs at h3
        · cases h3; exact ⟨rfl, rfl⟩
      · cases h3
  cases E with
  | other K p => exact absurd hT (by simp [Eqs.Trajectory])
  | T e =>
    obtain ⟨K, pot, te⟩ := e
    have h3 := rowsT ⟨K, pot, te⟩
    have r0 := (hrow "phi" 0 (by cases te <;> rfl)).1 rfl
    have r1 := (hrow "dphidt" 1 (by cases te <;> rfl)).2.2.2.2.1 rfl
    rw [hy 0 (by omega)] at r0
    rw [hy 1 (by omega), InflationStartIC.dphidt_i, hV.1] at r1
    have r0 := Option.some.inj r0
    show pot.V (Y x0 0) - Y x0 1 ^ 2 = 0
    unfold nanSqrt at r1
    split_ifs at r1 with hpos
    · have r1 : Y x0 1 = -√(pot.V ic.phi_i) := Option.some.inj r1
      have hpos : 0 ≤ pot.V ic.phi_i := hpos
      rw [r1, r0, neg_sq, sq_sqrt hpos, sub_self]
    · cases r1
  | N e =>
    obtain ⟨K, pot, tt, te⟩ := e
    have h3 := rowsN ⟨K, pot, tt, te⟩
    have r0 := (hrow "phi" 0 (by cases tt <;> cases te <;> rfl)).1 rfl
    have r1 := (hrow "dphidN" 1 (by cases tt <;> cases te <;> rfl)).2.2.2.2.2 rfl
    rw [hy 0 (by omega)] at r0
    have r0 := Option.some.inj r0
    have hx : ic.N_i = some x0 := hx
    rw [hx] at hV
    rw [hy 1 (by omega), InflationStartIC.dphidN_i, hV.1, hV.2] at r1
    simp only [Option.bind_some] at r1
    have hH := hT.2.1 x0 hx0
    change 0 < (2 * pot.V (Y x0 0) - 6 * K * exp (-2 * x0)) / (6 - Y x0 1 ^ 2) at hH
    show pot.V (Y x0 0) - (2 * pot.V (Y x0 0) - 6 * K * exp (-2 * x0)) / (6 - Y x0 1 ^ 2) * Y x0 1 ^ 2 = 0
    change some (Y x0 1) = (nanSqrt (pot.V ic.phi_i)).bind fun s => (nanSqrt (pot.V ic.phi_i / 2 - K * exp (-2 * x0))).bind fun h => nanDiv (-s) h at r1
    rw [r0] at hH ⊢
    obtain ⟨v, hv⟩ : ∃ v, v = pot.V ic.phi_i := ⟨_, rfl⟩
    obtain ⟨k, hk⟩ : ∃ k, k = K * exp (-2 * x0) := ⟨_, rfl⟩
    have e6 : 6 * K * exp (-2 * x0) = 6 * k := by rw [hk]; ring
    rw [e6, ← hv] at hH ⊢
    rw [← hv, ← hk] at r1
    by_cases hp1 : 0 ≤ v
    swap
    · rw [show nanSqrt v = none by unfold nanSqrt; rw [if_neg hp1]] at r1
      cases r1
    by_cases hp2 : 0 ≤ v / 2 - k
    swap
    · rw [show nanSqrt (v / 2 - k) = none by unfold nanSqrt; rw [if_neg hp2], show nanSqrt v = some √v by unfold nanSqrt; rw [if_pos hp1]] at r1
      cases r1
    rw [show nanSqrt (v / 2 - k) = some √(v / 2 - k) by unfold nanSqrt; rw [if_pos hp2], show nanSqrt v = some √v by unfold nanSqrt; rw [if_pos hp1]] at r1
    simp only [Option.bind_some] at r1
    by_cases hp3 : √(v / 2 - k) = 0
    · rw [nanDiv, if_pos hp3] at r1
      cases r1
    rw [nanDiv, if_neg hp3] at r1
    have r1 := Option.some.inj r1
    have hd : Y x0 1 ^ 2 = v / (v / 2 - k) := by
      rw [r1, div_pow, neg_sq, sq_sqrt hp1, sq_sqrt hp2]
    have hne : v / 2 - k ≠ 0 := fun h => hp3 (by rw [h, sqrt_zero])
    rw [hd] at hH ⊢
    have h6 : 6 - v / (v / 2 - k) = (2 * v - 6 * k) / (v / 2 - k) := by rw [eq_div_iff hne, sub_mul, div_mul_cancel₀ _ hne]; ring
    rw [h6] at hH ⊢
    have hnum : 2 * v - 6 * k ≠ 0 := by
      intro h; rw [h] at hH; simp at hH
    rw [div_div_cancel₀ hnum, mul_div_cancel₀ _ hne, sub_self]

end C91

/-- **C91, `ISIC_Nt` delivers.**  As `C91_N_tot`; if moreover the end of inflation is tracked, no collapse was recorded, and the universe inflates somewhere and stops
inflating later within the integrated range, then the returned object does report `N_tot`, and it is the requested one up to the residual of the root finder. -/
theorem C91_N_tot_found (V : ISIC.Env) (S : Shooting.Setup) {D : Set ℝ} {d3 : ℝ → ℝ} (hD : IsOpen D) (h1 : IsDerivOn D S.E.pot.V S.E.pot.dV)
    (h2 : IsDerivOn D S.E.pot.dV S.E.pot.d2V) (h3 : IsDerivOn D S.E.pot.d2V d3) {ε : ℝ}
    (hroot : ∀ f lo hi r, V.root f lo hi = .ok r → ∃ v, f r = .ok (some v) ∧ |v| ≤ ε) {N_tot lo hi : ℝ} (hN : ε < N_tot) {kw : SolveKw} {ic : IC} {y : ℕ → Option ℝ} {q : IvpCall} {res : Dict Attr}
    (hok : ISIC.nt V S N_tot lo hi (kw.rtol.getD (1 / 10 ^ 10)) (kw.atol.getD (1 / 10 ^ 12)) kw.rest (fun _ => some 0) = .ok (ic, y)) (hq : Requested S.E kw ic y q)
    (hp : PlainInflation q.events) (hres : V.ivp S.E q = .ok res)
    (hrun : ∀ q' res', q'.x_ini = q.x_ini → q'.y0 = q.y0 → PlainInflation q'.events → V.ivp S.E q' = .ok res' →
      ∃ t y te ye X Y x0 x1, Run S.E D q' res' t y te ye X Y x0 x1)
    {t : List ℝ} {yy : List (List ℝ)} {te : List (List ℝ)} {ye : List (List (List ℝ))} {X : Set ℝ} {Y : ℝ → ℕ → ℝ} {x0 x1 : ℝ} (run : Run S.E D q res t yy te ye X Y x0 x1)
    (hend : ∃ ev ∈ q.events, (∃ t_i, ev.kind = .inflation t_i) ∧ ev.direction = .neg)
    (hcoll : ∀ (j : ℕ) ev ts, q.events[j]? = some ev → te[j]? = some ts → ev.kind = .collapse → ts = [])
    {a b : ℝ} (ha : x0 ≤ a) (hab : a < b) (hb : b ≤ x1) (hga : 0 < (C90.view S.E).inflating a (Y a)) (hgb : (C90.view S.E).inflating b (Y b) < 0) :
    ∃ o s, solve V.ivp V.fmtE S.E (ISIC.nt V S N_tot lo hi) [] kw = .ok (o, s) ∧ ∃ n, s.N_tot = some n ∧ |n - N_tot| ≤ ε := by
  have hE := C91.shipped run.solution
  obtain ⟨hi, o, s, hsol, hall⟩ := C91_N_tot V S hD h1 h2 h3 hroot hN hok hq hp hres hrun
  refine ⟨o, s, hsol, ?_⟩
  have hqu := hq.unique hE (requested S.E kw ic y)
  have hqx : q.x_ini = ic.x_ini S.E := by rw [hqu]
  have hqy : q.y0 = (List.range S.E.idx.length).map y := by rw [hqu]
  have hc : InflationStartIC.call S.E ic (fun _ => some 0) = .ok y := by
    obtain ⟨ic0, hhi, hok'⟩ := C91.bind_ok hok
    obtain ⟨r, hr, hok'⟩ := C91.bind_ok hok'
    obtain ⟨ic', hs, hok'⟩ := C91.bind_ok hok'
    obtain ⟨y', hc, hok'⟩ := C91.bind_ok hok'
    injection hok' with e
    injection e with e1 e2
    rw [← e1, ← e2]; exact hc
  have hbd : (C90.view S.E).inflating x0 (Y x0) = 0 := C91.boundary run.solution run.start hi hc (by rw [← hqx]; exact run.from_x) fun i hi => by
    have := run.from_y i hi
    rw [hqy] at this
    simpa [List.getElem?_map, List.getElem?_range hi] using this
  obtain ⟨o', s', m, hsol', hm⟩ := C90_found V.ivp V.fmtE hE hok hq hres run.shape run.integrated hp hend hcoll ha hab hb hga hgb (Or.inl hbd.ge)
  obtain ⟨o2, raw, hs2, -⟩ := C90_solve V.ivp V.fmtE S.E hE _ kw ic y q hok hq hres run.shape
  have e1 : s' = s := by rw [hsol] at hsol'; injection hsol' with h; injection h with _ h; exact h.symm
  subst e1
  have e2 := hs2
  rw [hsol] at e2
  injection e2 with e2
  injection e2 with _ e2
  have hne : s'.N_tot ≠ none := fun h => by
    have := (C25_duration_mask (C90.view S.E) S.E.pot.V S.E.K raw).2.1
    rw [← e2] at this
    rw [this.2 h] at hm
    cases hm
  obtain ⟨n, hn⟩ := Option.ne_none_iff_exists'.1 hne
  exact ⟨n, hn, hall n hn⟩

/-! ## The hypotheses are met

The exact solution of Lemmas/ExactStart.lean, which starts at the boundary of inflation at `N = 0` and leaves inflation at `N = (9/4) log 2`; the integrator stops
there if it has a terminal event, and else at `N = (9/4) log (5/2)`. -/

namespace C91.Ex
open Exact.Start

noncomputable def E : Eqs := .N eqN

/-- whether the event is the end of inflation -/
def isEnd (ev : Event) : Bool :=
  match ev.kind, ev.direction with
  | .inflation _, .neg => true
  | _, _ => false

theorem isEnd_iff {ev : Event} : isEnd ev = true ↔ (∃ t_i, ev.kind = .inflation t_i) ∧ ev.direction = .neg := by
  obtain ⟨k, d, b, v⟩ := ev
  cases k <;> cases d <;> simp [isEnd]

noncomputable def st (n : ℝ) : List ℝ := [Y n 0, Y n 1]
def stopsAt (events : List Event) : Bool := events.any fun ev => isEnd ev && ev.terminal
noncomputable def x1 (events : List Event) : ℝ := if stopsAt events then Nend else N2
noncomputable def te (events : List Event) : List (List ℝ) := events.map fun ev => if isEnd ev then [Nend] else []
noncomputable def ye (events : List Event) : List (List (List ℝ)) := events.map fun ev => if isEnd ev then [st Nend] else []
noncomputable def grid (events : List Event) : List ℝ := [0, x1 events]
noncomputable def rows (events : List Event) : List (List ℝ) := [[Y 0 0, Y (x1 events) 0], [Y 0 1, Y (x1 events) 1]]
noncomputable def res (events : List Event) : Dict Attr :=
  [("t", .arr (grid events)), ("y", .rows (rows events)), ("t_events", .tEvents (te events)), ("y_events", .yEvents (ye events)), ("message", .str "")]

theorem rows2 : E.idx.length = 2 := rfl

theorem x1_bounds (events : List Event) : Nend ≤ x1 events ∧ x1 events ≤ N2 := by
  unfold x1
  split_ifs
  · exact ⟨le_rfl, Nend_lt.le⟩
  · exact ⟨Nend_lt.le, le_rfl⟩

theorem te_get {events : List Event} {j : ℕ} {ev : Event} {ts : List ℝ} (he : events[j]? = some ev) (h : (te events)[j]? = some ts) :
    ts = if isEnd ev then [Nend] else [] := by
  rw [te, List.getElem?_map, he] at h
  exact (Option.some.inj h).symm

theorem ends {X : ℝ} (h1 : Nend ≤ X) (h2 : X ≤ N2) : Detects (fun x => eqN.inflating x (Y x)) 0 X (-1) [Nend] where
  sorted := by simp
  sound := fun c hc => by
    rw [List.mem_singleton] at hc
    subst hc
    refine ⟨Nend_pos, h1, infl_zero.2, ⟨0, le_rfl, Nend_pos, fun x hx h0 => ?_⟩, fun h => ⟨X, h, fun x hx => ?_⟩⟩
    · have := infl_pos h0 hx.2
      show -1 * eqN.inflating x (Y x) < 0
      linarith
    · have := infl_neg hx.1 (hx.2.trans h2)
      show 0 < -1 * eqN.inflating x (Y x)
      linarith
  complete := fun a b h0 hab hb ha hb' => by
    refine ⟨Nend, by simp, ?_, ?_⟩
    · by_contra h
      push Not at h
      have := infl_neg h (by linarith)
      have ha : -1 * eqN.inflating a (Y a) < 0 := ha
      linarith
    · by_contra h
      push Not at h
      have := infl_pos (h0.trans_lt hab) h
      have hb' : 0 < -1 * eqN.inflating b (Y b) := hb'
      linarith

theorem begins {X : ℝ} (h1 : Nend ≤ X) (h2 : X ≤ N2) : Detects (fun x => eqN.inflating x (Y x)) 0 X 1 [] where
  sorted := by simp
  sound := by simp
  complete := fun a b h0 hab hb ha hb' => by
    have ha : 1 * eqN.inflating a (Y a) < 0 := ha
    have hb' : 0 < 1 * eqN.inflating b (Y b) := hb'
    exfalso
    by_cases h : Nend < b
    · have := infl_neg h (hb.trans h2)
      linarith
    · rcases h0.eq_or_lt with rfl | h0
      · rw [infl_zero.1] at ha; linarith
      · have := infl_pos h0 (lt_of_lt_of_le hab (not_lt.1 h))
        linarith

theorem shape (events : List Event) : IvpShape E.idx.length events.length (res events) (grid events) (rows events) (te events) (ye events) where
  t_ne := by simp [grid]
  get_t := rfl
  get_y := rfl
  get_te := rfl
  get_ye := rfl
  rows := rfl
  cols := by simp [rows, grid]
  te_len := by simp [te]
  ye_len := by simp [ye]
  occ := fun j ts ss h1 h2 => by
    rw [te, List.getElem?_map, Option.map_eq_some_iff] at h1
    obtain ⟨ev, he, rfl⟩ := h1
    rw [ye, List.getElem?_map, he] at h2
    have h2 : ss = if isEnd ev = true then [st Nend] else [] := (Option.some.inj h2).symm
    rw [h2]
    split_ifs <;> rfl
  states := by
    intro v hv s hs
    rw [ye, List.mem_map] at hv
    obtain ⟨ev, -, rfl⟩ := hv
    split_ifs at hs
    · rw [List.mem_singleton] at hs
      rw [hs]; rfl
    · simp at hs

theorem integrated (events : List Event) (hp : PlainInflation events) :
    Integrated (C90.view E) E.idx.length events Y 0 (x1 events) (grid events) (rows events) (te events) (ye events) where
  start := rfl
  inside := by
    have h := x1_bounds events
    have h0 := Nend_pos
    intro x hx
    simp only [grid, List.mem_cons, List.not_mem_nil, or_false] at hx
    rcases hx with rfl | rfl <;> constructor <;> linarith
  sampled := fun j x hx i hi => by
    rw [rows2] at hi
    match j with
    | 0 => simp only [grid, List.getElem?_cons_zero, Option.some.injEq] at hx; subst hx; interval_cases i <;> rfl
    | 1 => simp only [grid, List.getElem?_cons_succ, List.getElem?_cons_zero, Option.some.injEq] at hx; subst hx; interval_cases i <;> rfl
    | j + 2 => simp [grid] at hx
  stated := fun j ts ss h1 h2 a x s h3 h4 i hi => by
    rw [rows2] at hi
    rw [te, List.getElem?_map, Option.map_eq_some_iff] at h1
    obtain ⟨ev, he, rfl⟩ := h1
    rw [ye, List.getElem?_map, he] at h2
    have h2 : ss = if isEnd ev = true then [st Nend] else [] := (Option.some.inj h2).symm
    subst h2
    by_cases hb : isEnd ev = true
    · rw [if_pos hb] at h3 h4
      match a with
      | a + 1 => simp at h3
      | 0 =>
        simp only [List.getElem?_cons_zero, Option.some.injEq] at h3 h4
        subst h3 h4
        interval_cases i <;> rfl
    · rw [if_neg hb] at h3
      simp at h3
  detected := fun j ev ts h1 h2 h3 h4 => by
    have hx := x1_bounds events
    have hc : (fun x => ev.call (C90.view E) x (Y x)) = fun x => eqN.inflating x (Y x) :=
      funext fun x => C90.call_plain (hp ev (List.mem_of_getElem? h1) h3) x (Y x)
    rw [hc, te_get h1 h2]
    by_cases hb : isEnd ev = true
    · rw [if_pos hb, (isEnd_iff.1 hb).2]
      have hv : ((Direction.neg.val : ℤ) : ℝ) = -1 := by norm_num [Direction.val]
      rw [hv]
      exact ends hx.1 hx.2
    · rw [if_neg hb]
      have hd : ev.direction = .pos := by
        cases hd : ev.direction with
        | pos => rfl
        | neg => exact absurd (isEnd_iff.2 ⟨h3, hd⟩) hb
        | zero => exact absurd hd h4
      rw [hd]
      have hv : ((Direction.pos.val : ℤ) : ℝ) = 1 := by norm_num [Direction.val]
      rw [hv]
      exact begins hx.1 hx.2
  stopped := fun j ev ts h1 h2 h3 c hc => by
    rw [te_get h1 h2] at hc
    by_cases hb : isEnd ev = true
    · rw [if_pos hb, List.mem_singleton] at hc
      have : stopsAt events = true := List.any_eq_true.2 ⟨ev, List.mem_of_getElem? h1, by rw [hb, h3]; rfl⟩
      rw [hc, x1, if_pos this]
    · rw [if_neg hb] at hc
      simp at hc

/-- every request with plain inflation events from the state at `N = 0` gets a faithful run -/
theorem run {q : IvpCall} (hp : PlainInflation q.events) (hx : q.x_ini = some 0) (hy : ∀ i < E.idx.length, q.y0[i]? = some (some (Y 0 i))) :
    Run E univ q (res q.events) (grid q.events) (rows q.events) (te q.events) (ye q.events) S Y 0 (x1 q.events) where
  shape := shape _
  solution := ⟨sol, trajectory_pos⟩
  isOpen := S_open
  convex := S_convex
  start := mem_S le_rfl (Nend_pos.trans Nend_lt).le
  sub := fun x hx => mem_S hx.1 (hx.2.le.trans (x1_bounds _).2)
  from_x := hx
  from_y := hy
  integrated := integrated _ hp
  crosses := fun j ev ts h1 h2 h3 h4 c hc => by
    rw [te_get h1 h2] at hc
    by_cases hb : isEnd ev = true
    · rw [if_pos hb, List.mem_singleton] at hc
      subst hc
      refine ⟨N2, Nend_lt, fun x hx => mem_S (Nend_pos.le.trans hx.1) hx.2, fun x hx => ?_⟩
      rw [C90.call_plain (hp ev (List.mem_of_getElem? h1) h3) x (Y x), (isEnd_iff.1 hb).2]
      have := infl_neg hx.1 hx.2
      have hv : ((Direction.neg.val : ℤ) : ℝ) = -1 := by norm_num [Direction.val]
      rw [hv]
      show 0 < -1 * eqN.inflating x (Y x)
      linarith
    · rw [if_neg hb] at hc
      simp at hc
  bound := fun j ev ts h1 h2 h3 c hc => by
    rw [te_get h1 h2] at hc
    have hb : ¬ isEnd ev = true := fun h => by
      obtain ⟨⟨_, h⟩, -⟩ := isEnd_iff.1 h
      rw [h3] at h; cases h
    rw [if_neg hb] at hc
    simp at hc
  last := fun j ev ts h1 h2 h3 c hc => by
    rw [(integrated _ hp).stopped j ev ts h1 h2 h3 c hc]
    rfl

/-- `N_i = 0`; the shooting is for `phi_i` -/
noncomputable def setup : Shooting.Setup := ⟨E, none, none, N2, some 0, none⟩

open Classical in
/-- an integrator as above, and a root finder that knows the answer `phi_i = √18` and checks it -/
noncomputable def env (fmtE : ℝ → String) : ISIC.Env where
  ivp := fun _ q => .ok (res q.events)
  fmtE := fmtE
  root := fun f _ _ => if f √18 = .ok (some 0) then .ok √18 else .error (.valueError "f(a) and f(b) must have different signs")
  emptyTruth := .ok false
  isStepSize := fun _ => false

theorem V18 : pV √18 = 36 * exp 2 := by
  rw [pV_sqrt (v := 18) (sq_sqrt (by norm_num))]
  norm_num
  ring

theorem start_ok (hi : ℝ) (hpos : 0 ≤ pV hi) : ∃ ic, Shooting.start setup hi = .ok ic ∧ ic.phi_i = hi ∧ ic.N_i = some 0 ∧ ic.V_i = pV hi ∧ ic.H_i = nanSqrt (pV hi / 2) := by
  obtain ⟨c, hc⟩ : ∃ c, Shooting.start setup hi = .ok c := by
    unfold Shooting.start InflationStartIC.init setup
    dsimp only
    rw [if_neg (by simp), if_neg]
    · exact ⟨_, rfl⟩
    · show ¬ pV hi / 2 * exp (2 * 0) - 0 < 0
      simp only [mul_zero, exp_zero, mul_one, sub_zero, not_lt]
      linarith
  refine ⟨c, hc, ?_⟩
  unfold Shooting.start InflationStartIC.init setup at hc
  dsimp only at hc
  split_ifs at hc
  cases hc
  refine ⟨rfl, rfl, rfl, ?_⟩
  show nanSqrt (pV hi / 2 - 0 * exp (-2 * 0)) = _
  rw [zero_mul, sub_zero]

/-- the state vector is the one of the exact solution at `N = 0` -/
theorem state_ok {ic : IC} (h1 : ic.phi_i = √18) (h2 : ic.N_i = some 0) (h3 : ic.V_i = pV √18) (h4 : ic.H_i = nanSqrt (pV √18 / 2)) :
    ∃ y, InflationStartIC.call E ic (fun _ => some 0) = .ok y ∧ ∀ i < E.idx.length, y i = some (Y 0 i) := by
  obtain ⟨y, hy, hrow, -⟩ := C26_inflationstart E ic (show GivesTracked E ic from ⟨(fun h => by cases h), (fun h => by cases h)⟩) fun _ => some 0
  refine ⟨y, hy, fun i hi => ?_⟩
  rw [rows2] at hi
  have e2 : exp 2 = exp 1 ^ 2 := by rw [← exp_nat_mul]; norm_num
  have p1 := exp_pos 1
  interval_cases i
  · rw [(hrow "phi" 0 rfl).1 rfl, h1]
    show some √18 = some √(u 0)
    rw [u_zero]
  · rw [(hrow "dphidN" 1 rfl).2.2.2.2.2 rfl, InflationStartIC.dphidN_i, h3, h4, V18]
    have a1 : nanSqrt (36 * exp 2) = some (6 * exp 1) := by
      unfold nanSqrt
      rw [if_pos (by positivity), e2, show 36 * exp 1 ^ 2 = (6 * exp 1) ^ 2 by ring, sqrt_sq (by positivity)]
    have a2 : nanSqrt (36 * exp 2 / 2) = some (√18 * exp 1) := by
      unfold nanSqrt
      rw [if_pos (by positivity), e2, show 36 * exp 1 ^ 2 / 2 = 18 * exp 1 ^ 2 by ring, sqrt_mul (by norm_num), sqrt_sq p1.le]
    rw [a1, a2]
    have h18 : 0 < √(18 : ℝ) := sqrt_pos.2 (by norm_num)
    simp only [Option.bind_some]
    rw [nanDiv, if_neg (by positivity)]
    show some _ = some (-(2 / 9 * (u 0 + 9)) / √(u 0))
    rw [u_zero]
    congr 1
    field_simp
    norm_num

/-- the objective vanishes at `phi_i = √18` if `N_tot = (9/4) log 2` is wanted -/
theorem objective_ok (fmtE : ℝ → String) (rtol atol : ℝ) (kw : Dict Attr) : ISIC.phii2Ntot (env fmtE) setup Nend rtol atol kw √18 = .ok (some 0) := by
  obtain ⟨ic, hs, h1, h2, h3, h4⟩ := start_ok √18 (by rw [V18]; positivity)
  obtain ⟨y, hy, hyi⟩ := state_ok h1 h2 h3 h4
  unfold ISIC.phii2Ntot
  rw [hs]
  dsimp only
  obtain ⟨bound, hb⟩ : ∃ bound, bound = ((ic.N_i.map fun n => n + Nend + 10).getD 0) := ⟨_, rfl⟩
  rw [← hb]
  obtain ⟨kw', hkw⟩ : ∃ kw' : SolveKw, kw' = ⟨some (ISIC.events bound), none, some rtol, some atol, kw⟩ := ⟨_, rfl⟩
  rw [← hkw]
  have hE : E.Shipped := fun K p h => by cases h
  have hic : ICCall.inflationStart E ic (kw'.rtol.getD (1 / 10 ^ 10)) (kw'.atol.getD (1 / 10 ^ 12)) kw'.rest (fun _ => some 0) = .ok (ic, y) := by
    simp only [ICCall.inflationStart, hy, bind, Except.bind]
  obtain ⟨q, hq, hqe⟩ : ∃ q, Requested E kw' ic y q ∧ q.events = ISIC.events bound := ⟨_, requested E kw' ic y, by rw [hkw]; rfl⟩
  have hqu := hq.unique hE (requested E kw' ic y)
  have hp : PlainInflation q.events := by rw [hqe]; exact plain_events bound
  have hr := run hp (by rw [hqu]; exact h2) fun i hi => by rw [hqu]; simp [List.getElem?_map, List.getElem?_range hi, hyi i hi]
  have hr2 : (env fmtE).ivp E q = .ok (res q.events) := rfl
  obtain ⟨b, raw, hsol, hg, hev, -⟩ := C90_solve (env fmtE).ivp (env fmtE).fmtE E hE _ kw' ic y q hic hq hr2 hr.shape
  have hsol' : solve (env fmtE).ivp (env fmtE).fmtE setup.E (ICCall.inflationStart setup.E ic) [] kw' = .ok (b, inflationSol (C90.view E) E.pot.V E.K raw) := hsol
  rw [hsol']
  show ISIC.objective _ Nend ic.N_i b _ = _
  have hraw := rawRun hr hp hg hev
  have names : q.events.map (Event.name fmtE) = ["Inflation_dir1_term0", "Inflation_dir-1_term1", "UntilN", "Collapse"] := by
    rw [hqe]
    simp only [ISIC.events, List.map_cons, List.map_nil, Event.name]
    decide
  have hend : raw.events.get? "Inflation_dir-1_term1" = some [(Nend, state (st Nend))] := by
    refine (hev _ _).2 ⟨1, [Nend], [st Nend], ?_, ?_, ?_, rfl⟩
    · rw [show (env fmtE).fmtE = fmtE from rfl, names]
      refine ⟨rfl, fun j hj => ?_⟩
      match j with
      | 2 => decide
      | 3 => decide
      | j + 4 => simp
    · rw [hqe]; rfl
    · rw [hqe]; rfl
  have hcol : ¬ Seen raw.events "Collapse" := by
    rintro ⟨p, l, hl⟩
    obtain ⟨j, ts, ss, hj, h1, h2, hz⟩ := (hev _ _).1 hl
    obtain ⟨ev, he, -, hn⟩ := C90.lastAt_event hj
    obtain ⟨d, b', v, rfl⟩ := (C24_collapse_key _ ev).1 hn
    have := te_get he h1
    rw [if_neg (by simp [isEnd])] at this
    rw [this] at hz
    simp at hz
  have hN : (inflationSol (C90.view E) E.pot.V E.K raw).N_tot = some Nend := by
    refine ((C25_duration_mask (C90.view E) E.pot.V E.K raw).1 Nend).2 ⟨0, Nend, ?_, ?_, by ring⟩
    · have : (inflationSol (C90.view E) E.pot.V E.K raw).start.N_beg = some (C90.view E |>.N raw.first.1 raw.first.2) := by
        unfold inflationSol postStart
        dsimp only
        rw [if_neg (fun h => hcol (C25.firstEvent_isSome.1 h)), if_pos]
        left
        rw [hraw.first]
        show 0 ≤ (C90.view E).inflating 0 (C90.trunc E.idx.length Y 0)
        rw [inflating_congr hE trunc_lt]
        exact infl_zero.1.ge
      rw [this, hraw.first]; rfl
    · exact ((C25_end (C90.view E) E.pot.V E.K raw).1 _ (Or.inl ⟨_, hend⟩)).1
  unfold ISIC.objective
  rw [hN]
  simp

/-- the outer call asks for the non-terminal end event only, and for another method -/
def kw : SolveKw := ⟨some [⟨.inflation none, .neg, false, 0⟩], some "DOP853", none, none, []⟩

/-- The shooting finds the requested duration through `solve`: `C91_N_tot_found`, and with it `C91_N_tot` and `C91_independent`, apply. -/
example (fmtE : ℝ → String) : ∃ o s, solve (env fmtE).ivp (env fmtE).fmtE setup.E (ISIC.nt (env fmtE) setup Nend 3 √18) [] kw = .ok (o, s) ∧ s.N_tot = some (9 / 4 * log 2) := by
  obtain ⟨ic, hs, h1, h2, h3, h4⟩ := start_ok √18 (by rw [V18]; positivity)
  obtain ⟨y, hy, hyi⟩ := state_ok h1 h2 h3 h4
  have hE : E.Shipped := fun K p h => by cases h
  have hok : ISIC.nt (env fmtE) setup Nend 3 √18 (kw.rtol.getD (1 / 10 ^ 10)) (kw.atol.getD (1 / 10 ^ 12)) kw.rest (fun _ => some 0) = .ok (ic, y) := by
    unfold ISIC.nt
    rw [hs]
    have hroot : (env fmtE).root (ISIC.phii2Ntot (env fmtE) setup Nend (kw.rtol.getD (1 / 10 ^ 10)) (kw.atol.getD (1 / 10 ^ 12)) kw.rest) 3 √18 = .ok √18 := by
      show (if _ then _ else _) = _
      rw [if_pos (objective_ok fmtE _ _ _)]
    simp only [Bind.bind, Except.bind, hroot, hs]
    rw [show InflationStartIC.call setup.E ic (fun _ => some 0) = .ok y from hy]
  obtain ⟨q, hq, hqe⟩ : ∃ q, Requested E kw ic y q ∧ q.events = [⟨.inflation none, .neg, false, 0⟩] := ⟨_, requested E kw ic y, rfl⟩
  have hqu := hq.unique hE (requested E kw ic y)
  have hp : PlainInflation q.events := by rw [hqe]; exact C90.Ex.plain
  have hx : q.x_ini = some 0 := by rw [hqu]; exact h2
  have hy0 : ∀ i < E.idx.length, q.y0[i]? = some (some (Y 0 i)) := fun i hi => by rw [hqu]; simp [List.getElem?_map, List.getElem?_range hi, hyi i hi]
  have hx1 : x1 q.events = N2 := by rw [hqe]; rfl
  suffices h : ∃ o s, solve (env fmtE).ivp (env fmtE).fmtE setup.E (ISIC.nt (env fmtE) setup Nend 3 √18) [] kw = .ok (o, s) ∧ ∃ n, s.N_tot = some n ∧ |n - Nend| ≤ 0 by
    obtain ⟨o, s, h1, n, h2, h3⟩ := h
    refine ⟨o, s, h1, ?_⟩
    rw [h2, sub_eq_zero.1 (abs_eq_zero.1 (le_antisymm h3 (abs_nonneg _)))]
    rfl
  refine C91_N_tot_found (env fmtE) setup (D := univ) isOpen_univ d1 d2 d3 (ε := 0) (fun f lo hi r h => ?_) Nend_pos hok hq hp (res := res q.events) rfl (fun q' res' e1 e2 hp' h => ?_)
    (run hp hx hy0) ?_ ?_ (a := Nend / 2) (b := N2) (by have := Nend_pos; linarith) (by have := Nend_pos; have := Nend_lt; linarith) hx1.ge ?_ ?_
  · have h : (if f √18 = .ok (some 0) then .ok √18 else .error (.valueError "f(a) and f(b) must have different signs") : Except PyErr ℝ) = .ok r := by
      have h' := h
      unfold env at h'
      dsimp only at h'
      exact h'
    by_cases hf : f √18 = .ok (some 0)
    · rw [if_pos hf] at h
      injection h with h
      rw [← h]; exact ⟨0, hf, by simp⟩
    · rw [if_neg hf] at h
      cases h
  · have h : (.ok (res q'.events) : Except PyErr (Dict Attr)) = .ok res' := h
    injection h with h
    subst h
    exact ⟨_, _, _, _, _, _, _, _, run hp' (e1.trans hx) fun i hi => by rw [e2]; exact hy0 i hi⟩
  · rw [hqe]; exact ⟨_, List.mem_singleton_self _, ⟨_, rfl⟩, rfl⟩
  · intro j ev ts h1 _ h3
    rw [hqe] at h1
    match j with
    | j + 1 => simp at h1
    | 0 =>
      simp only [List.getElem?_cons_zero, Option.some.injEq] at h1
      subst h1
      cases h3
  · have h0 := Nend_pos
    exact infl_pos (by linarith) (by linarith)
  · exact infl_neg Nend_lt le_rfl

end C91.Ex

end Primpy
