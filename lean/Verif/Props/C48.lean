import Verif.Props.C47

/-!
# C48: basis independence of the power spectrum
-/

namespace Primpy
open Real
namespace Pert

theorem nanmedian_const {l : List (Option ℂ)} {c : ℂ} (h : ∀ y ∈ l, y = none ∨ y = some c) (hc : some c ∈ l) : nanmedian l = some c := by
  classical
  have hall : ∀ z ∈ (l.filterMap id).insertionSort lexLe, z = c := by
    intro z hz
    rw [List.mem_insertionSort, List.mem_filterMap] at hz
    obtain ⟨o, ho, hz⟩ := hz
    rcases h o ho with rfl | rfl
    · cases hz
    · exact (Option.some.inj hz).symm
  have hne : 0 < ((l.filterMap id).insertionSort lexLe).length := by
    rw [List.length_insertionSort]
    apply List.length_pos_of_mem (a := c)
    rw [List.mem_filterMap]
    exact ⟨some c, hc, rfl⟩
  have hget : ∀ n, n < ((l.filterMap id).insertionSort lexLe).length → ((l.filterMap id).insertionSort lexLe)[n]? = some c := by
    intro n hn
    rw [List.getElem?_eq_getElem hn]
    exact congrArg some (hall _ (List.getElem_mem hn))
  unfold nanmedian
  dsimp only
  rw [if_neg hne.ne']
  split_ifs with hodd
  · apply hget; omega
  · rw [hget _ (by omega), hget _ (by omega)]
    simp

/-- The integrator is linear in the initial data and the mode is frozen over the averaging window: whatever the initial data
`(x0, dx0)`, the (adaptive, hence data-dependent) steps start at the initial data, each of the last five values is
NaN or `x0 A + dx0 B`, not all NaN; the dense output is `x0 A(x) + dx0 B(x)`.  `A`, `B` do not depend on `x0, dx0`. -/
def Frozen (osc : Oscode) (a : OscArgs) (A B : ℂ) (Ae Be : ℝ → ℂ) : Prop :=
  ∀ x0 dx0 : ℝ, ∃ r, osc { a with x0 := x0, dx0 := dx0 } = .ok r ∧ r.sol.head? = some (some (x0 : ℂ)) ∧
    r.dsol.head? = some (some (dx0 : ℂ)) ∧
    (∀ y ∈ r.sol.drop (r.sol.length - 5), y = none ∨ y = some ((x0 : ℂ) * A + dx0 * B)) ∧ some ((x0 : ℂ) * A + dx0 * B) ∈ r.sol.drop (r.sol.length - 5) ∧
    r.x_eval = a.t_eval.map fun l => l.map fun x => some ((x0 : ℂ) * Ae x + dx0 * Be x)

theorem combine_frozen {osc : Oscode} {a : OscArgs} {A B : ℂ} {Ae Be : ℝ → ℂ} (hF : Frozen osc a A B Ae Be) (m : Mode) (v : Vacuum)
    {x1 dx1 x2 dx2 : ℝ} (hW : x1 * dx2 - dx1 * x2 ≠ 0) {one two : OscSol} (h1 : osc { a with x0 := x1, dx0 := dx1 } = .ok one)
    (h2 : osc { a with x0 := x2, dx0 := dx2 } = .ok two) :
    combine m v one two = .ok (v.map fun u => ‖u.1 * A + u.2 * B‖ ^ 2 * m.pps_norm,
      a.t_eval.map fun l => l.map fun x => v.map fun u => ‖u.1 * Ae x + u.2 * Be x‖ ^ 2 * m.pps_norm) := by
  obtain ⟨one', e1, s1, d1, f1, g1, w1⟩ := hF x1 dx1
  obtain ⟨two', e2, s2, d2, f2, g2, w2⟩ := hF x2 dx2
  rw [h1] at e1; cases e1
  rw [h2] at e2; cases e2
  have n1 : nanmedian (last5 one.sol) = _ := nanmedian_const f1 g1
  have n2 : nanmedian (last5 two.sol) = _ := nanmedian_const f2 g2
  have hW' : (x1 : ℂ) * dx2 - dx1 * x2 ≠ 0 := by
    intro hc; apply hW; exact_mod_cast hc
  unfold combine
  cases v with
  | none =>
    have : ab none one two = .ok (none, none) := by
      unfold ab; rw [s1, d1, s2, d2]
    rw [this, w1, w2]
    dsimp only [lincomb, Option.bind, Option.map]
    cases a.t_eval with
    | none => rfl
    | some l =>
      dsimp only
      rw [List.zipWith_map, List.zipWith_self]
  | some u =>
    obtain ⟨c, d, hcd, hc, hd, -⟩ := C47_solves u.1 u.2 x1 dx1 x2 dx2 hW'
    have : ab (some u) one two = .ok (some c, some d) := by
      unfold ab; rw [s1, d1, s2, d2]; exact congrArg _ hcd
    rw [this, w1, w2, n1, n2]
    dsimp only [lincomb, Option.bind, Option.map, power]
    have key : ∀ X Y : ℂ, c * ((x1 : ℂ) * X + dx1 * Y) + d * (x2 * X + dx2 * Y) = u.1 * X + u.2 * Y := by
      intro X Y; rw [← hc, ← hd]; ring
    rw [key]
    cases a.t_eval with
    | none => rfl
    | some l =>
      dsimp only
      rw [List.zipWith_map, List.zipWith_self]
      simp only [key]

theorem combineAll_congr {m : Mode} {p0 : Pt} {one two one' two' : OscSol}
    (h : ∀ v, combine m v one two = combine m v one' two') (vacs : List String) :
    combineAll m p0 one two vacs = combineAll m p0 one' two' vacs := by
  induction vacs with
  | nil => rfl
  | cons vac rest ih =>
    unfold combineAll
    rw [ih]
    split
    · rfl
    next v hv => rw [h]

/-- Both modes of wavenumber `k` are frozen, for the index range used. -/
def AllFrozen (osc : Oscode) (b : Bg) (kw : OscKw) (k : ℝ) : Prop :=
  ∀ beg stop s t pb pe, beg = idxBeg b kw.fac_beg k → idxEnd b beg kw.fac_end k = .ok stop → modes b k = some (s, t) →
    b.pts[beg]? = some pb → b.pts[stop]? = some pe →
    (∃ A B Ae Be, Frozen osc (args b kw beg stop s pb pe 0 0) A B Ae Be) ∧
    ∃ A B Ae Be, Frozen osc (args b kw beg stop t pb pe 0 0) A B Ae Be

theorem runs_eq {osc : Oscode} {b : Bg} {kw : OscKw} {beg stop : ℕ} {y : ℝ × ℝ × ℝ × ℝ} {s t : Mode} {s1 s2 t1 t2 : OscSol}
    (h1 : oscCall osc b kw beg stop s y.1 y.2.1 = .ok s1) (h2 : oscCall osc b kw beg stop s y.2.2.1 y.2.2.2 = .ok s2)
    (h3 : oscCall osc b kw beg stop t y.1 y.2.1 = .ok t1) (h4 : oscCall osc b kw beg stop t y.2.2.1 y.2.2.2 = .ok t2) :
    runs osc b kw beg stop y s t = .ok [s1, s2, t1, t2] := by
  unfold runs
  rw [h1, h2, h3, h4]
  rfl

/-- **C48.**  Any background, wavenumber, vacua, index factors and any two pairs of linearly independent initial data: if the modes
are frozen over the last five steps, `solve_oscode` returns the same, whichever pair is used. -/
theorem C48_single {osc : Oscode} {b : Bg} {kw : OscKw} {k : ℝ} (hF : AllFrozen osc b kw k) (y y' : ℝ × ℝ × ℝ × ℝ)
    (hy : y.1 * y.2.2.2 - y.2.1 * y.2.2.1 ≠ 0) (hy' : y'.1 * y'.2.2.2 - y'.2.1 * y'.2.2.1 ≠ 0) :
    solveOscode1 osc b k { kw with y0 := some y } = solveOscode1 osc b k { kw with y0 := some y' } := by
  rw [single_eq, single_eq]
  unfold oneMode
  dsimp only [Option.getD_some]
  cases hstop : idxEnd b (idxBeg b kw.fac_beg k) kw.fac_end k with
  | error e => rfl
  | ok stop =>
  dsimp only
  cases hm : modes b k with
  | none => rfl
  | some st =>
  obtain ⟨s, t⟩ := st
  dsimp only
  cases hb : b.pts[idxBeg b kw.fac_beg k]? with
  | none =>
    unfold runs oscCall
    simp only [hb]
  | some pb =>
  cases he : b.pts[stop]? with
  | none =>
    unfold runs oscCall
    simp only [hb, he]
  | some pe =>
  obtain ⟨⟨A, B, Ae, Be, hs⟩, A', B', Ae', Be', ht⟩ := hF _ stop s t pb pe rfl hstop hm hb he
  obtain ⟨s1, p1, -⟩ := hs y.1 y.2.1
  obtain ⟨s2, p2, -⟩ := hs y.2.2.1 y.2.2.2
  obtain ⟨t1, p3, -⟩ := ht y.1 y.2.1
  obtain ⟨t2, p4, -⟩ := ht y.2.2.1 y.2.2.2
  obtain ⟨s1', q1, -⟩ := hs y'.1 y'.2.1
  obtain ⟨s2', q2, -⟩ := hs y'.2.2.1 y'.2.2.2
  obtain ⟨t1', q3, -⟩ := ht y'.1 y'.2.1
  obtain ⟨t2', q4, -⟩ := ht y'.2.2.1 y'.2.2.2
  rw [runs_eq (kw := { kw with y0 := some y }) ((oscCall_eq hb he).trans p1) ((oscCall_eq hb he).trans p2) ((oscCall_eq hb he).trans p3) ((oscCall_eq hb he).trans p4),
    runs_eq (kw := { kw with y0 := some y' }) ((oscCall_eq hb he).trans q1) ((oscCall_eq hb he).trans q2) ((oscCall_eq hb he).trans q3) ((oscCall_eq hb he).trans q4)]
  dsimp only [pick]
  simp only [List.getElem?_cons_zero, List.getElem?_cons_succ, mul_zero, mul_one, zero_add, add_zero, Nat.reduceAdd]
  rw [combineAll_congr (fun v => (combine_frozen hs s v hy p1 p2).trans (combine_frozen hs s v hy' q1 q2).symm) kw.vacuum,
    combineAll_congr (fun v => (combine_frozen ht t v hy p3 p4).trans (combine_frozen ht t v hy' q3 q4).symm) kw.vacuum]

/-- **C48, arrays of wavenumbers.** -/
theorem C48_array {osc : Oscode} {b : Bg} {kw : OscKw} {ks : List ℝ} (hF : ∀ k ∈ ks, AllFrozen osc b kw k) (y y' : ℝ × ℝ × ℝ × ℝ)
    (hy : y.1 * y.2.2.2 - y.2.1 * y.2.2.1 ≠ 0) (hy' : y'.1 * y'.2.2.2 - y'.2.1 * y'.2.2.1 ≠ 0) :
    solveOscode osc b ks { kw with y0 := some y } = solveOscode osc b ks { kw with y0 := some y' } := by
  unfold solveOscode
  dsimp only
  generalize PPS.init b ks kw.vacuum = P
  generalize 0 = i
  induction ks generalizing P i with
  | nil => rfl
  | cons k ks ih =>
    unfold loop
    have := C48_single (hF k (by simp)) y y' hy hy'
    rw [single_eq, single_eq] at this
    rw [this]
    dsimp only
    split
    · rfl
    next m hm =>
    split
    · rfl
    next Q hQ => exact ih (fun k' hk' => hF k' (by simp [hk'])) Q (i + 1)

/-- **C48, the value.**  With frozen modes the spectrum is `|u A + u' B|²` times the normalisation, `(u, u')` being the vacuum state at
the start and `A`, `B` the frozen values of the two solutions that start as `(1, 0)` and `(0, 1)`. -/
theorem C48_value {osc : Oscode} {b : Bg} {kw : OscKw} {k : ℝ} {r : ModeSpectra} (h : solveOscode1 osc b k kw = .ok r)
    (y : ℝ × ℝ × ℝ × ℝ) (hy0 : kw.y0.getD b.perturbation_ic = y) (hy : y.1 * y.2.2.2 - y.2.1 * y.2.2.1 ≠ 0)
    {stop : ℕ} {s t : Mode} {pb pe : Pt} (hstop : idxEnd b (idxBeg b kw.fac_beg k) kw.fac_end k = .ok stop)
    (hm : modes b k = some (s, t)) (hb : b.pts[idxBeg b kw.fac_beg k]? = some pb) (he : b.pts[stop]? = some pe)
    {A B A' B' : ℂ} {Ae Be Ae' Be' : ℝ → ℂ} (hs : Frozen osc (args b kw (idxBeg b kw.fac_beg k) stop s pb pe 0 0) A B Ae Be)
    (ht : Frozen osc (args b kw (idxBeg b kw.fac_beg k) stop t pb pe 0 0) A' B' Ae' Be')
    {vac : String} (hvac : vac ∈ kw.vacuum) :
    ∃ vs vt, s.vacuum vac = some vs ∧ t.vacuum vac = some vt ∧
      (¬(k < 1 ∧ b.K = 1 ∧ kw.drop_closed_large_scales = true ∧ vac = "RST") →
        r.P_s.get? vac = some ((vs pb).map fun u => ‖u.1 * A + u.2 * B‖ ^ 2 * (k ^ 3 / (2 * π ^ 2)))) ∧
      r.P_t.get? vac = some ((vt pb).map fun u => ‖u.1 * A' + u.2 * B'‖ ^ 2 * (k ^ 3 / (2 * π ^ 2) * 2)) := by
  rw [single_eq] at h
  obtain ⟨stop', s', t', pb', pe', s1, s2, t1, t2, Ps, a1, a2, a3, a4, a5, a6, a7, a8⟩ := oneMode_ok h
  rw [hstop] at a1; cases a1
  rw [hm] at a2; cases a2
  rw [hb] at a3; cases a3
  rw [he] at a4; cases a4
  obtain ⟨c1, c2, c3, c4⟩ := a5 y hy0.symm
  have hnorm : s.pps_norm = k ^ 3 / (2 * π ^ 2) ∧ t.pps_norm = k ^ 3 / (2 * π ^ 2) * 2 := by
    unfold modes at hm
    split at hm <;> cases hm <;> exact ⟨rfl, rfl⟩
  obtain ⟨vs, P, Pe, x1, x2, x3, -⟩ := (combineAll_get a6).1 vac hvac
  obtain ⟨vt, P', Pe', z1, z2, z3, -⟩ := (combineAll_get a7).1 vac hvac
  rw [combine_frozen hs s (vs pb) hy c1 c2, Except.ok.injEq, Prod.mk.injEq] at x2
  rw [combine_frozen ht t (vt pb) hy c3 c4, Except.ok.injEq, Prod.mk.injEq] at z2
  rw [hnorm.1] at x2
  rw [hnorm.2] at z2
  refine ⟨vs, vt, x1, z1, fun hn => ?_, by rw [z3, ← z2.1]⟩
  rw [a8]
  split_ifs with hc
  · rw [Dict.get?_set, if_neg (fun e => hn ⟨hc.1, hc.2.1, hc.2.2, e⟩), x3, ← x2.1]
  · rw [x3, ← x2.1]

theorem demo_frozen (a : OscArgs) : Frozen demoOsc a 1 0 (fun _ => 1) (fun _ => 0) := by
  intro x0 dx0
  refine ⟨_, rfl, rfl, rfl, ?_, ?_, ?_⟩
  · intro y hy
    right
    simpa using hy
  · simp
  · simp

/-- Hypotheses met. -/
example (k : ℝ) (kw : OscKw) : AllFrozen demoOsc (demoBg 0) kw k :=
  fun _ _ _ _ _ _ _ _ _ _ _ => ⟨⟨_, _, _, _, demo_frozen _⟩, _, _, _, _, demo_frozen _⟩

/-- **C48 is false without freezing**: the median is not linear.  Two bases of the same (linear, exact) solutions, sampled at the same
three points with values `A = (1, 0, 2)`, `B = (0, 1, 5)`: the vacuum state `(1, 0)` gives final amplitude `1` in the
basis `(A, B)` and `0` in the basis `(A + B, A - B)`. -/
theorem C48_not_frozen (m : Mode) (hm : m.pps_norm ≠ 0) : ∃ A B : List ℂ, ∃ one two one' two' : OscSol,
    one.sol = A.map some ∧ two.sol = B.map some ∧ one'.sol = (List.zipWith (fun a b => a + b) A B).map some ∧
    two'.sol = (List.zipWith (fun a b => a - b) A B).map some ∧
    one.dsol.head? = some (some 0) ∧ two.dsol.head? = some (some 1) ∧ one'.dsol.head? = some (some 1) ∧
    two'.dsol.head? = some (some (-1)) ∧
    ∃ P P', combine m (some (1, 0)) one two = .ok (some P, none) ∧ combine m (some (1, 0)) one' two' = .ok (some P', none) ∧ P ≠ P' := by
  refine ⟨[1, 0, 2], [0, 1, 5], ⟨[some 1, some 0, some 2], [some 0], none⟩, ⟨[some 0, some 1, some 5], [some 1], none⟩,
    ⟨[some 1, some 1, some 7], [some 1], none⟩, ⟨[some 1, some (-1), some (-3)], [some (-1)], none⟩, rfl, rfl, ?_, ?_, rfl, rfl, rfl, rfl,
    m.pps_norm, 0, ?_, ?_, hm⟩
  · norm_num
  · norm_num
  · have c10 : ¬ (1 : ℝ) < 0 := by norm_num
    have n1 : nanmedian [some 1, some 0, some 2] = some 1 := by
      simp [nanmedian, List.insertionSort, List.orderedInsert, lexLe, c10]
    have n2 : nanmedian [some 0, some 1, some 5] = some 1 := by
      simp [nanmedian, List.insertionSort, List.orderedInsert, lexLe]
    simp [combine, ab, coefficients, cdiv, last5, n1, n2, lincomb, power]
  · have n1 : nanmedian [some 1, some 1, some 7] = some 1 := by
      simp [nanmedian, List.insertionSort, List.orderedInsert, lexLe]
    have n2 : nanmedian [some 1, some (-1), some (-3)] = some (-1) := by
      simp [nanmedian, List.insertionSort, List.orderedInsert, lexLe]
      norm_num
      simp
    have e : (-1 - 1 : ℂ) ≠ 0 := by norm_num
    have e' : (1 + 1 : ℂ) ≠ 0 := by norm_num
    simp [combine, ab, coefficients, cdiv, last5, n1, n2, lincomb, power, e, e']
    norm_num

end Pert
end Primpy
