import Verif.Props.C47

/-!
# C62: the points of the dense output
-/

namespace Primpy
open Real
namespace Pert

theorem linspace_length (a b : ℝ) (n : ℕ) : (linspace a b n).length = n := by simp [linspace]

theorem linspace_get {a b : ℝ} {n i : ℕ} (hi : i < n) : (linspace a b n)[i]? = some (a + (b - a) * i / (n - 1 : ℕ)) := by
  simp [linspace, hi]

theorem linspace_mono {a b : ℝ} (h : a < b) {n i j : ℕ} (hij : i < j) (hj : j < n) :
    a + (b - a) * i / (n - 1 : ℕ) < a + (b - a) * j / (n - 1 : ℕ) := by
  have h1 : (0 : ℝ) < (n - 1 : ℕ) := by
    have : 0 < n - 1 := by omega
    exact_mod_cast this
  have h2 : (i : ℝ) < j := by exact_mod_cast hij
  have := mul_lt_mul_of_pos_left h2 (sub_pos.mpr h)
  have := div_lt_div_of_pos_right this h1
  linarith

/-- What a list of evaluation points of the range `[lo, hi]` must be: `n` points, in strictly increasing order, beginning at `lo`,
ending at `hi` if there is more than one, all inside. -/
structure IsGrid (lo hi : ℝ) (n : ℕ) (xs : List ℝ) : Prop where
  length : xs.length = n
  first : xs.head? = some lo
  last : 1 < n → xs.getLast? = some hi
  increasing : xs.Pairwise (· < ·)
  inside : ∀ x ∈ xs, lo ≤ x ∧ x ≤ hi

theorem isGrid_of {lo hi : ℝ} {n : ℕ} {xs : List ℝ} (f : ℕ → ℝ) (hn : 0 < n) (hlt : lo < hi) (hl : xs.length = n)
    (hf : ∀ i < n, xs[i]? = some (f i)) (h0 : f 0 = lo) (h1 : 1 < n → f (n - 1) = hi) (hm : ∀ i j, i < j → j < n → f i < f j) :
    IsGrid lo hi n xs := by
  have hget : ∀ i (h : i < xs.length), xs[i] = f i := by
    intro i h
    have := hf i (by omega)
    rw [List.getElem?_eq_getElem h] at this
    exact Option.some.inj this
  refine ⟨hl, ?_, ?_, ?_, ?_⟩
  · rw [List.head?_eq_getElem?, hf 0 hn, h0]
  · intro h
    rw [List.getLast?_eq_getElem?, hl, hf _ (by omega), h1 h]
  · rw [List.pairwise_iff_getElem]
    intro i j hi hj hij
    rw [hget, hget]
    exact hm i j hij (by omega)
  · intro x hx
    obtain ⟨i, hi, rfl⟩ := List.getElem_of_mem hx
    rw [hget]
    constructor
    · rcases Nat.eq_zero_or_pos i with rfl | hp
      · exact h0.ge
      · rw [← h0]; exact (hm 0 i hp (by omega)).le
    · rcases Nat.lt_or_ge 1 n with h | h
      · rcases Nat.lt_or_ge i (n - 1) with h' | h'
        · rw [← h1 h]; exact (hm i _ h' (by omega)).le
        · have : i = n - 1 := by omega
          rw [this, h1 h]
      · have : i = 0 := by omega
        rw [this, h0]; exact hlt.le

/-- **C62, the points.**  Any background, either formulation, any index range with increasing independent variable (positive for
cosmic time): asking for `n ≥ 1` points of dense output gives exactly `n` evaluation points, strictly increasing, from the
beginning to the end of the integration range and never outside; equally spaced in `ln t` or in `N`. -/
theorem C62_points {b : Bg} {n beg stop : ℕ} {pb pe : Pt} (hn : 0 < n) (hb : b.pts[beg]? = some pb) (he : b.pts[stop]? = some pe)
    (hlt : pb.x < pe.x) :
    (b.indep = .t → 0 < pb.x → ∃ xs, xEval b n beg stop = some xs ∧ IsGrid pb.x pe.x n xs ∧
      ∀ (i : ℕ) (x : ℝ), xs[i]? = some x → log x = log pb.x + (log pe.x - log pb.x) * i / (n - 1 : ℕ)) ∧
    (b.indep = .N → pb.N = pb.x → pe.N = pe.x → ∃ xs, xEval b n beg stop = some xs ∧ IsGrid pb.x pe.x n xs ∧
      ∀ (i : ℕ) (x : ℝ), xs[i]? = some x → x = pb.x + (pe.x - pb.x) * i / (n - 1 : ℕ)) := by
  have hn1 : 1 < n → ((n - 1 : ℕ) : ℝ) ≠ 0 := by
    intro h
    have : n - 1 ≠ 0 := by omega
    exact_mod_cast this
  constructor
  · intro hi h0
    refine ⟨(linspace (logb 10 pb.x) (logb 10 pe.x) n).map fun e => (10 : ℝ) ^ e, ?_, ?_, ?_⟩
    · unfold xEval; rw [if_pos hn, hb, he]; dsimp only; rw [hi]
    · have hlog : logb 10 pb.x < logb 10 pe.x := logb_lt_logb (by norm_num) h0 hlt
      refine isGrid_of (fun i => (10 : ℝ) ^ (logb 10 pb.x + (logb 10 pe.x - logb 10 pb.x) * i / (n - 1 : ℕ))) hn hlt ?_ ?_ ?_ ?_ ?_
      · simp [linspace_length]
      · intro i hi; rw [List.getElem?_map, linspace_get hi]; rfl
      · simp [rpow_logb, h0]
      · intro h
        have := hn1 h
        rw [mul_div_assoc, div_self this, mul_one, add_sub_cancel, rpow_logb (by norm_num) (by norm_num) (h0.trans hlt)]
      · intro i j hij hj
        exact rpow_lt_rpow_of_exponent_lt (by norm_num) (linspace_mono hlog hij hj)
    · intro i x hx
      rw [List.getElem?_map] at hx
      rcases Nat.lt_or_ge i n with hi | hi
      · rw [linspace_get hi, Option.map_some, Option.some.injEq] at hx
        have h10 : log 10 ≠ 0 := (log_pos (by norm_num)).ne'
        rw [← hx, log_rpow (by norm_num)]
        simp only [logb]
        field_simp
      · rw [List.getElem?_eq_none (by rw [linspace_length]; exact hi)] at hx
        cases hx
  · intro hi h1 h2
    refine ⟨linspace pb.N pe.N n, ?_, ?_, ?_⟩
    · unfold xEval; rw [if_pos hn, hb, he]; dsimp only; rw [hi]
    · rw [h1, h2]
      refine isGrid_of _ hn hlt (linspace_length _ _ _) (fun i hi => linspace_get hi) (by simp) ?_ (fun i j => linspace_mono hlt)
      intro h
      have := hn1 h
      rw [mul_div_assoc, div_self this, mul_one, add_sub_cancel]
    · intro i x hx
      rw [h1, h2] at hx
      rcases Nat.lt_or_ge i n with hi | hi
      · rw [linspace_get hi, Option.some.injEq] at hx
        exact hx.symm
      · rw [List.getElem?_eq_none (by rw [linspace_length]; exact hi)] at hx
        cases hx

theorem combine_dense {m : Mode} {v : Vacuum} {one two : OscSol} {P : Option ℝ} {Pe : Option (List (Option ℝ))} {n : ℕ}
    (h : combine m v one two = .ok (P, Pe)) (h1 : ∀ l, one.x_eval = some l → l.length = n) (h2 : ∀ l, two.x_eval = some l → l.length = n) :
    ∀ l, Pe = some l → l.length = n := by
  unfold combine at h
  split at h
  · cases h
  next a b hab =>
  rw [Except.ok.injEq, Prod.mk.injEq] at h
  intro l hl
  rw [← h.2] at hl
  cases e1 : one.x_eval with
  | none => rw [e1] at hl; cases hl
  | some l1 =>
  cases e2 : two.x_eval with
  | none => rw [e1, e2] at hl; cases hl
  | some l2 =>
  rw [e1, e2] at hl
  simp only [Option.bind, Option.map, Option.some.injEq] at hl
  rw [← hl, List.length_zipWith, h1 l1 e1, h2 l2 e2, min_self]

/-- **C62, the spectra.**  Any integrator that evaluates at the requested points (one value per point; nothing if no points are
requested), any background, wavenumber, vacua: without dense output (`num_eval = 0`) no evaluated spectra exist; with
`num_eval = n > 0` each vacuum's scalar and tensor evaluated spectra have exactly `n` entries. -/
theorem C62_spectra {osc : Oscode} (hosc : ∀ A r, osc A = .ok r → (A.t_eval = none → r.x_eval = none) ∧
      ∀ xs, A.t_eval = some xs → ∃ l, r.x_eval = some l ∧ l.length = xs.length)
    {b : Bg} {kw : OscKw} {k : ℝ} {r : ModeSpectra} (h : solveOscode1 osc b k kw = .ok r) {vac : String} (hvac : vac ∈ kw.vacuum) :
    (kw.num_eval = 0 → r.P_s_eval.get? vac = some none ∧ r.P_t_eval.get? vac = some none) ∧
    (0 < kw.num_eval → ∃ ls lt, r.P_s_eval.get? vac = some (some ls) ∧ r.P_t_eval.get? vac = some (some lt) ∧
      ls.length = kw.num_eval ∧ lt.length = kw.num_eval) := by
  rw [single_eq] at h
  obtain ⟨stop, s, t, pb, pe, s1, s2, t1, t2, Ps, hstop, hm, hb, he, hruns, hs, ht, -⟩ := oneMode_ok h
  obtain ⟨c1, c2, c3, c4⟩ := hruns _ rfl
  obtain ⟨vs, P, Pe, hvs, hcs, -, hgs⟩ := (combineAll_get hs).1 vac hvac
  obtain ⟨vt, P', Pe', hvt, hct, -, hgt⟩ := (combineAll_get ht).1 vac hvac
  have o1 := hosc _ _ c1
  have o2 := hosc _ _ c2
  have o3 := hosc _ _ c3
  have o4 := hosc _ _ c4
  dsimp only [args] at o1 o2 o3 o4
  constructor
  · intro h0
    have hx : xEval b kw.num_eval (idxBeg b kw.fac_beg k) stop = none := by unfold xEval; rw [h0]; simp
    have z1 := o1.1 hx
    have z3 := o3.1 hx
    rw [hgs, hgt]
    constructor
    · unfold combine at hcs
      split at hcs
      · cases hcs
      · rw [Except.ok.injEq, Prod.mk.injEq, z1] at hcs; rw [← hcs.2]; rfl
    · unfold combine at hct
      split at hct
      · cases hct
      · rw [Except.ok.injEq, Prod.mk.injEq, z3] at hct; rw [← hct.2]; rfl
  · intro h0
    obtain ⟨xs, hx, hlen⟩ : ∃ xs, xEval b kw.num_eval (idxBeg b kw.fac_beg k) stop = some xs ∧ xs.length = kw.num_eval := by
      unfold xEval
      rw [if_pos h0, hb, he]
      dsimp only
      split
      · exact ⟨_, rfl, by simp [linspace_length]⟩
      · exact ⟨_, rfl, linspace_length _ _ _⟩
    obtain ⟨l1, e1, n1⟩ := o1.2 xs hx
    obtain ⟨l2, e2, n2⟩ := o2.2 xs hx
    obtain ⟨l3, e3, n3⟩ := o3.2 xs hx
    obtain ⟨l4, e4, n4⟩ := o4.2 xs hx
    have key : ∀ (m : Mode) (v : Vacuum) (one two : OscSol) (l1 l2 : List (Option ℂ)) (P : Option ℝ) (Pe : Option (List (Option ℝ))),
        combine m v one two = .ok (P, Pe) → one.x_eval = some l1 → two.x_eval = some l2 → l1.length = kw.num_eval →
        l2.length = kw.num_eval → ∃ l, Pe = some l ∧ l.length = kw.num_eval := by
      intro m v one two l1 l2 P Pe hc e1 e2 n1 n2
      have hd := combine_dense hc (n := kw.num_eval) (fun l hl => by rw [e1] at hl; cases hl; exact n1)
        (fun l hl => by rw [e2] at hl; cases hl; exact n2)
      unfold combine at hc
      split at hc
      · cases hc
      · rw [Except.ok.injEq, Prod.mk.injEq, e1, e2] at hc
        exact ⟨_, hc.2.symm, hd _ hc.2.symm⟩
    obtain ⟨ls, hls, hls'⟩ := key _ _ _ _ _ _ _ _ hcs e1 e2 (n1.trans hlen) (n2.trans hlen)
    obtain ⟨lt, hlt, hlt'⟩ := key _ _ _ _ _ _ _ _ hct e3 e4 (n3.trans hlen) (n4.trans hlen)
    exact ⟨ls, lt, by rw [hgs, hls], by rw [hgt, hlt], hls', hlt'⟩

/-- Three points between `t = 1` and `t = 100`: 1, 10, 100. -/
example : ∃ xs, xEval ⟨.t, 0, demoBg 0 |>.pot, [⟨1, 0, 0, 1, 1, 0, 0⟩, ⟨100, 20, 0, 1, 1, 0, 20⟩], 0, (1, 0, 0, 1)⟩ 3 0 1 = some xs ∧
    IsGrid 1 100 3 xs := by
  obtain ⟨xs, h1, h2, -⟩ := (C62_points (b := ⟨.t, 0, demoBg 0 |>.pot, [⟨1, 0, 0, 1, 1, 0, 0⟩, ⟨100, 20, 0, 1, 1, 0, 20⟩], 0, (1, 0, 0, 1)⟩)
    (n := 3) (beg := 0) (stop := 1) (by norm_num) rfl rfl (by norm_num)).1 rfl (by norm_num)
  exact ⟨xs, h1, h2⟩

/-- Twenty e-folds, five points. -/
example : ∃ xs, xEval (demoBg 0) 5 0 1 = some xs ∧ IsGrid 0 20 5 xs := by
  obtain ⟨xs, h1, h2, -⟩ := (C62_points (b := demoBg 0) (n := 5) (beg := 0) (stop := 1) (by norm_num) rfl rfl
    (by norm_num)).2 rfl rfl rfl
  exact ⟨xs, h1, h2⟩

/-- The demonstration integrator fulfils the contract. -/
example : ∀ A r, demoOsc A = .ok r → (A.t_eval = none → r.x_eval = none) ∧
      ∀ xs, A.t_eval = some xs → ∃ l, r.x_eval = some l ∧ l.length = xs.length := by
  intro A r h
  cases h
  exact ⟨fun h => by rw [h]; rfl, fun xs h => ⟨_, by rw [h]; rfl, by simp⟩⟩

end Pert
end Primpy
