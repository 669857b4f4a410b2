import Verif.Props.C53
import Mathlib.Data.List.Sort

/-!
# C52: oscode integration range
-/

namespace Primpy
open Real
namespace Pert

/-- What the start test means: `k > fac · aH`, the mode is inside the horizon by more than the factor. -/
theorem begTest_iff {k fac l : ℝ} (hk : 0 < k) (hf : 0 < fac) : begTest k fac l ↔ fac * exp l < k := by
  unfold begTest
  rw [← exp_lt_exp (x := log fac), exp_log hf, exp_sub, exp_log hk, lt_div_iff₀ (exp_pos l)]
  exact ⟨fun h => h.2.2, fun h => ⟨hk, hf, h⟩⟩

/-- What the stop test means: `aH > fac · k`, the mode is outside the horizon by more than the factor. -/
theorem endTest_iff {k fac l : ℝ} (hk : 0 < k) (hf : 0 < fac) : endTest k fac l ↔ fac * k < exp l := by
  unfold endTest
  rw [← exp_lt_exp (x := log fac), exp_log hf, exp_sub, exp_log hk, lt_div_iff₀ hk]
  constructor
  · rintro ⟨-, -, h | h | h⟩
    · exact absurd h hk.ne'
    · exact absurd h hf.ne'
    · exact h
  · exact fun h => ⟨hk.le, hf.le, Or.inr (Or.inr h)⟩

theorem mem_argwhere {P : Pt → Prop} {l : List Pt} {i : ℕ} : i ∈ argwhere P l ↔ ∃ p, l[i]? = some p ∧ P p := by
  unfold argwhere
  classical
  rw [List.mem_filter, List.mem_range, decide_eq_true_iff]
  constructor
  · exact fun h => h.2
  · rintro ⟨p, hp, h⟩
    exact ⟨(List.getElem?_eq_some_iff.1 hp).1, p, hp, h⟩

theorem argwhere_sorted (P : Pt → Prop) (l : List Pt) : (argwhere P l).Pairwise (· < ·) := by
  unfold argwhere
  exact List.Pairwise.filter _ List.pairwise_lt_range

theorem argwhere_head {P : Pt → Prop} {l : List Pt} {e : ℕ} (h : (argwhere P l).head? = some e) :
    (∃ p, l[e]? = some p ∧ P p) ∧ ∀ (i : ℕ) (p : Pt), i < e → l[i]? = some p → ¬ P p := by
  have hs := argwhere_sorted P l
  cases hl : argwhere P l with
  | nil => rw [hl] at h; cases h
  | cons a t =>
    rw [hl] at h hs
    obtain rfl : a = e := by simpa using h
    refine ⟨mem_argwhere.1 (by rw [hl]; simp), fun i p hi hp hP => ?_⟩
    have : i ∈ argwhere P l := mem_argwhere.2 ⟨p, hp, hP⟩
    rw [hl, List.mem_cons] at this
    rcases this with rfl | h'
    · omega
    · have := (List.pairwise_cons.1 hs).1 i h'
      omega

theorem argwhere_head_none {P : Pt → Prop} {l : List Pt} (h : (argwhere P l).head? = none) :
    ∀ (i : ℕ) (p : Pt), l[i]? = some p → ¬ P p := by
  intro i p hp hP
  have : i ∈ argwhere P l := mem_argwhere.2 ⟨p, hp, hP⟩
  rw [List.head?_eq_none_iff] at h
  rw [h] at this
  cases this

theorem argwhere_last {P : Pt → Prop} {l : List Pt} {e : ℕ} (h : (argwhere P l).getLast? = some e) :
    (∃ p, l[e]? = some p ∧ P p) ∧ ∀ (i : ℕ) (p : Pt), e < i → l[i]? = some p → ¬ P p := by
  have hs := argwhere_sorted P l
  obtain ⟨ys, hl⟩ := List.getLast?_eq_some_iff.1 h
  refine ⟨mem_argwhere.1 (by rw [hl]; simp), fun i p hi hp hP => ?_⟩
  have hm : i ∈ argwhere P l := mem_argwhere.2 ⟨p, hp, hP⟩
  rw [hl] at hm hs
  rw [List.mem_append, List.mem_singleton] at hm
  rcases hm with h' | rfl
  · have := (List.pairwise_append.1 hs).2.2 i h' e (by simp)
    omega
  · omega

/-- **C52, start.**  The start index is a grid point.  For `fac_beg = 0` it is the first one; otherwise it is the *latest* grid point
at which the mode is inside the horizon by more than the factor `fac_beg` (`k > fac_beg · aH`), or the first grid point if there is no such
point. -/
theorem C52_start (b : Bg) {k fac_beg : ℝ} (hk : 0 < k) (hf : 0 ≤ fac_beg) (hne : b.pts ≠ []) :
    idxBeg b fac_beg k < b.pts.length ∧ (fac_beg = 0 → idxBeg b fac_beg k = 0) ∧
    (fac_beg ≠ 0 →
      (∀ (i : ℕ) (p : Pt), idxBeg b fac_beg k < i → b.pts[i]? = some p → k ≤ fac_beg * exp p.logaH) ∧
      ((∃ p, b.pts[idxBeg b fac_beg k]? = some p ∧ fac_beg * exp p.logaH < k) ∨
        (idxBeg b fac_beg k = 0 ∧ ∀ (i : ℕ) (p : Pt), b.pts[i]? = some p → k ≤ fac_beg * exp p.logaH))) := by
  have hlen : 0 < b.pts.length := List.length_pos_of_ne_nil hne
  by_cases h0 : fac_beg = 0
  · have : idxBeg b fac_beg k = 0 := if_pos h0
    rw [this]
    exact ⟨hlen, fun _ => rfl, fun h => absurd h0 h⟩
  · have hf' : 0 < fac_beg := lt_of_le_of_ne hf (Ne.symm h0)
    have e : idxBeg b fac_beg k = ((argwhere (fun p => begTest k fac_beg p.logaH) b.pts).getLast?).getD 0 := if_neg h0
    cases hl : (argwhere (fun p => begTest k fac_beg p.logaH) b.pts).getLast? with
    | none =>
      rw [hl] at e
      rw [List.getLast?_eq_none_iff] at hl
      have hall : ∀ (i : ℕ) (p : Pt), b.pts[i]? = some p → k ≤ fac_beg * exp p.logaH := by
        intro i p hp
        have := argwhere_head_none (by rw [hl]; rfl) i p hp
        rw [begTest_iff hk hf'] at this
        linarith
      rw [e]
      exact ⟨hlen, fun h => absurd h h0, fun _ => ⟨fun i p _ hp => hall i p hp, Or.inr ⟨rfl, hall⟩⟩⟩
    | some m =>
      rw [hl] at e
      obtain ⟨⟨p, hp, hP⟩, hlast⟩ := argwhere_last hl
      rw [e]
      refine ⟨(List.getElem?_eq_some_iff.1 hp).1, fun h => absurd h h0, fun _ => ⟨fun i q hi hq => ?_, Or.inl ⟨p, hp, ?_⟩⟩⟩
      · have := hlast i q hi hq
        rw [begTest_iff hk hf'] at this
        linarith
      · exact (begTest_iff hk hf').1 hP

/-- The grid of e-folds is strictly increasing. -/
def IncreasingN (b : Bg) : Prop := ∀ (i j : ℕ) (p q : Pt), b.pts[i]? = some p → b.pts[j]? = some q → i < j → p.N < q.N

/-- **C52, stop.**  On a grid of increasing e-folds, the stop index is a grid point after the start index, at least 10 e-folds later.
It is the first point `e₀` at which the mode is outside the horizon by more than the factor `fac_end` (`aH > fac_end · k`), if that is
at least 10 e-folds after the start; else the first point more than 10 e-folds after the start, which is later than `e₀`. -/
theorem C52_stop {b : Bg} {k fac_end : ℝ} {beg stop : ℕ} (hk : 0 < k) (hf : 0 < fac_end) (hN : IncreasingN b)
    (h : idxEnd b beg fac_end k = .ok stop) :
    beg < stop ∧ ∃ pb pe, b.pts[beg]? = some pb ∧ b.pts[stop]? = some pe ∧ 10 ≤ pe.N - pb.N ∧
      ∃ e0 p0, e0 ≤ stop ∧ b.pts[e0]? = some p0 ∧ fac_end * k < exp p0.logaH ∧
        (∀ (i : ℕ) (p : Pt), i < e0 → b.pts[i]? = some p → exp p.logaH ≤ fac_end * k) ∧
        (10 ≤ p0.N - pb.N → stop = e0) ∧
        (p0.N - pb.N < 10 → e0 < stop ∧ 10 < pe.N - pb.N ∧
          ∀ (i : ℕ) (p : Pt), i < stop → b.pts[i]? = some p → p.N - pb.N ≤ 10) := by
  unfold idxEnd at h
  split at h
  · cases h
  next e he =>
  obtain ⟨⟨p0, hp0, hP0⟩, hfirst⟩ := argwhere_head he
  rw [endTest_iff hk hf] at hP0
  have hfirst' : ∀ (i : ℕ) (p : Pt), i < e → b.pts[i]? = some p → exp p.logaH ≤ fac_end * k := by
    intro i p hi hp
    have := hfirst i p hi hp
    rw [endTest_iff hk hf] at this
    linarith
  have order : ∀ (i j : ℕ) (p q : Pt), b.pts[i]? = some p → b.pts[j]? = some q → p.N < q.N → i < j := by
    intro i j p q hp hq hlt
    rcases lt_trichotomy i j with h | h | h
    · exact h
    · subst h
      rw [hp] at hq; cases hq
      exact absurd hlt (lt_irrefl _)
    · exact absurd (hN j i q p hq hp h) (by linarith)
  split at h
  next pe pb hpe hpb =>
    rw [hp0] at hpe; cases hpe
    by_cases hc : p0.N - pb.N < 10
    · rw [if_pos hc] at h
      split at h
      · cases h
      next e' he' =>
      cases h
      obtain ⟨⟨p1, hp1, hP1⟩, hfirst1⟩ := argwhere_head he'
      have hlt : e < stop := order e stop p0 p1 hp0 hp1 (by linarith)
      refine ⟨order beg stop pb p1 hpb hp1 (by linarith), pb, p1, hpb, hp1, hP1.le, e, p0, hlt.le, hp0, hP0, hfirst', fun h => ?_,
        fun _ => ⟨hlt, hP1, fun i p hi hp => ?_⟩⟩
      · linarith
      · have := hfirst1 i p hi hp
        linarith
    · rw [if_neg hc] at h
      cases h
      have hc' : 10 ≤ p0.N - pb.N := by linarith
      exact ⟨order beg stop pb p0 hpb hp0 (by linarith), pb, p0, hpb, hp0, hc', stop, p0, le_rfl, hp0, hP0, hfirst', fun _ => rfl,
        fun h => absurd h hc⟩
  · cases h

/-- If the comoving Hubble horizon shrinks throughout (`aH` never decreases along the grid), the mode is outside the horizon by the factor
`fac_end` at the stop index. -/
theorem C52_stop_outside {b : Bg} {k fac_end : ℝ} {beg stop : ℕ} (hk : 0 < k) (hf : 0 < fac_end) (hN : IncreasingN b)
    (hmono : ∀ (i j : ℕ) (p q : Pt), b.pts[i]? = some p → b.pts[j]? = some q → i ≤ j → p.logaH ≤ q.logaH)
    (h : idxEnd b beg fac_end k = .ok stop) : ∃ pe, b.pts[stop]? = some pe ∧ fac_end * k < exp pe.logaH := by
  obtain ⟨-, pb, pe, -, hpe, -, e0, p0, hle, hp0, hP0, -⟩ := C52_stop hk hf hN h
  exact ⟨pe, hpe, lt_of_lt_of_le hP0 (exp_le_exp.2 (hmono e0 stop p0 pe hp0 hpe hle))⟩

/-- **C52, when there is no range.**  The only failure is an `IndexError`, and it is raised exactly if the mode is nowhere on the grid outside the
horizon by the factor `fac_end`, or if the first such point is less than 10 e-folds after the start and no point is more than
10 e-folds after it. -/
theorem C52_error {b : Bg} {k fac_end : ℝ} {beg : ℕ} (hk : 0 < k) (hf : 0 < fac_end) {pb : Pt} (hb : b.pts[beg]? = some pb) :
    (∃ e, idxEnd b beg fac_end k = .error e) ↔
      (∀ (i : ℕ) (p : Pt), b.pts[i]? = some p → exp p.logaH ≤ fac_end * k) ∨
      ((∃ (i : ℕ) (p : Pt), b.pts[i]? = some p ∧ fac_end * k < exp p.logaH ∧ p.N - pb.N < 10 ∧
        ∀ (j : ℕ) (q : Pt), j < i → b.pts[j]? = some q → exp q.logaH ≤ fac_end * k) ∧
        ∀ (i : ℕ) (p : Pt), b.pts[i]? = some p → p.N - pb.N ≤ 10) := by
  unfold idxEnd
  cases he : (argwhere (fun p => endTest k fac_end p.logaH) b.pts).head? with
  | none =>
    have := argwhere_head_none he
    dsimp only
    constructor
    · intro _
      left
      intro i p hp
      have := this i p hp
      rw [endTest_iff hk hf] at this
      linarith
    · exact fun _ => ⟨_, rfl⟩
  | some e =>
    obtain ⟨⟨p0, hp0, hP0⟩, hfirst⟩ := argwhere_head he
    rw [endTest_iff hk hf] at hP0
    have hfirst' : ∀ (i : ℕ) (p : Pt), i < e → b.pts[i]? = some p → exp p.logaH ≤ fac_end * k := by
      intro i p hi hp
      have := hfirst i p hi hp
      rw [endTest_iff hk hf] at this
      linarith
    dsimp only
    rw [hp0, hb]
    dsimp only
    by_cases hc : p0.N - pb.N < 10
    · rw [if_pos hc]
      cases he' : (argwhere (fun p => 10 < p.N - pb.N) b.pts).head? with
      | none =>
        have hn := argwhere_head_none he'
        dsimp only
        constructor
        · intro _
          right
          refine ⟨⟨e, p0, hp0, hP0, hc, hfirst'⟩, fun i p hp => ?_⟩
          have := hn i p hp
          linarith
        · exact fun _ => ⟨_, rfl⟩
      | some e' =>
        obtain ⟨⟨p1, hp1, hP1⟩, -⟩ := argwhere_head he'
        dsimp only
        constructor
        · rintro ⟨_, h⟩; cases h
        · rintro (h | ⟨-, h⟩)
          · exact absurd (h e p0 hp0) (by linarith)
          · exact absurd (h e' p1 hp1) (by linarith)
    · rw [if_neg hc]
      constructor
      · rintro ⟨_, h⟩; cases h
      · rintro (h | ⟨⟨i, p, hp, hP, hi, hj⟩, -⟩)
        · exact absurd (h e p0 hp0) (by linarith)
        · exfalso
          rcases lt_trichotomy i e with h | h | h
          · exact absurd (hfirst' i p h hp) (by linarith)
          · subst h
            rw [hp0] at hp; cases hp
            exact hc hi
          · exact absurd (hj e p0 h hp0) (by linarith)

/-- **C52, what oscode is given.**  In a successful call every array handed to the integrator has the same length, covers the grid points from start
to stop inclusive, so its first and last abscissa are the integration limits. -/
theorem C52_arguments {osc : Oscode} {b : Bg} {kw : OscKw} {k : ℝ} {r : ModeSpectra} (hk : 0 < k) (hf : 0 < kw.fac_end)
    (hN : IncreasingN b) (h : solveOscode1 osc b k kw = .ok r) :
    ∃ beg stop pb pe s t, beg = idxBeg b kw.fac_beg k ∧ idxEnd b beg kw.fac_end k = .ok stop ∧ modes b k = some (s, t) ∧
      b.pts[beg]? = some pb ∧ b.pts[stop]? = some pe ∧
      ∀ m, m = s ∨ m = t → ∀ x0 dx0, ∀ a, a = args b kw beg stop m pb pe x0 dx0 →
        a.ts.length = stop - beg + 1 ∧ a.w.length = stop - beg + 1 ∧ a.g.length = stop - beg + 1 ∧
        a.ts.head? = some a.ti ∧ a.ts.getLast? = some a.tf ∧ a.ti = pb.x ∧ a.tf = pe.x := by
  rw [single_eq] at h
  obtain ⟨stop, s, t, pb, pe, s1, s2, t1, t2, Ps, a1, a2, a3, a4, -⟩ := oneMode_ok h
  refine ⟨_, stop, pb, pe, s, t, rfl, a1, a2, a3, a4, ?_⟩
  intro m _ x0 dx0 a ha
  have hlt := (C52_stop hk hf hN a1).1
  have hstop : stop < b.pts.length := (List.getElem?_eq_some_iff.1 a4).1
  generalize idxBeg b kw.fac_beg k = beg at *
  have hlen : (slice b.pts beg stop).length = stop - beg + 1 := by
    unfold slice
    rw [List.length_take, List.length_drop]
    omega
  have hget : ∀ i, i < stop - beg + 1 → (slice b.pts beg stop)[i]? = b.pts[beg + i]? := by
    intro i hi
    unfold slice
    rw [List.getElem?_take, if_pos (by omega), List.getElem?_drop]
  subst ha
  simp only [args, List.length_map, hlen]
  refine ⟨trivial, trivial, trivial, ?_, ?_, trivial, trivial⟩
  · rw [List.head?_eq_getElem?, List.getElem?_map, hget 0 (by omega), add_zero, a3]
    rfl
  · rw [List.getLast?_eq_getElem?, List.length_map, hlen, List.getElem?_map, hget _ (by omega),
      show beg + (stop - beg + 1 - 1) = stop by omega, a4]
    rfl

/-- The arrays `A` handed to the integrator are the coefficients of the mode `m` at the grid points `beg, ..., stop`: at each of them the abscissa, the
damping term, and a frequency that squares to the squared frequency of the mode (non-negative, or on the positive imaginary axis). -/
def Coefficients (b : Bg) (beg stop : ℕ) (m : Mode) (A : OscArgs) : Prop :=
  ∀ i, i ≤ stop - beg → ∃ pt w, b.pts[beg + i]? = some pt ∧ A.ts[i]? = some pt.x ∧ A.w[i]? = some w ∧ A.g[i]? = some (m.damping pt) ∧
    w ^ 2 = m.frequency2 pt ∧ (0 ≤ w.re ∧ w.im = 0 ∨ w.re = 0 ∧ 0 < w.im)

theorem csqrt_sq (x : ℝ) : csqrt x ^ 2 = x ∧ (0 ≤ (csqrt x).re ∧ (csqrt x).im = 0 ∨ (csqrt x).re = 0 ∧ 0 < (csqrt x).im) := by
  unfold csqrt
  by_cases h : 0 ≤ x
  · rw [if_pos h, ← Complex.ofReal_pow, sq_sqrt h]
    exact ⟨rfl, .inl ⟨by rw [Complex.ofReal_re]; exact sqrt_nonneg x, Complex.ofReal_im _⟩⟩
  · rw [if_neg h, mul_pow, Complex.I_sq, ← Complex.ofReal_pow, sq_sqrt (by linarith)]
    refine ⟨by push_cast; ring, .inr ⟨by simp, ?_⟩⟩
    simp only [Complex.mul_im, Complex.I_re, Complex.I_im, Complex.ofReal_re, Complex.ofReal_im]
    simp only [not_le] at h
    have := sqrt_pos.2 (neg_pos.2 h)
    linarith

/-- **C52, the equations that are integrated.**  In a successful call the integrator is run four times, twice for the scalar and twice for the tensor mode of
wavenumber `k`, each time with the coefficients of that mode on the grid points from start to stop and one of the two initial conditions. -/
theorem C52_coefficients {osc : Oscode} {b : Bg} {kw : OscKw} {k : ℝ} {r : ModeSpectra} (hk : 0 < k) (hf : 0 < kw.fac_end)
    (hN : IncreasingN b) (h : solveOscode1 osc b k kw = .ok r) :
    ∃ beg stop s t, beg = idxBeg b kw.fac_beg k ∧ idxEnd b beg kw.fac_end k = .ok stop ∧ modes b k = some (s, t) ∧
      ∀ m, m = s ∨ m = t → ∃ A1 A2 r1 r2, osc A1 = .ok r1 ∧ osc A2 = .ok r2 ∧ Coefficients b beg stop m A1 ∧ Coefficients b beg stop m A2 ∧
        ((A1.x0, A1.dx0), (A2.x0, A2.dx0)) = (((kw.y0.getD b.perturbation_ic).1, (kw.y0.getD b.perturbation_ic).2.1),
          ((kw.y0.getD b.perturbation_ic).2.2.1, (kw.y0.getD b.perturbation_ic).2.2.2)) := by
  rw [single_eq] at h
  obtain ⟨stop, s, t, pb, pe, s1, s2, t1, t2, Ps, a1, a2, a3, a4, a5, -⟩ := oneMode_ok h
  obtain ⟨c1, c2, c3, c4⟩ := a5 _ rfl
  refine ⟨_, stop, s, t, rfl, a1, a2, ?_⟩
  have hlt := (C52_stop hk hf hN a1).1
  have hstop : stop < b.pts.length := (List.getElem?_eq_some_iff.1 a4).1
  generalize idxBeg b kw.fac_beg k = beg at *
  have hget : ∀ i, i < stop - beg + 1 → (slice b.pts beg stop)[i]? = b.pts[beg + i]? := by
    intro i hi
    unfold slice
    rw [List.getElem?_take, if_pos (by omega), List.getElem?_drop]
  have hco : ∀ m x0 dx0, Coefficients b beg stop m (args b kw beg stop m pb pe x0 dx0) := by
    intro m x0 dx0 i hi
    obtain ⟨q1, q2⟩ := csqrt_sq (m.frequency2 (b.pts[beg + i]'(by omega)))
    refine ⟨_, _, List.getElem?_eq_getElem (by omega), ?_, ?_, ?_, q1, q2⟩ <;>
      simp only [args] <;> rw [List.getElem?_map, hget i (by omega), List.getElem?_eq_getElem (by omega)] <;> rfl
  intro m hm
  rcases hm with rfl | rfl
  · exact ⟨_, _, _, _, c1, c2, hco _ _ _, hco _ _ _, rfl⟩
  · exact ⟨_, _, _, _, c3, c4, hco _ _ _, hco _ _ _, rfl⟩

/-- Hypotheses met: the demonstration background. -/
example : IncreasingN (demoBg 0) ∧ idxEnd (demoBg 0) 0 100 1 = .ok 1 := by
  refine ⟨?_, demo_idxEnd 0 1 (by norm_num) le_rfl⟩
  intro i j p q hp hq hij
  have hi := (List.getElem?_eq_some_iff.1 hp).1
  have hj := (List.getElem?_eq_some_iff.1 hq).1
  simp only [demoBg, List.length_cons, List.length_nil] at hi hj
  obtain rfl : i = 0 := by omega
  obtain rfl : j = 1 := by omega
  simp only [demoBg, List.getElem?_cons_zero, List.getElem?_cons_succ, Option.some.injEq] at hp hq
  subst hp hq
  norm_num

end Pert
end Primpy
