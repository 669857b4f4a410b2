import Verif.Model.Perturbations
import Verif.Lemmas.Dict

/-! # Facts about the mode loop -/

namespace Primpy
namespace Pert

/-- The loop over vacua stores, for each requested vacuum, what `combine` gives for it, and nothing else. -/
theorem combineAll_get {m : Mode} {p0 : Pt} {one two : OscSol} {vacs : List String} {d : Dict (Option ℝ)}
    {de : Dict (Option (List (Option ℝ)))} (h : combineAll m p0 one two vacs = .ok (d, de)) :
    (∀ vac ∈ vacs, ∃ v P Pe, m.vacuum vac = some v ∧ combine m (v p0) one two = .ok (P, Pe) ∧
      d.get? vac = some P ∧ de.get? vac = some Pe) ∧
    ∀ vac, vac ∉ vacs → d.get? vac = none ∧ de.get? vac = none := by
  induction vacs generalizing d de with
  | nil =>
    simp only [combineAll, Except.ok.injEq, Prod.mk.injEq] at h
    obtain ⟨rfl, rfl⟩ := h
    exact ⟨by simp, fun _ _ => ⟨rfl, rfl⟩⟩
  | cons vac rest ih =>
    unfold combineAll at h
    split at h
    · cases h
    next v hv =>
    split at h
    · cases h
    next P Pe hc =>
    split at h
    · cases h
    next d' de' hr =>
    simp only [Except.ok.injEq, Prod.mk.injEq] at h
    obtain ⟨rfl, rfl⟩ := h
    obtain ⟨h1, h2⟩ := ih hr
    constructor
    · intro vac' hm
      by_cases e : vac' = vac
      · subst e
        exact ⟨v, P, Pe, hv, hc, by simp [Dict.get?_set], by simp [Dict.get?_set]⟩
      · obtain ⟨v', P', Pe', a1, a2, a3, a4⟩ := h1 vac' (by simpa [e] using hm)
        exact ⟨v', P', Pe', a1, a2, by simp [Dict.get?_set, e, a3], by simp [Dict.get?_set, e, a4]⟩
    · intro vac' hm
      simp only [List.mem_cons, not_or] at hm
      obtain ⟨a, b⟩ := h2 vac' hm.2
      exact ⟨by simp [Dict.get?_set, hm.1, a], by simp [Dict.get?_set, hm.1, b]⟩

theorem runs_ok {osc : Oscode} {b : Bg} {kw : OscKw} {beg stop : ℕ} {y : ℝ × ℝ × ℝ × ℝ} {s t : Mode} {rs : List OscSol}
    (h : runs osc b kw beg stop y s t = .ok rs) :
    ∃ s1 s2 t1 t2, rs = [s1, s2, t1, t2] ∧ oscCall osc b kw beg stop s y.1 y.2.1 = .ok s1 ∧
      oscCall osc b kw beg stop s y.2.2.1 y.2.2.2 = .ok s2 ∧ oscCall osc b kw beg stop t y.1 y.2.1 = .ok t1 ∧
      oscCall osc b kw beg stop t y.2.2.1 y.2.2.2 = .ok t2 := by
  unfold runs at h
  cases h1 : oscCall osc b kw beg stop s y.1 y.2.1 with
  | error e => rw [h1] at h; cases h
  | ok s1 =>
  cases h2 : oscCall osc b kw beg stop s y.2.2.1 y.2.2.2 with
  | error e => rw [h1, h2] at h; cases h
  | ok s2 =>
  cases h3 : oscCall osc b kw beg stop t y.1 y.2.1 with
  | error e => rw [h1, h2, h3] at h; cases h
  | ok t1 =>
  cases h4 : oscCall osc b kw beg stop t y.2.2.1 y.2.2.2 with
  | error e => rw [h1, h2, h3, h4] at h; cases h
  | ok t2 =>
  rw [h1, h2, h3, h4] at h
  cases h
  exact ⟨s1, s2, t1, t2, rfl, rfl, rfl, rfl, rfl⟩

/-- The arguments of one oscode run. -/
noncomputable def args (b : Bg) (kw : OscKw) (beg stop : ℕ) (m : Mode) (pb pe : Pt) (x0 dx0 : ℝ) : OscArgs where
  ts := (slice b.pts beg stop).map (·.x)
  ti := pb.x
  tf := pe.x
  w := (slice b.pts beg stop).map fun p => csqrt (m.frequency2 p)
  g := (slice b.pts beg stop).map m.damping
  x0 := x0
  dx0 := dx0
  t_eval := xEval b kw.num_eval beg stop

theorem oscCall_eq {osc : Oscode} {b : Bg} {kw : OscKw} {beg stop : ℕ} {m : Mode} {pb pe : Pt} {x0 dx0 : ℝ}
    (hb : b.pts[beg]? = some pb) (he : b.pts[stop]? = some pe) :
    oscCall osc b kw beg stop m x0 dx0 = osc (args b kw beg stop m pb pe x0 dx0) := by
  unfold oscCall args
  rw [hb, he]

theorem oscCall_ok {osc : Oscode} {b : Bg} {kw : OscKw} {beg stop : ℕ} {m : Mode} {x0 dx0 : ℝ} {r : OscSol}
    (h : oscCall osc b kw beg stop m x0 dx0 = .ok r) : ∃ pb pe, b.pts[beg]? = some pb ∧ b.pts[stop]? = some pe := by
  unfold oscCall at h
  split at h
  next pb pe h1 h2 => exact ⟨pb, pe, h1, h2⟩
  · cases h

/-- What a successful pass of the loop did. -/
theorem oneMode_ok {osc : Oscode} {b : Bg} {kw : OscKw} {k : ℝ} {r : ModeSpectra} (h : oneMode osc b kw k = .ok r) :
    ∃ stop s t pb pe s1 s2 t1 t2 Ps, idxEnd b (idxBeg b kw.fac_beg k) kw.fac_end k = .ok stop ∧ modes b k = some (s, t) ∧
      b.pts[idxBeg b kw.fac_beg k]? = some pb ∧ b.pts[stop]? = some pe ∧
      (∀ y, y = kw.y0.getD b.perturbation_ic →
        osc (args b kw (idxBeg b kw.fac_beg k) stop s pb pe y.1 y.2.1) = .ok s1 ∧
        osc (args b kw (idxBeg b kw.fac_beg k) stop s pb pe y.2.2.1 y.2.2.2) = .ok s2 ∧
        osc (args b kw (idxBeg b kw.fac_beg k) stop t pb pe y.1 y.2.1) = .ok t1 ∧
        osc (args b kw (idxBeg b kw.fac_beg k) stop t pb pe y.2.2.1 y.2.2.2) = .ok t2) ∧
      combineAll s pb s1 s2 kw.vacuum = .ok (Ps, r.P_s_eval) ∧
      combineAll t pb t1 t2 kw.vacuum = .ok (r.P_t, r.P_t_eval) ∧
      r.P_s = open Classical in if k < 1 ∧ b.K = 1 ∧ kw.drop_closed_large_scales = true then Ps.set "RST" (some (1 / 10 ^ 30))
        else Ps := by
  unfold oneMode at h
  dsimp only at h
  split at h
  · cases h
  next stop hstop =>
  split at h
  · cases h
  next s t hm =>
  split at h
  · cases h
  next rs hr =>
  obtain ⟨s1, s2, t1, t2, rfl, c1, c2, c3, c4⟩ := runs_ok hr
  obtain ⟨pb, pe, hb, he⟩ := oscCall_ok c1
  rw [oscCall_eq hb he] at c1 c2 c3 c4
  split at h
  · cases h
  next p0 hp0 =>
  obtain rfl : pb = p0 := by rw [hb] at hp0; exact Option.some.inj hp0
  have e0 : pick [s1, s2, t1, t2] 0 0 = .ok s1 := rfl
  have e1 : pick [s1, s2, t1, t2] 0 1 = .ok s2 := rfl
  have e2 : pick [s1, s2, t1, t2] 1 0 = .ok t1 := rfl
  have e3 : pick [s1, s2, t1, t2] 1 1 = .ok t2 := rfl
  rw [e0, e1, e2, e3] at h
  dsimp only at h
  split at h
  next Ps Pse Pt' Pte hs ht =>
    rw [Except.ok.injEq] at h
    subst h
    exact ⟨stop, s, t, pb, pe, s1, s2, t1, t2, Ps, hstop, hm, hb, he, fun y hy => by subst hy; exact ⟨c1, c2, c3, c4⟩, hs, ht, rfl⟩
  · cases h
  · cases h

/-! ## A background to show that hypotheses are met -/
open Real

/-- Two grid points, 20 e-folds apart, `a H = e^N`. -/
noncomputable def demoBg (K : ℝ) : Bg where
  indep := .N
  K := K
  pot := ⟨fun _ => 1, fun _ => 0, fun _ => 0, fun _ => 0, fun _ => 0⟩
  pts := [⟨0, 0, 0, 1, 1, 0, 0⟩, ⟨20, 20, 0, 1, 1, 0, 20⟩]
  logaH_star := 0

theorem log_hundred : log 100 < 20 := by
  rw [log_lt_iff_lt_exp (by norm_num)]
  have h1 : (2 : ℝ) ≤ exp 1 := by have := add_one_le_exp (1 : ℝ); linarith
  have h2 : exp 20 = exp 1 ^ 20 := by rw [← exp_nat_mul]; norm_num
  rw [h2]
  calc (100 : ℝ) < 2 ^ 20 := by norm_num
    _ ≤ exp 1 ^ 20 := pow_le_pow_left₀ (by norm_num) h1 20

theorem demo_idxEnd (K k : ℝ) (h1 : 1 / 2 ≤ k) (h2 : k ≤ 1) : idxEnd (demoBg K) 0 100 k = .ok 1 := by
  have hk : log k ≤ 0 := log_nonpos (by linarith) h2
  have hk' : -log k ≤ log 2 := by
    rw [← log_inv]
    apply log_le_log (by positivity)
    rw [inv_le_comm₀ (by linarith) (by norm_num)]
    linarith
  have h3 : log 2 < log 100 := log_lt_log (by norm_num) (by norm_num)
  have h4 := log_hundred
  have a : argwhere (fun p => endTest k 100 p.logaH) (demoBg K).pts = [1] := by
    have e0 : ¬ endTest k 100 0 := by
      rintro ⟨-, -, h | h | h⟩
      · linarith
      · norm_num at h
      · linarith
    have e1 : endTest k 100 20 := ⟨by linarith, by norm_num, Or.inr (Or.inr (by linarith))⟩
    simp [argwhere, demoBg, e0, e1, List.range, List.range.loop]
  unfold idxEnd
  rw [a]
  simp [demoBg]
  norm_num

/-- An integrator that answers with constants. -/
noncomputable def demoOsc : Oscode := fun A => .ok ⟨[some A.x0, some A.x0], [some A.dx0, some A.dx0],
  A.t_eval.map fun l => l.map fun _ => some (A.x0 : ℂ)⟩

end Pert
end Primpy
