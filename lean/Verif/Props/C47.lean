import Verif.Props.C53
import Verif.Spec.Perturbations

/-!
# C47: vacuum matching coefficients
-/

namespace Primpy
open Real Spec
namespace Pert

/-- **C47.**  If the two solutions are linearly independent at the start (Wronskian non-zero), `_get_coefficients_a_b` returns
numbers `a, b` for which `a y₁ + b y₂` has the prescribed initial value and derivative, and they are the only ones. -/
theorem C47_solves (u du y1 dy1 y2 dy2 : ℂ) (hW : y1 * dy2 - dy1 * y2 ≠ 0) :
    ∃ a b : ℂ, coefficients u du y1 dy1 y2 dy2 = (some a, some b) ∧ a * y1 + b * y2 = u ∧ a * dy1 + b * dy2 = du ∧
      ∀ a' b' : ℂ, a' * y1 + b' * y2 = u → a' * dy1 + b' * dy2 = du → a' = a ∧ b' = b := by
  have hW' : y2 * dy1 - dy2 * y1 ≠ 0 := by
    intro h; apply hW; linear_combination -h
  refine ⟨(u * dy2 - du * y2) / (y1 * dy2 - dy1 * y2), (u * dy1 - du * y1) / (y2 * dy1 - dy2 * y1), ?_, ?_, ?_, ?_⟩
  · simp only [coefficients, cdiv, if_neg hW, if_neg hW']
  · rw [show y2 * dy1 - dy2 * y1 = -(y1 * dy2 - dy1 * y2) by ring]
    obtain ⟨W, hw⟩ : ∃ W, W = y1 * dy2 - dy1 * y2 := ⟨_, rfl⟩
    rw [← hw] at hW ⊢
    field_simp
    rw [hw]; ring
  · rw [show y2 * dy1 - dy2 * y1 = -(y1 * dy2 - dy1 * y2) by ring]
    obtain ⟨W, hw⟩ : ∃ W, W = y1 * dy2 - dy1 * y2 := ⟨_, rfl⟩
    rw [← hw] at hW ⊢
    field_simp
    rw [hw]; ring
  · intro a' b' h1 h2
    rw [eq_div_iff hW, eq_div_iff hW']
    constructor
    · rw [← h1, ← h2]; ring
    · rw [← h1, ← h2]; ring

/-- Linearly dependent solutions give no coefficients (division by zero, NaN or inf), never wrong finite ones. -/
theorem C47_degenerate (u du y1 dy1 y2 dy2 : ℂ) (hW : y1 * dy2 - dy1 * y2 = 0) :
    coefficients u du y1 dy1 y2 dy2 = (none, none) := by
  have hW' : y2 * dy1 - dy2 * y1 = 0 := by linear_combination -hW
  simp only [coefficients, cdiv, if_pos hW, if_pos hW']

/-- `pyoscode.solve` as an exact solver: there is a solution of `y'' + 2 γ y' + ω² y = 0` on `S ∋ ti`, for functions `ω²`, `γ` which
depend on the given arrays only, with the given initial value and derivative, which the returned arrays start with, and the
dense output is that solution at the requested points. -/
def Exact (osc : Oscode) (S : Set ℝ) (ω2 : List ℝ → List ℂ → ℝ → ℝ) (γ : List ℝ → List ℝ → ℝ → ℝ) : Prop :=
  ∀ A r, osc A = .ok r → ∃ y y' y'' : ℝ → ℂ, Twice S y y' y'' ∧
    (∀ x ∈ S, oscillator (ω2 A.ts A.w) (γ A.ts A.g) y y' y'' x = 0) ∧ y A.ti = A.x0 ∧ y' A.ti = A.dx0 ∧
    r.sol.head? = some (some (y A.ti)) ∧ r.dsol.head? = some (some (y' A.ti)) ∧
    r.x_eval = A.t_eval.map fun l => l.map fun x => some (y x)

/-- The spectrum `|u|² · norm` at the requested points, for a mode `u` that solves the equation and starts in the state `v`. -/
def IsModeSpectrum (S : Set ℝ) (ω2 γ : ℝ → ℝ) (ti : ℝ) (v : ℂ × ℂ) (norm : ℝ) (xs : List ℝ) (P : List (Option ℝ)) : Prop :=
  ∃ u u' u'' : ℝ → ℂ, Twice S u u' u'' ∧ (∀ x ∈ S, oscillator ω2 γ u u' u'' x = 0) ∧ u ti = v.1 ∧ u' ti = v.2 ∧
    P = xs.map fun x => some (‖u x‖ ^ 2 * norm)

variable {S : Set ℝ} {ω2 : List ℝ → List ℂ → ℝ → ℝ} {γ : List ℝ → List ℝ → ℝ → ℝ}

theorem combine_spectrum {osc : Oscode} (hex : Exact osc S ω2 γ) {m : Mode} {v : ℂ × ℂ} {one two : OscSol} {A1 A2 : OscArgs}
    (h1 : osc A1 = .ok one) (h2 : osc A2 = .ok two) (hts : A2.ts = A1.ts) (hw : A2.w = A1.w) (hg : A2.g = A1.g)
    (hti : A2.ti = A1.ti) (hev : A2.t_eval = A1.t_eval) (hy : A1.x0 * A2.dx0 - A1.dx0 * A2.x0 ≠ 0) {xs : List ℝ}
    (hxs : A1.t_eval = some xs) {P : Option ℝ} {Pe : Option (List (Option ℝ))} (h : combine m (some v) one two = .ok (P, Pe)) :
    ∃ l, Pe = some l ∧ IsModeSpectrum S (ω2 A1.ts A1.w) (γ A1.ts A1.g) A1.ti v m.pps_norm xs l := by
  obtain ⟨y, y', y'', t1, o1, i1, i1', s1, d1, e1⟩ := hex A1 one h1
  obtain ⟨z, z', z'', t2, o2, i2, i2', s2, d2, e2⟩ := hex A2 two h2
  rw [hts, hw, hg] at o2
  rw [hti] at i2 i2' s2 d2
  rw [hev] at e2
  rw [hxs, Option.map_some] at e1 e2
  have hW : y A1.ti * z' A1.ti - y' A1.ti * z A1.ti ≠ 0 := by
    rw [i1, i1', i2, i2']
    intro hc
    apply hy
    exact_mod_cast hc
  obtain ⟨a, b, hab, ha, hb, -⟩ := C47_solves v.1 v.2 _ _ _ _ hW
  have hab' : ab (some v) one two = .ok (some a, some b) := by
    unfold ab
    rw [s1, d1, s2, d2]
    exact congrArg _ hab
  unfold combine at h
  rw [hab', e1, e2] at h
  dsimp only [Option.bind, Option.map] at h
  rw [Except.ok.injEq, Prod.mk.injEq] at h
  refine ⟨_, h.2.symm, fun x => a * y x + b * z x, fun x => a * y' x + b * z' x, fun x => a * y'' x + b * z'' x, ⟨?_, ?_⟩, ?_,
    ha, hb, ?_⟩
  · exact fun x hx => ((t1.first x hx).const_mul a).add ((t2.first x hx).const_mul b)
  · exact fun x hx => ((t1.second x hx).const_mul a).add ((t2.second x hx).const_mul b)
  · intro x hx
    have p1 := o1 x hx
    have p2 := o2 x hx
    unfold oscillator at p1 p2 ⊢
    linear_combination a * p1 + b * p2
  · rw [List.zipWith_map, List.zipWith_self]
    apply List.map_congr_left
    intro x _
    rfl

/-- **C47, through the API.**  `solve_oscode` for one wavenumber with dense output, any background, wavenumber, index range and
initial data `y0` of two independent solutions; exact integrator.  For every requested vacuum, scalar and tensor, whose
state is finite, the dense spectrum is `|u|²` times the normalisation, for a mode `u` that solves the mode equation and
starts in exactly that vacuum state, at the first point of the range. -/
theorem C47_dense {osc : Oscode} (hex : Exact osc S ω2 γ) {b : Bg} {kw : OscKw} {k : ℝ} {r : ModeSpectra}
    (h : solveOscode1 osc b k kw = .ok r) (y : ℝ × ℝ × ℝ × ℝ) (hy0 : kw.y0.getD b.perturbation_ic = y)
    (hy : y.1 * y.2.2.2 - y.2.1 * y.2.2.1 ≠ 0) {vac : String} (hvac : vac ∈ kw.vacuum) (hx : 0 < kw.num_eval) :
    ∃ s t beg stop pb xs vs vt, modes b k = some (s, t) ∧ b.pts[beg]? = some pb ∧ xEval b kw.num_eval beg stop = some xs ∧
      s.vacuum vac = some vs ∧ t.vacuum vac = some vt ∧
      (∀ v, vs pb = some v → ∃ l, r.P_s_eval.get? vac = some (some l) ∧
        IsModeSpectrum S (ω2 ((slice b.pts beg stop).map (·.x)) ((slice b.pts beg stop).map fun p => csqrt (s.frequency2 p)))
          (γ ((slice b.pts beg stop).map (·.x)) ((slice b.pts beg stop).map s.damping)) pb.x v (k ^ 3 / (2 * π ^ 2)) xs l) ∧
      (∀ v, vt pb = some v → ∃ l, r.P_t_eval.get? vac = some (some l) ∧
        IsModeSpectrum S (ω2 ((slice b.pts beg stop).map (·.x)) ((slice b.pts beg stop).map fun p => csqrt (t.frequency2 p)))
          (γ ((slice b.pts beg stop).map (·.x)) ((slice b.pts beg stop).map t.damping)) pb.x v (k ^ 3 / (2 * π ^ 2) * 2) xs l) := by
  have h' : oneMode osc b kw k = .ok r := by
    unfold solveOscode1 at h
    split at h
    · cases h
    next m hm =>
    split at h
    · cases h
    · cases h; exact hm
  obtain ⟨stop, s, t, pb, pe, s1, s2, t1, t2, Ps, hstop, hm, hb, he, hruns, hs, ht, -⟩ := oneMode_ok h'
  obtain ⟨c1, c2, c3, c4⟩ := hruns y hy0.symm
  obtain ⟨xs, hxs⟩ : ∃ xs, xEval b kw.num_eval (idxBeg b kw.fac_beg k) stop = some xs := by
    unfold xEval
    rw [if_pos hx, hb, he]
    dsimp only
    split <;> exact ⟨_, rfl⟩
  obtain ⟨vs, P, Pe, hvs, hcs, -, hgs⟩ := (combineAll_get hs).1 vac hvac
  obtain ⟨vt, P', Pe', hvt, hct, -, hgt⟩ := (combineAll_get ht).1 vac hvac
  have hnorm : s.pps_norm = k ^ 3 / (2 * π ^ 2) ∧ t.pps_norm = k ^ 3 / (2 * π ^ 2) * 2 := by
    unfold modes at hm
    split at hm <;> cases hm <;> exact ⟨rfl, rfl⟩
  refine ⟨s, t, _, stop, pb, xs, vs, vt, hm, hb, hxs, hvs, hvt, ?_, ?_⟩
  · intro v hv
    rw [hv] at hcs
    obtain ⟨l, hl, hsp⟩ := combine_spectrum hex c1 c2 rfl rfl rfl rfl rfl hy hxs hcs
    rw [hnorm.1] at hsp
    exact ⟨l, by rw [hgs, hl], hsp⟩
  · intro v hv
    rw [hv] at hct
    obtain ⟨l, hl, hsp⟩ := combine_spectrum hex c3 c4 rfl rfl rfl rfl rfl hy hxs hct
    rw [hnorm.2] at hsp
    exact ⟨l, by rw [hgt, hl], hsp⟩

/-- The default initial data `(1, 0, 0, 1)` of the two solutions is independent. -/
example : (1 : ℝ) * 1 - 0 * 0 ≠ 0 := by norm_num

/-- Hypotheses met: an exact solver of the case `ω² = γ = 0` (straight lines), and a run of `solve_oscode` with dense output. -/
example : ∃ osc : Oscode, Exact osc Set.univ (fun _ _ _ => 0) (fun _ _ _ => 0) ∧
    ∃ r, solveOscode1 osc (demoBg 0) 1 { vacuum := ["k", "RST"], num_eval := 3 } = .ok r := by
  refine ⟨fun A => .ok ⟨[some A.x0], [some A.dx0], A.t_eval.map fun l => l.map fun x => some (A.x0 + A.dx0 * (x - A.ti : ℝ) : ℂ)⟩, ?_,
    ?_⟩
  · intro A r h
    cases h
    refine ⟨fun x => A.x0 + A.dx0 * (x - A.ti : ℝ), fun _ => A.dx0, fun _ => 0, ⟨fun x _ => ?_, fun x _ => hasDerivAt_const _ _⟩,
      fun x _ => by simp [oscillator], by simp, rfl, by simp, rfl, rfl⟩
    have h1 : HasDerivAt (fun x : ℝ => ((x - A.ti : ℝ) : ℂ)) ((1 : ℝ) : ℂ) x :=
      HasDerivAt.ofReal_comp ((hasDerivAt_id x).sub_const A.ti)
    have h2 := (h1.const_mul (A.dx0 : ℂ)).const_add (A.x0 : ℂ)
    simpa using h2
  · have hb : idxBeg (demoBg 0) 0 1 = 0 := if_pos rfl
    rw [single_eq]
    unfold oneMode
    dsimp only
    rw [hb, demo_idxEnd 0 1 (by norm_num) le_rfl]
    simp [modes, demoBg, runs, oscCall, pick, combineAll, byName, combine, ab, bind, Except.bind, pure, Except.pure]

end Pert
end Primpy
