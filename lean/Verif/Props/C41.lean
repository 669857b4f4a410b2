import Verif.Props.C40
import Mathlib.Analysis.Calculus.IteratedDeriv.Lemmas
import Mathlib.Topology.Order.IntermediateValue
import Mathlib.LinearAlgebra.Lagrange

/-!
# C41: the pivot parameters, and `set_ns`
-/

namespace Primpy
open Real
namespace Approx

variable {κ : Type} (u : SI) (spline : κ → List (ℝ × ℝ) → ℝ → ℝ) (sr : SlowRoll)

/-! ### The pivot parameters -/

/-- The parameters of a power spectrum pair `P_s`, `P_t` at the pivot scale `k_*`: amplitudes, and derivatives of
`ln P` with respect to `ln k`. -/
structure PivotParameters (Ps Pt : ℝ → ℝ) (P : PowerParams) : Prop where
  A_s : P.A_s = Ps SI.K_STAR
  A_t : P.A_t = Pt SI.K_STAR
  r : P.r = Pt SI.K_STAR / Ps SI.K_STAR
  n_s : P.n_s - 1 = iteratedDeriv 1 (fun x => log (Ps (exp x))) (log SI.K_STAR)
  n_run : P.n_run = iteratedDeriv 2 (fun x => log (Ps (exp x))) (log SI.K_STAR)
  n_runrun : P.n_runrun = iteratedDeriv 3 (fun x => log (Ps (exp x))) (log SI.K_STAR)
  n_t : P.n_t = iteratedDeriv 1 (fun x => log (Pt (exp x))) (log SI.K_STAR)

theorem params_pivot (S : Spectrum) :
    PivotParameters (valueOf S Spectrum.s) (valueOf S Spectrum.t) (params S) := by
  have hs : (fun x => log (valueOf S Spectrum.s (exp x))) = S.s := by
    funext x; simp [valueOf]
  have ht : (fun x => log (valueOf S Spectrum.t (exp x))) = S.t := by
    funext x; simp [valueOf]
  constructor
  · rfl
  · rfl
  · rfl
  · rw [hs]; simp [params]
  · rw [hs]; rfl
  · rw [hs]; rfl
  · rw [ht]; rfl

/-- A calibration that returned has data for its spectra. -/
theorem gridOf_calibrate {s s' : CalState} {a : CalArgs} (h : Cal.calibrate u s a = .ok s') :
    ∃ g, gridOf sr s' = some g := by
  by_cases hK : s.K = 0
  · obtain ⟨p, -, rfl⟩ := Cal.calibrate_flat hK h
    exact ⟨_, rfl⟩
  · obtain ⟨p, -, rfl⟩ := Cal.calibrate_curved hK h
    exact ⟨_, rfl⟩

theorem derive_current (m : String) (o : ℕ) (kw : κ) (g : Grid) (c : Caches) {S : Spectrum}
    (hS : named spline m o kw g = some S) : (derive spline m kw o g c).current = some S := by
  unfold named at hS
  unfold derive
  split_ifs at hS with h1 h2 h3 h4 h5 h6
  · rw [if_pos h1]; simpa [deriveCGS, h2] using hS
  · rw [if_neg h1, if_pos h3]; simpa [deriveLLMS] using hS
  · rw [if_neg h1, if_neg h3, if_pos h4]; simpa [deriveSTE] using hS
  · rw [if_neg h1, if_neg h3, if_neg h4, if_pos h5]
    simpa [deriveARBDS, h6] using hS

/-- **C41, parameters.**  After a calibration with a known method and order, `A_s`, `A_t`, `r` are the pivot values
of exactly that spectrum for exactly that calibration, and `n_s`, `n_run`, `n_runrun`, `n_t` the logarithmic
derivatives of its scalar and tensor parts; and the later request for this method returns the same spectrum. -/
theorem C41_parameters (p q : PSol) (a : CalArgs) (m : String) (o : ℕ) (kw : κ) (hb : a.background = none)
    (hm : ∀ g, (named spline m o kw g).isSome) (hok : calibrateP u spline sr p a m kw o = .ok q) :
    ∃ g S P, gridOf sr q.st = some g ∧ named spline m o kw g = some S ∧ q.pars = some P ∧
      PivotParameters (valueOf S Spectrum.s) (valueOf S Spectrum.t) P ∧
      ∀ pick k, answer spline (g, q.caches) pick m o kw k = .ok (valueOf S pick k) := by
  unfold calibrateP at hok
  cases hc : Cal.calibrate u p.st a with
  | error e => rw [hc] at hok; cases hok
  | ok s =>
    rw [hc] at hok
    simp only [hb, Option.isSome_none, Bool.false_eq_true, if_false] at hok
    unfold deriveP at hok
    obtain ⟨g, hg⟩ := gridOf_calibrate u sr hc
    obtain ⟨S, hS⟩ := Option.isSome_iff_exists.1 (hm g)
    rw [hg] at hok
    dsimp only at hok
    rw [derive_current spline m o kw g p.caches hS] at hok
    simp only [Except.ok.injEq] at hok
    subst hok
    refine ⟨g, S, _, hg, hS, rfl, params_pivot S, fun pick k => ?_⟩
    unfold named at hS
    dsimp only
    split_ifs at hS with h1 h2 h3 h4 h5 h6
    · subst h1
      simp only [Option.some.injEq] at hS
      simp [answer, evalP, h2, derive, deriveCGS, evalAttr, valueOf, ← hS]
    · subst h3
      simp only [Option.some.injEq] at hS
      simp [answer, evalP, derive, deriveLLMS, evalAttr, valueOf, ← hS]
    · subst h4
      simp only [Option.some.injEq] at hS
      simp [answer, evalP, derive, deriveSTE, evalAttr, valueOf, ← hS]
    · subst h5
      simp only [Option.some.injEq] at hS
      simp [answer, evalP, h6, deriveARBDS, evalAttr, valueOf, ← hS]

/-- **C41, copied background.**  A calibration that copies a background derives no spectra: all spectra attributes and pivot parameters stay what they were. -/
theorem C41_background (p q : PSol) (a : CalArgs) (m : String) (o : ℕ) (kw : κ) (hb : a.background ≠ none)
    (hok : calibrateP u spline sr p a m kw o = .ok q) :
    q.caches = p.caches ∧ q.pars = p.pars ∧ Cal.calibrate u p.st a = .ok q.st := by
  unfold calibrateP at hok
  cases hc : Cal.calibrate u p.st a with
  | error e => rw [hc] at hok; cases hok
  | ok s =>
    rw [hc] at hok
    dsimp only at hok
    rw [if_pos (Option.isSome_iff_ne_none.2 hb)] at hok
    simp only [Except.ok.injEq] at hok
    subst hok
    exact ⟨rfl, rfl, rfl⟩

/-! ### LLMS: the parameters are the slow-roll expressions -/

/-- Contract of a cubic interpolating spline: data on a cubic polynomial (at least four distinct abscissae) are
continued by that polynomial between the data points. -/
def ReproducesCubics (spline : κ → List (ℝ × ℝ) → ℝ → ℝ) (kw : κ) : Prop :=
  ∀ (l : List (ℝ × ℝ)) (c0 c1 c2 c3 : ℝ), 4 ≤ l.length → (l.map Prod.fst).Nodup →
    (∀ q ∈ l, q.2 = c0 + c1 * q.1 + c2 * q.1 ^ 2 + c3 * q.1 ^ 3) →
    ∀ x, (∃ q ∈ l, q.1 ≤ x) → (∃ q ∈ l, x ≤ q.1) → spline kw l x = c0 + c1 * x + c2 * x ^ 2 + c3 * x ^ 3

theorem deriv_quad (c0 c1 c2 X : ℝ) :
    iteratedDeriv 1 (fun x : ℝ => c0 + c1 * (x - X) + c2 / 2 * (x - X) ^ 2) X = c1 ∧
    iteratedDeriv 2 (fun x : ℝ => c0 + c1 * (x - X) + c2 / 2 * (x - X) ^ 2) X = c2 ∧
    iteratedDeriv 3 (fun x : ℝ => c0 + c1 * (x - X) + c2 / 2 * (x - X) ^ 2) X = 0 := by
  have d1 : deriv (fun x : ℝ => c0 + c1 * (x - X) + c2 / 2 * (x - X) ^ 2) = fun x => c1 + c2 * (x - X) := by
    funext x
    have h := ((((hasDerivAt_id x).sub_const X).const_mul c1).const_add c0).add
      ((((hasDerivAt_id x).sub_const X).pow 2).const_mul (c2 / 2))
    refine (HasDerivAt.congr_deriv (h.congr_of_eventuallyEq (Filter.Eventually.of_forall fun y => ?_)) ?_).deriv
    · simp
    · simp; ring
  have d2 : deriv (fun x : ℝ => c1 + c2 * (x - X)) = fun _ => c2 := by
    funext x
    have h := (((hasDerivAt_id x).sub_const X).const_mul c2).const_add c1
    refine (HasDerivAt.congr_deriv (h.congr_of_eventuallyEq (Filter.Eventually.of_forall fun y => ?_)) ?_).deriv
    · simp
    · simp
  refine ⟨?_, ?_, ?_⟩
  · rw [iteratedDeriv_one, d1]; simp
  · rw [iteratedDeriv_succ', d1, iteratedDeriv_one, d2]
  · rw [iteratedDeriv_succ', d1, iteratedDeriv_succ', d2, iteratedDeriv_one]; simp

/-- The spline through a quadratic log-spectrum agrees with it around an interior point. -/
theorem spline_quad {kw : κ} (hr : ReproducesCubics spline kw) (pts : List (ℝ × SRPoint)) (c0 c1 c2 X : ℝ)
    (hl : 4 ≤ pts.length) (hn : (pts.map Prod.fst).Nodup) (hlo : ∃ q ∈ pts, q.1 < X) (hhi : ∃ q ∈ pts, X < q.1) :
    spline kw (pts.map fun q => (q.1, c0 + c1 * (q.1 - X) + c2 / 2 * (q.1 - X) ^ 2)) =ᶠ[nhds X]
      fun x => c0 + c1 * (x - X) + c2 / 2 * (x - X) ^ 2 := by
  obtain ⟨a, ha, haX⟩ := hlo
  obtain ⟨b, hb, hXb⟩ := hhi
  filter_upwards [Ioo_mem_nhds haX hXb] with x hx
  rw [hr _ (c0 - c1 * X + c2 / 2 * X ^ 2) (c1 - c2 * X) (c2 / 2) 0 (by simpa using hl)
    (by simpa [List.map_map, Function.comp_def] using hn) ?_ x ?_ ?_]
  · ring
  · intro q hq
    obtain ⟨w, -, rfl⟩ := List.mem_map.1 hq
    dsimp only
    ring
  · exact ⟨_, List.mem_map.2 ⟨a, ha, rfl⟩, hx.1.le⟩
  · exact ⟨_, List.mem_map.2 ⟨b, hb, rfl⟩, hx.2.le⟩

/-- **C41, LLMS parameters.**  With a spline that reproduces cubics, a calibration with `method='LLMS'` reports exactly
the Leach-Liddle-Martin-Schwarz expressions at horizon crossing of the pivot scale: tilt, running, no running of the
running, tensor tilt, and the amplitudes. -/
theorem C41_LLMS {kw : κ} (hr : ReproducesCubics spline kw) (g : Grid) (hl : 4 ≤ g.pts.length)
    (hn : (g.pts.map Prod.fst).Nodup) (hlo : ∃ q ∈ g.pts, q.1 < log SI.K_STAR) (hhi : ∃ q ∈ g.pts, log SI.K_STAR < q.1)
    (hH : g.star.H ≠ 0) (he : 0 < g.star.e1) :
    (params (specLLMS spline kw g)).n_s = llms_ns g.star ∧
    (params (specLLMS spline kw g)).n_run = llms_nsrun g.star ∧
    (params (specLLMS spline kw g)).n_runrun = 0 ∧
    (params (specLLMS spline kw g)).n_t = llms_nt g.star ∧
    (params (specLLMS spline kw g)).A_s = g.star.H ^ 2 / (8 * π ^ 2 * g.star.e1) * exp (bs0 g.star) ∧
    (params (specLLMS spline kw g)).A_t = 2 * g.star.H ^ 2 / π ^ 2 * exp (bt0 g.star) ∧
    (params (specLLMS spline kw g)).r = 16 * g.star.e1 * exp (bt0 g.star - bs0 g.star) := by
  have hS : (specLLMS spline kw g).s =ᶠ[nhds (log SI.K_STAR)] fun x => (log (Ps0 g.star) + bs0 g.star)
      + (llms_ns g.star - 1) * (x - log SI.K_STAR) + llms_nsrun g.star / 2 * (x - log SI.K_STAR) ^ 2 := by
    have := spline_quad spline hr g.pts (log (Ps0 g.star) + bs0 g.star) (llms_ns g.star - 1) (llms_nsrun g.star)
      (log SI.K_STAR) hl hn hlo hhi
    simpa [specLLMS, fit, List.map_map, Function.comp_def, llmsS] using this
  have hT : (specLLMS spline kw g).t =ᶠ[nhds (log SI.K_STAR)] fun x => (log (Pt0 g.star) + bt0 g.star)
      + llms_nt g.star * (x - log SI.K_STAR) + llms_ntrun g.star / 2 * (x - log SI.K_STAR) ^ 2 := by
    have := spline_quad spline hr g.pts (log (Pt0 g.star) + bt0 g.star) (llms_nt g.star) (llms_ntrun g.star)
      (log SI.K_STAR) hl hn hlo hhi
    simpa [specLLMS, fit, List.map_map, Function.comp_def, llmsT] using this
  have hPs : 0 < Ps0 g.star := by unfold Ps0; positivity
  have hPt : 0 < Pt0 g.star := by unfold Pt0; positivity
  have eS : exp ((specLLMS spline kw g).s (log SI.K_STAR)) = Ps0 g.star * exp (bs0 g.star) := by
    rw [hS.self_of_nhds]
    simp [exp_add, exp_log hPs]
  have eT : exp ((specLLMS spline kw g).t (log SI.K_STAR)) = Pt0 g.star * exp (bt0 g.star) := by
    rw [hT.self_of_nhds]
    simp [exp_add, exp_log hPt]
  obtain ⟨q1, q2, q3⟩ := deriv_quad (log (Ps0 g.star) + bs0 g.star) (llms_ns g.star - 1) (llms_nsrun g.star) (log SI.K_STAR)
  obtain ⟨t1, -, -⟩ := deriv_quad (log (Pt0 g.star) + bt0 g.star) (llms_nt g.star) (llms_ntrun g.star) (log SI.K_STAR)
  refine ⟨?_, ?_, ?_, ?_, ?_, ?_, ?_⟩
  · simp only [params]; rw [hS.iteratedDeriv_eq 1, q1]; ring
  · simp only [params]; rw [hS.iteratedDeriv_eq 2, q2]
  · simp only [params]; rw [hS.iteratedDeriv_eq 3, q3]
  · simp only [params]; rw [hT.iteratedDeriv_eq 1, t1]
  · simp only [params]; rw [eS]; rfl
  · simp only [params]; rw [eT]; unfold Pt0; ring
  · simp only [params]; rw [eS, eT, exp_sub]; unfold Ps0 Pt0
    have : exp (bs0 g.star) ≠ 0 := (exp_pos _).ne'
    field_simp
    ring

open Polynomial in
/-- The contract can be met: Lagrange interpolation. -/
theorem reproducesCubics_lagrange (kw : κ) : ReproducesCubics (fun (_ : κ) (l : List (ℝ × ℝ)) x =>
    Polynomial.eval x (Lagrange.interpolate (Finset.univ : Finset (Fin l.length)) (fun i => (l.get i).1)
      (fun i => (l.get i).2))) kw := by
  intro l c0 c1 c2 c3 hl hn hq x _ _
  dsimp only
  rw [← Lagrange.eq_interpolate_of_eval_eq (f := Polynomial.C c0 + Polynomial.C c1 * X + Polynomial.C c2 * X ^ 2 + Polynomial.C c3 * X ^ 3)]
  · simp
  · intro i _ j _ hij
    have := (List.nodup_iff_injective_get.1 hn)
    have h := @this ⟨i, by simp⟩ ⟨j, by simp⟩ (by simpa using hij)
    simpa [Fin.ext_iff] using h
  · refine lt_of_le_of_lt (b := ((3 : ℕ) : WithBot ℕ)) ?_ ?_
    · compute_degree
      rfl
    · rw [Finset.card_univ, Fintype.card_fin]
      exact_mod_cast hl
  · intro i _
    simp only [eval_add, eval_mul, eval_C, eval_X, eval_pow]
    exact (hq _ (List.get_mem l i)).symm

/-! ### `set_ns` -/

/-- The objective on the fresh solution `s0`: `n_s(N_star) - n_s`, or the exception raised. -/
noncomputable def nsDev (kw : κ) (n_s : ℝ) (s0 : CalState) (x : ℝ) : Except PyErr ℝ :=
  (nsObjective u spline sr kw n_s ⟨s0, Caches.empty, none⟩ x).map Prod.snd

/-- No in-inflation grid point repeats the `aH` of an earlier grid point. -/
def SimpleGrid (s0 : CalState) : Prop :=
  ∀ I, s0.infl = some I → I.mask.length = s0.logaH.length ∧
    ∀ i : ℕ, I.mask[i]? = some true → ∀ j < i, s0.logaH[j]? ≠ s0.logaH[i]?

/-- The final state of a calibration with the default spectrum settings. -/
theorem calibrateP_CGS {p : PSol} {a : CalArgs} {s : CalState} (kw : κ) (hb : a.background = none)
    (hc : Cal.calibrate u p.st a = .ok s) : ∃ g q, gridOf sr s = some g ∧
    calibrateP u spline sr p a "CGS" kw 3 = .ok q ∧ q.st = s ∧ q.pars = some (params (specCGS spline kw 3 g)) := by
  obtain ⟨g, hg⟩ := gridOf_calibrate u sr hc
  refine ⟨g, ⟨s, deriveCGS spline kw 3 g p.caches, some (params (specCGS spline kw 3 g))⟩, hg, ?_, rfl, rfl⟩
  unfold calibrateP
  rw [hc]
  simp [hb, deriveP, hg, derive, deriveCGS]

theorem gridOf_congr {s t : CalState} (h1 : s.cal = t.cal) (h2 : s.infl = t.infl) : gridOf sr s = gridOf sr t := by
  unfold gridOf; rw [h1, h2]

/-- The objective does not depend on what was done to the solution before. -/
theorem nsObjective_history (kw : κ) (n_s : ℝ) {s0 : CalState} (hg : SimpleGrid s0) (p : PSol)
    (hist : CalHistory u s0 p.st) (x : ℝ) :
    (∀ e, nsObjective u spline sr kw n_s p x = .error e ↔ nsDev u spline sr kw n_s s0 x = .error e) ∧
    ∀ q d, nsObjective u spline sr kw n_s p x = .ok (q, d) →
      nsDev u spline sr kw n_s s0 x = .ok d ∧ CalHistory u s0 q.st := by
  obtain ⟨h1, h2, h3⟩ := C39_history_partial u s0 p.st { method := "N_star", N_star := some x } hist (fun _ => hg)
  unfold nsDev nsObjective
  cases hc : Cal.calibrate u s0 { method := "N_star", N_star := some x } with
  | error e0 =>
    have hp := (h1 e0).2 hc
    unfold calibrateP
    dsimp only
    rw [hp, hc]
    dsimp only [Except.map]
    exact ⟨fun e => by simp, fun q d h => by cases h⟩
  | ok t0 =>
    obtain ⟨t, ht⟩ := h2.2 ⟨t0, hc⟩
    obtain ⟨k1, k2, -⟩ := h3 t t0 ht hc
    obtain ⟨g, q, e1, e2, e3, e4⟩ := calibrateP_CGS u spline sr (p := p) kw rfl ht
    obtain ⟨g', q', e1', e2', e3', e4'⟩ := calibrateP_CGS u spline sr (p := ⟨s0, Caches.empty, none⟩) kw rfl hc
    have hgg : g = g' := by
      rw [gridOf_congr sr k1 k2, e1'] at e1
      exact (Option.some.inj e1).symm
    rw [e2, e2']
    dsimp only
    rw [e4, e4', hgg]
    dsimp only [Except.map]
    refine ⟨fun e => by simp, fun q1 d h => ?_⟩
    simp only [Except.ok.injEq, Prod.mk.injEq] at h
    obtain ⟨rfl, rfl⟩ := h
    refine ⟨rfl, ?_⟩
    rw [e3]
    exact .returned _ hist (by intro b I hb; cases hb) ht

theorem interpSorted_between : ∀ (l : List (ℝ × ℝ)) (p : ℝ × ℝ) (x2 x y2 : ℝ), interpSorted (p :: l) x2 = .ok y2 →
    p.1 ≤ x → x ≤ x2 → ∃ y, interpSorted (p :: l) x = .ok y := by
  intro l
  induction l with
  | nil => intro p x2 x y2 h; simp [interpSorted] at h
  | cons q l ih =>
    intro p x2 x y2 h hp hx
    rw [interpSorted] at h ⊢
    rw [if_neg (by linarith)] at h
    rw [if_neg (by linarith)]
    by_cases hq : x ≤ q.1
    · rw [if_pos hq]; exact ⟨_, rfl⟩
    · rw [if_neg hq]
      rw [if_neg (by linarith)] at h
      exact ih q x2 x y2 h (le_of_not_ge hq) hx

theorem interpL_between {xs ys : List ℝ} {x1 x2 x y1 y2 : ℝ} (h1 : interpL xs ys x1 = .ok y1)
    (h2 : interpL xs ys x2 = .ok y2) (hx1 : x1 ≤ x) (hx2 : x ≤ x2) : ∃ y, interpL xs ys x = .ok y := by
  unfold interpL at *
  cases hl : (xs.zip ys).insertionSort (fun a b => a.1 ≤ b.1) with
  | nil => rw [hl] at h1; simp [interpSorted] at h1
  | cons p l =>
    rw [hl] at h1 h2
    refine interpSorted_between l p x2 x y2 h2 ?_ hx2
    cases l with
    | nil => simp [interpSorted] at h1
    | cons q l =>
      rw [interpSorted] at h1
      split_ifs at h1 with h
      · linarith
      · linarith

/-- A flat solution that can be calibrated with `N_star = lo` and `N_star = hi` can be calibrated with any
`N_star` in between, with or without a reheating density. -/
theorem calibrate_between {s : CalState} (hK : s.K = 0) {lo hi x : ℝ} {s1 s2 : CalState} (hx : x ∈ Set.uIcc lo hi)
    (h1 : Cal.calibrate u s { method := "N_star", N_star := some lo } = .ok s1)
    (h2 : Cal.calibrate u s { method := "N_star", N_star := some hi } = .ok s2) (rho : Option ℝ) :
    ∃ t c, Cal.calibrate u s { method := "N_star", N_star := some x, rho_reh_GeV := rho } = .ok t ∧
      t.cal = some c ∧ c.N_star = x := by
  obtain ⟨p1, q1, -⟩ := Cal.calibrate_flat hK h1
  obtain ⟨-, ns1, nc1, ls1, δ1, nr1, I1, st1, hs1, -⟩ := Cal.flat_ok q1
  obtain ⟨p2, q2, -⟩ := Cal.calibrate_flat hK h2
  obtain ⟨-, ns2, nc2, ls2, δ2, nr2, I2, st2, hs2, -⟩ := Cal.flat_ok q2
  unfold Cal.flatSel at hs1 hs2
  dsimp only at hs1 hs2
  rw [if_pos rfl] at hs1 hs2
  obtain ⟨e1, pos1, i1, t1, c1, j1, -⟩ := Cal.flatNstar_ok hs1
  obtain ⟨e2, pos2, i2, t2, c2, j2, -⟩ := Cal.flatNstar_ok hs2
  cases e1
  cases e2
  rw [i1] at i2
  cases i2
  obtain ⟨ls, hls⟩ : ∃ y, interpL (maskSel s.N I1.mask) (maskSel s.logaH I1.mask) (I1.N_end - x) = .ok y := by
    rw [c1] at j1
    rw [c2] at j2
    rcases Set.mem_uIcc.1 hx with ⟨a, b⟩ | ⟨a, b⟩
    · exact interpL_between j2 j1 (by linarith) (by linarith)
    · exact interpL_between j1 j2 (by linarith) (by linarith)
  have hpos : 0 < x := by
    rcases Set.mem_uIcc.1 hx with ⟨a, b⟩ | ⟨a, b⟩ <;> linarith
  have hle : x ≤ I1.N_tot := by
    rcases Set.mem_uIcc.1 hx with ⟨a, b⟩ | ⟨a, b⟩ <;> linarith
  have hsel : ∃ nc δ nr I st, Cal.flatSel u s { method := "N_star", N_star := some x, rho_reh_GeV := rho } =
      .ok (x, nc, ls, δ, nr, I, st) := by
    unfold Cal.flatSel
    dsimp only
    rw [if_pos rfl]
    unfold Cal.flatNstar
    dsimp only
    rw [if_neg (not_le.2 hpos), i1]
    dsimp only
    rw [if_neg (not_lt.2 hle), hls]
    dsimp only
    cases rho with
    | none => exact ⟨_, _, _, _, _, rfl⟩
    | some r => exact ⟨_, _, _, _, _, rfl⟩
  obtain ⟨nc, δ, nr, I, st, hsel⟩ := hsel
  exact ⟨_, _, Cal.calibrate_flat_intro hK rfl hsel, rfl, rfl⟩

/-- The calibration does not depend on the reheating density except for the reheating attributes: same grid, same
pivot crossing. -/
theorem grid_rho {s : CalState} (hK : s.K = 0) {x : ℝ} {t t' : CalState} {rho : Option ℝ}
    (h : Cal.calibrate u s { method := "N_star", N_star := some x } = .ok t)
    (h' : Cal.calibrate u s { method := "N_star", N_star := some x, rho_reh_GeV := rho } = .ok t') :
    gridOf sr t' = gridOf sr t := by
  obtain ⟨p1, q1, rfl⟩ := Cal.calibrate_flat hK h
  obtain ⟨-, ns1, nc1, ls1, δ1, nr1, I1, st1, hs1, rfl⟩ := Cal.flat_ok q1
  obtain ⟨p2, q2, rfl⟩ := Cal.calibrate_flat hK h'
  obtain ⟨-, ns2, nc2, ls2, δ2, nr2, I2, st2, hs2, rfl⟩ := Cal.flat_ok q2
  unfold Cal.flatSel at hs1 hs2
  dsimp only at hs1 hs2
  rw [if_pos rfl] at hs1 hs2
  obtain ⟨e1, pos1, i1, t1, c1, j1, -⟩ := Cal.flatNstar_ok hs1
  obtain ⟨e2, pos2, i2, t2, c2, j2, -⟩ := Cal.flatNstar_ok hs2
  cases e1
  cases e2
  rw [i1] at i2
  cases i2
  subst c1 c2
  rw [j1] at j2
  cases j2
  rfl

/-- Whatever points are probed inside the bracket, the solution stays a history of the fresh one. -/
theorem nsProbe_ok (kw : κ) (n_s : ℝ) {s0 : CalState} (hK : s0.K = 0) (hg : SimpleGrid s0) {lo hi : ℝ}
    {s1 s2 : CalState}
    (h1 : Cal.calibrate u s0 { method := "N_star", N_star := some lo } = .ok s1)
    (h2 : Cal.calibrate u s0 { method := "N_star", N_star := some hi } = .ok s2) :
    ∀ (xs : List ℝ) (p : PSol), CalHistory u s0 p.st → (∀ x ∈ xs, x ∈ Set.uIcc lo hi) →
      ∃ q, nsProbe u spline sr kw n_s p xs = .ok q ∧ CalHistory u s0 q.st := by
  intro xs
  induction xs with
  | nil => intro p hp _; exact ⟨p, rfl, hp⟩
  | cons x xs ih =>
    intro p hp hx
    obtain ⟨t, c, ht, -⟩ := calibrate_between u hK (hx x (List.mem_cons_self ..)) h1 h2 none
    obtain ⟨a1, a2⟩ := nsObjective_history u spline sr kw n_s hg p hp x
    cases ho : nsObjective u spline sr kw n_s p x with
    | error e =>
      have := (a1 e).1 ho
      unfold nsDev nsObjective at this
      obtain ⟨g', q', e1', e2', e3', e4'⟩ := calibrateP_CGS u spline sr (p := ⟨s0, Caches.empty, none⟩) kw rfl ht
      rw [e2'] at this
      dsimp only at this
      rw [e4'] at this
      cases this
    | ok r =>
      obtain ⟨q, d⟩ := r
      obtain ⟨-, hq⟩ := a2 q d ho
      unfold nsProbe
      rw [ho]
      exact ih q hq (fun y hy => hx y (List.mem_cons_of_mem _ hy))

theorem nsDev_ok {kw : κ} {n_s : ℝ} {s0 : CalState} {x d : ℝ} (h : nsDev u spline sr kw n_s s0 x = .ok d) :
    ∃ t g, Cal.calibrate u s0 { method := "N_star", N_star := some x } = .ok t ∧ gridOf sr t = some g ∧
      (params (specCGS spline kw 3 g)).n_s - n_s = d := by
  unfold nsDev nsObjective at h
  cases hc : Cal.calibrate u s0 { method := "N_star", N_star := some x } with
  | error e =>
    unfold calibrateP at h
    dsimp only at h
    rw [hc] at h
    cases h
  | ok t =>
    obtain ⟨g, q, e1, e2, e3, e4⟩ := calibrateP_CGS u spline sr (p := ⟨s0, Caches.empty, none⟩) kw rfl hc
    rw [e2] at h
    dsimp only at h
    rw [e4] at h
    dsimp only [Except.map] at h
    exact ⟨t, g, rfl, e1, Except.ok.inj h⟩

/-- Contract of `root_scalar` with a bracket: it probes points of the bracket, and if the objective does not have
the same strict sign at both ends, it returns a root inside the bracket. -/
def FindsRoots (f : ℝ → Except PyErr ℝ) (solver : PSol → ℝ → ℝ → List ℝ × ℝ) (lo hi : ℝ) : Prop :=
  ∀ p d1 d2, f lo = .ok d1 → f hi = .ok d2 → d1 * d2 ≤ 0 →
    (∀ x ∈ (solver p lo hi).1, x ∈ Set.uIcc lo hi) ∧ (solver p lo hi).2 ∈ Set.uIcc lo hi ∧
      f (solver p lo hi).2 = .ok 0

/-- **C41, `set_ns` succeeds.**  Flat solution, any earlier calibrations.  If the spectral indices at the two ends of the
`N_star` bracket are not strictly on the same side of the target, `set_ns` returns, and then the reported `n_s` is the
target, the solution is calibrated with an `N_star` inside the bracket, and `n_s` is the CGS (third order) tilt of that
calibration, whether or not a reheating density is given. -/
theorem C41_set_ns (kw : κ) (n_s lo hi : ℝ) (rho : Option ℝ) (s0 : CalState) (hK : s0.K = 0) (hg : SimpleGrid s0)
    (solver : PSol → ℝ → ℝ → List ℝ × ℝ) (hsolver : FindsRoots (nsDev u spline sr kw n_s s0) solver lo hi) (p : PSol)
    (hist : CalHistory u s0 p.st) (d1 d2 : ℝ) (h1 : nsDev u spline sr kw n_s s0 lo = .ok d1)
    (h2 : nsDev u spline sr kw n_s s0 hi = .ok d2) (hsign : d1 * d2 ≤ 0) :
    ∃ q c P g, setNs u spline sr kw solver n_s lo hi rho p = .ok q ∧ q.st.cal = some c ∧ q.pars = some P ∧
      P.n_s = n_s ∧ c.N_star ∈ Set.uIcc lo hi ∧ gridOf sr q.st = some g ∧
      P.n_s = (params (specCGS spline kw 3 g)).n_s := by
  have hKp : p.st.K = 0 := by rw [hist.same.K, hK]
  unfold setNs
  rw [if_neg (by simpa using hKp)]
  have obj : ∀ (p : PSol), CalHistory u s0 p.st → ∀ x d, nsDev u spline sr kw n_s s0 x = .ok d →
      ∃ q, nsObjective u spline sr kw n_s p x = .ok (q, d) ∧ CalHistory u s0 q.st := by
    intro p hp x d hd
    obtain ⟨a1, a2⟩ := nsObjective_history u spline sr kw n_s hg p hp x
    cases ho : nsObjective u spline sr kw n_s p x with
    | error e => have := (a1 e).1 ho; rw [hd] at this; cases this
    | ok r =>
      obtain ⟨q, d'⟩ := r
      obtain ⟨b1, b2⟩ := a2 q d' ho
      rw [hd] at b1
      cases b1
      exact ⟨q, rfl, b2⟩
  obtain ⟨q1, e1, hq1⟩ := obj p hist lo d1 h1
  obtain ⟨q2, e2, hq2⟩ := obj q1 hq1 hi d2 h2
  rw [e1]
  dsimp only
  rw [e2]
  dsimp only
  have n1 : ¬ (d1 + n_s > n_s ∧ d2 + n_s > n_s) := by
    rintro ⟨a, b⟩
    have : 0 < d1 * d2 := mul_pos (by linarith) (by linarith)
    linarith
  have n2 : ¬ (d1 + n_s < n_s ∧ d2 + n_s < n_s) := by
    rintro ⟨a, b⟩
    have : 0 < d1 * d2 := mul_pos_of_neg_of_neg (by linarith) (by linarith)
    linarith
  rw [if_neg n1, if_neg n2]
  obtain ⟨hprobe, hroot, hzero⟩ := hsolver q2 d1 d2 h1 h2 hsign
  obtain ⟨t1, -, c1, -, -⟩ := nsDev_ok u spline sr h1
  obtain ⟨t2, -, c2, -, -⟩ := nsDev_ok u spline sr h2
  obtain ⟨t3, g3, c3, g3h, hz⟩ := nsDev_ok u spline sr hzero
  obtain ⟨q3, e3, hq3⟩ := nsProbe_ok u spline sr kw n_s hK hg c1 c2 _ q2 hq2 hprobe
  rw [e3]
  dsimp only
  obtain ⟨t4, c4, k4, k4c, k4n⟩ := calibrate_between u hK hroot c1 c2 rho
  obtain ⟨-, hex, hsame⟩ := C39_history_partial u s0 q3.st
    { method := "N_star", N_star := some (solver q2 lo hi).2, rho_reh_GeV := rho } hq3 (fun _ => hg)
  obtain ⟨t5, k5⟩ := hex.2 ⟨t4, k4⟩
  obtain ⟨m1, m2, -⟩ := hsame t5 t4 k5 k4
  obtain ⟨g, q, e5, e6, e7, e8⟩ := calibrateP_CGS u spline sr (p := q3) kw rfl k5
  have hgr : g = g3 := by
    rw [gridOf_congr sr m1 m2, grid_rho u sr hK c3 k4, g3h] at e5
    exact (Option.some.inj e5).symm
  refine ⟨q, c4, _, g, e6, by rw [e7, m1, k4c], e8, ?_, by rw [k4n]; exact hroot, by rw [e7, e5], rfl⟩
  rw [hgr]
  linarith

/-- **C41, `set_ns` refuses.**  Curved solutions raise; flat ones raise `PrimpyError` when the spectral index at both ends
of the bracket lies strictly above, or at both strictly below the target, and pass on the exception when one of the two
ends cannot be calibrated. -/
theorem C41_set_ns_refuses (kw : κ) (n_s lo hi : ℝ) (rho : Option ℝ) (s0 : CalState) (hg : SimpleGrid s0)
    (solver : PSol → ℝ → ℝ → List ℝ × ℝ) (p : PSol) (hist : CalHistory u s0 p.st) :
    (s0.K ≠ 0 → ∃ m, setNs u spline sr kw solver n_s lo hi rho p = .error (.primpyError m)) ∧
    (s0.K = 0 →
      (∀ e, nsDev u spline sr kw n_s s0 lo = .error e → setNs u spline sr kw solver n_s lo hi rho p = .error e) ∧
      (∀ e d1, nsDev u spline sr kw n_s s0 lo = .ok d1 → nsDev u spline sr kw n_s s0 hi = .error e →
        setNs u spline sr kw solver n_s lo hi rho p = .error e) ∧
      (∀ d1 d2, nsDev u spline sr kw n_s s0 lo = .ok d1 → nsDev u spline sr kw n_s s0 hi = .ok d2 → 0 < d1 * d2 →
        ∃ m, setNs u spline sr kw solver n_s lo hi rho p = .error (.primpyError m))) := by
  have obj : ∀ (p : PSol), CalHistory u s0 p.st → ∀ x d, nsDev u spline sr kw n_s s0 x = .ok d →
      ∃ q, nsObjective u spline sr kw n_s p x = .ok (q, d) ∧ CalHistory u s0 q.st := by
    intro p hp x d hd
    obtain ⟨a1, a2⟩ := nsObjective_history u spline sr kw n_s hg p hp x
    cases ho : nsObjective u spline sr kw n_s p x with
    | error e => have := (a1 e).1 ho; rw [hd] at this; cases this
    | ok r =>
      obtain ⟨q, d'⟩ := r
      obtain ⟨b1, b2⟩ := a2 q d' ho
      rw [hd] at b1
      cases b1
      exact ⟨q, rfl, b2⟩
  constructor
  · intro hK
    have : p.st.K ≠ 0 := by rw [hist.same.K]; exact hK
    unfold setNs
    rw [if_pos this]
    exact ⟨_, rfl⟩
  · intro hK
    have hKp : ¬ p.st.K ≠ 0 := by rw [hist.same.K]; simpa using hK
    refine ⟨fun e he => ?_, fun e d1 h1 he => ?_, fun d1 d2 h1 h2 hs => ?_⟩
    · unfold setNs
      rw [if_neg hKp, ((nsObjective_history u spline sr kw n_s hg p hist lo).1 e).2 he]
    · obtain ⟨q1, e1, hq1⟩ := obj p hist lo d1 h1
      unfold setNs
      rw [if_neg hKp, e1]
      dsimp only
      rw [((nsObjective_history u spline sr kw n_s hg q1 hq1 hi).1 e).2 he]
    · obtain ⟨q1, e1, hq1⟩ := obj p hist lo d1 h1
      obtain ⟨q2, e2, hq2⟩ := obj q1 hq1 hi d2 h2
      unfold setNs
      rw [if_neg hKp, e1]
      dsimp only
      rw [e2]
      dsimp only
      rcases mul_pos_iff.1 hs with ⟨a, b⟩ | ⟨a, b⟩
      · rw [if_pos ⟨by linarith, by linarith⟩]; exact ⟨_, rfl⟩
      · rw [if_neg (by rintro ⟨c, -⟩; linarith), if_pos ⟨by linarith, by linarith⟩]; exact ⟨_, rfl⟩

/-- **C41, a root exists.**  If `n_s` depends continuously on `N_star` over the bracket, the non-refused case always has an
`N_star` in the bracket with exactly the requested index (so the solver contract can be met there). -/
theorem C41_root_exists (kw : κ) (n_s lo hi : ℝ) (s0 : CalState) (f : ℝ → ℝ) (hf : ContinuousOn f (Set.uIcc lo hi))
    (hdev : ∀ x ∈ Set.uIcc lo hi, nsDev u spline sr kw n_s s0 x = .ok (f x)) (hsign : f lo * f hi ≤ 0) :
    ∃ x ∈ Set.uIcc lo hi, nsDev u spline sr kw n_s s0 x = .ok 0 := by
  have hmem : (0 : ℝ) ∈ Set.uIcc (f lo) (f hi) := by
    rw [Set.mem_uIcc]
    rcases le_or_gt (f lo) 0 with h | h
    · rcases le_or_gt 0 (f hi) with h' | h'
      · exact Or.inl ⟨h, h'⟩
      · rcases h.lt_or_eq with h'' | h''
        · exact absurd (mul_pos_of_neg_of_neg h'' h') (not_lt.2 hsign)
        · exact Or.inr ⟨h'.le, h''.ge⟩
    · rcases le_or_gt (f hi) 0 with h' | h'
      · exact Or.inr ⟨h', h.le⟩
      · exact absurd (mul_pos h h') (not_lt.2 hsign)
  obtain ⟨x, hx, h0⟩ := intermediate_value_uIcc hf hmem
  exact ⟨x, hx, by rw [hdev x hx, h0]⟩

/-! ### Hypotheses met -/

/-- A toy spline whose slope is the first abscissa. -/
def toySpline (_ : Unit) (l : List (ℝ × ℝ)) (x : ℝ) : ℝ := (l.headD (0, 0)).1 * x

/-- Slow-roll parameters for the demonstration solution. -/
def toySR (e : ℝ) : SlowRoll := ⟨List.replicate 4 ⟨1, e, 0, 0, 0, 0, 0, 0, 0⟩, fun _ _ => ⟨1, e, 0, 0, 0, 0, 0, 0, 0⟩⟩

/-- For a small first parameter the corrected spectra are positive. -/
theorem toy_positive : ∃ e : ℝ, 0 < e ∧ 0 < Ps0 ⟨1, e, 0, 0, 0, 0, 0, 0, 0⟩ * cgsS 3 ⟨1, e, 0, 0, 0, 0, 0, 0, 0⟩ ∧
    0 < Pt0 ⟨1, e, 0, 0, 0, 0, 0, 0, 0⟩ * cgsT 3 ⟨1, e, 0, 0, 0, 0, 0, 0, 0⟩ := by
  have c1 : Continuous fun e : ℝ => cgsS 3 ⟨1, e, 0, 0, 0, 0, 0, 0, 0⟩ := by
    unfold cgsS cgsS1 cgsS2 cgsS3; fun_prop
  have c2 : Continuous fun e : ℝ => cgsT 3 ⟨1, e, 0, 0, 0, 0, 0, 0, 0⟩ := by
    unfold cgsT cgsT1 cgsT2 cgsT3; fun_prop
  have z1 : 0 < cgsS 3 ⟨1, 0, 0, 0, 0, 0, 0, 0, 0⟩ := by simp [cgsS, cgsS1, cgsS2, cgsS3]
  have z2 : 0 < cgsT 3 ⟨1, 0, 0, 0, 0, 0, 0, 0, 0⟩ := by simp [cgsT, cgsT1, cgsT2, cgsT3]
  have e1 := (c1.tendsto 0).eventually (lt_mem_nhds z1)
  have e2 := (c2.tendsto 0).eventually (lt_mem_nhds z2)
  obtain ⟨e, ⟨h1, h2⟩, h3⟩ := ((e1.and e2).filter_mono nhdsWithin_le_nhds |>.and
    (self_mem_nhdsWithin : Set.Ioi (0 : ℝ) ∈ nhdsWithin 0 (Set.Ioi 0))).exists
  have h3 : 0 < e := h3
  refine ⟨e, h3, mul_pos ?_ h1, mul_pos ?_ h2⟩
  · unfold Ps0; dsimp only; positivity
  · unfold Pt0; dsimp only; positivity

theorem demoFlat_simple : SimpleGrid demoFlat := by
  intro I hI
  simp only [demoFlat, Option.some.injEq] at hI
  subst hI
  refine ⟨rfl, ?_⟩
  intro i hi j hj
  rcases i with _ | _ | _ | _ | i <;> rcases j with _ | _ | _ | j <;>
    simp_all [demoFlat] <;> omega

/-- In the demonstration the tilt is linear in `N_star`. -/
theorem toy_nsDev {e : ℝ} (h1 : 0 < Ps0 ⟨1, e, 0, 0, 0, 0, 0, 0, 0⟩ * cgsS 3 ⟨1, e, 0, 0, 0, 0, 0, 0, 0⟩)
    (h2 : 0 < Pt0 ⟨1, e, 0, 0, 0, 0, 0, 0, 0⟩ * cgsT 3 ⟨1, e, 0, 0, 0, 0, 0, 0, 0⟩) (n_s x : ℝ) (hx1 : 1 ≤ x)
    (hx2 : x ≤ 2) : nsDev u toySpline (toySR e) () n_s demoFlat x = .ok (x - 1 + log SI.K_STAR - n_s) := by
  obtain ⟨s, c, I, hc, k1, k2, k3, k4, k5⟩ := demoFlat_grid u x hx1 hx2
  obtain ⟨g, q, e1, e2, e3, e4⟩ := calibrateP_CGS u toySpline (toySR e) (p := ⟨demoFlat, Caches.empty, none⟩) () rfl hc
  unfold nsDev nsObjective
  rw [e2]
  dsimp only
  rw [e4]
  dsimp only [Except.map]
  unfold gridOf at e1
  rw [k2, k1] at e1
  dsimp only at e1
  rw [k4, k5] at e1
  simp only [toySR, List.replicate, maskSel, List.zip_cons_cons, List.zip_nil_right, List.filterMap_cons,
    Bool.false_eq_true, if_false, if_true, List.filterMap_nil, Option.some.injEq] at e1
  have hs : (specCGS toySpline () 3 g).s = fun y => (1 + log SI.K_STAR - (3 - x)) * y := by
    subst e1
    funext y
    simp [specCGS, fit, logTable, h1, h2, toySpline]
  simp only [params, hs, iteratedDeriv_one, deriv_const_mul_id']
  simp
  ring

/-- Hypotheses of `C41_set_ns` met with a target strictly inside the bracket `(1, 2)`. -/
example : ∃ (sr : SlowRoll) (n_s d1 d2 : ℝ) (solver : PSol → ℝ → ℝ → List ℝ × ℝ),
    FindsRoots (nsDev u toySpline sr () n_s demoFlat) solver 1 2 ∧ SimpleGrid demoFlat ∧
    nsDev u toySpline sr () n_s demoFlat 1 = .ok d1 ∧ nsDev u toySpline sr () n_s demoFlat 2 = .ok d2 ∧ d1 * d2 < 0 := by
  obtain ⟨e, -, h1, h2⟩ := toy_positive
  refine ⟨toySR e, 1 / 2 + log SI.K_STAR, -1 / 2, 1 / 2, fun _ _ _ => ([1, 2], 3 / 2), ?_, demoFlat_simple, ?_, ?_, by norm_num⟩
  · intro p d1 d2 _ _ _
    rw [Set.uIcc_of_le (by norm_num)]
    refine ⟨by simp, ⟨by norm_num, by norm_num⟩, ?_⟩
    rw [toy_nsDev u h1 h2 _ (3 / 2) (by norm_num) (by norm_num)]
    congr 1; ring
  · rw [toy_nsDev u h1 h2 _ 1 (by norm_num) (by norm_num)]
    congr 1; ring
  · rw [toy_nsDev u h1 h2 _ 2 (by norm_num) (by norm_num)]
    congr 1; ring

end Approx
end Primpy
