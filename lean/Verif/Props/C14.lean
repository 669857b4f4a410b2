import Verif.Lemmas.Exact

/-!
# C14 — cosmic-time background derivatives

Along every solution of the cosmic-time right-hand side `dH, d2H` and `d2phi` are true time
derivatives for every curvature; `d3phi`, `d3H`, `d4phi` as computed by primpy are true derivatives
for `K = 0`.  For `K ≠ 0` primpy's `d3phi` (and what is computed from it) is wrong at *every* point
with `dphidt ≠ 0`: `get_d3phi` lacks the term `-3 K e^{-2N} dphidt`.
-/

namespace Primpy
open Real Spec Set

/-- The derivative pipeline evaluated along a trajectory. -/
noncomputable def InflT.derivs (e : InflT) (y : ℕ → ℝ) : BgDerivs :=
  T.pipeline e.K e.pot (InflT._N y) (e.H y) (InflT.phi y) (InflT.dphidt y)

/-- What `get_d3phi` should have returned. -/
noncomputable def InflT.true_d3phi (e : InflT) (y : ℕ → ℝ) : ℝ :=
  (e.derivs y).d3phi - 3 * e.K * exp (-2 * InflT._N y) * InflT.dphidt y

section
variable {S D : Set ℝ} {e : InflT} {y : ℝ → ℕ → ℝ}

/-- `dH`, `d2phi`, `d2H` are the true derivatives, for every curvature. -/
theorem C14_first_second (hS : IsOpen S) (sol : SolvesODE S e.rows e.call y)
    (hH : ∀ t ∈ S, 0 < e.H2 (y t)) (hV : IsDerivOn D e.pot.V e.pot.dV)
    (hφ : ∀ t ∈ S, InflT.phi (y t) ∈ D) :
    IsDerivOn S (fun t => e.H (y t)) (fun t => (e.derivs (y t)).dH) ∧
    (∀ t ∈ S, (e.derivs (y t)).dH_H = (e.derivs (y t)).dH / e.H (y t)) ∧
    IsDerivOn S (fun t => InflT.dphidt (y t)) (fun t => (e.derivs (y t)).d2phi) ∧
    IsDerivOn S (fun t => (e.derivs (y t)).dH) (fun t => (e.derivs (y t)).d2H) := by
  have u := InflT.universe sol hH
  have h1 := u.dH hS hV hφ
  have hs : ∀ t ∈ S, √(e.H (y t) ^ 2) = e.H (y t) := fun t ht => sqrt_sq (u.expanding t ht).le
  have h2 : IsDerivOn S (fun t => InflT.dphidt (y t)) (fun t => (e.derivs (y t)).d2phi) := by
    intro t ht
    refine hderiv (u.kleinGordon t ht) ?_
    simp only [InflT.derivs, T.pipeline, T.get_d2phi]; rw [hs t ht]; ring
  refine ⟨h1, fun t ht => ?_, h2, fun t ht => ?_⟩
  · have := u.expanding t ht
    simp only [InflT.derivs, T.pipeline, T.get_dH_H, T.get_dH]; rw [hs t ht]; fsr
  · refine hderiv (((((h2 t ht).pow 2).neg).div_const 2).add
      ((hasDerivAt_exp_neg_two (u.hubble t ht)).const_mul e.K)) ?_
    simp only [InflT.derivs, T.pipeline, T.get_d2H]; push_cast; ring

/-- The formulas beyond second order, for every curvature, when fed with the true third derivative
`true_d3phi` of the field. -/
theorem C14_higher_formulas (hS : IsOpen S) (sol : SolvesODE S e.rows e.call y)
    (hH : ∀ t ∈ S, 0 < e.H2 (y t)) (hV : IsDerivOn D e.pot.V e.pot.dV)
    (hV2 : IsDerivOn D e.pot.dV e.pot.d2V) (hV3 : IsDerivOn D e.pot.d2V e.pot.d3V)
    (hφ : ∀ t ∈ S, InflT.phi (y t) ∈ D) :
    IsDerivOn S (fun t => (e.derivs (y t)).d2phi) (fun t => e.true_d3phi (y t)) ∧
    IsDerivOn S (fun t => (e.derivs (y t)).d2H)
      (fun t => T.get_d3H (InflT._N (y t)) (e.H (y t)) (e.derivs (y t)).dH (e.derivs (y t)).d2H
        (InflT.dphidt (y t)) (e.derivs (y t)).d2phi (e.true_d3phi (y t)) e.K) ∧
    IsDerivOn S (fun t => e.true_d3phi (y t))
      (fun t => T.get_d4phi (e.H (y t)) (e.derivs (y t)).dH (e.derivs (y t)).d2H 0
        (InflT.dphidt (y t)) (e.derivs (y t)).d2phi (e.true_d3phi (y t)) 0
        (e.pot.d2V (InflT.phi (y t))) (e.pot.d3V (InflT.phi (y t)))) := by
  have u := InflT.universe sol hH
  obtain ⟨h1, h1', h2, h3⟩ := C14_first_second hS sol hH hV hφ
  have hs : ∀ t ∈ S, √(e.H (y t) ^ 2) = e.H (y t) := fun t ht => sqrt_sq (u.expanding t ht).le
  have e2 : ∀ t ∈ S, (e.derivs (y t)).d2phi
      = -3 * e.H (y t) * InflT.dphidt (y t) - e.pot.dV (InflT.phi (y t)) := by
    intro t ht; simp only [InflT.derivs, T.pipeline, T.get_d2phi]; rw [hs t ht]
  have hd3 : IsDerivOn S (fun t => (e.derivs (y t)).d2phi) (fun t => e.true_d3phi (y t)) := by
    intro t ht
    have h := (((h1 t ht).const_mul (-3)).mul (h2 t ht)).sub
      ((hV2 _ (hφ t ht)).comp t (u.velocity t ht))
    have ev : (fun t => (e.derivs (y t)).d2phi) =ᶠ[nhds t]
        (fun t => -3 * e.H (y t) * InflT.dphidt (y t) - e.pot.dV (InflT.phi (y t))) := by
      filter_upwards [hS.mem_nhds ht] with s hs using e2 s hs
    refine hderiv (h.congr_of_eventuallyEq ev) ?_
    simp only [InflT.true_d3phi]
    have : (e.derivs (y t)).d3phi = -3 * e.H (y t) * (e.derivs (y t)).d2phi
        - e.pot.d2V (InflT.phi (y t)) * InflT.dphidt (y t) + 3 * InflT.dphidt (y t)^3/2 := rfl
    have d : (e.derivs (y t)).dH = -InflT.dphidt (y t)^2/2 + e.K * exp (-2 * InflT._N (y t)) := rfl
    rw [this, d]; ring
  refine ⟨hd3, fun t ht => ?_, fun t ht => ?_⟩
  · have hE := hasDerivAt_exp_neg_two (u.hubble t ht)
    refine hderiv ((((hd3 t ht).neg).mul (h2 t ht)).sub
      (((h1 t ht).const_mul (2 * e.K)).mul hE)) ?_
    simp only [T.get_d3H]
    have d : (e.derivs (y t)).dH = -InflT.dphidt (y t)^2/2 + e.K * exp (-2 * InflT._N (y t)) := rfl
    simp only [d, Pi.neg_apply]
    ring
  · have hE := hasDerivAt_exp_neg_two (u.hubble t ht)
    have h := (((((h1 t ht).const_mul (-3)).mul (hd3 t ht)).sub
      (((hV3 _ (hφ t ht)).comp t (u.velocity t ht)).mul (h2 t ht))).add
      ((((h2 t ht).pow 3).const_mul 3).div_const 2)).sub
      ((hE.const_mul (3 * e.K)).mul (h2 t ht))
    refine hderiv (f := fun t => e.true_d3phi (y t)) h ?_
    have d : (e.derivs (y t)).dH = -InflT.dphidt (y t)^2/2 + e.K * exp (-2 * InflT._N (y t)) := rfl
    have d2 : (e.derivs (y t)).d2H = -(e.derivs (y t)).d2phi * InflT.dphidt (y t)
      - 2 * e.K * e.H (y t) * exp (-2 * InflT._N (y t)) := rfl
    simp only [T.get_d4phi, d, d2]
    push_cast
    simp only [Function.comp]
    ring

/-- In a flat universe every derivative the pipeline computes is the true one. -/
theorem C14_flat_partial (hS : IsOpen S) (sol : SolvesODE S e.rows e.call y)
    (hH : ∀ t ∈ S, 0 < e.H2 (y t)) (hV : IsDerivOn D e.pot.V e.pot.dV)
    (hV2 : IsDerivOn D e.pot.dV e.pot.d2V) (hV3 : IsDerivOn D e.pot.d2V e.pot.d3V)
    (hφ : ∀ t ∈ S, InflT.phi (y t) ∈ D) (hK : e.K = 0) :
    IsDerivOn S (fun t => e.H (y t)) (fun t => (e.derivs (y t)).dH) ∧
    IsDerivOn S (fun t => (e.derivs (y t)).dH) (fun t => (e.derivs (y t)).d2H) ∧
    IsDerivOn S (fun t => (e.derivs (y t)).d2H) (fun t => (e.derivs (y t)).d3H) ∧
    IsDerivOn S (fun t => InflT.phi (y t)) (fun t => InflT.dphidt (y t)) ∧
    IsDerivOn S (fun t => InflT.dphidt (y t)) (fun t => (e.derivs (y t)).d2phi) ∧
    IsDerivOn S (fun t => (e.derivs (y t)).d2phi) (fun t => (e.derivs (y t)).d3phi) ∧
    IsDerivOn S (fun t => (e.derivs (y t)).d3phi) (fun t => (e.derivs (y t)).d4phi) := by
  obtain ⟨h1, h1', h2, h3⟩ := C14_first_second hS sol hH hV hφ
  obtain ⟨g1, g2, g3⟩ := C14_higher_formulas hS sol hH hV hV2 hV3 hφ
  have ed : (fun t => e.true_d3phi (y t)) = fun t => (e.derivs (y t)).d3phi := by
    funext t; simp [InflT.true_d3phi, hK]
  have ed' : ∀ t, e.true_d3phi (y t) = (e.derivs (y t)).d3phi := fun t => congrFun ed t
  simp only [ed'] at g1 g2 g3
  exact ⟨h1, h3, g2, (InflT.universe sol hH).velocity, h2, g1, g3⟩

/-- In a curved universe the `d3phi` primpy computes is wrong wherever the field moves. -/
theorem C14_curved_d3phi_wrong (hS : IsOpen S) (sol : SolvesODE S e.rows e.call y)
    (hH : ∀ t ∈ S, 0 < e.H2 (y t)) (hV : IsDerivOn D e.pot.V e.pot.dV)
    (hV2 : IsDerivOn D e.pot.dV e.pot.d2V) (hV3 : IsDerivOn D e.pot.d2V e.pot.d3V)
    (hφ : ∀ t ∈ S, InflT.phi (y t) ∈ D) (hK : e.K ≠ 0) (t : ℝ) (ht : t ∈ S)
    (hp : InflT.dphidt (y t) ≠ 0) :
    ¬ HasDerivAt (fun t => (e.derivs (y t)).d2phi) (e.derivs (y t)).d3phi t ∧
    ¬ HasDerivAt (fun t => (e.derivs (y t)).d2H) (e.derivs (y t)).d3H t := by
  obtain ⟨g1, g2, -⟩ := C14_higher_formulas hS sol hH hV hV2 hV3 hφ
  have hx : e.K * exp (-2 * InflT._N (y t)) ≠ 0 := mul_ne_zero hK (exp_pos _).ne'
  constructor
  · intro h
    have := h.unique (g1 t ht)
    simp only [InflT.true_d3phi] at this
    apply mul_ne_zero hx hp; linarith
  · intro h
    have := h.unique (g2 t ht)
    have d3 : (e.derivs (y t)).d3H = T.get_d3H (InflT._N (y t)) (e.H (y t)) (e.derivs (y t)).dH
      (e.derivs (y t)).d2H (InflT.dphidt (y t)) (e.derivs (y t)).d2phi (e.derivs (y t)).d3phi e.K := rfl
    rw [d3] at this
    simp only [T.get_d3H, InflT.true_d3phi] at this
    apply mul_ne_zero (mul_ne_zero hx hp) hp; linarith
end

/-- Non-vacuity: power-law inflation satisfies the hypotheses of `C14_flat_partial` … -/
example : IsOpen (Ioi (0:ℝ)) ∧ SolvesODE (Ioi 0) Exact.flatT.rows Exact.flatT.call Exact.yFlatT ∧
    (∀ t ∈ Ioi (0:ℝ), 0 < Exact.flatT.H2 (Exact.yFlatT t)) ∧ Exact.flatT.K = 0 :=
  ⟨isOpen_Ioi, Exact.flatT_sol, fun t ht => by
    rw [Exact.flatT_H2 ht]; have : (0:ℝ) < t := ht; positivity, rfl⟩

/-- … and the coasting closed universe those of `C14_curved_d3phi_wrong`: on that trajectory
`d²φ/dt² = -2/t²` but primpy's third derivative is not its derivative. -/
example (t : ℝ) (ht : 0 < t) :
    ¬ HasDerivAt (fun t => (Exact.curvedT.derivs (Exact.yCurvedT t)).d2phi)
      (Exact.curvedT.derivs (Exact.yCurvedT t)).d3phi t := by
  have c := Exact.expPot_chain 4
  refine (C14_curved_d3phi_wrong isOpen_Ioi Exact.curvedT_sol (fun t ht => ?_) c.d1 c.d2 c.d3
    (fun _ _ => mem_univ _) one_ne_zero t ht ?_).1
  · rw [Exact.curvedT_H2 ht]; have : (0:ℝ) < t := ht; positivity
  · simp only [InflT.dphidt, Exact.yCurvedT]; positivity

end Primpy
