import Verif.Lemmas.Exact

/-!
# C15 — e-fold background derivatives

Along every solution of the e-fold right-hand side, for every curvature, all derivatives computed by
the pipeline are the true derivatives with respect to `N`.
-/

namespace Primpy
open Real Spec Set

/-- The derivative pipeline evaluated along a trajectory. -/
noncomputable def InflN.derivs (e : InflN) (x : ℝ) (y : ℕ → ℝ) : BgDerivs :=
  N.pipeline e.K e.pot x (e.H x y) (InflN.phi y) (InflN.dphidN y)

theorem C15_derivatives {S D : Set ℝ} {e : InflN} {y : ℝ → ℕ → ℝ} (hS : IsOpen S)
    (sol : SolvesODE S e.rows e.call y)
    (hH : ∀ n ∈ S, 0 < e.H2 n (y n)) (hV : IsDerivOn D e.pot.V e.pot.dV)
    (hV2 : IsDerivOn D e.pot.dV e.pot.d2V) (hV3 : IsDerivOn D e.pot.d2V e.pot.d3V)
    (hφ : ∀ n ∈ S, InflN.phi (y n) ∈ D) :
    IsDerivOn S (fun n => e.H n (y n)) (fun n => (e.derivs n (y n)).dH) ∧
    (∀ n ∈ S, (e.derivs n (y n)).dH_H = (e.derivs n (y n)).dH / e.H n (y n)) ∧
    IsDerivOn S (fun n => (e.derivs n (y n)).dH) (fun n => (e.derivs n (y n)).d2H) ∧
    IsDerivOn S (fun n => (e.derivs n (y n)).d2H) (fun n => (e.derivs n (y n)).d3H) ∧
    IsDerivOn S (fun n => InflN.phi (y n)) (fun n => InflN.dphidN (y n)) ∧
    IsDerivOn S (fun n => InflN.dphidN (y n)) (fun n => (e.derivs n (y n)).d2phi) ∧
    IsDerivOn S (fun n => (e.derivs n (y n)).d2phi) (fun n => (e.derivs n (y n)).d3phi) ∧
    IsDerivOn S (fun n => (e.derivs n (y n)).d3phi) (fun n => (e.derivs n (y n)).d4phi) := by
  have r : 2 ≤ e.rows := by rw [InflN.rows_eq]; omega
  have h1 := InflN.hasDerivAt_H hS sol hH hV hφ
  have hp : ∀ s ∈ S, 0 < e.H s (y s) := fun s hs => sqrt_pos.mpr (hH s hs)
  have p0 : IsDerivOn S (fun n => InflN.phi (y n)) (fun n => InflN.dphidN (y n)) := fun n hn =>
    hderiv (sol n hn 0 (by omega)) (InflN.call0 e n (y n)).symm
  have hH2 : ∀ n ∈ S, e.H2 n (y n) = e.H n (y n)^2 := fun n hn => (InflN.H_sq (hH n hn)).symm
  have hdHH : ∀ n ∈ S, (e.derivs n (y n)).dH_H = (e.derivs n (y n)).dH / e.H n (y n) := by
    intro n hn; have := hp n hn
    simp only [InflN.derivs, N.pipeline, N.get_dH_H, N.get_dH]; fsr
  have p1 : IsDerivOn S (fun n => InflN.dphidN (y n)) (fun n => (e.derivs n (y n)).d2phi) := by
    intro n hn
    refine hderiv (sol n hn 1 (by omega)) ?_
    rw [InflN.call1, hH2 n hn]; rfl
  have d2H : IsDerivOn S (fun n => (e.derivs n (y n)).dH) (fun n => (e.derivs n (y n)).d2H) := by
    intro n hn
    have hpn := hp n hn
    have h := ((((p1 n hn).pow 2).neg.mul (h1 n hn)).div_const 2).add
      (((hasDerivAt_exp_neg_two_id n).const_mul e.K).div (h1 n hn) hpn.ne')
    refine hderiv (f := fun n => (e.derivs n (y n)).dH) h ?_
    have d : N.get_dH n (e.H n (y n)) (InflN.dphidN (y n)) e.K = (e.derivs n (y n)).dH := rfl
    have d2 : (e.derivs n (y n)).d2H = N.get_d2H n (e.H n (y n)) (e.derivs n (y n)).dH
      (InflN.dphidN (y n)) (e.derivs n (y n)).d2phi e.K := rfl
    simp only [d, d2, N.get_d2H, Pi.neg_apply, Pi.pow_apply]
    push_cast
    field_simp
    ring
  have p2 : IsDerivOn S (fun n => (e.derivs n (y n)).d2phi) (fun n => (e.derivs n (y n)).d3phi) := by
    intro n hn
    have hpn := hp n hn
    have ev : (fun n => (e.derivs n (y n)).d2phi) =ᶠ[nhds n] (fun n =>
        -((e.derivs n (y n)).dH / e.H n (y n) + 3) * InflN.dphidN (y n)
          - e.pot.dV (InflN.phi (y n)) / e.H n (y n)^2) := by
      filter_upwards [hS.mem_nhds hn] with s hs
      rw [← hdHH s hs]; rfl
    have h := ((((((d2H n hn).div (h1 n hn) hpn.ne').add_const 3).neg).mul (p1 n hn)).sub
      (((hV2 _ (hφ n hn)).comp n (p0 n hn)).div ((h1 n hn).pow 2) (pow_pos hpn 2).ne'))
    refine hderiv (h.congr_of_eventuallyEq ev) ?_
    have d : N.get_dH n (e.H n (y n)) (InflN.dphidN (y n)) e.K = (e.derivs n (y n)).dH := rfl
    have d3 : (e.derivs n (y n)).d3phi = N.get_d3phi (e.H n (y n)) (e.derivs n (y n)).dH
      (e.derivs n (y n)).d2H (InflN.dphidN (y n)) (e.derivs n (y n)).d2phi
      (e.pot.dV (InflN.phi (y n))) (e.pot.d2V (InflN.phi (y n))) := rfl
    simp only [d, d3, N.get_d3phi, Pi.neg_apply, Pi.pow_apply, Pi.div_apply, Function.comp]
    push_cast
    field_simp
    ring
  refine ⟨h1, hdHH, d2H, ?_, p0, p1, p2, ?_⟩
  · intro n hn
    have hpn := hp n hn
    have hE := hasDerivAt_exp_neg_two_id n
    have h := ((((p2 n hn).neg.mul (p1 n hn)).mul (h1 n hn)).sub
        ((((p1 n hn).pow 2).mul (d2H n hn)).div_const 2)).sub
      (((hE.const_mul e.K).mul (((h1 n hn).const_mul 2).add (d2H n hn))).div
        ((h1 n hn).pow 2) (pow_pos hpn 2).ne')
    refine hderiv (f := fun n => (e.derivs n (y n)).d2H) h ?_
    have d : N.get_dH n (e.H n (y n)) (InflN.dphidN (y n)) e.K = (e.derivs n (y n)).dH := rfl
    have d3 : (e.derivs n (y n)).d3H = N.get_d3H n (e.H n (y n)) (e.derivs n (y n)).dH
      (e.derivs n (y n)).d2H (InflN.dphidN (y n)) (e.derivs n (y n)).d2phi
      (e.derivs n (y n)).d3phi e.K := rfl
    simp only [d, d3, N.get_d3H, Pi.neg_apply, Pi.pow_apply, Pi.div_apply, Pi.mul_apply, Pi.add_apply]
    push_cast
    field_simp
    ring
  · intro n hn
    have hpn := hp n hn
    have d3H : HasDerivAt (fun n => (e.derivs n (y n)).d2H) (e.derivs n (y n)).d3H n := by
      have hE := hasDerivAt_exp_neg_two_id n
      have h := ((((p2 n hn).neg.mul (p1 n hn)).mul (h1 n hn)).sub
          ((((p1 n hn).pow 2).mul (d2H n hn)).div_const 2)).sub
        (((hE.const_mul e.K).mul (((h1 n hn).const_mul 2).add (d2H n hn))).div
          ((h1 n hn).pow 2) (pow_pos hpn 2).ne')
      refine hderiv (f := fun n => (e.derivs n (y n)).d2H) h ?_
      have d : N.get_dH n (e.H n (y n)) (InflN.dphidN (y n)) e.K = (e.derivs n (y n)).dH := rfl
      have d3 : (e.derivs n (y n)).d3H = N.get_d3H n (e.H n (y n)) (e.derivs n (y n)).dH
        (e.derivs n (y n)).d2H (InflN.dphidN (y n)) (e.derivs n (y n)).d2phi
        (e.derivs n (y n)).d3phi e.K := rfl
      simp only [d, d3, N.get_d3H, Pi.neg_apply, Pi.pow_apply, Pi.div_apply, Pi.mul_apply, Pi.add_apply]
      push_cast
      field_simp
      ring
    have q := hpn.ne'
    have q2 := (pow_pos hpn 2).ne'
    have q3 := (pow_pos hpn 3).ne'
    have hdV := (hV2 _ (hφ n hn)).comp n (p0 n hn)
    have hd2V := (hV3 _ (hφ n hn)).comp n (p0 n hn)
    have h := ((((d2H n hn).div (h1 n hn) q).const_sub (-3)).mul (p2 n hn)).add
      (((((d3H.neg.div (h1 n hn) q).sub (hd2V.div ((h1 n hn).pow 2) q2)).add
        (((d2H n hn).pow 2).div ((h1 n hn).pow 2) q2)).mul (p1 n hn))) |>.add
      (((hdV.const_mul 2).mul (d2H n hn)).div ((h1 n hn).pow 3) q3)
    refine hderiv (f := fun n => (e.derivs n (y n)).d3phi) h ?_
    have d : N.get_dH n (e.H n (y n)) (InflN.dphidN (y n)) e.K = (e.derivs n (y n)).dH := rfl
    have d4 : (e.derivs n (y n)).d4phi = N.get_d4phi (e.H n (y n)) (e.derivs n (y n)).dH
      (e.derivs n (y n)).d2H (e.derivs n (y n)).d3H (InflN.dphidN (y n)) (e.derivs n (y n)).d2phi
      (e.derivs n (y n)).d3phi (e.pot.dV (InflN.phi (y n))) (e.pot.d2V (InflN.phi (y n)))
      (e.pot.d3V (InflN.phi (y n))) := rfl
    simp only [d, d4, N.get_d4phi, Pi.neg_apply, Pi.pow_apply, Pi.div_apply, Pi.mul_apply,
      Pi.add_apply, Pi.sub_apply, Function.comp]
    push_cast
    field_simp
    ring

/-- Non-vacuity: the closed coasting universe with `t` and `eta` tracked. -/
example : IsOpen (univ : Set ℝ) ∧ SolvesODE univ Exact.curvedN.rows Exact.curvedN.call Exact.yCurvedN ∧
    (∀ n ∈ univ, 0 < Exact.curvedN.H2 n (Exact.yCurvedN n)) ∧ Exact.curvedN.K = 1 :=
  ⟨isOpen_univ, Exact.curvedN_sol, fun n _ => by rw [Exact.curvedN_H2]; positivity, rfl⟩

end Primpy
