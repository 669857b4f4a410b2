import Verif.Props.C17
import Mathlib.Analysis.Calculus.Deriv.MeanValue

/-!
# C20 — monotonicity of the background

While `inflating > 0` the comoving Hubble rate `aH` grows strictly (so every scale crosses the
horizon at most once); `H` never increases for `K ≤ 0`; the scale factor grows with time; the
tracked time grows with the number of e-folds.
-/

namespace Primpy
open Real Spec Set

theorem strictMonoOn_of_hasDerivAt {S : Set ℝ} (hS : IsOpen S) (hc : Convex ℝ S) {f f' : ℝ → ℝ}
    (h : IsDerivOn S f f') (hp : ∀ x ∈ S, 0 < f' x) : StrictMonoOn f S := by
  refine strictMonoOn_of_deriv_pos hc (fun x hx => (h x hx).continuousAt.continuousWithinAt) ?_
  rw [hS.interior_eq]; intro x hx; rw [(h x hx).deriv]; exact hp x hx

theorem antitoneOn_of_hasDerivAt {S : Set ℝ} (hS : IsOpen S) (hc : Convex ℝ S) {f f' : ℝ → ℝ}
    (h : IsDerivOn S f f') (hp : ∀ x ∈ S, f' x ≤ 0) : AntitoneOn f S := by
  refine antitoneOn_of_deriv_nonpos hc (fun x hx => (h x hx).continuousAt.continuousWithinAt) ?_ ?_
  · rw [hS.interior_eq]; intro x hx; exact (h x hx).differentiableAt.differentiableWithinAt
  · rw [hS.interior_eq]; intro x hx; rw [(h x hx).deriv]; exact hp x hx

section T
variable {S D : Set ℝ} {e : InflT} {y : ℝ → ℕ → ℝ}

/-- `ln(aH)` strictly increases while inflating (cosmic time). -/
theorem C20_logaH_T (hS : IsOpen S) (hc : Convex ℝ S)
    (sol : SolvesODE S e.rows e.call y) (hH : ∀ t ∈ S, 0 < e.H2 (y t))
    (hV : IsDerivOn D e.pot.V e.pot.dV) (hφ : ∀ t ∈ S, InflT.phi (y t) ∈ D)
    (hinf : ∀ t ∈ S, 0 < e.inflating (y t)) :
    StrictMonoOn (fun t => InflT._N (y t) + log (e.H (y t))) S := by
  have u := InflT.universe sol hH
  refine strictMonoOn_of_hasDerivAt hS hc (f' := fun t => e.inflating (y t) / (3 * e.H (y t)))
    (fun t ht => ?_) (fun t ht => div_pos (hinf t ht) (by have := u.expanding t ht; positivity))
  have hp := u.expanding t ht
  refine hderiv ((u.hubble t ht).add ((u.dH hS hV hφ t ht).log hp.ne')) ?_
  have := u.friedmann t ht
  simp only [InflT.inflating, InflT.V]
  field_simp
  simp only [neg_mul] at this ⊢
  linear_combination (-2:ℝ) * this

/-- Horizon crossing is unique. -/
theorem C20_crossing_unique_T (hS : IsOpen S) (hc : Convex ℝ S)
    (sol : SolvesODE S e.rows e.call y) (hH : ∀ t ∈ S, 0 < e.H2 (y t))
    (hV : IsDerivOn D e.pot.V e.pot.dV) (hφ : ∀ t ∈ S, InflT.phi (y t) ∈ D)
    (hinf : ∀ t ∈ S, 0 < e.inflating (y t)) (k s t : ℝ) (hs : s ∈ S) (ht : t ∈ S)
    (h1 : exp (InflT._N (y s)) * e.H (y s) = k) (h2 : exp (InflT._N (y t)) * e.H (y t) = k) :
    s = t := by
  refine (C20_logaH_T hS hc sol hH hV hφ hinf).injOn hs ht ?_
  have l : ∀ t ∈ S, InflT._N (y t) + log (e.H (y t)) = log (exp (InflT._N (y t)) * e.H (y t)) := by
    intro t ht; have := (InflT.universe sol hH).expanding t ht
    rw [log_mul (exp_pos _).ne' this.ne', log_exp]
  simp only [l s hs, l t ht, h1, h2]

/-- `H` never increases for `K ≤ 0`. -/
theorem C20_H_T (hS : IsOpen S) (hc : Convex ℝ S)
    (sol : SolvesODE S e.rows e.call y) (hH : ∀ t ∈ S, 0 < e.H2 (y t))
    (hV : IsDerivOn D e.pot.V e.pot.dV) (hφ : ∀ t ∈ S, InflT.phi (y t) ∈ D) (hK : e.K ≤ 0) :
    AntitoneOn (fun t => e.H (y t)) S := by
  refine antitoneOn_of_hasDerivAt hS hc ((InflT.universe sol hH).dH hS hV hφ) (fun t ht => ?_)
  have := mul_nonpos_of_nonpos_of_nonneg hK (exp_pos (-2 * InflT._N (y t))).le
  have := sq_nonneg (InflT.dphidt (y t))
  linarith

/-- The scale factor grows strictly. -/
theorem C20_N_T (hS : IsOpen S) (hc : Convex ℝ S)
    (sol : SolvesODE S e.rows e.call y) (hH : ∀ t ∈ S, 0 < e.H2 (y t)) :
    StrictMonoOn (fun t => InflT._N (y t)) S :=
  strictMonoOn_of_hasDerivAt hS hc (InflT.universe sol hH).hubble (InflT.universe sol hH).expanding

/-- Tracked conformal time grows strictly. -/
theorem C20_eta_T (hS : IsOpen S) (hc : Convex ℝ S) (he : e.track_eta = true)
    (sol : SolvesODE S e.rows e.call y) : StrictMonoOn (fun t => y t 3) S := by
  refine strictMonoOn_of_hasDerivAt hS hc (f' := fun t => exp (-InflT._N (y t))) (fun t ht => ?_)
    (fun t _ => exp_pos _)
  exact hderiv (sol t ht 3 (by rw [InflT.rows_eq, he]; decide)) (InflT.call3 e he _ _).symm
end T

section N
variable {S D : Set ℝ} {e : InflN} {y : ℝ → ℕ → ℝ}

/-- `ln(aH)` strictly increases while inflating (e-folds). -/
theorem C20_logaH_N (hS : IsOpen S) (hc : Convex ℝ S)
    (sol : SolvesODE S e.rows e.call y) (hH : ∀ n ∈ S, 0 < e.H2 n (y n))
    (hV : IsDerivOn D e.pot.V e.pot.dV) (hφ : ∀ n ∈ S, InflN.phi (y n) ∈ D)
    (hinf : ∀ n ∈ S, 0 < e.inflating n (y n)) :
    StrictMonoOn (fun n => n + log (e.H n (y n))) S := by
  have hp : ∀ n ∈ S, 0 < e.H n (y n) := fun n hn => sqrt_pos.mpr (hH n hn)
  have key : StrictMonoOn (fun n => exp n * e.H n (y n)) S :=
    strictMonoOn_of_hasDerivAt hS hc (C17_acceleration_N hS sol hH hV hφ) (fun n hn =>
      div_pos (mul_pos (exp_pos n) (hinf n hn)) (by have := hp n hn; positivity))
  intro a ha b hb hab
  have := log_lt_log (mul_pos (exp_pos a) (hp a ha)) (key ha hb hab)
  rw [log_mul (exp_pos _).ne' (hp a ha).ne', log_mul (exp_pos _).ne' (hp b hb).ne', log_exp,
    log_exp] at this
  exact this

/-- Horizon crossing is unique. -/
theorem C20_crossing_unique_N (hS : IsOpen S) (hc : Convex ℝ S)
    (sol : SolvesODE S e.rows e.call y) (hH : ∀ n ∈ S, 0 < e.H2 n (y n))
    (hV : IsDerivOn D e.pot.V e.pot.dV) (hφ : ∀ n ∈ S, InflN.phi (y n) ∈ D)
    (hinf : ∀ n ∈ S, 0 < e.inflating n (y n)) (k m n : ℝ) (hm : m ∈ S) (hn : n ∈ S)
    (h1 : exp m * e.H m (y m) = k) (h2 : exp n * e.H n (y n) = k) : m = n := by
  refine (C20_logaH_N hS hc sol hH hV hφ hinf).injOn hm hn ?_
  have l : ∀ n ∈ S, n + log (e.H n (y n)) = log (exp n * e.H n (y n)) := by
    intro n hn; have : 0 < e.H n (y n) := sqrt_pos.mpr (hH n hn)
    rw [log_mul (exp_pos _).ne' this.ne', log_exp]
  simp only [l m hm, l n hn, h1, h2]

theorem C20_H_N (hS : IsOpen S) (hc : Convex ℝ S)
    (sol : SolvesODE S e.rows e.call y) (hH : ∀ n ∈ S, 0 < e.H2 n (y n))
    (hV : IsDerivOn D e.pot.V e.pot.dV) (hφ : ∀ n ∈ S, InflN.phi (y n) ∈ D) (hK : e.K ≤ 0) :
    AntitoneOn (fun n => e.H n (y n)) S := by
  refine antitoneOn_of_hasDerivAt hS hc (InflN.hasDerivAt_H hS sol hH hV hφ) (fun n hn => ?_)
  have hp : 0 < e.H n (y n) := sqrt_pos.mpr (hH n hn)
  have h1 := div_nonpos_of_nonpos_of_nonneg
    (mul_nonpos_of_nonpos_of_nonneg hK (exp_pos (-2 * n)).le) hp.le
  have h2 : 0 ≤ InflN.dphidN (y n)^2 * e.H n (y n) / 2 := by positivity
  simp only [N.get_dH]; linarith

/-- Tracked cosmic and conformal time grow strictly. -/
theorem C20_t_eta_N (hS : IsOpen S) (hc : Convex ℝ S)
    (sol : SolvesODE S e.rows e.call y) (hH : ∀ n ∈ S, 0 < e.H2 n (y n)) :
    (e.track_time = true → StrictMonoOn (fun n => y n 2) S) ∧
    (e.track_eta = true → StrictMonoOn (fun n => y n e.etaRow) S) := by
  have hp : ∀ n ∈ S, 0 < e.H n (y n) := fun n hn => sqrt_pos.mpr (hH n hn)
  refine ⟨fun h => ?_, fun h => ?_⟩
  · refine strictMonoOn_of_hasDerivAt hS hc (f' := fun n => 1 / e.H n (y n)) (fun n hn => ?_)
      (fun n hn => by have := hp n hn; positivity)
    exact hderiv (sol n hn 2 (by rw [InflN.rows_eq, h]; simp; omega)) (InflN.call_t e h _ _).symm
  · refine strictMonoOn_of_hasDerivAt hS hc (f' := fun n => exp (-n) / e.H n (y n)) (fun n hn => ?_)
      (fun n hn => by have := hp n hn; positivity)
    refine hderiv (sol n hn e.etaRow ?_) (InflN.call_eta e h _ _).symm
    rw [InflN.rows_eq, h, InflN.etaRow]; cases e.track_time <;> simp
end N

/-- Non-vacuity: power-law inflation on all of `t > 0`. -/
example : StrictMonoOn (fun t => InflT._N (Exact.yFlatT t) + log (Exact.flatT.H (Exact.yFlatT t)))
    (Ioi 0) := by
  refine C20_logaH_T isOpen_Ioi (convex_Ioi 0) Exact.flatT_sol (fun t ht => ?_)
    (Exact.expPot_chain 10).d1 (fun _ _ => mem_univ _) (fun t ht => ?_)
  · have : (0:ℝ) < t := ht
    rw [Exact.flatT_H2 ht]; positivity
  · have ht' : (0:ℝ) < t := ht
    simp only [InflT.inflating, InflT.V, InflT.phi, InflT.dphidt, Exact.flatT,
      Exact.expPot, Exact.yFlatT, Exact.exp_neg_two_log ht']
    have : 10 * (1 / t^2) - (2/t)^2 = 6 / t^2 := by field_simp; norm_num
    rw [this]; positivity

/-- `K ≤ 0` is needed: in closed de Sitter space `H` grows. -/
example : Exact.dsN.H 1 (Exact.yDsN 1) < Exact.dsN.H 2 (Exact.yDsN 2) := by
  simp only [InflN.H, Exact.dsN_H2]
  refine sqrt_lt_sqrt ?_ ?_
  · have : exp (-2 * 1) < 1 := exp_lt_one_iff.mpr (by norm_num)
    linarith
  · have : exp (-2 * 2) < exp (-2 * 1) := exp_lt_exp.mpr (by norm_num)
    linarith

end Primpy
