import Verif.Lemmas.Universe
import Mathlib.Analysis.SpecialFunctions.Log.Deriv

/-! # Solutions of the modelled right-hand sides are scalar-field universes -/

namespace Primpy
open Real Spec Set

variable {S D : Set ℝ}

/-- Number of registered rows. -/
def InflT.rows (e : InflT) : ℕ := e.eqs.idx.length
def InflN.rows (e : InflN) : ℕ := e.eqs.idx.length

theorem InflT.rows_eq (e : InflT) : e.rows = if e.track_eta then 4 else 3 := by
  unfold InflT.rows InflT.eqs; cases e.track_eta <;> rfl

theorem InflN.rows_eq (e : InflN) :
    e.rows = 2 + (if e.track_time then 1 else 0) + (if e.track_eta then 1 else 0) := by
  unfold InflN.rows InflN.eqs; cases e.track_eta <;> cases e.track_time <;> rfl

theorem InflT.call0 (e : InflT) (x : ℝ) (y : ℕ → ℝ) : e.call x y 0 = InflT.dphidt y := by
  unfold InflT.call; cases e.track_eta <;> simp [Function.update]
theorem InflT.call1 (e : InflT) (x : ℝ) (y : ℕ → ℝ) :
    e.call x y 1 = -3 * e.H y * InflT.dphidt y - e.dVdphi y := by
  unfold InflT.call; cases e.track_eta <;> simp [Function.update, T.get_d2phi, InflT.H]
theorem InflT.call2 (e : InflT) (x : ℝ) (y : ℕ → ℝ) : e.call x y 2 = e.H y := by
  unfold InflT.call; cases e.track_eta <;> simp [Function.update, InflT.H]
theorem InflT.call3 (e : InflT) (h : e.track_eta = true) (x : ℝ) (y : ℕ → ℝ) :
    e.call x y 3 = exp (-InflT._N y) := by
  unfold InflT.call; simp [h]

theorem InflN.call0 (e : InflN) (x : ℝ) (y : ℕ → ℝ) : e.call x y 0 = InflN.dphidN y := by
  unfold InflN.call InflN.etaRow
  cases e.track_eta <;> cases e.track_time <;> simp [Function.update]
theorem InflN.call1 (e : InflN) (x : ℝ) (y : ℕ → ℝ) :
    e.call x y 1 = N.get_d2phi (e.H2 x y) (N.get_dH_H x (e.H2 x y) (InflN.dphidN y) e.K)
      (InflN.dphidN y) (e.dVdphi y) := by
  unfold InflN.call InflN.etaRow
  cases e.track_eta <;> cases e.track_time <;> simp [Function.update]
theorem InflN.call_t (e : InflN) (h : e.track_time = true) (x : ℝ) (y : ℕ → ℝ) :
    e.call x y 2 = 1 / e.H x y := by
  unfold InflN.call InflN.etaRow
  cases e.track_eta <;> simp [Function.update, h, InflN.H]
theorem InflN.call_eta (e : InflN) (h : e.track_eta = true) (x : ℝ) (y : ℕ → ℝ) :
    e.call x y e.etaRow = exp (-x) / e.H x y := by
  unfold InflN.call; simp [h, InflN.H]

/-- A solution of the cosmic-time right-hand side with positive `H²` is a scalar-field universe. -/
theorem InflT.universe {e : InflT} {y : ℝ → ℕ → ℝ}
    (sol : SolvesODE S e.rows e.call y) (hH : ∀ t ∈ S, 0 < e.H2 (y t)) :
    IsUniverse S e.pot.V e.pot.dV e.K (fun t => InflT._N (y t)) (fun t => InflT.phi (y t))
      (fun t => InflT.dphidt (y t)) (fun t => e.H (y t)) := by
  have r : 3 ≤ e.rows := by rw [InflT.rows_eq]; split <;> omega
  refine ⟨fun t ht => ?_, fun t ht => ?_, fun t ht => ?_, fun t ht => ?_, fun t ht => ?_⟩
  · exact hderiv (sol t ht 2 (by omega)) (InflT.call2 e t (y t)).symm
  · exact hderiv (sol t ht 0 (by omega)) (InflT.call0 e t (y t)).symm
  · refine hderiv (sol t ht 1 (by omega)) ?_
    rw [InflT.call1]; simp only [InflT.dVdphi]; ring
  · simp only [InflT.H]; rw [sq_sqrt (hH t ht).le]
    simp only [InflT.H2, T.get_H2, InflT.V]; ring
  · exact sqrt_pos.mpr (hH t ht)

end Primpy

namespace Primpy
open Real Spec Set

variable {S D : Set ℝ}

/-- derivative of `exp (-2 n)` -/
theorem hasDerivAt_exp_neg_two_id (n : ℝ) :
    HasDerivAt (fun s : ℝ => exp (-2 * s)) (-2 * exp (-2 * n)) n :=
  hderiv (hasDerivAt_exp_neg_two (hasDerivAt_id n)) (by simp)

theorem InflN.six_ne {e : InflN} {x : ℝ} {y : ℕ → ℝ} (h : 0 < e.H2 x y) :
    6 - InflN.dphidN y ^ 2 ≠ 0 := by
  intro h0
  simp only [InflN.H2, N.get_H2, h0, div_zero, lt_irrefl] at h

theorem InflN.H_sq {e : InflN} {x : ℝ} {y : ℕ → ℝ} (h : 0 < e.H2 x y) : e.H x y ^ 2 = e.H2 x y :=
  sq_sqrt h.le

/-- Along a solution of the e-fold right-hand side: `H' = get_dH`. -/
theorem InflN.hasDerivAt_H {e : InflN} {y : ℝ → ℕ → ℝ} (hS : IsOpen S)
    (sol : SolvesODE S e.rows e.call y) (hH : ∀ n ∈ S, 0 < e.H2 n (y n))
    (hV : IsDerivOn D e.pot.V e.pot.dV) (hφ : ∀ n ∈ S, InflN.phi (y n) ∈ D) :
    IsDerivOn S (fun n => e.H n (y n)) (fun n => N.get_dH n (e.H n (y n)) (InflN.dphidN (y n)) e.K) := by
  intro n hn
  have r : 2 ≤ e.rows := by rw [InflN.rows_eq]; omega
  have h0 : HasDerivAt (fun n => InflN.phi (y n)) (InflN.dphidN (y n)) n :=
    hderiv (sol n hn 0 (by omega)) (InflN.call0 e n (y n)).symm
  have h1 : HasDerivAt (fun n => InflN.dphidN (y n)) _ n :=
    hderiv (sol n hn 1 (by omega)) (InflN.call1 e n (y n)).symm
  have hp : ∀ s ∈ S, 0 < e.H s (y s) := fun s hs => sqrt_pos.mpr (hH s hs)
  have hpn := hp n hn
  refine hasDerivAt_of_sq hS hn hp ?_
  have h6 := InflN.six_ne (hH n hn)
  have hN : HasDerivAt (fun s => (2 * e.pot.V (InflN.phi (y s)) - 6 * e.K * exp (-2 * s)))
      (2 * (e.pot.dV (InflN.phi (y n)) * InflN.dphidN (y n)) - 6 * e.K * (-2 * exp (-2 * n))) n :=
    (((hV _ (hφ n hn)).comp n h0).const_mul 2).sub
      ((hasDerivAt_exp_neg_two_id n).const_mul (6 * e.K))
  have hD : HasDerivAt (fun s => 6 - InflN.dphidN (y s) ^ 2) _ n := (h1.pow 2).const_sub 6
  have hq := hN.div hD h6
  have ev : (fun s => e.H s (y s) ^ 2) =ᶠ[nhds n] (fun s => (2 * e.pot.V (InflN.phi (y s)) - 6 * e.K * exp (-2 * s)) / (6 - InflN.dphidN (y s) ^ 2)) := by
    filter_upwards [hS.mem_nhds hn] with s hs
    rw [InflN.H_sq (hH s hs)]; rfl
  refine hderiv (hq.congr_of_eventuallyEq ev) ?_
  have hH2 : e.H2 n (y n) = e.H n (y n)^2 := (InflN.H_sq (hH n hn)).symm
  have eV : 2 * e.pot.V (InflN.phi (y n)) - 6 * e.K * exp (-2 * n)
      = e.H n (y n)^2 * (6 - InflN.dphidN (y n)^2) := by
    rw [← hH2]; simp only [InflN.H2, N.get_H2, InflN.V]; field_simp
  simp only [N.get_dH, N.get_d2phi, N.get_dH_H, InflN.dVdphi, hH2]
  push_cast
  rw [eV]
  field_simp
  ring

end Primpy
