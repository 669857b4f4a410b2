import Verif.Lemmas.Exact
import Mathlib.Analysis.Calculus.ContDiff.Operations
import Mathlib.Analysis.Calculus.ContDiff.Deriv
import Mathlib.Analysis.SpecialFunctions.ExpDeriv

/-!
# An exact solution that starts on the boundary of inflation

`H(φ) = φ exp(φ²/18)`, in e-folds: `φ² = u = 27 exp(-4N/9) - 9`.  Inflation lasts from `u = 18` (`N = 0`) to `u = 9/2`.
-/

namespace Primpy.Exact.Start
open Real Set Spec

/-- the square of the field -/
noncomputable def u (n : ℝ) : ℝ := 27 * exp (-4 * n / 9) - 9
noncomputable def pV (φ : ℝ) : ℝ := exp (φ ^ 2 / 9) * (-2 + 23 / 9 * φ ^ 2 - 2 / 81 * φ ^ 4)
noncomputable def pdV (φ : ℝ) : ℝ := exp (φ ^ 2 / 9) * (46 / 9 * φ - 8 / 81 * φ ^ 3 + 2 * φ / 9 * (-2 + 23 / 9 * φ ^ 2 - 2 / 81 * φ ^ 4))
/-- `V = 3H² - 2H'²` -/
noncomputable def pot : PotFns := ⟨pV, pdV, deriv pdV, deriv (deriv pdV), deriv (deriv (deriv pdV))⟩
/-- flat, nothing tracked -/
noncomputable def eqN : InflN := ⟨0, pot, false, false⟩
noncomputable def Y (n : ℝ) : ℕ → ℝ
  | 0 => √(u n)
  | 1 => -(2 / 9 * (u n + 9)) / √(u n)
  | _ => 0
/-- where the solution is used -/
def S : Set ℝ := u ⁻¹' Ioo 1 81
/-- the end of inflation -/
noncomputable def Nend : ℝ := 9 / 4 * log 2
/-- a later point -/
noncomputable def N2 : ℝ := 9 / 4 * log (5 / 2)

theorem d1 : IsDerivOn univ pV pdV := fun φ _ => by
  have he : HasDerivAt (fun s : ℝ => exp (s ^ 2 / 9)) (exp (φ ^ 2 / 9) * (2 * φ / 9)) φ := by
    have h : HasDerivAt (fun s : ℝ => s ^ 2 / 9) (2 * φ / 9) φ := ((hasDerivAt_pow 2 φ).div_const 9).congr_deriv (by norm_num)
    exact h.exp
  have hp : HasDerivAt (fun s : ℝ => -2 + 23 / 9 * s ^ 2 - 2 / 81 * s ^ 4) (46 / 9 * φ - 8 / 81 * φ ^ 3) φ :=
    ((((hasDerivAt_pow 2 φ).const_mul (23 / 9)).const_add (-2)).sub ((hasDerivAt_pow 4 φ).const_mul (2 / 81))).congr_deriv (by norm_num; ring)
  exact (he.fun_mul hp).congr_deriv (by unfold pdV; ring)

theorem smooth : ContDiff ℝ 2 pdV := by
  unfold pdV
  fun_prop

theorem d2 : IsDerivOn univ pdV (deriv pdV) := fun φ _ => (smooth.differentiable (by norm_num) φ).hasDerivAt

theorem d3 : IsDerivOn univ (deriv pdV) (deriv (deriv pdV)) := fun φ _ =>
  ((ContDiff.differentiable_deriv_two smooth) φ).hasDerivAt

theorem u_anti : StrictAnti u := fun a b h => by
  have : exp (-4 * b / 9) < exp (-4 * a / 9) := exp_lt_exp.2 (by linarith)
  show 27 * exp (-4 * b / 9) - 9 < 27 * exp (-4 * a / 9) - 9
  linarith

theorem u_cont : Continuous u := by unfold u; fun_prop

theorem S_open : IsOpen S := isOpen_Ioo.preimage u_cont
theorem S_convex : Convex ℝ S := (ordConnected_Ioo.preimage_anti u_anti.antitone).convex

theorem u_zero : u 0 = 18 := by unfold u; norm_num
theorem u_log {c : ℝ} (hc : 0 < c) : u (9 / 4 * log c) = 27 / c - 9 := by
  unfold u
  rw [show -4 * (9 / 4 * log c) / 9 = -log c by ring, exp_neg, exp_log hc, div_eq_mul_inv]
theorem u_Nend : u Nend = 9 / 2 := by unfold Nend; rw [u_log (by norm_num)]; norm_num
theorem u_N2 : u N2 = 9 / 5 := by unfold N2; rw [u_log (by norm_num)]; norm_num
theorem Nend_pos : 0 < Nend := u_anti.lt_iff_gt.1 (by rw [u_Nend, u_zero]; norm_num)
theorem Nend_lt : Nend < N2 := u_anti.lt_iff_gt.1 (by rw [u_Nend, u_N2]; norm_num)

theorem mem_S {n : ℝ} (h0 : 0 ≤ n) (h2 : n ≤ N2) : n ∈ S := by
  have a := u_anti.antitone h0
  have b := u_anti.antitone h2
  rw [u_zero] at a
  rw [u_N2] at b
  constructor <;> linarith

theorem sqrt_u {n : ℝ} (hn : n ∈ S) : 0 < √(u n) ∧ √(u n) ^ 2 = u n ∧ 1 < u n ∧ u n < 81 := by
  have h1 : 1 < u n := hn.1
  have h2 : u n < 81 := hn.2
  exact ⟨sqrt_pos.2 (by linarith), sq_sqrt (by linarith), h1, h2⟩

theorem d_u (n : ℝ) : HasDerivAt u (-(4 / 9 * (u n + 9))) n := by
  have h : HasDerivAt (fun s : ℝ => -4 * s / 9) (-4 / 9) n := (((hasDerivAt_id n).const_mul (-4)).div_const 9).congr_deriv (by norm_num)
  exact ((h.exp.const_mul 27).sub_const 9).congr_deriv (by unfold u; ring)

theorem six {s v : ℝ} (hs : 0 < s) (hv : s ^ 2 = v) (h1 : 1 < v) (h2 : v < 81) :
    6 - (-(2 / 9 * (v + 9)) / s) ^ 2 = (-4 * v ^ 2 + 414 * v - 324) / (81 * v) ∧ 0 < -4 * v ^ 2 + 414 * v - 324 := by
  have hv0 : v ≠ 0 := by linarith
  refine ⟨?_, by nlinarith⟩
  rw [div_pow, hv]
  field_simp
  ring

theorem pV_sqrt {s v : ℝ} (hv : s ^ 2 = v) : pV s = exp (v / 9) * (-2 * v ^ 2 + 207 * v - 162) / 81 := by
  have h4 : s ^ 4 = v ^ 2 := by rw [← hv]; ring
  unfold pV
  rw [h4, hv]
  ring

theorem H2 {n : ℝ} (hn : n ∈ S) : eqN.H2 n (Y n) = u n * exp (u n / 9) := by
  obtain ⟨hs, hv, h1, h2⟩ := sqrt_u hn
  obtain ⟨h6, hp⟩ := six hs hv h1 h2
  show (2 * pV (√(u n)) - 6 * 0 * exp (-2 * n)) / (6 - (-(2 / 9 * (u n + 9)) / √(u n)) ^ 2) = _
  rw [h6, pV_sqrt hv]
  generalize u n = v at *
  generalize exp (v / 9) = e at *
  have : v ≠ 0 := by linarith
  rw [show 2 * (e * (-2 * v ^ 2 + 207 * v - 162) / 81) - 6 * 0 * exp (-2 * n) = e * (-4 * v ^ 2 + 414 * v - 324) / 81 by ring]
  generalize -4 * v ^ 2 + 414 * v - 324 = w at *
  have : w ≠ 0 := hp.ne'
  field_simp

theorem inflating {n : ℝ} (hn : n ∈ S) : eqN.inflating n (Y n) = -(2 / 27 * exp (u n / 9) * ((u n - 18) * (u n - 9 / 2))) := by
  obtain ⟨hs, hv, h1, h2⟩ := sqrt_u hn
  show pV (√(u n)) - eqN.H2 n (Y n) * (-(2 / 9 * (u n + 9)) / √(u n)) ^ 2 = _
  rw [H2 hn, pV_sqrt hv, div_pow, hv]
  have : u n ≠ 0 := by linarith
  field_simp
  ring

theorem sol : SolvesODE S eqN.rows eqN.call Y := by
  intro n hn i hi
  obtain ⟨hs, hv, h1, h2⟩ := sqrt_u hn
  have r : eqN.rows = 2 := by rw [InflN.rows_eq]; rfl
  rw [r] at hi
  have hu : u n ≠ 0 := by linarith
  have hphi : HasDerivAt (fun s => √(u s)) (-(2 / 9 * (u n + 9)) / √(u n)) n := ((d_u n).sqrt hu).congr_deriv (by field_simp; ring)
  interval_cases i
  · rw [InflN.call0]; exact hphi
  · rw [InflN.call1, H2 hn]
    have hd : HasDerivAt (fun s => -(2 / 9 * (u s + 9)) / √(u s)) _ n := ((((d_u n).add_const 9).const_mul (2 / 9)).fun_neg).fun_div hphi hs.ne'
    refine hd.congr_deriv ?_
    simp only [N.get_d2phi, N.get_dH_H, InflN.dphidN, InflN.dVdphi, InflN.phi, eqN, pot, Y, pdV]
    rw [hv]
    have he := exp_pos (u n / 9)
    generalize exp (u n / 9) = e at *
    generalize √(u n) = s at *
    rw [← hv]
    field_simp
    ring

theorem trajectory_pos : (∀ x ∈ S, 0 < eqN.H2 x (Y x)) ∧ ∀ x ∈ S, Y x 0 ∈ (univ : Set ℝ) :=
  ⟨fun x hx => by rw [H2 hx]; have := (sqrt_u hx).2.2.1; exact mul_pos (by linarith) (exp_pos _), fun _ _ => mem_univ _⟩

/-- sign of the criterion -/
theorem infl_pos {n : ℝ} (h0 : 0 < n) (h : n < Nend) : 0 < eqN.inflating n (Y n) := by
  rw [inflating (mem_S h0.le (h.trans Nend_lt).le)]
  have a := u_anti h0
  have b := u_anti h
  rw [u_zero] at a
  rw [u_Nend] at b
  have : (u n - 18) * (u n - 9 / 2) < 0 := mul_neg_of_neg_of_pos (by linarith) (by linarith)
  have e : 0 < 2 / 27 * exp (u n / 9) := by positivity
  have := mul_neg_of_pos_of_neg e this
  linarith

theorem infl_neg {n : ℝ} (h0 : Nend < n) (h : n ≤ N2) : eqN.inflating n (Y n) < 0 := by
  rw [inflating (mem_S (Nend_pos.trans h0).le h)]
  have b := u_anti h0
  rw [u_Nend] at b
  have : 0 < (u n - 18) * (u n - 9 / 2) := mul_pos_of_neg_of_neg (by linarith) (by linarith)
  have e : 0 < 2 / 27 * exp (u n / 9) := by positivity
  have := mul_pos e this
  linarith

theorem infl_zero : eqN.inflating 0 (Y 0) = 0 ∧ eqN.inflating Nend (Y Nend) = 0 := by
  rw [inflating (mem_S le_rfl (Nend_pos.trans Nend_lt).le), inflating (mem_S Nend_pos.le Nend_lt.le), u_zero, u_Nend]
  constructor <;> ring

end Primpy.Exact.Start
