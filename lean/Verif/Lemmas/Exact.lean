import Verif.Lemmas.Trajectory
import Mathlib.Tactic.IntervalCases

/-!
# Exact solutions used as non-vacuity witnesses

Exponential potentials have closed-form solutions; they show that the hypotheses of the trajectory
theorems (C14–C20, C49, C50, …) are met by non-trivial flat and curved universes.
-/

namespace Primpy.Exact
open Real Spec Set

/-- `V = c e^{-φ}` with its derivatives. -/
noncomputable def expPot (c : ℝ) : PotFns :=
  ⟨fun φ => c * exp (-φ), fun φ => -c * exp (-φ), fun φ => c * exp (-φ), fun φ => -c * exp (-φ),
   fun φ => c * exp (-φ)⟩

theorem expPot_chain (c : ℝ) : IsDerivChain univ (expPot c).V (expPot c).dV (expPot c).d2V
    (expPot c).d3V (expPot c).d4V := by
  have h : ∀ (k φ : ℝ), HasDerivAt (fun x : ℝ => k * exp (-x)) (-k * exp (-φ)) φ := fun k φ =>
    hderiv (((hasDerivAt_id φ).neg.exp).const_mul k) (by simp)
  refine ⟨fun φ _ => h c φ, fun φ _ => ?_, fun φ _ => h c φ, fun φ _ => ?_⟩ <;>
    exact hderiv (h (-c) φ) (by simp [expPot])

/-- flat, cosmic time, with conformal time tracked -/
noncomputable def flatT : InflT := ⟨0, expPot 10, true⟩
/-- closed (`K = 1`), cosmic time -/
noncomputable def curvedT : InflT := ⟨1, expPot 4, true⟩
/-- flat, e-folds, with `t` and `eta` tracked -/
noncomputable def flatN : InflN := ⟨0, expPot 10, true, true⟩
/-- closed, e-folds -/
noncomputable def curvedN : InflN := ⟨1, expPot 4, true, true⟩

/-- power-law inflation `a = t²` -/
noncomputable def yFlatT (t : ℝ) : ℕ → ℝ
  | 0 => 2 * log t | 1 => 2 / t | 2 => 2 * log t | _ => -1 / t
/-- coasting closed universe `a = t` -/
noncomputable def yCurvedT (t : ℝ) : ℕ → ℝ
  | 0 => 2 * log t | 1 => 2 / t | 2 => log t | _ => log t
noncomputable def yFlatN (n : ℝ) : ℕ → ℝ
  | 0 => n | 1 => 1 | 2 => exp (n / 2) | _ => -exp (-(n / 2))
noncomputable def yCurvedN (n : ℝ) : ℕ → ℝ
  | 0 => 2 * n | 1 => 2 | 2 => exp n | _ => n

theorem exp_neg_two_log {t : ℝ} (ht : 0 < t) : exp (-(2 * log t)) = 1 / t^2 := by
  rw [exp_neg, mul_comm, exp_mul, exp_log ht]; simp [one_div]

theorem flatT_H2 {t : ℝ} (ht : 0 < t) : flatT.H2 (yFlatT t) = (2 / t)^2 := by
  simp only [InflT.H2, T.get_H2, InflT.V, InflT.phi, InflT.dphidt, InflT._N, flatT, expPot, yFlatT,
    exp_neg_two_log ht]
  field_simp; norm_num

theorem flatT_H {t : ℝ} (ht : 0 < t) : flatT.H (yFlatT t) = 2 / t := by
  rw [InflT.H, flatT_H2 ht, sqrt_sq (by positivity)]

theorem curvedT_H2 {t : ℝ} (ht : 0 < t) : curvedT.H2 (yCurvedT t) = (1 / t)^2 := by
  have : exp (-2 * log t) = 1 / t^2 := by rw [neg_mul]; exact exp_neg_two_log ht
  simp only [InflT.H2, T.get_H2, InflT.V, InflT.phi, InflT.dphidt, InflT._N, curvedT, expPot,
    yCurvedT, exp_neg_two_log ht, this]
  field_simp; norm_num

theorem curvedT_H {t : ℝ} (ht : 0 < t) : curvedT.H (yCurvedT t) = 1 / t := by
  rw [InflT.H, curvedT_H2 ht, sqrt_sq (by positivity)]

private theorem d_inv {t : ℝ} (ht : 0 < t) (c : ℝ) :
    HasDerivAt (fun s : ℝ => c / s) (-c / t^2) t := by
  refine hderiv ((hasDerivAt_inv ht.ne').const_mul c) ?_
  field_simp

theorem flatT_sol : SolvesODE (Ioi 0) flatT.rows flatT.call yFlatT := by
  intro t ht i hi
  have ht' : (0:ℝ) < t := ht
  have r : flatT.rows = 4 := by rw [InflT.rows_eq]; rfl
  rw [r] at hi
  have hlog := hasDerivAt_log ht'.ne'
  interval_cases i
  · rw [InflT.call0]; refine hderiv (hlog.const_mul 2) ?_; simp [InflT.dphidt, yFlatT]; field_simp
  · rw [InflT.call1, flatT_H ht']; refine hderiv (d_inv ht' 2) ?_
    simp only [InflT.dphidt, InflT.dVdphi, flatT, expPot, InflT.phi, yFlatT, exp_neg_two_log ht']
    field_simp; norm_num
  · rw [InflT.call2, flatT_H ht']; refine hderiv (hlog.const_mul 2) ?_; field_simp
  · rw [InflT.call3 _ rfl]; refine hderiv (d_inv ht' (-1)) ?_
    simp only [InflT._N, yFlatT, exp_neg_two_log ht']; norm_num

theorem curvedT_sol : SolvesODE (Ioi 0) curvedT.rows curvedT.call yCurvedT := by
  intro t ht i hi
  have ht' : (0:ℝ) < t := ht
  have r : curvedT.rows = 4 := by rw [InflT.rows_eq]; rfl
  rw [r] at hi
  have hlog := hasDerivAt_log ht'.ne'
  interval_cases i
  · rw [InflT.call0]; refine hderiv (hlog.const_mul 2) ?_; simp [InflT.dphidt, yCurvedT]; field_simp
  · rw [InflT.call1, curvedT_H ht']; refine hderiv (d_inv ht' 2) ?_
    simp only [InflT.dphidt, InflT.dVdphi, curvedT, expPot, InflT.phi, yCurvedT, exp_neg_two_log ht']
    field_simp; norm_num
  · rw [InflT.call2, curvedT_H ht']; refine hderiv hlog ?_; field_simp
  · rw [InflT.call3 _ rfl]; refine hderiv hlog ?_
    simp only [InflT._N, yCurvedT]; rw [exp_neg, exp_log ht']

theorem flatN_H2 (n : ℝ) : flatN.H2 n (yFlatN n) = (2 * exp (-(n / 2)))^2 := by
  simp only [InflN.H2, N.get_H2, InflN.V, InflN.phi, InflN.dphidN, flatN, expPot, yFlatN]
  have : exp (-n) = exp (-(n / 2))^2 := by rw [← exp_nat_mul]; congr 1; push_cast; ring
  rw [this]; norm_num; ring

theorem flatN_H (n : ℝ) : flatN.H n (yFlatN n) = 2 * exp (-(n / 2)) := by
  rw [InflN.H, flatN_H2, sqrt_sq (by positivity)]

theorem curvedN_H2 (n : ℝ) : curvedN.H2 n (yCurvedN n) = exp (-n)^2 := by
  simp only [InflN.H2, N.get_H2, InflN.V, InflN.phi, InflN.dphidN, curvedN, expPot, yCurvedN]
  have h : exp (-(2 * n)) = exp (-n)^2 := by rw [← exp_nat_mul]; congr 1; push_cast; ring
  have h' : exp (-2 * n) = exp (-n)^2 := by rw [← exp_nat_mul]; congr 1; push_cast; ring
  rw [h, h']; norm_num; ring

theorem curvedN_H (n : ℝ) : curvedN.H n (yCurvedN n) = exp (-n) := by
  rw [InflN.H, curvedN_H2, sqrt_sq (exp_pos _).le]

theorem flatN_sol : SolvesODE univ flatN.rows flatN.call yFlatN := by
  intro n _ i hi
  have r : flatN.rows = 4 := by rw [InflN.rows_eq]; rfl
  rw [r] at hi
  have hid := hasDerivAt_id n
  have he : exp (-n) = exp (-(n / 2))^2 := by rw [← exp_nat_mul]; congr 1; push_cast; ring
  have hp := exp_pos (-(n/2))
  interval_cases i
  · rw [InflN.call0]; exact hid
  · rw [InflN.call1, flatN_H2]; refine hderiv (hasDerivAt_const n (1:ℝ)) ?_
    simp only [N.get_d2phi, N.get_dH_H, InflN.dphidN, InflN.dVdphi, flatN, expPot, InflN.phi, yFlatN,
      he]
    field_simp; norm_num; ring
  · rw [InflN.call_t _ rfl, flatN_H]; refine hderiv ((hid.div_const 2).exp) ?_
    rw [exp_neg]; simp
  · have := InflN.call_eta flatN rfl n (yFlatN n)
    rw [show (3:ℕ) = flatN.etaRow from rfl, this, flatN_H]
    refine hderiv (((hid.div_const 2).neg.exp).neg) ?_
    simp only [id, he, Pi.neg_apply]; field_simp

theorem curvedN_sol : SolvesODE univ curvedN.rows curvedN.call yCurvedN := by
  intro n _ i hi
  have r : curvedN.rows = 4 := by rw [InflN.rows_eq]; rfl
  rw [r] at hi
  have hid := hasDerivAt_id n
  have h : exp (-(2 * n)) = exp (-n)^2 := by rw [← exp_nat_mul]; congr 1; push_cast; ring
  have h' : exp (-2 * n) = exp (-n)^2 := by rw [← exp_nat_mul]; congr 1; push_cast; ring
  have hp := exp_pos (-n)
  interval_cases i
  · rw [InflN.call0]; exact hderiv (hid.const_mul 2) (by simp [InflN.dphidN, yCurvedN])
  · rw [InflN.call1, curvedN_H2]; refine hderiv (hasDerivAt_const n (2:ℝ)) ?_
    simp only [N.get_d2phi, N.get_dH_H, InflN.dphidN, InflN.dVdphi, curvedN, expPot, InflN.phi,
      yCurvedN, h, h']
    field_simp; norm_num
  · rw [InflN.call_t _ rfl, curvedN_H]; refine hderiv hid.exp ?_
    rw [exp_neg]; simp
  · have := InflN.call_eta curvedN rfl n (yCurvedN n)
    rw [show (3:ℕ) = curvedN.etaRow from rfl, this, curvedN_H]
    refine hderiv hid ?_
    field_simp

/-! ## Two solutions with a varying first Hubble-flow parameter -/

/-- `V = 3φ² - 2` (Hamilton–Jacobi solution `H = φ`). -/
noncomputable def hjPot : PotFns :=
  ⟨fun φ => 3 * φ^2 - 2, fun φ => 6 * φ, fun _ => 6, fun _ => 0, fun _ => 0⟩

theorem hjPot_chain : IsDerivChain univ hjPot.V hjPot.dV hjPot.d2V hjPot.d3V hjPot.d4V := by
  refine ⟨fun φ _ => ?_, fun φ _ => ?_, fun φ _ => ?_, fun φ _ => ?_⟩
  · refine hderiv ((((hasDerivAt_id φ).pow 2).const_mul 3).sub_const 2) ?_
    simp [hjPot]; ring
  · exact hderiv ((hasDerivAt_id φ).const_mul 6) (by simp [hjPot])
  · exact hasDerivAt_const φ 6
  · exact hasDerivAt_const φ 0

/-- flat, cosmic time, nothing tracked -/
noncomputable def hjT : InflT := ⟨0, hjPot, false⟩
/-- `φ = -2t`, `dφ/dt = -2`, `N = -t²`, `H = -2t` for `t < 0`. -/
noncomputable def yHjT (t : ℝ) : ℕ → ℝ
  | 0 => -2 * t | 1 => -2 | _ => -t^2

theorem hjT_H2 (t : ℝ) : hjT.H2 (yHjT t) = (-2 * t)^2 := by
  simp only [InflT.H2, T.get_H2, InflT.V, InflT.phi, InflT.dphidt, hjT, hjPot, yHjT]; ring

theorem hjT_H {t : ℝ} (ht : t < 0) : hjT.H (yHjT t) = -2 * t := by
  rw [InflT.H, hjT_H2, sqrt_sq (by linarith)]

theorem hjT_sol : SolvesODE (Iio 0) hjT.rows hjT.call yHjT := by
  intro t ht i hi
  have r : hjT.rows = 3 := by rw [InflT.rows_eq]; rfl
  rw [r] at hi
  interval_cases i
  · rw [InflT.call0]; exact hderiv ((hasDerivAt_id t).const_mul (-2)) (by simp [InflT.dphidt, yHjT])
  · rw [InflT.call1, hjT_H ht]; refine hderiv (hasDerivAt_const t (-2:ℝ)) ?_
    simp only [InflT.dphidt, InflT.dVdphi, hjT, hjPot, InflT.phi, yHjT]; ring
  · rw [InflT.call2, hjT_H ht]; refine hderiv (((hasDerivAt_id t).pow 2).neg) ?_; simp

/-- a cosmological constant: `V = 3` -/
noncomputable def ccPot : PotFns := ⟨fun _ => 3, fun _ => 0, fun _ => 0, fun _ => 0, fun _ => 0⟩
theorem ccPot_chain : IsDerivChain univ ccPot.V ccPot.dV ccPot.d2V ccPot.d3V ccPot.d4V :=
  ⟨fun φ _ => hasDerivAt_const φ 3, fun φ _ => hasDerivAt_const φ 0, fun φ _ => hasDerivAt_const φ 0,
    fun φ _ => hasDerivAt_const φ 0⟩
/-- closed de Sitter space in e-folds, nothing tracked -/
noncomputable def dsN : InflN := ⟨1, ccPot, false, false⟩
noncomputable def yDsN (_n : ℝ) : ℕ → ℝ := fun _ => 0

theorem dsN_H2 (n : ℝ) : dsN.H2 n (yDsN n) = 1 - exp (-2 * n) := by
  simp only [InflN.H2, N.get_H2, InflN.V, InflN.dphidN, dsN, ccPot, yDsN]; ring

theorem dsN_pos {n : ℝ} (hn : 0 < n) : 0 < dsN.H2 n (yDsN n) := by
  rw [dsN_H2, sub_pos, exp_lt_one_iff]; linarith

theorem dsN_sol : SolvesODE (Ioi 0) dsN.rows dsN.call yDsN := by
  intro n _ i hi
  have r : dsN.rows = 2 := by rw [InflN.rows_eq]; rfl
  rw [r] at hi
  interval_cases i
  · rw [InflN.call0]; exact hderiv (hasDerivAt_const n (0:ℝ)) (by simp [InflN.dphidN, yDsN])
  · rw [InflN.call1]; refine hderiv (hasDerivAt_const n (0:ℝ)) ?_
    simp [N.get_d2phi, InflN.dphidN, yDsN, InflN.dVdphi, dsN, ccPot]

end Primpy.Exact
