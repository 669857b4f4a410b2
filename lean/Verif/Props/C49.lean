import Verif.Model.Perturbations
import Verif.Spec.Perturbations
import Verif.Lemmas.Universe
import Verif.Lemmas.Exact
import Verif.Lemmas.Trajectory

/-!
# C49: the Mukhanov-Sasaki equations in cosmic time and in e-folds are the same equation
-/

namespace Primpy
open Real Spec
namespace Pert

/-- The grid point of a cosmic-time background at time `t` of the universe `(N, φ, φ̇, H)`. -/
noncomputable def ptT (K : ℝ) (N φ p H : ℝ → ℝ) (t : ℝ) : Pt :=
  ⟨t, N t, φ t, p t, H t, -K / (exp (N t) * H t) ^ 2, log (exp (N t) * H t)⟩

/-- The grid point of an e-folds background after `n` e-folds. -/
noncomputable def ptN (K : ℝ) (φ q H : ℝ → ℝ) (n : ℝ) : Pt :=
  ⟨n, n, φ n, q n, H n, -K / (exp n * H n) ^ 2, log (exp n * H n)⟩

/-- The functions `φ'`, `q' = dφ/dN`, `H'` of e-folds describe the same universe as the functions `N, φ, p = dφ/dt, H` of
cosmic time. -/
structure SameUniverse (S : Set ℝ) (N φ p H φ' q' H' : ℝ → ℝ) : Prop where
  phi : ∀ t ∈ S, φ' (N t) = φ t
  velocity : ∀ t ∈ S, q' (N t) = p t / H t
  hubble : ∀ t ∈ S, H' (N t) = H t

variable {S D : Set ℝ} {pot : PotFns} {K : ℝ} {N φ p H : ℝ → ℝ}

/-- Change of time variable in an oscillator equation. -/
theorem residual_change (hS : IsOpen S) (u : IsUniverse S pot.V pot.dV K N φ p H) (hV : IsDerivOn D pot.V pot.dV)
    (hφ : ∀ t ∈ S, φ t ∈ D) (ω2T γT : ℝ → ℝ) (ω2N γN : ℝ → ℝ)
    (hω : ∀ t ∈ S, ω2T t = H t ^ 2 * ω2N (N t))
    (hγ : ∀ t ∈ S, 2 * γT t * H t + (-(p t) ^ 2 / 2 + K * exp (-2 * N t)) = H t ^ 2 * (2 * γN (N t)))
    (f f1 f2 : ℝ → ℂ) (hf : Twice (N '' S) f f1 f2) :
    ∃ R1 R2 : ℝ → ℂ, Twice S (fun t => f (N t)) R1 R2 ∧
      ∀ t ∈ S, oscillator ω2T γT (fun t => f (N t)) R1 R2 t = (H t : ℂ) ^ 2 * oscillator ω2N γN f f1 f2 (N t) := by
  have hdH := u.dH hS hV hφ
  refine ⟨fun t => (H t : ℂ) * f1 (N t), fun t => (((-(p t) ^ 2 / 2 + K * exp (-2 * N t) : ℝ)) : ℂ) * f1 (N t)
    + (H t : ℂ) * ((H t : ℂ) * f2 (N t)), ⟨fun t ht => ?_, fun t ht => ?_⟩, fun t ht => ?_⟩
  · have := (hf.first (N t) ⟨t, ht, rfl⟩).scomp t (u.hubble t ht)
    rw [Complex.real_smul] at this
    exact this
  · have h1 := (hf.second (N t) ⟨t, ht, rfl⟩).scomp t (u.hubble t ht)
    rw [Complex.real_smul] at h1
    exact (hdH t ht).ofReal_comp.mul h1
  · have e1 : (ω2T t : ℂ) = (H t : ℂ) ^ 2 * (ω2N (N t) : ℂ) := by rw [hω t ht]; push_cast; rfl
    have e2 : 2 * (γT t : ℂ) * (H t : ℂ) + (((-(p t) ^ 2 / 2 + K * exp (-2 * N t) : ℝ)) : ℂ) =
        (H t : ℂ) ^ 2 * (2 * (γN (N t) : ℂ)) := by
      have := hγ t ht
      exact_mod_cast this
    simp only [oscillator]
    linear_combination f (N t) * e1 + f1 (N t) * e2

theorem exp_two_mul_inv (n : ℝ) : (exp n) ^ 2 = (exp (-2 * n))⁻¹ := by
  rw [← exp_neg, ← exp_nat_mul]; congr 1; push_cast; ring

/-- **C49, scalar modes.**  Any universe, curvature and wavenumber.  `f` is the mode as a function of e-folds; as a function of
time it is `t ↦ f (N t)`.  The left-hand side of the cosmic-time equation `R'' + 2 γ R' + ω² R = 0` with the frequency
and damping the time formulation hands to oscode is `H²` times that of the e-folds equation: one holds exactly if the
other does. -/
theorem C49_scalar (hS : IsOpen S) (u : IsUniverse S pot.V pot.dV K N φ p H) (hV : IsDerivOn D pot.V pot.dV)
    (hφ : ∀ t ∈ S, φ t ∈ D) {φ' q' H' : ℝ → ℝ} (s : SameUniverse S N φ p H φ' q' H') (k : ℝ)
    (f f1 f2 : ℝ → ℂ) (hf : Twice (N '' S) f f1 f2) :
    ∃ R1 R2 : ℝ → ℂ, Twice S (fun t => f (N t)) R1 R2 ∧ ∀ t ∈ S,
      oscillator (fun t => ScalarT.frequency2 pot K k (ptT K N φ p H t)) (fun t => ScalarT.damping pot K k (ptT K N φ p H t))
        (fun t => f (N t)) R1 R2 t =
      (H t : ℂ) ^ 2 * oscillator (fun n => ScalarN.frequency2 pot K k (ptN K φ' q' H' n))
        (fun n => ScalarN.damping pot K k (ptN K φ' q' H' n)) f f1 f2 (N t) := by
  refine residual_change hS u hV hφ _ _ _ _ (fun t ht => ?_) (fun t ht => ?_) f f1 f2 hf
  all_goals
    have hH := u.expanding t ht
    have hE := exp_pos (-2 * N t)
    have e2 : exp (2 * N t) = (exp (-2 * N t))⁻¹ := by rw [← exp_neg]; congr 1; ring
    have e3 := exp_two_mul_inv (N t)
    have hden : kappa2 k K + K * ((p t / H t) ^ 2 / 2) = kappa2 k K + K * p t ^ 2 / (2 * H t ^ 2) := by
      field_simp
    have hdV : pot.dV (φ t) / (H t ^ 2 * (p t / H t)) = pot.dV (φ t) / (H t * p t) := by
      rw [show H t ^ 2 * (p t / H t) = H t * p t by field_simp]
    simp only [ScalarT.frequency2, ScalarN.frequency2, ScalarT.damping, ScalarN.damping, ScalarT.shared, ScalarT.terms,
      ScalarN.damping2, ScalarN.xi, ptT, ptN, s.phi t ht, s.velocity t ht, s.hubble t ht, hden, hdV, mul_pow, e2, e3]
    obtain ⟨sh, hsh⟩ : ∃ sh, sh = 2 * kappa2 k K / (kappa2 k K + K * p t ^ 2 / (2 * H t ^ 2)) := ⟨_, rfl⟩
    obtain ⟨d, hd⟩ : ∃ d, d = pot.dV (φ t) / (H t * p t) := ⟨_, rfl⟩
    rw [← hsh, ← hd]
    field_simp
    ring

/-- **C49, tensor modes.** -/
theorem C49_tensor (hS : IsOpen S) (u : IsUniverse S pot.V pot.dV K N φ p H) (hV : IsDerivOn D pot.V pot.dV)
    (hφ : ∀ t ∈ S, φ t ∈ D) {φ' q' H' : ℝ → ℝ} (s : SameUniverse S N φ p H φ' q' H') (k : ℝ)
    (f f1 f2 : ℝ → ℂ) (hf : Twice (N '' S) f f1 f2) :
    ∃ h1 h2 : ℝ → ℂ, Twice S (fun t => f (N t)) h1 h2 ∧ ∀ t ∈ S,
      oscillator (fun t => TensorT.frequency2 K k (ptT K N φ p H t)) (fun t => TensorT.damping (ptT K N φ p H t))
        (fun t => f (N t)) h1 h2 t =
      (H t : ℂ) ^ 2 * oscillator (fun n => TensorN.frequency2 K k (ptN K φ' q' H' n))
        (fun n => TensorN.damping K (ptN K φ' q' H' n)) f f1 f2 (N t) := by
  refine residual_change hS u hV hφ _ _ _ _ (fun t ht => ?_) (fun t ht => ?_) f f1 f2 hf
  all_goals
    have hH := u.expanding t ht
    simp only [TensorT.frequency2, TensorN.frequency2, TensorT.damping, TensorN.damping, ptT, ptN, s.velocity t ht,
      s.hubble t ht]
    field_simp
    try ring

/-- **C49, as handed to oscode.**  The frequency arrays (square roots taken, imaginary where the square is negative)
differ by the factor `H`, at every grid point, for both kinds of modes. -/
theorem C49_frequency (u : IsUniverse S pot.V pot.dV K N φ p H) {φ' q' H' : ℝ → ℝ} (s : SameUniverse S N φ p H φ' q' H')
    (bT bN : Bg) (hbT : bT.indep = .t) (hbN : bN.indep = .N) (hKT : bT.K = K) (hKN : bN.K = K) (hpT : bT.pot = pot)
    (hpN : bN.pot = pot) (k : ℝ) :
    ∃ sT tT sN tN, modes bT k = some (sT, tT) ∧ modes bN k = some (sN, tN) ∧ sT.pps_norm = sN.pps_norm ∧
      tT.pps_norm = tN.pps_norm ∧ ∀ t ∈ S,
      csqrt (sT.frequency2 (ptT K N φ p H t)) = H t * csqrt (sN.frequency2 (ptN K φ' q' H' (N t))) ∧
      csqrt (tT.frequency2 (ptT K N φ p H t)) = H t * csqrt (tN.frequency2 (ptN K φ' q' H' (N t))) := by
  have key : ∀ x y h : ℝ, 0 < h → x = h ^ 2 * y → csqrt x = (h : ℂ) * csqrt y := by
    intro x y h hh hx
    have h2 : 0 < h ^ 2 := by positivity
    unfold csqrt
    subst hx
    by_cases hy : 0 ≤ y
    · rw [if_pos hy, if_pos (by positivity), sqrt_mul h2.le, sqrt_sq hh.le]
      push_cast; rfl
    · have hy' : 0 < -y := by linarith
      rw [if_neg hy, if_neg (by nlinarith), show -(h ^ 2 * y) = h ^ 2 * -y by ring, sqrt_mul h2.le, sqrt_sq hh.le]
      push_cast; ring
  subst hKT; subst hpT
  obtain ⟨sT, tT, e1, e2, e3, e4, e5⟩ : ∃ sT tT, modes bT k = some (sT, tT) ∧
      sT.frequency2 = ScalarT.frequency2 bT.pot bT.K k ∧ tT.frequency2 = TensorT.frequency2 bT.K k ∧
      sT.pps_norm = k ^ 3 / (2 * π ^ 2) ∧ tT.pps_norm = k ^ 3 / (2 * π ^ 2) * 2 := by
    rw [modes, hbT]; exact ⟨_, _, rfl, rfl, rfl, rfl, rfl⟩
  obtain ⟨sN, tN, f1, f2, f3, f4, f5⟩ : ∃ sN tN, modes bN k = some (sN, tN) ∧
      sN.frequency2 = ScalarN.frequency2 bN.pot bN.K k ∧ tN.frequency2 = TensorN.frequency2 bN.K k ∧
      sN.pps_norm = k ^ 3 / (2 * π ^ 2) ∧ tN.pps_norm = k ^ 3 / (2 * π ^ 2) * 2 := by
    rw [modes, hbN]; exact ⟨_, _, rfl, rfl, rfl, rfl, rfl⟩
  refine ⟨sT, tT, sN, tN, e1, f1, e4.trans f4.symm, e5.trans f5.symm, fun t ht => ⟨?_, ?_⟩⟩
  · rw [e2, f2]
    have hH := u.expanding t ht
    refine key _ _ _ hH ?_
    have hE := exp_pos (-2 * N t)
    have e2 : exp (2 * N t) = (exp (-2 * N t))⁻¹ := by rw [← exp_neg]; congr 1; ring
    have e3 := exp_two_mul_inv (N t)
    have hden : kappa2 k bT.K + bT.K * ((p t / H t) ^ 2 / 2) = kappa2 k bT.K + bT.K * p t ^ 2 / (2 * H t ^ 2) := by
      field_simp
    have hdV : bT.pot.dV (φ t) / (H t ^ 2 * (p t / H t)) = bT.pot.dV (φ t) / (H t * p t) := by
      rw [show H t ^ 2 * (p t / H t) = H t * p t by field_simp]
    simp only [ScalarT.frequency2, ScalarN.frequency2, ScalarT.shared, ScalarT.terms,
      ScalarN.damping2, ScalarN.xi, ptT, ptN, s.phi t ht, s.velocity t ht, s.hubble t ht, hKN, hpN, hden, hdV, mul_pow, e2, e3]
    obtain ⟨sh, hsh⟩ : ∃ sh, sh = 2 * kappa2 k bT.K / (kappa2 k bT.K + bT.K * p t ^ 2 / (2 * H t ^ 2)) := ⟨_, rfl⟩
    obtain ⟨d, hd⟩ : ∃ d, d = bT.pot.dV (φ t) / (H t * p t) := ⟨_, rfl⟩
    rw [← hsh, ← hd]
    field_simp
    ring
  · rw [e3, f3]
    have hH := u.expanding t ht
    refine key _ _ _ hH ?_
    simp only [TensorT.frequency2, TensorN.frequency2, ptT, ptN, s.hubble t ht, hKN]
    field_simp

open Exact in
/-- Hypotheses met: the closed universe `a = t`, with the mode `f = exp` (of e-folds). -/
example : IsUniverse (Set.Ioi 0) curvedT.pot.V curvedT.pot.dV 1 (fun t => InflT._N (yCurvedT t))
      (fun t => InflT.phi (yCurvedT t)) (fun t => InflT.dphidt (yCurvedT t)) (fun t => curvedT.H (yCurvedT t)) ∧
    SameUniverse (Set.Ioi 0) (fun t => InflT._N (yCurvedT t)) (fun t => InflT.phi (yCurvedT t))
      (fun t => InflT.dphidt (yCurvedT t)) (fun t => curvedT.H (yCurvedT t)) (fun n => InflN.phi (yCurvedN n))
      (fun n => InflN.dphidN (yCurvedN n)) (fun n => curvedN.H n (yCurvedN n)) ∧
    Twice ((fun t => InflT._N (yCurvedT t)) '' Set.Ioi 0) (fun n => (exp n : ℝ)) (fun n => (exp n : ℝ)) (fun n => (exp n : ℝ)) := by
  refine ⟨InflT.universe curvedT_sol fun t ht => ?_, ⟨fun t ht => ?_, fun t ht => ?_, fun t ht => ?_⟩, ⟨?_, ?_⟩⟩
  · have ht : 0 < t := ht
    rw [curvedT_H2 ht]; positivity
  · simp [InflN.phi, InflT.phi, yCurvedT, yCurvedN, InflT._N]
  · have ht : 0 < t := ht
    rw [curvedT_H ht]
    simp [InflN.dphidN, InflT.dphidt, yCurvedT, yCurvedN]
    try field_simp
  · have ht : 0 < t := ht
    rw [curvedT_H ht, curvedN_H]
    simp [InflT._N, yCurvedT, exp_neg, exp_log ht]
  all_goals exact fun x _ => (hasDerivAt_exp x).ofReal_comp

end Pert
end Primpy
