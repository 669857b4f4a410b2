import Verif.Props.C49

/-!
# C50: the Mukhanov-Sasaki equation is the standard one
-/

namespace Primpy
open Real Spec
namespace Pert

variable {S D : Set ℝ} {pot : PotFns} {K : ℝ} {N φ p H : ℝ → ℝ}

/-- the kinetic weight of the curvature perturbation: `a³ (φ̇/H)² / (κ² + K φ̇²/(2H²))`, `κ²` the Laplacian eigenvalue -/
noncomputable def weight (κ2 K : ℝ) (N p H : ℝ → ℝ) (t : ℝ) : ℝ :=
  exp (N t) ^ 3 * (p t / H t) ^ 2 / (κ2 + K * p t ^ 2 / (2 * H t ^ 2))

theorem hasDerivAt_scale {N : ℝ → ℝ} {h t : ℝ} (hN : HasDerivAt N h t) :
    HasDerivAt (fun s => exp (N s)) (exp (N t) * h) t := hN.exp

theorem hasDerivAt_weight (hS : IsOpen S) (u : IsUniverse S pot.V pot.dV K N φ p H) (hV : IsDerivOn D pot.V pot.dV)
    (hφ : ∀ t ∈ S, φ t ∈ D) (k : ℝ) (hp : ∀ t ∈ S, p t ≠ 0)
    (hden : ∀ t ∈ S, k ^ 2 + k * K * (K + 1) - 3 * K + K * p t ^ 2 / (2 * H t ^ 2) ≠ 0) : ∀ t ∈ S,
    HasDerivAt (weight (k ^ 2 + k * K * (K + 1) - 3 * K) K N p H)
      (weight (k ^ 2 + k * K * (K + 1) - 3 * K) K N p H t * (2 * ScalarT.damping pot K k (ptT K N φ p H t))) t := by
  intro t ht
  obtain ⟨κ2, hκ⟩ : ∃ κ2, κ2 = k ^ 2 + k * K * (K + 1) - 3 * K := ⟨_, rfl⟩
  have hd := hden t ht
  rw [← hκ] at hd ⊢
  have hH := u.expanding t ht
  have hpt := hp t ht
  have hdH := u.dH hS hV hφ t ht
  have hdp := u.kleinGordon t ht
  have h1 := ((hasDerivAt_scale (u.hubble t ht)).pow 3).mul ((hdp.div hdH hH.ne').pow 2)
  have h2 := (((hdp.pow 2).const_mul K).div ((hdH.pow 2).const_mul 2) (mul_ne_zero two_ne_zero (pow_ne_zero 2 hH.ne'))).const_add κ2
  have h3 := h1.div h2 hd
  refine hderiv h3 ?_
  have hE := exp_pos (N t)
  simp only [weight, ScalarT.damping, ScalarT.shared, ScalarT.terms, ptT, kappa2, ← hκ, Pi.mul_apply, Pi.pow_apply, Pi.div_apply]
  obtain ⟨X, hX⟩ : ∃ X, X = exp (-2 * N t) := ⟨_, rfl⟩
  obtain ⟨c, hc⟩ : ∃ c, c = κ2 + K * p t ^ 2 / (2 * H t ^ 2) := ⟨_, rfl⟩
  have hκ' : κ2 = c - K * p t ^ 2 / (2 * H t ^ 2) := by rw [hc]; ring
  rw [← hX, ← hc]
  rw [← hc] at hd
  rw [hκ']
  clear hκ hκ' hc h3 h2 h1 hdp hdH hX hden
  have hH0 := hH.ne'
  have e1 : ((3 : ℕ) : ℝ) = 3 := by norm_num
  have e2 : ((2 : ℕ) : ℝ) = 2 := by norm_num
  rw [e1, e2, show 3 - 1 = 2 from rfl, show 2 - 1 = 1 from rfl, pow_one, pow_one, pow_one]
  field_simp
  ring

/-- **C50, scalar modes, any curvature.**  The equation `R'' + 2 γ R' + ω² R = 0` handed to oscode is the Euler-Lagrange
equation `(M R')' + M ω² R = 0` with the kinetic weight `M` above. -/
theorem C50_scalar_weight (hS : IsOpen S) (u : IsUniverse S pot.V pot.dV K N φ p H) (hV : IsDerivOn D pot.V pot.dV)
    (hφ : ∀ t ∈ S, φ t ∈ D) (k : ℝ) (hp : ∀ t ∈ S, p t ≠ 0)
    (hden : ∀ t ∈ S, k ^ 2 + k * K * (K + 1) - 3 * K + K * p t ^ 2 / (2 * H t ^ 2) ≠ 0)
    (R R1 R2 : ℝ → ℂ) (hR : Twice S R R1 R2) :
    ∀ t ∈ S, HasDerivAt (fun t => (weight (k ^ 2 + k * K * (K + 1) - 3 * K) K N p H t : ℂ) * R1 t)
      ((weight (k ^ 2 + k * K * (K + 1) - 3 * K) K N p H t : ℂ) *
        (oscillator (fun t => ScalarT.frequency2 pot K k (ptT K N φ p H t)) (fun t => ScalarT.damping pot K k (ptT K N φ p H t))
          R R1 R2 t - (ScalarT.frequency2 pot K k (ptT K N φ p H t) : ℂ) * R t)) t := by
  intro t ht
  have hM := hasDerivAt_weight hS u hV hφ k hp hden t ht
  have := hM.ofReal_comp.mul (hR.second t ht)
  refine this.congr_deriv ?_
  simp only [oscillator]
  push_cast
  ring

/-- **C50, tensor modes, any curvature.**  `(a³ h')' + a³ (k² + k K (K+1) + 2K)/a² h = 0`. -/
theorem C50_tensor_weight (u : IsUniverse S pot.V pot.dV K N φ p H) (k : ℝ) (h h1 h2 : ℝ → ℂ) (hh : Twice S h h1 h2) :
    ∀ t ∈ S, HasDerivAt (fun t => ((exp (N t) ^ 3 : ℝ) : ℂ) * h1 t)
      (((exp (N t) ^ 3 : ℝ) : ℂ) * (oscillator (fun t => TensorT.frequency2 K k (ptT K N φ p H t))
          (fun t => TensorT.damping (ptT K N φ p H t)) h h1 h2 t
        - (((k ^ 2 + k * K * (K + 1) + 2 * K) / exp (N t) ^ 2 : ℝ) : ℂ) * h t)) t := by
  intro t ht
  have h3 := (hasDerivAt_scale (u.hubble t ht)).pow 3
  refine (h3.ofReal_comp.mul (hh.second t ht)).congr_deriv ?_
  have e : TensorT.frequency2 K k (ptT K N φ p H t) = (k ^ 2 + k * K * (K + 1) + 2 * K) / exp (N t) ^ 2 := by
    simp only [TensorT.frequency2, ptT]
    rw [exp_two_mul_inv, div_inv_eq_mul]
  simp only [oscillator, e]
  simp only [TensorT.damping, ptT, Pi.pow_apply]
  push_cast
  ring

/-- **C50, flat.**  The frequency is `k / a` for both kinds of modes. -/
theorem C50_flat_frequency (k : ℝ) (hk : 0 ≤ k) (t : ℝ) :
    csqrt (ScalarT.frequency2 pot 0 k (ptT 0 N φ p H t)) = (k / exp (N t) : ℝ) ∧
    csqrt (TensorT.frequency2 0 k (ptT 0 N φ p H t)) = (k / exp (N t) : ℝ) := by
  have e : k ^ 2 * exp (-2 * N t) = (k / exp (N t)) ^ 2 := by
    rw [div_pow, exp_two_mul_inv, div_inv_eq_mul]
  have hE := exp_pos (N t)
  have : csqrt ((k / exp (N t)) ^ 2) = (k / exp (N t) : ℝ) := by
    unfold csqrt
    rw [if_pos (by positivity), sqrt_sq (by positivity)]
  constructor
  · rw [← this]; congr 1
    simp only [ScalarT.frequency2, ptT, kappa2]
    rw [← e]; ring
  · rw [← this]; congr 1
    simp only [TensorT.frequency2, ptT]
    rw [← e]; ring

/-- **C50, flat scalar modes: the canonical Mukhanov-Sasaki equation.**  With `z = a φ̇/H`, `v = z R` and primes denoting
derivatives with respect to conformal time, `v'' + (k² - z''/z) v` is `a² z` times the left-hand side of the
equation handed to oscode. -/
theorem C50_flat_canonical (hS : IsOpen S) (u : IsUniverse S pot.V pot.dV 0 N φ p H) (hV : IsDerivOn D pot.V pot.dV)
    (hV2 : IsDerivOn D pot.dV pot.d2V) (hφ : ∀ t ∈ S, φ t ∈ D) (k : ℝ) (hk : k ≠ 0) (hp : ∀ t ∈ S, p t ≠ 0)
    (R R1 R2 : ℝ → ℂ) (hR : Twice S R R1 R2) :
    let z : ℝ → ℂ := fun t => ((exp (N t) * p t / H t : ℝ) : ℂ)
    ∃ z1 z2 v1 v2 : ℝ → ℂ, IsConformalDeriv S N z z1 ∧ IsConformalDeriv S N z1 z2 ∧
      IsConformalDeriv S N (fun t => z t * R t) v1 ∧ IsConformalDeriv S N v1 v2 ∧
      ∀ t ∈ S, v2 t + ((k : ℂ) ^ 2 - z2 t / z t) * (z t * R t) = ((exp (N t) : ℝ) : ℂ) ^ 2 * z t *
        oscillator (fun t => ScalarT.frequency2 pot 0 k (ptT 0 N φ p H t)) (fun t => ScalarT.damping pot 0 k (ptT 0 N φ p H t))
          R R1 R2 t := by
  intro z
  have hdH : IsDerivOn S H (fun t => -(p t) ^ 2 / 2) := fun t ht => by
    simpa using u.dH hS hV hφ t ht
  -- first derivative of z, as a function
  obtain ⟨dz, hdz⟩ : ∃ dz : ℝ → ℝ, dz = fun t => exp (N t) * (p t + (-(3 * H t * p t) - pot.dV (φ t)) / H t + p t ^ 3 / (2 * H t ^ 2)) :=
    ⟨_, rfl⟩
  have hz : ∀ t ∈ S, HasDerivAt (fun t => exp (N t) * p t / H t) (dz t) t := by
    intro t ht
    have hH := u.expanding t ht
    refine hderiv (((hasDerivAt_scale (u.hubble t ht)).mul (u.kleinGordon t ht)).div (hdH t ht) hH.ne') ?_
    simp only [hdz, Pi.mul_apply]
    field_simp
    ring
  have hddz : ∀ t ∈ S, ∃ d, HasDerivAt dz d t := by
    intro t ht
    have hH := u.expanding t ht
    have h2H : (2 * H t ^ 2) ≠ 0 := by positivity
    have hdp := u.kleinGordon t ht
    have hdV := (hV2 _ (hφ t ht)).comp t (u.velocity t ht)
    rw [hdz]
    exact ⟨_, (hasDerivAt_scale (u.hubble t ht)).mul ((hdp.add
      (((((hdH t ht).const_mul 3).mul hdp).neg.sub hdV).div (hdH t ht) hH.ne')).add
        ((hdp.pow 3).div (((hdH t ht).pow 2).const_mul 2) h2H))⟩
  choose! ddz hddz using hddz
  have ha : ∀ t ∈ S, HasDerivAt (fun t => ((exp (N t) : ℝ) : ℂ)) ((exp (N t) * H t : ℝ) : ℂ) t := fun t ht =>
    (hasDerivAt_scale (u.hubble t ht)).ofReal_comp
  have hzc : ∀ t ∈ S, HasDerivAt z (dz t : ℂ) t := fun t ht => (hz t ht).ofReal_comp
  have hdzc : ∀ t ∈ S, HasDerivAt (fun t => (dz t : ℂ)) (ddz t : ℂ) t := fun t ht => (hddz t ht).ofReal_comp
  refine ⟨fun t => ((exp (N t) : ℝ) : ℂ) * dz t,
    fun t => ((exp (N t) : ℝ) : ℂ) * (((exp (N t) * H t : ℝ) : ℂ) * dz t + ((exp (N t) : ℝ) : ℂ) * ddz t),
    fun t => ((exp (N t) : ℝ) : ℂ) * ((dz t : ℂ) * R t + z t * R1 t),
    fun t => ((exp (N t) : ℝ) : ℂ) * (((exp (N t) * H t : ℝ) : ℂ) * ((dz t : ℂ) * R t + z t * R1 t) +
      ((exp (N t) : ℝ) : ℂ) * (((ddz t : ℂ) * R t + (dz t : ℂ) * R1 t) + ((dz t : ℂ) * R1 t + z t * R2 t))),
    ⟨_, hzc, fun t _ => rfl⟩, ⟨_, fun t ht => (ha t ht).mul (hdzc t ht), fun t _ => rfl⟩,
    ⟨_, fun t ht => (hzc t ht).mul (hR.first t ht), fun t _ => rfl⟩,
    ⟨_, fun t ht => (ha t ht).mul (((hdzc t ht).mul (hR.first t ht)).add ((hzc t ht).mul (hR.second t ht))), fun t _ => rfl⟩, ?_⟩
  intro t ht
  have hH := u.expanding t ht
  have hpt := hp t ht
  have hE := exp_pos (N t)
  have hz0 : z t ≠ 0 := by
    simp only [z, ne_eq, Complex.ofReal_eq_zero]
    exact div_ne_zero (mul_ne_zero hE.ne' hpt) hH.ne'
  -- damping: 2 γ z = H z + 2 z'
  have hγ : 2 * ScalarT.damping pot 0 k (ptT 0 N φ p H t) * (exp (N t) * p t / H t) =
      H t * (exp (N t) * p t / H t) + 2 * dz t := by
    simp only [ScalarT.damping, ScalarT.shared, ScalarT.terms, ptT, kappa2, hdz]
    field_simp
    ring
  have hω : ScalarT.frequency2 pot 0 k (ptT 0 N φ p H t) * exp (N t) ^ 2 = k ^ 2 := by
    simp only [ScalarT.frequency2, ptT, kappa2]
    rw [exp_two_mul_inv]
    field_simp
    ring
  have hγ' : 2 * (ScalarT.damping pot 0 k (ptT 0 N φ p H t) : ℂ) * z t = (H t : ℂ) * z t + 2 * (dz t : ℂ) := by
    simp only [z]; exact_mod_cast hγ
  have hω' : (ScalarT.frequency2 pot 0 k (ptT 0 N φ p H t) : ℂ) * ((exp (N t) : ℝ) : ℂ) ^ 2 = (k : ℂ) ^ 2 := by
    exact_mod_cast hω
  simp only [oscillator]
  have hq : ∀ w : ℂ, w / z t * (z t * R t) = w * R t := fun w => by field_simp
  rw [sub_mul, hq]
  push_cast
  push_cast at hω'
  linear_combination (-(Complex.exp (N t)) ^ 2 * R1 t) * hγ' - (z t * R t) * hω'

open Exact in
/-- Hypotheses met: the closed universe `a = t` with `k = 2`, and the flat universe `a = t²`. -/
example : (IsUniverse (Set.Ioi 0) curvedT.pot.V curvedT.pot.dV 1 (fun t => InflT._N (yCurvedT t))
      (fun t => InflT.phi (yCurvedT t)) (fun t => InflT.dphidt (yCurvedT t)) (fun t => curvedT.H (yCurvedT t)) ∧
    (∀ t ∈ Set.Ioi (0 : ℝ), InflT.dphidt (yCurvedT t) ≠ 0 ∧
      (2 : ℝ) ^ 2 + 2 * 1 * (1 + 1) - 3 * 1 + 1 * InflT.dphidt (yCurvedT t) ^ 2 / (2 * curvedT.H (yCurvedT t) ^ 2) ≠ 0)) ∧
    (IsUniverse (Set.Ioi 0) flatT.pot.V flatT.pot.dV 0 (fun t => InflT._N (yFlatT t))
      (fun t => InflT.phi (yFlatT t)) (fun t => InflT.dphidt (yFlatT t)) (fun t => flatT.H (yFlatT t)) ∧
    ∀ t ∈ Set.Ioi (0 : ℝ), InflT.dphidt (yFlatT t) ≠ 0) := by
  refine ⟨⟨InflT.universe curvedT_sol fun t ht => ?_, fun t ht => ⟨?_, ?_⟩⟩, InflT.universe flatT_sol fun t ht => ?_, fun t ht => ?_⟩
  all_goals have ht : 0 < t := ht
  · rw [curvedT_H2 ht]; positivity
  · simp [InflT.dphidt, yCurvedT, ht.ne']
  · have : (0 : ℝ) ≤ 1 * InflT.dphidt (yCurvedT t) ^ 2 / (2 * curvedT.H (yCurvedT t) ^ 2) := by positivity
    linarith
  · rw [flatT_H2 ht]; positivity
  · simp [InflT.dphidt, yFlatT, ht.ne']

end Pert
end Primpy
