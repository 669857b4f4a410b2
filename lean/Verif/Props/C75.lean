import Verif.Props.C48
import Verif.Props.C49
import Verif.Props.C52
import Verif.Lemmas.Freeze

/-!
# C75: modes freeze outside the horizon
-/

namespace Primpy
open Real Spec

/-- `H' = dH/dN` of a universe described with e-folds. -/
theorem Spec.IsUniverseN.dH {S D : Set ℝ} {V dV : ℝ → ℝ} {K : ℝ} {φ q H : ℝ → ℝ} (hS : IsOpen S) (hV : IsDerivOn D V dV)
    (hφ : ∀ n ∈ S, φ n ∈ D) (u : IsUniverseN S V dV K φ q H) :
    IsDerivOn S H (fun n => -(H n * q n ^ 2 / 2) + K * exp (-2 * n) / H n) := by
  intro n hn
  have hH := u.expanding n hn
  refine hasDerivAt_of_sq hS hn u.expanding ?_
  have h1 : HasDerivAt (fun s => ((H s * q s) ^ 2 / 2 + V (φ s) - 3 * K * exp (-2 * s)) / 3) _ n :=
    ((((u.kleinGordon n hn).fun_pow 2).div_const 2).fun_add ((hV _ (hφ n hn)).comp n (u.velocity n hn))).fun_sub
      ((hasDerivAt_exp_neg_two_id n).const_mul (3 * K)) |>.div_const 3
  have e : (fun s => H s ^ 2) =ᶠ[nhds n] (fun s => ((H s * q s) ^ 2 / 2 + V (φ s) - 3 * K * exp (-2 * s)) / 3) := by
    filter_upwards [hS.mem_nhds hn] with s hs
    have := u.friedmann s hs; linarith
  refine (h1.congr_of_eventuallyEq e).congr_deriv ?_
  field_simp
  push_cast
  ring

namespace Pert

variable {S D : Set ℝ} {pot : PotFns} {K : ℝ}

/-- What freezing means, in cosmic time, for a mode `f` with derivative `f1` and comoving wavenumber `κ` (`κ2 = κ²`) between `t1` and `t2`:
* the energy `a² |f'|² + κ² |f|²` has not grown;
* the drift of `f` is bounded by the root of that energy times the conformal time elapsed;
* if the Hubble radius shrinks (`-Ḣ/H² ≤ e < 1` in between), the drift is at most `√(|f'|²/H² + (κ/aH)² |f|²)/(1 - e)`, taken
  at `t1`: it no longer depends on `t2`. -/
structure FreezesT (κ2 : ℝ) (N H : ℝ → ℝ) (f f1 : ℝ → ℂ) (t1 t2 : ℝ) : Prop where
  energy : exp (N t2) ^ 2 * ‖f1 t2‖ ^ 2 + κ2 * ‖f t2‖ ^ 2 ≤ exp (N t1) ^ 2 * ‖f1 t1‖ ^ 2 + κ2 * ‖f t1‖ ^ 2
  conformal : ∀ η : ℝ → ℝ, (∀ t ∈ Set.Icc t1 t2, HasDerivAt η (exp (-N t)) t) →
    ‖f t2 - f t1‖ ≤ √(exp (N t1) ^ 2 * ‖f1 t1‖ ^ 2 + κ2 * ‖f t1‖ ^ 2) * (η t2 - η t1)
  shrinking : ∀ (dH : ℝ → ℝ) (e : ℝ), e < 1 → (∀ t ∈ Set.Icc t1 t2, HasDerivAt H (dH t) t ∧ -dH t / H t ^ 2 ≤ e) →
    ‖f t2 - f t1‖ ≤ √(‖f1 t1‖ ^ 2 / H t1 ^ 2 + κ2 / (exp (N t1) * H t1) ^ 2 * ‖f t1‖ ^ 2) / (1 - e)

/-- The same with e-folds as time: `f1 = df/dN`. -/
structure FreezesN (κ2 : ℝ) (H : ℝ → ℝ) (f f1 : ℝ → ℂ) (n1 n2 : ℝ) : Prop where
  energy : (exp n2 * H n2) ^ 2 * ‖f1 n2‖ ^ 2 + κ2 * ‖f n2‖ ^ 2 ≤ (exp n1 * H n1) ^ 2 * ‖f1 n1‖ ^ 2 + κ2 * ‖f n1‖ ^ 2
  conformal : ∀ η : ℝ → ℝ, (∀ n ∈ Set.Icc n1 n2, HasDerivAt η (1 / (exp n * H n)) n) →
    ‖f n2 - f n1‖ ≤ √((exp n1 * H n1) ^ 2 * ‖f1 n1‖ ^ 2 + κ2 * ‖f n1‖ ^ 2) * (η n2 - η n1)
  shrinking : ∀ (dH : ℝ → ℝ) (e : ℝ), e < 1 → (∀ n ∈ Set.Icc n1 n2, HasDerivAt H (dH n) n ∧ -dH n / H n ≤ e) →
    ‖f n2 - f n1‖ ≤ √(‖f1 n1‖ ^ 2 + κ2 / (exp n1 * H n1) ^ 2 * ‖f n1‖ ^ 2) / (1 - e)

theorem energy_eqT (κ2 : ℝ) (N : ℝ → ℝ) (f f1 : ℝ → ℂ) (t : ℝ) :
    oscEnergy κ2 (fun t => exp (-2 * N t)) f f1 t = exp (N t) ^ 2 * ‖f1 t‖ ^ 2 + κ2 * ‖f t‖ ^ 2 := by
  unfold oscEnergy
  rw [exp_two_mul_inv]
  ring

/-- damping at least `H/2` freezes -/
theorem freezesT {κ2 : ℝ} (hκ : 0 ≤ κ2) {N H γ : ℝ → ℝ} {f f1 f2 : ℝ → ℂ} {t1 t2 : ℝ} (h12 : t1 ≤ t2)
    (hN : ∀ t ∈ Set.Icc t1 t2, HasDerivAt N (H t) t) (hH : ∀ t ∈ Set.Icc t1 t2, 0 < H t) (hf : Twice (Set.Icc t1 t2) f f1 f2)
    (ho : ∀ t ∈ Set.Icc t1 t2, oscillator (fun t => κ2 * exp (-2 * N t)) γ f f1 f2 t = 0)
    (hγ : ∀ t ∈ Set.Icc t1 t2, H t ≤ 2 * γ t) : FreezesT κ2 N H f f1 t1 t2 := by
  have hw : ∀ t ∈ Set.Icc t1 t2, 0 < exp (-2 * N t) := fun t _ => exp_pos _
  have hw' : ∀ t ∈ Set.Icc t1 t2, HasDerivAt (fun t => exp (-2 * N t)) (-2 * H t * exp (-2 * N t)) t := fun t ht =>
    hasDerivAt_exp_neg_two (hN t ht)
  have hg : ∀ t ∈ Set.Icc t1 t2, 0 ≤ 4 * γ t + -2 * H t * exp (-2 * N t) / exp (-2 * N t) := fun t ht => by
    have := hγ t ht
    rw [mul_div_assoc, div_self (exp_pos _).ne']
    linarith
  have hs : ∀ t, √(exp (-2 * N t)) = exp (-N t) := fun t => by
    rw [show exp (-2 * N t) = exp (-N t) ^ 2 by rw [← exp_nat_mul]; congr 1; push_cast; ring]
    exact sqrt_sq (exp_pos _).le
  have hm1 : t1 ∈ Set.Icc t1 t2 := ⟨le_rfl, h12⟩
  refine ⟨?_, fun η hη => ?_, fun dH e he hdH => ?_⟩
  · have := oscEnergy_antitone hw hw' hf ho hg hm1 ⟨h12, le_rfl⟩ h12
    rwa [energy_eqT, energy_eqT] at this
  · have := osc_drift hκ h12 hw hw' hf ho hg hη (fun t _ => (hs t).le)
    rwa [energy_eqT] at this
  · have he' : 0 < 1 - e := by linarith
    have h1 := hH t1 hm1
    have hη : ∀ t ∈ Set.Icc t1 t2, HasDerivAt (fun t => -((exp (N t) * H t)⁻¹ / (1 - e)))
        ((exp (N t) * H t * H t + exp (N t) * dH t) / (exp (N t) * H t) ^ 2 / (1 - e)) t := fun t ht => by
      have hHt := hH t ht
      have hE := exp_pos (N t)
      have := ((((hN t ht).exp.fun_mul (hdH t ht).1).fun_inv (by positivity)).div_const (1 - e)).fun_neg
      refine this.congr_deriv ?_
      ring
    have := osc_drift hκ h12 hw hw' hf ho hg hη fun t ht => by
      have hHt := hH t ht
      have hE := exp_pos (N t)
      have hd := (hdH t ht).2
      rw [hs, exp_neg, le_div_iff₀ he', le_div_iff₀ (by positivity)]
      rw [div_le_iff₀ (by positivity)] at hd
      have : (exp (N t))⁻¹ * (1 - e) * (exp (N t) * H t) ^ 2 = exp (N t) * ((1 - e) * H t ^ 2) := by
        field_simp
      rw [this]
      nlinarith
    rw [energy_eqT] at this
    refine this.trans ?_
    have hE := exp_pos (N t1)
    have h2 : 0 < (exp (N t2) * H t2)⁻¹ / (1 - e) := by
      have := hH t2 ⟨h12, le_rfl⟩
      positivity
    have h3 : -((exp (N t2) * H t2)⁻¹ / (1 - e)) - -((exp (N t1) * H t1)⁻¹ / (1 - e)) ≤ (exp (N t1) * H t1)⁻¹ / (1 - e) := by
      linarith
    refine (mul_le_mul_of_nonneg_left h3 (sqrt_nonneg _)).trans (le_of_eq ?_)
    rw [← mul_div_assoc]
    congr 1
    rw [show (exp (N t1) * H t1)⁻¹ = √(((exp (N t1) * H t1) ^ 2)⁻¹) by
      rw [sqrt_inv, sqrt_sq (by positivity)], ← sqrt_mul (by positivity)]
    congr 1
    field_simp

theorem energy_eqN {κ2 : ℝ} {H : ℝ → ℝ} (f f1 : ℝ → ℂ) (n : ℝ) :
    oscEnergy κ2 (fun n => exp (-2 * n) / H n ^ 2) f f1 n = (exp n * H n) ^ 2 * ‖f1 n‖ ^ 2 + κ2 * ‖f n‖ ^ 2 := by
  unfold oscEnergy
  rw [mul_pow, exp_two_mul_inv, div_div_eq_mul_div]
  ring

theorem freezesN {κ2 : ℝ} (hκ : 0 ≤ κ2) {H H' γ : ℝ → ℝ} {f f1 f2 : ℝ → ℂ} {t1 t2 : ℝ} (h12 : t1 ≤ t2)
    (hH : ∀ t ∈ Set.Icc t1 t2, 0 < H t) (hH' : ∀ t ∈ Set.Icc t1 t2, HasDerivAt H (H' t) t) (hf : Twice (Set.Icc t1 t2) f f1 f2)
    (ho : ∀ t ∈ Set.Icc t1 t2, oscillator (fun n => κ2 * (exp (-2 * n) / H n ^ 2)) γ f f1 f2 t = 0)
    (hγ : ∀ t ∈ Set.Icc t1 t2, 1 + H' t / H t ≤ 2 * γ t) : FreezesN κ2 H f f1 t1 t2 := by
  have hw : ∀ t ∈ Set.Icc t1 t2, 0 < exp (-2 * t) / H t ^ 2 := fun t ht => by
    have := hH t ht; have := exp_pos (-2 * t); positivity
  have hw' : ∀ t ∈ Set.Icc t1 t2, HasDerivAt (fun n => exp (-2 * n) / H n ^ 2)
      ((-2 * exp (-2 * t) * H t ^ 2 - exp (-2 * t) * (2 * H t * H' t)) / (H t ^ 2) ^ 2) t := fun t ht => by
    have h0 := hH t ht
    have := (hasDerivAt_exp_neg_two_id t).fun_div ((hH' t ht).fun_pow 2) (by positivity)
    refine this.congr_deriv ?_
    push_cast
    ring
  have hg : ∀ t ∈ Set.Icc t1 t2, 0 ≤ 4 * γ t +
      (-2 * exp (-2 * t) * H t ^ 2 - exp (-2 * t) * (2 * H t * H' t)) / (H t ^ 2) ^ 2 / (exp (-2 * t) / H t ^ 2) := fun t ht => by
    have h0 := hH t ht
    have := hγ t ht
    have hE := exp_pos (-2 * t)
    have e : (-2 * exp (-2 * t) * H t ^ 2 - exp (-2 * t) * (2 * H t * H' t)) / (H t ^ 2) ^ 2 / (exp (-2 * t) / H t ^ 2) =
        -2 * (1 + H' t / H t) := by
      field_simp
      ring
    rw [e]
    linarith
  have hs : ∀ t ∈ Set.Icc t1 t2, √(exp (-2 * t) / H t ^ 2) = 1 / (exp t * H t) := fun t ht => by
    have h0 := hH t ht
    have hE := exp_pos t
    rw [show exp (-2 * t) / H t ^ 2 = (1 / (exp t * H t)) ^ 2 by
      rw [div_pow, mul_pow, exp_two_mul_inv]; field_simp]
    exact sqrt_sq (by positivity)
  have hm1 : t1 ∈ Set.Icc t1 t2 := ⟨le_rfl, h12⟩
  refine ⟨?_, fun η hη => ?_, fun dH e he hdH => ?_⟩
  · have := oscEnergy_antitone hw hw' hf ho hg hm1 ⟨h12, le_rfl⟩ h12
    rwa [energy_eqN, energy_eqN] at this
  · have := osc_drift hκ h12 hw hw' hf ho hg hη (fun t ht => (hs t ht).le)
    rwa [energy_eqN] at this
  · have he' : 0 < 1 - e := by linarith
    have h1 := hH t1 hm1
    have hη : ∀ t ∈ Set.Icc t1 t2, HasDerivAt (fun t => -((exp t * H t)⁻¹ / (1 - e)))
        ((exp t * H t + exp t * dH t) / (exp t * H t) ^ 2 / (1 - e)) t := fun t ht => by
      have hHt := hH t ht
      have hE := exp_pos t
      have := ((((hasDerivAt_exp t).fun_mul (hdH t ht).1).fun_inv (by positivity)).div_const (1 - e)).fun_neg
      refine this.congr_deriv ?_
      ring
    have := osc_drift hκ h12 hw hw' hf ho hg hη fun t ht => by
      have hHt := hH t ht
      have hE := exp_pos t
      have hd := (hdH t ht).2
      rw [hs t ht, le_div_iff₀ he', le_div_iff₀ (by positivity)]
      rw [div_le_iff₀ (by positivity)] at hd
      have : 1 / (exp t * H t) * (1 - e) * (exp t * H t) ^ 2 = exp t * ((1 - e) * H t) := by
        field_simp
      rw [this]
      nlinarith
    rw [energy_eqN] at this
    refine this.trans ?_
    have hE := exp_pos t1
    have h2 : 0 < (exp t2 * H t2)⁻¹ / (1 - e) := by
      have := hH t2 ⟨h12, le_rfl⟩
      positivity
    have h3 : -((exp t2 * H t2)⁻¹ / (1 - e)) - -((exp t1 * H t1)⁻¹ / (1 - e)) ≤ (exp t1 * H t1)⁻¹ / (1 - e) := by
      linarith
    refine (mul_le_mul_of_nonneg_left h3 (sqrt_nonneg _)).trans (le_of_eq ?_)
    rw [← mul_div_assoc]
    congr 1
    rw [show (exp t1 * H t1)⁻¹ = √(((exp t1 * H t1) ^ 2)⁻¹) by
      rw [sqrt_inv, sqrt_sq (by positivity)], ← sqrt_mul (by positivity)]
    congr 1
    field_simp

theorem Twice.mono' {S T : Set ℝ} {f f1 f2 : ℝ → ℂ} (h : Twice S f f1 f2) (hT : T ⊆ S) : Twice T f f1 f2 :=
  ⟨fun x hx => h.first x (hT hx), fun x hx => h.second x (hT hx)⟩

/-- **C75, tensor modes, cosmic time, any curvature** (`k² + k K (K+1) + 2K ≥ 0`: every `k` in a flat or closed universe, `k² ≥ 2` in an
open one): every solution of the equation handed to oscode freezes, at all times. -/
theorem C75_tensor_time {N φ p H : ℝ → ℝ} (u : IsUniverse S pot.V pot.dV K N φ p H) (k : ℝ) (hκ : 0 ≤ k ^ 2 + k * K * (K + 1) + 2 * K)
    (h h1 h2 : ℝ → ℂ) (hh : Twice S h h1 h2) (hode : ∀ t ∈ S, oscillator (fun t => TensorT.frequency2 K k (ptT K N φ p H t))
      (fun t => TensorT.damping (ptT K N φ p H t)) h h1 h2 t = 0) {t1 t2 : ℝ} (h12 : t1 ≤ t2) (hI : Set.Icc t1 t2 ⊆ S) :
    FreezesT (k ^ 2 + k * K * (K + 1) + 2 * K) N H h h1 t1 t2 := by
  refine freezesT hκ (γ := fun t => TensorT.damping (ptT K N φ p H t)) h12 (fun t ht => u.hubble t (hI ht)) (fun t ht => u.expanding t (hI ht))
    (Twice.mono' hh hI) (fun t ht => hode t (hI ht)) fun t ht => ?_
  have := u.expanding t (hI ht)
  simp only [TensorT.damping, ptT]
  linarith

/-- **C75, tensor modes, e-folds.** -/
theorem C75_tensor_efolds (hS : IsOpen S) {φ q H : ℝ → ℝ} (u : IsUniverseN S pot.V pot.dV K φ q H) (hV : IsDerivOn D pot.V pot.dV)
    (hφ : ∀ n ∈ S, φ n ∈ D) (k : ℝ) (hκ : 0 ≤ k ^ 2 + k * K * (K + 1) + 2 * K)
    (h h1 h2 : ℝ → ℂ) (hh : Twice S h h1 h2) (hode : ∀ n ∈ S, oscillator (fun n => TensorN.frequency2 K k (ptN K φ q H n))
      (fun n => TensorN.damping K (ptN K φ q H n)) h h1 h2 n = 0) {n1 n2 : ℝ} (h12 : n1 ≤ n2) (hI : Set.Icc n1 n2 ⊆ S) :
    FreezesN (k ^ 2 + k * K * (K + 1) + 2 * K) H h h1 n1 n2 := by
  refine freezesN hκ (γ := fun n => TensorN.damping K (ptN K φ q H n)) h12 (fun t ht => u.expanding t (hI ht))
    (fun t ht => u.dH hS hV hφ t (hI ht)) (Twice.mono' hh hI) (fun t ht => ?_) fun t ht => ?_
  · rw [← hode t (hI ht)]
    simp only [TensorN.frequency2, ptN, oscillator, mul_div_assoc]
  · have h0 := u.expanding t (hI ht)
    simp only [TensorN.damping, ptN]
    rw [show (-(H t * q t ^ 2 / 2) + K * exp (-2 * t) / H t) / H t = -(q t ^ 2 / 2) + K * exp (-2 * t) / H t ^ 2 by field_simp]
    linarith

/-- **C75, curvature perturbations, cosmic time, flat.**  They freeze wherever `ε₂ = d ln ε₁/dN ≥ -2`, `ε₁ = φ̇²/(2H²)` (in slow roll `ε₂` is
small; in ultra-slow roll it is `-6` and the modes grow). -/
theorem C75_scalar_time (hS : IsOpen S) {N φ p H : ℝ → ℝ} (u : IsUniverse S pot.V pot.dV 0 N φ p H) (hV : IsDerivOn D pot.V pot.dV)
    (hφ : ∀ t ∈ S, φ t ∈ D) (hp : ∀ t ∈ S, p t ≠ 0) (k : ℝ) (hk : k ≠ 0) (e2 : ℝ → ℝ)
    (he2 : ∀ t ∈ S, HasDerivAt (fun t => p t ^ 2 / (2 * H t ^ 2)) (H t * (p t ^ 2 / (2 * H t ^ 2) * e2 t)) t)
    (R R1 R2 : ℝ → ℂ) (hR : Twice S R R1 R2) (hode : ∀ t ∈ S, oscillator (fun t => ScalarT.frequency2 pot 0 k (ptT 0 N φ p H t))
      (fun t => ScalarT.damping pot 0 k (ptT 0 N φ p H t)) R R1 R2 t = 0) {t1 t2 : ℝ} (h12 : t1 ≤ t2) (hI : Set.Icc t1 t2 ⊆ S)
    (hsr : ∀ t ∈ Set.Icc t1 t2, -2 ≤ e2 t) : FreezesT (k ^ 2) N H R R1 t1 t2 := by
  refine freezesT (sq_nonneg k) (γ := fun t => ScalarT.damping pot 0 k (ptT 0 N φ p H t)) h12 (fun t ht => u.hubble t (hI ht))
    (fun t ht => u.expanding t (hI ht)) (Twice.mono' hR hI) (fun t ht => ?_) fun t ht => ?_
  · rw [← hode t (hI ht)]
    simp only [ScalarT.frequency2, ptT, oscillator, kappa2]
    push_cast
    ring
  · have ht' := hI ht
    have h0 := u.expanding t ht'
    have hp0 := hp t ht'
    have hdH : HasDerivAt H (-(p t) ^ 2 / 2) t := by simpa using u.dH hS hV hφ t ht'
    have hd := ((u.kleinGordon t ht').fun_pow 2).fun_div ((hdH.fun_pow 2).const_mul 2) (by positivity)
    have := hd.unique (he2 t ht')
    have hγ : 2 * ScalarT.damping pot 0 k (ptT 0 N φ p H t) = H t * (3 + e2 t) := by
      simp only [ScalarT.damping, ScalarT.shared, ScalarT.terms, ptT, kappa2]
      have hk2 : k ^ 2 ≠ 0 := pow_ne_zero 2 hk
      have e : e2 t = (2 * p t * (-(3 * H t * p t) - pot.dV (φ t)) * (2 * H t ^ 2) - p t ^ 2 * (2 * (2 * H t * (-p t ^ 2 / 2)))) /
          (2 * H t ^ 2) ^ 2 / (H t * (p t ^ 2 / (2 * H t ^ 2))) := by
        rw [eq_div_iff (by positivity)]
        push_cast at this
        rw [pow_one, pow_one] at this
        linarith
      rw [e]
      field_simp
      ring
    rw [hγ]
    have := hsr t ht
    nlinarith

/-- **C75, curvature perturbations, e-folds, flat.** -/
theorem C75_scalar_efolds (hS : IsOpen S) {φ q H : ℝ → ℝ} (u : IsUniverseN S pot.V pot.dV 0 φ q H) (hV : IsDerivOn D pot.V pot.dV)
    (hφ : ∀ n ∈ S, φ n ∈ D) (hq : ∀ n ∈ S, q n ≠ 0) (k : ℝ) (hk : k ≠ 0) (e2 : ℝ → ℝ)
    (he2 : ∀ n ∈ S, HasDerivAt (fun n => q n ^ 2 / 2) (q n ^ 2 / 2 * e2 n) n)
    (R R1 R2 : ℝ → ℂ) (hR : Twice S R R1 R2) (hode : ∀ n ∈ S, oscillator (fun n => ScalarN.frequency2 pot 0 k (ptN 0 φ q H n))
      (fun n => ScalarN.damping pot 0 k (ptN 0 φ q H n)) R R1 R2 n = 0) {n1 n2 : ℝ} (h12 : n1 ≤ n2) (hI : Set.Icc n1 n2 ⊆ S)
    (hsr : ∀ n ∈ Set.Icc n1 n2, -2 ≤ e2 n) : FreezesN (k ^ 2) H R R1 n1 n2 := by
  refine freezesN (sq_nonneg k) (γ := fun n => ScalarN.damping pot 0 k (ptN 0 φ q H n)) h12
    (fun t ht => u.expanding t (hI ht)) (fun t ht => u.dH hS hV hφ t (hI ht)) (Twice.mono' hR hI) (fun t ht => ?_) fun t ht => ?_
  · rw [← hode t (hI ht)]
    have h0 := u.expanding t (hI ht)
    have : k ^ 2 * (exp (-2 * t) / H t ^ 2) = ScalarN.frequency2 pot 0 k (ptN 0 φ q H t) := by
      simp only [ScalarN.frequency2, ptN, kappa2]
      rw [show exp (2 * t) = (exp (-2 * t))⁻¹ by rw [← exp_neg]; congr 1; ring]
      have := exp_pos (-2 * t)
      field_simp
      ring
    simp only [oscillator]
    rw [← this]
  · have ht' := hI ht
    have h0 := u.expanding t ht'
    have hq0 := hq t ht'
    have hdH : HasDerivAt H (-(H t * q t ^ 2 / 2)) t := by simpa using u.dH hS hV hφ t ht'
    -- (H q)² / 2 = H² · q²/2
    have hd1 := ((u.kleinGordon t ht').fun_pow 2).div_const 2
    have hd2 := (hdH.fun_pow 2).fun_mul (he2 t ht')
    have hfun : (fun n => H n ^ 2 * (q n ^ 2 / 2)) = fun n => (H n * q n) ^ 2 / 2 := by funext n; ring
    rw [hfun] at hd2
    have := hd1.unique hd2
    push_cast at this
    rw [pow_one] at this
    have hγ : 2 * ScalarN.damping pot 0 k (ptN 0 φ q H t) = 3 + e2 t - q t ^ 2 / 2 := by
      simp only [ScalarN.damping, ScalarN.damping2, ScalarN.xi, ptN, kappa2]
      have hk2 : k ^ 2 ≠ 0 := pow_ne_zero 2 hk
      have e : e2 t = (2 * (H t * q t) ^ 1 * ((-(3 * H t ^ 2 * q t) - pot.dV (φ t)) / H t) / 2
          - 2 * H t ^ 1 * -(H t * q t ^ 2 / 2) * (q t ^ 2 / 2)) / (H t ^ 2 * (q t ^ 2 / 2)) := by
        rw [eq_div_iff (by positivity), pow_one, pow_one]
        linarith
      rw [e]
      field_simp
      ring
    rw [hγ]
    have h1 := hsr t ht
    rw [show (-(H t * q t ^ 2 / 2) + 0 * exp (-2 * t) / H t) / H t = -(q t ^ 2 / 2) by field_simp; ring]
    linarith

/-- **C75, after the integration stops.**  Flat universe, cosmic time, tensor modes.  At a grid point `t1` that passes the stop test
(`log aH - log k > log fac_end`), a mode deviates from then on, as long as `-Ḣ/H² ≤ e < 1`, by at most
`√(|h'|²/H² + |h|²/fac_end²)/(1 - e)`. -/
theorem C75_stop_tensor {N φ p H : ℝ → ℝ} (u : IsUniverse S pot.V pot.dV 0 N φ p H) {k fac : ℝ} (hk : 0 < k) (hfac : 0 < fac)
    (h h1 h2 : ℝ → ℂ) (hh : Twice S h h1 h2) (hode : ∀ t ∈ S, oscillator (fun t => TensorT.frequency2 0 k (ptT 0 N φ p H t))
      (fun t => TensorT.damping (ptT 0 N φ p H t)) h h1 h2 t = 0) {t1 t2 : ℝ} (h12 : t1 ≤ t2) (hI : Set.Icc t1 t2 ⊆ S)
    (hstop : endTest k fac (ptT 0 N φ p H t1).logaH)
    {dH : ℝ → ℝ} {e : ℝ} (he : e < 1) (hdH : ∀ t ∈ Set.Icc t1 t2, HasDerivAt H (dH t) t ∧ -dH t / H t ^ 2 ≤ e) :
    ‖h t2 - h t1‖ ≤ √(‖h1 t1‖ ^ 2 / H t1 ^ 2 + ‖h t1‖ ^ 2 / fac ^ 2) / (1 - e) := by
  have hκ : (0 : ℝ) ≤ k ^ 2 + k * 0 * (0 + 1) + 2 * 0 := by positivity
  have := (C75_tensor_time u k hκ h h1 h2 hh hode h12 hI).shrinking dH e he hdH
  refine this.trans ?_
  have h0 := u.expanding t1 (hI ⟨le_rfl, h12⟩)
  have hE := exp_pos (N t1)
  rw [endTest_iff hk hfac] at hstop
  simp only [ptT] at hstop
  rw [exp_log (by positivity)] at hstop
  have : (k ^ 2 + k * 0 * (0 + 1) + 2 * 0) / (exp (N t1) * H t1) ^ 2 ≤ 1 / fac ^ 2 := by
    rw [div_le_div_iff₀ (by positivity) (by positivity)]
    have : (fac * k) ^ 2 ≤ (exp (N t1) * H t1) ^ 2 := pow_le_pow_left₀ (by positivity) hstop.le 2
    nlinarith
  have h1e : 0 < 1 - e := by linarith
  have hn := sq_nonneg ‖h t1‖
  gcongr
  calc (k ^ 2 + k * 0 * (0 + 1) + 2 * 0) / (exp (N t1) * H t1) ^ 2 * ‖h t1‖ ^ 2 ≤ 1 / fac ^ 2 * ‖h t1‖ ^ 2 :=
        mul_le_mul_of_nonneg_right this hn
    _ = _ := by ring

/-- The same for curvature perturbations, given `ε₂ ≥ -2`. -/
theorem C75_stop_scalar (hS : IsOpen S) {N φ p H : ℝ → ℝ} (u : IsUniverse S pot.V pot.dV 0 N φ p H) (hV : IsDerivOn D pot.V pot.dV)
    (hφ : ∀ t ∈ S, φ t ∈ D) (hp : ∀ t ∈ S, p t ≠ 0) {k fac : ℝ} (hk : 0 < k) (hfac : 0 < fac) (e2 : ℝ → ℝ)
    (he2 : ∀ t ∈ S, HasDerivAt (fun t => p t ^ 2 / (2 * H t ^ 2)) (H t * (p t ^ 2 / (2 * H t ^ 2) * e2 t)) t)
    (R R1 R2 : ℝ → ℂ) (hR : Twice S R R1 R2) (hode : ∀ t ∈ S, oscillator (fun t => ScalarT.frequency2 pot 0 k (ptT 0 N φ p H t))
      (fun t => ScalarT.damping pot 0 k (ptT 0 N φ p H t)) R R1 R2 t = 0) {t1 t2 : ℝ} (h12 : t1 ≤ t2) (hI : Set.Icc t1 t2 ⊆ S)
    (hsr : ∀ t ∈ Set.Icc t1 t2, -2 ≤ e2 t) (hstop : endTest k fac (ptT 0 N φ p H t1).logaH)
    {dH : ℝ → ℝ} {e : ℝ} (he : e < 1) (hdH : ∀ t ∈ Set.Icc t1 t2, HasDerivAt H (dH t) t ∧ -dH t / H t ^ 2 ≤ e) :
    ‖R t2 - R t1‖ ≤ √(‖R1 t1‖ ^ 2 / H t1 ^ 2 + ‖R t1‖ ^ 2 / fac ^ 2) / (1 - e) := by
  have := (C75_scalar_time hS u hV hφ hp k hk.ne' e2 he2 R R1 R2 hR hode h12 hI hsr).shrinking dH e he hdH
  refine this.trans ?_
  have h0 := u.expanding t1 (hI ⟨le_rfl, h12⟩)
  have hE := exp_pos (N t1)
  rw [endTest_iff hk hfac] at hstop
  simp only [ptT] at hstop
  rw [exp_log (by positivity)] at hstop
  have : k ^ 2 / (exp (N t1) * H t1) ^ 2 ≤ 1 / fac ^ 2 := by
    rw [div_le_div_iff₀ (by positivity) (by positivity)]
    have : (fac * k) ^ 2 ≤ (exp (N t1) * H t1) ^ 2 := pow_le_pow_left₀ (by positivity) hstop.le 2
    nlinarith
  have h1e : 0 < 1 - e := by linarith
  have hn := sq_nonneg ‖R t1‖
  gcongr
  calc k ^ 2 / (exp (N t1) * H t1) ^ 2 * ‖R t1‖ ^ 2 ≤ 1 / fac ^ 2 * ‖R t1‖ ^ 2 :=
        mul_le_mul_of_nonneg_right this hn
    _ = _ := by ring

/-! ## From the modes to the reported spectrum -/

/-- the median of numbers within `δ` of `c` is within `δ` of `c` -/
theorem nanmedian_near {l : List (Option ℂ)} (hne : ∃ z : ℂ, some z ∈ l) :
    ∃ z, nanmedian l = some z ∧ ∀ (c : ℂ) (δ : ℝ), (∀ w : ℂ, some w ∈ l → ‖w - c‖ ≤ δ) → ‖z - c‖ ≤ δ := by
  classical
  have hall : ∀ z ∈ (l.filterMap id).insertionSort lexLe, some z ∈ l := by
    intro z hz
    rw [List.mem_insertionSort, List.mem_filterMap] at hz
    obtain ⟨o, ho, hz⟩ := hz
    rw [id] at hz
    exact hz ▸ ho
  have hne' : 0 < ((l.filterMap id).insertionSort lexLe).length := by
    obtain ⟨z, hz⟩ := hne
    rw [List.length_insertionSort]
    apply List.length_pos_of_mem (a := z)
    rw [List.mem_filterMap]
    exact ⟨some z, hz, rfl⟩
  have hget : ∀ n, n < ((l.filterMap id).insertionSort lexLe).length →
      ∃ z, ((l.filterMap id).insertionSort lexLe)[n]? = some z ∧ some z ∈ l := by
    intro n hn
    exact ⟨_, List.getElem?_eq_getElem hn, hall _ (List.getElem_mem hn)⟩
  unfold nanmedian
  dsimp only
  rw [if_neg hne'.ne']
  split_ifs with hodd
  · obtain ⟨x, hx, hx'⟩ := hget _ (show ((l.filterMap id).insertionSort lexLe).length / 2 < _ by omega)
    exact ⟨x, hx, fun c δ hw => hw x hx'⟩
  · obtain ⟨x, hx, hx'⟩ := hget _ (show ((l.filterMap id).insertionSort lexLe).length / 2 - 1 < _ by omega)
    obtain ⟨y, hy, hy'⟩ := hget _ (show ((l.filterMap id).insertionSort lexLe).length / 2 < _ by omega)
    rw [hx, hy]
    refine ⟨(x + y) / 2, rfl, fun c δ hw => ?_⟩
    rw [show (x + y) / 2 - c = ((x - c) + (y - c)) / 2 by ring, norm_div, Complex.norm_ofNat, div_le_iff₀ two_pos]
    exact (norm_add_le _ _).trans (by linarith [hw x hx', hw y hy'])

/-- The integrator returns samples of the exact solution: `F`, `G` are the solutions that start as `(1, 0)` and `(0, 1)`; whatever the
initial data, each of the last five values is NaN or the solution `x0 F + dx0 G` at some time in the window `W`, not all
are NaN. -/
def SamplesExact (osc : Oscode) (a : OscArgs) (F G : ℝ → ℂ) (W : Set ℝ) : Prop :=
  ∀ x0 dx0 : ℝ, ∃ r, osc { a with x0 := x0, dx0 := dx0 } = .ok r ∧ r.sol.head? = some (some (x0 : ℂ)) ∧
    r.dsol.head? = some (some (dx0 : ℂ)) ∧
    (∀ z : ℂ, some z ∈ r.sol.drop (r.sol.length - 5) → ∃ τ ∈ W, z = (x0 : ℂ) * F τ + dx0 * G τ) ∧ ∃ z : ℂ, some z ∈ r.sol.drop (r.sol.length - 5)

/-- `P` is the spectrum of a mode whose amplitude at time `T` is `u.1 F T + u.2 G T`, up to the drift of the two basis
solutions `(x1, dx1)`, `(x2, dx2)` between the window `W` and `T`. -/
def NearLateTime (F G : ℝ → ℂ) (W : Set ℝ) (y : ℝ × ℝ × ℝ × ℝ) (u : ℂ × ℂ) (norm P : ℝ) : Prop :=
  ∃ (c d : ℂ) (A : ℝ), c * y.1 + d * y.2.2.1 = u.1 ∧ c * y.2.1 + d * y.2.2.2 = u.2 ∧ 0 ≤ A ∧ P = A ^ 2 * norm ∧
    ∀ (T δ1 δ2 : ℝ), (∀ τ ∈ W, ‖(y.1 * F τ + y.2.1 * G τ) - (y.1 * F T + y.2.1 * G T)‖ ≤ δ1) →
      (∀ τ ∈ W, ‖(y.2.2.1 * F τ + y.2.2.2 * G τ) - (y.2.2.1 * F T + y.2.2.2 * G T)‖ ≤ δ2) →
      |A - ‖u.1 * F T + u.2 * G T‖| ≤ ‖c‖ * δ1 + ‖d‖ * δ2

theorem combine_near {osc : Oscode} {a : OscArgs} {F G : ℝ → ℂ} {W : Set ℝ} (hF : SamplesExact osc a F G W) (m : Mode) (u : ℂ × ℂ)
    {y : ℝ × ℝ × ℝ × ℝ} (hW : y.1 * y.2.2.2 - y.2.1 * y.2.2.1 ≠ 0) {one two : OscSol} (h1 : osc { a with x0 := y.1, dx0 := y.2.1 } = .ok one)
    (h2 : osc { a with x0 := y.2.2.1, dx0 := y.2.2.2 } = .ok two) {P : Option ℝ} {Pe : Option (List (Option ℝ))}
    (h : combine m (some u) one two = .ok (P, Pe)) : ∃ p, P = some p ∧ NearLateTime F G W y u m.pps_norm p := by
  obtain ⟨x1, dx1, x2, dx2⟩ := y
  dsimp only at hW h1 h2
  obtain ⟨one', e1, s1, d1, f1, g1⟩ := hF x1 dx1
  obtain ⟨two', e2, s2, d2, f2, g2⟩ := hF x2 dx2
  rw [h1] at e1; cases e1
  rw [h2] at e2; cases e2
  have hW' : (x1 : ℂ) * dx2 - dx1 * x2 ≠ 0 := by
    intro hc; apply hW; exact_mod_cast hc
  obtain ⟨c, d, hcd, hc, hd, -⟩ := C47_solves u.1 u.2 x1 dx1 x2 dx2 hW'
  have hab : ab (some u) one two = .ok (some c, some d) := by
    unfold ab; rw [s1, d1, s2, d2]; exact congrArg _ hcd
  -- the medians
  obtain ⟨z1, hz1, hn1⟩ := nanmedian_near g1
  obtain ⟨z2, hz2, hn2⟩ := nanmedian_near g2
  have hb1 : ∀ (T δ1 : ℝ), (∀ τ ∈ W, ‖(x1 * F τ + dx1 * G τ) - (x1 * F T + dx1 * G T)‖ ≤ δ1) → ‖z1 - (x1 * F T + dx1 * G T)‖ ≤ δ1 :=
    fun T δ1 hT => hn1 _ _ fun w hw => by
      obtain ⟨τ, hτ, rfl⟩ := f1 w hw
      exact hT τ hτ
  have hb2 : ∀ (T δ1 : ℝ), (∀ τ ∈ W, ‖(x2 * F τ + dx2 * G τ) - (x2 * F T + dx2 * G T)‖ ≤ δ1) → ‖z2 - (x2 * F T + dx2 * G T)‖ ≤ δ1 :=
    fun T δ1 hT => hn2 _ _ fun w hw => by
      obtain ⟨τ, hτ, rfl⟩ := f2 w hw
      exact hT τ hτ
  unfold combine at h
  have hl : ∀ l : List (Option ℂ), last5 l = l.drop (l.length - 5) := fun _ => rfl
  rw [hl, hl, hab, hz1, hz2] at h
  dsimp only [lincomb, Option.bind, Option.map, power] at h
  rw [Except.ok.injEq, Prod.mk.injEq] at h
  refine ⟨_, h.1.symm, c, d, ‖c * z1 + d * z2‖, hc, hd, norm_nonneg _, rfl, fun T δ1 δ2 hT1 hT2 => ?_⟩
  dsimp only at hT1 hT2
  have hu : u.1 * F T + u.2 * G T = c * (x1 * F T + dx1 * G T) + d * (x2 * F T + dx2 * G T) := by
    rw [← hc, ← hd]; ring
  rw [hu]
  refine (abs_norm_sub_norm_le _ _).trans ?_
  rw [show c * z1 + d * z2 - (c * (x1 * F T + dx1 * G T) + d * (x2 * F T + dx2 * G T)) =
    c * (z1 - (x1 * F T + dx1 * G T)) + d * (z2 - (x2 * F T + dx2 * G T)) by ring]
  refine (norm_add_le _ _).trans ?_
  rw [norm_mul, norm_mul]
  exact add_le_add (mul_le_mul_of_nonneg_left (hb1 T δ1 hT1) (norm_nonneg _)) (mul_le_mul_of_nonneg_left (hb2 T δ2 hT2) (norm_nonneg _))

/-- **C75, the reported spectrum is the late-time spectrum.**  With an integrator that samples the exact solutions, the spectra returned for
one wavenumber are those of the mode at any later time `T`, up to the drift of the two basis solutions between the last
steps and `T` (bounded by `C75_stop_tensor`, `C75_stop_scalar`, ...). -/
theorem C75_spectrum {osc : Oscode} {b : Bg} {kw : OscKw} {k : ℝ} {r : ModeSpectra} (h : solveOscode1 osc b k kw = .ok r)
    (y : ℝ × ℝ × ℝ × ℝ) (hy0 : kw.y0.getD b.perturbation_ic = y) (hy : y.1 * y.2.2.2 - y.2.1 * y.2.2.1 ≠ 0)
    {stop : ℕ} {s t : Mode} {pb pe : Pt} (hstop : idxEnd b (idxBeg b kw.fac_beg k) kw.fac_end k = .ok stop)
    (hm : modes b k = some (s, t)) (hb : b.pts[idxBeg b kw.fac_beg k]? = some pb) (he : b.pts[stop]? = some pe)
    {F G F' G' : ℝ → ℂ} {W W' : Set ℝ} (hs : SamplesExact osc (args b kw (idxBeg b kw.fac_beg k) stop s pb pe 0 0) F G W)
    (ht : SamplesExact osc (args b kw (idxBeg b kw.fac_beg k) stop t pb pe 0 0) F' G' W')
    {vac : String} (hvac : vac ∈ kw.vacuum) :
    ∃ vs vt, s.vacuum vac = some vs ∧ t.vacuum vac = some vt ∧
      (¬(k < 1 ∧ b.K = 1 ∧ kw.drop_closed_large_scales = true ∧ vac = "RST") → ∀ u, vs pb = some u →
        ∃ P, r.P_s.get? vac = some (some P) ∧ NearLateTime F G W y u (k ^ 3 / (2 * π ^ 2)) P) ∧
      ∀ u, vt pb = some u → ∃ P, r.P_t.get? vac = some (some P) ∧ NearLateTime F' G' W' y u (k ^ 3 / (2 * π ^ 2) * 2) P := by
  rw [single_eq] at h
  obtain ⟨stop', s', t', pb', pe', s1, s2, t1, t2, Ps, a1, a2, a3, a4, a5, a6, a7, a8⟩ := oneMode_ok h
  rw [hstop] at a1; cases a1
  rw [hm] at a2; cases a2
  rw [hb] at a3; cases a3
  rw [he] at a4; cases a4
  obtain ⟨c1, c2, c3, c4⟩ := a5 y hy0.symm
  have hnorm : s.pps_norm = k ^ 3 / (2 * π ^ 2) ∧ t.pps_norm = k ^ 3 / (2 * π ^ 2) * 2 := by
    unfold modes at hm
    split at hm <;> cases hm <;> exact ⟨rfl, rfl⟩
  obtain ⟨vs, P, Pe, x1, x2, x3, -⟩ := (combineAll_get a6).1 vac hvac
  obtain ⟨vt, P', Pe', z1, z2, z3, -⟩ := (combineAll_get a7).1 vac hvac
  refine ⟨vs, vt, x1, z1, fun hn u hu => ?_, fun u hu => ?_⟩
  · rw [hu] at x2
    obtain ⟨p, rfl, hp⟩ := combine_near hs s u hy c1 c2 x2
    rw [hnorm.1] at hp
    refine ⟨p, ?_, hp⟩
    rw [a8]
    split_ifs with hc
    · rw [Dict.get?_set, if_neg (fun e => hn ⟨hc.1, hc.2.1, hc.2.2, e⟩), x3]
    · rw [x3]
  · rw [hu] at z2
    obtain ⟨p, rfl, hp⟩ := combine_near ht t u hy c3 c4 z2
    rw [hnorm.2] at hp
    exact ⟨p, z3, hp⟩

/-! ## The hypotheses are met

Power-law inflation `a = t²` (flat, exponential potential): the mode with `k = 1` is `(s² + 3 i s - 3) e^{i s}`, `s = 1/t`. -/

/-- the mode as a function of `s` -/
noncomputable def demoF (s : ℝ) : ℂ := ((s : ℂ) ^ 2 + 3 * Complex.I * s - 3) * Complex.exp (Complex.I * s)
noncomputable def demoF1 (s : ℝ) : ℂ := (Complex.I * (s : ℂ) ^ 2 - s) * Complex.exp (Complex.I * s)
noncomputable def demoF2 (s : ℝ) : ℂ := (Complex.I * s - (s : ℂ) ^ 2 - 1) * Complex.exp (Complex.I * s)

theorem demoF_deriv (s : ℝ) : HasDerivAt demoF (demoF1 s) s ∧ HasDerivAt demoF1 (demoF2 s) s := by
  have hs : HasDerivAt (fun s : ℝ => (s : ℂ)) 1 s := Complex.ofRealCLM.hasDerivAt
  have he : HasDerivAt (fun s : ℝ => Complex.exp (Complex.I * s)) _ s := (hs.const_mul Complex.I).cexp
  have hI := Complex.I_sq
  constructor
  · refine ((((hs.fun_pow 2).fun_add (hs.const_mul (3 * Complex.I))).sub_const 3).fun_mul he).congr_deriv ?_
    simp only [demoF1]
    push_cast
    linear_combination (3 * (s : ℂ)) * Complex.exp (Complex.I * s) * hI
  · refine ((((hs.fun_pow 2).const_mul Complex.I).fun_sub hs).fun_mul he).congr_deriv ?_
    simp only [demoF2]
    push_cast
    linear_combination ((s : ℂ) ^ 2) * Complex.exp (Complex.I * s) * hI

/-- cosmic time: `s = 1/t` -/
noncomputable def demoT (t : ℝ) : ℂ := demoF t⁻¹
noncomputable def demoT1 (t : ℝ) : ℂ := (-(t⁻¹ ^ 2) : ℝ) * demoF1 t⁻¹
noncomputable def demoT2 (t : ℝ) : ℂ := (2 * t⁻¹ ^ 3 : ℝ) * demoF1 t⁻¹ + ((t⁻¹ ^ 4 : ℝ) : ℂ) * demoF2 t⁻¹

theorem demoT_twice : Twice (Set.Ioi 0) demoT demoT1 demoT2 := by
  constructor
  · intro t ht
    have ht : t ≠ 0 := (show 0 < t from ht).ne'
    have := (demoF_deriv t⁻¹).1.scomp t (hasDerivAt_inv ht)
    rw [Complex.real_smul] at this
    refine this.congr_deriv ?_
    simp only [demoT1, inv_pow]
  · intro t ht
    have ht : t ≠ 0 := (show 0 < t from ht).ne'
    have h1 := (demoF_deriv t⁻¹).2.scomp t (hasDerivAt_inv ht)
    rw [Complex.real_smul] at h1
    have h2 : HasDerivAt (fun t : ℝ => -(t⁻¹ ^ 2)) (2 * t⁻¹ ^ 3) t := by
      refine (((hasDerivAt_inv ht).fun_pow 2).fun_neg).congr_deriv ?_
      push_cast
      ring
    refine (h2.ofReal_comp.fun_mul h1).congr_deriv ?_
    simp only [demoT2, Function.comp]
    push_cast
    field_simp

theorem demoT_ode (t : ℝ) : demoT2 t + 2 * ((3 * (2 / t) / 2 : ℝ) : ℂ) * demoT1 t + ((t⁻¹ ^ 4 : ℝ) : ℂ) * demoT t = 0 := by
  simp only [demoT, demoT1, demoT2, demoF, demoF1, demoF2, div_eq_mul_inv]
  push_cast
  ring

open Exact in
/-- **C75 met, cosmic time**: flat power-law inflation, `k = 1`, the tensor mode and the curvature perturbation, `ε₂ = 0`, `ε₁ = 1/2`. -/
example : ∃ (N φ p H : ℝ → ℝ) (R R1 R2 : ℝ → ℂ), IsUniverse (Set.Ioi 0) (expPot 10).V (expPot 10).dV 0 N φ p H ∧
    Twice (Set.Ioi 0) R R1 R2 ∧ (∀ t ∈ Set.Ioi (0 : ℝ), p t ≠ 0) ∧
    (∀ t ∈ Set.Ioi (0 : ℝ), HasDerivAt (fun t => p t ^ 2 / (2 * H t ^ 2)) (H t * (p t ^ 2 / (2 * H t ^ 2) * 0)) t) ∧
    (∀ t ∈ Set.Ioi (0 : ℝ), oscillator (fun t => TensorT.frequency2 0 1 (ptT 0 N φ p H t))
      (fun t => TensorT.damping (ptT 0 N φ p H t)) R R1 R2 t = 0) ∧
    (∀ t ∈ Set.Ioi (0 : ℝ), oscillator (fun t => ScalarT.frequency2 (expPot 10) 0 1 (ptT 0 N φ p H t))
      (fun t => ScalarT.damping (expPot 10) 0 1 (ptT 0 N φ p H t)) R R1 R2 t = 0) ∧
    (∀ t ∈ Set.Ioi (0 : ℝ), ∃ dH, HasDerivAt H dH t ∧ -dH / H t ^ 2 ≤ 1 / 2) ∧
    endTest 1 100 (ptT 0 N φ p H 100).logaH ∧ R 1 ≠ R 2 := by
  have hexp : ∀ t : ℝ, 0 < t → exp (-2 * (2 * log t)) = t⁻¹ ^ 4 := fun t ht => by
    rw [show -2 * (2 * log t) = ((4 : ℕ) : ℝ) * log t⁻¹ by rw [log_inv]; push_cast; ring, exp_nat_mul, exp_log (by positivity)]
  have hexp1 : ∀ t : ℝ, 0 < t → exp (-(2 * log t)) = t⁻¹ ^ 2 := fun t ht => by
    rw [exp_neg_two_log ht, one_div, inv_pow]
  refine ⟨fun t => 2 * log t, fun t => 2 * log t, fun t => 2 / t, fun t => 2 / t, demoT, demoT1, demoT2, ?_, demoT_twice, ?_, ?_, ?_, ?_, ?_, ?_, ?_⟩
  · refine ⟨fun t ht => ?_, fun t ht => ?_, fun t ht => ?_, fun t ht => ?_, fun t ht => ?_⟩
    all_goals have ht : 0 < t := ht
    · exact ((hasDerivAt_log ht.ne').const_mul 2).congr_deriv (by ring)
    · exact ((hasDerivAt_log ht.ne').const_mul 2).congr_deriv (by ring)
    · refine (((hasDerivAt_inv ht.ne').const_mul 2).congr_deriv ?_)
      simp only [expPot, hexp1 t ht]
      field_simp
      ring
    · simp only [expPot, hexp1 t ht]
      field_simp
      ring
    · show 0 < 2 / t
      positivity
  · intro t ht
    have ht : 0 < t := ht
    show 2 / t ≠ 0
    positivity
  · intro t ht
    have ht : 0 < t := ht
    have e : (fun t : ℝ => (2 / t) ^ 2 / (2 * (2 / t) ^ 2)) =ᶠ[nhds t] fun _ => 1 / 2 := by
      filter_upwards [lt_mem_nhds ht] with s hs
      field_simp
    exact ((hasDerivAt_const t (1 / 2 : ℝ)).congr_of_eventuallyEq e).congr_deriv (by ring)
  · intro t ht
    have ht : 0 < t := ht
    rw [← demoT_ode t]
    simp only [oscillator, TensorT.frequency2, TensorT.damping, ptT, hexp t ht]
    push_cast
    ring
  · intro t ht
    have ht : 0 < t := ht
    rw [← demoT_ode t]
    have h1 : ScalarT.frequency2 (expPot 10) 0 1 (ptT 0 (fun t => 2 * log t) (fun t => 2 * log t) (fun t => 2 / t) (fun t => 2 / t) t) = t⁻¹ ^ 4 := by
      simp only [ScalarT.frequency2, ptT, kappa2, hexp t ht]; ring
    have h2 : ScalarT.damping (expPot 10) 0 1 (ptT 0 (fun t => 2 * log t) (fun t => 2 * log t) (fun t => 2 / t) (fun t => 2 / t) t) = 3 * (2 / t) / 2 := by
      simp only [ScalarT.damping, ScalarT.shared, ScalarT.terms, ptT, kappa2, expPot, hexp1 t ht]
      field_simp
      ring
    simp only [oscillator, h1, h2]
  · intro t ht
    have ht : 0 < t := ht
    refine ⟨_, (hasDerivAt_inv ht.ne').const_mul 2, le_of_eq ?_⟩
    field_simp
  · rw [endTest_iff one_pos (by norm_num)]
    simp only [ptT]
    have h2 : exp (2 * log 100) = (100 : ℝ) ^ 2 := by
      rw [show 2 * log 100 = ((2 : ℕ) : ℝ) * log 100 by push_cast; rfl, exp_nat_mul, exp_log (by norm_num)]
    rw [h2, exp_log (by norm_num)]
    norm_num
  · intro h
    have h' := congrArg (fun z => ‖z‖ ^ 2) h
    have hn : ∀ s : ℝ, ‖demoF s‖ ^ 2 = (s ^ 2 - 3) ^ 2 + (3 * s) ^ 2 := fun s => by
      rw [demoF, norm_mul, show Complex.I * (s : ℂ) = (s : ℂ) * Complex.I by ring, Complex.norm_exp_ofReal_mul_I, mul_one,
        ← Complex.normSq_eq_norm_sq, Complex.normSq_apply]
      simp [pow_two]
    simp only [demoT, hn] at h'
    norm_num at h'

open Exact in
/-- **C75 met, e-folds**: the same universe, `s = e^{-n/2}`. -/
example : ∃ (φ q H : ℝ → ℝ) (R R1 R2 : ℝ → ℂ), IsUniverseN Set.univ (expPot 10).V (expPot 10).dV 0 φ q H ∧
    Twice Set.univ R R1 R2 ∧ (∀ n, q n ≠ 0) ∧
    (∀ n, HasDerivAt (fun n => q n ^ 2 / 2) (q n ^ 2 / 2 * 0) n) ∧
    (∀ n, oscillator (fun n => TensorN.frequency2 0 1 (ptN 0 φ q H n)) (fun n => TensorN.damping 0 (ptN 0 φ q H n)) R R1 R2 n = 0) ∧
    (∀ n, oscillator (fun n => ScalarN.frequency2 (expPot 10) 0 1 (ptN 0 φ q H n))
      (fun n => ScalarN.damping (expPot 10) 0 1 (ptN 0 φ q H n)) R R1 R2 n = 0) ∧
    (∀ n, ∃ dH, HasDerivAt H dH n ∧ -dH / H n ≤ 1 / 2) := by
  obtain ⟨s, hs⟩ : ∃ s : ℝ → ℝ, s = fun n => exp (-(n / 2)) := ⟨_, rfl⟩
  have hds : ∀ n, HasDerivAt s (-(s n / 2)) n := fun n => by
    rw [hs]
    refine ((((hasDerivAt_id n).div_const 2).fun_neg).exp).congr_deriv ?_
    simp only [id]
    ring
  have hpos : ∀ n, 0 < s n := fun n => by rw [hs]; exact exp_pos _
  have e1 : ∀ n, exp (-n) = s n ^ 2 := fun n => by rw [hs, ← exp_nat_mul]; congr 1; push_cast; ring
  have e2 : ∀ n, exp (-2 * n) = s n ^ 4 := fun n => by rw [hs, ← exp_nat_mul]; congr 1; push_cast; ring
  have e3 : ∀ n, exp (2 * n) = (s n ^ 4)⁻¹ := fun n => by rw [← e2, ← exp_neg]; congr 1; ring
  have hdc : ∀ n, HasDerivAt (fun n => ((-(s n / 2) : ℝ) : ℂ)) ((s n / 4 : ℝ) : ℂ) n := fun n => by
    refine HasDerivAt.ofReal_comp (f := fun n => -(s n / 2)) ?_
    exact (((hds n).div_const 2).fun_neg).congr_deriv (by ring)
  refine ⟨fun n => n, fun _ => 1, fun n => 2 * s n, fun n => demoF (s n), fun n => ((-(s n / 2) : ℝ) : ℂ) * demoF1 (s n),
    fun n => ((s n / 4 : ℝ) : ℂ) * demoF1 (s n) + ((-(s n / 2) : ℝ) : ℂ) * (((-(s n / 2) : ℝ) : ℂ) * demoF2 (s n)), ?_, ?_,
    fun _ => one_ne_zero, ?_, ?_, ?_, ?_⟩
  · refine ⟨fun n _ => hasDerivAt_id n, fun n _ => ?_, fun n _ => ?_, fun n _ => ?_⟩
    · refine (((hds n).const_mul 2).mul_const 1).congr_deriv ?_
      simp only [expPot, e1]
      have := hpos n
      field_simp
      ring
    · simp only [expPot, e1]; ring
    · have := hpos n
      show 0 < 2 * s n
      positivity
  · refine ⟨fun n _ => ?_, fun n _ => ?_⟩
    · have := (demoF_deriv (s n)).1.scomp n (hds n)
      rwa [Complex.real_smul] at this
    · have := (demoF_deriv (s n)).2.scomp n (hds n)
      rw [Complex.real_smul] at this
      exact (hdc n).fun_mul this
  · intro n
    exact (hasDerivAt_const n _).congr_deriv (by ring)
  · intro n
    have h0 := hpos n
    have h1 : TensorN.frequency2 0 1 (ptN 0 (fun n => n) (fun _ => 1) (fun n => 2 * s n) n) = s n ^ 2 / 4 := by
      simp only [TensorN.frequency2, ptN, e2]
      field_simp
      ring
    have h2 : TensorN.damping 0 (ptN 0 (fun n => n) (fun _ => 1) (fun n => 2 * s n) n) = 5 / 4 := by
      simp only [TensorN.damping, ptN]; ring
    simp only [oscillator, h1, h2, demoF, demoF1, demoF2]
    push_cast
    ring
  · intro n
    have h0 := hpos n
    have h1 : ScalarN.frequency2 (expPot 10) 0 1 (ptN 0 (fun n => n) (fun _ => 1) (fun n => 2 * s n) n) = s n ^ 2 / 4 := by
      simp only [ScalarN.frequency2, ptN, kappa2, e3]
      field_simp
      ring
    have h2 : ScalarN.damping (expPot 10) 0 1 (ptN 0 (fun n => n) (fun _ => 1) (fun n => 2 * s n) n) = 5 / 4 := by
      simp only [ScalarN.damping, ScalarN.damping2, ScalarN.xi, ptN, kappa2, expPot, e1]
      field_simp
      ring
    simp only [oscillator, h1, h2, demoF, demoF1, demoF2]
    push_cast
    ring
  · intro n
    have h0 := hpos n
    refine ⟨_, (hds n).const_mul 2, le_of_eq ?_⟩
    field_simp

/-- `SamplesExact` met. -/
example (a : OscArgs) : SamplesExact demoOsc a (fun _ => 1) (fun _ => 0) Set.univ := by
  intro x0 dx0
  refine ⟨_, rfl, rfl, rfl, ?_, ⟨(x0 : ℂ), ?_⟩⟩
  · intro z hz
    refine ⟨0, trivial, ?_⟩
    simpa using hz
  · simp

end Pert
end Primpy
