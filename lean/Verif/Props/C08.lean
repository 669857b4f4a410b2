import Verif.Props.C07

/-!
# C08 — `sr_Nstar2ns`/`sr_ns2Nstar` and `sr_Nstar2r`/`sr_r2Nstar` are mutually inverse

The classes that implement these relations are Monomial (with Linear, Quadratic, Cubic, Quartic),
Starobinsky and Natural.  The natural-inflation inverse raises when the requested tilt is too red for
the given `phi0`; which tilts are accepted is stated exactly.
-/

namespace Primpy
open Real Spec Set

theorem C08_monomial_ns (p : ℝ) (hp : 0 < p) :
    InverseOn (Ioi 0) (Iio 1) (Monomial.sr_Nstar2ns p) (Monomial.sr_ns2Nstar p) := by
  have e : ∀ N, N ≠ 0 → Monomial.sr_Nstar2ns p N = 1 - (p + 2) / (2 * N) := fun N h => by
    unfold Monomial.sr_Nstar2ns; field_simp; ring
  refine ⟨fun N h => ?_, fun n h => ?_, fun N h => ?_, fun n h => ?_⟩
  · have h : 0 < N := h
    show Monomial.sr_Nstar2ns p N < 1
    rw [e N h.ne']; have : 0 < (p + 2) / (2 * N) := by positivity
    linarith
  · have h : n < 1 := h
    show 0 < (2 + p) / (2 * (1 - n))
    have : 0 < 1 - n := by linarith
    positivity
  · have h : 0 < N := h
    rw [e N h.ne', Monomial.sr_ns2Nstar]
    have : (1 - (1 - (p + 2) / (2 * N))) = (p+2) / (2 * N) := by ring
    rw [this]; have : p + 2 ≠ 0 := by linarith
    field_simp; ring
  · have h : n < 1 := h
    have h1 : 1 - n ≠ 0 := by linarith
    have h2 : 2 + p ≠ 0 := by linarith
    rw [e _ (by unfold Monomial.sr_ns2Nstar; positivity), Monomial.sr_ns2Nstar]
    have : (p + 2) / (2 * ((2 + p) / (2 * (1 - n)))) = 1 - n := by field_simp; ring
    rw [this]; ring

theorem C08_monomial_r (p : ℝ) (hp : 0 < p) :
    InverseOn (Ici 0) (Ioc 0 16) (Monomial.sr_Nstar2r p) (Monomial.sr_r2Nstar p) := by
  unfold Monomial.sr_Nstar2r Monomial.sr_r2Nstar
  refine ⟨fun N h => ?_, fun r h => ?_, fun N h => ?_, fun r h => ?_⟩
  · have h : 0 ≤ N := h
    refine ⟨by positivity, ?_⟩
    rw [div_le_iff₀ (by positivity)]; nlinarith
  · have h0 := h.1
    have : 0 ≤ 16 - r := by linarith [h.2]
    show 0 ≤ p * (16 - r) / (4 * r)
    positivity
  · have h : 0 ≤ N := h
    have : 4 * N + p ≠ 0 := by positivity
    field_simp; ring
  · have h0 : r ≠ 0 := h.1.ne'
    have : 4 * (p * (16 - r) / (4 * r)) + p = 16 * p / r := by field_simp; ring
    rw [this]; field_simp

/-- The static methods of the four fixed-power classes. -/
theorem C08_monomial_subclasses :
    InverseOn (Ioi 0) (Iio 1) Linear.sr_Nstar2ns Linear.sr_ns2Nstar ∧
    InverseOn (Ici 0) (Ioc 0 16) Linear.sr_Nstar2r Linear.sr_r2Nstar ∧
    InverseOn (Ioi 0) (Iio 1) Quadratic.sr_Nstar2ns Quadratic.sr_ns2Nstar ∧
    InverseOn (Ici 0) (Ioc 0 16) Quadratic.sr_Nstar2r Quadratic.sr_r2Nstar ∧
    InverseOn (Ioi 0) (Iio 1) Cubic.sr_Nstar2ns Cubic.sr_ns2Nstar ∧
    InverseOn (Ici 0) (Ioc 0 16) Cubic.sr_Nstar2r Cubic.sr_r2Nstar ∧
    InverseOn (Ioi 0) (Iio 1) Quartic.sr_Nstar2ns Quartic.sr_ns2Nstar ∧
    InverseOn (Ici 0) (Ioc 0 16) Quartic.sr_Nstar2r Quartic.sr_r2Nstar :=
  ⟨C08_monomial_ns 1 (by norm_num), C08_monomial_r 1 (by norm_num),
   C08_monomial_ns 2 (by norm_num), C08_monomial_r 2 (by norm_num),
   C08_monomial_ns 3 (by norm_num), C08_monomial_r 3 (by norm_num),
   C08_monomial_ns 4 (by norm_num), C08_monomial_r 4 (by norm_num)⟩

/-! ## Starobinsky -/

theorem C08_starobinsky_ns :
    InverseOn (Ioi 0) (Iio 1) Starobinsky.sr_Nstar2ns Starobinsky.sr_ns2Nstar := by
  have hg : 0 < Starobinsky.gamma := sqrt_pos.mpr (by norm_num)
  have h2 : √2 ^ 2 = (2:ℝ) := sq_sqrt (by norm_num)
  have s2 := sqrt_pos.mpr (by norm_num : (0:ℝ) < 2)
  unfold Starobinsky.sr_Nstar2ns Starobinsky.sr_ns2Nstar
  generalize Starobinsky.gamma = g at *
  generalize √(2:ℝ) = s at *
  -- the defining quadratic
  have quad : ∀ N δ, 0 < N → (δ = (2*N*g^2 + s*g + 2) / (N*g*(N*g + s)) ↔
      δ*g^2*N^2 + (s*δ*g - 2*g^2)*N - (s*g + 2) = 0) := by
    intro N δ hN
    rw [eq_div_iff (by positivity)]
    constructor <;> intro h <;> linear_combination h
  have rad : ∀ δ, 0 < δ → 0 ≤ 2*δ^2 + 8*δ + 4*g^2 := fun δ h => by positivity
  have sol : ∀ δ, 0 < δ → 0 < (2*g - s*δ + √(2*δ^2 + 8*δ + 4*g^2)) / (2*g*δ) ∧
      δ = (2*((2*g - s*δ + √(2*δ^2 + 8*δ + 4*g^2)) / (2*g*δ))*g^2 + s*g + 2) /
        (((2*g - s*δ + √(2*δ^2 + 8*δ + 4*g^2)) / (2*g*δ))*g*
          (((2*g - s*δ + √(2*δ^2 + 8*δ + 4*g^2)) / (2*g*δ))*g + s)) := by
    intro δ hδ
    have hR2 : √(2*δ^2 + 8*δ + 4*g^2)^2 = 2*δ^2 + 8*δ + 4*g^2 := sq_sqrt (rad δ hδ)
    have hRpos : s*δ - 2*g < √(2*δ^2 + 8*δ + 4*g^2) := by
      by_cases hneg : s*δ - 2*g < 0
      · exact lt_of_lt_of_le hneg (sqrt_nonneg _)
      · refine lt_sqrt_of_sq_lt ?_
        nlinarith [mul_pos hδ hg, mul_pos s2 (mul_pos hδ hg)]
    generalize √(2*δ^2 + 8*δ + 4*g^2) = R at *
    have hN : 0 < (2*g - s*δ + R) / (2*g*δ) := div_pos (by linarith) (by positivity)
    refine ⟨hN, (quad _ δ hN).mpr ?_⟩
    have e : 2*g*δ*((2*g - s*δ + R) / (2*g*δ)) = 2*g - s*δ + R := by field_simp
    generalize (2*g - s*δ + R) / (2*g*δ) = N at *
    have hR : R = 2*g*δ*N - 2*g + s*δ := by linarith
    rw [hR] at hR2
    have : 4 * δ * (δ*g^2*N^2 + (s*δ*g - 2*g^2)*N - (s*g + 2)) = 0 := by
      linear_combination hR2 - δ^2 * h2
    exact (mul_eq_zero.mp this).resolve_left (by positivity)
  have key : ∀ N, 0 < N → 0 < (2*N*g^2 + s*g + 2) / (N*g*(N*g + s)) := fun N hN => by positivity
  refine ⟨fun N h => ?_, fun n h => ?_, fun N h => ?_, fun n h => ?_⟩
  · have := key N h
    exact show 1 - (2*N*g^2 + s*g + 2) / (N*g*(N*g + s)) < (1:ℝ) by linarith
  · have h : n < 1 := h
    exact (sol (1 - n) (by linarith)).1
  · have hN : 0 < N := h
    have e : 1 - (1 - (2*N*g^2 + s*g + 2) / (N*g*(N*g + s))) = (2*N*g^2 + s*g + 2) / (N*g*(N*g + s)) := by
      ring
    simp only [e]
    obtain ⟨δ, hδ⟩ : ∃ δ, δ = (2*N*g^2 + s*g + 2) / (N*g*(N*g + s)) := ⟨_, rfl⟩
    have hδ0 : 0 < δ := hδ ▸ key N hN
    rw [← hδ]
    obtain ⟨hM, hM2⟩ := sol δ hδ0
    generalize (2*g - s*δ + √(2*δ^2 + 8*δ + 4*g^2)) / (2*g*δ) = M at *
    have q1 := (quad N δ hN).mp hδ
    have q2 := (quad M δ hM).mp hM2
    have : (M - N) * (δ*g^2*(M*N) + (s*g + 2)) = 0 := by
      linear_combination N * q2 - M * q1
    have hne : δ*g^2*(M*N) + (s*g + 2) ≠ 0 := by positivity
    have := (mul_eq_zero.mp this).resolve_right hne
    linarith
  · have h : n < 1 := h
    have := (sol (1 - n) (by linarith)).2
    rw [← this]; ring

theorem C08_starobinsky_r :
    InverseOn (Ici 0) (Ioc 0 16) Starobinsky.sr_Nstar2r Starobinsky.sr_r2Nstar := by
  have hg : 0 < Starobinsky.gamma := sqrt_pos.mpr (by norm_num)
  have h2 : √2 ^ 2 = (2:ℝ) := sq_sqrt (by norm_num)
  have s2 := sqrt_pos.mpr (by norm_num : (0:ℝ) < 2)
  unfold Starobinsky.sr_Nstar2r Starobinsky.sr_r2Nstar
  generalize Starobinsky.gamma = g at *
  refine ⟨fun N h => ?_, fun r h => ?_, fun N h => ?_, fun r h => ?_⟩
  · have h : 0 ≤ N := h
    refine ⟨by positivity, ?_⟩
    rw [div_le_iff₀ (by positivity)]
    have : 0 ≤ N * g := by positivity
    nlinarith [mul_nonneg this s2.le]
  · have h0 := sqrt_pos.mpr h.1
    have h4 : √r ≤ 4 := by rw [sqrt_le_left (by norm_num)]; linarith [h.2]
    have : 0 ≤ 4 - √r := by linarith
    show 0 ≤ √2 * (4 - √r) / (2 * g * √r)
    positivity
  · have h : 0 ≤ N := h
    have e : √(32 / (2*N*g + √2)^2) = 4 * √2 / (2*N*g + √2) := by
      have : 32 / (2*N*g + √2)^2 = (4 * √2 / (2*N*g + √2))^2 := by
        rw [div_pow, mul_pow, h2]; norm_num
      rw [this, sqrt_sq (by positivity)]
    rw [e]
    have : 2*N*g + √2 ≠ 0 := by positivity
    field_simp; ring
  · have h0 := sqrt_pos.mpr h.1
    have hr2 : √r^2 = r := sq_sqrt h.1.le
    have e : 2*(√2 * (4 - √r) / (2 * g * √r))*g + √2 = 4 * √2 / √r := by field_simp; ring
    rw [e, div_pow, mul_pow, h2, hr2]; field_simp; norm_num

/-! ## Natural -/

/-- Forward then back: every positive e-fold number is recovered, and no error is raised. -/
theorem C08_natural_ns_forward (phi0 N : ℝ) (h0 : 0 < phi0) (hN : 0 < N) :
    Natural.sr_ns2Nstar phi0 (Natural.sr_Nstar2ns phi0 N) = .ok N := by
  have hpi := pi_pos
  obtain ⟨f, hf⟩ : ∃ f, f = phi0 / π := ⟨_, rfl⟩
  have hf0 : 0 < f := by rw [hf]; positivity
  obtain ⟨E, hE⟩ : ∃ E, E = exp (N / f^2) := ⟨_, rfl⟩
  have hE1 : 1 < E := by rw [hE, one_lt_exp_iff]; positivity
  obtain ⟨δ, hδ⟩ : ∃ δ, δ = 1 - Natural.sr_Nstar2ns phi0 N := ⟨_, rfl⟩
  have hδv : δ = (2*f^2 + (2*f^2+1)*E) / (f^2*(2*f^2+1)*(E-1)) := by
    rw [hδ, Natural.sr_Nstar2ns, hE, hf]; ring
  have hEm : 0 < E - 1 := by linarith
  have hδ1 : f^2 * δ - 1 = (4*f^2 + 1) / ((2*f^2+1)*(E-1)) := by
    rw [hδv]; field_simp; ring
  have hpos : 0 < f^2 * δ - 1 := by rw [hδ1]; positivity
  have hδ0 : 0 < δ := by
    have : 0 < f^2 * δ := by linarith
    exact pos_of_mul_pos_right this (by positivity)
  have hcond : ¬ phi0 < π / √(1 - Natural.sr_Nstar2ns phi0 N) := by
    rw [← hδ, not_lt, div_le_iff₀ (sqrt_pos.mpr hδ0)]
    have hphi : phi0 = f * π := by rw [hf]; field_simp
    have : 1 ≤ f * √δ := by
      by_contra hc
      have hs := sqrt_nonneg δ
      have : (f * √δ)^2 < 1 := by
        have : 0 ≤ f * √δ := by positivity
        nlinarith
      rw [mul_pow, sq_sqrt hδ0.le] at this; linarith
    rw [hphi]; nlinarith
  unfold Natural.sr_ns2Nstar
  rw [if_neg hcond]
  simp only [← hδ, ← hf]
  congr 1
  have e : f^2 * (2*f^2*δ + δ + 2) / ((2*f^2+1) * (f^2*δ - 1)) = E := by
    rw [hδ1]
    have : f^2 * (2*f^2*δ + δ + 2) = ((2*f^2+1)) * (f^2*δ) + 2*f^2 := by ring
    have h2 : f^2 * δ = (2*f^2 + (2*f^2+1)*E) / ((2*f^2+1)*(E-1)) := by rw [hδv]; field_simp
    rw [this, h2]; field_simp; ring
  rw [e, hE, log_exp]; field_simp

/-- Back then forward: every tilt redder than `1 - (π/phi0)²` is reached by exactly the returned
positive e-fold number. -/
theorem C08_natural_ns_back (phi0 n_s : ℝ) (h0 : 0 < phi0) (hn : n_s < 1 - (π / phi0)^2) :
    ∃ N, 0 < N ∧ Natural.sr_ns2Nstar phi0 n_s = .ok N ∧ Natural.sr_Nstar2ns phi0 N = n_s := by
  have hpi := pi_pos
  obtain ⟨f, hf⟩ : ∃ f, f = phi0 / π := ⟨_, rfl⟩
  have hf0 : 0 < f := by rw [hf]; positivity
  obtain ⟨δ, hδ⟩ : ∃ δ, δ = 1 - n_s := ⟨_, rfl⟩
  have hpos : 0 < f^2 * δ - 1 := by
    have h1 : (π / phi0)^2 < δ := by rw [hδ]; linarith
    have h2 : f^2 * (π / phi0)^2 = 1 := by rw [hf]; field_simp
    have : f^2 * (π / phi0)^2 < f^2 * δ := mul_lt_mul_of_pos_left h1 (by positivity)
    linarith
  have hδ0 : 0 < δ := pos_of_mul_pos_right (by linarith : 0 < f^2 * δ) (by positivity)
  have hcond : ¬ phi0 < π / √(1 - n_s) := by
    rw [← hδ, not_lt, div_le_iff₀ (sqrt_pos.mpr hδ0)]
    have hphi : phi0 = f * π := by rw [hf]; field_simp
    have : 1 ≤ f * √δ := by
      by_contra hc
      have hs := sqrt_nonneg δ
      have : (f * √δ)^2 < 1 := by
        have : 0 ≤ f * √δ := by positivity
        nlinarith
      rw [mul_pow, sq_sqrt hδ0.le] at this; linarith
    rw [hphi]; nlinarith
  obtain ⟨X, hX⟩ : ∃ X, X = f^2 * (2*f^2*δ + δ + 2) / ((2*f^2+1) * (f^2*δ - 1)) := ⟨_, rfl⟩
  have hX1 : X - 1 = (4*f^2 + 1) / ((2*f^2+1) * (f^2*δ - 1)) := by
    rw [hX]
    generalize hM : f^2*δ - 1 = M at *
    have hfd : δ = (M + 1) / f^2 := by rw [← hM]; field_simp; ring
    rw [hfd]; field_simp; ring
  have hX1' : 1 < X := by
    have : 0 < X - 1 := by rw [hX1]; positivity
    linarith
  refine ⟨f^2 * log X, by have := log_pos hX1'; positivity, ?_, ?_⟩
  · unfold Natural.sr_ns2Nstar
    rw [if_neg hcond]
    simp only [← hδ, ← hf, ← hX]
  · have e : exp (f^2 * log X / f^2) = X := by
      rw [mul_div_cancel_left₀ _ (by positivity), exp_log (by linarith)]
    simp only [Natural.sr_Nstar2ns, ← hf, e]
    have : (2*f^2 + (2*f^2+1)*X) / (f^2*(2*f^2+1)*(X-1)) = δ := by
      have hXv : X = (X - 1) + 1 := by ring
      rw [hXv]; simp only [add_sub_cancel_right]; rw [hX1]
      generalize hM : f^2*δ - 1 = M at *
      have hfd : δ = (M + 1) / f^2 := by rw [← hM]; field_simp; ring
      rw [hfd]; field_simp; ring
    rw [this, hδ]; ring

/-- A tilt closer to scale invariance than `1 - (π/phi0)²` cannot be reached: the documented error. -/
theorem C08_natural_ns_error (phi0 n_s : ℝ) (h0 : 0 < phi0) (h1 : n_s < 1)
    (hn : 1 - (π / phi0)^2 < n_s) : ∃ m, Natural.sr_ns2Nstar phi0 n_s = .error (.primpyError m) := by
  have hpi := pi_pos
  refine ⟨_, if_pos ?_⟩
  have hδ : 0 < 1 - n_s := by linarith
  rw [lt_div_iff₀ (sqrt_pos.mpr hδ)]
  have : √(1 - n_s) < π / phi0 := by
    rw [sqrt_lt' (by positivity)]; linarith
  have := mul_lt_mul_of_pos_left this h0
  calc _ < phi0 * (π / phi0) := this
    _ = π := by field_simp

theorem C08_natural_r (phi0 : ℝ) (h0 : 0 < phi0) :
    InverseOn (Ici 0) (Ioc 0 16) (Natural.sr_Nstar2r phi0) (Natural.sr_r2Nstar phi0) := by
  have hpi := pi_pos
  unfold Natural.sr_Nstar2r Natural.sr_r2Nstar
  have hf0 : 0 < phi0 / π := by positivity
  generalize phi0 / π = f at *
  simp only
  have hE : ∀ N, 0 ≤ N → 1 ≤ exp (N / f^2) := fun N h => by rw [one_le_exp_iff]; positivity
  have hD : ∀ N, 0 ≤ N → 1 ≤ -2*f^2 + (2*f^2+1) * exp (N / f^2) := fun N h => by
    nlinarith [hE N h, sq_nonneg f]
  have hX : ∀ r ∈ Ioc (0:ℝ) 16, 1 ≤ (2*f^2*r + 16) / (r*(2*f^2+1)) := fun r h => by
    have := h.1
    rw [le_div_iff₀ (by positivity)]; nlinarith [h.2]
  refine ⟨fun N h => ?_, fun r h => ?_, fun N h => ?_, fun r h => ?_⟩
  · have := hD N h
    refine ⟨by apply div_pos <;> linarith, ?_⟩
    rw [div_le_iff₀ (by linarith)]; linarith
  · have := log_nonneg (hX r h)
    show 0 ≤ f^2 * log ((2*f^2*r + 16) / (r*(2*f^2+1)))
    positivity
  · have h1 := hD N h
    have h2 := hE N h
    obtain ⟨E, hEe⟩ : ∃ E, E = exp (N / f^2) := ⟨_, rfl⟩
    rw [← hEe] at h1 h2
    simp only [← hEe]
    have hne : -2*f^2 + (2*f^2+1) * E ≠ 0 := by linarith
    have e : (2*f^2*(16 / (-2*f^2 + (2*f^2+1) * E)) + 16) /
        (16 / (-2*f^2 + (2*f^2+1) * E) * (2*f^2+1)) = E := by
      generalize hM : -2*f^2 + (2*f^2+1) * E = M at *
      have : E = (M + 2*f^2) / (2*f^2+1) := by rw [← hM]; field_simp; ring
      rw [this]; field_simp; ring
    rw [e, hEe, log_exp]; field_simp
  · have hr := h.1
    have e : exp (f^2 * log ((2*f^2*r + 16) / (r*(2*f^2+1))) / f^2) =
        (2*f^2*r + 16) / (r*(2*f^2+1)) := by
      rw [mul_div_cancel_left₀ _ (by positivity), exp_log (by linarith [hX r h])]
    rw [e]
    have : -2*f^2 + (2*f^2+1) * ((2*f^2*r + 16) / (r*(2*f^2+1))) = 16 / r := by
      field_simp; ring
    rw [this]; field_simp

/-- e.g. `phi0 = 10π`, `n_s = 0.9 < 1 - 1/100` is accepted. -/
example : ∃ N, 0 < N ∧ Natural.sr_ns2Nstar (10 * π) 0.9 = .ok N ∧
    Natural.sr_Nstar2ns (10 * π) N = 0.9 := by
  have hpi := pi_pos
  refine C08_natural_ns_back _ _ (by positivity) ?_
  have : π / (10 * π) = 1 / 10 := by field_simp
  rw [this]; norm_num

end Primpy
