import Verif.Props.C63
import Verif.Props.C75
import Verif.Lemmas.Hankel
import Verif.Spec.PowerLaw

/-!
# C82: the numerical spectra of power-law inflation are the exact ones
-/

namespace Primpy
open Real Spec
namespace Pert

/-! ## The mode equation on a background with constant slope -/

/-- time variable `τ` with `dN/dτ = g`; `x = m k/(aH)` -/
structure Clock (S : Set ℝ) (m κ : ℝ) (N g g1 x : ℝ → ℝ) : Prop where
  hN : ∀ τ ∈ S, HasDerivAt N (g τ) τ
  hg : ∀ τ ∈ S, HasDerivAt g (g1 τ) τ
  hg1 : ContinuousOn g1 S
  pos : ∀ τ ∈ S, 0 < g τ ∧ 0 < x τ
  hx : ∀ τ ∈ S, HasDerivAt x (-(x τ * g τ / m)) τ
  hκ : ∀ τ ∈ S, exp (-N τ) = κ * x τ ^ m

section
variable {S : Set ℝ} {m κ : ℝ} {N g g1 x : ℝ → ℝ}

/-- `e^{-N} P(x)` -/
noncomputable def msol (m : ℝ) (N x : ℝ → ℝ) (s α β : ℂ) (τ : ℝ) : ℂ := s * ((exp (-N τ) : ℝ) * Hankel.comb m α β (x τ))
noncomputable def msol1 (m : ℝ) (N g x : ℝ → ℝ) (s α β : ℂ) (τ : ℝ) : ℂ :=
  s * ((exp (-N τ) : ℝ) * (-(g τ : ℂ) * Hankel.comb m α β (x τ) - (g τ * x τ / m : ℝ) * Hankel.comb1 m α β (x τ)))
noncomputable def msol2 (m : ℝ) (N g g1 x : ℝ → ℝ) (s α β : ℂ) (τ : ℝ) : ℂ :=
  s * ((exp (-N τ) : ℝ) * (((g τ ^ 2 - g1 τ : ℝ) : ℂ) * Hankel.comb m α β (x τ)
    + (2 * g τ ^ 2 * x τ / m - g1 τ * x τ / m + g τ ^ 2 * x τ / m ^ 2 : ℝ) * Hankel.comb1 m α β (x τ)
    + ((g τ * x τ / m) ^ 2 * (m * (m + 1) / x τ ^ 2 - 1) : ℝ) * Hankel.comb m α β (x τ)))

theorem msol_twice (hm : 0 < m) (c : Clock S m κ N g g1 x) (s α β : ℂ) :
    Twice S (msol m N x s α β) (msol1 m N g x s α β) (msol2 m N g g1 x s α β) := by
  have hE : ∀ τ ∈ S, HasDerivAt (fun τ => ((exp (-N τ) : ℝ) : ℂ)) ((exp (-N τ) * -g τ : ℝ) : ℂ) τ := fun τ hτ =>
    ((c.hN τ hτ).fun_neg.exp).ofReal_comp
  have hP : ∀ τ ∈ S, HasDerivAt (fun τ => Hankel.comb m α β (x τ)) ((-(x τ * g τ / m) : ℝ) * Hankel.comb1 m α β (x τ)) τ := fun τ hτ => by
    have := (Hankel.hasDerivAt_comb hm.le (c.pos τ hτ).2 α β).scomp τ (c.hx τ hτ)
    rwa [Complex.real_smul] at this
  have hP1 : ∀ τ ∈ S, HasDerivAt (fun τ => Hankel.comb1 m α β (x τ))
      ((-(x τ * g τ / m) : ℝ) * (((m * (m + 1) / x τ ^ 2 - 1 : ℝ) : ℂ) * Hankel.comb m α β (x τ))) τ := fun τ hτ => by
    have := (Hankel.hasDerivAt_comb1 hm.le (c.pos τ hτ).2 α β).scomp τ (c.hx τ hτ)
    rwa [Complex.real_smul] at this
  constructor
  · intro τ hτ
    refine (((hE τ hτ).fun_mul (hP τ hτ)).const_mul s).congr_deriv ?_
    unfold msol1
    push_cast
    ring
  · intro τ hτ
    have hgc : HasDerivAt (fun τ => -(g τ : ℂ)) (-(g1 τ : ℂ)) τ := (c.hg τ hτ).ofReal_comp.fun_neg
    have hgx : HasDerivAt (fun τ => ((g τ * x τ / m : ℝ) : ℂ)) (((g1 τ * x τ + g τ * -(x τ * g τ / m)) / m : ℝ) : ℂ) τ :=
      (((c.hg τ hτ).fun_mul (c.hx τ hτ)).div_const m).ofReal_comp
    have h := ((hE τ hτ).fun_mul ((hgc.fun_mul (hP τ hτ)).fun_sub (hgx.fun_mul (hP1 τ hτ)))).const_mul s
    refine h.congr_deriv ?_
    have hm' : (m : ℂ) ≠ 0 := by exact_mod_cast hm.ne'
    unfold msol2
    push_cast
    field_simp
    ring

theorem msol_oscillator (hm : 0 < m) (c : Clock S m κ N g g1 x) (s α β : ℂ) {ω2 γ : ℝ → ℝ}
    (hω : ∀ τ ∈ S, ω2 τ = (g τ * x τ / m) ^ 2) (hγ : ∀ τ ∈ S, γ τ = ((2 + 1 / m) * g τ - g1 τ / g τ) / 2) :
    ∀ τ ∈ S, oscillator ω2 γ (msol m N x s α β) (msol1 m N g x s α β) (msol2 m N g g1 x s α β) τ = 0 := by
  intro τ hτ
  have hm' : (m : ℂ) ≠ 0 := by exact_mod_cast hm.ne'
  have hg' : (g τ : ℂ) ≠ 0 := by exact_mod_cast (c.pos τ hτ).1.ne'
  have hx' : (x τ : ℂ) ≠ 0 := by exact_mod_cast (c.pos τ hτ).2.ne'
  simp only [oscillator, hω τ hτ, hγ τ hτ, msol, msol1, msol2]
  generalize Hankel.comb m α β (x τ) = P
  generalize Hankel.comb1 m α β (x τ) = P1
  push_cast
  field_simp
  ring

/-- Solutions are determined by their initial data. -/
theorem eq_comb (hS : IsOpen S) (hc : IsPreconnected S) {ω2 γ : ℝ → ℝ} (hγ : ContinuousOn γ S) {F F1 F2 G G1 G2 h h1 h2 : ℝ → ℂ}
    (tF : Twice S F F1 F2) (tG : Twice S G G1 G2) (th : Twice S h h1 h2) (oF : ∀ τ ∈ S, oscillator ω2 γ F F1 F2 τ = 0)
    (oG : ∀ τ ∈ S, oscillator ω2 γ G G1 G2 τ = 0) (oh : ∀ τ ∈ S, oscillator ω2 γ h h1 h2 τ = 0) {ti : ℝ} (hi : ti ∈ S)
    (iF : F ti = 1) (iF1 : F1 ti = 0) (iG : G ti = 0) (iG1 : G1 ti = 1) : ∀ τ ∈ S, h τ = h ti * F τ + h1 ti * G τ := by
  have tw : Twice S (fun τ => h ti * F τ + h1 ti * G τ) (fun τ => h ti * F1 τ + h1 ti * G1 τ) (fun τ => h ti * F2 τ + h1 ti * G2 τ) :=
    ⟨fun τ hτ => ((tF.first τ hτ).const_mul _).fun_add ((tG.first τ hτ).const_mul _),
      fun τ hτ => ((tF.second τ hτ).const_mul _).fun_add ((tG.second τ hτ).const_mul _)⟩
  refine C63_unique hS hc hγ th tw tF tG oh (fun τ hτ => ?_) oF oG hi ?_ ?_ ?_
  · have a := oF τ hτ
    have b := oG τ hτ
    simp only [oscillator] at a b ⊢
    linear_combination h ti * a + h1 ti * b
  · rw [iF, iF1, iG, iG1]; norm_num
  · simp only [iF, iG]; ring
  · simp only [iF1, iG1]; ring

/-- What the vacua give: `v = w/k`, `y = aH/k`. -/
theorem vacuum_near {v c θ y t : ℝ} (hv : 0 < v) (hc : 0 ≤ c) (hc2 : c ≤ 2) (hθ : 0 ≤ θ) (hθ1 : θ ≤ 1) (hy : 0 < y) (hy4 : y ≤ 1 / 4) (hyt : y ≤ t / 2)
    (h : v ^ 2 = 1 - c * y ^ 2) :
    ‖((1 / √v : ℝ) : ℂ) - 1‖ ≤ t ∧ ‖(((1 / √v : ℝ) : ℂ) * (Complex.I * v - ((1 - θ) * y : ℝ))) - Complex.I‖ ≤ t ∧
      ‖((1 / √v : ℝ) : ℂ)‖ ≤ 3 ∧ ‖((1 / √v : ℝ) : ℂ) * ((-y : ℝ) : ℂ)‖ ≤ 3 ∧ ‖((1 / √v : ℝ) : ℂ) * (Complex.I * v + (θ * y : ℝ))‖ ≤ 3 ∧
      ‖((1 / √v : ℝ) : ℂ) * (Complex.I * v - ((1 - θ) * y : ℝ))‖ ≤ 3 := by
  have hv1 : v ≤ 1 := by nlinarith [mul_nonneg hc (sq_nonneg y)]
  have hcy : c * y ^ 2 ≤ 2 * y ^ 2 := mul_le_mul_of_nonneg_right hc2 (sq_nonneg y)
  have hv2 : 1 - 2 * y ^ 2 ≤ v := by nlinarith
  have hv3 : 7 / 8 ≤ v := by nlinarith
  have hs : √v ^ 2 = v := sq_sqrt hv.le
  have hs0 : 0 < √v := sqrt_pos.2 hv
  have hs1 : √v ≤ 1 := by nlinarith
  have hs2 : v ≤ √v := by nlinarith
  obtain ⟨r, hr⟩ : ∃ r, r = √v := ⟨_, rfl⟩
  rw [← hr] at hs hs0 hs1 hs2 ⊢
  have i1 : 1 ≤ 1 / r := by rw [le_div_iff₀ hs0]; linarith
  have i2 : 1 / r ≤ 8 / 7 := by rw [div_le_iff₀ hs0]; linarith
  have i3 : 1 / r - 1 ≤ y := by
    rw [div_sub_one hs0.ne', div_le_iff₀ hs0]; nlinarith
  have i0 : 0 < 1 / r := by positivity
  have n0 : ‖((1 / r : ℝ) : ℂ)‖ = 1 / r := by rw [Complex.norm_real, norm_of_nonneg i0.le]
  refine ⟨?_, ?_, ?_, ?_, ?_, ?_⟩
  · rw [show ((1 / r : ℝ) : ℂ) - 1 = ((1 / r - 1 : ℝ) : ℂ) by push_cast; ring, Complex.norm_real, norm_of_nonneg (by linarith)]
    linarith
  · have e : (((1 / r : ℝ) : ℂ) * (Complex.I * v - ((1 - θ) * y : ℝ))) - Complex.I = Complex.I * ((r - 1 : ℝ) : ℂ) - ((1 / r * ((1 - θ) * y) : ℝ) : ℂ) := by
      have hr' : (r : ℂ) ≠ 0 := by exact_mod_cast hs0.ne'
      rw [← hs]
      push_cast
      field_simp
      ring
    rw [e]
    refine (norm_sub_le _ _).trans ?_
    rw [norm_mul, Complex.norm_I, one_mul, Complex.norm_real, Complex.norm_real, norm_of_nonpos (by linarith),
      norm_of_nonneg (mul_nonneg i0.le (mul_nonneg (by linarith) hy.le))]
    have a1 : (1 - θ) * y ≤ y := by nlinarith
    have a2 : 1 / r * ((1 - θ) * y) ≤ 8 / 7 * y := mul_le_mul i2 a1 (mul_nonneg (by linarith) hy.le) (by norm_num)
    nlinarith
  · rw [n0]; linarith
  · rw [norm_mul, n0, Complex.norm_real, norm_neg, norm_of_nonneg hy.le]
    nlinarith
  · rw [norm_mul, n0]
    have : ‖Complex.I * v + ((θ * y : ℝ) : ℂ)‖ ≤ 2 := by
      refine (norm_add_le _ _).trans ?_
      rw [norm_mul, Complex.norm_I, one_mul, Complex.norm_real, Complex.norm_real, norm_of_nonneg hv.le,
        norm_of_nonneg (mul_nonneg hθ hy.le)]
      nlinarith
    have := mul_le_mul i2 this (norm_nonneg _) (by norm_num)
    linarith
  · rw [norm_mul, n0]
    have : ‖Complex.I * v - (((1 - θ) * y : ℝ) : ℂ)‖ ≤ 2 := by
      refine (norm_sub_le _ _).trans ?_
      rw [norm_mul, Complex.norm_I, one_mul, Complex.norm_real, Complex.norm_real, norm_of_nonneg hv.le,
        norm_of_nonneg (mul_nonneg (by linarith) hy.le)]
      nlinarith
    have := mul_le_mul i2 this (norm_nonneg _) (by norm_num)
    linarith

/-- Deep inside the horizon at the start, far outside at the end: the amplitude of the mode started in the vacuum, and the drift of
the two parts it is made of. -/
theorem modes_late {m ρ : ℝ} (hm : 1 ≤ m) (hρ : 0 < ρ) : ∃ X η : ℝ, 0 < X ∧ 0 < η ∧
    ∀ (S : Set ℝ), IsOpen S → IsPreconnected S → ∀ (κ : ℝ) (N g g1 x : ℝ → ℝ), 0 < κ → Clock S m κ N g g1 x →
    ∀ ω2 γ : ℝ → ℝ, (∀ τ ∈ S, ω2 τ = (g τ * x τ / m) ^ 2) → (∀ τ ∈ S, γ τ = ((2 + 1 / m) * g τ - g1 τ / g τ) / 2) →
    ∀ F F1 F2 G G1 G2 : ℝ → ℂ, Twice S F F1 F2 → Twice S G G1 G2 → (∀ τ ∈ S, oscillator ω2 γ F F1 F2 τ = 0) →
      (∀ τ ∈ S, oscillator ω2 γ G G1 G2 τ = 0) →
    ∀ ti ∈ S, F ti = 1 → F1 ti = 0 → G ti = 0 → G1 ti = 1 → X ≤ x ti →
    ∀ s v c θ : ℝ, 0 < v → 0 ≤ c → c ≤ 2 → 0 ≤ θ → θ ≤ 1 → v ^ 2 = 1 - c * (m / x ti) ^ 2 →
    ∀ u : ℂ × ℂ, u.1 = s * exp (-N ti) * (1 / √v : ℝ) → u.2 = -(g ti) * (Complex.I * (v * (x ti / m) : ℝ) + θ) * u.1 →
    (∀ τ ∈ S, x τ ≤ η → ∀ T ∈ S, x T ≤ η → ‖u.1‖ * ‖F τ - F T‖ ≤ ρ * (|s| * κ) ∧ ‖u.2‖ * ‖G τ - G T‖ ≤ ρ * (|s| * κ)) ∧
      ∀ T ∈ S, x T ≤ η → |‖u.1 * F T + u.2 * G T‖ - |s| * κ * ‖Hankel.c0 m‖| ≤ ρ * (|s| * κ) := by
  have hm0 : 0 < m := by linarith
  obtain ⟨t, X0, η, ht, hX0, hη, hl⟩ := Hankel.late hm0.le hρ
  refine ⟨max X0 (max (4 * m) (2 * m / t)), η, lt_max_of_lt_left hX0, hη, ?_⟩
  intro S hS hc κ N g g1 x hκ c ω2 γ hω hγ F F1 F2 G G1 G2 tF tG oF oG ti hi iF iF1 iG iG1 hXx s v cc θ hv hc0 hc2 hθ hθ1 hvv u hu1 hu2
  have hxi := (c.pos ti hi).2
  have hgi := (c.pos ti hi).1
  have a0 : X0 ≤ x ti := (le_max_left _ _).trans hXx
  have a1 : 4 * m ≤ x ti := ((le_max_left _ _).trans (le_max_right _ _)).trans hXx
  have a2 : 2 * m / t ≤ x ti := ((le_max_right _ _).trans (le_max_right _ _)).trans hXx
  have hy4 : m / x ti ≤ 1 / 4 := by rw [div_le_div_iff₀ hxi (by norm_num)]; linarith
  have hyt : m / x ti ≤ t / 2 := by
    rw [div_le_iff₀ ht] at a2
    rw [div_le_div_iff₀ hxi (by norm_num)]; linarith
  obtain ⟨q1, q2, q3, q4, q5, n2⟩ := vacuum_near hv hc0 hc2 hθ hθ1 (by positivity) hy4 hyt hvv
  have hγc : ContinuousOn γ S := by
    have : ContinuousOn (fun τ => ((2 + 1 / m) * g τ - g1 τ / g τ) / 2) S := by
      have hgc : ContinuousOn g S := fun τ hτ => (c.hg τ hτ).continuousAt.continuousWithinAt
      exact ((continuousOn_const.mul hgc).sub (c.hg1.div hgc fun τ hτ => (c.pos τ hτ).1.ne')).div_const 2
    exact this.congr fun τ hτ => hγ τ hτ
  -- a solution with prescribed normalised data
  have key : ∀ p p' : ℂ, ‖p‖ ≤ 3 → ‖p'‖ ≤ 3 → ∃ h : ℝ → ℂ,
      (∀ τ ∈ S, h τ = (s * exp (-N ti) * p) * F τ + (s * exp (-N ti) * (-(g ti : ℂ) * p - (g ti * x ti / m : ℝ) * p')) * G τ) ∧
      (∀ τ ∈ S, x τ ≤ η → ∀ T ∈ S, x T ≤ η → ‖h τ - h T‖ ≤ ρ * (|s| * κ)) ∧
      (‖p - 1‖ ≤ t → ‖p' - Complex.I‖ ≤ t → ∀ T ∈ S, x T ≤ η → |‖h T‖ - |s| * κ * ‖Hankel.c0 m‖| ≤ ρ * (|s| * κ)) := by
    intro p p' hp hp'
    obtain ⟨α, β, e1, e2, hd, ha⟩ := hl (x ti) a0 p p' hp hp'
    have hval : ∀ τ ∈ S, msol m N x s α β τ = ((s * κ : ℝ) : ℂ) * (((x τ ^ m : ℝ) : ℂ) * Hankel.comb m α β (x τ)) := fun τ hτ => by
      unfold msol
      rw [c.hκ τ hτ]
      push_cast
      ring
    have hn : ‖((s * κ : ℝ) : ℂ)‖ = |s| * κ := by rw [Complex.norm_real, norm_eq_abs, abs_mul, abs_of_pos hκ]
    have hsκ : 0 ≤ |s| * κ := by positivity
    refine ⟨msol m N x s α β, fun τ hτ => ?_, fun τ hτ hτη T hT hTη => ?_, fun b1 b2 T hT hTη => ?_⟩
    · rw [eq_comb hS hc hγc tF tG (msol_twice hm0 c s α β) oF oG (msol_oscillator hm0 c s α β hω hγ) hi iF iF1 iG iG1 τ hτ]
      unfold msol msol1
      rw [e1, e2]
      push_cast
      ring
    · rw [hval τ hτ, hval T hT, ← mul_sub, norm_mul, hn, mul_comm]
      exact mul_le_mul_of_nonneg_right (hd _ _ (c.pos τ hτ).2 hτη (c.pos T hT).2 hTη) hsκ
    · rw [hval T hT, norm_mul, hn, ← mul_sub, abs_mul, abs_of_nonneg hsκ, mul_comm]
      exact mul_le_mul_of_nonneg_right (ha b1 b2 _ (c.pos T hT).2 hTη) hsκ
  have hx' : (x ti : ℂ) ≠ 0 := by exact_mod_cast hxi.ne'
  have hm' : (m : ℂ) ≠ 0 := by exact_mod_cast hm0.ne'
  obtain ⟨r, hr⟩ : ∃ r : ℝ, r = 1 / √v := ⟨_, rfl⟩
  rw [← hr] at q1 q2 q3 q4 q5 n2 hu1
  obtain ⟨hA, A1, A2, -⟩ := key r ((r : ℂ) * ((-(m / x ti) : ℝ) : ℂ)) q3 q4
  obtain ⟨hB, B1, B2, -⟩ := key 0 ((r : ℂ) * (Complex.I * v + (θ * (m / x ti) : ℝ))) (by simp) q5
  obtain ⟨hC, C1, -, C3⟩ := key r ((r : ℂ) * (Complex.I * v - ((1 - θ) * (m / x ti) : ℝ))) q3 n2
  refine ⟨fun τ hτ hτη T hT hTη => ⟨?_, ?_⟩, fun T hT hTη => ?_⟩
  · have := A2 τ hτ hτη T hT hTη
    rw [A1 τ hτ, A1 T hT] at this
    refine le_trans (le_of_eq ?_) this
    rw [← norm_mul, hu1]
    congr 1
    push_cast
    field_simp
    ring
  · have := B2 τ hτ hτη T hT hTη
    rw [B1 τ hτ, B1 T hT] at this
    refine le_trans (le_of_eq ?_) this
    rw [← norm_mul, hu2, hu1]
    congr 1
    push_cast
    field_simp
    ring
  · have := C3 q1 q2 T hT hTη
    rw [C1 T hT] at this
    refine le_trans (le_of_eq ?_) this
    rw [hu2, hu1]
    congr 3
    push_cast
    field_simp
    ring

/-- From the modes to the reported number. -/
theorem spectrum_late {m ρ : ℝ} (hm : 1 ≤ m) (hρ : 0 < ρ) : ∃ X η : ℝ, 0 < X ∧ 0 < η ∧
    ∀ (S : Set ℝ), IsOpen S → IsPreconnected S → ∀ (κ : ℝ) (N g g1 x : ℝ → ℝ), 0 < κ → Clock S m κ N g g1 x →
    ∀ ω2 γ : ℝ → ℝ, (∀ τ ∈ S, ω2 τ = (g τ * x τ / m) ^ 2) → (∀ τ ∈ S, γ τ = ((2 + 1 / m) * g τ - g1 τ / g τ) / 2) →
    ∀ F F1 F2 G G1 G2 : ℝ → ℂ, Twice S F F1 F2 → Twice S G G1 G2 → (∀ τ ∈ S, oscillator ω2 γ F F1 F2 τ = 0) →
      (∀ τ ∈ S, oscillator ω2 γ G G1 G2 τ = 0) →
    ∀ ti ∈ S, F ti = 1 → F1 ti = 0 → G ti = 0 → G1 ti = 1 → X ≤ x ti →
    ∀ s v c θ : ℝ, s ≠ 0 → 0 < v → 0 ≤ c → c ≤ 2 → 0 ≤ θ → θ ≤ 1 → v ^ 2 = 1 - c * (m / x ti) ^ 2 →
    ∀ u : ℂ × ℂ, u.1 = s * exp (-N ti) * (1 / √v : ℝ) → u.2 = -(g ti) * (Complex.I * (v * (x ti / m) : ℝ) + θ) * u.1 →
    ∀ (W : Set ℝ), (∀ τ ∈ W, τ ∈ S ∧ x τ ≤ η) → W.Nonempty → ∀ norm P : ℝ, 0 ≤ norm → NearLateTime F G W (1, 0, 0, 1) u norm P →
    |P - (s * κ * ‖Hankel.c0 m‖) ^ 2 * norm| ≤ ρ * ((s * κ * ‖Hankel.c0 m‖) ^ 2 * norm) := by
  have hC : 0 < ‖Hankel.c0 m‖ := by
    rw [Hankel.norm_c0 (by linarith)]
    have := Gamma_pos_of_pos (show 0 < 2 * m + 1 by linarith)
    have := Gamma_pos_of_pos (show 0 < m + 1 by linarith)
    positivity
  obtain ⟨C, hCd⟩ : ∃ C, C = ‖Hankel.c0 m‖ := ⟨_, rfl⟩
  obtain ⟨δ, hδ⟩ : ∃ δ, δ = min 1 ρ := ⟨_, rfl⟩
  have hδ0 : 0 < δ := by rw [hδ]; positivity
  have hδ1 : δ ≤ 1 := by rw [hδ]; exact min_le_left _ _
  have hδρ : δ ≤ ρ := by rw [hδ]; exact min_le_right _ _
  rw [← hCd] at hC
  obtain ⟨X, η, hX, hη, hl⟩ := modes_late hm (show 0 < δ * C / 9 by positivity)
  refine ⟨X, η, hX, hη, ?_⟩
  intro S hS hc κ N g g1 x hκ c ω2 γ hω hγ F F1 F2 G G1 G2 tF tG oF oG ti hi iF iF1 iG iG1 hXx s v cc θ hs hv hc0 hc2 hθ hθ1 hvv u hu1 hu2
    W hW hWn norm P hnorm hP
  obtain ⟨h1, h2⟩ := hl S hS hc κ N g g1 x hκ c ω2 γ hω hγ F F1 F2 G G1 G2 tF tG oF oG ti hi iF iF1 iG iG1 hXx s v cc θ hv hc0 hc2 hθ hθ1
    hvv u hu1 hu2
  obtain ⟨T, hT⟩ := hWn
  obtain ⟨a, b, A, ea, eb, hA, rfl, hdr⟩ := hP
  dsimp only at ea eb hdr
  have ea' : a = u.1 := by rw [← ea]; push_cast; ring
  have eb' : b = u.2 := by rw [← eb]; push_cast; ring
  rw [ea', eb'] at hdr
  have hs0 : 0 < |s| := abs_pos.2 hs
  have hxi := (c.pos ti hi).2
  have hgi := (c.pos ti hi).1
  have n1 : 0 < ‖u.1‖ := by
    rw [norm_pos_iff, hu1]
    have h1 : (s : ℂ) ≠ 0 := by exact_mod_cast hs
    have h2 : ((exp (-N ti) : ℝ) : ℂ) ≠ 0 := by exact_mod_cast (exp_pos _).ne'
    have h3 : ((1 / √v : ℝ) : ℂ) ≠ 0 := by
      have : 0 < √v := sqrt_pos.2 hv
      exact_mod_cast (by positivity : (1 / √v : ℝ) ≠ 0)
    exact mul_ne_zero (mul_ne_zero h1 h2) h3
  have n2 : 0 < ‖u.2‖ := by
    rw [norm_pos_iff, hu2]
    refine mul_ne_zero (mul_ne_zero (neg_ne_zero.2 (by exact_mod_cast hgi.ne')) ?_) (norm_pos_iff.1 n1)
    intro h
    have := congrArg Complex.im h
    simp only [Complex.add_im, Complex.mul_im, Complex.I_re, Complex.I_im, Complex.ofReal_re, Complex.ofReal_im, Complex.zero_im, zero_mul,
      one_mul, add_zero, zero_add] at this
    have : 0 < v * (x ti / m) := by positivity
    linarith
  obtain ⟨B, hB⟩ : ∃ B, B = δ * C / 9 * (|s| * κ) := ⟨_, rfl⟩
  rw [← hB] at h1 h2
  have d := hdr T (B / ‖u.1‖) (B / ‖u.2‖)
    (fun τ hτ => by
      rw [le_div_iff₀ n1, mul_comm]
      refine le_trans (le_of_eq ?_) (h1 τ (hW τ hτ).1 (hW τ hτ).2 T (hW T hT).1 (hW T hT).2).1
      congr 2
      push_cast
      ring)
    (fun τ hτ => by
      rw [le_div_iff₀ n2, mul_comm]
      refine le_trans (le_of_eq ?_) (h1 τ (hW τ hτ).1 (hW τ hτ).2 T (hW T hT).1 (hW T hT).2).2
      congr 2
      push_cast
      ring)
  rw [mul_div_cancel₀ _ n1.ne', mul_div_cancel₀ _ n2.ne'] at d
  have d2 := h2 T (hW T hT).1 (hW T hT).2
  rw [← hCd] at d2 ⊢
  have hA0 : |A - |s| * κ * C| ≤ δ / 3 * (|s| * κ * C) := by
    have := abs_sub_le A ‖u.1 * F T + u.2 * G T‖ (|s| * κ * C)
    have e : δ / 3 * (|s| * κ * C) = 3 * B := by rw [hB]; ring
    linarith
  have e2 : (s * κ * C) ^ 2 = (|s| * κ * C) ^ 2 := by rw [mul_pow, mul_pow, mul_pow (|s| * κ), mul_pow |s|, sq_abs]
  rw [e2]
  obtain ⟨Z, hZ⟩ : ∃ Z, Z = |s| * κ * C := ⟨_, rfl⟩
  have hZ0 : 0 < Z := by rw [hZ]; positivity
  rw [← hZ] at hA0 ⊢
  rw [← sub_mul, abs_mul, abs_of_nonneg hnorm, ← mul_assoc]
  refine mul_le_mul_of_nonneg_right ?_ hnorm
  rw [show A ^ 2 - Z ^ 2 = (A - Z) * (A + Z) by ring, abs_mul, abs_of_nonneg (by linarith : 0 ≤ A + Z)]
  have hAle : A + Z ≤ 3 * Z := by
    have := (abs_le.1 hA0).2
    nlinarith
  calc |A - Z| * (A + Z) ≤ δ / 3 * Z * (3 * Z) := mul_le_mul hA0 hAle (by linarith) (by positivity)
    _ = δ * Z ^ 2 := by ring
    _ ≤ ρ * Z ^ 2 := mul_le_mul_of_nonneg_right hδρ (sq_nonneg _)

/-- The exact amplitude, in terms of the closed-form spectrum. -/
theorem exact_amplitude {ε k a H κ x : ℝ} (hε : 0 ≤ ε) (hε1 : ε < 1) (hk : 0 < k) (ha : 0 < a) (hH : 0 < H)
    (hx : x = 1 / (1 - ε) * k / (a * H)) (hκ : a⁻¹ = κ * x ^ (1 / (1 - ε))) :
    k ^ 2 * (κ * ‖Hankel.c0 (1 / (1 - ε))‖) ^ 2 = H ^ 2 * powerLaw ε (log (k / (a * H))) := by
  have h1 : 0 < 1 - ε := by linarith
  obtain ⟨m, hm⟩ : ∃ m, m = 1 / (1 - ε) := ⟨_, rfl⟩
  have hm1 : 0 < m := by rw [hm]; positivity
  have e1 : 3 / 2 + ε / (1 - ε) = m + 1 / 2 := by rw [hm]; field_simp; ring
  have e2 : 1 - ε = m⁻¹ := by rw [hm]; field_simp
  have hx0 : 0 < x := by rw [hx]; positivity
  rw [Hankel.norm_c0 (by positivity), powerLaw, bunchDavies, e1, ← hm, e2]
  rw [← hm] at hx hκ
  have hdup := Gamma_mul_Gamma_add_half (m + 1 / 2)
  rw [show m + 1 / 2 + 1 / 2 = m + 1 by ring, show 2 * (m + 1 / 2) = 2 * m + 1 by ring, show 1 - (2 * m + 1) = -(2 * m) by ring] at hdup
  have hG32 : Gamma (3 / 2) = √π / 2 := by
    rw [show (3:ℝ) / 2 = 1 / 2 + 1 by norm_num, Gamma_add_one (by norm_num), Gamma_one_half_eq]; ring
  have hGm : 0 < Gamma (m + 1) := Gamma_pos_of_pos (by linarith)
  have hpi : 0 < √π := sqrt_pos.2 pi_pos
  have h2m : (0:ℝ) < 2 ^ m := by positivity
  have e22 : (2:ℝ) ^ (-(2 * m)) = ((2 ^ m) ^ 2)⁻¹ := by
    rw [rpow_neg zero_le_two, mul_comm, rpow_mul zero_le_two, rpow_two]
  have hc : Gamma (2 * m + 1) / (2 ^ m * Gamma (m + 1)) = 2 ^ m * Gamma (m + 1 / 2) / √π := by
    rw [e22] at hdup
    rw [div_eq_div_iff (by positivity) (by positivity)]
    generalize Gamma (2 * m + 1) = B1 at *
    generalize Gamma (m + 1) = B2 at *
    generalize Gamma (m + 1 / 2) = B3 at *
    generalize (2:ℝ) ^ m = B4 at *
    field_simp at hdup
    linear_combination -hdup
  have e3 : (2:ℝ) ^ (2 * (m + 1 / 2) - 3) = (2 ^ m) ^ 2 / 4 := by
    rw [show 2 * (m + 1 / 2) - 3 = m * 2 - 2 by ring, rpow_sub two_pos, rpow_mul zero_le_two, rpow_two, rpow_two]; norm_num
  have hκ' : κ = a⁻¹ / x ^ m := by
    rw [hκ, mul_div_cancel_right₀ _ (rpow_pos_of_pos hx0 m).ne']
  have e4 : x ^ m = m ^ m * (k / (a * H)) ^ m := by
    rw [hx, mul_div_assoc, mul_rpow hm1.le (by positivity)]
  have e5 : (m⁻¹) ^ (2 * (m + 1 / 2) - 1) = ((m ^ m) ^ 2)⁻¹ := by
    rw [show 2 * (m + 1 / 2) - 1 = m * 2 by ring, inv_rpow hm1.le, rpow_mul hm1.le, rpow_two]
  have e6 : exp ((3 - 2 * (m + 1 / 2)) * log (k / (a * H))) = (k / (a * H)) ^ 2 / ((k / (a * H)) ^ m) ^ 2 := by
    have hz : 0 < k / (a * H) := by positivity
    rw [mul_comm, ← rpow_def_of_pos hz, show 3 - 2 * (m + 1 / 2) = 2 - m * 2 by ring, rpow_sub hz, rpow_mul hz.le, rpow_two, rpow_two]
  rw [hc, e3, hκ', e4, e5, e6, hG32]
  have p1 : 0 < m ^ m := by positivity
  have p2 : 0 < (k / (a * H)) ^ m := by positivity
  generalize m ^ m = A1 at *
  generalize (k / (a * H)) ^ m = A2 at *
  generalize (2:ℝ) ^ m = A3 at *
  generalize Gamma (m + 1 / 2) = A4 at *
  field_simp
  ring

end

/-! ## Through the API -/

/-- The integration of mode `m` for the wavenumber `k` is exact: there are the two solutions of the mode equation of the universe
`traj` on `S` that start as `(1, 0)` and `(0, 1)` at the first grid point, and what the integrator returns are their combinations,
the last steps being in `W`. -/
def ExactRun (osc : Oscode) (b : Bg) (kw : OscKw) (k : ℝ) (m : Mode) (traj : ℝ → Pt) (S W : Set ℝ) : Prop :=
  ∀ stop pb pe, idxEnd b (idxBeg b kw.fac_beg k) kw.fac_end k = .ok stop → b.pts[idxBeg b kw.fac_beg k]? = some pb →
    b.pts[stop]? = some pe → ∃ F F1 F2 G G1 G2 : ℝ → ℂ, Twice S F F1 F2 ∧ Twice S G G1 G2 ∧
      (∀ τ ∈ S, oscillator (fun τ => m.frequency2 (traj τ)) (fun τ => m.damping (traj τ)) F F1 F2 τ = 0) ∧
      (∀ τ ∈ S, oscillator (fun τ => m.frequency2 (traj τ)) (fun τ => m.damping (traj τ)) G G1 G2 τ = 0) ∧
      F pb.x = 1 ∧ F1 pb.x = 0 ∧ G pb.x = 0 ∧ G1 pb.x = 1 ∧
      SamplesExact osc (args b kw (idxBeg b kw.fac_beg k) stop m pb pe 0 0) F G W

/-- the shape of a vacuum state; `y = aH/k` -/
def VacForm (s a y g : ℝ) (u : ℂ × ℂ) : Prop := ∃ v c θ : ℝ, 0 < v ∧ 0 ≤ c ∧ c ≤ 2 ∧ 0 ≤ θ ∧ θ ≤ 1 ∧ v ^ 2 = 1 - c * y ^ 2 ∧
  u.1 = s * (a⁻¹ : ℝ) * (1 / √v : ℝ) ∧ u.2 = -g * (Complex.I * (v * y⁻¹ : ℝ) + θ) * u.1

theorem samples_nonempty {osc : Oscode} {a : OscArgs} {F G : ℝ → ℂ} {W : Set ℝ} (h : SamplesExact osc a F G W) : W.Nonempty := by
  obtain ⟨r, -, -, -, h1, z, hz⟩ := h 0 0
  obtain ⟨τ, hτ, -⟩ := h1 z hz
  exact ⟨τ, hτ⟩

/-- Both formulations. -/
theorem assemble {ε ρ : ℝ} (hε : 0 < ε) (hε1 : ε < 1) (hρ : 0 < ρ) : ∃ X η : ℝ, 0 < X ∧ 0 < η ∧
    ∀ (S : Set ℝ), IsOpen S → IsPreconnected S → ∀ (κ : ℝ) (N g g1 H : ℝ → ℝ) (traj : ℝ → Pt) (k : ℝ), 0 < κ → 0 < k →
    Clock S (1 / (1 - ε)) κ N g g1 (fun τ => 1 / (1 - ε) * k / (exp (N τ) * H τ)) → (∀ τ ∈ S, 0 < H τ) →
    (∀ τ, (traj τ).x = τ ∧ (traj τ).logaH = log (exp (N τ) * H τ)) →
    ∀ (osc : Oscode) (b : Bg) (kw : OscKw) (r : ModeSpectra) (s t : Mode), modes b k = some (s, t) → b.K = 0 →
    (∀ τ ∈ S, ∀ m ∈ [s, t], m.frequency2 (traj τ) = (g τ * (k / (exp (N τ) * H τ))) ^ 2 ∧
      m.damping (traj τ) = ((3 - ε) * g τ - g1 τ / g τ) / 2) →
    (∀ p ∈ b.pts, ∃ τ ∈ S, p = traj τ) → kw.y0.getD b.perturbation_ic = (1, 0, 0, 1) → solveOscode1 osc b k kw = .ok r →
    (∀ p, b.pts[idxBeg b kw.fac_beg k]? = some p → X * exp p.logaH ≤ k) →
    ExactRun osc b kw k s traj S {τ ∈ S | k ≤ η * exp (traj τ).logaH} → ExactRun osc b kw k t traj S {τ ∈ S | k ≤ η * exp (traj τ).logaH} →
    ∀ (q : ℝ), q ^ 2 = 2 * ε → (∀ τ ∈ S, exp (N τ) * H τ / k ≤ 1 / 4 → ∀ vac,
      (∀ f, s.vacuum vac = some f → ∃ u, f (traj τ) = some u ∧ VacForm (1 / √(2 * k) / q) (exp (N τ)) (exp (N τ) * H τ / k) (g τ) u) ∧
      (∀ f, t.vacuum vac = some f → ∃ u, f (traj τ) = some u ∧ VacForm (2 / √(2 * k)) (exp (N τ)) (exp (N τ) * H τ / k) (g τ) u)) →
    ∀ vac ∈ kw.vacuum, ∃ Ps Pt : ℝ, r.P_s.get? vac = some (some Ps) ∧ r.P_t.get? vac = some (some Pt) ∧
      ∀ τ ∈ S, |Ps - H τ ^ 2 / (8 * π ^ 2 * ε) * powerLaw ε (log (k / (exp (N τ) * H τ)))| ≤
          ρ * (H τ ^ 2 / (8 * π ^ 2 * ε) * powerLaw ε (log (k / (exp (N τ) * H τ)))) ∧
        |Pt - 2 * H τ ^ 2 / π ^ 2 * powerLaw ε (log (k / (exp (N τ) * H τ)))| ≤
          ρ * (2 * H τ ^ 2 / π ^ 2 * powerLaw ε (log (k / (exp (N τ) * H τ)))) := by
  have h1ε : 0 < 1 - ε := by linarith
  obtain ⟨m, hm⟩ : ∃ m, m = 1 / (1 - ε) := ⟨_, rfl⟩
  have hm1 : 1 ≤ m := by rw [hm, le_div_iff₀ h1ε]; linarith
  have hm0 : 0 < m := by linarith
  have hmi : 1 / m = 1 - ε := by rw [hm]; field_simp
  obtain ⟨X, η, hX, hη, hl⟩ := spectrum_late hm1 hρ
  refine ⟨max 4 (X / m), η / m, lt_max_of_lt_left (by norm_num), by positivity, ?_⟩
  intro S hS hc κ N g g1 H traj k hκ hk c hH htr osc b kw r s t hmod hK hfd hpts hic h hstart exs ext q hq hvac vac hv
  rw [← hm] at c
  have h' := h
  rw [single_eq] at h'
  obtain ⟨stop, s', t', pb, pe, -, -, -, -, -, hstop, hmod', hb, he, -⟩ := oneMode_ok h'
  rw [hmod] at hmod'; cases hmod'
  obtain ⟨F, F1, F2, G, G1, G2, tF, tG, oF, oG, iF, iF1, iG, iG1, hsF⟩ := exs stop pb pe hstop hb he
  obtain ⟨F', F1', F2', G', G1', G2', tF', tG', oF', oG', iF', iF1', iG', iG1', hsF'⟩ := ext stop pb pe hstop hb he
  obtain ⟨vs, vt, hvs, hvt, hPs, hPt⟩ := C75_spectrum h (1, 0, 0, 1) hic (by norm_num) hstop hmod hb he hsF hsF' hv
  obtain ⟨ti, hti, rfl⟩ := hpts pb (List.mem_of_getElem? hb)
  have haH : ∀ τ ∈ S, 0 < exp (N τ) * H τ := fun τ hτ => mul_pos (exp_pos _) (hH τ hτ)
  have hst := hstart _ hb
  rw [(htr ti).2, exp_log (haH ti hti)] at hst
  have hst1 : 4 * (exp (N ti) * H ti) ≤ k := (mul_le_mul_of_nonneg_right (le_max_left _ _) (haH ti hti).le).trans hst
  have hst2 : X / m * (exp (N ti) * H ti) ≤ k := (mul_le_mul_of_nonneg_right (le_max_right _ _) (haH ti hti).le).trans hst
  rw [(htr ti).1] at iF iF1 iG iG1 iF' iF1' iG' iG1'
  have hy : exp (N ti) * H ti / k ≤ 1 / 4 := by rw [div_le_iff₀ hk]; linarith
  have hXx : X ≤ m * k / (exp (N ti) * H ti) := by
    rw [le_div_iff₀ (haH ti hti)]
    have := mul_le_mul_of_nonneg_left hst2 hm0.le
    have e : m * (X / m * (exp (N ti) * H ti)) = X * (exp (N ti) * H ti) := by field_simp
    linarith
  obtain ⟨us, hus, vS, cS, θS, v1, v2, v3, v4, v5, v6, v7, v8⟩ := (hvac ti hti hy vac).1 vs hvs
  obtain ⟨ut, hut, vT, cT, θT, w1, w2, w3, w4, w5, w6, w7, w8⟩ := (hvac ti hti hy vac).2 vt hvt
  obtain ⟨Ps, hPs, hns⟩ := hPs (fun hh => by rw [hK] at hh; exact absurd hh.2.1 (by norm_num)) us hus
  obtain ⟨Pt, hPt, hnt⟩ := hPt ut hut
  refine ⟨Ps, Pt, hPs, hPt, fun τ hτ => ?_⟩
  have hinv : exp (N ti) * H ti / k = m / (m * k / (exp (N ti) * H ti)) := by
    have := haH ti hti
    field_simp
  have hinv' : (exp (N ti) * H ti / k)⁻¹ = (m * k / (exp (N ti) * H ti)) / m := by
    have := haH ti hti
    field_simp
  have hfS : ∀ τ ∈ S, ∀ M ∈ [s, t], M.frequency2 (traj τ) = (g τ * (m * k / (exp (N τ) * H τ)) / m) ^ 2 ∧
      M.damping (traj τ) = ((2 + 1 / m) * g τ - g1 τ / g τ) / 2 := fun τ hτ M hM => by
    obtain ⟨a1, a2⟩ := hfd τ hτ M hM
    have := haH τ hτ
    rw [a1, a2, hmi]
    constructor
    · field_simp
    · ring
  have hW : ∀ τ ∈ {τ ∈ S | k ≤ η / m * exp (traj τ).logaH}, τ ∈ S ∧ m * k / (exp (N τ) * H τ) ≤ η := fun τ hτ => by
    refine ⟨hτ.1, ?_⟩
    have h2 := hτ.2
    rw [(htr τ).2, exp_log (haH τ hτ.1)] at h2
    rw [div_le_iff₀ (haH τ hτ.1)]
    have := mul_le_mul_of_nonneg_left h2 hm0.le
    have e : m * (η / m * (exp (N τ) * H τ)) = η * (exp (N τ) * H τ) := by field_simp
    linarith
  have hsk : 0 < √(2 * k) := sqrt_pos.2 (by positivity)
  have hsk2 : √(2 * k) ^ 2 = 2 * k := sq_sqrt (by positivity)
  have hq0 : q ≠ 0 := by rintro rfl; norm_num at hq; linarith
  rw [hinv] at v6 w6
  rw [hinv'] at v8 w8
  rw [← exp_neg] at v7 w7
  have rs := hl S hS hc κ N g g1 _ hκ c _ _ (fun τ hτ => (hfS τ hτ s (by simp)).1) (fun τ hτ => (hfS τ hτ s (by simp)).2) F F1 F2 G G1 G2
    tF tG oF oG ti hti iF iF1 iG iG1 hXx (1 / √(2 * k) / q) vS cS θS (by positivity) v1 v2 v3 v4 v5 v6 us v7 v8 _ hW (samples_nonempty hsF)
    _ Ps (by positivity) hns
  have rt := hl S hS hc κ N g g1 _ hκ c _ _ (fun τ hτ => (hfS τ hτ t (by simp)).1) (fun τ hτ => (hfS τ hτ t (by simp)).2) F' F1' F2' G' G1' G2'
    tF' tG' oF' oG' ti hti iF' iF1' iG' iG1' hXx (2 / √(2 * k)) vT cT θT (by positivity) w1 w2 w3 w4 w5 w6 ut w7 w8 _ hW (samples_nonempty hsF')
    _ Pt (by positivity) hnt
  have ex := exact_amplitude hε.le hε1 hk (exp_pos (N τ)) (hH τ hτ) rfl (by rw [← exp_neg, ← hm]; exact c.hκ τ hτ)
  rw [← hm] at ex
  have es : (1 / √(2 * k) / q * κ * ‖Hankel.c0 m‖) ^ 2 * (k ^ 3 / (2 * π ^ 2)) =
      H τ ^ 2 / (8 * π ^ 2 * ε) * powerLaw ε (log (k / (exp (N τ) * H τ))) := by
    have hπ := pi_pos
    rw [div_mul_eq_mul_div (H τ ^ 2), ← ex, show (1 / √(2 * k) / q * κ * ‖Hankel.c0 m‖) ^ 2 = (κ * ‖Hankel.c0 m‖) ^ 2 / (√(2 * k) ^ 2 * q ^ 2) by ring,
      hsk2, hq]
    field_simp
    ring
  have et : (2 / √(2 * k) * κ * ‖Hankel.c0 m‖) ^ 2 * (k ^ 3 / (2 * π ^ 2) * 2) =
      2 * H τ ^ 2 / π ^ 2 * powerLaw ε (log (k / (exp (N τ) * H τ))) := by
    have hπ := pi_pos
    rw [div_mul_eq_mul_div (2 * H τ ^ 2), mul_assoc 2 (H τ ^ 2), ← ex,
      show (2 / √(2 * k) * κ * ‖Hankel.c0 m‖) ^ 2 = 4 * (κ * ‖Hankel.c0 m‖) ^ 2 / √(2 * k) ^ 2 by ring, hsk2]
    field_simp
    ring
  rw [es] at rs
  rw [et] at rt
  exact ⟨rs, rt⟩

/-! ## Vacuum states -/

theorem byName_some {a b c f : Pt → Vacuum} {vac : String} (h : byName a b c vac = some f) : f = a ∨ f = b ∨ f = c := by
  unfold byName at h
  split_ifs at h <;> cases h <;> simp

theorem form_k {s a y g : ℝ} {u : ℂ × ℂ} (h1 : u.1 = s * (a⁻¹ : ℝ)) (h2 : u.2 = -g * (Complex.I * (y⁻¹ : ℝ) + 1) * u.1) : VacForm s a y g u :=
  ⟨1, 0, 1, one_pos, le_rfl, by norm_num, zero_le_one, le_rfl, by norm_num, by rw [h1]; simp, by rw [h2]; simp⟩

theorem form_RST {s a y g : ℝ} {u : ℂ × ℂ} (h1 : u.1 = s * (a⁻¹ : ℝ)) (h2 : u.2 = -g * (Complex.I * (y⁻¹ : ℝ)) * u.1) : VacForm s a y g u :=
  ⟨1, 0, 0, one_pos, le_rfl, by norm_num, le_rfl, zero_le_one, by norm_num, by rw [h1]; simp, by rw [h2]; simp⟩

/-- `w_HD = k √(1 - (2-ε) (aH/k)²)` -/
theorem wk_HD {A r k ε y : ℝ} (hA : 0 < A) (hk : 0 < k) (hε : 0 ≤ ε) (hε2 : ε ≤ 2) (hy : 0 < y) (hy4 : y ≤ 1 / 4)
    (hr : r = (k / A) ^ 2 * (1 - (2 - ε) * y ^ 2)) : ∃ v, 0 < v ∧ v ^ 2 = 1 - (2 - ε) * y ^ 2 ∧ wk A r = some (k * v) := by
  have h1 : 0 < 1 - (2 - ε) * y ^ 2 := by nlinarith
  refine ⟨√(1 - (2 - ε) * y ^ 2), sqrt_pos.2 h1, sq_sqrt h1.le, ?_⟩
  have e : A * √r = k * √(1 - (2 - ε) * y ^ 2) := by
    rw [hr, sqrt_mul (by positivity), sqrt_sq (by positivity)]
    field_simp
  have hr0 : 0 ≤ r := by rw [hr]; positivity
  unfold wk
  rw [e, if_pos ⟨mul_pos hk (sqrt_pos.2 h1), hr0⟩]

theorem form_HD {s s0 a y g k v ε : ℝ} (hk : 0 < k) (hv : 0 < v) (hε : 0 ≤ ε) (hε2 : ε ≤ 2) (hvv : v ^ 2 = 1 - (2 - ε) * y ^ 2) (hs : s = s0 / √(2 * k)) {u : ℂ × ℂ}
    (h1 : u.1 = (s0 / √(2 * (k * v)) : ℝ) * (a⁻¹ : ℝ)) (h2 : u.2 = -g * (Complex.I * (v * y⁻¹ : ℝ) + 1) * u.1) : VacForm s a y g u := by
  refine ⟨v, 2 - ε, 1, hv, by linarith, by linarith, zero_le_one, le_rfl, hvv, ?_, by rw [h2]; simp⟩
  rw [h1, hs, ← mul_assoc 2, sqrt_mul (by positivity)]
  push_cast
  ring

/-- On a trajectory of constant slope, in cosmic time. -/
theorem slopeT {S D : Set ℝ} {pot : PotFns} {N φ H : ℝ → ℝ} {q : ℝ} (hq : q ≠ 0) (hS : IsOpen S)
    (u : IsUniverse S pot.V pot.dV 0 N φ (fun t => q * H t) H) (hV : IsDerivOn D pot.V pot.dV) (hV2 : IsDerivOn D pot.dV pot.d2V)
    (hφ : ∀ t ∈ S, φ t ∈ D) : ∀ t ∈ S, HasDerivAt H (-(q ^ 2 / 2 * H t ^ 2)) t ∧ pot.dV (φ t) = -(q * (3 - q ^ 2 / 2) * H t ^ 2) ∧
      pot.d2V (φ t) = q ^ 2 * (3 - q ^ 2 / 2) * H t ^ 2 := by
  have hdH : ∀ t ∈ S, HasDerivAt H (-(q ^ 2 / 2 * H t ^ 2)) t := fun t ht => by
    refine (u.dH hS hV hφ t ht).congr_deriv ?_
    ring
  have hdV : ∀ t ∈ S, pot.dV (φ t) = -(q * (3 - q ^ 2 / 2) * H t ^ 2) := fun t ht => by
    have := (u.kleinGordon t ht).unique ((hdH t ht).const_mul q)
    linear_combination -this
  refine fun t ht => ⟨hdH t ht, hdV t ht, ?_⟩
  have h1 := (hV2 _ (hφ t ht)).comp t (u.velocity t ht)
  have h2 : HasDerivAt (fun t => -(q * (3 - q ^ 2 / 2) * H t ^ 2)) (-(q * (3 - q ^ 2 / 2) * (((2 : ℕ) : ℝ) * H t ^ (2 - 1) * -(q ^ 2 / 2 * H t ^ 2)))) t :=
    ((((hdH t ht).fun_pow 2).const_mul (q * (3 - q ^ 2 / 2))).fun_neg)
  have e : (pot.dV ∘ φ) =ᶠ[nhds t] fun t => -(q * (3 - q ^ 2 / 2) * H t ^ 2) := by
    filter_upwards [hS.mem_nhds ht] with s hs
    exact hdV s hs
  have := h1.unique (h2.congr_of_eventuallyEq e)
  have h0 := u.expanding t ht
  have hqH : q * H t ≠ 0 := mul_ne_zero hq h0.ne'
  apply mul_right_cancel₀ hqH
  push_cast at this
  rw [this]
  ring

theorem vacT {S D : Set ℝ} {pot : PotFns} {N φ H : ℝ → ℝ} {q : ℝ} (hq : q ≠ 0) (hq2 : q ^ 2 < 2) (hS : IsOpen S)
    (u : IsUniverse S pot.V pot.dV 0 N φ (fun t => q * H t) H) (hV : IsDerivOn D pot.V pot.dV) (hV2 : IsDerivOn D pot.dV pot.d2V)
    (hφ : ∀ t ∈ S, φ t ∈ D) {b : Bg} (hb : b.indep = .t) (hK : b.K = 0) (hpot : b.pot = pot) {k : ℝ} (hk : 0 < k) {s t : Mode}
    (hm : modes b k = some (s, t)) {τ : ℝ} (hτ : τ ∈ S) :
    (∀ m ∈ [s, t], m.frequency2 (ptT 0 N φ (fun t => q * H t) H τ) = (H τ * (k / (exp (N τ) * H τ))) ^ 2 ∧
      m.damping (ptT 0 N φ (fun t => q * H t) H τ) = ((3 - q ^ 2 / 2) * H τ - -(q ^ 2 / 2 * H τ ^ 2) / H τ) / 2) ∧
    (exp (N τ) * H τ / k ≤ 1 / 4 → ∀ vac,
      (∀ f, s.vacuum vac = some f → ∃ u, f (ptT 0 N φ (fun t => q * H t) H τ) = some u ∧
        VacForm (1 / √(2 * k) / q) (exp (N τ)) (exp (N τ) * H τ / k) (H τ) u) ∧
      (∀ f, t.vacuum vac = some f → ∃ u, f (ptT 0 N φ (fun t => q * H t) H τ) = some u ∧
        VacForm (2 / √(2 * k)) (exp (N τ)) (exp (N τ) * H τ / k) (H τ) u)) := by
  obtain ⟨-, hdV, hd2V⟩ := slopeT hq hS u hV hV2 hφ τ hτ
  have hH := u.expanding τ hτ
  have ha := exp_pos (N τ)
  have hsk : 0 < √(2 * k) := sqrt_pos.2 (by positivity)
  unfold modes at hm
  rw [hb, hK, hpot] at hm
  cases hm
  have hexp : exp (-2 * N τ) = (exp (N τ) ^ 2)⁻¹ := by rw [exp_two_mul_inv, inv_inv]
  have hdH : T.get_dH (N τ) (H τ) (q * H τ) 0 = -(q ^ 2 / 2 * H τ ^ 2) := by unfold T.get_dH; ring
  have hdHH : T.get_dH_H (N τ) (H τ ^ 2) (q * H τ) 0 = -(q ^ 2 / 2 * H τ) := by
    unfold T.get_dH_H
    rw [sqrt_sq hH.le]
    field_simp
    ring
  have hd2 : T.get_d2phi (H τ ^ 2) (q * H τ) (pot.dV (φ τ)) = -(q ^ 2 / 2 * (q * H τ ^ 2)) := by
    unfold T.get_d2phi
    rw [sqrt_sq hH.le, hdV]
    ring
  have hd2H : T.get_d2H (N τ) (H τ) (-(q ^ 2 / 2 * H τ ^ 2)) (q * H τ) (-(q ^ 2 / 2 * (q * H τ ^ 2))) 0 = q ^ 4 / 2 * H τ ^ 3 := by
    unfold T.get_d2H; ring
  have hd3 : T.get_d3phi (H τ) (-(q ^ 2 / 2 * H τ ^ 2)) (q ^ 4 / 2 * H τ ^ 3) (q * H τ) (-(q ^ 2 / 2 * (q * H τ ^ 2))) (pot.dV (φ τ)) (pot.d2V (φ τ))
      = q ^ 5 / 2 * H τ ^ 3 := by
    unfold T.get_d3phi; rw [hd2V]; ring
  have hdz : H τ + -(q ^ 2 / 2 * (q * H τ ^ 2)) / (q * H τ) - -(q ^ 2 / 2 * H τ) = H τ := by field_simp; ring
  have hrad : ScalarT.radicand pot 0 k (ptT 0 N φ (fun t => q * H t) H τ) = (k / exp (N τ)) ^ 2 * (1 - (2 - q ^ 2 / 2) * (exp (N τ) * H τ / k) ^ 2) := by
    simp only [ScalarT.radicand, ptT, hdH, hdHH, hd2, hd2H, hd3]
    field_simp
    ring
  have hrad2 : k ^ 2 / exp (N τ) ^ 2 - 2 * H τ ^ 2 - -(q ^ 2 / 2 * H τ ^ 2) = (k / exp (N τ)) ^ 2 * (1 - (2 - q ^ 2 / 2) * (exp (N τ) * H τ / k) ^ 2) := by
    field_simp
    ring
  refine ⟨fun m hmem => ?_, fun hy vac => ⟨fun f hf => ?_, fun f hf => ?_⟩⟩
  · have hg : ((3 - q ^ 2 / 2) * H τ - -(q ^ 2 / 2 * H τ ^ 2) / H τ) / 2 = 3 * H τ / 2 := by field_simp; ring
    have hw : (H τ * (k / (exp (N τ) * H τ))) ^ 2 = k ^ 2 * exp (-2 * N τ) := by rw [hexp]; field_simp
    rw [hg, hw]
    rcases List.mem_pair.1 hmem with rfl | rfl
    · dsimp only [ScalarT.frequency2, ScalarT.damping, ScalarT.shared, ScalarT.terms, ptT, kappa2]
      rw [hdV]
      constructor
      · ring
      · have : q * H τ ≠ 0 := by positivity
        field_simp
        ring
    · dsimp only [TensorT.frequency2, TensorT.damping, ptT]
      constructor
      · ring
      · rfl
  · have hy0 : 0 < exp (N τ) * H τ / k := by positivity
    obtain ⟨v, hv, hvv, hw⟩ := wk_HD ha hk (by positivity) (by linarith) hy0 hy hrad
    have hz : ∀ r : ℝ, (1 / (r : ℂ) / ((exp (N τ) * (q * H τ) / H τ : ℝ) : ℂ)) = ((1 / r / q : ℝ) : ℂ) * ((exp (N τ))⁻¹ : ℝ) := fun r => by
      have hH' : (H τ : ℂ) ≠ 0 := by exact_mod_cast hH.ne'
      have hq' : (q : ℂ) ≠ 0 := by exact_mod_cast hq
      push_cast
      field_simp
    have hi : ∀ w : ℝ, -Complex.I * (w : ℂ) / ((exp (N τ) : ℝ) : ℂ) = -(H τ : ℂ) * (Complex.I * ((w / (exp (N τ) * H τ) : ℝ) : ℂ)) := fun w => by
      have hH' : (H τ : ℂ) ≠ 0 := by exact_mod_cast hH.ne'
      have hE' : ((exp (N τ) : ℝ) : ℂ) ≠ 0 := by exact_mod_cast ha.ne'
      push_cast at hE' ⊢
      field_simp
    rcases byName_some hf with rfl | rfl | rfl
    · simp only [ScalarT.vacK, ptT, hdHH, hd2, hdz, if_pos hk, hz, hi]
      refine ⟨_, rfl, form_k rfl ?_⟩
      simp only [inv_div]
      ring
    · simp only [ptT] at hw
      simp only [ScalarT.vacHD, ptT, hw, hdHH, hd2, hdz, hz, hi, Option.map_some]
      refine ⟨_, rfl, form_HD (s0 := 1 / q) hk hv (by positivity) (by linarith) hvv (by ring) ?_ ?_⟩
      · push_cast; ring
      · simp only [inv_div]; push_cast; ring
    · simp only [ScalarT.vacRST, ptT, if_pos hk, hz, hi]
      refine ⟨_, rfl, form_RST rfl ?_⟩
      simp only [inv_div]
  · have hy0 : 0 < exp (N τ) * H τ / k := by positivity
    obtain ⟨v, hv, hvv, hw⟩ := wk_HD ha hk (by positivity) (by linarith) hy0 hy hrad2
    have hz : ∀ r : ℝ, (2 / (r : ℂ) / ((exp (N τ) : ℝ) : ℂ)) = ((2 / r : ℝ) : ℂ) * ((exp (N τ))⁻¹ : ℝ) := fun r => by
      push_cast
      rw [div_eq_mul_inv (2 / (r : ℂ))]
    have hi : ∀ w : ℝ, -Complex.I * (w : ℂ) / ((exp (N τ) : ℝ) : ℂ) = -(H τ : ℂ) * (Complex.I * ((w / (exp (N τ) * H τ) : ℝ) : ℂ)) := fun w => by
      have hH' : (H τ : ℂ) ≠ 0 := by exact_mod_cast hH.ne'
      have hE' : ((exp (N τ) : ℝ) : ℂ) ≠ 0 := by exact_mod_cast ha.ne'
      push_cast at hE' ⊢
      field_simp
    rcases byName_some hf with rfl | rfl | rfl
    · simp only [TensorT.vacK, ptT, if_pos hk, hz, hi]
      refine ⟨_, rfl, form_k rfl ?_⟩
      simp only [inv_div]
      ring
    · simp only [TensorT.vacHD, ptT, hdH, hw, hz, hi, Option.map_some]
      refine ⟨_, rfl, form_HD (s0 := 2) hk hv (by positivity) (by linarith) hvv rfl rfl ?_⟩
      simp only [inv_div]; push_cast; ring
    · simp only [TensorT.vacRST, ptT, if_pos hk, hz, hi]
      refine ⟨_, rfl, form_RST rfl ?_⟩
      simp only [inv_div]

/-- On a trajectory of constant slope, in e-folds. -/
theorem slopeN {S D : Set ℝ} {pot : PotFns} {φ H : ℝ → ℝ} {q : ℝ} (hq : q ≠ 0) (hS : IsOpen S)
    (u : IsUniverseN S pot.V pot.dV 0 φ (fun _ => q) H) (hV : IsDerivOn D pot.V pot.dV) (hV2 : IsDerivOn D pot.dV pot.d2V)
    (hφ : ∀ n ∈ S, φ n ∈ D) : ∀ n ∈ S, HasDerivAt H (-(q ^ 2 / 2 * H n)) n ∧ pot.dV (φ n) = -(q * (3 - q ^ 2 / 2) * H n ^ 2) ∧
      pot.d2V (φ n) = q ^ 2 * (3 - q ^ 2 / 2) * H n ^ 2 := by
  have hdH : ∀ n ∈ S, HasDerivAt H (-(q ^ 2 / 2 * H n)) n := fun n hn => by
    refine (u.dH hS hV hφ n hn).congr_deriv ?_
    ring
  have hdV : ∀ n ∈ S, pot.dV (φ n) = -(q * (3 - q ^ 2 / 2) * H n ^ 2) := fun n hn => by
    have := (u.kleinGordon n hn).unique ((hdH n hn).mul_const q)
    have h0 := u.expanding n hn
    rw [div_eq_iff h0.ne'] at this
    linear_combination -this
  refine fun n hn => ⟨hdH n hn, hdV n hn, ?_⟩
  have h1 := (hV2 _ (hφ n hn)).comp n (u.velocity n hn)
  have h2 : HasDerivAt (fun n => -(q * (3 - q ^ 2 / 2) * H n ^ 2)) (-(q * (3 - q ^ 2 / 2) * (((2 : ℕ) : ℝ) * H n ^ (2 - 1) * -(q ^ 2 / 2 * H n)))) n :=
    ((((hdH n hn).fun_pow 2).const_mul (q * (3 - q ^ 2 / 2))).fun_neg)
  have e : (pot.dV ∘ φ) =ᶠ[nhds n] fun n => -(q * (3 - q ^ 2 / 2) * H n ^ 2) := by
    filter_upwards [hS.mem_nhds hn] with s hs
    exact hdV s hs
  have := h1.unique (h2.congr_of_eventuallyEq e)
  apply mul_right_cancel₀ hq
  push_cast at this
  rw [this]
  ring

theorem vacN {S D : Set ℝ} {pot : PotFns} {φ H : ℝ → ℝ} {q : ℝ} (hq : q ≠ 0) (hq2 : q ^ 2 < 2) (hS : IsOpen S)
    (u : IsUniverseN S pot.V pot.dV 0 φ (fun _ => q) H) (hV : IsDerivOn D pot.V pot.dV) (hV2 : IsDerivOn D pot.dV pot.d2V)
    (hφ : ∀ t ∈ S, φ t ∈ D) {b : Bg} (hb : b.indep = .N) (hK : b.K = 0) (hpot : b.pot = pot) {k : ℝ} (hk : 0 < k) {s t : Mode}
    (hm : modes b k = some (s, t)) {τ : ℝ} (hτ : τ ∈ S) :
    (∀ m ∈ [s, t], m.frequency2 (ptN 0 φ (fun _ => q) H τ) = (1 * (k / (exp τ * H τ))) ^ 2 ∧
      m.damping (ptN 0 φ (fun _ => q) H τ) = ((3 - q ^ 2 / 2) * 1 - 0 / 1) / 2) ∧
    (exp τ * H τ / k ≤ 1 / 4 → ∀ vac,
      (∀ f, s.vacuum vac = some f → ∃ u, f (ptN 0 φ (fun _ => q) H τ) = some u ∧
        VacForm (1 / √(2 * k) / q) (exp τ) (exp τ * H τ / k) 1 u) ∧
      (∀ f, t.vacuum vac = some f → ∃ u, f (ptN 0 φ (fun _ => q) H τ) = some u ∧
        VacForm (2 / √(2 * k)) (exp τ) (exp τ * H τ / k) 1 u)) := by
  obtain ⟨-, hdV, hd2V⟩ := slopeN hq hS u hV hV2 hφ τ hτ
  have hH := u.expanding τ hτ
  have ha := exp_pos τ
  have hsk : 0 < √(2 * k) := sqrt_pos.2 (by positivity)
  unfold modes at hm
  rw [hb, hK, hpot] at hm
  cases hm
  have hexp : exp (-2 * τ) = (exp τ ^ 2)⁻¹ := by rw [exp_two_mul_inv, inv_inv]
  have hexp2 : exp (2 * τ) = exp τ ^ 2 := by rw [← exp_nat_mul]; push_cast; rfl
  have hdH : Primpy.N.get_dH τ (H τ) q 0 = -(q ^ 2 / 2 * H τ) := by unfold Primpy.N.get_dH; ring
  have hdHH : Primpy.N.get_dH_H τ (H τ ^ 2) q 0 = -(q ^ 2 / 2) := by unfold Primpy.N.get_dH_H; ring
  have hd2 : Primpy.N.get_d2phi (H τ ^ 2) (-(q ^ 2 / 2)) q (pot.dV (φ τ)) = 0 := by
    unfold Primpy.N.get_d2phi
    rw [hdV]
    field_simp
    ring
  have hd2H : Primpy.N.get_d2H τ (H τ) (-(q ^ 2 / 2 * H τ)) q 0 0 = q ^ 4 / 4 * H τ := by
    unfold Primpy.N.get_d2H
    ring
  have hd3 : Primpy.N.get_d3phi (H τ) (-(q ^ 2 / 2 * H τ)) (q ^ 4 / 4 * H τ) q 0 (pot.dV (φ τ)) (pot.d2V (φ τ)) = 0 := by
    unfold Primpy.N.get_d3phi
    rw [hd2V, hdV]
    field_simp
    ring
  have hdz : 0 / q + 1 = 1 := by ring
  have hrad : ScalarN.radicand pot 0 k (ptN 0 φ (fun _ => q) H τ) = (k / (exp τ * H τ)) ^ 2 * (1 - (2 - q ^ 2 / 2) * (exp τ * H τ / k) ^ 2) := by
    simp only [ScalarN.radicand, ptN, hdH, hdHH, hd2, hd2H, hd3]
    field_simp
    ring
  have hrad2 : k ^ 2 / (exp τ * H τ) ^ 2 - 2 - -(q ^ 2 / 2 * H τ) / H τ = (k / (exp τ * H τ)) ^ 2 * (1 - (2 - q ^ 2 / 2) * (exp τ * H τ / k) ^ 2) := by
    field_simp
    ring
  have hi : ∀ w : ℝ, -Complex.I * (w : ℂ) / ((exp τ * H τ : ℝ) : ℂ) = -((1 : ℝ) : ℂ) * (Complex.I * ((w / (exp τ * H τ) : ℝ) : ℂ)) := fun w => by
    push_cast
    ring
  have hy0 : 0 < exp τ * H τ / k := by positivity
  have hA : 0 < exp τ * H τ := by positivity
  refine ⟨fun m hmem => ?_, fun hy vac => ⟨fun f hf => ?_, fun f hf => ?_⟩⟩
  · rcases List.mem_pair.1 hmem with rfl | rfl
    · dsimp only [ScalarN.frequency2, ScalarN.damping, ScalarN.damping2, ScalarN.xi, ptN, kappa2]
      rw [hdV, hexp2]
      constructor
      · field_simp
        ring
      · field_simp
        ring
    · dsimp only [TensorN.frequency2, TensorN.damping, ptN]
      rw [hexp]
      constructor
      · field_simp
        ring
      · ring
  · obtain ⟨v, hv, hvv, hw⟩ := wk_HD hA hk (by positivity) (by linarith) hy0 hy hrad
    have hz : ∀ r : ℝ, (1 / (r : ℂ) / ((exp τ * q : ℝ) : ℂ)) = ((1 / r / q : ℝ) : ℂ) * ((exp τ)⁻¹ : ℝ) := fun r => by
      push_cast
      ring
    rcases byName_some hf with rfl | rfl | rfl
    · simp only [ScalarN.vacK, ptN, hdHH, hd2, hdz, if_pos hk, hz, hi]
      refine ⟨_, rfl, form_k rfl ?_⟩
      simp only [inv_div]
      push_cast
      ring
    · simp only [ptN] at hw
      simp only [ScalarN.vacHD, ptN, hw, hdHH, hd2, hdz, hz, hi, Option.map_some]
      refine ⟨_, rfl, form_HD (s0 := 1 / q) hk hv (by positivity) (by linarith) hvv (by ring) ?_ ?_⟩
      · push_cast; ring
      · simp only [inv_div]; push_cast; ring
    · simp only [ScalarN.vacRST, ptN, if_pos hk, hz, hi]
      refine ⟨_, rfl, form_RST rfl ?_⟩
      simp only [inv_div]
  · obtain ⟨v, hv, hvv, hw⟩ := wk_HD hA hk (by positivity) (by linarith) hy0 hy hrad2
    have hz : ∀ r : ℝ, (2 / (r : ℂ) / ((exp τ : ℝ) : ℂ)) = ((2 / r : ℝ) : ℂ) * ((exp τ)⁻¹ : ℝ) := fun r => by
      push_cast
      rw [div_eq_mul_inv (2 / (r : ℂ))]
    rcases byName_some hf with rfl | rfl | rfl
    · simp only [TensorN.vacK, ptN, if_pos hk, hz, hi]
      refine ⟨_, rfl, form_k rfl ?_⟩
      simp only [inv_div]
      push_cast
      ring
    · simp only [TensorN.vacHD, ptN, hdH, hw, hz, hi, Option.map_some]
      refine ⟨_, rfl, form_HD (s0 := 2) hk hv (by positivity) (by linarith) hvv rfl rfl ?_⟩
      simp only [inv_div]; push_cast; ring
    · simp only [TensorN.vacRST, ptN, if_pos hk, hz, hi]
      refine ⟨_, rfl, form_RST rfl ?_⟩
      simp only [inv_div]

/-- **C82, cosmic time.**  `dφ/dN = q` constant (an exponential potential): `ε₁ = q²/2`, power-law inflation.  To every accuracy `ρ` there are
`X`, `η`, depending on `q` and `ρ` only, so that for every such background, every wavenumber that starts at least `X` times
inside the horizon and every exact integration whose last steps are at `k ≤ η aH`, the reported scalar and tensor spectra, in
each of the vacua, agree with the closed-form spectrum to the relative accuracy `ρ`; `aH` and `H` of the formula may be taken
at any moment. -/
theorem C82_time {q ρ : ℝ} (hq : q ≠ 0) (hq2 : q ^ 2 < 2) (hρ : 0 < ρ) : ∃ X η : ℝ, 0 < X ∧ 0 < η ∧
    ∀ (S D : Set ℝ) (pot : PotFns) (N φ H : ℝ → ℝ), IsOpen S → IsPreconnected S →
    IsUniverse S pot.V pot.dV 0 N φ (fun t => q * H t) H → IsDerivOn D pot.V pot.dV → IsDerivOn D pot.dV pot.d2V → (∀ t ∈ S, φ t ∈ D) →
    ∀ (osc : Oscode) (b : Bg) (kw : OscKw) (k : ℝ) (r : ModeSpectra), b.indep = .t → b.K = 0 → b.pot = pot → 0 < k →
    (∀ p ∈ b.pts, ∃ t ∈ S, p = ptT 0 N φ (fun t => q * H t) H t) → kw.y0.getD b.perturbation_ic = (1, 0, 0, 1) →
    solveOscode1 osc b k kw = .ok r → (∀ p, b.pts[idxBeg b kw.fac_beg k]? = some p → X * exp p.logaH ≤ k) →
    (∀ s t, modes b k = some (s, t) → ∀ m ∈ [s, t],
      ExactRun osc b kw k m (ptT 0 N φ (fun t => q * H t) H) S {t ∈ S | k ≤ η * (exp (N t) * H t)}) →
    ∀ vac ∈ kw.vacuum, ∃ Ps Pt : ℝ, r.P_s.get? vac = some (some Ps) ∧ r.P_t.get? vac = some (some Pt) ∧
      ∀ t ∈ S, |Ps - H t ^ 2 / (8 * π ^ 2 * (q ^ 2 / 2)) * powerLaw (q ^ 2 / 2) (log (k / (exp (N t) * H t)))| ≤
          ρ * (H t ^ 2 / (8 * π ^ 2 * (q ^ 2 / 2)) * powerLaw (q ^ 2 / 2) (log (k / (exp (N t) * H t)))) ∧
        |Pt - 2 * H t ^ 2 / π ^ 2 * powerLaw (q ^ 2 / 2) (log (k / (exp (N t) * H t)))| ≤
          ρ * (2 * H t ^ 2 / π ^ 2 * powerLaw (q ^ 2 / 2) (log (k / (exp (N t) * H t)))) := by
  have hε : 0 < q ^ 2 / 2 := by positivity
  obtain ⟨X, η, hX, hη, hl⟩ := assemble hε (by linarith) hρ
  refine ⟨X, η, hX, hη, ?_⟩
  intro S D pot N φ H hS hc u hV hV2 hφ osc b kw k r hb hK hpot hk hpts hic h hstart hex vac hv
  have hsl := slopeT hq hS u hV hV2 hφ
  have h' := h
  rw [single_eq] at h'
  obtain ⟨stop, s, t, pb, pe, -, -, -, -, -, hstop, hmod, hb', he, -⟩ := oneMode_ok h'
  obtain ⟨ti, hti, -⟩ := hpts pb (List.mem_of_getElem? hb')
  have h1ε : 0 < 1 - q ^ 2 / 2 := by linarith
  obtain ⟨m, hm⟩ : ∃ m, m = 1 / (1 - q ^ 2 / 2) := ⟨_, rfl⟩
  have hm0 : 0 < m := by rw [hm]; positivity
  have hmi : 1 / m = 1 - q ^ 2 / 2 := by rw [hm]; field_simp
  have haH : ∀ τ ∈ S, 0 < exp (N τ) * H τ := fun τ hτ => mul_pos (exp_pos _) (u.expanding τ hτ)
  have hxd : ∀ τ ∈ S, HasDerivAt (fun τ => m * k / (exp (N τ) * H τ)) (-(m * k / (exp (N τ) * H τ) * H τ / m)) τ := fun τ hτ => by
    have h0 := haH τ hτ
    have hH := u.expanding τ hτ
    have hd := (((u.hubble τ hτ).exp.fun_mul (hsl τ hτ).1).fun_inv h0.ne').const_mul (m * k)
    simp only [← div_eq_mul_inv] at hd
    refine hd.congr_deriv ?_
    rw [div_eq_mul_one_div _ m, hmi]
    field_simp
    ring
  have hxpos : ∀ τ ∈ S, 0 < m * k / (exp (N τ) * H τ) := fun τ hτ => by have := haH τ hτ; positivity
  have hconst : ∀ τ ∈ S, exp (-N τ) * (m * k / (exp (N τ) * H τ)) ^ (-m) = exp (-N ti) * (m * k / (exp (N ti) * H ti)) ^ (-m) := fun τ hτ => by
    have key : ∀ t ∈ S, HasDerivAt (fun τ => exp (-N τ) * (m * k / (exp (N τ) * H τ)) ^ (-m)) 0 t := fun t ht => by
      refine (((u.hubble t ht).fun_neg.exp).fun_mul ((hxd t ht).rpow_const (Or.inl (hxpos t ht).ne'))).congr_deriv ?_
      have := hxpos t ht
      rw [rpow_sub_one this.ne']
      field_simp
      ring
    exact hS.is_const_of_deriv_eq_zero hc (fun t ht => (key t ht).differentiableAt.differentiableWithinAt)
      (fun t ht => (key t ht).deriv) hτ hti
  refine hl S hS hc (exp (-N ti) * (m * k / (exp (N ti) * H ti)) ^ (-m)) N H (fun t => -(q ^ 2 / 2 * H t ^ 2)) H
    (ptT 0 N φ (fun t => q * H t) H) k (mul_pos (exp_pos _) (rpow_pos_of_pos (hxpos ti hti) _)) hk ?_ u.expanding (fun τ => ⟨rfl, rfl⟩)
    osc b kw r s t hmod hK (fun τ hτ => (vacT hq hq2 hS u hV hV2 hφ hb hK hpot hk hmod hτ).1) hpts hic h hstart ?_ ?_ q (by ring)
    (fun τ hτ => (vacT hq hq2 hS u hV hV2 hφ hb hK hpot hk hmod hτ).2) vac hv
  · rw [← hm]
    refine ⟨u.hubble, fun τ hτ => (hsl τ hτ).1, ?_, fun τ hτ => ⟨u.expanding τ hτ, hxpos τ hτ⟩, hxd, fun τ hτ => ?_⟩
    · have : ContinuousOn H S := fun τ hτ => ((hsl τ hτ).1).continuousAt.continuousWithinAt
      exact (continuousOn_const.mul (this.pow 2)).neg
    · rw [← hconst τ hτ, mul_assoc, ← rpow_add (hxpos τ hτ), neg_add_cancel, rpow_zero, mul_one]
  all_goals
    have hset : {τ ∈ S | k ≤ η * exp (ptT 0 N φ (fun t => q * H t) H τ).logaH} = {t ∈ S | k ≤ η * (exp (N t) * H t)} := by
      ext τ
      simp only [Set.mem_setOf_eq]
      refine and_congr_right fun hτ => ?_
      simp only [ptT]
      rw [exp_log (haH τ hτ)]
    rw [hset]
  · exact hex s t hmod s (by simp)
  · exact hex s t hmod t (by simp)

/-- **C82, e-folds.** -/
theorem C82_efolds {q ρ : ℝ} (hq : q ≠ 0) (hq2 : q ^ 2 < 2) (hρ : 0 < ρ) : ∃ X η : ℝ, 0 < X ∧ 0 < η ∧
    ∀ (S D : Set ℝ) (pot : PotFns) (φ H : ℝ → ℝ), IsOpen S → IsPreconnected S →
    IsUniverseN S pot.V pot.dV 0 φ (fun _ => q) H → IsDerivOn D pot.V pot.dV → IsDerivOn D pot.dV pot.d2V → (∀ n ∈ S, φ n ∈ D) →
    ∀ (osc : Oscode) (b : Bg) (kw : OscKw) (k : ℝ) (r : ModeSpectra), b.indep = .N → b.K = 0 → b.pot = pot → 0 < k →
    (∀ p ∈ b.pts, ∃ n ∈ S, p = ptN 0 φ (fun _ => q) H n) → kw.y0.getD b.perturbation_ic = (1, 0, 0, 1) →
    solveOscode1 osc b k kw = .ok r → (∀ p, b.pts[idxBeg b kw.fac_beg k]? = some p → X * exp p.logaH ≤ k) →
    (∀ s t, modes b k = some (s, t) → ∀ m ∈ [s, t],
      ExactRun osc b kw k m (ptN 0 φ (fun _ => q) H) S {n ∈ S | k ≤ η * (exp n * H n)}) →
    ∀ vac ∈ kw.vacuum, ∃ Ps Pt : ℝ, r.P_s.get? vac = some (some Ps) ∧ r.P_t.get? vac = some (some Pt) ∧
      ∀ n ∈ S, |Ps - H n ^ 2 / (8 * π ^ 2 * (q ^ 2 / 2)) * powerLaw (q ^ 2 / 2) (log (k / (exp n * H n)))| ≤
          ρ * (H n ^ 2 / (8 * π ^ 2 * (q ^ 2 / 2)) * powerLaw (q ^ 2 / 2) (log (k / (exp n * H n)))) ∧
        |Pt - 2 * H n ^ 2 / π ^ 2 * powerLaw (q ^ 2 / 2) (log (k / (exp n * H n)))| ≤
          ρ * (2 * H n ^ 2 / π ^ 2 * powerLaw (q ^ 2 / 2) (log (k / (exp n * H n)))) := by
  have hε : 0 < q ^ 2 / 2 := by positivity
  obtain ⟨X, η, hX, hη, hl⟩ := assemble hε (by linarith) hρ
  refine ⟨X, η, hX, hη, ?_⟩
  intro S D pot φ H hS hc u hV hV2 hφ osc b kw k r hb hK hpot hk hpts hic h hstart hex vac hv
  have hsl := slopeN hq hS u hV hV2 hφ
  have h' := h
  rw [single_eq] at h'
  obtain ⟨stop, s, t, pb, pe, -, -, -, -, -, hstop, hmod, hb', he, -⟩ := oneMode_ok h'
  obtain ⟨ti, hti, -⟩ := hpts pb (List.mem_of_getElem? hb')
  have h1ε : 0 < 1 - q ^ 2 / 2 := by linarith
  obtain ⟨m, hm⟩ : ∃ m, m = 1 / (1 - q ^ 2 / 2) := ⟨_, rfl⟩
  have hm0 : 0 < m := by rw [hm]; positivity
  have hmi : 1 / m = 1 - q ^ 2 / 2 := by rw [hm]; field_simp
  have haH : ∀ τ ∈ S, 0 < exp τ * H τ := fun τ hτ => mul_pos (exp_pos _) (u.expanding τ hτ)
  have hxd : ∀ τ ∈ S, HasDerivAt (fun τ => m * k / (exp τ * H τ)) (-(m * k / (exp τ * H τ) * 1 / m)) τ := fun τ hτ => by
    have h0 := haH τ hτ
    have hH := u.expanding τ hτ
    have hd := (((hasDerivAt_exp τ).fun_mul (hsl τ hτ).1).fun_inv h0.ne').const_mul (m * k)
    simp only [← div_eq_mul_inv] at hd
    refine hd.congr_deriv ?_
    rw [div_eq_mul_one_div _ m, hmi]
    field_simp
    ring
  have hxpos : ∀ τ ∈ S, 0 < m * k / (exp τ * H τ) := fun τ hτ => by have := haH τ hτ; positivity
  have hconst : ∀ τ ∈ S, exp (-τ) * (m * k / (exp τ * H τ)) ^ (-m) = exp (-ti) * (m * k / (exp ti * H ti)) ^ (-m) := fun τ hτ => by
    have key : ∀ t ∈ S, HasDerivAt (fun τ => exp (-τ) * (m * k / (exp τ * H τ)) ^ (-m)) 0 t := fun t ht => by
      refine (((hasDerivAt_id t).fun_neg.exp).fun_mul ((hxd t ht).rpow_const (Or.inl (hxpos t ht).ne'))).congr_deriv ?_
      have := hxpos t ht
      rw [rpow_sub_one this.ne']
      simp only [id]
      generalize m * k / (exp t * H t) = z at this ⊢
      field_simp
      ring
    exact hS.is_const_of_deriv_eq_zero hc (fun t ht => (key t ht).differentiableAt.differentiableWithinAt)
      (fun t ht => (key t ht).deriv) hτ hti
  refine hl S hS hc (exp (-ti) * (m * k / (exp ti * H ti)) ^ (-m)) (fun n => n) (fun _ => 1) (fun _ => 0) H
    (ptN 0 φ (fun _ => q) H) k (mul_pos (exp_pos _) (rpow_pos_of_pos (hxpos ti hti) _)) hk ?_ u.expanding (fun τ => ⟨rfl, rfl⟩)
    osc b kw r s t hmod hK (fun τ hτ => (vacN hq hq2 hS u hV hV2 hφ hb hK hpot hk hmod hτ).1) hpts hic h hstart ?_ ?_ q (by ring)
    (fun τ hτ => (vacN hq hq2 hS u hV hV2 hφ hb hK hpot hk hmod hτ).2) vac hv
  · rw [← hm]
    refine ⟨fun τ _ => hasDerivAt_id τ, fun τ hτ => hasDerivAt_const τ 1, continuousOn_const, fun τ hτ => ⟨one_pos, hxpos τ hτ⟩, hxd, fun τ hτ => ?_⟩
    rw [← hconst τ hτ, mul_assoc, ← rpow_add (hxpos τ hτ), neg_add_cancel, rpow_zero, mul_one]
  all_goals
    have hset : {τ ∈ S | k ≤ η * exp (ptN 0 φ (fun _ => q) H τ).logaH} = {n ∈ S | k ≤ η * (exp n * H n)} := by
      ext τ
      simp only [Set.mem_setOf_eq]
      refine and_congr_right fun hτ => ?_
      simp only [ptN]
      rw [exp_log (haH τ hτ)]
    rw [hset]
  · exact hex s t hmod s (by simp)
  · exact hex s t hmod t (by simp)

/-! ## Hypotheses met -/

/-- Exact solutions exist for every mode that starts deep enough inside the horizon. -/
theorem fundamental {m : ℝ} (hm : 1 ≤ m) : ∃ X : ℝ, 0 < X ∧ ∀ {S : Set ℝ} {κ : ℝ} {N g g1 x : ℝ → ℝ}, Clock S m κ N g g1 x → ∀ ti ∈ S, X ≤ x ti →
    ∃ F F1 F2 G G1 G2 : ℝ → ℂ, Twice S F F1 F2 ∧ Twice S G G1 G2 ∧ F ti = 1 ∧ F1 ti = 0 ∧ G ti = 0 ∧ G1 ti = 1 ∧
      ∀ ω2 γ : ℝ → ℝ, (∀ τ ∈ S, ω2 τ = (g τ * x τ / m) ^ 2) → (∀ τ ∈ S, γ τ = ((2 + 1 / m) * g τ - g1 τ / g τ) / 2) →
      (∀ τ ∈ S, oscillator ω2 γ F F1 F2 τ = 0) ∧ ∀ τ ∈ S, oscillator ω2 γ G G1 G2 τ = 0 := by
  have hm0 : 0 < m := by linarith
  obtain ⟨t, X, η, -, hX, -, hl⟩ := Hankel.late hm0.le one_pos
  refine ⟨max X m, lt_max_of_lt_left hX, ?_⟩
  intro S κ N g g1 x c ti hi hXx
  have hxi := (c.pos ti hi).2
  have hgi := (c.pos ti hi).1
  have hmx : m ≤ x ti := (le_max_right _ _).trans hXx
  obtain ⟨α, β, a1, a2, -⟩ := hl (x ti) ((le_max_left _ _).trans hXx) 1 (-(m / x ti : ℝ)) (by norm_num) (by
    rw [norm_neg, Complex.norm_real, norm_of_nonneg (by positivity)]
    exact (div_le_one hxi).2 hmx |>.trans (by norm_num))
  obtain ⟨α', β', b1, b2, -⟩ := hl (x ti) ((le_max_left _ _).trans hXx) 0 1 (by norm_num) (by norm_num)
  have hm' : (m : ℂ) ≠ 0 := by exact_mod_cast hm0.ne'
  have hg' : (g ti : ℂ) ≠ 0 := by exact_mod_cast hgi.ne'
  have hx' : (x ti : ℂ) ≠ 0 := by exact_mod_cast hxi.ne'
  have he : (exp (N ti) : ℂ) * (exp (-N ti) : ℝ) = 1 := by
    rw [← Complex.ofReal_mul, ← exp_add, add_neg_cancel, exp_zero, Complex.ofReal_one]
  refine ⟨_, _, _, _, _, _, msol_twice hm0 c (exp (N ti) : ℂ) α β,
    msol_twice hm0 c (-(exp (N ti) : ℂ) * m / (g ti * x ti)) α' β', ?_, ?_, ?_, ?_, fun ω2 γ hω hγ =>
    ⟨msol_oscillator hm0 c _ α β hω hγ, msol_oscillator hm0 c _ α' β' hω hγ⟩⟩
  · rw [msol, a1, mul_one, he]
  · rw [msol1, a1, a2, ← mul_assoc, he]
    push_cast
    field_simp
    ring
  · rw [msol, b1]; ring
  · rw [msol1, b1, b2]
    generalize ((exp (-N ti) : ℝ) : ℂ) = E at he ⊢
    generalize ((exp (N ti) : ℝ) : ℂ) = E' at he ⊢
    push_cast
    field_simp
    linear_combination (x ti : ℂ) * he

/-- An integrator that returns exact values at one late time. -/
noncomputable def lateOsc (F G : ℝ → ℂ) (T : ℝ) : Oscode := fun A =>
  let z : Option ℂ := some ((A.x0 : ℂ) * F T + A.dx0 * G T)
  .ok ⟨[some A.x0, z, z, z, z, z], [some A.dx0, none, none, none, none, none], none⟩

theorem lateOsc_samples (F G : ℝ → ℂ) {T : ℝ} {W : Set ℝ} (hT : T ∈ W) (a : OscArgs) : SamplesExact (lateOsc F G T) a F G W := by
  intro x0 dx0
  refine ⟨_, rfl, rfl, rfl, ?_, ⟨(x0 : ℂ) * F T + dx0 * G T, ?_⟩⟩
  · intro z hz
    refine ⟨T, hT, ?_⟩
    simpa using hz
  · simp

open Exact in
/-- **C82 met, e-folds**: whatever `X` and `η` are, there is such a run with all three vacua: `φ = n`, `H = 2 e^{-n/2}`, `ε₁ = 1/2`. -/
example (X η : ℝ) (hη : 0 < η) : ∃ (φ H : ℝ → ℝ) (osc : Oscode) (b : Bg) (r : ModeSpectra),
    IsUniverseN Set.univ (expPot 10).V (expPot 10).dV 0 φ (fun _ => 1) H ∧ IsDerivOn Set.univ (expPot 10).V (expPot 10).dV ∧
    IsDerivOn Set.univ (expPot 10).dV (expPot 10).d2V ∧ b.indep = .N ∧ b.K = 0 ∧ b.pot = expPot 10 ∧
    (∀ p ∈ b.pts, ∃ n, p = ptN 0 φ (fun _ => 1) H n) ∧ b.perturbation_ic = (1, 0, 0, 1) ∧
    solveOscode1 osc b 1 { vacuum := ["k", "HD", "RST"] } = .ok r ∧ (∀ p, b.pts[idxBeg b 0 1]? = some p → X * exp p.logaH ≤ 1) ∧
    ∀ s t, modes b 1 = some (s, t) → ∀ m ∈ [s, t],
      ExactRun osc b { vacuum := ["k", "HD", "RST"] } 1 m (ptN 0 φ (fun _ => 1) H) Set.univ {n ∈ Set.univ | 1 ≤ η * (exp n * H n)} := by
  have hV : IsDerivOn Set.univ (expPot 10).V (expPot 10).dV := (expPot_chain 10).d1
  have hV2 : IsDerivOn Set.univ (expPot 10).dV (expPot 10).d2V := (expPot_chain 10).d2
  have haH : ∀ n : ℝ, exp n * (2 * exp (-(n / 2))) = 2 * exp (n / 2) := fun n => by
    rw [mul_left_comm, ← exp_add]; congr 2; ring
  have u : IsUniverseN Set.univ (expPot 10).V (expPot 10).dV 0 (fun n => n) (fun _ => 1) (fun n => 2 * exp (-(n / 2))) := by
    have e1 : ∀ n : ℝ, exp (-n) = exp (-(n / 2)) ^ 2 := fun n => by rw [← exp_nat_mul]; congr 1; push_cast; ring
    have hds : ∀ n : ℝ, HasDerivAt (fun n : ℝ => exp (-(n / 2))) (-(exp (-(n / 2)) / 2)) n := fun n => by
      refine ((((hasDerivAt_id n).div_const 2).fun_neg).exp).congr_deriv ?_
      simp only [id]
      ring
    refine ⟨fun n _ => hasDerivAt_id n, fun n _ => ?_, fun n _ => ?_, fun n _ => by positivity⟩
    · refine (((hds n).const_mul 2).mul_const 1).congr_deriv ?_
      simp only [expPot]
      rw [e1 n]
      have := exp_pos (-(n / 2))
      field_simp
      ring
    · simp only [expPot]
      rw [e1 n]
      ring
  have c : Clock Set.univ 2 1 (fun n => n) (fun _ => 1) (fun _ => 0) (fun n => exp (-(n / 2))) := by
    refine ⟨fun n _ => hasDerivAt_id n, fun n _ => hasDerivAt_const n 1, continuousOn_const, fun n _ => ⟨one_pos, exp_pos _⟩, fun n _ => ?_, fun n _ => ?_⟩
    · refine ((((hasDerivAt_id n).div_const 2).fun_neg).exp).congr_deriv ?_
      simp only [id]
      ring
    · rw [one_mul, rpow_two, ← exp_nat_mul]; congr 1; push_cast; ring
  obtain ⟨X1, hX1, hfun⟩ := fundamental (m := 2) (by norm_num)
  obtain ⟨M, hM⟩ : ∃ M, M = max (max 1 X1) (2 * X) := ⟨_, rfl⟩
  have hM1 : 1 ≤ M := by rw [hM]; exact (le_max_left _ _).trans (le_max_left _ _)
  have hM2 : X1 ≤ M := by rw [hM]; exact (le_max_right _ _).trans (le_max_left _ _)
  have hM3 : 2 * X ≤ M := by rw [hM]; exact le_max_right _ _
  obtain ⟨L, hL⟩ : ∃ L, L = max (exp 10) (1 / η) := ⟨_, rfl⟩
  have hL1 : exp 10 ≤ L := by rw [hL]; exact le_max_left _ _
  have hL2 : 1 / η ≤ L := by rw [hL]; exact le_max_right _ _
  have hM0 : 0 < M := by linarith
  have hL0 : 0 < L := (exp_pos 10).trans_le hL1
  have hlM : 0 ≤ log M := log_nonneg hM1
  have hlL : 10 ≤ log L := (le_log_iff_exp_le hL0).2 hL1
  have ex0 : exp (-(-(2 * log M) / 2)) = M := by rw [show -(-(2 * log M) / 2) = log M by ring, exp_log hM0]
  have ea0 : exp (-(2 * log M) / 2) = M⁻¹ := by rw [show -(2 * log M) / 2 = -log M by ring, exp_neg, exp_log hM0]
  have ea1 : exp (2 * log L / 2) = L := by rw [show 2 * log L / 2 = log L by ring, exp_log hL0]
  obtain ⟨F, F1, F2, G, G1, G2, tF, tG, i1, i2, i3, i4, hosc⟩ := hfun c (-(2 * log M)) trivial (by rw [ex0]; exact hM2)
  obtain ⟨p0, hp0⟩ : ∃ p, p = ptN 0 (fun n => n) (fun _ => 1) (fun n => 2 * exp (-(n / 2))) (-(2 * log M)) := ⟨_, rfl⟩
  obtain ⟨p1, hp1⟩ : ∃ p, p = ptN 0 (fun n => n) (fun _ => 1) (fun n => 2 * exp (-(n / 2))) (2 * log L) := ⟨_, rfl⟩
  have hl0 : p0.logaH = log (2 * M⁻¹) := by rw [hp0]; simp only [ptN, haH, ea0]
  have hl1 : p1.logaH = log (2 * L) := by rw [hp1]; simp only [ptN, haH, ea1]
  have hN0 : p0.N = -(2 * log M) := by rw [hp0]; rfl
  have hN1 : p1.N = 2 * log L := by rw [hp1]; rfl
  obtain ⟨b, hb⟩ : ∃ b : Bg, b = { indep := .N, K := 0, pot := expPot 10, pts := [p0, p1], logaH_star := 0 } := ⟨_, rfl⟩
  have hb0 : b.pts[0]? = some p0 := by rw [hb]; rfl
  have hbeg : idxBeg b 0 1 = 0 := if_pos rfl
  have hend : idxEnd b 0 100 1 = .ok 1 := by
    have h100 : log 100 < 10 := by
      rw [log_lt_iff_lt_exp (by norm_num)]
      have h1 : (2 : ℝ) ≤ exp 1 := by have := add_one_le_exp (1 : ℝ); linarith
      have h2 : exp 10 = exp 1 ^ 10 := by rw [← exp_nat_mul]; norm_num
      rw [h2]
      calc (100 : ℝ) < 2 ^ 10 := by norm_num
        _ ≤ exp 1 ^ 10 := pow_le_pow_left₀ (by norm_num) h1 10
    have a : argwhere (fun p => endTest 1 100 p.logaH) b.pts = [1] := by
      have e0 : ¬ endTest 1 100 (log (2 * M⁻¹)) := by
        rintro ⟨-, -, h | h | h⟩
        · norm_num at h
        · norm_num at h
        · rw [log_one, sub_zero] at h
          have h2 : log (2 * M⁻¹) ≤ log 100 := log_le_log (by positivity) (by have := inv_le_one_of_one_le₀ hM1; linarith)
          linarith
      have e1 : endTest 1 100 (log (2 * L)) := by
        refine ⟨by norm_num, by norm_num, Or.inr (Or.inr ?_)⟩
        rw [log_one, sub_zero]
        have : log L ≤ log (2 * L) := log_le_log hL0 (by linarith)
        linarith
      rw [hb]
      simp [argwhere, hl0, hl1, e0, e1, List.range, List.range.loop]
    unfold idxEnd
    rw [a, hb]
    simp [hN0, hN1]
    intro h
    linarith
  refine ⟨fun n => n, fun n => 2 * exp (-(n / 2)), lateOsc F G (2 * log L), b, ?_⟩
  suffices h : ∃ r, solveOscode1 (lateOsc F G (2 * log L)) b 1 { vacuum := ["k", "HD", "RST"] } = .ok r by
    obtain ⟨r, hr⟩ := h
    refine ⟨r, u, hV, hV2, by rw [hb], by rw [hb], by rw [hb], ?_, by rw [hb], hr, ?_, ?_⟩
    · intro p hp
      rw [hb] at hp
      simp only [List.mem_cons, List.not_mem_nil, or_false] at hp
      rcases hp with h | h
      · exact ⟨_, h.trans hp0⟩
      · exact ⟨_, h.trans hp1⟩
    · intro p hp
      rw [hbeg, hb0] at hp
      cases hp
      rw [hl0, exp_log (by positivity), ← mul_assoc, ← div_eq_mul_inv, div_le_one hM0]
      linarith
    · intro s t hst m hm stop pb pe hs hpb hpe
      rw [hbeg, hb0] at hpb
      obtain rfl : p0 = pb := Option.some.inj hpb
      obtain ⟨h1, h2⟩ := hosc (fun τ => m.frequency2 (ptN 0 (fun n => n) (fun _ => 1) (fun n => 2 * exp (-(n / 2))) τ))
        (fun τ => m.damping (ptN 0 (fun n => n) (fun _ => 1) (fun n => 2 * exp (-(n / 2))) τ))
        (fun τ _ => by
          rw [((vacN one_ne_zero (by norm_num) isOpen_univ u hV hV2 (fun _ _ => trivial) (by rw [hb]) (by rw [hb]) (by rw [hb]) one_pos hst (Set.mem_univ τ)).1 m hm).1,
            haH, exp_neg]
          field_simp)
        (fun τ _ => by
          rw [((vacN one_ne_zero (by norm_num) isOpen_univ u hV hV2 (fun _ _ => trivial) (by rw [hb]) (by rw [hb]) (by rw [hb]) one_pos hst (Set.mem_univ τ)).1 m hm).2]
          norm_num)
      have hx0 : p0.x = -(2 * log M) := by rw [hp0]; rfl
      rw [hx0]
      have hW : 2 * log L ∈ {n ∈ (Set.univ : Set ℝ) | 1 ≤ η * (exp n * (2 * exp (-(n / 2))))} := by
        refine ⟨trivial, ?_⟩
        rw [haH, ea1]
        rw [div_le_iff₀ hη] at hL2
        linarith
      exact ⟨F, F1, F2, G, G1, G2, tF, tG, h1, h2, i1, i2, i3, i4, lateOsc_samples F G hW _⟩
  rw [single_eq]
  unfold oneMode
  dsimp only
  rw [hbeg, hend, hb]
  simp [modes, runs, oscCall, lateOsc, pick, combineAll, byName, combine, ab, bind, Except.bind, pure, Except.pure]

open Exact in
/-- **C82 met, cosmic time**: the same with `a = t²`. -/
example (X η : ℝ) (hη : 0 < η) : ∃ (N φ H : ℝ → ℝ) (osc : Oscode) (b : Bg) (r : ModeSpectra),
    IsUniverse (Set.Ioi 0) (expPot 10).V (expPot 10).dV 0 N φ (fun t => 1 * H t) H ∧ IsDerivOn Set.univ (expPot 10).V (expPot 10).dV ∧
    IsDerivOn Set.univ (expPot 10).dV (expPot 10).d2V ∧ b.indep = .t ∧ b.K = 0 ∧ b.pot = expPot 10 ∧
    (∀ p ∈ b.pts, ∃ t ∈ Set.Ioi (0 : ℝ), p = ptT 0 N φ (fun t => 1 * H t) H t) ∧ b.perturbation_ic = (1, 0, 0, 1) ∧
    solveOscode1 osc b 1 { vacuum := ["k", "HD", "RST"] } = .ok r ∧ (∀ p, b.pts[idxBeg b 0 1]? = some p → X * exp p.logaH ≤ 1) ∧
    ∀ s t, modes b 1 = some (s, t) → ∀ m ∈ [s, t],
      ExactRun osc b { vacuum := ["k", "HD", "RST"] } 1 m (ptT 0 N φ (fun t => 1 * H t) H) (Set.Ioi 0) {t ∈ Set.Ioi 0 | 1 ≤ η * (exp (N t) * H t)} := by
  have hV : IsDerivOn Set.univ (expPot 10).V (expPot 10).dV := (expPot_chain 10).d1
  have hV2 : IsDerivOn Set.univ (expPot 10).dV (expPot 10).d2V := (expPot_chain 10).d2
  have ea : ∀ t : ℝ, 0 < t → exp (2 * log t) = t ^ 2 := fun t ht => by rw [show 2 * log t = ((2 : ℕ) : ℝ) * log t by norm_num, exp_nat_mul, exp_log ht]
  have haH : ∀ t : ℝ, 0 < t → exp (2 * log t) * (2 / t) = 2 * t := fun t ht => by rw [ea t ht]; field_simp
  have hlog : ∀ t ∈ Set.Ioi (0 : ℝ), HasDerivAt (fun t => 2 * log t) (2 / t) t := fun t ht =>
    ((hasDerivAt_log (ne_of_gt ht)).const_mul 2).congr_deriv (by rw [div_eq_mul_inv])
  have hinv : ∀ t ∈ Set.Ioi (0 : ℝ), HasDerivAt (fun t => 2 / t) (-(2 / t ^ 2)) t := fun t ht =>
    ((hasDerivAt_inv (ne_of_gt ht)).const_mul 2).congr_deriv (by ring)
  have u : IsUniverse (Set.Ioi 0) (expPot 10).V (expPot 10).dV 0 (fun t => 2 * log t) (fun t => 2 * log t) (fun t => 1 * (2 / t)) (fun t => 2 / t) := by
    refine ⟨hlog, fun t ht => by simpa using hlog t ht, fun t ht => ?_, fun t ht => ?_, fun t ht => ?_⟩
    · have h0 : (0 : ℝ) < t := ht
      refine ((hinv t ht).const_mul 1).congr_deriv ?_
      simp only [expPot]
      rw [exp_neg, ea t h0]
      field_simp
      ring
    · have h0 : (0 : ℝ) < t := ht
      simp only [expPot]
      rw [exp_neg, ea t h0]
      field_simp
      ring
    · exact div_pos two_pos ht
  have c : Clock (Set.Ioi 0) 2 1 (fun t => 2 * log t) (fun t => 2 / t) (fun t => -(2 / t ^ 2)) (fun t => t⁻¹) := by
    refine ⟨hlog, hinv, ?_, fun t ht => ⟨div_pos two_pos ht, inv_pos.2 ht⟩, fun t ht => ?_, fun t ht => ?_⟩
    · exact (continuousOn_const.div (continuousOn_id.pow 2) fun t ht => pow_ne_zero 2 (ne_of_gt ht)).neg
    · have h0 : (0 : ℝ) < t := ht
      refine (hasDerivAt_inv (ne_of_gt ht)).congr_deriv ?_
      field_simp
    · have h0 : (0 : ℝ) < t := ht
      rw [one_mul, rpow_two, exp_neg, ea t h0, inv_pow]
  obtain ⟨X1, hX1, hfun⟩ := fundamental (m := 2) (by norm_num)
  obtain ⟨M, hM⟩ : ∃ M, M = max (max 1 X1) (2 * X) := ⟨_, rfl⟩
  have hM1 : 1 ≤ M := by rw [hM]; exact (le_max_left _ _).trans (le_max_left _ _)
  have hM2 : X1 ≤ M := by rw [hM]; exact (le_max_right _ _).trans (le_max_left _ _)
  have hM3 : 2 * X ≤ M := by rw [hM]; exact le_max_right _ _
  obtain ⟨L, hL⟩ : ∃ L, L = max (exp 10) (1 / η) := ⟨_, rfl⟩
  have hL1 : exp 10 ≤ L := by rw [hL]; exact le_max_left _ _
  have hL2 : 1 / η ≤ L := by rw [hL]; exact le_max_right _ _
  have hM0 : 0 < M := by linarith
  have hL0 : 0 < L := (exp_pos 10).trans_le hL1
  have hlM : 0 ≤ log M := log_nonneg hM1
  have hlL : 10 ≤ log L := (le_log_iff_exp_le hL0).2 hL1
  obtain ⟨F, F1, F2, G, G1, G2, tF, tG, i1, i2, i3, i4, hosc⟩ := hfun c M⁻¹ (inv_pos.2 hM0) (by rw [inv_inv]; exact hM2)
  obtain ⟨p0, hp0⟩ : ∃ p, p = ptT 0 (fun t => 2 * log t) (fun t => 2 * log t) (fun t => 1 * (2 / t)) (fun t => 2 / t) M⁻¹ := ⟨_, rfl⟩
  obtain ⟨p1, hp1⟩ : ∃ p, p = ptT 0 (fun t => 2 * log t) (fun t => 2 * log t) (fun t => 1 * (2 / t)) (fun t => 2 / t) L := ⟨_, rfl⟩
  have hl0 : p0.logaH = log (2 * M⁻¹) := by rw [hp0]; simp only [ptT]; rw [haH _ (inv_pos.2 hM0)]
  have hl1 : p1.logaH = log (2 * L) := by rw [hp1]; simp only [ptT]; rw [haH _ hL0]
  have hN0 : p0.N = -(2 * log M) := by rw [hp0]; simp only [ptT, log_inv]; ring
  have hN1 : p1.N = 2 * log L := by rw [hp1]; rfl
  obtain ⟨b, hb⟩ : ∃ b : Bg, b = { indep := .t, K := 0, pot := expPot 10, pts := [p0, p1], logaH_star := 0 } := ⟨_, rfl⟩
  have hb0 : b.pts[0]? = some p0 := by rw [hb]; rfl
  have hbeg : idxBeg b 0 1 = 0 := if_pos rfl
  have hend : idxEnd b 0 100 1 = .ok 1 := by
    have h100 : log 100 < 10 := by
      rw [log_lt_iff_lt_exp (by norm_num)]
      have h1 : (2 : ℝ) ≤ exp 1 := by have := add_one_le_exp (1 : ℝ); linarith
      have h2 : exp 10 = exp 1 ^ 10 := by rw [← exp_nat_mul]; norm_num
      rw [h2]
      calc (100 : ℝ) < 2 ^ 10 := by norm_num
        _ ≤ exp 1 ^ 10 := pow_le_pow_left₀ (by norm_num) h1 10
    have a : argwhere (fun p => endTest 1 100 p.logaH) b.pts = [1] := by
      have e0 : ¬ endTest 1 100 (log (2 * M⁻¹)) := by
        rintro ⟨-, -, h | h | h⟩
        · norm_num at h
        · norm_num at h
        · rw [log_one, sub_zero] at h
          have h2 : log (2 * M⁻¹) ≤ log 100 := log_le_log (by positivity) (by have := inv_le_one_of_one_le₀ hM1; linarith)
          linarith
      have e1 : endTest 1 100 (log (2 * L)) := by
        refine ⟨by norm_num, by norm_num, Or.inr (Or.inr ?_)⟩
        rw [log_one, sub_zero]
        have : log L ≤ log (2 * L) := log_le_log hL0 (by linarith)
        linarith
      rw [hb]
      simp [argwhere, hl0, hl1, e0, e1, List.range, List.range.loop]
    unfold idxEnd
    rw [a, hb]
    simp [hN0, hN1]
    intro h
    linarith
  refine ⟨fun t => 2 * log t, fun t => 2 * log t, fun t => 2 / t, lateOsc F G L, b, ?_⟩
  suffices h : ∃ r, solveOscode1 (lateOsc F G L) b 1 { vacuum := ["k", "HD", "RST"] } = .ok r by
    obtain ⟨r, hr⟩ := h
    refine ⟨r, u, hV, hV2, by rw [hb], by rw [hb], by rw [hb], ?_, by rw [hb], hr, ?_, ?_⟩
    · intro p hp
      rw [hb] at hp
      simp only [List.mem_cons, List.not_mem_nil, or_false] at hp
      rcases hp with h | h
      · exact ⟨_, inv_pos.2 hM0, h.trans hp0⟩
      · exact ⟨_, hL0, h.trans hp1⟩
    · intro p hp
      rw [hbeg, hb0] at hp
      cases hp
      rw [hl0, exp_log (by positivity), ← mul_assoc, ← div_eq_mul_inv, div_le_one hM0]
      linarith
    · intro s t hst m hm stop pb pe hs hpb hpe
      rw [hbeg, hb0] at hpb
      obtain rfl : p0 = pb := Option.some.inj hpb
      obtain ⟨h1, h2⟩ := hosc (fun τ => m.frequency2 (ptT 0 (fun t => 2 * log t) (fun t => 2 * log t) (fun t => 1 * (2 / t)) (fun t => 2 / t) τ))
        (fun τ => m.damping (ptT 0 (fun t => 2 * log t) (fun t => 2 * log t) (fun t => 1 * (2 / t)) (fun t => 2 / t) τ))
        (fun τ hτ => by
          have h0 : (0 : ℝ) < τ := hτ
          rw [((vacT one_ne_zero (by norm_num) isOpen_Ioi u hV hV2 (D := Set.univ) (fun _ _ => trivial) (by rw [hb]) (by rw [hb]) (by rw [hb]) one_pos hst hτ).1 m hm).1,
            haH τ h0]
          field_simp)
        (fun τ hτ => by
          have h0 : (0 : ℝ) < τ := hτ
          rw [((vacT one_ne_zero (by norm_num) isOpen_Ioi u hV hV2 (D := Set.univ) (fun _ _ => trivial) (by rw [hb]) (by rw [hb]) (by rw [hb]) one_pos hst hτ).1 m hm).2]
          field_simp
          ring)
      have hx0 : p0.x = M⁻¹ := by rw [hp0]; rfl
      rw [hx0]
      have hW : L ∈ {t ∈ Set.Ioi (0 : ℝ) | 1 ≤ η * (exp (2 * log t) * (2 / t))} := by
        refine ⟨hL0, ?_⟩
        rw [haH L hL0]
        rw [div_le_iff₀ hη] at hL2
        linarith
      exact ⟨F, F1, F2, G, G1, G2, tF, tG, h1, h2, i1, i2, i3, i4, lateOsc_samples F G hW _⟩
  rw [single_eq]
  unfold oneMode
  dsimp only
  rw [hbeg, hend, hb]
  simp [modes, runs, oscCall, lateOsc, pick, combineAll, byName, combine, ab, bind, Except.bind, pure, Except.pure]

end Pert
end Primpy
