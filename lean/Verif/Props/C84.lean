import Verif.Props.C83
import Verif.Lemmas.SlowRollModes
import Verif.Spec.SlowRoll

/-!
# C84: the numerical spectra on a slow-roll background are the slow-roll spectra
-/

namespace Primpy
open Real Spec Approx
namespace Pert
open SlowModes

/-- the shape of a vacuum state; `z` the pump field, `y = aH/k` -/
def SlowVac (s z y g : ℝ) (u : ℂ × ℂ) : Prop := ∃ v c θ : ℝ, 0 < v ∧ 0 ≤ c ∧ c ≤ 3 ∧ 0 ≤ θ ∧ θ ≤ 2 ∧ v ^ 2 = 1 - c * y ^ 2 ∧
  u.1 = s * (z⁻¹ : ℝ) * (1 / √v : ℝ) ∧ u.2 = -g * (Complex.I * (v * y⁻¹ : ℝ) + θ) * u.1

/-- The vacua are close to the de Sitter mode function. -/
theorem slow_vacuum {v c θ y p δ : ℝ} (hv : 0 < v) (hc : 0 ≤ c) (hc3 : c ≤ 3) (hθ : 0 ≤ θ) (hθ2 : θ ≤ 2) (hy : 0 < y) (hyδ : y ≤ δ) (hδ : δ ≤ 1 / 20)
    (hp : |p - 1| ≤ δ) (h : v ^ 2 = 1 - c * y ^ 2) :
    ‖((1 / √v : ℝ) : ℂ) - (1 + Complex.I * y)‖ ^ 2 + ‖((1 / √v : ℝ) : ℂ) * (-Complex.I * v + ((p - θ) * y : ℝ)) - (-Complex.I + y + Complex.I * y ^ 2)‖ ^ 2 ≤ (10 * δ) ^ 2 ∧
    ‖((1 / √v : ℝ) : ℂ)‖ ^ 2 + ‖((1 / √v : ℝ) : ℂ) * ((p * y : ℝ) : ℂ)‖ ^ 2 ≤ 3 ^ 2 ∧
    ‖((1 / √v : ℝ) : ℂ) * (-Complex.I * v - ((θ * y : ℝ) : ℂ))‖ ^ 2 ≤ 3 ^ 2 := by
  have hp' := abs_le.1 hp
  have hy20 : y ≤ 1 / 20 := hyδ.trans hδ
  have hv1 : v ≤ 1 := by nlinarith [mul_nonneg hc (sq_nonneg y)]
  have hcy : c * y ^ 2 ≤ 3 * y ^ 2 := mul_le_mul_of_nonneg_right hc3 (sq_nonneg y)
  have hv2 : 1 - 3 * y ^ 2 ≤ v := by nlinarith
  have hyy : 3 * y ^ 2 ≤ y / 5 := by nlinarith
  have hs : √v ^ 2 = v := sq_sqrt hv.le
  have hs0 : 0 < √v := sqrt_pos.2 hv
  obtain ⟨r, hr⟩ : ∃ r, r = √v := ⟨_, rfl⟩
  rw [← hr] at hs hs0 ⊢
  have hs1 : r ≤ 1 := by nlinarith
  have hs2 : v ≤ r := by nlinarith
  have i1 : 1 ≤ 1 / r := by rw [le_div_iff₀ hs0]; linarith
  have i2 : 1 / r ≤ 8 / 7 := by rw [div_le_iff₀ hs0]; linarith
  have i3 : 1 / r - 1 ≤ y := by
    rw [div_sub_one hs0.ne', div_le_iff₀ hs0]; nlinarith
  have i0 : 0 < 1 / r := by positivity
  have n0 : ‖((1 / r : ℝ) : ℂ)‖ = 1 / r := by rw [Complex.norm_real, norm_of_nonneg i0.le]
  have a1 : |p - θ| ≤ 2 := abs_le.2 ⟨by linarith, by linarith⟩
  have a2 : 1 / r * (|p - θ| * y) ≤ 8 / 7 * (2 * y) := mul_le_mul i2 (mul_le_mul_of_nonneg_right a1 hy.le) (by positivity) (by norm_num)
  refine ⟨?_, ?_, ?_⟩
  · have b1 : ‖((1 / r : ℝ) : ℂ) - (1 + Complex.I * y)‖ ≤ 2 * y := by
      rw [show ((1 / r : ℝ) : ℂ) - (1 + Complex.I * y) = ((1 / r - 1 : ℝ) : ℂ) - Complex.I * y by push_cast; ring]
      refine (norm_sub_le _ _).trans ?_
      rw [norm_mul, Complex.norm_I, one_mul, Complex.norm_real, Complex.norm_real, norm_of_nonneg (by linarith), norm_of_nonneg hy.le]
      linarith
    have b2 : ‖((1 / r : ℝ) : ℂ) * (-Complex.I * v + ((p - θ) * y : ℝ)) - (-Complex.I + y + Complex.I * y ^ 2)‖ ≤ 5 * y := by
      have e : ((1 / r : ℝ) : ℂ) * (-Complex.I * v + ((p - θ) * y : ℝ)) - (-Complex.I + y + Complex.I * y ^ 2)
          = Complex.I * ((1 - r - y ^ 2 : ℝ) : ℂ) + ((1 / r * ((p - θ) * y) - y : ℝ) : ℂ) := by
        have hr' : (r : ℂ) ≠ 0 := by exact_mod_cast hs0.ne'
        rw [← hs]
        push_cast
        field_simp
        ring
      rw [e]
      refine (norm_add_le _ _).trans ?_
      rw [norm_mul, Complex.norm_I, one_mul, Complex.norm_real, Complex.norm_real, norm_eq_abs, norm_eq_abs]
      have c1 : |1 - r - y ^ 2| ≤ y := abs_le.2 ⟨by nlinarith, by nlinarith⟩
      have c2 : |1 / r * ((p - θ) * y) - y| ≤ 1 / r * (|p - θ| * y) + y := by
        refine (abs_sub _ _).trans ?_
        rw [abs_mul, abs_mul, abs_of_pos i0, abs_of_pos hy]
      linarith
    have b3 := pow_le_pow_left₀ (norm_nonneg _) b1 2
    have b4 := pow_le_pow_left₀ (norm_nonneg _) b2 2
    nlinarith
  · rw [norm_mul, n0, Complex.norm_real, norm_of_nonneg (mul_nonneg (by linarith) hy.le)]
    have b1 : p * y ≤ 2 * (1 / 20) := mul_le_mul (by linarith) hy20 hy.le (by norm_num)
    have b0 : 0 ≤ p * y := mul_nonneg (by linarith) hy.le
    have b2 : 1 / r * (p * y) ≤ 8 / 7 * (2 * (1 / 20)) := mul_le_mul i2 b1 b0 (by norm_num)
    have b3 := pow_le_pow_left₀ i0.le i2 2
    have b4 := pow_le_pow_left₀ (mul_nonneg i0.le b0) b2 2
    linarith
  · refine pow_le_pow_left₀ (norm_nonneg _) ?_ 2
    rw [norm_mul, n0]
    have : ‖-Complex.I * v - ((θ * y : ℝ) : ℂ)‖ ≤ 2 := by
      refine (norm_sub_le _ _).trans ?_
      rw [norm_mul, norm_neg, Complex.norm_I, one_mul, Complex.norm_real, Complex.norm_real, norm_of_nonneg hv.le,
        norm_of_nonneg (mul_nonneg hθ hy.le)]
      have : θ * y ≤ 2 * (1 / 20) := mul_le_mul hθ2 hy20 hy.le (by norm_num)
      linarith
    have := mul_le_mul i2 this (norm_nonneg _) (by norm_num)
    linarith

/-- The constant. -/
noncomputable def slowC : ℝ := 200 * exp (5 / 2) + 14

theorem slowC_pos : 0 < slowC := by unfold slowC; positivity

theorem slow_modes {S : Set ℝ} {δ : ℝ} {g g1 x ε z p p' : ℝ → ℝ} (hδ0 : 0 < δ) (hδ : δ ≤ 1 / 20) (hS : IsOpen S) (hc : IsPreconnected S)
    (c : Roll S δ g g1 x ε z p p') {F F1 F2 G G1 G2 : ℝ → ℂ} (hF : IsMode S g g1 x ε p F F1 F2) (hG : IsMode S g g1 x ε p G G1 G2)
    {ti t1 : ℝ} (hi : ti ∈ S) (iF : F ti = 1) (iF1 : F1 ti = 0) (iG : G ti = 0) (iG1 : G1 ti = 1) (hxi : 1 ≤ δ * x ti) (h1 : t1 ∈ S) (hx1 : x t1 = 1)
    {s : ℝ} (hs : s ≠ 0) {u : ℂ × ℂ} (hu : SlowVac s (z ti) (1 / x ti) (g ti) u) :
    (∀ τ ∈ S, x τ ≤ δ → ∀ T ∈ S, x T ≤ δ → ‖u.1‖ * ‖F τ - F T‖ ≤ slowC * δ * |s / z t1| ∧ ‖u.2‖ * ‖G τ - G T‖ ≤ slowC * δ * |s / z t1|) ∧
      ∀ T ∈ S, x T ≤ δ → |‖u.1 * F T + u.2 * G T‖ - (|s / z t1|)| ≤ slowC * δ * |s / z t1| := by
  obtain ⟨v, cc, θ, v1, v2, v3, v4, v5, v6, v7, v8⟩ := hu
  have hx0 := (c.pos ti hi).2
  have hg0 := (c.pos ti hi).1
  have hy0 : 0 < 1 / x ti := by positivity
  have hyδ : 1 / x ti ≤ δ := by rw [div_le_iff₀ hx0]; linarith
  obtain ⟨w1, w2, w3⟩ := slow_vacuum v1 v2 v3 v4 v5 hy0 hyδ hδ (c.small ti hi).1 v6
  have hz0 := (c.hz ti hi).1
  have hz1 := (c.hz t1 h1).1
  have hs' : (s : ℂ) ≠ 0 := by exact_mod_cast hs
  have hz0' : (z ti : ℂ) ≠ 0 := by exact_mod_cast hz0
  have hg' : (g ti : ℂ) ≠ 0 := by exact_mod_cast hg0.ne'
  have hx' : (x ti : ℂ) ≠ 0 := by exact_mod_cast hx0.ne'
  obtain ⟨r, hr⟩ : ∃ r : ℝ, r = 1 / √v := ⟨_, rfl⟩
  rw [← hr] at w1 w2 w3 v7
  have hsz : |s / z t1| = |s| * |z t1|⁻¹ := by rw [abs_div, div_eq_mul_inv]
  have habs : 0 < |z t1| := abs_pos.2 hz1
  have hsabs : 0 < |s| := abs_pos.2 hs
  have hCe : 100 * exp (5 / 2) + 14 ≤ slowC := by unfold slowC; linarith [exp_pos (5 / 2 : ℝ)]
  have hCd : 24 * exp (5 / 2) ≤ slowC := by unfold slowC; linarith [exp_pos (5 / 2 : ℝ)]
  -- the normalised solutions
  have mA := hF.comb hG (u.1 / s) 0
  have mB := hF.comb hG 0 (u.2 / s)
  have mC := hF.comb hG (u.1 / s) (u.2 / s)
  have e1 : u.1 / s * z ti = r := by
    rw [v7]; push_cast; field_simp
  have e2 : u.2 / s * z ti / g ti / x ti = r * (-Complex.I * v - ((θ * (1 / x ti) : ℝ) : ℂ)) := by
    rw [← e1, v8, one_div, inv_inv]; push_cast; field_simp; ring
  have dA : ∀ τ ∈ S, x τ ≤ δ → ∀ T ∈ S, x T ≤ δ → ‖u.1‖ * ‖F τ - F T‖ ≤ slowC * δ * |s / z t1| := fun τ hτ hτδ T hT hTδ => by
    have := drift hδ0 hδ hc c mA hi hxi h1 hx1 (M := 3) (by norm_num) (by
      refine le_trans (le_of_eq ?_) w2
      simp only [modeU, modeD, iF, iF1, iG, iG1]
      congr 3
      · rw [← e1]; ring
      · rw [← e1]; push_cast; field_simp; ring) hτ hτδ hT hTδ
    rw [show u.1 / (s : ℂ) * F τ + 0 * G τ - (u.1 / (s : ℂ) * F T + 0 * G T) = u.1 / s * (F τ - F T) by ring, norm_mul, norm_div, Complex.norm_real, norm_eq_abs] at this
    have h2 : ‖u.1‖ * ‖F τ - F T‖ = |s| * |z t1|⁻¹ * (|z t1| * (‖u.1‖ / |s| * ‖F τ - F T‖)) := by field_simp
    rw [h2, hsz, mul_comm (slowC * δ)]
    refine mul_le_mul_of_nonneg_left (this.trans ?_) (by positivity)
    have := mul_le_mul_of_nonneg_right hCd hδ0.le
    linarith
  have dB : ∀ τ ∈ S, x τ ≤ δ → ∀ T ∈ S, x T ≤ δ → ‖u.2‖ * ‖G τ - G T‖ ≤ slowC * δ * |s / z t1| := fun τ hτ hτδ T hT hTδ => by
    have := drift hδ0 hδ hc c mB hi hxi h1 hx1 (M := 3) (by norm_num) (by
      refine le_trans (le_of_eq ?_) w3
      simp only [modeU, modeD, iF, iF1, iG, iG1]
      rw [← e2]
      simp only [mul_zero, add_zero, norm_zero, ne_eq, OfNat.ofNat_ne_zero, not_false_eq_true, zero_pow, zero_add, mul_one]
      congr 2
      push_cast; field_simp) hτ hτδ hT hTδ
    rw [show 0 * F τ + u.2 / (s : ℂ) * G τ - (0 * F T + u.2 / (s : ℂ) * G T) = u.2 / s * (G τ - G T) by ring, norm_mul, norm_div, Complex.norm_real, norm_eq_abs] at this
    have h2 : ‖u.2‖ * ‖G τ - G T‖ = |s| * |z t1|⁻¹ * (|z t1| * (‖u.2‖ / |s| * ‖G τ - G T‖)) := by field_simp
    rw [h2, hsz, mul_comm (slowC * δ)]
    refine mul_le_mul_of_nonneg_left (this.trans ?_) (by positivity)
    have := mul_le_mul_of_nonneg_right hCd hδ0.le
    linarith
  refine ⟨fun τ hτ hτδ T hT hTδ => ⟨dA τ hτ hτδ T hT hTδ, dB τ hτ hτδ T hT hTδ⟩, fun T hT hTδ => ?_⟩
  have := amplitude hδ0 hδ hS hc c mC hi hxi h1 hx1 (by
    refine le_trans (le_of_eq ?_) w1
    simp only [modeU, modeD, iF, iF1, iG, iG1]
    congr 3
    · rw [← e1]; push_cast; ring
    · have : (r : ℂ) * (-Complex.I * v + (((p ti - θ) * (1 / x ti) : ℝ) : ℂ)) = u.2 / s * z ti / g ti / x ti + p ti * (u.1 / s * z ti) / x ti := by
        rw [e2, e1]; push_cast; ring
      rw [this]
      push_cast
      field_simp
      ring) hT hTδ
  rw [show u.1 / (s : ℂ) * F T + u.2 / (s : ℂ) * G T = (u.1 * F T + u.2 * G T) / s by ring, norm_div, Complex.norm_real, norm_eq_abs] at this
  have h2 : ‖u.1 * F T + u.2 * G T‖ - |s / z t1| = |s| * |z t1|⁻¹ * (|z t1| * (‖u.1 * F T + u.2 * G T‖ / |s|) - 1) := by rw [hsz]; field_simp
  rw [h2, abs_mul, abs_of_pos (by positivity : 0 < |s| * |z t1|⁻¹), hsz, mul_comm (slowC * δ)]
  exact mul_le_mul_of_nonneg_left (this.trans (mul_le_mul_of_nonneg_right hCe hδ0.le)) (by positivity)

/-- The constant of the spectra. -/
noncomputable def slowP : ℝ := 6 * slowC + 9 * slowC ^ 2

theorem slow_spectrum {S : Set ℝ} {δ : ℝ} {g g1 x ε z p p' : ℝ → ℝ} (hδ0 : 0 < δ) (hδ : δ ≤ 1 / 20) (hS : IsOpen S) (hc : IsPreconnected S)
    (c : Roll S δ g g1 x ε z p p') {F F1 F2 G G1 G2 : ℝ → ℂ} (hF : IsMode S g g1 x ε p F F1 F2) (hG : IsMode S g g1 x ε p G G1 G2)
    {ti t1 : ℝ} (hi : ti ∈ S) (iF : F ti = 1) (iF1 : F1 ti = 0) (iG : G ti = 0) (iG1 : G1 ti = 1) (hxi : 1 ≤ δ * x ti) (h1 : t1 ∈ S) (hx1 : x t1 = 1)
    {s : ℝ} (hs : s ≠ 0) {u : ℂ × ℂ} (hu : SlowVac s (z ti) (1 / x ti) (g ti) u) {W : Set ℝ} (hW : ∀ τ ∈ W, τ ∈ S ∧ x τ ≤ δ) (hWn : W.Nonempty)
    {norm P : ℝ} (hnorm : 0 ≤ norm) (hP : NearLateTime F G W (1, 0, 0, 1) u norm P) :
    |P - (s / z t1) ^ 2 * norm| ≤ slowP * δ * ((s / z t1) ^ 2 * norm) := by
  obtain ⟨h1', h2⟩ := slow_modes hδ0 hδ hS hc c hF hG hi iF iF1 iG iG1 hxi h1 hx1 hs hu
  obtain ⟨v, cc, θ, v1, v2, v3, v4, v5, v6, v7, v8⟩ := hu
  obtain ⟨T, hT⟩ := hWn
  obtain ⟨a, b, A, ea, eb, hA, rfl, hdr⟩ := hP
  dsimp only at ea eb hdr
  have ea' : a = u.1 := by rw [← ea]; push_cast; ring
  have eb' : b = u.2 := by rw [← eb]; push_cast; ring
  rw [ea', eb'] at hdr
  have hxi' := (c.pos ti hi).2
  have hgi := (c.pos ti hi).1
  have hzi := (c.hz ti hi).1
  have hz1 := (c.hz t1 h1).1
  have n1 : 0 < ‖u.1‖ := by
    rw [norm_pos_iff, v7]
    have h1 : (s : ℂ) ≠ 0 := by exact_mod_cast hs
    have h2 : (((z ti)⁻¹ : ℝ) : ℂ) ≠ 0 := by exact_mod_cast inv_ne_zero hzi
    have h3 : ((1 / √v : ℝ) : ℂ) ≠ 0 := by
      have : 0 < √v := sqrt_pos.2 v1
      exact_mod_cast (by positivity : (1 / √v : ℝ) ≠ 0)
    exact mul_ne_zero (mul_ne_zero h1 h2) h3
  have n2 : 0 < ‖u.2‖ := by
    rw [norm_pos_iff, v8]
    refine mul_ne_zero (mul_ne_zero (neg_ne_zero.2 (by exact_mod_cast hgi.ne')) ?_) (norm_pos_iff.1 n1)
    intro h
    have := congrArg Complex.im h
    simp only [Complex.add_im, Complex.mul_im, Complex.I_re, Complex.I_im, Complex.ofReal_re, Complex.ofReal_im, Complex.zero_im, zero_mul,
      one_mul, add_zero, zero_add] at this
    have : 0 < v * (1 / x ti)⁻¹ := by positivity
    linarith
  obtain ⟨Z, hZ⟩ : ∃ Z, Z = |s / z t1| := ⟨_, rfl⟩
  have hZ0 : 0 < Z := by rw [hZ]; exact abs_pos.2 (div_ne_zero hs hz1)
  obtain ⟨B, hB⟩ : ∃ B, B = slowC * δ * Z := ⟨_, rfl⟩
  rw [← hZ, ← hB] at h1' h2
  have d := hdr T (B / ‖u.1‖) (B / ‖u.2‖)
    (fun τ hτ => by
      rw [le_div_iff₀ n1, mul_comm]
      refine le_trans (le_of_eq ?_) (h1' τ (hW τ hτ).1 (hW τ hτ).2 T (hW T hT).1 (hW T hT).2).1
      congr 2
      push_cast
      ring)
    (fun τ hτ => by
      rw [le_div_iff₀ n2, mul_comm]
      refine le_trans (le_of_eq ?_) (h1' τ (hW τ hτ).1 (hW τ hτ).2 T (hW T hT).1 (hW T hT).2).2
      congr 2
      push_cast
      ring)
  rw [mul_div_cancel₀ _ n1.ne', mul_div_cancel₀ _ n2.ne'] at d
  have d2 := h2 T (hW T hT).1 (hW T hT).2
  have hC := slowC_pos
  have hA0 : |A - Z| ≤ 3 * slowC * δ * Z := by
    have := abs_sub_le A ‖u.1 * F T + u.2 * G T‖ Z
    have e : 3 * slowC * δ * Z = 3 * B := by rw [hB]; ring
    linarith
  have e2 : (s / z t1) ^ 2 = Z ^ 2 := by rw [hZ, sq_abs]
  rw [e2, ← sub_mul, abs_mul, abs_of_nonneg hnorm, ← mul_assoc]
  refine mul_le_mul_of_nonneg_right ?_ hnorm
  rw [show A ^ 2 - Z ^ 2 = (A - Z) * (A + Z) by ring, abs_mul, abs_of_nonneg (by linarith : 0 ≤ A + Z)]
  have hAle : A + Z ≤ (2 + 3 * slowC) * Z := by
    have := (abs_le.1 hA0).2
    have : 3 * slowC * δ * Z ≤ 3 * slowC * 1 * Z := by gcongr; linarith
    linarith
  calc |A - Z| * (A + Z) ≤ 3 * slowC * δ * Z * ((2 + 3 * slowC) * Z) := mul_le_mul hA0 hAle (by linarith) (by positivity)
    _ = slowP * δ * Z ^ 2 := by unfold slowP; ring

/-! ## The background -/

section
variable {S D : Set ℝ} {pot : PotFns} {N φ q H e1 e2 d2 : ℝ → ℝ} {δ : ℝ}

/-- What slow roll says about the derivatives of the field and of the potential, in e-folds. -/
theorem slow_jetN (hS : IsOpen S) (u : IsUniverseN S pot.V pot.dV 0 φ q H) (hV : IsDerivOn D pot.V pot.dV) (hV2 : IsDerivOn D pot.dV pot.d2V)
    (hφ : ∀ n ∈ S, φ n ∈ D) (sr : IsSlowRoll δ S (fun _ => 1) H e1 e2 d2) : ∀ n ∈ S, e1 n = q n ^ 2 / 2 ∧ q n ≠ 0 ∧ HasDerivAt H (-(e1 n * H n)) n ∧
      HasDerivAt q (q n * (e2 n / 2)) n ∧ pot.dV (φ n) = -(H n ^ 2 * q n * (3 - e1 n + e2 n / 2)) ∧
      pot.d2V (φ n) = H n ^ 2 * ((2 * e1 n - e2 n / 2) * (3 - e1 n + e2 n / 2) + e1 n * e2 n - d2 n / 2) := by
  have hdH : ∀ n ∈ S, HasDerivAt H (-(H n * q n ^ 2 / 2)) n := fun n hn => (u.dH hS hV hφ n hn).congr_deriv (by ring)
  have he1 : ∀ n ∈ S, e1 n = q n ^ 2 / 2 := fun n hn => by
    have h0 := u.expanding n hn
    have := ((hdH n hn).log h0.ne').unique (sr.first n hn)
    field_simp at this
    linarith
  have hq0 : ∀ n ∈ S, q n ≠ 0 := fun n hn h => by
    have := (sr.small n hn).1
    rw [he1 n hn, h] at this
    norm_num at this
  have hdH' : ∀ n ∈ S, HasDerivAt H (-(e1 n * H n)) n := fun n hn => (hdH n hn).congr_deriv (by rw [he1 n hn]; ring)
  have hdq : ∀ n ∈ S, HasDerivAt q (((-(3 * H n ^ 2 * q n) - pot.dV (φ n)) / H n + e1 n * H n * q n) / H n) n := fun n hn => by
    have h0 := u.expanding n hn
    have h1 := (u.kleinGordon n hn).fun_div (hdH' n hn) h0.ne'
    have e : q =ᶠ[nhds n] fun s => H s * q s / H s := by
      filter_upwards [hS.mem_nhds hn] with s hs
      have := u.expanding s hs
      field_simp
    refine (h1.congr_of_eventuallyEq e).congr_deriv ?_
    field_simp
    ring
  have hX : ∀ n ∈ S, ((-(3 * H n ^ 2 * q n) - pot.dV (φ n)) / H n + e1 n * H n * q n) / H n = q n * (e2 n / 2) := fun n hn => by
    have e : e1 =ᶠ[nhds n] fun s => q s ^ 2 / 2 := by
      filter_upwards [hS.mem_nhds hn] with s hs
      exact he1 s hs
    have := ((((hdq n hn).fun_pow 2).div_const 2).congr_of_eventuallyEq e).unique (sr.second n hn)
    rw [he1 n hn] at this ⊢
    apply mul_left_cancel₀ (hq0 n hn)
    push_cast at this
    linear_combination this
  have hdV : ∀ n ∈ S, pot.dV (φ n) = -(H n ^ 2 * q n * (3 - e1 n + e2 n / 2)) := fun n hn => by
    have h0 := u.expanding n hn
    have := hX n hn
    field_simp at this
    linear_combination -this / 2
  have hdq' : ∀ n ∈ S, HasDerivAt q (q n * (e2 n / 2)) n := fun n hn => (hdq n hn).congr_deriv (hX n hn)
  refine fun n hn => ⟨he1 n hn, hq0 n hn, hdH' n hn, hdq' n hn, hdV n hn, ?_⟩
  have h1 := (hV2 _ (hφ n hn)).comp n (u.velocity n hn)
  have h2 := (((((hdH' n hn).fun_pow 2).fun_mul (hdq' n hn)).fun_mul (((sr.second n hn).const_sub 3).fun_add ((sr.third n hn).div_const 2)))).fun_neg
  have e : (pot.dV ∘ φ) =ᶠ[nhds n] fun s => -(H s ^ 2 * q s * (3 - e1 s + e2 s / 2)) := by
    filter_upwards [hS.mem_nhds hn] with s hs
    exact hdV s hs
  have := h1.unique (h2.congr_of_eventuallyEq e)
  apply mul_right_cancel₀ (hq0 n hn)
  push_cast at this
  rw [this]
  ring

/-- The same in cosmic time. -/
theorem slow_jetT (hS : IsOpen S) (u : IsUniverse S pot.V pot.dV 0 N φ q H) (hV : IsDerivOn D pot.V pot.dV) (hV2 : IsDerivOn D pot.dV pot.d2V)
    (hφ : ∀ t ∈ S, φ t ∈ D) (sr : IsSlowRoll δ S H H e1 e2 d2) : ∀ t ∈ S, e1 t = q t ^ 2 / (2 * H t ^ 2) ∧ q t ≠ 0 ∧ HasDerivAt H (-(e1 t * H t ^ 2)) t ∧
      HasDerivAt q (q t * H t * (e2 t / 2 - e1 t)) t ∧ pot.dV (φ t) = -(H t * q t * (3 - e1 t + e2 t / 2)) ∧
      pot.d2V (φ t) = H t ^ 2 * ((2 * e1 t - e2 t / 2) * (3 - e1 t + e2 t / 2) + e1 t * e2 t - d2 t / 2) := by
  have hdH : ∀ t ∈ S, HasDerivAt H (-(q t) ^ 2 / 2) t := fun t ht => (u.dH hS hV hφ t ht).congr_deriv (by ring)
  have he1 : ∀ t ∈ S, e1 t = q t ^ 2 / (2 * H t ^ 2) := fun t ht => by
    have h0 := u.expanding t ht
    have := ((hdH t ht).log h0.ne').unique (sr.first t ht)
    field_simp at this ⊢
    linarith
  have hq0 : ∀ t ∈ S, q t ≠ 0 := fun t ht h => by
    have := (sr.small t ht).1
    rw [he1 t ht, h] at this
    norm_num at this
  have hdH' : ∀ t ∈ S, HasDerivAt H (-(e1 t * H t ^ 2)) t := fun t ht => (hdH t ht).congr_deriv (by
    have h0 := u.expanding t ht
    rw [he1 t ht]; field_simp)
  have hX : ∀ t ∈ S, -(3 * H t * q t) - pot.dV (φ t) = q t * H t * (e2 t / 2 - e1 t) := fun t ht => by
    have h0 := u.expanding t ht
    have e : e1 =ᶠ[nhds t] fun s => q s ^ 2 / (2 * H s ^ 2) := by
      filter_upwards [hS.mem_nhds ht] with s hs
      exact he1 s hs
    have := ((((u.kleinGordon t ht).fun_pow 2).fun_div (((hdH' t ht).fun_pow 2).const_mul 2) (by positivity)).congr_of_eventuallyEq e).unique (sr.second t ht)
    rw [he1 t ht] at this ⊢
    apply mul_left_cancel₀ (hq0 t ht)
    push_cast at this
    generalize -(3 * H t * q t) - pot.dV (φ t) = X at this ⊢
    have hq := hq0 t ht
    field_simp at this ⊢
    linear_combination this
  have hdq' : ∀ t ∈ S, HasDerivAt q (q t * H t * (e2 t / 2 - e1 t)) t := fun t ht => (u.kleinGordon t ht).congr_deriv (hX t ht)
  have hdV : ∀ t ∈ S, pot.dV (φ t) = -(H t * q t * (3 - e1 t + e2 t / 2)) := fun t ht => by
    have := hX t ht
    linear_combination -this
  refine fun t ht => ⟨he1 t ht, hq0 t ht, hdH' t ht, hdq' t ht, hdV t ht, ?_⟩
  have h1 := (hV2 _ (hφ t ht)).comp t (u.velocity t ht)
  have h2 := ((((hdH' t ht).fun_mul (hdq' t ht)).fun_mul (((sr.second t ht).const_sub 3).fun_add ((sr.third t ht).div_const 2)))).fun_neg
  have e : (pot.dV ∘ φ) =ᶠ[nhds t] fun s => -(H s * q s * (3 - e1 s + e2 s / 2)) := by
    filter_upwards [hS.mem_nhds ht] with s hs
    exact hdV s hs
  have := h1.unique (h2.congr_of_eventuallyEq e)
  apply mul_right_cancel₀ (hq0 t ht)
  rw [this]
  ring

theorem slow_k {s z y g θ : ℝ} (hθ : 0 ≤ θ) (hθ2 : θ ≤ 2) {u : ℂ × ℂ} (h1 : u.1 = s * (z⁻¹ : ℝ)) (h2 : u.2 = -g * (Complex.I * (y⁻¹ : ℝ) + θ) * u.1) : SlowVac s z y g u :=
  ⟨1, 0, θ, one_pos, le_rfl, by norm_num, hθ, hθ2, by norm_num, by rw [h1]; simp, by rw [h2]; simp⟩

theorem slow_wk {A r k c y : ℝ} (hA : 0 < A) (hk : 0 < k) (hc2 : c ≤ 3) (hy : 0 < y) (hy4 : y ≤ 1 / 4)
    (hr : r = (k / A) ^ 2 * (1 - c * y ^ 2)) : ∃ v, 0 < v ∧ v ^ 2 = 1 - c * y ^ 2 ∧ wk A r = some (k * v) := by
  have h1 : 0 < 1 - c * y ^ 2 := by nlinarith [mul_le_mul_of_nonneg_right hc2 (sq_nonneg y)]
  refine ⟨√(1 - c * y ^ 2), sqrt_pos.2 h1, sq_sqrt h1.le, ?_⟩
  have e : A * √r = k * √(1 - c * y ^ 2) := by
    rw [hr, sqrt_mul (by positivity), sqrt_sq (by positivity)]
    field_simp
  have hr0 : 0 ≤ r := by rw [hr]; positivity
  unfold wk
  rw [e, if_pos ⟨mul_pos hk (sqrt_pos.2 h1), hr0⟩]

theorem slow_HD {s s0 z y g k v c θ : ℝ} (hk : 0 < k) (hv : 0 < v) (hc : 0 ≤ c) (hc3 : c ≤ 3) (hθ : 0 ≤ θ) (hθ2 : θ ≤ 2) (hvv : v ^ 2 = 1 - c * y ^ 2) (hs : s = s0 / √(2 * k)) {u : ℂ × ℂ}
    (h1 : u.1 = (s0 / √(2 * (k * v)) : ℝ) * (z⁻¹ : ℝ)) (h2 : u.2 = -g * (Complex.I * (v * y⁻¹ : ℝ) + θ) * u.1) : SlowVac s z y g u := by
  refine ⟨v, c, θ, hv, hc, hc3, hθ, hθ2, hvv, ?_, h2⟩
  rw [h1, hs, ← mul_assoc 2, sqrt_mul (by positivity)]
  push_cast
  ring

/-- Frequency, damping and vacua of the modes, in e-folds. -/
theorem slow_vacN (hδ : δ ≤ 1 / 20) (hS : IsOpen S) (u : IsUniverseN S pot.V pot.dV 0 φ q H) (hV : IsDerivOn D pot.V pot.dV) (hV2 : IsDerivOn D pot.dV pot.d2V)
    (hφ : ∀ n ∈ S, φ n ∈ D) (sr : IsSlowRoll δ S (fun _ => 1) H e1 e2 d2) {b : Bg} (hb : b.indep = .N) (hK : b.K = 0) (hpot : b.pot = pot) {k : ℝ} (hk : 0 < k) {s t : Mode}
    (hm : modes b k = some (s, t)) {τ : ℝ} (hτ : τ ∈ S) :
    (s.frequency2 (ptN 0 φ q H τ) = (1 * (k / (exp τ * H τ))) ^ 2 ∧ s.damping (ptN 0 φ q H τ) = ((1 - e1 τ + 2 * (1 + e2 τ / 2)) * 1 - 0 / 1) / 2) ∧
    (t.frequency2 (ptN 0 φ q H τ) = (1 * (k / (exp τ * H τ))) ^ 2 ∧ t.damping (ptN 0 φ q H τ) = ((1 - e1 τ + 2 * 1) * 1 - 0 / 1) / 2) ∧
    (exp τ * H τ / k ≤ 1 / 4 → ∀ vac,
      (∀ f, s.vacuum vac = some f → ∃ u, f (ptN 0 φ q H τ) = some u ∧ SlowVac (1 / √(2 * k)) (exp τ * q τ) (exp τ * H τ / k) 1 u) ∧
      (∀ f, t.vacuum vac = some f → ∃ u, f (ptN 0 φ q H τ) = some u ∧ SlowVac (2 / √(2 * k)) (exp τ) (exp τ * H τ / k) 1 u)) := by
  obtain ⟨he1, hq, -, -, hdV, hd2V⟩ := slow_jetN hS u hV hV2 hφ sr τ hτ
  obtain ⟨b1, b2, b3, b4⟩ := sr.small τ hτ
  rw [he1] at hdV hd2V
  have hH := u.expanding τ hτ
  have ha := exp_pos τ
  have hsk : 0 < √(2 * k) := sqrt_pos.2 (by positivity)
  have b3' := abs_le.1 b3
  have b4' := abs_le.1 b4
  have hQ := abs_le.1 (Q_near (p := 1 + e2 τ / 2) (p' := d2 τ / 2) (ε := e1 τ) (δ := δ) (abs_le.2 ⟨by linarith, by linarith⟩) (abs_le.2 ⟨by linarith, by linarith⟩) b1.le b2 hδ)
  obtain ⟨Q, hQd⟩ : ∃ Q, Q = (1 + e2 τ / 2) ^ 2 + d2 τ / 2 + (1 - e1 τ) * (1 + e2 τ / 2) := ⟨_, rfl⟩
  rw [← hQd] at hQ
  rw [he1] at hQd b1 b2
  unfold modes at hm
  rw [hb, hK, hpot] at hm
  cases hm
  rw [he1]
  generalize e2 τ = E at *
  generalize d2 τ = D2 at *
  have hexp : exp (-2 * τ) = (exp τ ^ 2)⁻¹ := by rw [exp_two_mul_inv, inv_inv]
  have hexp2 : exp (2 * τ) = exp τ ^ 2 := by rw [← exp_nat_mul]; push_cast; rfl
  have hdH : Primpy.N.get_dH τ (H τ) (q τ) 0 = -(q τ ^ 2 / 2 * H τ) := by unfold Primpy.N.get_dH; ring
  have hdHH : Primpy.N.get_dH_H τ (H τ ^ 2) (q τ) 0 = -(q τ ^ 2 / 2) := by unfold Primpy.N.get_dH_H; ring
  have hd2 : Primpy.N.get_d2phi (H τ ^ 2) (-(q τ ^ 2 / 2)) (q τ) (pot.dV (φ τ)) = q τ * (E / 2) := by
    unfold Primpy.N.get_d2phi
    rw [hdV]
    field_simp
    ring
  have hd2H : Primpy.N.get_d2H τ (H τ) (-(q τ ^ 2 / 2 * H τ)) (q τ) (q τ * (E / 2)) 0 = (q τ ^ 4 / 4 - q τ ^ 2 * E / 2) * H τ := by
    unfold Primpy.N.get_d2H
    ring
  have hd3 : Primpy.N.get_d3phi (H τ) (-(q τ ^ 2 / 2 * H τ)) ((q τ ^ 4 / 4 - q τ ^ 2 * E / 2) * H τ) (q τ) (q τ * (E / 2)) (pot.dV (φ τ)) (pot.d2V (φ τ)) = q τ * (E ^ 2 / 4 + D2 / 2) := by
    unfold Primpy.N.get_d3phi
    rw [hd2V, hdV]
    field_simp
    ring
  have hdz : q τ * (E / 2) / q τ + 1 = 1 + E / 2 := by field_simp; ring
  have hrad : ScalarN.radicand pot 0 k (ptN 0 φ q H τ) = (k / (exp τ * H τ)) ^ 2 * (1 - Q * (exp τ * H τ / k) ^ 2) := by
    simp only [ScalarN.radicand, ptN, hdH, hdHH, hd2, hd2H, hd3]
    rw [hQd]
    field_simp
    ring
  have hrad2 : k ^ 2 / (exp τ * H τ) ^ 2 - 2 - -(q τ ^ 2 / 2 * H τ) / H τ = (k / (exp τ * H τ)) ^ 2 * (1 - (2 - q τ ^ 2 / 2) * (exp τ * H τ / k) ^ 2) := by
    field_simp
    ring
  have hi : ∀ w : ℝ, -Complex.I * (w : ℂ) / ((exp τ * H τ : ℝ) : ℂ) = -((1 : ℝ) : ℂ) * (Complex.I * ((w / (exp τ * H τ) : ℝ) : ℂ)) := fun w => by
    push_cast
    ring
  have hy0 : 0 < exp τ * H τ / k := by positivity
  have hA : 0 < exp τ * H τ := by positivity
  refine ⟨?_, ?_, fun hy vac => ⟨fun f hf => ?_, fun f hf => ?_⟩⟩
  · dsimp only [ScalarN.frequency2, ScalarN.damping, ScalarN.damping2, ScalarN.xi, ptN, kappa2]
    rw [hdV, hexp2]
    constructor
    · field_simp
      ring
    · field_simp
      ring
  · dsimp only [TensorN.frequency2, TensorN.damping, ptN]
    rw [hexp]
    constructor
    · field_simp
      ring
    · ring
  · obtain ⟨v, hv, hvv, hw⟩ := slow_wk hA hk (by linarith) hy0 hy hrad
    have hz : ∀ r : ℝ, (1 / (r : ℂ) / ((exp τ * q τ : ℝ) : ℂ)) = ((1 / r : ℝ) : ℂ) * ((exp τ * q τ)⁻¹ : ℝ) := fun r => by
      push_cast
      ring
    rcases byName_some hf with rfl | rfl | rfl
    · simp only [ScalarN.vacK, ptN, hdHH, hd2, hdz, if_pos hk, hz, hi]
      refine ⟨_, rfl, slow_k (θ := 1 + E / 2) (by linarith) (by linarith) rfl ?_⟩
      simp only [inv_div]
      push_cast
      ring
    · simp only [ptN] at hw
      simp only [ScalarN.vacHD, ptN, hw, hdHH, hd2, hdz, hz, hi, Option.map_some]
      refine ⟨_, rfl, slow_HD (s0 := 1) (θ := 1 + E / 2) hk hv (by linarith) (by linarith) (by linarith) (by linarith) hvv rfl rfl ?_⟩
      simp only [inv_div]; push_cast; ring
    · simp only [ScalarN.vacRST, ptN, if_pos hk, hz, hi]
      refine ⟨_, rfl, slow_k (θ := 0) le_rfl (by norm_num) rfl ?_⟩
      simp only [inv_div]
      push_cast
      ring
  · obtain ⟨v, hv, hvv, hw⟩ := slow_wk hA hk (by linarith) hy0 hy hrad2
    have hz : ∀ r : ℝ, (2 / (r : ℂ) / ((exp τ : ℝ) : ℂ)) = ((2 / r : ℝ) : ℂ) * ((exp τ)⁻¹ : ℝ) := fun r => by
      push_cast
      rw [div_eq_mul_inv (2 / (r : ℂ))]
    rcases byName_some hf with rfl | rfl | rfl
    · simp only [TensorN.vacK, ptN, if_pos hk, hz, hi]
      refine ⟨_, rfl, slow_k (θ := 1) zero_le_one (by norm_num) rfl ?_⟩
      simp only [inv_div]
      push_cast
      ring
    · simp only [TensorN.vacHD, ptN, hdH, hw, hz, hi, Option.map_some]
      refine ⟨_, rfl, slow_HD (s0 := 2) (θ := 1) hk hv (by linarith) (by linarith) zero_le_one (by norm_num) hvv rfl rfl ?_⟩
      simp only [inv_div]; push_cast; ring
    · simp only [TensorN.vacRST, ptN, if_pos hk, hz, hi]
      refine ⟨_, rfl, slow_k (θ := 0) le_rfl (by norm_num) rfl ?_⟩
      simp only [inv_div]
      push_cast
      ring

/-- Frequency, damping and vacua of the modes, in cosmic time. -/
theorem slow_vacT (hδ : δ ≤ 1 / 20) (hS : IsOpen S) (u : IsUniverse S pot.V pot.dV 0 N φ q H) (hV : IsDerivOn D pot.V pot.dV) (hV2 : IsDerivOn D pot.dV pot.d2V)
    (hφ : ∀ n ∈ S, φ n ∈ D) (sr : IsSlowRoll δ S H H e1 e2 d2) {b : Bg} (hb : b.indep = .t) (hK : b.K = 0) (hpot : b.pot = pot) {k : ℝ} (hk : 0 < k) {s t : Mode}
    (hm : modes b k = some (s, t)) {τ : ℝ} (hτ : τ ∈ S) :
    (s.frequency2 (ptT 0 N φ q H τ) = (H τ * (k / (exp (N τ) * H τ))) ^ 2 ∧
      s.damping (ptT 0 N φ q H τ) = ((1 - e1 τ + 2 * (1 + e2 τ / 2)) * H τ - -(e1 τ * H τ ^ 2) / H τ) / 2) ∧
    (t.frequency2 (ptT 0 N φ q H τ) = (H τ * (k / (exp (N τ) * H τ))) ^ 2 ∧ t.damping (ptT 0 N φ q H τ) = ((1 - e1 τ + 2 * 1) * H τ - -(e1 τ * H τ ^ 2) / H τ) / 2) ∧
    (exp (N τ) * H τ / k ≤ 1 / 4 → ∀ vac,
      (∀ f, s.vacuum vac = some f → ∃ u, f (ptT 0 N φ q H τ) = some u ∧ SlowVac (1 / √(2 * k)) (exp (N τ) * q τ / H τ) (exp (N τ) * H τ / k) (H τ) u) ∧
      (∀ f, t.vacuum vac = some f → ∃ u, f (ptT 0 N φ q H τ) = some u ∧ SlowVac (2 / √(2 * k)) (exp (N τ)) (exp (N τ) * H τ / k) (H τ) u)) := by
  obtain ⟨he1, hq, -, -, hdV, hd2V⟩ := slow_jetT hS u hV hV2 hφ sr τ hτ
  obtain ⟨b1, b2, b3, b4⟩ := sr.small τ hτ
  have hH := u.expanding τ hτ
  have ha := exp_pos (N τ)
  have hsk : 0 < √(2 * k) := sqrt_pos.2 (by positivity)
  have b3' := abs_le.1 b3
  have b4' := abs_le.1 b4
  have hQ := abs_le.1 (Q_near (p := 1 + e2 τ / 2) (p' := d2 τ / 2) (ε := e1 τ) (δ := δ) (abs_le.2 ⟨by linarith, by linarith⟩) (abs_le.2 ⟨by linarith, by linarith⟩) b1.le b2 hδ)
  obtain ⟨Q, hQd⟩ : ∃ Q, Q = (1 + e2 τ / 2) ^ 2 + d2 τ / 2 + (1 - e1 τ) * (1 + e2 τ / 2) := ⟨_, rfl⟩
  rw [← hQd] at hQ
  unfold modes at hm
  rw [hb, hK, hpot] at hm
  cases hm
  generalize e2 τ = E at *
  generalize d2 τ = D2 at *
  generalize e1 τ = E1 at *
  have hq2 : q τ ^ 2 = 2 * E1 * H τ ^ 2 := by rw [he1]; field_simp
  have hexp : exp (-2 * N τ) = (exp (N τ) ^ 2)⁻¹ := by rw [exp_two_mul_inv, inv_inv]
  have hdH : T.get_dH (N τ) (H τ) (q τ) 0 = -(E1 * H τ ^ 2) := by unfold T.get_dH; linear_combination -hq2 / 2
  have hdHH : T.get_dH_H (N τ) (H τ ^ 2) (q τ) 0 = -(E1 * H τ) := by
    unfold T.get_dH_H
    rw [sqrt_sq hH.le]
    field_simp
    linear_combination -hq2
  have hd2 : T.get_d2phi (H τ ^ 2) (q τ) (pot.dV (φ τ)) = q τ * H τ * (E / 2 - E1) := by
    unfold T.get_d2phi
    rw [sqrt_sq hH.le, hdV]
    ring
  have hd2H : T.get_d2H (N τ) (H τ) (-(E1 * H τ ^ 2)) (q τ) (q τ * H τ * (E / 2 - E1)) 0 = -(2 * E1 * H τ ^ 3 * (E / 2 - E1)) := by
    unfold T.get_d2H; linear_combination -(H τ * (E / 2 - E1)) * hq2
  have hd3 : T.get_d3phi (H τ) (-(E1 * H τ ^ 2)) (-(2 * E1 * H τ ^ 3 * (E / 2 - E1))) (q τ) (q τ * H τ * (E / 2 - E1)) (pot.dV (φ τ)) (pot.d2V (φ τ))
      = q τ * H τ ^ 2 * ((E / 2 - E1) ^ 2 - E1 * (E / 2 - E1) + D2 / 2 - E1 * E) := by
    unfold T.get_d3phi; rw [hd2V]; linear_combination (3 / 2 * q τ) * hq2
  have hdz : H τ + q τ * H τ * (E / 2 - E1) / q τ - -(E1 * H τ) = H τ * (1 + E / 2) := by field_simp; ring
  have hrad : ScalarT.radicand pot 0 k (ptT 0 N φ q H τ) = (k / exp (N τ)) ^ 2 * (1 - Q * (exp (N τ) * H τ / k) ^ 2) := by
    simp only [ScalarT.radicand, ptT, hdH, hdHH, hd2, hd2H, hd3]
    rw [hQd]
    field_simp
    ring
  have hrad2 : k ^ 2 / exp (N τ) ^ 2 - 2 * H τ ^ 2 - -(E1 * H τ ^ 2) = (k / exp (N τ)) ^ 2 * (1 - (2 - E1) * (exp (N τ) * H τ / k) ^ 2) := by
    field_simp
    ring
  have hi : ∀ w : ℝ, -Complex.I * (w : ℂ) / ((exp (N τ) : ℝ) : ℂ) = -(H τ : ℂ) * (Complex.I * ((w / (exp (N τ) * H τ) : ℝ) : ℂ)) := fun w => by
    have hH' : (H τ : ℂ) ≠ 0 := by exact_mod_cast hH.ne'
    have hE' : ((exp (N τ) : ℝ) : ℂ) ≠ 0 := by exact_mod_cast ha.ne'
    push_cast at hE' ⊢
    field_simp
  have hy0 : 0 < exp (N τ) * H τ / k := by positivity
  have hw : (H τ * (k / (exp (N τ) * H τ))) ^ 2 = k ^ 2 * exp (-2 * N τ) := by rw [hexp]; field_simp
  refine ⟨?_, ?_, fun hy vac => ⟨fun f hf => ?_, fun f hf => ?_⟩⟩
  · rw [hw]
    dsimp only [ScalarT.frequency2, ScalarT.damping, ScalarT.shared, ScalarT.terms, ptT, kappa2]
    rw [hdV, hq2]
    constructor
    · ring
    · field_simp
      ring
  · rw [hw]
    dsimp only [TensorT.frequency2, TensorT.damping, ptT]
    constructor
    · ring
    · field_simp
      ring
  · obtain ⟨v, hv, hvv, hw⟩ := slow_wk ha hk (by linarith) hy0 hy hrad
    have hz : ∀ r : ℝ, (1 / (r : ℂ) / ((exp (N τ) * q τ / H τ : ℝ) : ℂ)) = ((1 / r : ℝ) : ℂ) * ((exp (N τ) * q τ / H τ)⁻¹ : ℝ) := fun r => by
      push_cast
      rw [div_eq_mul_inv (1 / (r : ℂ))]
    rcases byName_some hf with rfl | rfl | rfl
    · simp only [ScalarT.vacK, ptT, hdHH, hd2, hdz, if_pos hk, hz, hi]
      refine ⟨_, rfl, slow_k (θ := 1 + E / 2) (by linarith) (by linarith) rfl ?_⟩
      simp only [inv_div]
      push_cast
      ring
    · simp only [ptT] at hw
      simp only [ScalarT.vacHD, ptT, hw, hdHH, hd2, hdz, hz, hi, Option.map_some]
      refine ⟨_, rfl, slow_HD (s0 := 1) (θ := 1 + E / 2) hk hv (by linarith) (by linarith) (by linarith) (by linarith) hvv rfl rfl ?_⟩
      simp only [inv_div]; push_cast; ring
    · simp only [ScalarT.vacRST, ptT, if_pos hk, hz, hi]
      refine ⟨_, rfl, slow_k (θ := 0) le_rfl (by norm_num) rfl ?_⟩
      simp only [inv_div]
      push_cast
      ring
  · obtain ⟨v, hv, hvv, hw⟩ := slow_wk ha hk (by linarith) hy0 hy hrad2
    have hz : ∀ r : ℝ, (2 / (r : ℂ) / ((exp (N τ) : ℝ) : ℂ)) = ((2 / r : ℝ) : ℂ) * ((exp (N τ))⁻¹ : ℝ) := fun r => by
      push_cast
      rw [div_eq_mul_inv (2 / (r : ℂ))]
    rcases byName_some hf with rfl | rfl | rfl
    · simp only [TensorT.vacK, ptT, if_pos hk, hz, hi]
      refine ⟨_, rfl, slow_k (θ := 1) zero_le_one (by norm_num) rfl ?_⟩
      simp only [inv_div]
      push_cast
      ring
    · simp only [TensorT.vacHD, ptT, hdH, hw, hz, hi, Option.map_some]
      refine ⟨_, rfl, slow_HD (s0 := 2) (θ := 1) hk hv (by linarith) (by linarith) zero_le_one (by norm_num) hvv rfl rfl ?_⟩
      simp only [inv_div]; push_cast; ring
    · simp only [TensorT.vacRST, ptT, if_pos hk, hz, hi]
      refine ⟨_, rfl, slow_k (θ := 0) le_rfl (by norm_num) rfl ?_⟩
      simp only [inv_div]
      push_cast
      ring

end

/-! ## The numerical solution -/

theorem slow_assemble {δ : ℝ} (hδ0 : 0 < δ) (hδ : δ ≤ 1 / 20) {S : Set ℝ} (hS : IsOpen S) (hc : IsPreconnected S) {A g g1 ε zs ps ps' zt pt pt' : ℝ → ℝ}
    {traj : ℝ → Pt} {k : ℝ} (hk : 0 < k) (hA : ∀ τ ∈ S, 0 < A τ) (cs : Roll S δ g g1 (fun τ => k / A τ) ε zs ps ps') (ct : Roll S δ g g1 (fun τ => k / A τ) ε zt pt pt')
    (htr : ∀ τ, (traj τ).x = τ ∧ (traj τ).logaH = log (A τ)) {osc : Oscode} {b : Bg} {kw : OscKw} {r : ModeSpectra} {s t : Mode} (hmod : modes b k = some (s, t))
    (hK : b.K = 0) (hs : ∀ τ ∈ S, s.frequency2 (traj τ) = (g τ * (k / A τ)) ^ 2 ∧ s.damping (traj τ) = ((1 - ε τ + 2 * ps τ) * g τ - g1 τ / g τ) / 2)
    (ht : ∀ τ ∈ S, t.frequency2 (traj τ) = (g τ * (k / A τ)) ^ 2 ∧ t.damping (traj τ) = ((1 - ε τ + 2 * pt τ) * g τ - g1 τ / g τ) / 2)
    (hpts : ∀ stop, idxEnd b (idxBeg b kw.fac_beg k) kw.fac_end k = .ok stop → ∀ (i : ℕ) (p : Pt), idxBeg b kw.fac_beg k ≤ i → i ≤ max (idxBeg b kw.fac_beg k) stop →
      b.pts[i]? = some p → ∃ τ ∈ S, p = traj τ) (hic : kw.y0.getD b.perturbation_ic = (1, 0, 0, 1)) (h : solveOscode1 osc b k kw = .ok r)
    (hstart : ∀ p, b.pts[idxBeg b kw.fac_beg k]? = some p → exp p.logaH ≤ δ * k)
    (exs : ExactRun osc b kw k s traj S {τ ∈ S | k ≤ δ * A τ}) (ext : ExactRun osc b kw k t traj S {τ ∈ S | k ≤ δ * A τ})
    (hvac : ∀ τ ∈ S, A τ / k ≤ 1 / 4 → ∀ vac,
      (∀ f, s.vacuum vac = some f → ∃ u, f (traj τ) = some u ∧ SlowVac (1 / √(2 * k)) (zs τ) (A τ / k) (g τ) u) ∧
      (∀ f, t.vacuum vac = some f → ∃ u, f (traj τ) = some u ∧ SlowVac (2 / √(2 * k)) (zt τ) (A τ / k) (g τ) u)) :
    (∃ τ ∈ S, k = A τ) ∧ ∀ vac ∈ kw.vacuum, ∃ Ps Pt : ℝ, r.P_s.get? vac = some (some Ps) ∧ r.P_t.get? vac = some (some Pt) ∧
      ∀ τ ∈ S, k = A τ → |Ps - (1 / √(2 * k) / zs τ) ^ 2 * (k ^ 3 / (2 * π ^ 2))| ≤ slowP * δ * ((1 / √(2 * k) / zs τ) ^ 2 * (k ^ 3 / (2 * π ^ 2))) ∧
        |Pt - (2 / √(2 * k) / zt τ) ^ 2 * (k ^ 3 / (2 * π ^ 2) * 2)| ≤ slowP * δ * ((2 / √(2 * k) / zt τ) ^ 2 * (k ^ 3 / (2 * π ^ 2) * 2)) := by
  have h' := h
  rw [single_eq] at h'
  obtain ⟨stop, s', t', pb, pe, -, -, -, -, -, hstop, hmod', hb, he, -⟩ := oneMode_ok h'
  rw [hmod] at hmod'; cases hmod'
  obtain ⟨F, F1, F2, G, G1, G2, tF, tG, oF, oG, iF, iF1, iG, iG1, hsF⟩ := exs stop pb pe hstop hb he
  obtain ⟨F', F1', F2', G', G1', G2', tF', tG', oF', oG', iF', iF1', iG', iG1', hsF'⟩ := ext stop pb pe hstop hb he
  obtain ⟨ti, hti, rfl⟩ := hpts stop hstop _ pb le_rfl (le_max_left _ _) hb
  have hst := hstart _ hb
  rw [(htr ti).2, exp_log (hA ti hti)] at hst
  have hxi : 1 ≤ δ * (k / A ti) := by
    rw [← mul_div_assoc, le_div_iff₀ (hA ti hti)]; linarith
  have hy : A ti / k ≤ 1 / 4 := by
    rw [div_le_iff₀ hk]
    have := mul_le_mul_of_nonneg_right hδ hk.le
    linarith
  have hW : ∀ τ ∈ {τ ∈ S | k ≤ δ * A τ}, τ ∈ S ∧ k / A τ ≤ δ := fun τ hτ => ⟨hτ.1, by
    rw [div_le_iff₀ (hA τ hτ.1)]; exact hτ.2⟩
  refine ⟨?_, fun vac hv => ?_⟩
  · obtain ⟨T, hT⟩ := samples_nonempty hsF
    obtain ⟨hT, hTδ⟩ := hW T hT
    have hcont : ContinuousOn (fun τ => k / A τ) S := fun τ hτ => (cs.hx τ hτ).continuousAt.continuousWithinAt
    have h1 : (1 : ℝ) ∈ (fun τ => k / A τ) '' S := hc.intermediate_value hT hti hcont ⟨by
        linarith, by
        have := mul_le_mul_of_nonneg_right hδ (cs.pos ti hti).2.le
        have := (cs.pos ti hti).2
        linarith⟩
    obtain ⟨τ, hτ, h1⟩ := h1
    refine ⟨τ, hτ, ?_⟩
    have := hA τ hτ
    dsimp only at h1
    field_simp at h1
    exact h1
  obtain ⟨vs, vt, hvs, hvt, hPs, hPt⟩ := C75_spectrum h (1, 0, 0, 1) hic (by norm_num) hstop hmod hb he hsF hsF' hv
  rw [(htr ti).1] at iF iF1 iG iG1 iF' iF1' iG' iG1'
  obtain ⟨us, hus, vS⟩ := (hvac ti hti hy vac).1 vs hvs
  obtain ⟨ut, hut, vT⟩ := (hvac ti hti hy vac).2 vt hvt
  obtain ⟨Ps, hPs, hns⟩ := hPs (fun hh => by rw [hK] at hh; exact absurd hh.2.1 (by norm_num)) us hus
  obtain ⟨Pt, hPt, hnt⟩ := hPt ut hut
  refine ⟨Ps, Pt, hPs, hPt, fun τ hτ hkτ => ?_⟩
  have hinv : A ti / k = 1 / (k / A ti) := by rw [one_div_div]
  rw [hinv] at vS vT
  have hsk : 0 < √(2 * k) := sqrt_pos.2 (by positivity)
  have hx1 : k / A τ = 1 := by rw [← hkτ, div_self hk.ne']
  have mk : ∀ m : Mode, ∀ p : ℝ → ℝ, (∀ τ ∈ S, m.frequency2 (traj τ) = (g τ * (k / A τ)) ^ 2 ∧ m.damping (traj τ) = ((1 - ε τ + 2 * p τ) * g τ - g1 τ / g τ) / 2) →
      ∀ R R1 R2 : ℝ → ℂ, Twice S R R1 R2 → (∀ τ ∈ S, oscillator (fun τ => m.frequency2 (traj τ)) (fun τ => m.damping (traj τ)) R R1 R2 τ = 0) →
      IsMode S g g1 (fun τ => k / A τ) ε p R R1 R2 := fun m p hm R R1 R2 tR oR => ⟨tR, fun τ hτ => by
    have := oR τ hτ
    unfold oscillator at this ⊢
    dsimp only at this ⊢
    rw [(hm τ hτ).1, (hm τ hτ).2] at this
    exact this⟩
  exact ⟨slow_spectrum hδ0 hδ hS hc cs (mk s ps hs F F1 F2 tF oF) (mk s ps hs G G1 G2 tG oG) hti iF iF1 iG iG1 hxi hτ hx1 (by positivity) vS hW (samples_nonempty hsF) (by positivity) hns,
    slow_spectrum hδ0 hδ hS hc ct (mk t pt ht F' F1' F2' tF' oF') (mk t pt ht G' G1' G2' tG' oG') hti iF' iF1' iG' iG1' hxi hτ hx1 (by positivity) vT hW (samples_nonempty hsF') (by positivity) hnt⟩

/-- An exact numerical run on the background `φ, q = dφ/dN, H` (e-folds): the grid points that are integrated over lie on the background, the mode starts with
`aH ≤ δ k`, both mode equations are integrated exactly and the last samples are taken at `k ≤ δ aH`. -/
structure SlowRunN (δ : ℝ) (S : Set ℝ) (pot : PotFns) (φ q H : ℝ → ℝ) (osc : Oscode) (b : Bg) (kw : OscKw) (k : ℝ) (r : ModeSpectra) : Prop where
  indep : b.indep = .N
  flat : b.K = 0
  potential : b.pot = pot
  pos : 0 < k
  grid : ∀ stop, idxEnd b (idxBeg b kw.fac_beg k) kw.fac_end k = .ok stop → ∀ (i : ℕ) (p : Pt), idxBeg b kw.fac_beg k ≤ i → i ≤ max (idxBeg b kw.fac_beg k) stop →
    b.pts[i]? = some p → ∃ n ∈ S, p = ptN 0 φ q H n
  ic : kw.y0.getD b.perturbation_ic = (1, 0, 0, 1)
  run : solveOscode1 osc b k kw = .ok r
  inside : ∀ p, b.pts[idxBeg b kw.fac_beg k]? = some p → exp p.logaH ≤ δ * k
  exact : ∀ s t, modes b k = some (s, t) → ∀ m ∈ [s, t], ExactRun osc b kw k m (ptN 0 φ q H) S {n ∈ S | k ≤ δ * (exp n * H n)}

/-- The same for cosmic time, `q = dφ/dt`. -/
structure SlowRunT (δ : ℝ) (S : Set ℝ) (pot : PotFns) (N φ q H : ℝ → ℝ) (osc : Oscode) (b : Bg) (kw : OscKw) (k : ℝ) (r : ModeSpectra) : Prop where
  indep : b.indep = .t
  flat : b.K = 0
  potential : b.pot = pot
  pos : 0 < k
  grid : ∀ stop, idxEnd b (idxBeg b kw.fac_beg k) kw.fac_end k = .ok stop → ∀ (i : ℕ) (p : Pt), idxBeg b kw.fac_beg k ≤ i → i ≤ max (idxBeg b kw.fac_beg k) stop →
    b.pts[i]? = some p → ∃ t ∈ S, p = ptT 0 N φ q H t
  ic : kw.y0.getD b.perturbation_ic = (1, 0, 0, 1)
  run : solveOscode1 osc b k kw = .ok r
  inside : ∀ p, b.pts[idxBeg b kw.fac_beg k]? = some p → exp p.logaH ≤ δ * k
  exact : ∀ s t, modes b k = some (s, t) → ∀ m ∈ [s, t], ExactRun osc b kw k m (ptT 0 N φ q H) S {t ∈ S | k ≤ δ * (exp (N t) * H t)}

theorem slow_amplitude {k a H q e : ℝ} (hk : 0 < k) (hH : 0 < H) (hq : q ≠ 0) (he : e = q ^ 2 / 2) (hkH : k = a * H) :
    (1 / √(2 * k) / (a * q)) ^ 2 * (k ^ 3 / (2 * π ^ 2)) = H ^ 2 / (8 * π ^ 2 * e) ∧ (2 / √(2 * k) / a) ^ 2 * (k ^ 3 / (2 * π ^ 2) * 2) = 2 * H ^ 2 / π ^ 2 := by
  have hsk2 : √(2 * k) ^ 2 = 2 * k := sq_sqrt (by positivity)
  have hπ := pi_pos
  have ha : a ≠ 0 := by rintro rfl; rw [zero_mul] at hkH; exact hk.ne' hkH
  constructor
  · rw [show (1 / √(2 * k) / (a * q)) ^ 2 = 1 / (√(2 * k) ^ 2 * (a * q) ^ 2) by ring, hsk2, he, hkH]
    field_simp
    norm_num
  · rw [show (2 / √(2 * k) / a) ^ 2 = 4 / (√(2 * k) ^ 2 * a ^ 2) by ring, hsk2, hkH]
    field_simp
    norm_num

/-- **C84, e-folds.**  On every flat background that rolls slowly to accuracy `δ`, an exact numerical run for the wavenumber `k` crosses the
horizon, and all its scalar and tensor spectra are the slow-roll ones at the crossing, `H²/(8π²ε₁)` and `2H²/π²`, to relative accuracy
`slowP δ` with an absolute constant. -/
theorem C84_efolds {δ : ℝ} (hδ0 : 0 < δ) (hδ : δ ≤ 1 / 20) {S D : Set ℝ} {pot : PotFns} {φ q H e1 e2 d2 : ℝ → ℝ} (hS : IsOpen S) (hc : IsPreconnected S)
    (u : IsUniverseN S pot.V pot.dV 0 φ q H) (hV : IsDerivOn D pot.V pot.dV) (hV2 : IsDerivOn D pot.dV pot.d2V) (hφ : ∀ n ∈ S, φ n ∈ D)
    (sr : IsSlowRoll δ S (fun _ => 1) H e1 e2 d2) {osc : Oscode} {b : Bg} {kw : OscKw} {k : ℝ} {r : ModeSpectra} (R : SlowRunN δ S pot φ q H osc b kw k r) :
    (∃ n ∈ S, k = exp n * H n) ∧ ∀ vac ∈ kw.vacuum, ∃ Ps Pt : ℝ, r.P_s.get? vac = some (some Ps) ∧ r.P_t.get? vac = some (some Pt) ∧
      ∀ n ∈ S, k = exp n * H n → |Ps - H n ^ 2 / (8 * π ^ 2 * e1 n)| ≤ slowP * δ * (H n ^ 2 / (8 * π ^ 2 * e1 n)) ∧
        |Pt - 2 * H n ^ 2 / π ^ 2| ≤ slowP * δ * (2 * H n ^ 2 / π ^ 2) := by
  have hj := slow_jetN hS u hV hV2 hφ sr
  have hk := R.pos
  have hH : ∀ n ∈ S, 0 < H n := u.expanding
  obtain ⟨s, t, hmod⟩ : ∃ s t, modes b k = some (s, t) := by
    unfold modes; rw [R.indep]; exact ⟨_, _, rfl⟩
  have hx : ∀ n ∈ S, HasDerivAt (fun n => k / (exp n * H n)) (-((1 - e1 n) * (1 * (k / (exp n * H n))))) n := fun n hn => by
    obtain ⟨-, -, h3, -⟩ := hj n hn
    have := hH n hn
    refine (((hasDerivAt_const n k).fun_div ((hasDerivAt_exp n).fun_mul h3) (by positivity))).congr_deriv ?_
    field_simp
    ring
  have hs : ∀ n ∈ S, 0 ≤ e1 n ∧ e1 n ≤ δ := fun n hn => ⟨(sr.small n hn).1.le, (sr.small n hn).2.1⟩
  have cs : Roll S δ (fun _ => 1) (fun _ => 0) (fun n => k / (exp n * H n)) e1 (fun n => exp n * q n) (fun n => 1 + e2 n / 2) (fun n => d2 n / 2) := by
    refine ⟨fun n hn => ⟨one_pos, div_pos hk (mul_pos (exp_pos n) (hH n hn))⟩, fun n hn => hasDerivAt_const n 1, hx, fun n hn => ?_, fun n hn => ?_, hs, fun n hn => ?_⟩
    · obtain ⟨-, h2, -, h4, -⟩ := hj n hn
      exact ⟨mul_ne_zero (exp_pos n).ne' h2, ((hasDerivAt_exp n).fun_mul h4).congr_deriv (by ring)⟩
    · exact (((sr.third n hn).div_const 2).const_add 1).congr_deriv (by ring)
    · obtain ⟨-, -, a, b⟩ := sr.small n hn
      have a := abs_le.1 a
      have b := abs_le.1 b
      exact ⟨abs_le.2 ⟨by linarith, by linarith⟩, abs_le.2 ⟨by linarith, by linarith⟩⟩
  have ct : Roll S δ (fun _ => 1) (fun _ => 0) (fun n => k / (exp n * H n)) e1 (fun n => exp n) (fun _ => 1) (fun _ => 0) :=
    ⟨fun n hn => ⟨one_pos, div_pos hk (mul_pos (exp_pos n) (hH n hn))⟩, fun n hn => hasDerivAt_const n 1, hx,
      fun n hn => ⟨(exp_pos n).ne', (hasDerivAt_exp n).congr_deriv (by ring)⟩, fun n hn => (hasDerivAt_const n 1).congr_deriv (by ring), hs,
      fun n hn => ⟨by rw [sub_self, abs_zero]; exact hδ0.le, by rw [abs_zero]; exact hδ0.le⟩⟩
  have hv := fun τ hτ => slow_vacN hδ hS u hV hV2 hφ sr R.indep R.flat R.potential hk hmod (τ := τ) hτ
  obtain ⟨hcr, h⟩ := slow_assemble (traj := ptN 0 φ q H) hδ0 hδ hS hc hk (fun n hn => mul_pos (exp_pos n) (hH n hn)) cs ct (fun n => ⟨rfl, rfl⟩) hmod R.flat (fun τ hτ => (hv τ hτ).1)
    (fun τ hτ => (hv τ hτ).2.1) R.grid R.ic R.run R.inside (R.exact s t hmod s (by simp)) (R.exact s t hmod t (by simp)) (fun τ hτ => (hv τ hτ).2.2)
  refine ⟨hcr, fun vac hvac => ?_⟩
  obtain ⟨Ps, Pt, a1, a2, a3⟩ := h vac hvac
  refine ⟨Ps, Pt, a1, a2, fun n hn hkn => ?_⟩
  obtain ⟨h1, h2, -⟩ := hj n hn
  obtain ⟨es, et⟩ := slow_amplitude hk (hH n hn) h2 h1 hkn
  have := a3 n hn hkn
  rwa [es, et] at this

/-- **C84, cosmic time.** -/
theorem C84_time {δ : ℝ} (hδ0 : 0 < δ) (hδ : δ ≤ 1 / 20) {S D : Set ℝ} {pot : PotFns} {N φ q H e1 e2 d2 : ℝ → ℝ} (hS : IsOpen S) (hc : IsPreconnected S)
    (u : IsUniverse S pot.V pot.dV 0 N φ q H) (hV : IsDerivOn D pot.V pot.dV) (hV2 : IsDerivOn D pot.dV pot.d2V) (hφ : ∀ t ∈ S, φ t ∈ D)
    (sr : IsSlowRoll δ S H H e1 e2 d2) {osc : Oscode} {b : Bg} {kw : OscKw} {k : ℝ} {r : ModeSpectra} (R : SlowRunT δ S pot N φ q H osc b kw k r) :
    (∃ t ∈ S, k = exp (N t) * H t) ∧ ∀ vac ∈ kw.vacuum, ∃ Ps Pt : ℝ, r.P_s.get? vac = some (some Ps) ∧ r.P_t.get? vac = some (some Pt) ∧
      ∀ t ∈ S, k = exp (N t) * H t → |Ps - H t ^ 2 / (8 * π ^ 2 * e1 t)| ≤ slowP * δ * (H t ^ 2 / (8 * π ^ 2 * e1 t)) ∧
        |Pt - 2 * H t ^ 2 / π ^ 2| ≤ slowP * δ * (2 * H t ^ 2 / π ^ 2) := by
  have hj := slow_jetT hS u hV hV2 hφ sr
  have hk := R.pos
  have hH : ∀ n ∈ S, 0 < H n := u.expanding
  have hN : ∀ t ∈ S, HasDerivAt N (H t) t := u.hubble
  obtain ⟨s, t, hmod⟩ : ∃ s t, modes b k = some (s, t) := by
    unfold modes; rw [R.indep]; exact ⟨_, _, rfl⟩
  have hx : ∀ n ∈ S, HasDerivAt (fun n => k / (exp (N n) * H n)) (-((1 - e1 n) * (H n * (k / (exp (N n) * H n))))) n := fun n hn => by
    obtain ⟨-, -, h3, -⟩ := hj n hn
    have := hH n hn
    refine (((hasDerivAt_const n k).fun_div ((hN n hn).exp.fun_mul h3) (by positivity))).congr_deriv ?_
    field_simp
    ring
  have hs : ∀ n ∈ S, 0 ≤ e1 n ∧ e1 n ≤ δ := fun n hn => ⟨(sr.small n hn).1.le, (sr.small n hn).2.1⟩
  have cs : Roll S δ H (fun n => -(e1 n * H n ^ 2)) (fun n => k / (exp (N n) * H n)) e1 (fun n => exp (N n) * q n / H n) (fun n => 1 + e2 n / 2) (fun n => d2 n / 2) := by
    refine ⟨fun n hn => ⟨hH n hn, div_pos hk (mul_pos (exp_pos _) (hH n hn))⟩, fun n hn => (hj n hn).2.2.1, hx, fun n hn => ?_, fun n hn => ?_, hs, fun n hn => ?_⟩
    · obtain ⟨-, h2, h3, h4, -⟩ := hj n hn
      have := hH n hn
      exact ⟨div_ne_zero (mul_ne_zero (exp_pos _).ne' h2) this.ne', (((hN n hn).exp.fun_mul h4).fun_div h3 this.ne').congr_deriv (by field_simp; ring)⟩
    · exact (((sr.third n hn).div_const 2).const_add 1).congr_deriv (by ring)
    · obtain ⟨-, -, a, b⟩ := sr.small n hn
      have a := abs_le.1 a
      have b := abs_le.1 b
      exact ⟨abs_le.2 ⟨by linarith, by linarith⟩, abs_le.2 ⟨by linarith, by linarith⟩⟩
  have ct : Roll S δ H (fun n => -(e1 n * H n ^ 2)) (fun n => k / (exp (N n) * H n)) e1 (fun n => exp (N n)) (fun _ => 1) (fun _ => 0) :=
    ⟨fun n hn => ⟨hH n hn, div_pos hk (mul_pos (exp_pos _) (hH n hn))⟩, fun n hn => (hj n hn).2.2.1, hx,
      fun n hn => ⟨(exp_pos _).ne', ((hN n hn).exp).congr_deriv (by ring)⟩, fun n hn => (hasDerivAt_const n 1).congr_deriv (by ring), hs,
      fun n hn => ⟨by rw [sub_self, abs_zero]; exact hδ0.le, by rw [abs_zero]; exact hδ0.le⟩⟩
  have hv := fun τ hτ => slow_vacT hδ hS u hV hV2 hφ sr R.indep R.flat R.potential hk hmod (τ := τ) hτ
  obtain ⟨hcr, h⟩ := slow_assemble (traj := ptT 0 N φ q H) hδ0 hδ hS hc hk (fun n hn => mul_pos (exp_pos _) (hH n hn)) cs ct (fun n => ⟨rfl, rfl⟩) hmod R.flat (fun τ hτ => (hv τ hτ).1)
    (fun τ hτ => (hv τ hτ).2.1) R.grid R.ic R.run R.inside (R.exact s t hmod s (by simp)) (R.exact s t hmod t (by simp)) (fun τ hτ => (hv τ hτ).2.2)
  refine ⟨hcr, fun vac hvac => ?_⟩
  obtain ⟨Ps, Pt, a1, a2, a3⟩ := h vac hvac
  refine ⟨Ps, Pt, a1, a2, fun n hn hkn => ?_⟩
  obtain ⟨h1, h2, -⟩ := hj n hn
  have hHn := hH n hn
  obtain ⟨es, et⟩ := slow_amplitude (q := q n / H n) (e := e1 n) hk hHn (div_ne_zero h2 hHn.ne') (by rw [h1]; field_simp) hkn
  have := a3 n hn hkn
  rw [mul_div_assoc] at this
  rwa [es, et] at this

/-! ## The approximations of the code -/

/-- The slow-roll parameters of the code are small. -/
structure NearSR (δ : ℝ) (p : SRPoint) : Prop where
  e1 : 0 < p.e1 ∧ p.e1 ≤ δ
  e2 : |p.e2| ≤ 2 * δ
  e3 : |p.e2 * p.e3| ≤ 2 * δ
  d1 : |p.d1| ≤ 2 * δ
  d2 : |p.d2| ≤ 2 * δ
  d3 : |p.d3| ≤ 2 * δ
  g2 : |p.g2| ≤ 2 * δ
  g3 : |p.g3| ≤ 2 * δ

def SmallF (f : SRPoint → ℝ) : Prop := ∃ C : ℝ, 0 < C ∧ ∀ δ, 0 < δ → δ ≤ 1 / 20 → ∀ p, NearSR δ p → |f p| ≤ C * δ
def BddF (f : SRPoint → ℝ) : Prop := ∃ C : ℝ, 0 < C ∧ ∀ δ, 0 < δ → δ ≤ 1 / 20 → ∀ p, NearSR δ p → |f p| ≤ C

theorem SmallF.add {f g : SRPoint → ℝ} (hf : SmallF f) (hg : SmallF g) : SmallF fun p => f p + g p := by
  obtain ⟨C, hC, h⟩ := hf
  obtain ⟨C', hC', h'⟩ := hg
  exact ⟨C + C', by positivity, fun δ h0 h1 p hp => by
    have := h δ h0 h1 p hp
    have := h' δ h0 h1 p hp
    have := abs_add_le (f p) (g p)
    linarith⟩

theorem BddF.mul {f g : SRPoint → ℝ} (hf : BddF f) (hg : BddF g) : BddF fun p => f p * g p := by
  obtain ⟨C, hC, h⟩ := hf
  obtain ⟨C', hC', h'⟩ := hg
  exact ⟨C * C', by positivity, fun δ h0 h1 p hp => by
    rw [abs_mul]
    exact mul_le_mul (h δ h0 h1 p hp) (h' δ h0 h1 p hp) (abs_nonneg _) hC.le⟩

theorem BddF.small {f g : SRPoint → ℝ} (hf : BddF f) (hg : SmallF g) : SmallF fun p => f p * g p := by
  obtain ⟨C, hC, h⟩ := hf
  obtain ⟨C', hC', h'⟩ := hg
  exact ⟨C * C', by positivity, fun δ h0 h1 p hp => by
    rw [abs_mul, mul_assoc]
    exact mul_le_mul (h δ h0 h1 p hp) (h' δ h0 h1 p hp) (abs_nonneg _) hC.le⟩

theorem SmallF.bdd {f : SRPoint → ℝ} (hf : SmallF f) : BddF f := by
  obtain ⟨C, hC, h⟩ := hf
  exact ⟨C, hC, fun δ h0 h1 p hp => (h δ h0 h1 p hp).trans (by nlinarith)⟩

theorem BddF.coef {c : ℝ → ℝ} (hc : Continuous c) : BddF fun p => c p.e1 := by
  obtain ⟨C, hC⟩ := (isCompact_Icc (a := (0 : ℝ)) (b := 1)).exists_bound_of_continuousOn hc.continuousOn
  refine ⟨|C| + 1, by positivity, fun δ h0 h1 p hp => ?_⟩
  have := hC p.e1 ⟨hp.e1.1.le, by linarith [hp.e1.2]⟩
  rw [norm_eq_abs] at this
  linarith [le_abs_self C]

theorem small_par : SmallF (fun p => p.e1) ∧ SmallF (fun p => p.e2) ∧ SmallF (fun p => p.e2 * p.e3) ∧ SmallF (fun p => p.d1) ∧ SmallF (fun p => p.d2) ∧
    SmallF (fun p => p.d3) ∧ SmallF (fun p => p.g2) ∧ SmallF (fun p => p.g3) :=
  ⟨⟨2, two_pos, fun δ h0 _ p hp => by rw [abs_of_pos hp.e1.1]; linarith [hp.e1.2]⟩, ⟨2, two_pos, fun _ _ _ p hp => hp.e2⟩, ⟨2, two_pos, fun _ _ _ p hp => hp.e3⟩,
    ⟨2, two_pos, fun _ _ _ p hp => hp.d1⟩, ⟨2, two_pos, fun _ _ _ p hp => hp.d2⟩, ⟨2, two_pos, fun _ _ _ p hp => hp.d3⟩, ⟨2, two_pos, fun _ _ _ p hp => hp.g2⟩,
    ⟨2, two_pos, fun _ _ _ p hp => hp.g3⟩⟩

theorem SmallF.of {f g : SRPoint → ℝ} (hf : SmallF f) (h : ∀ p, g p = f p) : SmallF g := by
  rwa [show g = f from funext h]

theorem small_lin (c1 c2 c3 c4 : ℝ → ℝ) (h1 : Continuous c1) (h2 : Continuous c2) (h3 : Continuous c3) (h4 : Continuous c4) {x y z w : SRPoint → ℝ}
    (hx : SmallF x) (hy : SmallF y) (hz : SmallF z) (hw : SmallF w) : SmallF fun p => c1 p.e1 * x p + c2 p.e1 * y p + c3 p.e1 * z p + c4 p.e1 * w p :=
  ((((BddF.coef h1).small hx).add ((BddF.coef h2).small hy)).add ((BddF.coef h3).small hz)).add ((BddF.coef h4).small hw)

theorem small_methods : ∀ M ∈ crossing, SmallF (fun p => M.2.1 p - 1) ∧ SmallF (fun p => M.2.2 p - 1) := by
  obtain ⟨s1, s2, s23, t1, t2, t3, g2, g3⟩ := small_par
  have a1 : SmallF fun p => cgsS1 p - 1 := by
    refine (small_lin (fun e => 4 * (alpha - e) - 2) (fun e => 2 * (alpha - e)) (fun e => -(alpha - e) ^ 2 + π ^ 2 / 12)
      (fun e => 1 / 3 * (alpha - e) ^ 3 - π ^ 2 / 12 * (alpha - e) + 4 / 3 - 2 / 3 * zeta3) (by fun_prop) (by fun_prop) (by fun_prop) (by fun_prop) s1 t1 t2 t3).of fun p => ?_
    unfold cgsS1; ring
  have a2 : SmallF fun p => cgsS2 p := by
    refine ((small_lin (fun e => (4 * (alpha - e) ^ 2 - 19 + 7 * π ^ 2 / 3) * e) (fun e => (3 * (alpha - e) ^ 2 + 2 * (alpha - e) - 20 + 29 * π ^ 2 / 12) * e) (fun _ => 1)
      (fun e => (-5 / 3 * (alpha - e) ^ 3 - 2 * (alpha - e) ^ 2 + 20 * (alpha - e) - 9 / 4 * π ^ 2 * (alpha - e) + 16 / 3 + π ^ 2 / 6
        - 14 / 3 * zeta3) * e) (by fun_prop) (by fun_prop) (by fun_prop) (by fun_prop) s1 t1
        (((BddF.coef (c := fun e => 3 * (alpha - e) ^ 2 - 4 + 5 * π ^ 2 / 12) (by fun_prop)).mul t1.bdd).small t1) t2).add
        (((BddF.coef (c := fun e => -3 * (alpha - e) ^ 3 + 8 * (alpha - e) - 7 / 12 * π ^ 2 * (alpha - e) - 4 + 2 * zeta3) (by fun_prop)).mul t1.bdd).small t2)).of fun p => ?_
    unfold cgsS2; ring
  have a3 : SmallF fun p => cgsS3 p := by
    refine (small_lin (fun e => (4 * (alpha - e) ^ 2 + 8 * (alpha - e) + 16 + 5 * π ^ 2 - 48 * zeta3) * e ^ 2)
      (fun e => (-5 / 3 * (alpha - e) ^ 3 + 4 * (alpha - e) ^ 2 + 32 * (alpha - e) - 9 / 4 * π ^ 2 * (alpha - e) + 88 / 3 + 23 / 3 * π ^ 2 - 230 / 3 * zeta3) * e ^ 2)
      (fun _ => 1) (fun _ => 1) (by fun_prop) (by fun_prop) (by fun_prop) (by fun_prop) s1 t1
      (((BddF.coef (c := fun e => (3 * (alpha - e) ^ 3 + 4 * (alpha - e) ^ 2 - 24 * (alpha - e) + 13 / 4 * π ^ 2 * (alpha - e) + 16 + 7 / 3 * π ^ 2 - 30 * zeta3) * e)
        (by fun_prop)).mul t1.bdd).small t1)
      ((((BddF.coef (c := fun e => 4 * (alpha - e) ^ 3 - 16 * (alpha - e) + 5 / 3 * π ^ 2 * (alpha - e) + 8 - 6 * zeta3)
        (by fun_prop)).mul t1.bdd).mul t1.bdd).small t1)).of fun p => ?_
    unfold cgsS3; ring
  have b1 : SmallF fun p => cgsT1 p - 1 := by
    refine (small_lin (fun e => 2 * ((alpha - e) - 1)) (fun e => -(alpha - e) ^ 2 + 2 * (alpha - e) - 2 + π ^ 2 / 12)
      (fun e => (alpha - e) ^ 3 / 3 - (alpha - e) ^ 2 + (2 - π ^ 2 / 12) * (alpha - e) + π ^ 2 / 12 - 2 / 3 - 2 / 3 * zeta3) (fun _ => 0)
      (by fun_prop) (by fun_prop) (by fun_prop) (by fun_prop) s1 g2 g3 s1).of fun p => ?_
    unfold cgsT1; ring
  have b2 : SmallF fun p => cgsT2 p := by
    refine (small_lin (fun e => (2 * (alpha - e) ^ 2 - 2 * (alpha - e) - 3 + π ^ 2 / 2) * e)
      (fun e => (-5 / 3 * (alpha - e) ^ 3 + 2 * (alpha - e) ^ 2 + (8 - 11 / 12 * π ^ 2) * (alpha - e) + 7 / 6 * π ^ 2 - 26 / 3 - 2 / 3 * zeta3) * e)
      (fun _ => 0) (fun _ => 0) (by fun_prop) (by fun_prop) (by fun_prop) (by fun_prop) s1 g2 g3 s1).of fun p => ?_
    unfold cgsT2; ring
  have b3 : SmallF fun p => cgsT3 p := by
    refine ((BddF.coef (c := fun e => (4 / 3 * (alpha - e) ^ 3 - 8 * (alpha - e) + π ^ 2 * (alpha - e) + 16 / 3 - 14 / 3 * zeta3) * e ^ 2) (by fun_prop)).small s1).of fun p => ?_
    unfold cgsT3; ring
  have c1 : SmallF fun p => steS p - 1 := by
    refine ((small_lin (fun e => -2 * (C + 1) + (2 * C ^ 2 + 2 * C + π ^ 2 / 2 - 5) * e) (fun e => -C + (C ^ 2 - C + 7 / 12 * π ^ 2 - 7) * e)
      (fun _ => -C ^ 2 / 2 + π ^ 2 / 24) (fun _ => C ^ 2 / 2 + π ^ 2 / 8 - 1) (by fun_prop) (by fun_prop) (by fun_prop) (by fun_prop) s1 s2 s23 (s2.bdd.small s2))).of fun p => ?_
    unfold steS; ring
  have c2 : SmallF fun p => steT p - 1 := by
    refine ((small_lin (fun e => -2 * (C + 1) + (2 * C ^ 2 + 2 * C + π ^ 2 / 2 - 5) * e) (fun e => (-C ^ 2 - 2 * C + π ^ 2 / 12 - 2) * e)
      (fun _ => 0) (fun _ => 0) (by fun_prop) (by fun_prop) (by fun_prop) (by fun_prop) s1 s2 s23 s23)).of fun p => ?_
    unfold steT; ring
  intro M hM
  simp only [crossing, List.mem_cons, List.not_mem_nil, or_false] at hM
  rcases hM with rfl | rfl | rfl | rfl | rfl
  · have : SmallF fun _ => (1 : ℝ) - 1 := ⟨1, one_pos, fun δ h0 _ _ _ => by rw [sub_self, abs_zero]; linarith⟩
    exact ⟨this, this⟩
  · exact ⟨a1, b1⟩
  · exact ⟨(a1.add a2).of fun p => by show cgsS1 p + cgsS2 p - 1 = _; ring, (b1.add b2).of fun p => by show cgsT1 p + cgsT2 p - 1 = _; ring⟩
  · exact ⟨((a1.add a2).add a3).of fun p => by show cgsS1 p + cgsS2 p + cgsS3 p - 1 = _; ring, ((b1.add b2).add b3).of fun p => by show cgsT1 p + cgsT2 p + cgsT3 p - 1 = _; ring⟩
  · exact ⟨c1, c2⟩

theorem small_methods_uniform : ∃ K : ℝ, 0 < K ∧ ∀ δ, 0 < δ → δ ≤ 1 / 20 → ∀ p, NearSR δ p → ∀ (o : ℕ) (fS fT : SRPoint → ℝ), (o, fS, fT) ∈ crossing →
    |fS p - 1| ≤ K * δ ∧ |fT p - 1| ≤ K * δ := by
  have gen : ∀ l : List (ℕ × (SRPoint → ℝ) × (SRPoint → ℝ)), (∀ M ∈ l, M ∈ crossing) → ∃ K : ℝ, 0 < K ∧ ∀ δ, 0 < δ → δ ≤ 1 / 20 → ∀ p, NearSR δ p → ∀ M ∈ l,
      |M.2.1 p - 1| ≤ K * δ ∧ |M.2.2 p - 1| ≤ K * δ := by
    intro l
    induction l with
    | nil => exact fun _ => ⟨1, one_pos, by simp⟩
    | cons M l ih =>
      intro hl
      obtain ⟨K, hK, h⟩ := ih fun M' hM' => hl M' (List.mem_cons_of_mem _ hM')
      obtain ⟨⟨C1, hC1, h1⟩, ⟨C2, hC2, h2⟩⟩ := small_methods M (hl M List.mem_cons_self)
      refine ⟨K + C1 + C2, by positivity, fun δ h0 hδ p hp M' hM' => ?_⟩
      rcases List.mem_cons.1 hM' with rfl | hM'
      · have := h1 δ h0 hδ p hp
        have := h2 δ h0 hδ p hp
        exact ⟨by nlinarith [mul_pos hK h0, mul_pos hC1 h0, mul_pos hC2 h0], by nlinarith [mul_pos hK h0, mul_pos hC1 h0, mul_pos hC2 h0]⟩
      · obtain ⟨b1, b2⟩ := h δ h0 hδ p hp M' hM'
        exact ⟨by nlinarith [mul_pos hC1 h0, mul_pos hC2 h0], by nlinarith [mul_pos hC1 h0, mul_pos hC2 h0]⟩
  obtain ⟨K, hK, h⟩ := gen crossing fun M hM => hM
  exact ⟨K, hK, fun δ h0 hδ p hp o fS fT hM => h δ h0 hδ p hp _ hM⟩

theorem nearSR_of {δ ε E D : ℝ} (h1 : 0 < ε) (h2 : ε ≤ δ) (h3 : |E| ≤ δ) (h4 : |D| ≤ δ) (hδ : δ ≤ 1 / 20) {p : SRPoint} (p1 : p.e1 = ε) (p2 : p.e2 = E)
    (p3 : E ≠ 0 → p.e2 * p.e3 = D) (q1 : p.d1 = E / 2 - ε) (q2 : p.d2 = (E / 2 - ε) ^ 2 - ε * (E / 2 - ε) + D / 2 - ε * E) (q3 : |p.d3| ≤ δ)
    (r2 : p.g2 = ε * E) (r3 : p.g3 = ε * (E ^ 2 + D - ε * E)) : NearSR δ p := by
  have h0 : 0 ≤ δ := h1.le.trans h2
  have h3' := abs_le.1 h3
  have h4' := abs_le.1 h4
  have hE : |ε * E| ≤ δ / 20 := by
    rw [abs_mul, abs_of_pos h1]
    calc ε * |E| ≤ δ * δ := mul_le_mul h2 h3 (abs_nonneg _) h0
      _ ≤ δ / 20 := by nlinarith
  have hE' := abs_le.1 hE
  have e1 : |E / 2 - ε| ≤ 3 / 2 * δ := abs_le.2 ⟨by linarith, by linarith⟩
  have e2 : (E / 2 - ε) ^ 2 ≤ δ / 5 := by
    rw [← sq_abs]
    have := mul_le_mul e1 e1 (abs_nonneg _) (by linarith)
    nlinarith
  have e3 : |ε * (E / 2 - ε)| ≤ δ / 5 := by
    rw [abs_mul, abs_of_pos h1]
    have := mul_le_mul h2 e1 (abs_nonneg _) h0
    nlinarith
  have e3' := abs_le.1 e3
  have e4 := sq_nonneg (E / 2 - ε)
  have e5 : E ^ 2 ≤ δ := by
    rw [← sq_abs]
    have := mul_le_mul h3 h3 (abs_nonneg _) h0
    nlinarith
  refine ⟨⟨by rw [p1]; exact h1, by rw [p1]; exact h2⟩, by rw [p2]; linarith, ?_, by rw [q1]; linarith, ?_, by linarith, by rw [r2]; linarith, ?_⟩
  · by_cases hE0 : E = 0
    · rw [p2, hE0, zero_mul, abs_zero]; linarith
    · rw [p3 hE0]; linarith
  · rw [q2]
    exact abs_le.2 ⟨by linarith, by linarith⟩
  · rw [r3, abs_mul, abs_of_pos h1]
    have e6 : |E ^ 2 + D - ε * E| ≤ 3 * δ := abs_le.2 ⟨by linarith [sq_nonneg E], by linarith⟩
    have := mul_le_mul h2 e6 (abs_nonneg _) h0
    nlinarith

/-- The point the e-folds code evaluates. -/
theorem slow_pointN {n H q ε E D d4 δ : ℝ} (hH : 0 < H) (hq : q ≠ 0) (hε : ε = q ^ 2 / 2) (h1 : 0 < ε) (h2 : ε ≤ δ) (h3 : |E| ≤ δ) (h4 : |D| ≤ δ) (hδ : δ ≤ 1 / 20)
    (hd : |(N.srPoint n H q (q * (E / 2)) (q * (E ^ 2 / 4 + D / 2)) d4 0).d3| ≤ δ) :
    NearSR δ (N.srPoint n H q (q * (E / 2)) (q * (E ^ 2 / 4 + D / 2)) d4 0) ∧ (N.srPoint n H q (q * (E / 2)) (q * (E ^ 2 / 4 + D / 2)) d4 0).e1 = ε := by
  have hh : Primpy.N.get_dH n H q 0 = -(ε * H) := by unfold Primpy.N.get_dH; rw [hε]; ring
  have hh2 : Primpy.N.get_d2H n H (-(ε * H)) q (q * (E / 2)) 0 = (ε ^ 2 - ε * E) * H := by unfold Primpy.N.get_d2H; rw [hε]; field_simp; ring
  have hh3 : Primpy.N.get_d3H n H (-(ε * H)) ((ε ^ 2 - ε * E) * H) q (q * (E / 2)) (q * (E ^ 2 / 4 + D / 2)) 0 = -(ε ^ 3 - 3 * ε ^ 2 * E + ε * E ^ 2 + ε * D) * H := by
    unfold Primpy.N.get_d3H; rw [hε]; field_simp; ring
  have e1 : (N.srPoint n H q (q * (E / 2)) (q * (E ^ 2 / 4 + D / 2)) d4 0).e1 = ε := by
    simp only [N.srPoint, hh, Primpy.N.get_epsilon_1H]; field_simp
  refine ⟨nearSR_of h1 h2 h3 h4 hδ e1 ?_ (fun hE => ?_) ?_ ?_ hd ?_ ?_, e1⟩
  · simp only [N.srPoint, hh, hh2, Primpy.N.get_epsilon_2H]; field_simp; ring
  · simp only [N.srPoint, hh, hh2, hh3, Primpy.N.get_epsilon_2H, Primpy.N.get_epsilon_3H]
    have e : H ^ 2 * ((ε ^ 2 - ε * E) * H) ^ 2 - 2 * H * (-(ε * H)) ^ 2 * ((ε ^ 2 - ε * E) * H) + (-(ε * H)) ^ 4 = (ε * E * H ^ 2) ^ 2 := by ring
    rw [e, abs_of_nonneg (sq_nonneg _)]
    field_simp
    ring
  · simp only [N.srPoint, hh, Primpy.N.get_delta_1]; field_simp
    ring
  · simp only [N.srPoint, hh, hh2, Primpy.N.get_delta_2]; field_simp; ring
  · simp only [N.srPoint, hh, hh2, Primpy.N.get_epsilon_2H_Gong]; field_simp; ring
  · simp only [N.srPoint, hh, hh2, hh3, Primpy.N.get_epsilon_3H_Gong]; field_simp; ring

/-- The point the cosmic-time code evaluates. -/
theorem slow_pointT {n H q ε E D d4 δ : ℝ} (hH : 0 < H) (hq : q ≠ 0) (hε : q ^ 2 = 2 * ε * H ^ 2) (h1 : 0 < ε) (h2 : ε ≤ δ) (h3 : |E| ≤ δ) (h4 : |D| ≤ δ) (hδ : δ ≤ 1 / 20)
    {p : SRPoint} (hp : p = T.srPoint n H q (q * H * (E / 2 - ε)) (q * H ^ 2 * ((E / 2 - ε) ^ 2 - ε * (E / 2 - ε) + D / 2 - ε * E)) d4 0)
    (hd : |p.d3| ≤ δ) : NearSR δ p ∧ p.e1 = ε := by
  have hh : T.get_dH n H q 0 = -(ε * H ^ 2) := by unfold T.get_dH; linear_combination -hε / 2
  have hh2 : T.get_d2H n H (-(ε * H ^ 2)) q (q * H * (E / 2 - ε)) 0 = -(2 * ε * H ^ 3 * (E / 2 - ε)) := by
    unfold T.get_d2H; linear_combination -(H * (E / 2 - ε)) * hε
  have hh3 : T.get_d3H n H (-(ε * H ^ 2)) (-(2 * ε * H ^ 3 * (E / 2 - ε))) q (q * H * (E / 2 - ε)) (q * H ^ 2 * ((E / 2 - ε) ^ 2 - ε * (E / 2 - ε) + D / 2 - ε * E)) 0 =
      -(2 * ε * H ^ 4 * (2 * (E / 2 - ε) ^ 2 - ε * (E / 2 - ε) + D / 2 - ε * E)) := by
    unfold T.get_d3H; linear_combination -(H ^ 2 * (2 * (E / 2 - ε) ^ 2 - ε * (E / 2 - ε) + D / 2 - ε * E)) * hε
  have e1 : p.e1 = ε := by
    simp only [hp, T.srPoint, hh, T.get_epsilon_1H]; field_simp
  refine ⟨nearSR_of h1 h2 h3 h4 hδ e1 ?_ (fun hE => ?_) ?_ ?_ hd ?_ ?_, e1⟩
  · simp only [hp, T.srPoint, hh, hh2, T.get_epsilon_2H]; field_simp; ring
  · simp only [hp, T.srPoint, hh, hh2, hh3, T.get_epsilon_2H, T.get_epsilon_3H]
    have e : H * (-(2 * ε * H ^ 3 * (E / 2 - ε))) - 2 * (-(ε * H ^ 2)) ^ 2 = -(ε * E * H ^ 4) := by ring
    rw [e]
    field_simp
    ring
  · simp only [hp, T.srPoint, hh, T.get_delta_1]; field_simp
  · simp only [hp, T.srPoint, hh, hh2, T.get_delta_2]; field_simp
  · simp only [hp, T.srPoint, hh, hh2, T.get_epsilon_2H_Gong]; field_simp; ring
  · simp only [hp, T.srPoint, hh, hh2, hh3, T.get_epsilon_3H_Gong]; field_simp; ring

theorem near_trans {P A F C K δ : ℝ} (hA : 0 < A) (h : |P - A| ≤ C * δ * A) (hF : |F - 1| ≤ K * δ) : |P - A * F| ≤ (C + K) * δ * A := by
  have e : P - A * F = (P - A) - A * (F - 1) := by ring
  rw [e]
  refine (abs_sub _ _).trans ?_
  rw [abs_mul, abs_of_pos hA]
  have := mul_le_mul_of_nonneg_left hF hA.le
  linarith

/-- **C84, e-folds, against the approximations of the code**: the Gong-Stewart (CGS, all orders) and Schwarz-Terrero-Escalante (STE)
spectra, evaluated at the point `p` the code builds from the field and its derivatives at the crossing, agree with the numerical
spectra to relative accuracy `K δ`, `K` an absolute constant (`δ₃`, which contains the fourth derivative `d4` of the field, being
assumed to be small as well). -/
theorem C84_methods_efolds : ∃ K : ℝ, 0 < K ∧ ∀ (δ : ℝ) (S D : Set ℝ) (pot : PotFns) (φ q q2 q3 H e1 e2 d2 : ℝ → ℝ), 0 < δ → δ ≤ 1 / 20 → IsOpen S → IsPreconnected S →
    IsUniverseN S pot.V pot.dV 0 φ q H → IsDerivOn D pot.V pot.dV → IsDerivOn D pot.dV pot.d2V → (∀ n ∈ S, φ n ∈ D) → IsSlowRoll δ S (fun _ => 1) H e1 e2 d2 →
    IsDerivOn S q q2 → IsDerivOn S q2 q3 →
    ∀ (osc : Oscode) (b : Bg) (kw : OscKw) (k : ℝ) (r : ModeSpectra), SlowRunN δ S pot φ q H osc b kw k r →
    ∀ vac ∈ kw.vacuum, ∃ Ps Pt : ℝ, r.P_s.get? vac = some (some Ps) ∧ r.P_t.get? vac = some (some Pt) ∧
      ∀ n ∈ S, k = exp n * H n → ∀ d4 : ℝ, |(N.srPoint n (H n) (q n) (q2 n) (q3 n) d4 0).d3| ≤ δ → ∀ (o : ℕ) (fS fT : SRPoint → ℝ), (o, fS, fT) ∈ crossing →
        let p := N.srPoint n (H n) (q n) (q2 n) (q3 n) d4 0
        |Ps - Ps0 p * fS p| ≤ K * δ * Ps0 p ∧ |Pt - Pt0 p * fT p| ≤ K * δ * Pt0 p := by
  obtain ⟨K, hK, hm⟩ := small_methods_uniform
  have hC := slowC_pos
  refine ⟨slowP + K, by unfold slowP; positivity, ?_⟩
  intro δ S D pot φ q q2 q3 H e1 e2 d2 hδ0 hδ hS hc u hV hV2 hφ sr hq2 hq3 osc b kw k r R vac hv
  obtain ⟨Ps, Pt, a1, a2, a3⟩ := (C84_efolds hδ0 hδ hS hc u hV hV2 hφ sr R).2 vac hv
  refine ⟨Ps, Pt, a1, a2, fun n hn hkn d4 hd4 o fS fT hM => ?_⟩
  have hj := slow_jetN hS u hV hV2 hφ sr
  have hH : 0 < H n := u.expanding n hn
  have b2 : ∀ m ∈ S, q2 m = q m * (e2 m / 2) := fun m hm => (hq2 m hm).unique (hj m hm).2.2.2.1
  have b3 : q3 n = q n * (e2 n ^ 2 / 4 + d2 n / 2) := by
    have h1 := ((hj n hn).2.2.2.1).fun_mul ((sr.third n hn).div_const 2)
    have e : q2 =ᶠ[nhds n] fun s => q s * (e2 s / 2) := by
      filter_upwards [hS.mem_nhds hn] with s hs
      exact b2 s hs
    rw [(hq3 n hn).unique (h1.congr_of_eventuallyEq e)]
    ring
  obtain ⟨c1, c2, -⟩ := hj n hn
  obtain ⟨s1, s2, s3, s4⟩ := sr.small n hn
  rw [b2 n hn, b3] at hd4 ⊢
  obtain ⟨hp, hp1⟩ := slow_pointN hH c2 c1 s1 s2 s3 s4 hδ hd4
  obtain ⟨f1, f2⟩ := hm δ hδ0 hδ _ hp o fS fT hM
  obtain ⟨g1, g2⟩ := a3 n hn hkn
  intro p
  have hPs : Ps0 p = H n ^ 2 / (8 * π ^ 2 * e1 n) := by rw [Ps0, hp1]; rfl
  have hPt : Pt0 p = 2 * H n ^ 2 / π ^ 2 := by rw [Pt0, div_pow, mul_div_assoc]; rfl
  have := pi_pos
  rw [hPs, hPt]
  exact ⟨near_trans (by positivity) g1 f1, near_trans (by positivity) g2 f2⟩

/-- **C84, cosmic time, against the approximations of the code.** -/
theorem C84_methods_time : ∃ K : ℝ, 0 < K ∧ ∀ (δ : ℝ) (S D : Set ℝ) (pot : PotFns) (N φ q q2 q3 H e1 e2 d2 : ℝ → ℝ), 0 < δ → δ ≤ 1 / 20 → IsOpen S → IsPreconnected S →
    IsUniverse S pot.V pot.dV 0 N φ q H → IsDerivOn D pot.V pot.dV → IsDerivOn D pot.dV pot.d2V → (∀ n ∈ S, φ n ∈ D) → IsSlowRoll δ S H H e1 e2 d2 →
    IsDerivOn S q q2 → IsDerivOn S q2 q3 →
    ∀ (osc : Oscode) (b : Bg) (kw : OscKw) (k : ℝ) (r : ModeSpectra), SlowRunT δ S pot N φ q H osc b kw k r →
    ∀ vac ∈ kw.vacuum, ∃ Ps Pt : ℝ, r.P_s.get? vac = some (some Ps) ∧ r.P_t.get? vac = some (some Pt) ∧
      ∀ t ∈ S, k = exp (N t) * H t → ∀ d4 : ℝ, |(T.srPoint (N t) (H t) (q t) (q2 t) (q3 t) d4 0).d3| ≤ δ → ∀ (o : ℕ) (fS fT : SRPoint → ℝ), (o, fS, fT) ∈ crossing →
        let p := T.srPoint (N t) (H t) (q t) (q2 t) (q3 t) d4 0
        |Ps - Ps0 p * fS p| ≤ K * δ * Ps0 p ∧ |Pt - Pt0 p * fT p| ≤ K * δ * Pt0 p := by
  obtain ⟨K, hK, hm⟩ := small_methods_uniform
  have hC := slowC_pos
  refine ⟨slowP + K, by unfold slowP; positivity, ?_⟩
  intro δ S D pot N φ q q2 q3 H e1 e2 d2 hδ0 hδ hS hc u hV hV2 hφ sr hq2 hq3 osc b kw k r R vac hv
  obtain ⟨Ps, Pt, a1, a2, a3⟩ := (C84_time hδ0 hδ hS hc u hV hV2 hφ sr R).2 vac hv
  refine ⟨Ps, Pt, a1, a2, fun n hn hkn d4 hd4 o fS fT hM => ?_⟩
  have hj := slow_jetT hS u hV hV2 hφ sr
  have hH : 0 < H n := u.expanding n hn
  have b2 : ∀ m ∈ S, q2 m = q m * H m * (e2 m / 2 - e1 m) := fun m hm => (hq2 m hm).unique (hj m hm).2.2.2.1
  have b3 : q3 n = q n * H n ^ 2 * ((e2 n / 2 - e1 n) ^ 2 - e1 n * (e2 n / 2 - e1 n) + d2 n / 2 - e1 n * e2 n) := by
    have h1 := (((hj n hn).2.2.2.1).fun_mul (hj n hn).2.2.1).fun_mul (((sr.third n hn).div_const 2).fun_sub (sr.second n hn))
    have e : q2 =ᶠ[nhds n] fun s => q s * H s * (e2 s / 2 - e1 s) := by
      filter_upwards [hS.mem_nhds hn] with s hs
      exact b2 s hs
    rw [(hq3 n hn).unique (h1.congr_of_eventuallyEq e)]
    ring
  obtain ⟨c1, c2, -⟩ := hj n hn
  obtain ⟨s1, s2, s3, s4⟩ := sr.small n hn
  rw [b2 n hn, b3] at hd4 ⊢
  obtain ⟨hp, hp1⟩ := slow_pointT hH c2 (by rw [c1]; field_simp) s1 s2 s3 s4 hδ rfl hd4
  obtain ⟨f1, f2⟩ := hm δ hδ0 hδ _ hp o fS fT hM
  obtain ⟨g1, g2⟩ := a3 n hn hkn
  intro p
  have hPs : Ps0 p = H n ^ 2 / (8 * π ^ 2 * e1 n) := by rw [Ps0, hp1]; rfl
  have hPt : Pt0 p = 2 * H n ^ 2 / π ^ 2 := by rw [Pt0, div_pow, mul_div_assoc]; rfl
  have := pi_pos
  rw [hPs, hPt]
  exact ⟨near_trans (by positivity) g1 f1, near_trans (by positivity) g2 f2⟩

/-! ## The hypotheses are met -/

/-- For every accuracy `δ`: power-law inflation with `ε₁ = q²/2 ≤ δ` rolls slowly, and every wavenumber has an exact run with all three vacua
(e-folds). -/
example {δ q : ℝ} (hδ0 : 0 < δ) (hδ : δ ≤ 1 / 20) (hq : q ≠ 0) (hqδ : q ^ 2 / 2 ≤ δ) : ∃ (pot : PotFns) (φ H : ℝ → ℝ),
    IsUniverseN Set.univ pot.V pot.dV 0 φ (fun _ => q) H ∧ IsDerivOn Set.univ pot.V pot.dV ∧ IsDerivOn Set.univ pot.dV pot.d2V ∧
    IsSlowRoll δ Set.univ (fun _ => 1) H (fun _ => q ^ 2 / 2) (fun _ => 0) (fun _ => 0) ∧
    ∀ k, 0 < k → ∃ osc b r, SlowRunN δ Set.univ pot φ (fun _ => q) H osc b { vacuum := ["k", "HD", "RST"] } k r := by
  obtain ⟨pot, φ, H, u, V, V2, h⟩ := exists_runN (X := 1 / δ) hq (by linarith) hδ0
  refine ⟨pot, φ, H, u, V, V2, ⟨fun n _ => ?_, fun n _ => ?_, fun n _ => ?_, fun n _ => ⟨by positivity, hqδ, by simpa using hδ0.le, by simpa using hδ0.le⟩⟩, fun k hk => ?_⟩
  · have hH : 0 < H n := u.expanding n trivial
    exact ((u.dH isOpen_univ V (fun _ _ => trivial) n trivial).log hH.ne').congr_deriv (by field_simp; ring)
  · exact (hasDerivAt_const n _).congr_deriv (by ring)
  · exact (hasDerivAt_const n _).congr_deriv (by ring)
  · obtain ⟨-, osc, b, r, R⟩ := h k hk
    refine ⟨osc, b, r, R.indep, R.flat, R.potential, R.pos, fun _ _ _ p _ _ hp => R.grid p (List.mem_of_getElem? hp), R.ic, R.run, fun p hp => ?_, R.exact⟩
    have := R.inside p hp
    rw [div_mul_eq_mul_div, div_le_iff₀ hδ0] at this
    linarith

/-- The same for cosmic time. -/
example {δ q : ℝ} (hδ0 : 0 < δ) (hδ : δ ≤ 1 / 20) (hq : q ≠ 0) (hqδ : q ^ 2 / 2 ≤ δ) : ∃ (pot : PotFns) (N φ H : ℝ → ℝ),
    IsUniverse (Set.Ioi 0) pot.V pot.dV 0 N φ (fun t => q * H t) H ∧ IsDerivOn Set.univ pot.V pot.dV ∧ IsDerivOn Set.univ pot.dV pot.d2V ∧
    IsSlowRoll δ (Set.Ioi 0) H H (fun _ => q ^ 2 / 2) (fun _ => 0) (fun _ => 0) ∧
    ∀ k, 0 < k → ∃ osc b r, SlowRunT δ (Set.Ioi 0) pot N φ (fun t => q * H t) H osc b { vacuum := ["k", "HD", "RST"] } k r := by
  obtain ⟨pot, N, φ, H, u, V, V2, h⟩ := exists_runT (X := 1 / δ) hq (by linarith) hδ0
  refine ⟨pot, N, φ, H, u, V, V2, ⟨fun n hn => ?_, fun n _ => ?_, fun n _ => ?_, fun n _ => ⟨by positivity, hqδ, by simpa using hδ0.le, by simpa using hδ0.le⟩⟩, fun k hk => ?_⟩
  · have hH : 0 < H n := u.expanding n hn
    exact ((u.dH isOpen_Ioi V (fun _ _ => trivial) n hn).log hH.ne').congr_deriv (by field_simp; ring)
  · exact (hasDerivAt_const n _).congr_deriv (by ring)
  · exact (hasDerivAt_const n _).congr_deriv (by ring)
  · obtain ⟨-, osc, b, r, R⟩ := h k hk
    refine ⟨osc, b, r, R.indep, R.flat, R.potential, R.pos, fun _ _ _ p _ _ hp => R.grid p (List.mem_of_getElem? hp), R.ic, R.run, fun p hp => ?_, R.exact⟩
    have := R.inside p hp
    rw [div_mul_eq_mul_div, div_le_iff₀ hδ0] at this
    linarith

end Pert
end Primpy
