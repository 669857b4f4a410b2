import Verif.Spec.Perturbations
import Mathlib.Analysis.Calculus.Deriv.MeanValue
import Mathlib.Analysis.Calculus.Deriv.Inv
import Mathlib.Analysis.Calculus.Deriv.Pow
import Mathlib.Analysis.InnerProductSpace.Calculus
import Mathlib.Analysis.Complex.Norm
import Mathlib.Analysis.SpecialFunctions.ExpDeriv
import Mathlib.MeasureTheory.Integral.IntervalIntegral.FundThmCalculus

/-!
# Mode functions on a slow-roll background

`τ` is any time variable with `dN/dτ = g`, `x = k/(aH)`, `ε = -d ln H/dN`, `z` the pump field (`a` for tensors, `a dφ/dN` for scalars),
`p = d ln z/dN`, `p' = dp/dN`.  The mode equation `(z² R_N x⁻¹...)` is compared with the de Sitter mode function `(1 + i/x) e^{ix}`: inside
the horizon through `U = zR`, `D = (z R_N + p U)/x`, outside through `R` itself.
-/

namespace Primpy
open Real Spec
namespace SlowModes

structure Roll (S : Set ℝ) (δ : ℝ) (g g1 x ε z p p' : ℝ → ℝ) : Prop where
  pos : ∀ τ ∈ S, 0 < g τ ∧ 0 < x τ
  hg : ∀ τ ∈ S, HasDerivAt g (g1 τ) τ
  hx : ∀ τ ∈ S, HasDerivAt x (-((1 - ε τ) * (g τ * x τ))) τ
  hz : ∀ τ ∈ S, z τ ≠ 0 ∧ HasDerivAt z (g τ * p τ * z τ) τ
  hp : ∀ τ ∈ S, HasDerivAt p (g τ * p' τ) τ
  hε : ∀ τ ∈ S, 0 ≤ ε τ ∧ ε τ ≤ δ
  small : ∀ τ ∈ S, |p τ - 1| ≤ δ ∧ |p' τ| ≤ δ

theorem antitone_of {a b : ℝ} {f f' : ℝ → ℝ} (h : ∀ t ∈ Set.Icc a b, HasDerivAt f (f' t) t) (h' : ∀ t ∈ Set.Icc a b, f' t ≤ 0) :
    AntitoneOn f (Set.Icc a b) :=
  antitoneOn_of_deriv_nonpos (convex_Icc _ _) (fun t ht => (h t ht).continuousAt.continuousWithinAt)
    (fun t ht => (h t (interior_subset ht)).differentiableAt.differentiableWithinAt) fun t ht => by
      rw [(h t (interior_subset ht)).deriv]; exact h' t (interior_subset ht)

/-- `A' = g x B + g r1`, `B' = g (-x + Q/x) A + g r2` with `|r1|, |r2| ≤ b/x`. -/
theorem early_energy {t0 t1 b : ℝ} {g x ε Q : ℝ → ℝ} {A B r1 r2 : ℝ → ℂ} (hpos : ∀ τ ∈ Set.Icc t0 t1, 0 < g τ ∧ 0 < x τ)
    (hx : ∀ τ ∈ Set.Icc t0 t1, HasDerivAt x (-((1 - ε τ) * (g τ * x τ))) τ) (hε : ∀ τ ∈ Set.Icc t0 t1, ε τ ≤ 1 / 5)
    (hQ : ∀ τ ∈ Set.Icc t0 t1, 0 ≤ Q τ ∧ Q τ ≤ 3)
    (hA : ∀ τ ∈ Set.Icc t0 t1, HasDerivAt A ((g τ * x τ) • B τ + g τ • r1 τ) τ)
    (hB : ∀ τ ∈ Set.Icc t0 t1, HasDerivAt B ((g τ * (-x τ + Q τ / x τ)) • A τ + g τ • r2 τ) τ)
    (h1 : ∀ τ ∈ Set.Icc t0 t1, ‖r1 τ‖ ≤ b / x τ) (h2 : ∀ τ ∈ Set.Icc t0 t1, ‖r2 τ‖ ≤ b / x τ) :
    AntitoneOn (fun τ => (‖A τ‖ ^ 2 + ‖B τ‖ ^ 2 + 2 * b ^ 2) * exp (-(5 / x τ))) (Set.Icc t0 t1) := by
  have hd : ∀ τ ∈ Set.Icc t0 t1, HasDerivAt (fun τ => (‖A τ‖ ^ 2 + ‖B τ‖ ^ 2 + 2 * b ^ 2) * exp (-(5 / x τ)))
      ((2 * inner ℝ (A τ) ((g τ * x τ) • B τ + g τ • r1 τ) + 2 * inner ℝ (B τ) ((g τ * (-x τ + Q τ / x τ)) • A τ + g τ • r2 τ)
        - (‖A τ‖ ^ 2 + ‖B τ‖ ^ 2 + 2 * b ^ 2) * (5 * (1 - ε τ) * (g τ / x τ))) * exp (-(5 / x τ))) τ := fun τ hτ => by
    obtain ⟨hg0, hx0⟩ := hpos τ hτ
    have e : HasDerivAt (fun τ => exp (-(5 / x τ))) (exp (-(5 / x τ)) * -(5 * (1 - ε τ) * (g τ / x τ))) τ := by
      have := ((((hx τ hτ).fun_inv hx0.ne').const_mul 5).fun_neg).exp
      simp only [← div_eq_mul_inv] at this
      refine this.congr_deriv ?_
      congr 1
      field_simp
    refine ((((hA τ hτ).norm_sq.fun_add (hB τ hτ).norm_sq).add_const (2 * b ^ 2)).fun_mul e).congr_deriv ?_
    ring
  refine antitone_of hd fun τ hτ => ?_
  obtain ⟨hg0, hx0⟩ := hpos τ hτ
  obtain ⟨hQ0, hQ3⟩ := hQ τ hτ
  refine mul_nonpos_of_nonpos_of_nonneg ?_ (exp_pos _).le
  rw [inner_add_right, inner_add_right, inner_smul_right, inner_smul_right, inner_smul_right, inner_smul_right, real_inner_comm (A τ) (B τ)]
  have hε := hε τ hτ
  have i1 : inner ℝ (A τ) (r1 τ) ≤ ‖A τ‖ * (b / x τ) := (real_inner_le_norm _ _).trans (mul_le_mul_of_nonneg_left (h1 τ hτ) (norm_nonneg _))
  have i2 : inner ℝ (B τ) (r2 τ) ≤ ‖B τ‖ * (b / x τ) := (real_inner_le_norm _ _).trans (mul_le_mul_of_nonneg_left (h2 τ hτ) (norm_nonneg _))
  have i3 : inner ℝ (B τ) (A τ) ≤ ‖B τ‖ * ‖A τ‖ := real_inner_le_norm _ _
  rw [real_inner_comm (B τ) (A τ)]
  generalize inner ℝ (A τ) (r1 τ) = I1 at i1 ⊢
  generalize inner ℝ (B τ) (r2 τ) = I2 at i2 ⊢
  generalize inner ℝ (B τ) (A τ) = I3 at i3 ⊢
  generalize ‖A τ‖ = α at *
  generalize ‖B τ‖ = β at *
  obtain ⟨y, hy⟩ : ∃ y, y = g τ / x τ := ⟨_, rfl⟩
  have hy0 : 0 < y := by rw [hy]; positivity
  have e1 : g τ * (α * (b / x τ)) = y * (α * b) := by rw [hy]; field_simp
  have e2 : g τ * (β * (b / x τ)) = y * (β * b) := by rw [hy]; field_simp
  have e3 : g τ * (-x τ + Q τ / x τ) * I3 = -(g τ * x τ * I3) + y * (Q τ * I3) := by rw [hy]; field_simp
  have j1 : g τ * I1 ≤ y * (α * b) := by rw [← e1]; exact mul_le_mul_of_nonneg_left i1 hg0.le
  have j2 : g τ * I2 ≤ y * (β * b) := by rw [← e2]; exact mul_le_mul_of_nonneg_left i2 hg0.le
  have k3 : Q τ * I3 ≤ 3 / 2 * (α ^ 2 + β ^ 2) := by
    have a1 : Q τ * I3 ≤ Q τ * (β * α) := mul_le_mul_of_nonneg_left i3 hQ0
    have a2 : Q τ * (β * α) ≤ Q τ * ((α ^ 2 + β ^ 2) / 2) := mul_le_mul_of_nonneg_left (by nlinarith [sq_nonneg (α - β)]) hQ0
    have a3 : Q τ * ((α ^ 2 + β ^ 2) / 2) ≤ 3 * ((α ^ 2 + β ^ 2) / 2) := mul_le_mul_of_nonneg_right hQ3 (by positivity)
    linarith
  have j3 : y * (Q τ * I3) ≤ y * (3 / 2 * (α ^ 2 + β ^ 2)) := mul_le_mul_of_nonneg_left k3 hy0.le
  have j4 : y * (α * b) ≤ y * ((α ^ 2 + b ^ 2) / 2) := mul_le_mul_of_nonneg_left (by nlinarith [sq_nonneg (α - b)]) hy0.le
  have j5 : y * (β * b) ≤ y * ((β ^ 2 + b ^ 2) / 2) := mul_le_mul_of_nonneg_left (by nlinarith [sq_nonneg (β - b)]) hy0.le
  have j6 : y * (α ^ 2 + β ^ 2 + 2 * b ^ 2) * 4 ≤ y * (α ^ 2 + β ^ 2 + 2 * b ^ 2) * (5 * (1 - ε τ)) :=
    mul_le_mul_of_nonneg_left (by linarith) (by positivity)
  rw [e3, ← hy]
  nlinarith [mul_nonneg hy0.le (sq_nonneg b)]

/-- `ρ' = g x w`, `w' = -2 p g w - g x ρ + g r` with `|r| ≤ B x`. -/
theorem late_energy {t0 t1 B : ℝ} {g x ε p : ℝ → ℝ} {ρ w r : ℝ → ℂ} (hpos : ∀ τ ∈ Set.Icc t0 t1, 0 < g τ ∧ 0 < x τ)
    (hx : ∀ τ ∈ Set.Icc t0 t1, HasDerivAt x (-((1 - ε τ) * (g τ * x τ))) τ) (hε : ∀ τ ∈ Set.Icc t0 t1, ε τ ≤ 1 / 2)
    (hp : ∀ τ ∈ Set.Icc t0 t1, 1 / 2 ≤ p τ) (hρ : ∀ τ ∈ Set.Icc t0 t1, HasDerivAt ρ ((g τ * x τ) • w τ) τ)
    (hw : ∀ τ ∈ Set.Icc t0 t1, HasDerivAt w (-((2 * p τ * g τ) • w τ) - (g τ * x τ) • ρ τ + g τ • r τ) τ)
    (hr : ∀ τ ∈ Set.Icc t0 t1, ‖r τ‖ ≤ B * x τ) :
    AntitoneOn (fun τ => ‖ρ τ‖ ^ 2 + ‖w τ‖ ^ 2 + B ^ 2 * x τ ^ 2) (Set.Icc t0 t1) := by
  have hd : ∀ τ ∈ Set.Icc t0 t1, HasDerivAt (fun τ => ‖ρ τ‖ ^ 2 + ‖w τ‖ ^ 2 + B ^ 2 * x τ ^ 2)
      (2 * inner ℝ (ρ τ) ((g τ * x τ) • w τ) + 2 * inner ℝ (w τ) (-((2 * p τ * g τ) • w τ) - (g τ * x τ) • ρ τ + g τ • r τ)
        + B ^ 2 * (2 * x τ * -((1 - ε τ) * (g τ * x τ)))) τ := fun τ hτ => by
    refine (((hρ τ hτ).norm_sq.fun_add (hw τ hτ).norm_sq).fun_add (((hx τ hτ).fun_pow 2).const_mul (B ^ 2))).congr_deriv ?_
    push_cast
    ring
  refine antitone_of hd fun τ hτ => ?_
  obtain ⟨hg0, hx0⟩ := hpos τ hτ
  have hε := hε τ hτ
  have hp := hp τ hτ
  rw [inner_add_right, inner_sub_right, inner_neg_right, inner_smul_right, inner_smul_right, inner_smul_right, inner_smul_right,
    real_inner_self_eq_norm_sq, real_inner_comm (ρ τ) (w τ)]
  have i1 : inner ℝ (w τ) (r τ) ≤ ‖w τ‖ * (B * x τ) := (real_inner_le_norm _ _).trans (mul_le_mul_of_nonneg_left (hr τ hτ) (norm_nonneg _))
  generalize inner ℝ (w τ) (r τ) = I1 at i1 ⊢
  rw [real_inner_comm (w τ) (ρ τ)]
  generalize inner ℝ (w τ) (ρ τ) = I3
  generalize ‖w τ‖ = β at *
  have j1 : g τ * I1 ≤ g τ * (β * (B * x τ)) := mul_le_mul_of_nonneg_left i1 hg0.le
  have j2 : g τ * (β * (B * x τ)) ≤ g τ * ((β ^ 2 + (B * x τ) ^ 2) / 2) := mul_le_mul_of_nonneg_left (by nlinarith [sq_nonneg (β - B * x τ)]) hg0.le
  have j3 : g τ * β ^ 2 * (1 / 2) ≤ g τ * β ^ 2 * p τ := mul_le_mul_of_nonneg_left hp (by positivity)
  have j4 : g τ * (B * x τ) ^ 2 * (1 / 2) ≤ g τ * (B * x τ) ^ 2 * (1 - ε τ) := mul_le_mul_of_nonneg_left (by linarith) (by positivity)
  have j5 : 0 ≤ g τ * β ^ 2 := by positivity
  nlinarith

section
variable {S : Set ℝ} {δ : ℝ} {g g1 x ε z p p' : ℝ → ℝ} {ω2 γ : ℝ → ℝ} {R R1 R2 : ℝ → ℂ}

/-- The equation of a mode with pump field `z`. -/
structure IsMode (S : Set ℝ) (g g1 x ε p : ℝ → ℝ) (R R1 R2 : ℝ → ℂ) : Prop where
  twice : Twice S R R1 R2
  osc : ∀ τ ∈ S, oscillator (fun τ => (g τ * x τ) ^ 2) (fun τ => ((1 - ε τ + 2 * p τ) * g τ - g1 τ / g τ) / 2) R R1 R2 τ = 0

theorem IsMode.comb {F F1 F2 G G1 G2 : ℝ → ℂ} (hF : IsMode S g g1 x ε p F F1 F2) (hG : IsMode S g g1 x ε p G G1 G2) (a b : ℂ) :
    IsMode S g g1 x ε p (fun τ => a * F τ + b * G τ) (fun τ => a * F1 τ + b * G1 τ) (fun τ => a * F2 τ + b * G2 τ) := by
  refine ⟨⟨fun τ hτ => ((hF.twice.first τ hτ).const_mul _).fun_add ((hG.twice.first τ hτ).const_mul _),
      fun τ hτ => ((hF.twice.second τ hτ).const_mul _).fun_add ((hG.twice.second τ hτ).const_mul _)⟩, fun τ hτ => ?_⟩
  have h1 := hF.osc τ hτ
  have h2 := hG.osc τ hτ
  simp only [oscillator] at h1 h2 ⊢
  linear_combination a * h1 + b * h2

noncomputable def modeU (z : ℝ → ℝ) (R : ℝ → ℂ) (τ : ℝ) : ℂ := (z τ : ℂ) * R τ
noncomputable def modeD (g x z p : ℝ → ℝ) (R R1 : ℝ → ℂ) (τ : ℝ) : ℂ := ((z τ / g τ : ℝ) * R1 τ + ((p τ * z τ : ℝ) : ℂ) * R τ) / (x τ : ℂ)
noncomputable def modeW (g x : ℝ → ℝ) (R1 : ℝ → ℂ) (τ : ℝ) : ℂ := R1 τ / ((g τ * x τ : ℝ) : ℂ)

theorem modeU_deriv (c : Roll S δ g g1 x ε z p p') (h : IsMode S g g1 x ε p R R1 R2) {τ : ℝ} (hτ : τ ∈ S) :
    HasDerivAt (modeU z R) ((g τ * x τ) • modeD g x z p R R1 τ) τ := by
  have hx' : (x τ : ℂ) ≠ 0 := by exact_mod_cast (c.pos τ hτ).2.ne'
  have hg' : (g τ : ℂ) ≠ 0 := by exact_mod_cast (c.pos τ hτ).1.ne'
  refine ((c.hz τ hτ).2.ofReal_comp.fun_mul (h.twice.first τ hτ)).congr_deriv ?_
  rw [Complex.real_smul, modeD]
  push_cast
  field_simp
  ring

theorem modeD_deriv (c : Roll S δ g g1 x ε z p p') (h : IsMode S g g1 x ε p R R1 R2) {τ : ℝ} (hτ : τ ∈ S) :
    HasDerivAt (modeD g x z p R R1) ((g τ * (-x τ + (p τ ^ 2 + p' τ + (1 - ε τ) * p τ) / x τ)) • modeU z R τ) τ := by
  have hg0 := (c.pos τ hτ).1
  have hx0 := (c.pos τ hτ).2
  have hx' : (x τ : ℂ) ≠ 0 := by exact_mod_cast hx0.ne'
  have hg' : (g τ : ℂ) ≠ 0 := by exact_mod_cast hg0.ne'
  have ho := h.osc τ hτ
  simp only [oscillator] at ho
  push_cast at ho
  have h1 : HasDerivAt (fun τ => (((z τ / g τ : ℝ) : ℂ) * R1 τ + ((p τ * z τ : ℝ) : ℂ) * R τ) / (x τ : ℂ)) _ τ :=
    ((((c.hz τ hτ).2.fun_div (c.hg τ hτ) hg0.ne').ofReal_comp.fun_mul (h.twice.second τ hτ)).fun_add
      (((c.hp τ hτ).fun_mul (c.hz τ hτ).2).ofReal_comp.fun_mul (h.twice.first τ hτ))).fun_div (c.hx τ hτ).ofReal_comp hx'
  refine h1.congr_deriv ?_
  have e : R2 τ = -(2 * (((1 - (ε τ : ℂ) + 2 * p τ) * g τ - g1 τ / g τ) / 2) * R1 τ) - (g τ * x τ) ^ 2 * R τ := by
    linear_combination ho
  rw [Complex.real_smul, modeU, e]
  push_cast
  field_simp
  ring

theorem modeW_deriv (c : Roll S δ g g1 x ε z p p') (h : IsMode S g g1 x ε p R R1 R2) {τ : ℝ} (hτ : τ ∈ S) :
    HasDerivAt R ((g τ * x τ) • modeW g x R1 τ) τ ∧
      HasDerivAt (modeW g x R1) (-((2 * p τ * g τ) • modeW g x R1 τ) - (g τ * x τ) • R τ) τ := by
  have hg0 := (c.pos τ hτ).1
  have hx0 := (c.pos τ hτ).2
  have hx' : (x τ : ℂ) ≠ 0 := by exact_mod_cast hx0.ne'
  have hg' : (g τ : ℂ) ≠ 0 := by exact_mod_cast hg0.ne'
  have ho := h.osc τ hτ
  simp only [oscillator] at ho
  push_cast at ho
  constructor
  · refine (h.twice.first τ hτ).congr_deriv ?_
    rw [Complex.real_smul, modeW]
    push_cast
    field_simp
  · have h1 : HasDerivAt (fun τ => R1 τ / ((g τ * x τ : ℝ) : ℂ)) _ τ :=
      (h.twice.second τ hτ).fun_div ((c.hg τ hτ).fun_mul (c.hx τ hτ)).ofReal_comp (by push_cast; exact mul_ne_zero hg' hx')
    refine h1.congr_deriv ?_
    have e : R2 τ = -(2 * (((1 - (ε τ : ℂ) + 2 * p τ) * g τ - g1 τ / g τ) / 2) * R1 τ) - (g τ * x τ) ^ 2 * R τ := by
      linear_combination ho
    rw [Complex.real_smul, Complex.real_smul, modeW, e]
    push_cast
    field_simp
    ring

/-- `|Q - 2| ≤ 6 δ` -/
theorem Q_near {p p' ε δ : ℝ} (h1 : |p - 1| ≤ δ) (h2 : |p'| ≤ δ) (h3 : 0 ≤ ε) (h4 : ε ≤ δ) (hδ : δ ≤ 1 / 20) : |p ^ 2 + p' + (1 - ε) * p - 2| ≤ 6 * δ := by
  rw [abs_le] at *
  have hδ0 : 0 ≤ δ := by linarith
  constructor <;> nlinarith [mul_nonneg h3 hδ0, mul_nonneg hδ0 hδ0, mul_nonneg h3 (by linarith : 0 ≤ p), mul_nonneg h3 (by linarith : 0 ≤ p - 1 + δ), mul_nonneg h3 (by linarith : 0 ≤ δ - (p - 1)),
    mul_nonneg (by linarith : 0 ≤ p - 1 + δ) (by linarith : 0 ≤ δ - (p - 1))]

/-! ## The two phases -/

theorem Roll.x_antitone (c : Roll S δ g g1 x ε z p p') (hδ : δ ≤ 1 / 20) {a b : ℝ} (hab : Set.Icc a b ⊆ S) : AntitoneOn x (Set.Icc a b) :=
  antitone_of (fun t ht => c.hx t (hab ht)) fun t ht => by
    obtain ⟨h1, h2⟩ := c.pos t (hab ht)
    have := (c.hε t (hab ht)).2
    have : 0 ≤ (1 - ε t) * (g t * x t) := mul_nonneg (by linarith) (by positivity)
    linarith

/-- Later is where `x` is smaller. -/
theorem Roll.le_of_lt (c : Roll S δ g g1 x ε z p p') (hδ : δ ≤ 1 / 20) (hc : IsPreconnected S) {a b : ℝ} (ha : a ∈ S) (hb : b ∈ S) (h : x b < x a) : a ≤ b := by
  by_contra hn
  have hab : Set.Icc b a ⊆ S := hc.ordConnected.out hb ha
  have := c.x_antitone hδ hab ⟨le_rfl, (not_le.1 hn).le⟩ ⟨(not_le.1 hn).le, le_rfl⟩ (not_le.1 hn).le
  linarith

theorem exists_phase (hS : IsOpen S) (hc : IsPreconnected S) (c : Roll S δ g g1 x ε z p p') {T : ℝ} (hT : T ∈ S) :
    ∃ Θ : ℝ → ℝ, Θ T = x T ∧ ∀ τ ∈ S, HasDerivAt Θ (-(g τ * x τ)) τ := by
  refine ⟨fun t => x T + ∫ s in T..t, -(g s * x s), by simp, fun t ht => ?_⟩
  have hsub : Set.uIcc T t ⊆ S := hc.ordConnected.uIcc_subset hT ht
  have hc2 : ContinuousOn (fun s => -(g s * x s)) S := fun τ hτ =>
    ((c.hg τ hτ).continuousAt.mul (c.hx τ hτ).continuousAt).neg.continuousWithinAt
  have hi : IntervalIntegrable (fun s => -(g s * x s)) MeasureTheory.volume T t := (hc2.mono hsub).intervalIntegrable
  exact (intervalIntegral.integral_hasDerivAt_right hi (hc2.stronglyMeasurableAtFilter hS t ht) (hc2.continuousAt (hS.mem_nhds ht))).const_add (x T)

theorem phase_near (c : Roll S δ g g1 x ε z p p') (hδ0 : 0 ≤ δ) (hδ : δ ≤ 1 / 20) {T : ℝ} {Θ : ℝ → ℝ} (hΘT : Θ T = x T)
    (hΘ : ∀ τ ∈ S, HasDerivAt Θ (-(g τ * x τ)) τ) {τ : ℝ} (hτT : τ ≤ T) (hI : Set.Icc τ T ⊆ S) : x τ ≤ Θ τ ∧ Θ τ ≤ (1 + 2 * δ) * x τ := by
  have m1 : τ ∈ Set.Icc τ T := ⟨le_rfl, hτT⟩
  have m2 : T ∈ Set.Icc τ T := ⟨hτT, le_rfl⟩
  have h1 : AntitoneOn (fun t => Θ t - x t) (Set.Icc τ T) :=
    antitone_of (fun t ht => (hΘ t (hI ht)).fun_sub (c.hx t (hI ht))) fun t ht => by
      obtain ⟨a1, a2⟩ := c.pos t (hI ht)
      have := mul_nonneg (c.hε t (hI ht)).1 (mul_pos a1 a2).le
      linarith
  have h2 : AntitoneOn (fun t => (1 + 2 * δ) * x t - Θ t) (Set.Icc τ T) :=
    antitone_of (fun t ht => ((c.hx t (hI ht)).const_mul _).fun_sub (hΘ t (hI ht))) fun t ht => by
      obtain ⟨a1, a2⟩ := c.pos t (hI ht)
      obtain ⟨b1, b2⟩ := c.hε t (hI ht)
      have : 0 ≤ ((1 + 2 * δ) * (1 - ε t) - 1) * (g t * x t) := mul_nonneg (by nlinarith) (mul_pos a1 a2).le
      linarith
  have k1 := h1 m1 m2 hτT
  have k2 := h2 m1 m2 hτT
  have := (c.pos T (hI m2)).2
  dsimp only at k1 k2
  constructor
  · linarith
  · nlinarith

/-- The de Sitter mode function. -/
noncomputable def dsU (x Θ : ℝ → ℝ) (ζ : ℂ) (τ : ℝ) : ℂ := ζ * ((1 + Complex.I / x τ) * Complex.exp (Complex.I * Θ τ))
noncomputable def dsD (x Θ : ℝ → ℝ) (ζ : ℂ) (τ : ℝ) : ℂ := ζ * ((-Complex.I + 1 / x τ + Complex.I / x τ ^ 2) * Complex.exp (Complex.I * Θ τ))
noncomputable def dsY (Θ : ℝ → ℝ) (c : ℂ) (τ : ℝ) : ℂ := c * ((1 - Complex.I * Θ τ) * Complex.exp (Complex.I * Θ τ))
noncomputable def dsW (Θ : ℝ → ℝ) (c : ℂ) (τ : ℝ) : ℂ := c * (-(Θ τ : ℂ) * Complex.exp (Complex.I * Θ τ))

theorem exp_phase {Θ : ℝ → ℝ} {τ d : ℝ} (h : HasDerivAt Θ d τ) :
    HasDerivAt (fun τ => Complex.exp (Complex.I * Θ τ)) (Complex.exp (Complex.I * Θ τ) * (Complex.I * d)) τ :=
  (h.ofReal_comp.const_mul Complex.I).cexp

theorem ds_deriv (c : Roll S δ g g1 x ε z p p') {Θ : ℝ → ℝ} (hΘ : ∀ τ ∈ S, HasDerivAt Θ (-(g τ * x τ)) τ) (ζ : ℂ) (Q : ℝ) {τ : ℝ} (hτ : τ ∈ S) :
    HasDerivAt (dsU x Θ ζ) ((g τ * x τ) • dsD x Θ ζ τ - g τ • (ζ * (((ε τ : ℂ) * Complex.I / x τ) * Complex.exp (Complex.I * Θ τ)))) τ ∧
    HasDerivAt (dsD x Θ ζ) ((g τ * (-x τ + Q / x τ)) • dsU x Θ ζ τ
      - g τ • (ζ * ((((Q - 2 + ε τ : ℝ) : ℂ) / x τ + Complex.I * ((Q - 2 + 2 * ε τ : ℝ) : ℂ) / x τ ^ 2) * Complex.exp (Complex.I * Θ τ)))) τ := by
  have hx' : (x τ : ℂ) ≠ 0 := by exact_mod_cast (c.pos τ hτ).2.ne'
  have he := exp_phase (hΘ τ hτ)
  have hxc := (c.hx τ hτ).ofReal_comp
  have hi : HasDerivAt (fun τ => (1 : ℂ) / x τ) (((1 - ε τ) * g τ / x τ : ℝ) : ℂ) τ := by
    refine ((hasDerivAt_const τ (1:ℂ)).fun_div hxc hx').congr_deriv ?_
    push_cast
    field_simp
    ring
  have hi1 : HasDerivAt (fun τ => Complex.I / x τ) (Complex.I * (((1 - ε τ) * g τ / x τ : ℝ) : ℂ)) τ := by
    refine ((hasDerivAt_const τ (Complex.I:ℂ)).fun_div hxc hx').congr_deriv ?_
    push_cast
    field_simp
    ring
  have hi2 : HasDerivAt (fun τ => Complex.I / x τ ^ 2) (Complex.I * ((2 * (1 - ε τ) * g τ / x τ ^ 2 : ℝ) : ℂ)) τ := by
    refine ((hasDerivAt_const τ (Complex.I:ℂ)).fun_div (hxc.fun_pow 2) (pow_ne_zero 2 hx')).congr_deriv ?_
    push_cast
    field_simp
    ring
  constructor
  · have := (((hi1.const_add 1).fun_mul he).const_mul ζ)
    refine this.congr_deriv ?_
    simp only [Complex.real_smul, dsD]
    push_cast
    field_simp
    linear_combination (norm := skip) (0 : ℂ)
    ring_nf
    simp only [Complex.I_sq]
    ring
  · have := ((((hi.const_add (-Complex.I)).fun_add hi2).fun_mul he).const_mul ζ)
    refine this.congr_deriv ?_
    simp only [Complex.real_smul, dsU]
    push_cast
    field_simp
    ring_nf
    simp only [Complex.I_sq]
    ring

theorem dsY_deriv (c : Roll S δ g g1 x ε z p p') {Θ : ℝ → ℝ} (hΘ : ∀ τ ∈ S, HasDerivAt Θ (-(g τ * x τ)) τ) (ζ : ℂ) {τ : ℝ} (hτ : τ ∈ S) :
    HasDerivAt (dsY Θ ζ) ((g τ * x τ) • dsW Θ ζ τ) τ ∧
    HasDerivAt (dsW Θ ζ) (-((2 * p τ * g τ) • dsW Θ ζ τ) - (g τ * x τ) • dsY Θ ζ τ + g τ • (ζ * (2 * ((x τ - p τ * Θ τ : ℝ) : ℂ) * Complex.exp (Complex.I * Θ τ)))) τ := by
  have he := exp_phase (hΘ τ hτ)
  have hc := (hΘ τ hτ).ofReal_comp
  constructor
  · have := (((hc.const_mul Complex.I).const_sub 1).fun_mul he).const_mul ζ
    refine this.congr_deriv ?_
    simp only [Complex.real_smul, dsW]
    push_cast
    ring_nf
    simp only [Complex.I_sq]
    ring
  · have := ((hc.fun_neg).fun_mul he).const_mul ζ
    refine this.congr_deriv ?_
    simp only [Complex.real_smul, dsW, dsY]
    push_cast
    ring

theorem norm_phase (r : ℝ) : ‖Complex.exp (Complex.I * r)‖ = 1 := by rw [mul_comm]; exact Complex.norm_exp_ofReal_mul_I r

/-- What is left of the initial energy at horizon crossing. -/
theorem energy_le {E0 E1 K b x0 x1 : ℝ} (h : (E1 + 2 * b ^ 2) * exp (-(5 / x1)) ≤ (E0 + 2 * b ^ 2) * exp (-(5 / x0))) (hx : x1 = 1) (hx0 : 0 < x0)
    (hE : 0 ≤ E0) (hK : E0 + 2 * b ^ 2 ≤ K ^ 2) : E1 ≤ (exp (5 / 2) * K) ^ 2 := by
  rw [hx, div_one] at h
  have h1 : exp (-(5 / x0)) ≤ 1 := exp_le_one_iff.2 (by have : 0 < 5 / x0 := by positivity
                                                        linarith)
  have h2 : (E0 + 2 * b ^ 2) * exp (-(5 / x0)) ≤ (E0 + 2 * b ^ 2) * 1 := mul_le_mul_of_nonneg_left h1 (by positivity)
  have h3 : exp (-5) * exp (5 / 2) ^ 2 = 1 := by rw [← exp_nat_mul, ← exp_add]; norm_num
  have h4 : (E1 + 2 * b ^ 2) * exp (-5) * exp (5 / 2) ^ 2 ≤ K ^ 2 * exp (5 / 2) ^ 2 := mul_le_mul_of_nonneg_right (by linarith) (by positivity)
  rw [mul_assoc, h3] at h4
  nlinarith [sq_nonneg b]

theorem norm_le_of_sq {a b c : ℝ} (hc : 0 ≤ c) (hb : 0 ≤ b) (h : a ^ 2 + b ^ 2 ≤ c ^ 2) : a ≤ c := by nlinarith [sq_nonneg b, abs_le_of_sq_le_sq' (by nlinarith [sq_nonneg b] : a ^ 2 ≤ c ^ 2) hc |>.2]

theorem modeW_at (c : Roll S δ g g1 x ε z p p') (R R1 : ℝ → ℂ) {τ : ℝ} (hτ : τ ∈ S) (h1 : x τ = 1) :
    (z τ : ℂ) * modeW g x R1 τ = modeD g x z p R R1 τ - p τ * modeU z R τ := by
  have hg' : (g τ : ℂ) ≠ 0 := by exact_mod_cast (c.pos τ hτ).1.ne'
  rw [modeW, modeD, modeU, h1]
  push_cast
  field_simp
  ring

/-- Far outside the horizon a solution does not move. -/
theorem drift (hδ0 : 0 < δ) (hδ : δ ≤ 1 / 20) (hc : IsPreconnected S) (c : Roll S δ g g1 x ε z p p') (h : IsMode S g g1 x ε p R R1 R2)
    {ti t1 : ℝ} (hi : ti ∈ S) (hxi : 1 ≤ δ * x ti) (h1 : t1 ∈ S) (hx1 : x t1 = 1) {M : ℝ} (hM : 0 ≤ M)
    (hE : ‖modeU z R ti‖ ^ 2 + ‖modeD g x z p R R1 ti‖ ^ 2 ≤ M ^ 2) {τ T : ℝ} (hτ : τ ∈ S) (hτδ : x τ ≤ δ) (hT : T ∈ S) (hTδ : x T ≤ δ) :
    |z t1| * ‖R τ - R T‖ ≤ 8 * exp (5 / 2) * M * δ := by
  wlog hle : τ ≤ T generalizing τ T
  · rw [norm_sub_rev]
    exact this hT hTδ hτ hτδ (not_le.1 hle).le
  have hxi1 : 1 < x ti := by nlinarith
  have o1 : ti ≤ t1 := c.le_of_lt hδ hc hi h1 (by linarith)
  have o2 : t1 ≤ τ := c.le_of_lt hδ hc h1 hτ (by linarith)
  have s1 : Set.Icc ti t1 ⊆ S := hc.ordConnected.out hi h1
  have s2 : Set.Icc t1 T ⊆ S := hc.ordConnected.out h1 hT
  have anti := c.x_antitone hδ s1
  have hQ : ∀ t ∈ S, |p t ^ 2 + p' t + (1 - ε t) * p t - 2| ≤ 6 * δ := fun t ht => Q_near (c.small t ht).1 (c.small t ht).2 (c.hε t ht).1 (c.hε t ht).2 hδ
  have early := early_energy (b := 0) (A := modeU z R) (B := modeD g x z p R R1) (r1 := fun _ => 0) (r2 := fun _ => 0) (Q := fun t => p t ^ 2 + p' t + (1 - ε t) * p t) (fun t ht => c.pos t (s1 ht)) (fun t ht => c.hx t (s1 ht))
    (fun t ht => by have := (c.hε t (s1 ht)).2; linarith) (fun t ht => by have := abs_le.1 (hQ t (s1 ht)); constructor <;> linarith)
    (fun t ht => by rw [smul_zero, add_zero]; exact modeU_deriv c h (s1 ht)) (fun t ht => by rw [smul_zero, add_zero]; exact modeD_deriv c h (s1 ht))
    (fun t ht => by simp) (fun t ht => by simp)
  have e1 := early ⟨le_rfl, o1⟩ ⟨o1, le_rfl⟩ o1
  have E1 := energy_le e1 hx1 (c.pos ti hi).2 (by positivity) (by simpa using hE : _ ≤ M ^ 2)
  obtain ⟨K, hK⟩ : ∃ K, K = exp (5 / 2) * M := ⟨_, rfl⟩
  have hK0 : 0 ≤ K := by rw [hK]; positivity
  rw [← hK] at E1
  have nU : ‖modeU z R t1‖ ≤ K := norm_le_of_sq hK0 (norm_nonneg _) E1
  have nD : ‖modeD g x z p R R1 t1‖ ≤ K := norm_le_of_sq hK0 (norm_nonneg _) (by rw [add_comm]; exact E1)
  have hp1 := abs_le.1 (c.small t1 h1).1
  have nW : ‖(z t1 : ℂ) * modeW g x R1 t1‖ ≤ 3 * K := by
    rw [modeW_at c R R1 h1 hx1]
    refine (norm_sub_le _ _).trans ?_
    rw [norm_mul, Complex.norm_real, norm_of_nonneg (by linarith)]
    have : p t1 * ‖modeU z R t1‖ ≤ 2 * K := mul_le_mul (by linarith) nU (norm_nonneg _) (by norm_num)
    linarith
  have late := late_energy (B := 0) (p := p) (r := fun _ => 0) (ρ := fun t => (z t1 : ℂ) * R t) (w := fun t => (z t1 : ℂ) * modeW g x R1 t) (fun t ht => c.pos t (s2 ht)) (fun t ht => c.hx t (s2 ht))
    (fun t ht => by have := (c.hε t (s2 ht)).2; linarith) (fun t ht => by have := abs_le.1 (c.small t (s2 ht)).1; linarith)
    (fun t ht => by
      refine ((modeW_deriv c h (s2 ht)).1.const_mul (z t1 : ℂ)).congr_deriv ?_
      simp only [Complex.real_smul]; ring)
    (fun t ht => by
      refine ((modeW_deriv c h (s2 ht)).2.const_mul (z t1 : ℂ)).congr_deriv ?_
      simp only [Complex.real_smul]; push_cast; ring)
    (fun t ht => by simp)
  have hb : ∀ t ∈ Set.Icc t1 T, ‖(z t1 : ℂ) * modeW g x R1 t‖ ≤ 4 * K := fun t ht => by
    have := late ⟨le_rfl, o2.trans hle⟩ ht ht.1
    dsimp only at this
    have l1 : ‖(z t1 : ℂ) * R t1‖ ^ 2 ≤ K ^ 2 := pow_le_pow_left₀ (norm_nonneg _) nU 2
    have l2 : ‖(z t1 : ℂ) * modeW g x R1 t1‖ ^ 2 ≤ (3 * K) ^ 2 := pow_le_pow_left₀ (norm_nonneg _) nW 2
    refine norm_le_of_sq (by positivity) (norm_nonneg ((z t1 : ℂ) * R t)) ?_
    nlinarith
  have key := image_norm_le_of_norm_deriv_right_le_deriv_boundary' (f := fun t => (z t1 : ℂ) * R t - (z t1 : ℂ) * R τ) (f' := fun t => (z t1 : ℂ) * ((g t * x t) • modeW g x R1 t))
    (a := τ) (b := T) (B := fun t => 8 * K * (x τ - x t)) (B' := fun t => 8 * K * ((1 - ε t) * (g t * x t)))
    (fun t ht => (((modeW_deriv c h (s2 ⟨o2.trans ht.1, ht.2⟩)).1.const_mul (z t1 : ℂ)).sub_const _).continuousAt.continuousWithinAt)
    (fun t ht => (((modeW_deriv c h (s2 ⟨o2.trans ht.1, ht.2.le⟩)).1.const_mul (z t1 : ℂ)).sub_const _).hasDerivWithinAt)
    (by simp)
    (fun t ht => (((c.hx t (s2 ⟨o2.trans ht.1, ht.2⟩)).const_sub _).const_mul _).continuousAt.continuousWithinAt)
    (fun t ht => ((((c.hx t (s2 ⟨o2.trans ht.1, ht.2.le⟩)).const_sub _).const_mul _).congr_deriv (by ring)).hasDerivWithinAt)
    (fun t ht => by
      have m : t ∈ Set.Icc t1 T := ⟨o2.trans ht.1, ht.2.le⟩
      obtain ⟨a1, a2⟩ := c.pos t (s2 m)
      have hε := (c.hε t (s2 m)).2
      rw [Complex.real_smul, mul_left_comm, norm_mul, Complex.norm_real, norm_of_nonneg (mul_pos a1 a2).le]
      have b1 : g t * x t * ‖(z t1 : ℂ) * modeW g x R1 t‖ ≤ g t * x t * (4 * K) := mul_le_mul_of_nonneg_left (hb t m) (mul_pos a1 a2).le
      have b2 : g t * x t * (8 * K) * (1 / 2) ≤ g t * x t * (8 * K) * (1 - ε t) := mul_le_mul_of_nonneg_left (by linarith) (by positivity)
      linarith)
  have k := key (x := T) ⟨hle, le_rfl⟩
  rw [← mul_sub, norm_mul, Complex.norm_real, norm_sub_rev] at k
  rw [← norm_eq_abs]
  refine k.trans ?_
  have hxT := (c.pos T hT).2
  calc 8 * K * (x τ - x T) ≤ 8 * K * δ := mul_le_mul_of_nonneg_left (by linarith) (by positivity)
    _ = _ := by rw [hK]; ring

/-- The amplitude far outside the horizon of a mode that starts close to the de Sitter mode function. -/
theorem amplitude (hδ0 : 0 < δ) (hδ : δ ≤ 1 / 20) (hS : IsOpen S) (hc : IsPreconnected S) (c : Roll S δ g g1 x ε z p p') (h : IsMode S g g1 x ε p R R1 R2)
    {ti t1 : ℝ} (hi : ti ∈ S) (hxi : 1 ≤ δ * x ti) (h1 : t1 ∈ S) (hx1 : x t1 = 1)
    (hE : ‖modeU z R ti - (1 + Complex.I / x ti)‖ ^ 2 + ‖modeD g x z p R R1 ti - (-Complex.I + 1 / x ti + Complex.I / x ti ^ 2)‖ ^ 2 ≤ (10 * δ) ^ 2)
    {T : ℝ} (hT : T ∈ S) (hTδ : x T ≤ δ) : |(|z t1| * ‖R T‖) - 1| ≤ (100 * exp (5 / 2) + 14) * δ := by
  have hxi1 : 1 < x ti := by nlinarith
  have o1 : ti ≤ t1 := c.le_of_lt hδ hc hi h1 (by linarith)
  have o2 : t1 ≤ T := c.le_of_lt hδ hc h1 hT (by linarith)
  have s1 : Set.Icc ti t1 ⊆ S := hc.ordConnected.out hi h1
  have s2 : Set.Icc t1 T ⊆ S := hc.ordConnected.out h1 hT
  have anti := c.x_antitone hδ s1
  have hx1' : ∀ t ∈ Set.Icc ti t1, 1 ≤ x t := fun t ht => by
    have := anti ht ⟨o1, le_rfl⟩ ht.2
    linarith
  have hQ : ∀ t ∈ S, |p t ^ 2 + p' t + (1 - ε t) * p t - 2| ≤ 6 * δ := fun t ht => Q_near (c.small t ht).1 (c.small t ht).2 (c.hε t ht).1 (c.hε t ht).2 hδ
  obtain ⟨Θ, hΘT, hΘ⟩ := exists_phase hS hc c hT
  obtain ⟨ζ, hζ⟩ : ∃ ζ : ℂ, ζ = Complex.exp (Complex.I * ((-Θ ti : ℝ) : ℂ)) := ⟨_, rfl⟩
  have nζ : ‖ζ‖ = 1 := by rw [hζ]; exact norm_phase _
  have eζ : ζ * Complex.exp (Complex.I * Θ ti) = 1 := by
    rw [hζ, ← Complex.exp_add]; push_cast; rw [← mul_add, neg_add_cancel, mul_zero, Complex.exp_zero]
  have iU : dsU x Θ ζ ti = 1 + Complex.I / x ti := by
    rw [dsU]; linear_combination (1 + Complex.I / x ti) * eζ
  have iD : dsD x Θ ζ ti = -Complex.I + 1 / x ti + Complex.I / x ti ^ 2 := by
    rw [dsD]; linear_combination (-Complex.I + 1 / x ti + Complex.I / x ti ^ 2) * eζ
  have early := early_energy (b := 15 * δ) (A := fun t => modeU z R t - dsU x Θ ζ t) (B := fun t => modeD g x z p R R1 t - dsD x Θ ζ t)
    (Q := fun t => p t ^ 2 + p' t + (1 - ε t) * p t) (fun t ht => c.pos t (s1 ht)) (fun t ht => c.hx t (s1 ht))
    (fun t ht => by have := (c.hε t (s1 ht)).2; linarith) (fun t ht => by have := abs_le.1 (hQ t (s1 ht)); constructor <;> linarith)
    (fun t ht => ((modeU_deriv c h (s1 ht)).fun_sub (ds_deriv c hΘ ζ (p t ^ 2 + p' t + (1 - ε t) * p t) (s1 ht)).1).congr_deriv (by rw [smul_sub, sub_sub_eq_add_sub, add_sub_right_comm]))
    (fun t ht => ((modeD_deriv c h (s1 ht)).fun_sub (ds_deriv c hΘ ζ (p t ^ 2 + p' t + (1 - ε t) * p t) (s1 ht)).2).congr_deriv (by rw [smul_sub, sub_sub_eq_add_sub, add_sub_right_comm]))
    (fun t ht => by
      have hx0 := (c.pos t (s1 ht)).2
      obtain ⟨a1, a2⟩ := c.hε t (s1 ht)
      rw [norm_mul, norm_mul, nζ, norm_phase, norm_div, norm_mul, Complex.norm_I, Complex.norm_real, Complex.norm_real, norm_of_nonneg a1, norm_of_nonneg hx0.le, one_mul, mul_one, mul_one]
      exact div_le_div_of_nonneg_right (by linarith) hx0.le)
    (fun t ht => by
      have hx0 := (c.pos t (s1 ht)).2
      obtain ⟨a1, a2⟩ := c.hε t (s1 ht)
      have q := abs_le.1 (hQ t (s1 ht))
      rw [norm_mul, norm_mul, nζ, norm_phase, one_mul, mul_one]
      refine (norm_add_le _ _).trans ?_
      rw [norm_div, norm_div, norm_mul, Complex.norm_I, one_mul, Complex.norm_real, Complex.norm_real, norm_pow, Complex.norm_real, Complex.norm_real, norm_of_nonneg hx0.le, norm_eq_abs, norm_eq_abs]
      have b1 : |p t ^ 2 + p' t + (1 - ε t) * p t - 2 + ε t| ≤ 7 * δ := abs_le.2 ⟨by linarith, by linarith⟩
      have b2 : |p t ^ 2 + p' t + (1 - ε t) * p t - 2 + 2 * ε t| ≤ 8 * δ := abs_le.2 ⟨by linarith, by linarith⟩
      have b3 : |p t ^ 2 + p' t + (1 - ε t) * p t - 2 + ε t| / x t ≤ 7 * δ / x t := div_le_div_of_nonneg_right b1 hx0.le
      have b4 : |p t ^ 2 + p' t + (1 - ε t) * p t - 2 + 2 * ε t| / x t ^ 2 ≤ 8 * δ / x t :=
        div_le_div₀ (by positivity) b2 hx0 (by nlinarith [hx1' t ht])
      refine (add_le_add b3 b4).trans (le_of_eq ?_)
      ring)
  have e1 := early ⟨le_rfl, o1⟩ ⟨o1, le_rfl⟩ o1
  dsimp only at e1
  rw [iU, iD] at e1
  have E1 := energy_le e1 hx1 (c.pos ti hi).2 (by positivity) (show _ ≤ (25 * δ) ^ 2 by nlinarith [sq_nonneg δ])
  obtain ⟨K, hK⟩ : ∃ K, K = exp (5 / 2) * (25 * δ) := ⟨_, rfl⟩
  have hK0 : 0 ≤ K := by rw [hK]; positivity
  rw [← hK] at E1
  have nU : ‖modeU z R t1 - dsU x Θ ζ t1‖ ≤ K := norm_le_of_sq hK0 (norm_nonneg _) E1
  have nD : ‖modeD g x z p R R1 t1 - dsD x Θ ζ t1‖ ≤ K := norm_le_of_sq hK0 (norm_nonneg _) (by rw [add_comm]; exact E1)
  have hp1 := abs_le.1 (c.small t1 h1).1
  have hΘ1 := phase_near c hδ0.le hδ hΘT hΘ o2 s2
  rw [hx1] at hΘ1
  -- at horizon crossing
  have eU : dsU x Θ ζ t1 - dsY Θ (Complex.I * ζ) t1 = ζ * Complex.exp (Complex.I * Θ t1) * ((1 - Θ t1 : ℝ) : ℂ) := by
    rw [dsU, dsY, hx1]
    push_cast
    linear_combination (norm := ring_nf) (0 : ℂ)
    simp only [Complex.I_sq]
    ring
  have eW : dsD x Θ ζ t1 - p t1 * dsU x Θ ζ t1 - dsW Θ (Complex.I * ζ) t1 =
      ζ * Complex.exp (Complex.I * Θ t1) * (((1 - p t1 : ℝ) : ℂ) + Complex.I * ((Θ t1 - p t1 : ℝ) : ℂ)) := by
    rw [dsD, dsU, dsW, hx1]
    push_cast
    ring
  have nR : ‖(z t1 : ℂ) * R t1 - dsY Θ (Complex.I * ζ) t1‖ ≤ K + 2 * δ := by
    have : (z t1 : ℂ) * R t1 - dsY Θ (Complex.I * ζ) t1 = (modeU z R t1 - dsU x Θ ζ t1) + (dsU x Θ ζ t1 - dsY Θ (Complex.I * ζ) t1) := by
      rw [modeU]; ring
    rw [this]
    refine (norm_add_le _ _).trans (add_le_add nU ?_)
    rw [eU, norm_mul, norm_mul, nζ, norm_phase, one_mul, one_mul, Complex.norm_real, norm_eq_abs]
    exact abs_le.2 ⟨by linarith, by linarith⟩
  have nW : ‖(z t1 : ℂ) * modeW g x R1 t1 - dsW Θ (Complex.I * ζ) t1‖ ≤ 3 * K + 4 * δ := by
    have : (z t1 : ℂ) * modeW g x R1 t1 - dsW Θ (Complex.I * ζ) t1 = ((modeD g x z p R R1 t1 - dsD x Θ ζ t1) - p t1 * (modeU z R t1 - dsU x Θ ζ t1))
        + (dsD x Θ ζ t1 - p t1 * dsU x Θ ζ t1 - dsW Θ (Complex.I * ζ) t1) := by
      rw [modeW_at c R R1 h1 hx1]; ring
    rw [this]
    refine (norm_add_le _ _).trans (add_le_add ?_ ?_)
    · refine (norm_sub_le _ _).trans ?_
      rw [norm_mul, Complex.norm_real, norm_of_nonneg (by linarith)]
      have : p t1 * ‖modeU z R t1 - dsU x Θ ζ t1‖ ≤ 2 * K := mul_le_mul (by linarith) nU (norm_nonneg _) (by norm_num)
      linarith
    · rw [eW, norm_mul, norm_mul, nζ, norm_phase, one_mul, one_mul]
      refine (norm_add_le _ _).trans ?_
      rw [norm_mul, Complex.norm_I, one_mul, Complex.norm_real, Complex.norm_real, norm_eq_abs, norm_eq_abs]
      have b1 : |1 - p t1| ≤ δ := abs_le.2 ⟨by linarith, by linarith⟩
      have b2 : |Θ t1 - p t1| ≤ 3 * δ := abs_le.2 ⟨by linarith, by linarith⟩
      linarith
  have late := late_energy (B := 7 * δ) (p := p) (r := fun t => -(Complex.I * ζ * (2 * ((x t - p t * Θ t : ℝ) : ℂ) * Complex.exp (Complex.I * Θ t))))
    (ρ := fun t => (z t1 : ℂ) * R t - dsY Θ (Complex.I * ζ) t) (w := fun t => (z t1 : ℂ) * modeW g x R1 t - dsW Θ (Complex.I * ζ) t)
    (fun t ht => c.pos t (s2 ht)) (fun t ht => c.hx t (s2 ht))
    (fun t ht => by have := (c.hε t (s2 ht)).2; linarith) (fun t ht => by have := abs_le.1 (c.small t (s2 ht)).1; linarith)
    (fun t ht => by
      refine (((modeW_deriv c h (s2 ht)).1.const_mul (z t1 : ℂ)).fun_sub (dsY_deriv c hΘ (Complex.I * ζ) (s2 ht)).1).congr_deriv ?_
      simp only [Complex.real_smul]; ring)
    (fun t ht => by
      refine (((modeW_deriv c h (s2 ht)).2.const_mul (z t1 : ℂ)).fun_sub (dsY_deriv c hΘ (Complex.I * ζ) (s2 ht)).2).congr_deriv ?_
      simp only [Complex.real_smul]; push_cast; ring)
    (fun t ht => by
      have hx0 := (c.pos t (s2 ht)).2
      obtain ⟨f1, f2⟩ := phase_near c hδ0.le hδ hΘT hΘ ht.2 (fun s hs => s2 ⟨ht.1.trans hs.1, hs.2⟩)
      have hp := abs_le.1 (c.small t (s2 ht)).1
      have hδx : 0 < δ * x t := by positivity
      rw [norm_neg, norm_mul, norm_mul, norm_mul, norm_mul, nζ, norm_phase, Complex.norm_I, one_mul, one_mul, mul_one, Complex.norm_real, norm_eq_abs]
      have b : |x t - p t * Θ t| ≤ 7 / 2 * δ * x t := by
        have c1 : p t * Θ t ≤ (1 + δ) * ((1 + 2 * δ) * x t) := mul_le_mul (by linarith) f2 (by linarith) (by linarith)
        have c2 : (1 - δ) * x t ≤ p t * Θ t := mul_le_mul (by linarith) f1 hx0.le (by linarith)
        rw [abs_le]
        constructor <;> nlinarith
      simp only [Complex.norm_ofNat]
      linarith)
  have l := late ⟨le_rfl, o2⟩ ⟨o2, le_rfl⟩ o2
  dsimp only at l
  rw [hx1] at l
  have fin : ‖(z t1 : ℂ) * R T - dsY Θ (Complex.I * ζ) T‖ ≤ 4 * K + 13 * δ := by
    refine norm_le_of_sq (by positivity) (norm_nonneg ((z t1 : ℂ) * modeW g x R1 T - dsW Θ (Complex.I * ζ) T)) ?_
    have l1 := pow_le_pow_left₀ (norm_nonneg _) nR 2
    have l2 := pow_le_pow_left₀ (norm_nonneg _) nW 2
    have l3 : 0 ≤ (7 * δ) ^ 2 * x T ^ 2 := by positivity
    have l4 : 0 ≤ K * δ := by positivity
    have l5 : 0 ≤ K ^ 2 := sq_nonneg K
    have l6 : 0 ≤ δ ^ 2 := sq_nonneg δ
    linarith
  have nY : ‖dsY Θ (Complex.I * ζ) T - Complex.I * ζ * Complex.exp (Complex.I * Θ T)‖ ≤ δ := by
    have : dsY Θ (Complex.I * ζ) T - Complex.I * ζ * Complex.exp (Complex.I * Θ T) = -(Complex.I * ζ * Complex.I * Complex.exp (Complex.I * Θ T) * (Θ T : ℂ)) := by
      rw [dsY]; ring
    rw [this, norm_neg, norm_mul, norm_mul, norm_mul, norm_mul, nζ, norm_phase, Complex.norm_I, Complex.norm_real, hΘT, norm_of_nonneg (c.pos T hT).2.le]
    linarith
  have n1 : ‖Complex.I * ζ * Complex.exp (Complex.I * Θ T)‖ = 1 := by rw [norm_mul, norm_mul, nζ, norm_phase, Complex.norm_I]; norm_num
  have tri := norm_sub_le_norm_sub_add_norm_sub ((z t1 : ℂ) * R T) (dsY Θ (Complex.I * ζ) T) (Complex.I * ζ * Complex.exp (Complex.I * Θ T))
  have a := abs_norm_sub_norm_le ((z t1 : ℂ) * R T) (Complex.I * ζ * Complex.exp (Complex.I * Θ T))
  rw [n1, norm_mul, Complex.norm_real, norm_eq_abs] at a
  refine a.trans (tri.trans ?_)
  calc _ ≤ 4 * K + 13 * δ + δ := add_le_add fin nY
    _ = _ := by rw [hK]; ring

end

end SlowModes
end Primpy
