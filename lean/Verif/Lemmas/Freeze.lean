import Verif.Spec.Perturbations
import Mathlib.Analysis.InnerProductSpace.Calculus
import Mathlib.Analysis.Calculus.Deriv.MeanValue
import Mathlib.Analysis.Calculus.MeanValue
import Mathlib.Analysis.Complex.Basic
import Mathlib.Analysis.Calculus.Deriv.Inv

/-!
# Energy of an oscillator `f'' + 2 γ f' + κ² w f = 0`

`|f'|²/w + κ² |f|²` decreases when `4 γ + w'/w ≥ 0`, which bounds how far `f` can still drift.
-/

namespace Primpy
open Real Spec

/-- The energy `|f'|²/w + κ² |f|²`. -/
noncomputable def oscEnergy (κ2 : ℝ) (w : ℝ → ℝ) (f f1 : ℝ → ℂ) (t : ℝ) : ℝ := ‖f1 t‖ ^ 2 / w t + κ2 * ‖f t‖ ^ 2

theorem oscEnergy_nonneg {κ2 : ℝ} (hκ : 0 ≤ κ2) {w : ℝ → ℝ} {f f1 : ℝ → ℂ} {t : ℝ} (hw : 0 < w t) : 0 ≤ oscEnergy κ2 w f f1 t := by
  unfold oscEnergy; positivity

theorem hasDerivAt_oscEnergy {κ2 : ℝ} {w γ : ℝ → ℝ} {w' : ℝ} {f f1 f2 : ℝ → ℂ} {t : ℝ} (hw : 0 < w t) (hw' : HasDerivAt w w' t)
    (h1 : HasDerivAt f (f1 t) t) (h2 : HasDerivAt f1 (f2 t) t) (ho : oscillator (fun t => κ2 * w t) γ f f1 f2 t = 0) :
    HasDerivAt (oscEnergy κ2 w f f1) (-((4 * γ t + w' / w t) * (‖f1 t‖ ^ 2 / w t))) t := by
  have hf2 : f2 t = -((2 * γ t : ℝ) • f1 t) - (κ2 * w t : ℝ) • f t := by
    simp only [oscillator] at ho
    simp only [Complex.real_smul]
    push_cast at ho ⊢
    linear_combination ho
  have n1 : HasDerivAt (fun t => ‖f t‖ ^ 2) (2 * inner ℝ (f t) (f1 t)) t := h1.norm_sq
  have n2 : HasDerivAt (fun t => ‖f1 t‖ ^ 2) (2 * inner ℝ (f1 t) (f2 t)) t := h2.norm_sq
  have hE : HasDerivAt (oscEnergy κ2 w f f1) _ t := (n2.fun_div hw' hw.ne').fun_add (n1.const_mul κ2)
  refine hE.congr_deriv ?_
  rw [hf2, inner_sub_right, inner_neg_right, inner_smul_right, inner_smul_right, real_inner_self_eq_norm_sq,
    real_inner_comm (f t) (f1 t)]
  field_simp
  ring

theorem oscEnergy_antitone {κ2 : ℝ} {w γ w' : ℝ → ℝ} {f f1 f2 : ℝ → ℂ} {t1 t2 : ℝ}
    (hw : ∀ t ∈ Set.Icc t1 t2, 0 < w t) (hw' : ∀ t ∈ Set.Icc t1 t2, HasDerivAt w (w' t) t)
    (hf : Twice (Set.Icc t1 t2) f f1 f2) (ho : ∀ t ∈ Set.Icc t1 t2, oscillator (fun t => κ2 * w t) γ f f1 f2 t = 0)
    (hγ : ∀ t ∈ Set.Icc t1 t2, 0 ≤ 4 * γ t + w' t / w t) : AntitoneOn (oscEnergy κ2 w f f1) (Set.Icc t1 t2) := by
  have hE : ∀ t ∈ Set.Icc t1 t2, HasDerivAt (oscEnergy κ2 w f f1) (-((4 * γ t + w' t / w t) * (‖f1 t‖ ^ 2 / w t))) t := fun t ht =>
    hasDerivAt_oscEnergy (hw t ht) (hw' t ht) (hf.first t ht) (hf.second t ht) (ho t ht)
  refine antitoneOn_of_deriv_nonpos (convex_Icc _ _) (fun t ht => (hE t ht).continuousAt.continuousWithinAt)
    (fun t ht => (hE t (interior_subset ht)).differentiableAt.differentiableWithinAt) fun t ht => ?_
  rw [(hE t (interior_subset ht)).deriv]
  have h1 := hγ t (interior_subset ht)
  have h2 := hw t (interior_subset ht)
  have : 0 ≤ (4 * γ t + w' t / w t) * (‖f1 t‖ ^ 2 / w t) := by positivity
  linarith

/-- The drift of a damped oscillator. -/
theorem osc_drift {κ2 : ℝ} (hκ : 0 ≤ κ2) {w γ w' η η' : ℝ → ℝ} {f f1 f2 : ℝ → ℂ} {t1 t2 : ℝ} (h12 : t1 ≤ t2)
    (hw : ∀ t ∈ Set.Icc t1 t2, 0 < w t) (hw' : ∀ t ∈ Set.Icc t1 t2, HasDerivAt w (w' t) t)
    (hf : Twice (Set.Icc t1 t2) f f1 f2) (ho : ∀ t ∈ Set.Icc t1 t2, oscillator (fun t => κ2 * w t) γ f f1 f2 t = 0)
    (hγ : ∀ t ∈ Set.Icc t1 t2, 0 ≤ 4 * γ t + w' t / w t)
    (hη : ∀ t ∈ Set.Icc t1 t2, HasDerivAt η (η' t) t) (hη' : ∀ t ∈ Set.Icc t1 t2, √(w t) ≤ η' t) :
    ‖f t2 - f t1‖ ≤ √(oscEnergy κ2 w f f1 t1) * (η t2 - η t1) := by
  have hm1 : t1 ∈ Set.Icc t1 t2 := ⟨le_rfl, h12⟩
  have hm2 : t2 ∈ Set.Icc t1 t2 := ⟨h12, le_rfl⟩
  have hanti := oscEnergy_antitone hw hw' hf ho hγ
  have hE1 : 0 ≤ oscEnergy κ2 w f f1 t1 := oscEnergy_nonneg hκ (hw t1 hm1)
  have hb : ∀ t ∈ Set.Icc t1 t2, ‖f1 t‖ ≤ √(oscEnergy κ2 w f f1 t1) * η' t := by
    intro t ht
    have hwt := hw t ht
    have h1 : ‖f1 t‖ ^ 2 / w t ≤ oscEnergy κ2 w f f1 t1 := by
      have := hanti hm1 ht ht.1
      unfold oscEnergy at this ⊢
      have h0 : 0 ≤ κ2 * ‖f t‖ ^ 2 := by positivity
      linarith
    rw [div_le_iff₀ hwt] at h1
    calc ‖f1 t‖ = √(‖f1 t‖ ^ 2) := (sqrt_sq (norm_nonneg _)).symm
      _ ≤ √(oscEnergy κ2 w f f1 t1 * w t) := sqrt_le_sqrt h1
      _ = √(oscEnergy κ2 w f f1 t1) * √(w t) := sqrt_mul hE1 _
      _ ≤ _ := mul_le_mul_of_nonneg_left (hη' t ht) (sqrt_nonneg _)
  have key := image_norm_le_of_norm_deriv_right_le_deriv_boundary' (f := fun t => f t - f t1) (f' := f1)
    (a := t1) (b := t2) (B := fun t => √(oscEnergy κ2 w f f1 t1) * (η t - η t1)) (B' := fun t => √(oscEnergy κ2 w f f1 t1) * η' t)
    (fun t ht => ((hf.first t ht).sub_const _).continuousAt.continuousWithinAt)
    (fun t ht => ((hf.first t ⟨ht.1, ht.2.le⟩).sub_const _).hasDerivWithinAt)
    (by simp)
    (fun t ht => (((hη t ht).sub_const _).const_mul _).continuousAt.continuousWithinAt)
    (fun t ht => (((hη t ⟨ht.1, ht.2.le⟩).sub_const _).const_mul _).hasDerivWithinAt)
    (fun t ht => hb t ⟨ht.1, ht.2.le⟩)
  exact key hm2

end Primpy
