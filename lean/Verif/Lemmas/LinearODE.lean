import Mathlib.Analysis.ODE.ExistUnique
import Mathlib.Analysis.SpecialFunctions.ExpDeriv
import Mathlib.Analysis.Calculus.Deriv.MeanValue

/-!
# Existence of solutions of `f'' + 2 g f' + w f = 0` on a whole interval
-/

namespace Primpy.LinearODE
open Real Set
open scoped NNReal

/-- cut off at `±R` -/
noncomputable def cl (R x : ℝ) : ℝ := max (-R) (min x R)

theorem cl_le {R : ℝ} (hR : 0 ≤ R) (x : ℝ) : |cl R x| ≤ R := by
  unfold cl
  exact abs_le.2 ⟨le_max_left _ _, max_le (by linarith) (min_le_right _ _)⟩

theorem cl_abs {R : ℝ} (hR : 0 ≤ R) (x : ℝ) : |cl R x| ≤ |x| := by
  unfold cl
  refine abs_le.2 ⟨?_, max_le (by linarith [abs_nonneg x]) ((min_le_left _ _).trans (le_abs_self x))⟩
  have : -|x| ≤ min x R := le_min (neg_abs_le x) (by linarith [abs_nonneg x])
  exact this.trans (le_max_right _ _)

theorem cl_id {R x : ℝ} (h : |x| ≤ R) : cl R x = x := by
  have h := abs_le.1 h
  unfold cl
  rw [min_eq_left h.2, max_eq_right h.1]

theorem cl_lip (R x y : ℝ) : |cl R x - cl R y| ≤ |x - y| := by
  unfold cl
  rw [max_comm, max_comm (-R)]
  exact (abs_max_sub_max_le_abs _ _ _).trans (by
    have := abs_min_sub_min_le_max x R y R
    rw [sub_self, abs_zero, max_eq_left (abs_nonneg _)] at this
    exact this)

/-- the energy grows at most exponentially, forwards and backwards -/
theorem energy {c d x0 M : ℝ} (hM : 0 ≤ M) (h0 : x0 ∈ Icc c d) {E E' : ℝ → ℝ} (hc : ContinuousOn E (Icc c d)) (hd : ∀ t ∈ Ioo c d, HasDerivAt E (E' t) t)
    (hE : ∀ t ∈ Ioo c d, |E' t| ≤ M * E t) (hpos : ∀ t, 0 ≤ E t) : ∀ t ∈ Icc c d, E t ≤ E x0 * exp (M * (d - c)) := by
  intro t ht
  have hexp : ∀ s : ℝ, s ≤ d - c → E x0 * exp (M * s) ≤ E x0 * exp (M * (d - c)) := fun s hs =>
    mul_le_mul_of_nonneg_left (exp_le_exp.2 (mul_le_mul_of_nonneg_left hs hM)) (hpos x0)
  have hexp2 : ∀ K t : ℝ, HasDerivAt (fun t => exp (K * t)) (K * exp (K * t)) t := fun K t =>
    (((hasDerivAt_id t).const_mul K).exp).congr_deriv (by simp only [id]; ring)
  rcases le_total x0 t with h | h
  · have hanti : AntitoneOn (fun t => E t * exp (-M * t)) (Icc c d) := by
      refine antitoneOn_of_hasDerivWithinAt_nonpos (convex_Icc c d) (hc.mul (by fun_prop)) (f' := fun t => (E' t - M * E t) * exp (-M * t)) ?_ ?_
      · intro s hs
        rw [interior_Icc] at hs
        exact (((hd s hs).mul (hexp2 (-M) s)).congr_deriv (by ring)).hasDerivWithinAt
      · intro s hs
        rw [interior_Icc] at hs
        have := (abs_le.1 (hE s hs)).2
        exact mul_nonpos_of_nonpos_of_nonneg (by linarith) (exp_pos _).le
    have := hanti h0 ht h
    dsimp only at this
    refine le_trans ?_ (hexp (t - x0) (by linarith [h0.1, ht.2]))
    have e : exp (M * (t - x0)) = exp (-M * x0) * exp (M * t) := by rw [← exp_add]; congr 1; ring
    have e2 : exp (-M * t) * exp (M * t) = 1 := by rw [← exp_add, neg_mul, neg_add_cancel, exp_zero]
    rw [e, ← mul_assoc]
    calc E t = E t * exp (-M * t) * exp (M * t) := by rw [mul_assoc, e2, mul_one]
      _ ≤ _ := mul_le_mul_of_nonneg_right this (exp_pos _).le
  · have hmono : MonotoneOn (fun t => E t * exp (M * t)) (Icc c d) := by
      refine monotoneOn_of_hasDerivWithinAt_nonneg (convex_Icc c d) (hc.mul (by fun_prop)) (f' := fun t => (E' t + M * E t) * exp (M * t)) ?_ ?_
      · intro s hs
        rw [interior_Icc] at hs
        exact (((hd s hs).mul (hexp2 M s)).congr_deriv (by ring)).hasDerivWithinAt
      · intro s hs
        rw [interior_Icc] at hs
        have := (abs_le.1 (hE s hs)).1
        exact mul_nonneg (by linarith) (exp_pos _).le
    have := hmono ht h0 h
    dsimp only at this
    refine le_trans ?_ (hexp (x0 - t) (by linarith [h0.2, ht.1]))
    have e : exp (M * (x0 - t)) = exp (M * x0) * exp (-M * t) := by rw [← exp_add]; congr 1; ring
    have e2 : exp (M * t) * exp (-M * t) = 1 := by rw [← exp_add, neg_mul, add_neg_cancel, exp_zero]
    rw [e, ← mul_assoc]
    calc E t = E t * exp (M * t) * exp (-M * t) := by rw [mul_assoc, e2, mul_one]
      _ ≤ _ := mul_le_mul_of_nonneg_right this (exp_pos _).le

/-- **Existence.**  Continuous coefficients on a compact interval, any data at any point of it. -/
theorem exists_solution {c d x0 : ℝ} (h0 : x0 ∈ Icc c d) {w g : ℝ → ℝ} (hw : ContinuousOn w (Icc c d)) (hg : ContinuousOn g (Icc c d)) (a0 a1 : ℝ) :
    ∃ f f1 : ℝ → ℝ, f x0 = a0 ∧ f1 x0 = a1 ∧ ∀ t ∈ Ioo c d, HasDerivAt f (f1 t) t ∧ HasDerivAt f1 (-(w t * f t + 2 * g t * f1 t)) t := by
  obtain ⟨M1, hM1⟩ := isCompact_Icc.exists_bound_of_continuousOn hw
  obtain ⟨M2, hM2⟩ := isCompact_Icc.exists_bound_of_continuousOn hg
  obtain ⟨M, hM⟩ : ∃ M, M = max 1 (max M1 (2 * M2)) := ⟨_, rfl⟩
  have hM0 : 1 ≤ M := by rw [hM]; exact le_max_left _ _
  have hwM : ∀ t ∈ Icc c d, |w t| ≤ M := fun t ht => (hM1 t ht).trans (by rw [hM]; exact (le_max_left _ _).trans (le_max_right _ _))
  have hgM : ∀ t ∈ Icc c d, |2 * g t| ≤ M := fun t ht => by
    have := hM2 t ht
    rw [Real.norm_eq_abs] at this
    rw [abs_mul, abs_two]
    have h2 : 2 * M2 ≤ M := by rw [hM]; exact (le_max_right _ _).trans (le_max_right _ _)
    linarith
  obtain ⟨E0, hE0⟩ : ∃ E0, E0 = (a0 ^ 2 + a1 ^ 2) * exp (4 * M * (d - c)) := ⟨_, rfl⟩
  have hE0' : 0 ≤ E0 := by rw [hE0]; positivity
  obtain ⟨R, hR⟩ : ∃ R, R = √E0 := ⟨_, rfl⟩
  have hR0 : 0 ≤ R := by rw [hR]; exact sqrt_nonneg _
  have hRs : R ^ 2 = E0 := by rw [hR]; exact sq_sqrt hE0'
  obtain ⟨F, hF⟩ : ∃ F : ℝ → ℝ × ℝ → ℝ × ℝ, F = fun t x => (cl R x.2, -(w t * cl R x.1 + 2 * g t * cl R x.2)) := ⟨_, rfl⟩
  have hcd : c ≤ d := h0.1.trans h0.2
  have hdc : 0 ≤ d - c := by linarith
  have hpl : IsPicardLindelof F (tmin := c) (tmax := d) ⟨x0, h0⟩ (a0, a1) (Real.toNNReal (2 * M * R * (d - c))) 0 (Real.toNNReal (2 * M * R)) (Real.toNNReal (2 * M)) := by
    refine ⟨fun t ht => ?_, fun x _ => ?_, fun t ht x _ => ?_, ?_⟩
    · refine LipschitzWith.lipschitzOnWith (LipschitzWith.of_dist_le_mul fun x y => ?_)
      rw [Real.coe_toNNReal _ (by linarith), dist_eq_norm, dist_eq_norm]
      have n1 : |x.1 - y.1| ≤ ‖x - y‖ := (norm_fst_le (x - y))
      have n2 : |x.2 - y.2| ≤ ‖x - y‖ := (norm_snd_le (x - y))
      have k1 := (cl_lip R x.1 y.1).trans n1
      have k2 := (cl_lip R x.2 y.2).trans n2
      have nn := norm_nonneg (x - y)
      rw [hF]
      refine (norm_prod_le_iff).2 ⟨?_, ?_⟩
      · show |cl R x.2 - cl R y.2| ≤ _
        have : ‖x - y‖ ≤ 2 * M * ‖x - y‖ := le_mul_of_one_le_left nn (by linarith)
        linarith
      · show |-(w t * cl R x.1 + 2 * g t * cl R x.2) - -(w t * cl R y.1 + 2 * g t * cl R y.2)| ≤ _
        rw [show -(w t * cl R x.1 + 2 * g t * cl R x.2) - -(w t * cl R y.1 + 2 * g t * cl R y.2) = -(w t * (cl R x.1 - cl R y.1) + 2 * g t * (cl R x.2 - cl R y.2)) by ring, abs_neg]
        refine (abs_add_le _ _).trans ?_
        rw [abs_mul, abs_mul]
        have m1 := mul_le_mul (hwM t ht) k1 (abs_nonneg _) (by linarith)
        have m2 := mul_le_mul (hgM t ht) k2 (abs_nonneg _) (by linarith)
        linarith
    · rw [hF]
      exact continuousOn_const.prodMk (((hw.mul continuousOn_const).add ((continuousOn_const.mul hg).mul continuousOn_const)).neg)
    · rw [Real.coe_toNNReal _ (by positivity), hF]
      have c1 := cl_le hR0 x.1
      have c2 := cl_le hR0 x.2
      refine norm_prod_le_iff.2 ⟨?_, ?_⟩
      · show |cl R x.2| ≤ _
        nlinarith
      · show |-(w t * cl R x.1 + 2 * g t * cl R x.2)| ≤ _
        rw [abs_neg]
        refine (abs_add_le _ _).trans ?_
        rw [abs_mul, abs_mul]
        have m1 := mul_le_mul (hwM t ht) c1 (abs_nonneg _) (by linarith)
        have m2 := mul_le_mul (hgM t ht) c2 (abs_nonneg _) (by linarith)
        linarith
    · rw [Real.coe_toNNReal _ (by positivity), Real.coe_toNNReal _ (by positivity), NNReal.coe_zero, sub_zero]
      exact mul_le_mul_of_nonneg_left (max_le (by show d - x0 ≤ _; linarith [h0.1]) (by show x0 - c ≤ _; linarith [h0.2])) (by positivity)
  obtain ⟨α, hα0, hα⟩ := hpl.exists_eq_forall_mem_Icc_hasDerivWithinAt₀
  have hα0 : α x0 = (a0, a1) := hα0
  have hcont : ContinuousOn α (Icc c d) := fun t ht => (hα t ht).continuousWithinAt
  have hd : ∀ t ∈ Ioo c d, HasDerivAt α (F t (α t)) t := fun t ht => (hα t ⟨ht.1.le, ht.2.le⟩).hasDerivAt (Icc_mem_nhds ht.1 ht.2)
  have hd1 : ∀ t ∈ Ioo c d, HasDerivAt (fun t => (α t).1) (cl R (α t).2) t := fun t ht => by
    have := (hd t ht).fst
    rw [hF] at this
    exact this
  have hd2 : ∀ t ∈ Ioo c d, HasDerivAt (fun t => (α t).2) (-(w t * cl R (α t).1 + 2 * g t * cl R (α t).2)) t := fun t ht => by
    have := (hd t ht).snd
    rw [hF] at this
    exact this
  have hbound := energy (M := 4 * M) (by linarith) h0 (E := fun t => (α t).1 ^ 2 + (α t).2 ^ 2)
    (E' := fun t => 2 * (α t).1 * cl R (α t).2 + 2 * (α t).2 * -(w t * cl R (α t).1 + 2 * g t * cl R (α t).2))
    ((hcont.fst.pow 2).add (hcont.snd.pow 2)) (fun t ht => (((hd1 t ht).fun_pow 2).fun_add ((hd2 t ht).fun_pow 2)).congr_deriv (by push_cast; ring)) (fun t ht => by
      have ht' : t ∈ Icc c d := ⟨ht.1.le, ht.2.le⟩
      obtain ⟨x, hx⟩ : ∃ x, x = (α t).1 := ⟨_, rfl⟩
      obtain ⟨y, hy⟩ : ∃ y, y = (α t).2 := ⟨_, rfl⟩
      simp only [← hx, ← hy]
      have c1 := cl_abs hR0 x
      have c2 := cl_abs hR0 y
      have s1 : |2 * x * cl R y| ≤ 2 * (|x| * |y|) := by
        rw [abs_mul, abs_mul, abs_two]; nlinarith [abs_nonneg x]
      have s2 : |w t * cl R x + 2 * g t * cl R y| ≤ M * |x| + M * |y| := by
        refine (abs_add_le _ _).trans ?_
        rw [abs_mul, abs_mul]
        have m1 := mul_le_mul (hwM t ht') c1 (abs_nonneg _) (by linarith)
        have m2 := mul_le_mul (hgM t ht') c2 (abs_nonneg _) (by linarith)
        linarith
      have s3 : |2 * y * -(w t * cl R x + 2 * g t * cl R y)| ≤ 2 * |y| * (M * |x| + M * |y|) := by
        rw [abs_mul, abs_neg, abs_mul, abs_two]
        exact mul_le_mul_of_nonneg_left s2 (by positivity)
      refine (abs_add_le _ _).trans ((add_le_add s1 s3).trans ?_)
      have q1 := sq_abs x
      have q2 := sq_abs y
      have ax := abs_nonneg x
      have ay := abs_nonneg y
      rw [← q1, ← q2]
      have p1 : 2 * (|x| * |y|) ≤ |x| ^ 2 + |y| ^ 2 := by nlinarith [sq_nonneg (|x| - |y|)]
      have p2 : M * (2 * (|x| * |y|)) ≤ M * (|x| ^ 2 + |y| ^ 2) := mul_le_mul_of_nonneg_left p1 (by linarith)
      have p3 : |x| ^ 2 + |y| ^ 2 ≤ M * (|x| ^ 2 + |y| ^ 2) := le_mul_of_one_le_left (by positivity) hM0
      have p4 : 0 ≤ M * |x| ^ 2 := by positivity
      linarith) (fun t => by positivity)
  have hin : ∀ t ∈ Icc c d, |(α t).1| ≤ R ∧ |(α t).2| ≤ R := fun t ht => by
    have := hbound t ht
    simp only [hα0] at this
    rw [← hE0, ← hRs] at this
    exact ⟨abs_le_of_sq_le_sq (by nlinarith [sq_nonneg (α t).2]) hR0, abs_le_of_sq_le_sq (by nlinarith [sq_nonneg (α t).1]) hR0⟩
  refine ⟨fun t => (α t).1, fun t => (α t).2, congrArg Prod.fst hα0, congrArg Prod.snd hα0, fun t ht => ?_⟩
  obtain ⟨i1, i2⟩ := hin t ⟨ht.1.le, ht.2.le⟩
  have e1 := hd1 t ht
  have e2 := hd2 t ht
  rw [cl_id i2] at e1 e2
  rw [cl_id i1] at e2
  exact ⟨e1, e2⟩

end Primpy.LinearODE
