import Verif.Props.C84
import Verif.Props.C29
import Verif.Props.C19
import Verif.Props.C03
import Verif.Props.C76
import Mathlib.Analysis.Calculus.MeanValue

/-!
# C85: slow-roll conditions on the potential make the integrated background roll slowly
-/

namespace Primpy
open Real Spec Set

section
variable {S : Set ℝ} {δ n0 : ℝ} {g Q H L μ : ℝ → ℝ}

/-- The deviation `w = Q/Λ - 1` of the velocity `Q = dφ/dN` from its slow-roll value `Λ = -V'/V` stays small. -/
theorem slowroll_core (hδ0 : 0 < δ) (hδ : δ ≤ 1 / 20) (hS : IsOpen S) (hc : S.OrdConnected) (hn0 : n0 ∈ S) (hg : ∀ n ∈ S, 0 < g n)
    (hL : ∀ n ∈ S, HasDerivAt L (g n * (μ n * Q n)) n) (hQ : ∀ n ∈ S, HasDerivAt Q (g n * (-((3 - Q n ^ 2 / 2) * (Q n - L n)))) n)
    (hH : ∀ n ∈ S, 0 < H n ∧ HasDerivAt H (-(g n * (Q n ^ 2 / 2) * H n)) n) (hL0 : ∀ n ∈ S, L n ≠ 0 ∧ L n ^ 2 ≤ δ / 8) (hμ : ∀ n ∈ S, |μ n| ≤ δ / 32)
    (h0 : |Q n0 / L n0 - 1| < δ / 32) :
    ∃ η > 0, (∀ n ∈ S, n0 - η < n → |Q n / L n - 1| ≤ δ / 32) ∧
      IsSlowRoll δ (S ∩ Ioi (n0 - η)) g H (fun n => Q n ^ 2 / 2) (fun n => -(2 * (3 - Q n ^ 2 / 2) * (1 - L n / Q n)))
        (fun n => Q n ^ 2 / 2 * (-(2 * (3 - Q n ^ 2 / 2) * (1 - L n / Q n))) * (2 * (1 - L n / Q n)) +
          2 * (3 - Q n ^ 2 / 2) * (μ n + L n / Q n * ((3 - Q n ^ 2 / 2) * (1 - L n / Q n)))) := by
  have hw : ∀ n ∈ S, HasDerivAt (fun n => Q n / L n - 1) (g n * (-((3 - Q n ^ 2 / 2) * (Q n / L n - 1)) - (1 + (Q n / L n - 1)) ^ 2 * μ n)) n := fun n hn => by
    have h := (hL0 n hn).1
    refine (((hQ n hn).fun_div (hL n hn) h).sub_const 1).congr_deriv ?_
    field_simp
    ring
  -- later
  have late : ∀ n ∈ S, n0 ≤ n → |Q n / L n - 1| ≤ δ / 32 := by
    intro n hn hle
    have hsub : Icc n0 n ⊆ S := hc.out hn0 hn
    have key := image_le_of_deriv_right_lt_deriv_boundary' (f := fun n => (Q n / L n - 1) ^ 2) (a := n0) (b := n)
      (f' := fun n => 2 * (Q n / L n - 1) * (g n * (-((3 - Q n ^ 2 / 2) * (Q n / L n - 1)) - (1 + (Q n / L n - 1)) ^ 2 * μ n)))
      (B := fun _ => (δ / 32) ^ 2) (B' := fun _ => 0)
      (fun x hx => ((hw x (hsub hx)).fun_pow 2).continuousAt.continuousWithinAt)
      (fun x hx => (((hw x (hsub (Ico_subset_Icc_self hx))).fun_pow 2).congr_deriv (by push_cast; ring)).hasDerivWithinAt)
      (by have := sq_lt_sq' (by linarith [(abs_lt.1 h0).1]) (abs_lt.1 h0).2
          exact this.le) continuousOn_const
      (fun x hx => hasDerivWithinAt_const _ _ _)
      (fun x hx he => by
        have hxS := hsub (Ico_subset_Icc_self hx)
        obtain ⟨l1, l2⟩ := hL0 x hxS
        have gx := hg x hxS
        have m := abs_le.1 (hμ x hxS)
        obtain ⟨w, hwd⟩ : ∃ w, w = Q x / L x - 1 := ⟨_, rfl⟩
        have hQw : Q x = (1 + w) * L x := by rw [hwd]; field_simp; ring
        have he' : w ^ 2 = (δ / 32) ^ 2 := by rw [hwd]; exact he
        have hcs : w = δ / 32 ∨ w = -(δ / 32) := sq_eq_sq_iff_eq_or_eq_neg.1 he'
        rw [← hwd]
        have e2 : Q x ^ 2 / 2 ≤ 1 := by
          rw [hQw, mul_pow]
          have : (1 + w) ^ 2 ≤ 2 := by rcases hcs with h | h <;> rw [h] <;> nlinarith
          nlinarith [sq_nonneg (L x), sq_nonneg (1 + w)]
        have e1 := sq_nonneg (Q x)
        generalize Q x ^ 2 / 2 = E at *
        have key : w * (-((3 - E) * w) - (1 + w) ^ 2 * μ x) < 0 := by
          have hb : |w| = δ / 32 := by rcases hcs with h | h <;> rw [h] <;> [skip; rw [abs_neg]] <;> exact abs_of_pos (by positivity)
          have h1 : |w * ((1 + w) ^ 2 * μ x)| ≤ δ / 32 * (3 / 2 * (δ / 32)) := by
            rw [abs_mul, hb, abs_mul, abs_of_nonneg (sq_nonneg (1 + w))]
            refine mul_le_mul_of_nonneg_left (mul_le_mul ?_ (hμ x hxS) (abs_nonneg _) (by norm_num)) (by positivity)
            rcases hcs with h | h <;> rw [h] <;> nlinarith
          have h2 := (abs_le.1 h1).1
          have h3 : 2 * w ^ 2 ≤ (3 - E) * w ^ 2 := mul_le_mul_of_nonneg_right (by linarith) (sq_nonneg w)
          have h4 : 0 < (δ / 32) ^ 2 := by positivity
          rw [he'] at h3
          nlinarith
        have := mul_neg_of_pos_of_neg gx key
        linarith)
    have := key ⟨hle, le_rfl⟩
    exact abs_le_of_sq_le_sq this (by positivity)
  -- a little earlier
  obtain ⟨η, hη, hear⟩ : ∃ η > 0, ∀ n, |n - n0| < η → |Q n / L n - 1| ≤ δ / 32 := by
    have hcont : ContinuousAt (fun n => |Q n / L n - 1|) n0 := (hw n0 hn0).continuousAt.abs
    obtain ⟨η, hη, h⟩ := Metric.eventually_nhds_iff.1 (hcont.eventually (gt_mem_nhds h0))
    exact ⟨η, hη, fun n hn => (h (by rwa [Real.dist_eq])).le⟩
  have all : ∀ n ∈ S, n0 - η < n → |Q n / L n - 1| ≤ δ / 32 := fun n hn hlt => by
    rcases le_or_gt n0 n with h | h
    · exact late n hn h
    · exact hear n (by rw [abs_lt]; constructor <;> linarith)
  have hQ0 : ∀ n ∈ S ∩ Ioi (n0 - η), Q n ≠ 0 := fun n hn h => by
    have := all n hn.1 hn.2
    rw [h, zero_div, zero_sub, abs_neg, abs_one] at this
    linarith
  have he2 : ∀ n ∈ S ∩ Ioi (n0 - η), HasDerivAt (fun n => L n / Q n) (g n * (μ n + L n / Q n * ((3 - Q n ^ 2 / 2) * (1 - L n / Q n)))) n := fun n hn => by
    have h := hQ0 n hn
    refine ((hL n hn.1).fun_div (hQ n hn.1) h).congr_deriv ?_
    field_simp
    ring
  have he1 : ∀ n ∈ S ∩ Ioi (n0 - η), HasDerivAt (fun n => Q n ^ 2 / 2) (g n * (Q n ^ 2 / 2 * (-(2 * (3 - Q n ^ 2 / 2) * (1 - L n / Q n))))) n := fun n hn => by
    have h := hQ0 n hn
    refine (((hQ n hn.1).fun_pow 2).div_const 2).congr_deriv ?_
    field_simp
    ring
  refine ⟨η, hη, all, fun n hn => ?_, he1, fun n hn => ?_, fun n hn => ?_⟩
  · obtain ⟨h1, h2⟩ := hH n hn.1
    exact (h2.log h1.ne').congr_deriv (by field_simp)
  · refine ((((he1 n hn).const_sub 3).const_mul 2).fun_mul ((he2 n hn).const_sub 1)).fun_neg.congr_deriv ?_
    ring
  · obtain ⟨l1, l2⟩ := hL0 n hn.1
    have m := hμ n hn.1
    have hw := all n hn.1 hn.2
    have hq := hQ0 n hn
    obtain ⟨w, hwd⟩ : ∃ w, w = Q n / L n - 1 := ⟨_, rfl⟩
    rw [← hwd] at hw
    have hw' := abs_le.1 hw
    have hQw : Q n = (1 + w) * L n := by rw [hwd]; field_simp; ring
    have h1w : 0 < 1 + w := by linarith
    have hr : L n / Q n = 1 / (1 + w) := by rw [hQw]; field_simp
    have hv : |1 - L n / Q n| ≤ δ / 30 := by
      rw [hr, one_sub_div h1w.ne', abs_div, abs_of_pos h1w, div_le_iff₀ h1w, add_sub_cancel_left]
      nlinarith
    have hr1 : |L n / Q n| ≤ 101 / 100 := by
      rw [hr, abs_of_pos (by positivity), div_le_iff₀ h1w]
      linarith
    have hE : Q n ^ 2 / 2 ≤ δ / 10 := by
      rw [hQw, mul_pow]
      have : (1 + w) ^ 2 ≤ 3 / 2 := by nlinarith
      have := mul_le_mul this l2 (sq_nonneg _) (by norm_num)
      linarith
    have hE0 : 0 < Q n ^ 2 / 2 := by positivity
    generalize Q n ^ 2 / 2 = E at *
    generalize L n / Q n = r at *
    have h3 : |3 - E| ≤ 3 := abs_le.2 ⟨by linarith, by linarith⟩
    have b2 : |(3 - E) * (1 - r)| ≤ δ / 10 := by
      rw [abs_mul]
      have := mul_le_mul h3 hv (abs_nonneg _) (by norm_num)
      linarith
    have b2' := abs_le.1 b2
    refine ⟨hE0, by linarith, ?_, ?_⟩
    · rw [abs_neg, mul_assoc, abs_mul, abs_two]; linarith
    · have c1 : |E * (-(2 * (3 - E) * (1 - r))) * (2 * (1 - r))| ≤ δ / 100 := by
        rw [show E * (-(2 * (3 - E) * (1 - r))) * (2 * (1 - r)) = -(4 * (E * ((3 - E) * (1 - r)) * (1 - r))) by ring, abs_neg, abs_mul, abs_mul, abs_mul,
          abs_of_pos (by norm_num : (0 : ℝ) < 4), abs_of_pos hE0]
        have d1 := mul_le_mul (mul_le_mul hE b2 (abs_nonneg _) (by positivity)) hv (abs_nonneg _) (by positivity)
        have d2 : δ / 10 * (δ / 10) * (δ / 30) ≤ δ / 400 := by nlinarith [mul_pos hδ0 hδ0]
        linarith
      have c2 : |r * ((3 - E) * (1 - r))| ≤ 101 / 100 * (δ / 10) := by
        rw [abs_mul]
        exact mul_le_mul hr1 b2 (abs_nonneg _) (by norm_num)
      have c3 : |μ n + r * ((3 - E) * (1 - r))| ≤ δ / 32 + 101 / 100 * (δ / 10) := (abs_add_le _ _).trans (add_le_add m c2)
      have c4 : |2 * (3 - E) * (μ n + r * ((3 - E) * (1 - r)))| ≤ 6 * (δ / 32 + 101 / 100 * (δ / 10)) := by
        rw [abs_mul, abs_mul, abs_two]
        exact mul_le_mul (by linarith) c3 (abs_nonneg _) (by norm_num)
      refine (abs_add_le _ _).trans ?_
      linarith
end

/-- `-(V'/V)` has the field derivative `ε₂/2`. -/
theorem logslope_deriv {δ : ℝ} {D : Set ℝ} {V dV d2V e1 e2 : ℝ → ℝ} (hD : IsSlowRollPotential δ D V dV e1 e2) (hV : IsDerivOn D V dV) (hV2 : IsDerivOn D dV d2V)
    {φ : ℝ} (hφ : φ ∈ D) : HasDerivAt (fun φ => -(dV φ / V φ)) (e2 φ / 2) φ := by
  have v := (hD.pos φ hφ).ne'
  have s := hD.slope φ hφ
  have h1 := ((hV2 φ hφ).fun_div (hV φ hφ) v).fun_neg
  refine h1.congr_deriv ?_
  have h2 := (h1.fun_pow 2).div_const 2
  have e : e1 =ᶠ[nhds φ] fun x => (-(dV x / V x)) ^ 2 / 2 := by
    filter_upwards [hD.isOpen.mem_nhds hφ] with x hx
    rw [hD.first x hx, neg_sq]
  have := (h2.congr_of_eventuallyEq e).unique (hD.second φ hφ)
  rw [hD.first φ hφ] at this
  push_cast at this
  field_simp at this ⊢
  linear_combination -this

/-- the accuracy of `ε₁` -/
theorem eps_near {δ Q L : ℝ} (hδ : δ ≤ 1 / 20) (hL : L ≠ 0) (h : |Q / L - 1| ≤ δ / 32) : |Q ^ 2 / 2 - L ^ 2 / 2| ≤ δ / 10 * (L ^ 2 / 2) := by
  obtain ⟨w, hw⟩ : ∃ w, w = Q / L - 1 := ⟨_, rfl⟩
  have hQ : Q = (1 + w) * L := by rw [hw]; field_simp; ring
  rw [← hw] at h
  have h' := abs_le.1 h
  rw [hQ, show ((1 + w) * L) ^ 2 / 2 - L ^ 2 / 2 = w * (2 + w) * (L ^ 2 / 2) by ring, abs_mul, abs_of_nonneg (by positivity : 0 ≤ L ^ 2 / 2)]
  refine mul_le_mul_of_nonneg_right ?_ (by positivity)
  rw [abs_mul]
  have : |2 + w| ≤ 3 := abs_le.2 ⟨by linarith, by linarith⟩
  have := mul_le_mul h this (abs_nonneg _) (by linarith [abs_nonneg w])
  linarith [abs_nonneg w]

section
variable {δ : ℝ} {S D : Set ℝ} {V dV d2V e1V e2V N φ q H : ℝ → ℝ} {n0 : ℝ}

/-- **C85, e-folds.**  Flat universe, field values on which the potential is flat to accuracy `δ/16`.  If at `n0` the velocity is the slow-roll velocity
`-V'/V` up to a relative error below `δ/32`, then from (slightly before) `n0` on the background rolls slowly to accuracy `δ`, and its `ε₁` is
the potential's `ε₁` up to the relative error `δ/10`. -/
theorem C85_efolds (hδ0 : 0 < δ) (hδ : δ ≤ 1 / 20) (hD : IsSlowRollPotential (δ / 16) D V dV e1V e2V) (hV : IsDerivOn D V dV) (hV2 : IsDerivOn D dV d2V)
    (hS : IsOpen S) (hc : S.OrdConnected) (hn0 : n0 ∈ S) (u : IsUniverseN S V dV 0 φ q H) (hφ : ∀ n ∈ S, φ n ∈ D)
    (h0 : |q n0 / -(dV (φ n0) / V (φ n0)) - 1| < δ / 32) :
    ∃ η > 0, ∃ e1 e2 d2 : ℝ → ℝ, IsSlowRoll δ (S ∩ Ioi (n0 - η)) (fun _ => 1) H e1 e2 d2 ∧
      ∀ n ∈ S, n0 - η < n → |e1 n - e1V (φ n)| ≤ δ / 10 * e1V (φ n) := by
  have hH : ∀ n ∈ S, 0 < H n := u.expanding
  have hdH : ∀ n ∈ S, HasDerivAt H (-(1 * (q n ^ 2 / 2) * H n)) n := fun n hn => (u.dH hS hV hφ n hn).congr_deriv (by ring)
  have hfr : ∀ n ∈ S, V (φ n) = H n ^ 2 * (3 - q n ^ 2 / 2) := fun n hn => by
    have := u.friedmann n hn
    linear_combination -this
  have hL0 : ∀ n ∈ S, -(dV (φ n) / V (φ n)) ≠ 0 ∧ (-(dV (φ n) / V (φ n))) ^ 2 ≤ δ / 8 := fun n hn => by
    have h1 := hφ n hn
    have h2 := (hD.small _ h1).1
    rw [hD.first _ h1] at h2
    exact ⟨neg_ne_zero.2 (div_ne_zero (hD.slope _ h1) (hD.pos _ h1).ne'), by rw [neg_sq]; linarith⟩
  obtain ⟨η, hη, hw, sr⟩ := slowroll_core (g := fun _ => 1) (Q := q) (H := H) (L := fun n => -(dV (φ n) / V (φ n))) (μ := fun n => e2V (φ n) / 2)
    hδ0 hδ hS hc hn0 (fun _ _ => one_pos)
    (fun n hn => ((logslope_deriv hD hV hV2 (hφ n hn)).comp n (u.velocity n hn)).congr_deriv (by ring))
    (fun n hn => by
      have h0 := hH n hn
      have hv := (hD.pos _ (hφ n hn)).ne'
      have h1 := (u.kleinGordon n hn).fun_div (hdH n hn) h0.ne'
      have e : q =ᶠ[nhds n] fun s => H s * q s / H s := by
        filter_upwards [hS.mem_nhds hn] with s hs
        have := hH s hs
        field_simp
      refine (h1.congr_of_eventuallyEq e).congr_deriv ?_
      have h3 : 3 - q n ^ 2 / 2 = V (φ n) / H n ^ 2 := by rw [hfr n hn]; field_simp
      rw [h3]
      have hf := hfr n hn
      generalize V (φ n) = v at *
      field_simp
      linear_combination (2 * q n) * hf)
    (fun n hn => ⟨hH n hn, hdH n hn⟩) hL0
    (fun n hn => by
      rw [abs_div, abs_two]
      linarith [(hD.small _ (hφ n hn)).2]) h0
  refine ⟨η, hη, _, _, _, sr, fun n hn hlt => ?_⟩
  have := eps_near hδ (hL0 n hn).1 (hw n hn hlt)
  rwa [neg_sq, ← hD.first _ (hφ n hn)] at this

/-- **C85, cosmic time.** -/
theorem C85_time (hδ0 : 0 < δ) (hδ : δ ≤ 1 / 20) (hD : IsSlowRollPotential (δ / 16) D V dV e1V e2V) (hV : IsDerivOn D V dV) (hV2 : IsDerivOn D dV d2V)
    (hS : IsOpen S) (hc : S.OrdConnected) (hn0 : n0 ∈ S) (u : IsUniverse S V dV 0 N φ q H) (hφ : ∀ n ∈ S, φ n ∈ D)
    (h0 : |q n0 / H n0 / -(dV (φ n0) / V (φ n0)) - 1| < δ / 32) :
    ∃ η > 0, ∃ e1 e2 d2 : ℝ → ℝ, IsSlowRoll δ (S ∩ Ioi (n0 - η)) H H e1 e2 d2 ∧
      ∀ n ∈ S, n0 - η < n → |e1 n - e1V (φ n)| ≤ δ / 10 * e1V (φ n) := by
  have hH : ∀ n ∈ S, 0 < H n := u.expanding
  have hdH : ∀ n ∈ S, HasDerivAt H (-(H n * ((q n / H n) ^ 2 / 2) * H n)) n := fun n hn => (u.dH hS hV hφ n hn).congr_deriv (by
    have := hH n hn
    field_simp; ring)
  have hfr : ∀ n ∈ S, V (φ n) = H n ^ 2 * (3 - (q n / H n) ^ 2 / 2) := fun n hn => by
    have := u.friedmann n hn
    have h0 := hH n hn
    field_simp
    linear_combination -this * 2
  have hL0 : ∀ n ∈ S, -(dV (φ n) / V (φ n)) ≠ 0 ∧ (-(dV (φ n) / V (φ n))) ^ 2 ≤ δ / 8 := fun n hn => by
    have h1 := hφ n hn
    have h2 := (hD.small _ h1).1
    rw [hD.first _ h1] at h2
    exact ⟨neg_ne_zero.2 (div_ne_zero (hD.slope _ h1) (hD.pos _ h1).ne'), by rw [neg_sq]; linarith⟩
  obtain ⟨η, hη, hw, sr⟩ := slowroll_core (g := H) (Q := fun n => q n / H n) (H := H) (L := fun n => -(dV (φ n) / V (φ n))) (μ := fun n => e2V (φ n) / 2)
    hδ0 hδ hS hc hn0 hH
    (fun n hn => ((logslope_deriv hD hV hV2 (hφ n hn)).comp n (u.velocity n hn)).congr_deriv (by
      have := hH n hn
      field_simp))
    (fun n hn => by
      have h0 := hH n hn
      have hv := (hD.pos _ (hφ n hn)).ne'
      refine ((u.kleinGordon n hn).fun_div (hdH n hn) h0.ne').congr_deriv ?_
      have h3 : 3 - (q n / H n) ^ 2 / 2 = V (φ n) / H n ^ 2 := by rw [hfr n hn]; field_simp
      rw [h3]
      have hf := hfr n hn
      generalize V (φ n) = v at *
      field_simp at hf ⊢
      linear_combination q n * hf)
    (fun n hn => ⟨hH n hn, hdH n hn⟩) hL0
    (fun n hn => by
      rw [abs_div, abs_two]
      linarith [(hD.small _ (hφ n hn)).2]) h0
  refine ⟨η, hη, _, _, _, sr, fun n hn hlt => ?_⟩
  have := eps_near hδ (hL0 n hn).1 (hw n hn hlt)
  rwa [neg_sq, ← hD.first _ (hφ n hn)] at this
end

/-! ## `SlowRollIC` -/

/-- The state `SlowRollIC` writes has (in e-folds exactly) the slow-roll velocity. -/
theorem slowrollic_start_efolds (e : InflN) (hK : e.K = 0) (a : ICArgs) (n0 : ℝ) (hn : a.N_i = some n0) (hΩ : a.Omega_Ki = none) (hVi : 0 < e.pot.V a.phi_i)
    (hs : e.pot.dV a.phi_i ≠ 0) (ht : e.track_time = true → a.t_i ≠ none) (heta : e.track_eta = true → a.eta_i ≠ none) (y0 : ℕ → Option ℝ) :
    ∃ ic y, SlowRollIC.init (.N e) a = .ok ic ∧ SlowRollIC.call (.N e) ic y0 = .ok y ∧ IC.x_ini (.N e) ic = some n0 ∧
      (∃ z, Numbers y z 2 ∧ (z 1 ^ 2 < 6 → 0 < e.H2 n0 z) ∧ z 1 = -(e.pot.dV a.phi_i / e.pot.V a.phi_i)) ∧
      ∀ Y : ℕ → ℝ, Numbers y Y 2 → InflN.phi Y = a.phi_i ∧ Y 1 / -(e.pot.dV (InflN.phi Y) / e.pot.V (InflN.phi Y)) = 1 := by
  obtain ⟨ic, y, z, H, a1, a2, a3, a4, a5, a6, a7, a8, a9, -, -, a10⟩ := C29_N e a n0 hn hΩ (by rw [hK, sub_zero]; positivity) ht heta y0
  rw [hK, zero_mul, sub_zero] at a8
  have z1' : z 1 = -(e.pot.dV a.phi_i / e.pot.V a.phi_i) := by
    have : 3 * H ^ 2 = e.pot.V a.phi_i := by linarith
    rw [this] at a9
    rw [← neg_div, eq_div_iff hVi.ne', ← a9]
    show z 1 * _ = _ * InflN.dphidN z
    unfold InflN.dphidN
    ring
  refine ⟨ic, y, a1, a2, a6, ⟨z, a3, fun h6 => ?_, z1'⟩, fun Y hY => ?_⟩
  · rw [a10 (by exact h6.ne)]
    exact div_pos (by positivity) (by show 0 < 1 - z 1 ^ 2 / 6; linarith)
  have z0 : Y 0 = z 0 := Option.some.inj ((hY 0 (by norm_num)).symm.trans (a3 0 (by norm_num)))
  have z1 : Y 1 = z 1 := Option.some.inj ((hY 1 (by norm_num)).symm.trans (a3 1 (by norm_num)))
  have z0' : InflN.phi Y = a.phi_i := z0.trans a7
  exact ⟨z0', by rw [z0', z1, z1', div_self (neg_ne_zero.2 (div_ne_zero hs hVi.ne'))]⟩

/-- In cosmic time the slow-roll velocity is met up to `δ/32` if `ε₁ ≤ δ/16`. -/
theorem slowrollic_start_time {δ : ℝ} (hδ0 : 0 < δ) (hδ : δ ≤ 1 / 20) (e : InflT) (hK : e.K = 0) (a : ICArgs) (n0 : ℝ) (hn : a.N_i = some n0) (hΩ : a.Omega_Ki = none)
    (hVi : 0 < e.pot.V a.phi_i) (hs : e.pot.dV a.phi_i ≠ 0) (h1 : (e.pot.dV a.phi_i / e.pot.V a.phi_i) ^ 2 / 2 ≤ δ / 16)
    (heta : e.track_eta = true → a.eta_i ≠ none) (y0 : ℕ → Option ℝ) :
    ∃ ic y, SlowRollIC.init (.T e) a = .ok ic ∧ SlowRollIC.call (.T e) ic y0 = .ok y ∧
      (∃ z, Numbers y z 3 ∧ 0 < e.H2 z) ∧
      ∀ Y : ℕ → ℝ, Numbers y Y 3 → InflT.phi Y = a.phi_i ∧ InflT._N Y = n0 ∧
        |InflT.dphidt Y / e.H Y / -(e.pot.dV (InflT.phi Y) / e.pot.V (InflT.phi Y)) - 1| < δ / 32 := by
  obtain ⟨ic, y, z, H, a1, a2, a3, a4, a5, a6, a7, a8, a9, -, -, a10⟩ := C29_T e a n0 hn hΩ (by rw [hK, sub_zero]; positivity) heta y0
  refine ⟨ic, y, a1, a2, ⟨z, a3, by rw [a10]; positivity⟩, fun Y hY => ?_⟩
  have zi : ∀ i < 3, Y i = z i := fun i hi => Option.some.inj ((hY i hi).symm.trans (a3 i hi))
  have z0' : InflT.phi Y = a.phi_i := (zi 0 (by norm_num)).trans a6
  refine ⟨z0', (zi 2 (by norm_num)).trans a7, ?_⟩
  rw [hK, zero_mul, sub_zero] at a8
  have hH2 : e.H2 Y = H ^ 2 + InflT.dphidt Y ^ 2 / 6 := by
    have : e.H2 Y = e.H2 z := by
      simp only [InflT.H2, InflT._N, InflT.dphidt, InflT.V, InflT.phi, zi 0 (by norm_num), zi 1 (by norm_num), zi 2 (by norm_num)]
    rw [this, a10]
    simp only [InflT.dphidt, zi 1 (by norm_num)]
  have z1' : 3 * H * InflT.dphidt Y = -e.pot.dV a.phi_i := by
    rw [← a9]; simp only [InflT.dphidt, zi 1 (by norm_num)]
  have hh : 0 < e.H2 Y := by rw [hH2]; positivity
  have hhs : e.H Y ^ 2 = e.H2 Y := sq_sqrt hh.le
  have hhp : 0 < e.H Y := sqrt_pos.2 hh
  rw [z0']
  obtain ⟨p, hp⟩ : ∃ p, p = InflT.dphidt Y := ⟨_, rfl⟩
  obtain ⟨h, hhd⟩ : ∃ h, h = e.H Y := ⟨_, rfl⟩
  rw [← hp, ← hhd]
  rw [← hp] at z1' hH2
  rw [← hhd] at hhs hhp
  have hV3 : e.pot.V a.phi_i = 3 * H ^ 2 := by linarith
  have hdV : e.pot.dV a.phi_i = -(3 * H * p) := by linarith
  have hp0 : p ≠ 0 := fun hp => hs (by rw [hdV, hp]; ring)
  have er : p / h / -(e.pot.dV a.phi_i / e.pot.V a.phi_i) = H / h := by
    rw [hV3, hdV]; field_simp
  have el : (e.pot.dV a.phi_i / e.pot.V a.phi_i) ^ 2 = p ^ 2 / H ^ 2 := by
    rw [hV3, hdV]; field_simp
  rw [el] at h1
  have h2 : p ^ 2 ≤ δ / 8 * H ^ 2 := by
    rw [div_div, div_le_iff₀ (by positivity)] at h1
    linarith
  rw [hH2] at hhs
  have hle : H ≤ h := by nlinarith [sq_nonneg p]
  have hge : h ≤ (1 + δ / 48) * H := by
    nlinarith [sq_nonneg p, mul_pos hδ0 a5, mul_pos (mul_pos hδ0 a5) a5, mul_pos (mul_pos hδ0 a5) (mul_pos hδ0 a5)]
  rw [er, abs_sub_comm, abs_of_nonneg (by rw [sub_nonneg, div_le_one hhp]; exact hle), one_sub_div hhp.ne', div_lt_iff₀ hhp]
  nlinarith [mul_pos hδ0 a5]

/-- **C85, `SlowRollIC`, e-folds.**  Every flat background integrated from the state `SlowRollIC` writes rolls slowly, as long as the field stays where
the potential is flat. -/
theorem C85_slowrollic_efolds {δ : ℝ} (hδ0 : 0 < δ) (hδ : δ ≤ 1 / 20) (e : InflN) (hK : e.K = 0) {D : Set ℝ} {e1V e2V : ℝ → ℝ}
    (hD : IsSlowRollPotential (δ / 16) D e.pot.V e.pot.dV e1V e2V) (hV : IsDerivOn D e.pot.V e.pot.dV) (hV2 : IsDerivOn D e.pot.dV e.pot.d2V)
    (a : ICArgs) (n0 : ℝ) (hn : a.N_i = some n0) (hΩ : a.Omega_Ki = none) (hφi : a.phi_i ∈ D)
    (ht : e.track_time = true → a.t_i ≠ none) (heta : e.track_eta = true → a.eta_i ≠ none) (y0 : ℕ → Option ℝ) :
    ∃ ic y, SlowRollIC.init (.N e) a = .ok ic ∧ SlowRollIC.call (.N e) ic y0 = .ok y ∧ IC.x_ini (.N e) ic = some n0 ∧
      ∀ (S : Set ℝ) (Y : ℝ → ℕ → ℝ), IsOpen S → S.OrdConnected → n0 ∈ S → SolvesODE S e.rows e.call Y → Numbers y (Y n0) 2 →
        (∀ n ∈ S, 0 < e.H2 n (Y n) ∧ InflN.phi (Y n) ∈ D) →
        ∃ η > 0, ∃ e1 e2 d2 : ℝ → ℝ, IsSlowRoll δ (S ∩ Ioi (n0 - η)) (fun _ => 1) (fun n => e.H n (Y n)) e1 e2 d2 ∧
          ∀ n ∈ S, n0 - η < n → |e1 n - e1V (InflN.phi (Y n))| ≤ δ / 10 * e1V (InflN.phi (Y n)) := by
  obtain ⟨ic, y, a1, a2, a6, -, a7⟩ := slowrollic_start_efolds e hK a n0 hn hΩ (hD.pos _ hφi) (hD.slope _ hφi) ht heta y0
  refine ⟨ic, y, a1, a2, a6, fun S Y hS hc hn0 sol hY hSD => ?_⟩
  have u := C19_efolds hS sol (fun n hn => (hSD n hn).1) hV (fun n hn => (hSD n hn).2)
  rw [hK] at u
  refine C85_efolds hδ0 hδ hD hV hV2 hS hc hn0 u (fun n hn => (hSD n hn).2) ?_
  rw [(a7 _ hY).2, sub_self, abs_zero]
  positivity

/-- **C85, `SlowRollIC`, cosmic time.** -/
theorem C85_slowrollic_time {δ : ℝ} (hδ0 : 0 < δ) (hδ : δ ≤ 1 / 20) (e : InflT) (hK : e.K = 0) {D : Set ℝ} {e1V e2V : ℝ → ℝ}
    (hD : IsSlowRollPotential (δ / 16) D e.pot.V e.pot.dV e1V e2V) (hV : IsDerivOn D e.pot.V e.pot.dV) (hV2 : IsDerivOn D e.pot.dV e.pot.d2V)
    (a : ICArgs) (n0 : ℝ) (hn : a.N_i = some n0) (hΩ : a.Omega_Ki = none) (hφi : a.phi_i ∈ D)
    (heta : e.track_eta = true → a.eta_i ≠ none) (y0 : ℕ → Option ℝ) :
    ∃ ic y, SlowRollIC.init (.T e) a = .ok ic ∧ SlowRollIC.call (.T e) ic y0 = .ok y ∧
      ∀ (S : Set ℝ) (Y : ℝ → ℕ → ℝ) (t0 : ℝ), IsOpen S → S.OrdConnected → t0 ∈ S → SolvesODE S e.rows e.call Y → Numbers y (Y t0) 3 →
        (∀ t ∈ S, 0 < e.H2 (Y t) ∧ InflT.phi (Y t) ∈ D) →
        ∃ η > 0, ∃ e1 e2 d2 : ℝ → ℝ, IsSlowRoll δ (S ∩ Ioi (t0 - η)) (fun t => e.H (Y t)) (fun t => e.H (Y t)) e1 e2 d2 ∧
          ∀ t ∈ S, t0 - η < t → |e1 t - e1V (InflT.phi (Y t))| ≤ δ / 10 * e1V (InflT.phi (Y t)) := by
  obtain ⟨ic, y, a1, a2, -, a3⟩ := slowrollic_start_time hδ0 hδ e hK a n0 hn hΩ (hD.pos _ hφi) (hD.slope _ hφi)
    (by rw [← hD.first _ hφi]; exact (hD.small _ hφi).1) heta y0
  refine ⟨ic, y, a1, a2, fun S Y t0 hS hc hn0 sol hY hSD => ?_⟩
  have u := InflT.universe sol (fun n hn => (hSD n hn).1)
  rw [hK] at u
  exact C85_time hδ0 hδ hD hV hV2 hS hc hn0 u (fun n hn => (hSD n hn).2) (a3 _ hY).2.2

/-! ## The hypotheses are met -/

/-- The slow-roll parameters of a class, if small, make its potential flat. -/
theorem flat_of_hierarchy {δ : ℝ} {D dom : Set ℝ} {V dV e1 e2 e3 e4 : ℝ → ℝ} (h : IsSlowRollHierarchy dom V dV e1 e2 e3 e4) (hD : IsOpen D) (hsub : D ⊆ dom)
    (hV : ∀ φ ∈ D, 0 < V φ ∧ dV φ ≠ 0) (hs : ∀ φ ∈ D, e1 φ ≤ δ ∧ |e2 φ| ≤ δ) : IsSlowRollPotential δ D V dV e1 e2 :=
  ⟨hD, fun φ hφ => (hV φ hφ).1, fun φ hφ => (hV φ hφ).2, fun φ hφ => h.first φ (hsub hφ), fun φ hφ => h.second φ (hsub hφ), hs⟩

/-- `QuadraticPotential`, at large field values. -/
theorem quadratic_flat (q : Quadratic) (hL : q.Lambda ≠ 0) {δ R : ℝ} (hR : 0 < R) (hRδ : 4 ≤ δ * R ^ 2) :
    IsSlowRollPotential δ (Ioi R) q.fns.V q.fns.dV q.get_epsilon_1V q.get_epsilon_2V := by
  refine flat_of_hierarchy (C03_quadratic q hL) isOpen_Ioi (fun φ (hφ : R < φ) => (hR.trans hφ).ne') (fun φ (hφ : R < φ) => ?_) (fun φ (hφ : R < φ) => ?_)
  · have h := hR.trans hφ
    have hL4 : 0 < q.Lambda ^ 4 := by positivity
    exact ⟨show 0 < q.Lambda ^ 4 * φ ^ 2 by positivity, show 2 * q.Lambda ^ 4 * φ ≠ 0 by positivity⟩
  · have h := hR.trans hφ
    have hd : 0 < δ := by
      by_contra hd
      nlinarith [mul_nonneg (neg_nonneg.2 (not_lt.1 hd)) (sq_nonneg R)]
    have h2 : R ^ 2 ≤ φ ^ 2 := by gcongr
    have h3 : 4 ≤ δ * φ ^ 2 := hRδ.trans (mul_le_mul_of_nonneg_left h2 hd.le)
    constructor
    · show (2 : ℝ) ^ 2 / (2 * φ ^ 2) ≤ δ
      rw [div_le_iff₀ (by positivity)]; linarith
    · show |2 * (2 : ℝ) / φ ^ 2| ≤ δ
      rw [abs_of_pos (by positivity), div_le_iff₀ (by positivity)]; linarith

/-- `StarobinskyPotential`, at large field values. -/
theorem starobinsky_flat (s : Starobinsky) (hL : s.Lambda ≠ 0) {δ R : ℝ} (hδ0 : 0 < δ) (hδ : δ ≤ 1) (hR : 1 + 4 / δ ≤ exp (Starobinsky.gamma * R)) :
    IsSlowRollPotential δ (Ioi R) s.fns.V s.fns.dV s.get_epsilon_1V s.get_epsilon_2V ∧ 0 < R ∧ ∀ φ ∈ Ioi R, 0 < s.fns.dV φ := by
  have hg : 0 < Starobinsky.gamma := sqrt_pos.mpr (by norm_num)
  have hg2 : Starobinsky.gamma ^ 2 = 2 / 3 := sq_sqrt (by norm_num)
  have h4 : 0 < 4 / δ := by positivity
  have hR0 : 0 < R := by
    have : 1 < exp (Starobinsky.gamma * R) := by linarith
    rw [one_lt_exp_iff] at this
    exact (mul_pos_iff_of_pos_left hg).1 this
  have hE : ∀ φ ∈ Ioi R, 1 + 4 / δ ≤ exp (Starobinsky.gamma * φ) := fun φ (hφ : R < φ) => hR.trans (exp_le_exp.2 (by gcongr))
  have hL4 : 0 < s.Lambda ^ 4 := by positivity
  have pos : ∀ φ ∈ Ioi R, 0 < s.fns.V φ ∧ 0 < s.fns.dV φ := fun φ hφ => by
    have h := hE φ hφ
    have h1 : 0 < exp (Starobinsky.gamma * φ) - 1 := by linarith
    have h2 : 1 - exp (-Starobinsky.gamma * φ) ≠ 0 := by
      have : exp (-Starobinsky.gamma * φ) < 1 := by
        rw [exp_lt_one_iff]
        have : 0 < Starobinsky.gamma * φ := mul_pos hg (hR0.trans hφ)
        linarith
      linarith
    refine ⟨show 0 < s.Lambda ^ 4 * (1 - exp (-Starobinsky.gamma * φ)) ^ 2 by positivity, ?_⟩
    show 0 < s.Lambda ^ 4 * 2 * Starobinsky.gamma * exp (-2 * Starobinsky.gamma * φ) * (exp (Starobinsky.gamma * φ) - 1)
    positivity
  refine ⟨flat_of_hierarchy (C03_starobinsky s hL) isOpen_Ioi (fun φ (hφ : R < φ) => (hR0.trans hφ).ne') (fun φ hφ => ⟨(pos φ hφ).1, (pos φ hφ).2.ne'⟩) (fun φ hφ => ?_), hR0,
    fun φ hφ => (pos φ hφ).2⟩
  have h := hE φ hφ
  have hs : sinh (Starobinsky.gamma * φ / 2) ^ 2 = (exp (Starobinsky.gamma * φ) - 1) ^ 2 / (4 * exp (Starobinsky.gamma * φ)) := by
    have e : exp (Starobinsky.gamma * φ) = exp (Starobinsky.gamma * φ / 2) ^ 2 := by rw [← exp_nat_mul]; congr 1; push_cast; ring
    have e' : exp (-(Starobinsky.gamma * φ / 2)) = (exp (Starobinsky.gamma * φ / 2))⁻¹ := exp_neg _
    have := (exp_pos (Starobinsky.gamma * φ / 2)).ne'
    rw [sinh_eq, e, e']; field_simp; ring
  unfold Starobinsky.get_epsilon_1V Starobinsky.get_epsilon_2V
  rw [hs, hg2]
  have hE0 := exp_pos (Starobinsky.gamma * φ)
  generalize exp (Starobinsky.gamma * φ) = E at *
  have hx : 4 / δ ≤ E - 1 := by linarith
  rw [div_le_iff₀ hδ0] at hx
  have hx4 : 4 ≤ E - 1 := by nlinarith
  have hp : 0 < E - 1 := by linarith
  have key : 4 * (E - 1) ≤ δ * (E - 1) ^ 2 := by nlinarith
  constructor
  · rw [show (1 - E) ^ 2 = (E - 1) ^ 2 by ring, div_le_iff₀ (by positivity)]
    linarith
  · rw [abs_of_pos (by positivity), div_div_eq_mul_div, div_le_iff₀ (by positivity)]
    linarith

/-- For every accuracy: `QuadraticPotential`, `SlowRollIC` at a large field value, cosmic time; the integrated background exists for ever and rolls
slowly on a neighbourhood of the start. -/
example {δ : ℝ} (hδ0 : 0 < δ) (hδ : δ ≤ 1 / 20) (q : Quadratic) (hL : q.Lambda ≠ 0) (t0 n0 : ℝ) : ∃ (a : ICArgs) (ic : IC) (y : ℕ → Option ℝ) (S : Set ℝ) (Y : ℝ → ℕ → ℝ),
    SlowRollIC.init (.T ⟨0, q.fns, false⟩) a = .ok ic ∧ SlowRollIC.call (.T ⟨0, q.fns, false⟩) ic (fun _ => none) = .ok y ∧ t0 ∈ S ∧ IsOpen S ∧
    SolvesODE S 3 (InflT.mk 0 q.fns false).call Y ∧ Numbers y (Y t0) 3 ∧
    ∃ e1 e2 d2, IsSlowRoll δ S (fun t => (InflT.mk 0 q.fns false).H (Y t)) (fun t => (InflT.mk 0 q.fns false).H (Y t)) e1 e2 d2 := by
  obtain ⟨e, he⟩ : ∃ e, e = InflT.mk 0 q.fns false := ⟨_, rfl⟩
  rw [← he]
  obtain ⟨R, hR⟩ : ∃ R, R = 64 / δ := ⟨_, rfl⟩
  have hR0 : 0 < R := by rw [hR]; positivity
  have hRδ : 4 ≤ δ / 16 * R ^ 2 := by
    rw [hR, div_pow, div_mul_div_comm, le_div_iff₀ (by positivity)]
    nlinarith
  have hD := quadratic_flat q hL hR0 hRδ
  have c := C01_quadratic q
  obtain ⟨a, ha⟩ : ∃ a : ICArgs, a = ⟨R + 1, some t0, none, 1, some n0, none⟩ := ⟨_, rfl⟩
  have hφi : a.phi_i ∈ Ioi R := by rw [ha]; exact lt_add_one R
  have hVi := hD.pos _ hφi
  have key := C85_slowrollic_time hδ0 hδ e (by rw [he]) (D := Ioi R) (by rw [he]; exact hD) (by rw [he]; exact fun φ _ => c.d1 φ trivial) (by rw [he]; exact fun φ _ => c.d2 φ trivial)
    a n0 (by rw [ha]) (by rw [ha]) hφi (by rw [he]; intro h; cases h) (fun _ => none)
  obtain ⟨ic, y, k1, k2, k3⟩ := key
  obtain ⟨ic', y', z, H, a1, a2, a3, a4, a5, a6, a7, a8, a9, -, -, a10⟩ := C29_T e a n0 (by rw [ha]) (by rw [ha])
    (by rw [he]; show 0 < q.fns.V a.phi_i / 3 * exp (2 * n0) - 0; rw [sub_zero]; positivity) (by rw [he]; intro h; cases h) (fun _ => none)
  obtain rfl : ic' = ic := Except.ok.inj (a1.symm.trans k1)
  obtain rfl : y' = y := Except.ok.inj (a2.symm.trans k2)
  obtain ⟨b, hb, Y, hY0, sol, hH⟩ := C76_builtin q.fns (Or.inl ⟨q, rfl⟩) (K := 0) le_rfl false t0 z (by rw [← he, a10]; positivity)
  rw [← he] at hY0 sol hH
  have hrows : e.rows = 3 := by rw [he]; rfl
  rw [hrows] at hY0 sol
  have hnum : Numbers y' (Y t0) 3 := fun i hi => by rw [hY0 i hi]; exact a3 i hi
  have hcont : ContinuousAt (fun t => Y t 0) t0 := (sol t0 hb 0 (by norm_num)).continuousAt
  have hst : Y t0 0 ∈ Ioi R := by
    rw [hY0 0 (by norm_num), show z 0 = a.phi_i from a6]; exact hφi
  obtain ⟨η, hη, hev⟩ := Metric.eventually_nhds_iff.1 ((hcont.eventually (isOpen_Ioi.mem_nhds hst)).and (isOpen_Ioi.mem_nhds hb))
  have hin : ∀ t ∈ Ioo (t0 - η) (t0 + η), R < Y t 0 ∧ b < t := fun t ht => by
    obtain ⟨h1, h2⟩ := hev (y := t) (by rw [Real.dist_eq, abs_lt]; exact ⟨by linarith [ht.1], by linarith [ht.2]⟩)
    exact ⟨h1, h2⟩
  have sol' : SolvesODE (Ioo (t0 - η) (t0 + η)) 3 e.call Y := fun t ht => sol t (hin t ht).2
  obtain ⟨η', hη', e1, e2, d2, sr, -⟩ := k3 (Ioo (t0 - η) (t0 + η)) Y t0 isOpen_Ioo ordConnected_Ioo ⟨by linarith, by linarith⟩ (by rw [hrows]; exact sol') hnum
    (fun t ht => ⟨hH t (hin t ht).2, (hin t ht).1⟩)
  exact ⟨a, ic', y', Ioo (t0 - η) (t0 + η) ∩ Ioi (t0 - η'), Y, k1, k2, ⟨⟨by linarith, by linarith⟩, show t0 - η' < t0 by linarith⟩, isOpen_Ioo.inter isOpen_Ioi,
    fun t ht => sol' t ht.1, hnum, e1, e2, d2, sr⟩

end Primpy
