import Verif.Props.C03
import Mathlib.Analysis.Convex.SpecificFunctions.Basic
import Mathlib.Topology.Order.IntermediateValue
import Mathlib.Analysis.SpecialFunctions.Pow.Continuity

/-!
# C05 — `phi_end` is the end of slow roll

Closed forms: exactly `ε₁V = 1`, unique on the inflating branch, inflation exactly above it.
Root-finding classes: the bracket has a sign change (so `root_scalar` does not raise) under an
explicit and extremely mild condition on the parameters, and what it returns is the unique end.
-/

namespace Primpy
open Real Spec Set

private theorem gpos5 : 0 < Starobinsky.gamma := sqrt_pos.mpr (by norm_num)

private theorem sqrt2_sq : √2 ^ 2 = (2:ℝ) := sq_sqrt (by norm_num)
private theorem sqrt2_pos : 0 < √(2:ℝ) := sqrt_pos.mpr (by norm_num)

theorem C05_monomial (m : Monomial) (hp : 0 < m.p) :
    EndOfSlowRoll (Ioi 0) m.get_epsilon_1V m.phi_end := by
  have h2 := sqrt2_pos
  refine EndOfSlowRoll.of_anti (by show 0 < √2 * m.p / 2; positivity) ?_ ?_
  · simp only [Monomial.get_epsilon_1V, Monomial.phi_end, div_pow, mul_pow, sqrt2_sq]
    fsr
  · intro a ha b hb hab
    have ha : 0 < a := ha
    have hb : 0 < b := hb
    simp only [Monomial.get_epsilon_1V]
    refine div_lt_div_of_pos_left (by positivity) (by positivity) ?_
    have : a^2 < b^2 := by nlinarith
    linarith

theorem C05_starobinsky (s : Starobinsky) :
    EndOfSlowRoll (Ioi 0) s.get_epsilon_1V s.phi_end := by
  have hg := gpos5
  have h2 := sqrt2_pos
  have h1 : 1 < √2 * Starobinsky.gamma + 1 := by nlinarith
  refine EndOfSlowRoll.of_anti (div_pos (log_pos h1) hg) ?_ ?_
  · simp only [Starobinsky.get_epsilon_1V, Starobinsky.phi_end]
    rw [mul_div_cancel₀ _ hg.ne', exp_log (by linarith)]
    have : (1 - (√2 * Starobinsky.gamma + 1))^2 = 2 * Starobinsky.gamma^2 := by
      have := sqrt2_sq; ring_nf; rw [this]; ring
    rw [this, div_self (by positivity)]
  · intro a ha b hb hab
    have ha : 0 < a := ha
    simp only [Starobinsky.get_epsilon_1V]
    have ea : 1 < exp (Starobinsky.gamma * a) := by rw [one_lt_exp_iff]; positivity
    have eb : exp (Starobinsky.gamma * a) < exp (Starobinsky.gamma * b) := by
      rw [exp_lt_exp]; nlinarith
    have : 0 < 1 - exp (Starobinsky.gamma * a) ∨ 1 - exp (Starobinsky.gamma * a) < 0 :=
      Or.inr (by linarith)
    refine div_lt_div_of_pos_left (by positivity) (by nlinarith) (by nlinarith)

private theorem nat_half (θ : ℝ) (h : cos (θ/2) ≠ 0) (hs : sin (θ/2) ≠ 0) :
    sin θ ^ 2 / (cos θ - 1)^2 = 1 / tan (θ/2)^2 := by
  have e : θ = 2 * (θ/2) := by ring
  have e1 : sin θ = 2 * sin (θ/2) * cos (θ/2) := by
    conv_lhs => rw [e]
    exact sin_two_mul _
  have e2 : cos θ - 1 = -2 * sin (θ/2)^2 := by
    have : cos θ = 2 * cos (θ/2)^2 - 1 := by
      conv_lhs => rw [e]
      exact cos_two_mul _
    rw [this]; have := sin_sq_add_cos_sq (θ/2); linarith
  rw [e1, e2, tan_eq_sin_div_cos]; fsr

theorem C05_natural (n : Natural) (h0 : 0 < n.phi0) :
    EndOfSlowRoll (Ioo 0 n.phi0) n.get_epsilon_1V n.phi_end := by
  have hpi := pi_pos
  have h2 := sqrt2_pos
  have hform : ∀ φ ∈ Ioo 0 n.phi0, n.get_epsilon_1V φ =
      π^2 / (2 * n.phi0^2) * (1 / tan (π * φ / n.phi0 / 2)^2) := by
    intro φ h
    have a : 0 < π * φ / n.phi0 / 2 := by have := h.1; positivity
    have b : π * φ / n.phi0 / 2 < π / 2 := by
      have : π * φ / n.phi0 < π := by rw [div_lt_iff₀ h0]; nlinarith [h.2]
      linarith
    rw [← nat_half _ (cos_pos_of_mem_Ioo ⟨by linarith, b⟩).ne'
      (sin_pos_of_pos_of_lt_pi a (by linarith)).ne']
    simp only [Natural.get_epsilon_1V]
    rw [div_mul_div_comm]
  have ha0 : 0 < arctan (√2 * π / (2 * n.phi0)) := arctan_pos.mpr (by positivity)
  have ha1 := arctan_lt_pi_div_two (√2 * π / (2 * n.phi0))
  have hmem : n.phi_end ∈ Ioo 0 n.phi0 := by
    simp only [Natural.phi_end]
    refine ⟨by positivity, ?_⟩
    rw [div_lt_iff₀ hpi]; nlinarith
  refine EndOfSlowRoll.of_anti hmem ?_ ?_
  · rw [hform _ hmem]
    have e : π * n.phi_end / n.phi0 / 2 = arctan (√2 * π / (2 * n.phi0)) := by
      simp only [Natural.phi_end]; field_simp
    rw [e, tan_arctan, div_pow, mul_pow, sqrt2_sq]; fsr
  · intro a ha b hb hab
    rw [hform a ha, hform b hb]
    have hA : 0 < π * a / n.phi0 / 2 := by have := ha.1; positivity
    have hAB : π * a / n.phi0 / 2 < π * b / n.phi0 / 2 := by
      have : π * a / n.phi0 < π * b / n.phi0 := by
        rw [div_lt_div_iff_of_pos_right h0]; nlinarith
      linarith
    have hB : π * b / n.phi0 / 2 < π / 2 := by
      have : π * b / n.phi0 < π := by rw [div_lt_iff₀ h0]; nlinarith [hb.2]
      linarith
    have tA : 0 < tan (π * a / n.phi0 / 2) := tan_pos_of_pos_of_lt_pi_div_two hA (by linarith)
    have tB := tan_lt_tan_of_nonneg_of_lt_pi_div_two hA.le hB hAB
    refine mul_lt_mul_of_pos_left ?_ (by positivity)
    refine one_div_lt_one_div_of_lt (by positivity) ?_
    nlinarith

theorem C05_tmodel (t : Tmodel) (ha : 0 < t.alpha) (hp : 0 < t.p) :
    EndOfSlowRoll (Ioi 0) t.get_epsilon_1V t.phi_end := by
  have hs : 0 < t.s_6_a := sqrt_pos.mpr (by linarith)
  have h2 := sqrt2_pos
  refine EndOfSlowRoll.of_anti ?_ ?_ ?_
  · show 0 < t.s_6_a/2 * arsinh (2 * √2 * t.p / t.s_6_a)
    have : 0 < arsinh (2 * √2 * t.p / t.s_6_a) := arsinh_pos_iff.mpr (by positivity)
    positivity
  · simp only [Tmodel.get_epsilon_1V, Tmodel.phi_end]
    have e : 2 * (t.s_6_a/2 * arsinh (2 * √2 * t.p / t.s_6_a)) / t.s_6_a =
        arsinh (2 * √2 * t.p / t.s_6_a) := by field_simp
    rw [e, sinh_arsinh, div_pow, mul_pow, mul_pow, sqrt2_sq]; fsr
  · intro a ha b hb hab
    have ha : 0 < a := ha
    simp only [Tmodel.get_epsilon_1V]
    have sa : 0 < sinh (2 * a / t.s_6_a) := sinh_pos_iff.mpr (by positivity)
    have sb : sinh (2 * a / t.s_6_a) < sinh (2 * b / t.s_6_a) := by
      rw [sinh_lt_sinh, div_lt_div_iff_of_pos_right hs]; linarith
    refine div_lt_div_of_pos_left (by positivity) (by positivity) ?_
    refine mul_lt_mul_of_pos_left ?_ (by positivity)
    nlinarith

/-! ## Double well -/

/-- On the branch `0 ≤ x < 1` the first slow-roll parameter is a square. -/
private theorem dw_eps (d : DoubleWell) (h0 : 0 < d.phi0) (hp : 1 < d.p) {φ : ℝ}
    (hx0 : 0 ≤ d.x φ) (hx1 : d.x φ < 1) :
    d.get_epsilon_1V φ = (√2 * d.p * d.x φ ^ (d.p - 1) / (d.phi0 * (1 - d.x φ ^ d.p)))^2 := by
  have hu : d.x φ ^ d.p < 1 := rpow_lt_one hx0 hx1 (by linarith)
  have e : d.x φ ^ (2 * d.p - 2) = (d.x φ ^ (d.p - 1))^2 := by
    rw [← rpow_natCast, ← rpow_mul hx0]; congr 1; push_cast; ring
  simp only [DoubleWell.get_epsilon_1V, e]
  rw [div_pow, mul_pow, mul_pow, mul_pow, sqrt2_sq]
  have : (d.x φ ^ d.p - 1)^2 = (1 - d.x φ ^ d.p)^2 := by ring
  rw [this]

private theorem dw_mono (d : DoubleWell) (h0 : 0 < d.phi0) (hp : 1 < d.p) {x y : ℝ}
    (hx0 : 0 ≤ x) (hxy : x < y) (hy1 : y < 1) :
    √2 * d.p * x ^ (d.p - 1) / (d.phi0 * (1 - x ^ d.p)) <
    √2 * d.p * y ^ (d.p - 1) / (d.phi0 * (1 - y ^ d.p)) := by
  have h2 := sqrt2_pos
  have hp0 : 0 < d.p := by linarith
  have a1 : x ^ (d.p - 1) < y ^ (d.p - 1) := rpow_lt_rpow hx0 hxy (by linarith)
  have a2 : x ^ d.p < y ^ d.p := rpow_lt_rpow hx0 hxy (by linarith)
  have a3 : y ^ d.p < 1 := rpow_lt_one (by linarith) hy1 (by linarith)
  have a4 : 0 ≤ x ^ (d.p - 1) := rpow_nonneg hx0 _
  rw [div_lt_div_iff₀ (by apply mul_pos h0; linarith) (by apply mul_pos h0; linarith)]
  have b1 : 0 < √2 * d.p := by positivity
  have c : x ^ (d.p-1) * (1 - y ^ d.p) < y ^ (d.p-1) * (1 - x ^ d.p) := by nlinarith
  have : √2 * d.p * d.phi0 * (x ^ (d.p-1) * (1 - y ^ d.p)) <
    √2 * d.p * d.phi0 * (y ^ (d.p-1) * (1 - x ^ d.p)) := mul_lt_mul_of_pos_left c (by positivity)
  nlinarith

private theorem dw_anti (d : DoubleWell) (h0 : 0 < d.phi0) (hp : 1 < d.p) :
    StrictAntiOn d.get_epsilon_1V (Ioc 0 d.phi0) := by
  have h2 := sqrt2_pos
  intro a ha b hb hab
  have ha0 := ha.1
  have xa : d.x a < 1 := by
    simp only [DoubleWell.x]; have : 0 < a / d.phi0 := by positivity
    linarith
  have xb : 0 ≤ d.x b := by
    simp only [DoubleWell.x]; have : b / d.phi0 ≤ 1 := by rw [div_le_one h0]; exact hb.2
    linarith
  have xab : d.x b < d.x a := by
    simp only [DoubleWell.x]; have : a / d.phi0 < b / d.phi0 := by
      rw [div_lt_div_iff_of_pos_right h0]; exact hab
    linarith
  rw [dw_eps d h0 hp (by linarith) xa, dw_eps d h0 hp xb (by linarith)]
  have hm := dw_mono d h0 hp xb xab xa
  have hn : 0 ≤ √2 * d.p * d.x b ^ (d.p - 1) / (d.phi0 * (1 - d.x b ^ d.p)) := by
    have := rpow_lt_one xb (by linarith : d.x b < 1) (by linarith : 0 < d.p)
    have := rpow_nonneg xb (d.p - 1)
    have : 0 < 1 - d.x b ^ d.p := by linarith
    positivity
  exact pow_lt_pow_left₀ hm hn (by norm_num)

theorem EPS_pos : 0 < EPS := by unfold EPS; positivity
theorem EPS_lt_one : EPS < 1 := by unfold EPS; norm_num

/-- General double well (`p > 1`): if `phi0` is not absurdly large (about `√2/EPS ≈ 6·10¹⁵` Planck
masses) the root finder is handed a bracket with a sign change, hence succeeds, and returns the end
of slow roll. -/
theorem C05_doublewell (root : RootScalar) (hroot : RootContract root) (d : DoubleWell)
    (h0 : 0 < d.phi0) (hp : 1 < d.p) (hbig : d.phi0 * EPS ≤ √2 * (1 - EPS) ^ (d.p - 1)) :
    ∃ φe, d.phi_end root = .ok φe ∧ EndOfSlowRoll (Ioc 0 d.phi0) d.get_epsilon_1V φe := by
  have h2 := sqrt2_pos
  have hE := EPS_pos
  have hE1 := EPS_lt_one
  have hp0 : 0 < d.p := by linarith
  have hxe : d.x (EPS * d.phi0) = 1 - EPS := by simp only [DoubleWell.x]; field_simp
  have hx0 : d.x d.phi0 = 0 := by simp only [DoubleWell.x]; field_simp; ring
  -- right end: epsilon = 0
  have hr : d.get_epsilon_1V d.phi0 - 1 = -1 := by
    simp only [DoubleWell.get_epsilon_1V, hx0]
    rw [zero_rpow (by linarith : 2 * d.p - 2 ≠ 0)]; simp
  -- left end: epsilon ≥ 1
  have hl : 0 ≤ d.get_epsilon_1V (EPS * d.phi0) - 1 := by
    rw [dw_eps d h0 hp (by rw [hxe]; linarith) (by rw [hxe]; linarith), hxe]
    have hb : 1 + d.p * (-EPS) ≤ (1 + -EPS) ^ d.p :=
      one_add_mul_self_le_rpow_one_add (by linarith) hp.le
    have hb' : 1 - (1 - EPS) ^ d.p ≤ d.p * EPS := by
      have e : (1:ℝ) + -EPS = 1 - EPS := by ring
      rw [e] at hb; linarith
    have hu : (1 - EPS) ^ d.p < 1 := rpow_lt_one (by linarith) (by linarith) hp0
    have : 1 ≤ √2 * d.p * (1 - EPS) ^ (d.p - 1) / (d.phi0 * (1 - (1 - EPS) ^ d.p)) := by
      rw [le_div_iff₀ (by apply mul_pos h0; linarith)]
      have k1 : d.phi0 * (1 - (1 - EPS) ^ d.p) ≤ d.phi0 * (d.p * EPS) :=
        mul_le_mul_of_nonneg_left hb' h0.le
      nlinarith
    nlinarith
  have hle : EPS * d.phi0 ≤ d.phi0 := by nlinarith
  have hcont : ContinuousOn (fun φ => d.get_epsilon_1V φ - 1) (Icc (EPS * d.phi0) d.phi0) := by
    have hx : Continuous d.x := by unfold DoubleWell.x; fun_prop
    have c1 : Continuous fun φ => d.x φ ^ (2 * d.p - 2) :=
      hx.rpow_const (fun _ => Or.inr (by linarith))
    have c2 : Continuous fun φ => d.x φ ^ d.p := hx.rpow_const (fun _ => Or.inr hp0.le)
    refine ContinuousOn.sub ?_ continuousOn_const
    refine ContinuousOn.div (continuous_const.mul c1).continuousOn
      (continuous_const.mul ((c2.sub continuous_const).pow 2)).continuousOn ?_
    intro φ h
    have x1 : d.x φ < 1 := by
      simp only [DoubleWell.x]
      have : 0 < φ / d.phi0 := div_pos (lt_of_lt_of_le (mul_pos hE h0) h.1) h0
      linarith
    have x0 : 0 ≤ d.x φ := by
      simp only [DoubleWell.x]; have : φ / d.phi0 ≤ 1 := by rw [div_le_one h0]; exact h.2
      linarith
    have := rpow_lt_one x0 x1 hp0
    have h3 : d.x φ ^ d.p - 1 ≠ 0 := by linarith
    positivity
  obtain ⟨r, hr1, hr2, hr3, hr4⟩ := hroot.found (fun φ => d.get_epsilon_1V φ - 1) (EPS * d.phi0)
    d.phi0 hle hcont (by simp only [hr]; nlinarith)
  refine ⟨r, hr1, EndOfSlowRoll.of_anti ⟨by nlinarith [mul_pos hE h0], hr3⟩ ?_ (dw_anti d h0 hp)⟩
  have := hr4; linarith

/-- The condition on `phi0` is met by any realistic value, e.g. `phi0 = 10` with `p = 2`. -/
example : (DoubleWell2 1 10).phi0 * EPS ≤ √2 * (1 - EPS) ^ ((DoubleWell2 1 10).p - 1) := by
  have h2 : 1 ≤ √(2:ℝ) := one_le_sqrt.mpr (by norm_num)
  have : ((2:ℝ) - 1) = 1 := by norm_num
  simp only [DoubleWell2, this, rpow_one]
  have h1 : EPS ≤ 1 / 100 := by unfold EPS; norm_num
  nlinarith [EPS_pos]

/-- Closed form of the quadratic double well. -/
theorem C05_doublewell2 (L phi0 : ℝ) (h0 : 0 < phi0) :
    EndOfSlowRoll (Ioc 0 phi0) (DoubleWell2 L phi0).get_epsilon_1V (DoubleWell2.phi_end phi0) := by
  have h2 := sqrt2_pos
  set T := √(phi0^2 + 2) with hT
  have hT2 : T^2 = phi0^2 + 2 := sq_sqrt (by positivity)
  have hT0 : 0 < T := sqrt_pos.mpr (by positivity)
  have hTs : √2 < T := sqrt_lt_sqrt (by norm_num) (by nlinarith)
  have hTp : T < phi0 + √2 := by
    by_contra hc
    have : (phi0 + √2)^2 ≤ T^2 := pow_le_pow_left₀ (by positivity) (not_lt.mp hc) 2
    nlinarith [sqrt2_sq]
  have hroot : √(phi0^2 - 2 * √2 * T + 4) = T - √2 := by
    have : phi0^2 - 2 * √2 * T + 4 = (T - √2)^2 := by
      have := sqrt2_sq; nlinarith
    rw [this, sqrt_sq (by linarith)]
  have hpe : DoubleWell2.phi_end phi0 = phi0 - (T - √2) := by
    simp only [DoubleWell2.phi_end, ← hT, hroot]; field_simp
  have hx : (DoubleWell2 L phi0).x (DoubleWell2.phi_end phi0) = (T - √2) / phi0 := by
    rw [hpe]; simp only [DoubleWell.x, DoubleWell2]; field_simp; ring
  refine EndOfSlowRoll.of_anti ?_ ?_ (dw_anti (DoubleWell2 L phi0) h0 (by simp [DoubleWell2]))
  · rw [hpe]; constructor
    · linarith
    · show phi0 - (T - √2) ≤ phi0
      linarith
  · simp only [DoubleWell.get_epsilon_1V, hx]
    have r2 : ∀ x : ℝ, x ^ ((2:ℝ) * 2 - 2) = x ^ 2 := fun x => by norm_num
    simp only [DoubleWell2, r2, rpow_two]
    have e : ((T - √2) / phi0)^2 - 1 = -(2 * √2 * (T - √2)) / phi0^2 := by
      have := sqrt2_sq; field_simp; nlinarith
    have h3 : T - √2 ≠ 0 := by linarith
    rw [e]
    rw [div_pow, div_pow, neg_sq, mul_pow, mul_pow, sqrt2_sq]
    fsr

/-- Ferrari's resolution behind `phi_end_squared` on abstract radicals: `f = φ₀⁴`, `a`, `a'` the two
real cube roots, `S = √(b/3)`. -/
private theorem dw4_ferrari {f a a' S D rf : ℝ} (hf : 0 < f) (ha : 0 < a) (ha' : 0 < a')
    (haa : a * a' = f^2) (hsum : a^3 + a'^3 = 2 * f^2 * (216 + f)) (hS : 0 < S)
    (hS2 : 3 * S^2 = 192 + f + a' + a) (hD : D * S = (192 + f - S^2) * S + 8 * (128 + f))
    (hrf : 0 < rf) (hrf2 : rf^2 = f) :
    0 < 8 + S - √D ∧ 8 + S - √D < rf ∧
      32 * (8 + S - √D)^3 = (f - (8 + S - √D)^2)^2 := by
  have ht : 2 * f ≤ a + a' := by nlinarith [sq_nonneg (a - a')]
  have hSf : 64 + f ≤ S^2 := by linarith
  have hS8 : 8 < S := by nlinarith
  -- the second quadratic factor
  obtain ⟨d, hd⟩ : ∃ d, d * S = (2 * S^2 - 192 - f) * S + (1024 + 8 * f) :=
    ⟨((2 * S^2 - 192 - f) * S + (1024 + 8 * f)) / S, div_mul_cancel₀ _ hS.ne'⟩
  have res : (S^2 - D) * d = f^2 - 128 * f - 12288 := by
    have t3 : (3 * S^2 - 192 - f)^3 = 2 * f^2 * (216 + f) + 3 * f^2 * (3 * S^2 - 192 - f) := by
      have e : 3 * S^2 - 192 - f = a + a' := by linarith
      rw [e]; linear_combination hsum + 3 * (a + a') * haa
    have : ((S^2 - D) * S) * (d * S) = (f^2 - 128 * f - 12288) * S^2 := by
      have e1 : (S^2 - D) * S = S^3 - D * S := by ring
      rw [e1, hd, hD]
      linear_combination (4/27) * t3
    have h2 : S^2 * ((S^2 - D) * d) = S^2 * (f^2 - 128 * f - 12288) := by linarith
    exact mul_left_cancel₀ (by positivity) h2
  have lin : (S^2 - D) - d = (-4096 - 32 * f) / (2 * S) := by
    rw [eq_div_iff (by positivity)]; linear_combination -2 * hD - 2 * hd
  have lin' : 2 * S * ((S^2 - D) - d) = -4096 - 32 * f := by
    rw [lin]; field_simp
  have sum' : (S^2 - D) + d = 4 * S^2 - 384 - 2 * f := by
    have : S * ((S^2 - D) + d) = S * (4 * S^2 - 384 - 2 * f) := by linarith
    exact mul_left_cancel₀ hS.ne' this
  have fac : ∀ w : ℝ, (f - w^2)^2 - 32 * w^3 =
      ((w - 8 - S)^2 - D) * ((w - 8)^2 + 2 * S * (w - 8) + d) := by
    intro w
    linear_combination (-(w-8)^2) * sum' - (w - 8) * lin' - res
  have sec : ∀ w : ℝ, 0 ≤ w → 0 < (w - 8)^2 + 2 * S * (w - 8) + d := by
    intro w hw
    have k : (64 - 16 * S + d) * S = (S - 8) * (2 * S^2 - (128 + f)) := by linear_combination hd
    have k2 : 0 < (64 - 16 * S + d) * S := by rw [k]; apply mul_pos <;> nlinarith
    have k3 : 0 < 64 - 16 * S + d := pos_of_mul_pos_left k2 hS.le
    nlinarith [mul_nonneg hw (by linarith : 0 ≤ S - 8)]
  -- a root between 0 and rf
  have hcont : ContinuousOn (fun w : ℝ => (f - w^2)^2 - 32 * w^3) (Icc 0 rf) := by fun_prop
  obtain ⟨w0, ⟨hw0, hw1⟩, hw⟩ := intermediate_value_Icc' hrf.le hcont
    (show (0:ℝ) ∈ Icc ((f - rf^2)^2 - 32 * rf^3) ((f - 0^2)^2 - 32 * 0^3) by
      constructor
      · rw [hrf2]; have : 0 < rf^3 := by positivity
        nlinarith
      · have : 0 < f^2 := by positivity
        nlinarith)
  simp only at hw
  have hw1' : w0 < rf := by
    rcases hw1.lt_or_eq with h | h
    · exact h
    · exfalso; rw [h, hrf2] at hw; have : 0 < rf^3 := by positivity
      nlinarith
  have z1 : (w0 - 8 - S)^2 - D = 0 := by
    rw [fac w0] at hw
    rcases mul_eq_zero.mp hw with h | h
    · exact h
    · exact absurd h (sec w0 hw0).ne'
  have hD0 : 0 ≤ D := by nlinarith [sq_nonneg (w0 - 8 - S)]
  have hsD : √D^2 = D := sq_sqrt hD0
  have hsD0 := sqrt_nonneg D
  have hle : 8 + S - √D ≤ w0 := by
    have : |w0 - 8 - S| = √D := by rw [← sqrt_sq_eq_abs]; congr 1; linarith
    have := neg_abs_le (w0 - 8 - S); linarith
  have hpos : 0 < 8 + S - √D := by
    have h0 := fac 0
    have s0 := sec 0 le_rfl
    have : 0 < ((0 - 8 - S)^2 - D) * ((0 - 8)^2 + 2 * S * (0 - 8) + d) := by
      rw [← h0]; ring_nf; positivity
    have : 0 < (0 - 8 - S)^2 - D := pos_of_mul_pos_left this s0.le
    have : √D < 8 + S := by
      rw [sqrt_lt' (by linarith)]; nlinarith
    linarith
  refine ⟨hpos, by linarith, ?_⟩
  have := fac (8 + S - √D)
  have e : (8 + S - √D - 8 - S)^2 - D = 0 := by linear_combination hsD
  rw [e, zero_mul] at this; linarith

/-- The closed form `phi_end_squared` of the quartic double well is the squared distance of the end
of slow roll from the hilltop. -/
theorem C05_doublewell4 (L phi0 : ℝ) (h0 : 0 < phi0) :
    EndOfSlowRoll (Ioc 0 phi0) (DoubleWell4 L phi0).get_epsilon_1V
      (phi0 - √(DoubleWell4.phi_end_squared phi0)) := by
  obtain ⟨f, hf⟩ : ∃ f, f = phi0^4 := ⟨_, rfl⟩
  have hf0 : 0 < f := by rw [hf]; positivity
  obtain ⟨r, hr⟩ : ∃ r, r = √(3 * phi0^16 * (108 + phi0^4)) := ⟨_, rfl⟩
  have hr0 : 0 ≤ r := by rw [hr]; exact sqrt_nonneg _
  have hr2 : r^2 = 3 * f^4 * (108 + f) := by
    rw [hr, sq_sqrt (by positivity), hf]; ring
  have hprod : (216 * f^2 + f^3 - 12 * r) * (216 * f^2 + f^3 + 12 * r) = f^6 := by
    linear_combination -144 * hr2
  have hplus : 0 < 216 * f^2 + f^3 + 12 * r := by positivity
  have hminus : 0 < 216 * f^2 + f^3 - 12 * r :=
    pos_of_mul_pos_left (by rw [hprod]; positivity) hplus.le
  obtain ⟨a, hav⟩ : ∃ a, a = DoubleWell4.auxA phi0 := ⟨_, rfl⟩
  have hae : a = (216 * f^2 + f^3 - 12 * r) ^ (1/3 : ℝ) := by
    rw [hav, DoubleWell4.auxA, hr, hf]; congr 1; ring
  have ha : 0 < a := by rw [hae]; exact rpow_pos_of_pos hminus _
  have ha3 : a^3 = 216 * f^2 + f^3 - 12 * r := by
    rw [hae, ← rpow_natCast, ← rpow_mul hminus.le]; norm_num
  obtain ⟨a', ha'⟩ : ∃ a', a' = f^2 / a := ⟨_, rfl⟩
  have ha0' : 0 < a' := by rw [ha']; positivity
  have haa : a * a' = f^2 := by rw [ha']; field_simp
  have ha3' : a'^3 = 216 * f^2 + f^3 + 12 * r := by
    have : a^3 * a'^3 = a^3 * (216 * f^2 + f^3 + 12 * r) := by
      rw [← mul_pow, haa, ha3, hprod]; ring
    exact mul_left_cancel₀ (by positivity) this
  have hb : DoubleWell4.auxB phi0 = 192 + f + a' + a := by
    rw [DoubleWell4.auxB, ← hav, ha', hf]; ring
  have hb0 : 0 < 192 + f + a' + a := by positivity
  have s3 : 0 < √(3:ℝ) := sqrt_pos.mpr (by norm_num)
  have s32 : √(3:ℝ)^2 = 3 := sq_sqrt (by norm_num)
  obtain ⟨S, hS⟩ : ∃ S, S = √(192 + f + a' + a) / √3 := ⟨_, rfl⟩
  have hbs : 0 < √(192 + f + a' + a) := sqrt_pos.mpr hb0
  have hS0 : 0 < S := by rw [hS]; positivity
  have hS2 : 3 * S^2 = 192 + f + a' + a := by
    rw [hS, div_pow, sq_sqrt hb0.le, s32]; ring
  obtain ⟨D, hD⟩ : ∃ D, D = 128 - (a - f)^2 / (3 * a) + (8 * √3 * (128 + f)) /
    √(192 + f + a' + a) := ⟨_, rfl⟩
  have hDS : D * S = (192 + f - S^2) * S + 8 * (128 + f) := by
    have e1 : (a - f)^2 / (3 * a) = (a + a' - 2 * f) / 3 := by
      rw [ha']; field_simp; ring
    have e2 : (8 * √3 * (128 + f)) / √(192 + f + a' + a) * S = 8 * (128 + f) := by
      rw [hS]; field_simp
    rw [hD, add_mul, e2, e1]
    linear_combination (S/3) * hS2
  have hw : DoubleWell4.phi_end_squared phi0 = 8 + S - √D := by
    rw [DoubleWell4.phi_end_squared, hb, ← hav, hD, hS, hf]
  obtain ⟨w0, w1, w2⟩ := dw4_ferrari hf0 ha ha0' haa (by rw [ha3, ha3']; ring) hS0 hS2 hDS
    (by positivity : 0 < phi0^2) (by rw [hf]; ring)
  rw [← hw] at w0 w1 w2
  generalize DoubleWell4.phi_end_squared phi0 = w at *
  have sw0 : 0 < √w := sqrt_pos.mpr w0
  have sw2 : √w^2 = w := sq_sqrt w0.le
  have sw1 : √w < phi0 := by rw [sqrt_lt' h0]; exact w1
  refine EndOfSlowRoll.of_anti ⟨by linarith, by linarith⟩ ?_
    (dw_anti (DoubleWell4 L phi0) h0 (by simp [DoubleWell4]))
  have hx : (DoubleWell4 L phi0).x (phi0 - √w) = √w / phi0 := by
    simp only [DoubleWell.x, DoubleWell4]; field_simp; ring
  simp only [DoubleWell.get_epsilon_1V, hx]
  have r6 : ∀ x : ℝ, x ^ ((2:ℝ) * 4 - 2) = x ^ 6 := fun x => by
    rw [← rpow_natCast]; norm_num
  have r4 : ∀ x : ℝ, x ^ (4:ℝ) = x ^ 4 := fun x => by rw [← rpow_natCast]; norm_num
  simp only [DoubleWell4, r6, r4]
  have e6 : (√w / phi0)^6 = w^3 / phi0^6 := by
    have : √w^6 = w^3 := by rw [← congrArg (· ^ 3) sw2]; ring
    rw [div_pow, this]
  have e4 : (√w / phi0)^4 = w^2 / phi0^4 := by
    have : √w^4 = w^2 := by rw [← congrArg (· ^ 2) sw2]; ring
    rw [div_pow, this]
  rw [e6, e4]
  have hne : f - w^2 ≠ 0 := by
    have : 0 < 32 * w^3 := by positivity
    intro hc; rw [hc] at w2; norm_num at w2; nlinarith
  have : 2 * (4:ℝ)^2 * (w^3 / phi0^6) / (phi0^2 * (w^2 / phi0^4 - 1)^2) =
      32 * w^3 / (f - w^2)^2 := by
    have e : w^2 / phi0^4 - 1 = -(f - w^2) / phi0^4 := by rw [hf]; field_simp; ring
    rw [e, div_pow, neg_sq]; field_simp; norm_num
  rw [this, w2, div_self (by positivity)]

/-- Hence the root-finding `phi_end` that `DoubleWell4Potential` inherits agrees with its own closed
form. -/
theorem C05_doublewell4_consistent (root : RootScalar) (hroot : RootContract root) (L phi0 : ℝ)
    (h0 : 0 < phi0) (hbig : phi0 * EPS ≤ √2 * (1 - EPS) ^ ((4:ℝ) - 1)) :
    (DoubleWell4 L phi0).phi_end root = .ok (phi0 - √(DoubleWell4.phi_end_squared phi0)) := by
  obtain ⟨φe, h1, h2⟩ := C05_doublewell root hroot (DoubleWell4 L phi0) h0 (by simp [DoubleWell4])
    hbig
  rw [h1, (C05_doublewell4 L phi0 h0).unique φe h2.mem h2.value]

/-! ## Radion gauge -/

private theorem rg_anti (g : RadionGauge) (ha : 0 < g.alpha) (hp : 0 < g.p) :
    StrictAntiOn g.get_epsilon_1V (Ioi 0) := by
  intro a h b hb hab
  have h : 0 < a := h
  have hb : 0 < b := hb
  have u := rpow_pos_of_pos h g.p
  have uv : a ^ g.p < b ^ g.p := rpow_lt_rpow h.le hab hp
  simp only [RadionGauge.get_epsilon_1V]
  refine div_lt_div_of_pos_left (by positivity) (by positivity) ?_
  have k1 : a^2 < b^2 := by nlinarith
  have k2 : (g.alpha + a ^ g.p)^2 < (g.alpha + b ^ g.p)^2 :=
    pow_lt_pow_left₀ (by linarith) (by positivity) (by norm_num)
  nlinarith [mul_lt_mul'' k1 k2 (by positivity) (by positivity)]

/-- General radion gauge: with `alpha`, `p` such that the two hard-coded ends of the bracket really
are on the two sides of the end of inflation, the root finder succeeds and returns it.  (`hlow`: the
lower end `1e-30` is not already in slow roll; `hhigh`: the plateau point `V = Lambda⁴(1-EPS)` is.) -/
theorem C05_radiongauge (root : RootScalar) (hroot : RootContract root) (g : RadionGauge)
    (ha : 0 < g.alpha) (hp : 0 < g.p) (hL : g.Lambda ≠ 0)
    (hlow : √2 * (1 / 10^30) * (g.alpha + (1 / 10^30 : ℝ) ^ g.p) ≤ g.alpha * g.p)
    (hhigh : g.p * EPS ≤ √2 * (g.alpha * (1 - EPS) / EPS) ^ (1 / g.p)) :
    ∃ φe, g.phi_end root = .ok φe ∧ EndOfSlowRoll (Ioi 0) g.get_epsilon_1V φe := by
  have h2 := sqrt2_pos
  have hE := EPS_pos
  have hE1 := EPS_lt_one
  have hL4 : 0 < g.Lambda^4 := by positivity
  have h1E : 0 < 1 - EPS := by linarith
  set B := g.inv_V (g.Lambda^4 * (1 - EPS)) with hB
  have hBv : B = (g.alpha * (1 - EPS) / EPS) ^ (1 / g.p) := by
    rw [hB]; simp only [RadionGauge.inv_V]
    congr 1
    have : g.Lambda^4 / (g.Lambda^4 * (1 - EPS)) - 1 = EPS / (1 - EPS) := by field_simp; ring
    rw [this]; field_simp
  have hB0 : 0 < B := by rw [hBv]; exact rpow_pos_of_pos (by positivity) _
  have hBp : B ^ g.p = g.alpha * (1 - EPS) / EPS := by
    rw [hBv, ← rpow_mul (by positivity), one_div_mul_cancel hp.ne', rpow_one]
  have sq_form : ∀ φ : ℝ, 0 < φ → g.get_epsilon_1V φ =
      (g.alpha * g.p / (√2 * φ * (g.alpha + φ ^ g.p)))^2 := by
    intro φ h
    simp only [RadionGauge.get_epsilon_1V]
    rw [div_pow, mul_pow, mul_pow, mul_pow, sqrt2_sq]
  have hlow' : 0 ≤ g.get_epsilon_1V (1/10^30) - 1 := by
    have hu := rpow_pos_of_pos (by norm_num : (0:ℝ) < 1/10^30) g.p
    rw [sq_form _ (by norm_num)]
    have : 1 ≤ g.alpha * g.p / (√2 * (1/10^30) * (g.alpha + (1/10^30 : ℝ) ^ g.p)) := by
      rw [le_div_iff₀ (by positivity)]; linarith
    nlinarith
  have hhigh' : g.get_epsilon_1V B - 1 ≤ 0 := by
    rw [sq_form _ hB0, hBp]
    have e : g.alpha + g.alpha * (1 - EPS) / EPS = g.alpha / EPS := by field_simp; ring
    rw [e]
    have k : g.alpha * g.p / (√2 * B * (g.alpha / EPS)) = g.p * EPS / (√2 * B) := by field_simp
    rw [k]
    have h1 : g.p * EPS / (√2 * B) ≤ 1 := by
      rw [div_le_one (by positivity), hBv]; exact hhigh
    have h3 : 0 ≤ g.p * EPS / (√2 * B) := by positivity
    nlinarith
  have hanti := rg_anti g ha hp
  have hle : (1/10^30 : ℝ) ≤ B := by
    by_contra hc
    have := hanti (show B ∈ Ioi (0:ℝ) from hB0) (show (1/10^30:ℝ) ∈ Ioi (0:ℝ) by simp) (not_le.mp hc)
    linarith
  have hcont : ContinuousOn (fun φ => g.get_epsilon_1V φ - 1) (Icc (1/10^30) B) := by
    have pos : ∀ φ ∈ Icc (1/10^30 : ℝ) B, 0 < φ := fun φ h => lt_of_lt_of_le (by norm_num) h.1
    refine ContinuousOn.sub ?_ continuousOn_const
    have c : ContinuousOn (fun φ : ℝ => φ ^ g.p) (Icc (1/10^30) B) :=
      continuousOn_id.rpow_const (fun φ h => Or.inl (pos φ h).ne')
    refine ContinuousOn.div (by fun_prop) (by fun_prop) ?_
    intro φ h
    have := pos φ h
    have := rpow_pos_of_pos this g.p
    positivity
  obtain ⟨r, hr1, hr2, hr3, hr4⟩ := hroot.found (fun φ => g.get_epsilon_1V φ - 1) (1/10^30) B hle
    hcont (mul_nonpos_of_nonneg_of_nonpos hlow' hhigh')
  refine ⟨r, hr1, EndOfSlowRoll.of_anti (lt_of_lt_of_le (by norm_num) hr2) ?_ hanti⟩
  have := hr4; linarith

/-- both side conditions hold for `p = 2`, `alpha = 1` -/
example : √2 * (1 / 10^30) * ((RadionGauge2 1 1).alpha + (1 / 10^30 : ℝ) ^ (RadionGauge2 1 1).p) ≤
      (RadionGauge2 1 1).alpha * (RadionGauge2 1 1).p ∧
    (RadionGauge2 1 1).p * EPS ≤
      √2 * ((RadionGauge2 1 1).alpha * (1 - EPS) / EPS) ^ (1 / (RadionGauge2 1 1).p) := by
  have h2 : 1 ≤ √(2:ℝ) := one_le_sqrt.mpr (by norm_num)
  have h2' : √(2:ℝ) ≤ 2 := by rw [sqrt_le_left (by norm_num)]; norm_num
  simp only [RadionGauge2]
  constructor
  · rw [rpow_two]; nlinarith
  · have h1 : EPS ≤ 1 / 100 := by unfold EPS; norm_num
    have : 1 ≤ 1 * (1 - EPS) / EPS := by
      rw [le_div_iff₀ EPS_pos]; linarith
    have := one_le_rpow this (by norm_num : (0:ℝ) ≤ 1/2)
    nlinarith [EPS_pos]

/-- Cardano's formula behind the closed form, on abstract radicals. -/
private theorem rg2_cardano {h A q a T s : ℝ} (ha : 0 < a) (h0 : 0 < h) (A0 : 0 < A) (q0 : 0 < q)
    (T0 : 0 < T) (s0 : 0 < s) (hs : s^2 = 2) (h12 : h^12 = 3) (A3 : A^3 = a)
    (q6 : q^6 = h^6 * a + 9 * T + 27 * h^6) (hT : T^2 = 2*a + 27) :
    0 < h^4 * A * q^2 - h^6 * A^2 ∧
    ∀ f, f = h * (h^4 * A * q^2 - h^6 * A^2) / (3 * q) → 0 < f ∧ f * (a + f^2) = s * a := by
  have hh12 : h^6 * h^6 = 3 := by rw [← h12]; ring
  have key : q^6 - h^6 * a = s * h^21 * q^3 := by
    have lhs : q^6 - h^6*a = 9 * T + 27 * h^6 := by rw [q6]; ring
    have lpos : 0 ≤ q^6 - h^6*a := by rw [lhs]; positivity
    have sq : (q^6 - h^6 * a)^2 = (s * h^21 * q^3)^2 := by
      have e1 : (s * h^21 * q^3)^2 = s^2 * (h^12)^3 * h^6 * q^6 := by ring
      rw [e1, h12, lhs, q6, hs]
      generalize h^6 = g at *
      linear_combination 81 * hT + (729 - 54 * a - 54 * 27) * hh12
    exact (pow_left_inj₀ lpos (by positivity) (by norm_num : (2:ℕ) ≠ 0)).mp sq
  have big : 0 < h^4 * A * q^2 - h^6 * A^2 := by
    have : h^6 * A < h^4 * q^2 := by
      by_contra hc
      have k : (h^4*q^2)^3 ≤ (h^6*A)^3 := pow_le_pow_left₀ (by positivity) (not_lt.mp hc) 3
      have e1 : (h^4*q^2)^3 = 3 * q^6 := by rw [← h12]; ring
      have e2 : (h^6*A)^3 = 3 * (h^6 * a) := by rw [← h12, ← A3]; ring
      have k2 : 0 < s * h^21 * q^3 := by positivity
      rw [e1, e2] at k
      linarith
    have : A * (h^6 * A) < A * (h^4 * q^2) := mul_lt_mul_of_pos_left this A0
    linarith
  refine ⟨big, fun f hf => ⟨by rw [hf]; positivity, ?_⟩⟩
  obtain ⟨u, hu⟩ : ∃ u, u = h^5 * A * q / 3 := ⟨_, rfl⟩
  obtain ⟨v, hv⟩ : ∃ v, v = h^7 * A^2 / (3 * q) := ⟨_, rfl⟩
  have hfu : f = u - v := by rw [hf, hu, hv]; field_simp
  have uv : u * v = a / 3 := by
    have : u * v = h^12 * A^3 / 9 := by rw [hu, hv]; field_simp; ring
    rw [this, h12, A3]; ring
  have uv3 : u^3 - v^3 = s * a := by
    have e : u^3 - v^3 = A^3 * h^15 * (q^6 - h^6 * A^3) / (27 * q^3) := by
      rw [hu, hv]; field_simp; ring
    rw [e, A3, key]
    have e2 : a * h^15 * (s * h^21 * q^3) = (h^12)^3 * (s * a * q^3) := by ring
    rw [e2, h12]; field_simp; norm_num
  have : (u - v) * (a + (u - v)^2) = (u^3 - v^3) + (u - v) * (a - 3 * (u * v)) := by ring
  rw [hfu, this, uv3, uv]; ring

/-- Closed form (Cardano) of the quadratic radion gauge. -/
theorem C05_radiongauge2 (L a : ℝ) (ha : 0 < a) :
    EndOfSlowRoll (Ioi 0) (RadionGauge2 L a).get_epsilon_1V (RadionGauge2.phi_end a) := by
  have h2 := sqrt2_pos
  have hT2 : √(2*a + 27)^2 = 2*a + 27 := sq_sqrt (by positivity)
  have hT0 : 0 < √(2*a + 27) := sqrt_pos.mpr (by positivity)
  have hs3 : 0 < √(3:ℝ) := sqrt_pos.mpr (by norm_num)
  have hR0 : 0 < RadionGauge2.auxR a := by unfold RadionGauge2.auxR; positivity
  have pw : ∀ {b : ℝ} (_ : 0 < b) (r : ℝ) (k : ℕ), (b ^ r) ^ k = b ^ (r * k) := fun hb r k => by
    rw [rpow_mul hb.le, rpow_natCast]
  have t3 : (0:ℝ) < 3 := by norm_num
  have h12 : ((3:ℝ) ^ (1/12 : ℝ))^12 = 3 := by rw [pw t3 _ 12]; norm_num
  have h8 : (3:ℝ) ^ (2/3 : ℝ) = ((3:ℝ) ^ (1/12 : ℝ))^8 := by rw [pw t3 _ 8]; norm_num
  have h10 : (3:ℝ) ^ (5/6 : ℝ) = ((3:ℝ) ^ (1/12 : ℝ))^10 := by rw [pw t3 _ 10]; norm_num
  have h6 : √3 = ((3:ℝ) ^ (1/12 : ℝ))^6 := by rw [pw t3 _ 6, sqrt_eq_rpow]; norm_num
  have A3 : (a ^ (1/3 : ℝ))^3 = a := by rw [pw ha _ 3]; norm_num
  have A4 : a ^ (4/3 : ℝ) = (a ^ (1/3 : ℝ))^4 := by rw [pw ha _ 4]; norm_num
  have A2 : a ^ (2/3 : ℝ) = (a ^ (1/3 : ℝ))^2 := by rw [pw ha _ 2]; norm_num
  have q6 : (RadionGauge2.auxR a ^ (1/6 : ℝ))^6 = RadionGauge2.auxR a := by
    rw [pw hR0 _ 6]; norm_num
  have q4 : RadionGauge2.auxR a ^ (2/3 : ℝ) = (RadionGauge2.auxR a ^ (1/6 : ℝ))^4 := by
    rw [pw hR0 _ 4]; norm_num
  have q2 : RadionGauge2.auxR a ^ (1/3 : ℝ) = (RadionGauge2.auxR a ^ (1/6 : ℝ))^2 := by
    rw [pw hR0 _ 2]; norm_num
  have h0 : 0 < (3:ℝ) ^ (1/12 : ℝ) := rpow_pos_of_pos t3 _
  have A0 : 0 < a ^ (1/3 : ℝ) := rpow_pos_of_pos ha _
  have q0 : 0 < RadionGauge2.auxR a ^ (1/6 : ℝ) := rpow_pos_of_pos hR0 _
  have q6' : (RadionGauge2.auxR a ^ (1/6 : ℝ))^6 = ((3:ℝ) ^ (1/12 : ℝ))^6 * a + 9 * √(2*a + 27)
      + 27 * ((3:ℝ) ^ (1/12 : ℝ))^6 := by rw [q6, ← h6]; rfl
  have hphi : RadionGauge2.phi_end a = (3:ℝ) ^ (1/12 : ℝ) * √(
      3 * (a ^ (1/3 : ℝ))^4 + ((3:ℝ) ^ (1/12 : ℝ))^8 * (a ^ (1/3 : ℝ))^2
        * (RadionGauge2.auxR a ^ (1/6 : ℝ))^4 - 2 * ((3:ℝ) ^ (1/12 : ℝ))^10 * a
        * (RadionGauge2.auxR a ^ (1/6 : ℝ))^2) / (3 * RadionGauge2.auxR a ^ (1/6 : ℝ)) := by
    simp only [RadionGauge2.phi_end, h8, h10, A4, A2, q4, q2]
  generalize RadionGauge2.auxR a ^ (1/6 : ℝ) = q at *
  generalize (3:ℝ) ^ (1/12 : ℝ) = h at *
  generalize a ^ (1/3 : ℝ) = A at *
  generalize √(2*a + 27) = T at *
  obtain ⟨big, hall⟩ := rg2_cardano ha h0 A0 q0 hT0 h2 sqrt2_sq h12 A3 q6' hT2
  have e : 3 * A^4 + h^8 * A^2 * q^4 - 2 * h^10 * a * q^2 = (h^4 * A * q^2 - h^6 * A^2)^2 := by
    rw [← A3, ← h12]; ring
  rw [e, sqrt_sq big.le] at hphi
  obtain ⟨hpos, cubic⟩ := hall _ hphi
  refine EndOfSlowRoll.of_anti hpos ?_ (rg_anti (RadionGauge2 L a) ha (by simp [RadionGauge2]))
  simp only [RadionGauge.get_epsilon_1V, RadionGauge2, rpow_two]
  have : 2 * RadionGauge2.phi_end a^2 * (a + RadionGauge2.phi_end a^2)^2 =
      2 * (RadionGauge2.phi_end a * (a + RadionGauge2.phi_end a^2))^2 := by ring
  rw [this, cubic, mul_pow, sqrt2_sq]
  fsr

/-- Quadratic, linear, cubic and quartic potentials inherit the monomial's end of slow roll. -/
theorem C05_monomial_subclasses (L : ℝ) :
    EndOfSlowRoll (Ioi 0) (Quadratic.mk L).get_epsilon_1V (Quadratic.mk L).phi_end ∧
    EndOfSlowRoll (Ioi 0) (Linear L).get_epsilon_1V (Linear L).phi_end ∧
    EndOfSlowRoll (Ioi 0) (Cubic L).get_epsilon_1V (Cubic L).phi_end ∧
    EndOfSlowRoll (Ioi 0) (Quartic L).get_epsilon_1V (Quartic L).phi_end :=
  ⟨C05_monomial ⟨L, 2⟩ (by norm_num), C05_monomial ⟨L, 1⟩ (by norm_num),
   C05_monomial ⟨L, 3⟩ (by norm_num), C05_monomial ⟨L, 4⟩ (by norm_num)⟩

open Classical in
/-- The contract assumed of `root_scalar` is consistent: some function satisfies it. -/
theorem rootContract_satisfiable : ∃ root : RootScalar, RootContract root := by
  refine ⟨fun f a b => if 0 < f a * f b then .error (.valueError "same sign") else
    if h : ∃ r, a ≤ r ∧ r ≤ b ∧ f r = 0 then .ok h.choose else .ok a, ?_, ?_⟩
  · intro f a b hab hc hf
    have hex : ∃ r, a ≤ r ∧ r ≤ b ∧ f r = 0 := by
      have hi := fun {x y : ℝ} (hx : x ∈ Icc a b) (hy : y ∈ Icc a b) =>
        (isPreconnected_Icc (a := a) (b := b)).intermediate_value hx hy (f := f)
      rcases le_total (f a) 0 with h | h
      · rcases le_total 0 (f b) with h' | h'
        · obtain ⟨r, hr, e⟩ := hi (left_mem_Icc.mpr hab) (right_mem_Icc.mpr hab) hc ⟨h, h'⟩
          exact ⟨r, hr.1, hr.2, e⟩
        · have : f a * f b = 0 := le_antisymm hf (mul_nonneg_of_nonpos_of_nonpos h h')
          rcases mul_eq_zero.mp this with e | e
          · exact ⟨a, le_rfl, hab, e⟩
          · exact ⟨b, hab, le_rfl, e⟩
      · rcases le_total (f b) 0 with h' | h'
        · obtain ⟨r, hr, e⟩ := hi (right_mem_Icc.mpr hab) (left_mem_Icc.mpr hab) hc ⟨h', h⟩
          exact ⟨r, hr.1, hr.2, e⟩
        · have : f a * f b = 0 := le_antisymm hf (mul_nonneg h h')
          rcases mul_eq_zero.mp this with e | e
          · exact ⟨a, le_rfl, hab, e⟩
          · exact ⟨b, hab, le_rfl, e⟩
    refine ⟨hex.choose, ?_, hex.choose_spec⟩
    simp only [not_lt.mpr hf, if_false, dif_pos hex]
  · intro f a b h
    exact ⟨"same sign", by simp only [h, if_true]⟩

/-- e.g. the Starobinsky field ends slow roll at `√(3/2) log(1 + 2/√3) ≈ 0.94`, a positive value. -/
example : 0 < (Starobinsky.mk 1).phi_end := (C05_starobinsky ⟨1⟩).mem

end Primpy
