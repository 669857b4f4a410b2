import Verif.Props.C06
import Mathlib.Analysis.Calculus.MeanValue
import Mathlib.Analysis.Calculus.Deriv.MeanValue

/-!
# C07 — `sr_N2phi` inverts `sr_phi2N` on the inflating branch

Exact inverse functions for all closed forms; through the root finder for the general radion gauge
(with a `ValueError` outside the reachable range); up to one grid spacing `phi0/10⁵` for the general
double well, whose `sr_N2phi` is a table interpolation.
-/

namespace Primpy
open Real Spec Set

/-- the e-fold count is strictly increasing on the branch -/
theorem efold_strictMono {dom : Set ℝ} {V dV N : ℝ → ℝ} {φe : ℝ} (h : EfoldCount dom V dV N φe)
    (hc : Convex ℝ dom) (hpos : ∀ φ ∈ dom, 0 < V φ / dV φ) : StrictMonoOn N dom := by
  refine strictMonoOn_of_deriv_pos hc (fun x hx => (h.slope x hx).continuousAt.continuousWithinAt) ?_
  intro x hx
  have hx' := interior_subset hx
  rw [(h.slope x hx').deriv]; exact hpos x hx'

theorem C07_monomial (m : Monomial) (hp : 0 < m.p) :
    InverseOn (Ici m.phi_end) (Ici 0) m.sr_phi2N m.sr_N2phi := by
  have h2 : √2 ^ 2 = (2:ℝ) := sq_sqrt (by norm_num)
  have s2 := sqrt_pos.mpr (by norm_num : (0:ℝ) < 2)
  have pe : 0 < m.phi_end := by unfold Monomial.phi_end; positivity
  have pe2 : m.phi_end^2 = m.p^2 / 2 := by
    unfold Monomial.phi_end; rw [div_pow, mul_pow, h2]; ring
  have sq : ∀ N, 0 ≤ N → m.sr_N2phi N ^ 2 = m.p * (4 * N + m.p) / 2 := fun N hN => by
    unfold Monomial.sr_N2phi
    rw [div_pow, mul_pow, sq_sqrt (by linarith), sq_sqrt (by linarith)]; ring
  refine ⟨fun φ h => ?_, fun N hN => ?_, fun φ h => ?_, fun N hN => ?_⟩
  · have h : m.phi_end ≤ φ := h
    show 0 ≤ -m.p / 4 + φ^2 / (2 * m.p)
    have : m.p^2 / 2 ≤ φ^2 := by rw [← pe2]; exact pow_le_pow_left₀ pe.le h 2
    have : m.p / 4 ≤ φ^2 / (2 * m.p) := by
      rw [le_div_iff₀ (by positivity)]; nlinarith
    linarith
  · have hN : 0 ≤ N := hN
    show m.phi_end ≤ m.sr_N2phi N
    refine le_of_sq_le_sq ?_ (by unfold Monomial.sr_N2phi; positivity)
    rw [pe2, sq N hN]; nlinarith
  · have h : m.phi_end ≤ φ := h
    have hN : 4 * m.sr_phi2N φ + m.p = 2 * φ^2 / m.p := by
      unfold Monomial.sr_phi2N; field_simp; ring
    show √(2 * m.p) * √(4 * m.sr_phi2N φ + m.p) / 2 = φ
    rw [hN, ← sqrt_mul (by linarith)]
    have : 2 * m.p * (2 * φ^2 / m.p) = (2 * φ)^2 := by fsr
    rw [this, sqrt_sq (by linarith)]; ring
  · have hN : 0 ≤ N := hN
    show -m.p / 4 + m.sr_N2phi N^2 / (2 * m.p) = N
    rw [sq N hN]; field_simp; ring

/-- Quadratic, linear, cubic, quartic inherit it. -/
theorem C07_monomial_subclasses (L : ℝ) :
    InverseOn (Ici (Quadratic.mk L).phi_end) (Ici 0) (Quadratic.mk L).sr_phi2N
      (Quadratic.mk L).sr_N2phi ∧
    InverseOn (Ici (Linear L).phi_end) (Ici 0) (Linear L).sr_phi2N (Linear L).sr_N2phi ∧
    InverseOn (Ici (Cubic L).phi_end) (Ici 0) (Cubic L).sr_phi2N (Cubic L).sr_N2phi ∧
    InverseOn (Ici (Quartic L).phi_end) (Ici 0) (Quartic L).sr_phi2N (Quartic L).sr_N2phi :=
  ⟨C07_monomial ⟨L, 2⟩ (by norm_num), C07_monomial ⟨L, 1⟩ (by norm_num),
   C07_monomial ⟨L, 3⟩ (by norm_num), C07_monomial ⟨L, 4⟩ (by norm_num)⟩

/-! ## Starobinsky -/

/-- What `scipy.special.lambertw(x, k=-1)` is documented to return for real `x ∈ [-1/e, 0)`: the
solution `w ≤ -1` of `w eʷ = x`. -/
def LambertContract (W : ℝ → ℝ) : Prop :=
  ∀ x, -exp (-1) ≤ x → x < 0 → W x ≤ -1 ∧ W x * exp (W x) = x

private theorem xexp_anti {x y : ℝ} (hx : 1 ≤ x) (h : x < y) : y * exp (-y) < x * exp (-x) := by
  have e : exp (-x) = exp (-y) * exp (y - x) := by rw [← exp_add]; congr 1; ring
  have h1 : (y - x) + 1 < exp (y - x) := add_one_lt_exp (by linarith)
  rw [e]
  have : y < x * exp (y - x) := by nlinarith
  have := exp_pos (-y)
  nlinarith

private theorem lambert_eq {W : ℝ → ℝ} (hW : LambertContract W) {E : ℝ} (hE : 1 ≤ E) :
    W (-(E * exp (-E))) = -E := by
  have hle : E * exp (-E) ≤ exp (-1) := by
    rcases hE.lt_or_eq with h | h
    · have := xexp_anti le_rfl h; linarith
    · rw [← h]; linarith
  have hpos : 0 < E * exp (-E) := by have := exp_pos (-E); positivity
  obtain ⟨h1, h2⟩ := hW (-(E * exp (-E))) (by linarith) (by linarith)
  generalize W (-(E * exp (-E))) = w at *
  have h2' : (-w) * exp (-(-w)) = E * exp (-E) := by rw [neg_neg]; linarith
  rcases lt_trichotomy (-w) E with h | h | h
  · have := xexp_anti (by linarith) h; linarith
  · linarith
  · have := xexp_anti hE h; linarith

private theorem starobinsky_mono (s : Starobinsky) : StrictMonoOn s.sr_phi2N (Ici 0) := by
  intro a ha b hb hab
  have hg : 0 < Starobinsky.gamma := sqrt_pos.mpr (by norm_num)
  have ha : 0 ≤ a := ha
  simp only [Starobinsky.sr_phi2N]
  generalize Starobinsky.gamma = g at *
  have k1 : g * (b - a) + 1 < exp (g * (b - a)) := add_one_lt_exp (by nlinarith [mul_pos hg (sub_pos.mpr hab)])
  have k2 : 1 ≤ exp (g * a) := by rw [one_le_exp_iff]; positivity
  have k3 : exp (g * b) = exp (g * a) * exp (g * (b - a)) := by rw [← exp_add]; congr 1; ring
  have k4 : g * (b - a) < exp (g * b) - exp (g * a) := by
    have : 0 < g * (b - a) := mul_pos hg (by linarith)
    nlinarith
  have : 0 < (exp (g * b) - exp (g * a) - g * (b - a)) / (2 * g^2) := by
    apply div_pos <;> [linarith; positivity]
  have e : (exp (g * b) - exp (g * a) - g * (b - a)) / (2 * g^2) =
      ((-b + s.phi_end) / (2 * g) + (exp (g * b) - exp (g * s.phi_end)) / (2 * g^2)) -
      ((-a + s.phi_end) / (2 * g) + (exp (g * a) - exp (g * s.phi_end)) / (2 * g^2)) := by
    field_simp; ring
  linarith

theorem C07_starobinsky (W : ℝ → ℝ) (hW : LambertContract W) (s : Starobinsky) :
    InverseOn (Ici s.phi_end) (Ici 0) s.sr_phi2N (s.sr_N2phi W) := by
  have hg : 0 < Starobinsky.gamma := sqrt_pos.mpr (by norm_num)
  have hpe : 0 < s.phi_end := (C05_starobinsky s).mem
  have hzero : s.sr_phi2N s.phi_end = 0 := by simp [Starobinsky.sr_phi2N]
  have hmono := starobinsky_mono s
  have hEe : 1 ≤ exp (Starobinsky.gamma * s.phi_end) := by rw [one_le_exp_iff]; positivity
  -- the right inverse and the range, at once
  have right : ∀ N, 0 ≤ N → 0 ≤ s.sr_N2phi W N ∧ s.sr_phi2N (s.sr_N2phi W N) = N := by
    intro N hN
    obtain ⟨x, hx⟩ : ∃ x, x = -exp (-2*N*Starobinsky.gamma^2) * exp (Starobinsky.gamma*s.phi_end)
      * exp (-exp (Starobinsky.gamma*s.phi_end)) := ⟨_, rfl⟩
    have hle : exp (Starobinsky.gamma*s.phi_end) * exp (-exp (Starobinsky.gamma*s.phi_end))
        ≤ exp (-1) := by
      rcases hEe.lt_or_eq with h | h
      · have := xexp_anti le_rfl h; linarith
      · rw [← h]; linarith
    have h1 : exp (-2*N*Starobinsky.gamma^2) ≤ 1 := by
      rw [exp_le_one_iff]; nlinarith [mul_nonneg hN (sq_nonneg Starobinsky.gamma)]
    have h0 := exp_pos (-2*N*Starobinsky.gamma^2)
    have hp : 0 < exp (Starobinsky.gamma*s.phi_end) * exp (-exp (Starobinsky.gamma*s.phi_end)) := by
      positivity
    obtain ⟨hw1, hw2⟩ := hW x (by rw [hx]; nlinarith) (by rw [hx]; nlinarith)
    have hphi : s.sr_N2phi W N = -2*N*Starobinsky.gamma + s.phi_end
        - exp (Starobinsky.gamma*s.phi_end)/Starobinsky.gamma - W x / Starobinsky.gamma := by
      rw [hx]; rfl
    generalize W x = w at *
    have hexp : exp (Starobinsky.gamma * s.sr_N2phi W N) = -w := by
      have e : Starobinsky.gamma * s.sr_N2phi W N = -2*N*Starobinsky.gamma^2
          + Starobinsky.gamma*s.phi_end + -exp (Starobinsky.gamma*s.phi_end) + -w := by
        rw [hphi]; field_simp; ring
      rw [e, exp_add, exp_add, exp_add, exp_neg w]
      have : -(exp (-2*N*Starobinsky.gamma^2) * exp (Starobinsky.gamma*s.phi_end)
        * exp (-exp (Starobinsky.gamma*s.phi_end))) = w * exp w := by rw [hw2, hx]; ring
      have hne := (exp_pos w).ne'
      have : exp (-2*N*Starobinsky.gamma^2) * exp (Starobinsky.gamma*s.phi_end)
        * exp (-exp (Starobinsky.gamma*s.phi_end)) = -w * exp w := by linarith
      rw [this]; field_simp
    constructor
    · have : 1 ≤ exp (Starobinsky.gamma * s.sr_N2phi W N) := by rw [hexp]; linarith
      rw [one_le_exp_iff] at this
      exact nonneg_of_mul_nonneg_right this hg
    · have : s.sr_phi2N (s.sr_N2phi W N) = (-(s.sr_N2phi W N) + s.phi_end) / (2*Starobinsky.gamma)
        + (-w - exp (Starobinsky.gamma * s.phi_end)) / (2*Starobinsky.gamma^2) := by
        rw [← hexp]; rfl
      rw [this, hphi]; field_simp; ring
  refine ⟨fun φ h => ?_, fun N hN => ?_, fun φ h => ?_, fun N hN => (right N hN).2⟩
  · show 0 ≤ s.sr_phi2N φ
    rw [← hzero]
    exact hmono.monotoneOn (show (0:ℝ) ≤ s.phi_end from hpe.le) (show 0 ≤ φ from hpe.le.trans h) h
  · have := right N hN
    refine (hmono.le_iff_le (show (0:ℝ) ≤ s.phi_end from hpe.le) this.1).mp ?_
    rw [hzero, this.2]; exact hN
  · have h : s.phi_end ≤ φ := h
    have hN : 0 ≤ s.sr_phi2N φ := by
      rw [← hzero]
      exact hmono.monotoneOn (show (0:ℝ) ≤ s.phi_end from hpe.le) (show 0 ≤ φ from hpe.le.trans h) h
    have := right _ hN
    exact hmono.injOn this.1 (show 0 ≤ φ from hpe.le.trans h) this.2

/-- The contract is consistent: the branch exists. -/
theorem lambertContract_satisfiable : ∃ W : ℝ → ℝ, LambertContract W := by
  classical
  refine ⟨fun x => if h : ∃ w, w ≤ -1 ∧ w * exp w = x then h.choose else 0, ?_⟩
  intro x h1 h2
  have hex : ∃ w, w ≤ -1 ∧ w * exp w = x := by
    -- the function w e^w takes both a value ≥ x (far left) and a value ≤ x (at -1)
    obtain ⟨t, ht1, ht2⟩ : ∃ t : ℝ, 1 ≤ t ∧ t * exp (-t) ≤ -x := by
      have h3 := Real.tendsto_pow_mul_exp_neg_atTop_nhds_zero 1
      have h4 := (h3.eventually (gt_mem_nhds (by linarith : (0:ℝ) < -x))).and
        (Filter.eventually_ge_atTop 1)
      obtain ⟨t, ht, ht1⟩ := h4.exists
      exact ⟨t, ht1, by simpa using ht.le⟩
    have hc : ContinuousOn (fun w : ℝ => w * exp w) (Icc (-t) (-1)) := by fun_prop
    obtain ⟨w, hw, e⟩ := intermediate_value_Icc' (by linarith : -t ≤ -1) hc
      (show x ∈ Icc ((-1 : ℝ) * exp (-1)) ((-t) * exp (-t)) from ⟨by linarith, by linarith⟩)
    exact ⟨w, hw.2, e⟩
  simp only [dif_pos hex]
  exact hex.choose_spec

/-! ## Natural -/

theorem C07_natural (n : Natural) (h0 : 0 < n.phi0) :
    InverseOn (Ico n.phi_end n.phi0) (Ici 0) n.sr_phi2N n.sr_N2phi := by
  have hpi := pi_pos
  obtain ⟨te, hte⟩ : ∃ te, te = tan (π*n.phi_end/(2*n.phi0)) := ⟨_, rfl⟩
  have hpe := (C05_natural n h0).mem
  have ang : ∀ φ, 0 ≤ φ → φ < n.phi0 → 0 ≤ π * φ / (2*n.phi0) ∧ π * φ / (2*n.phi0) < π / 2 :=
    fun φ a b => ⟨by positivity, by rw [div_lt_div_iff₀ (by positivity) (by norm_num)]; nlinarith⟩
  have te0 : 0 ≤ te := by
    rw [hte]
    exact tan_nonneg_of_nonneg_of_le_pi_div_two (ang _ hpe.1.le hpe.2).1 (ang _ hpe.1.le hpe.2).2.le
  have hce : 0 < cos (π*n.phi_end/(2*n.phi0)) :=
    cos_pos_of_mem_Ioo ⟨by linarith [(ang _ hpe.1.le hpe.2).1], (ang _ hpe.1.le hpe.2).2⟩
  have hcos : cos (π*n.phi_end/n.phi0) + 1 = 2 / (te^2 + 1) := by
    have e : π*n.phi_end/n.phi0 = 2 * (π*n.phi_end/(2*n.phi0)) := by field_simp
    rw [e, cos_two_mul, hte, tan_eq_sin_div_cos]
    have := sin_sq_add_cos_sq (π*n.phi_end/(2*n.phi0))
    have e2 : (sin (π*n.phi_end/(2*n.phi0)) / cos (π*n.phi_end/(2*n.phi0)))^2 + 1 =
        1 / cos (π*n.phi_end/(2*n.phi0))^2 := by field_simp; linarith
    rw [e2]; field_simp; ring
  have harg : ∀ N, (2*exp (π^2*N/n.phi0^2) - cos (π*n.phi_end/n.phi0) - 1)
      / (cos (π*n.phi_end/n.phi0) + 1) = exp (π^2*N/n.phi0^2) * (te^2+1) - 1 := by
    intro N
    have : (2*exp (π^2*N/n.phi0^2) - cos (π*n.phi_end/n.phi0) - 1) =
      2*exp (π^2*N/n.phi0^2) - (cos (π*n.phi_end/n.phi0) + 1) := by ring
    rw [this, hcos]; field_simp
  have hN2 : ∀ N, n.sr_N2phi N = 2*n.phi0/π * arctan (√(exp (π^2*N/n.phi0^2) * (te^2+1) - 1)) := by
    intro N; simp only [Natural.sr_N2phi, harg]
  have hsp : ∀ φ, n.sr_phi2N φ = n.phi0^2/π^2 * (log (tan (π*φ/(2*n.phi0))^2 + 1) - log (te^2+1)) := by
    intro φ; rw [hte]; rfl
  have hang : ∀ N, π * n.sr_N2phi N / (2*n.phi0) = arctan (√(exp (π^2*N/n.phi0^2) * (te^2+1) - 1)) := by
    intro N; rw [hN2]; field_simp
  have hpe' : n.phi_end = 2*n.phi0/π * arctan te := by
    have := arctan_tan (x := π*n.phi_end/(2*n.phi0)) (by linarith [(ang _ hpe.1.le hpe.2).1])
      (ang _ hpe.1.le hpe.2).2
    rw [hte, this]; field_simp
  refine ⟨fun φ h => ?_, fun N hN => ?_, fun φ h => ?_, fun N hN => ?_⟩
  · show 0 ≤ n.sr_phi2N φ
    rw [hsp]
    have k := ang φ (hpe.1.le.trans h.1) h.2
    have : te ≤ tan (π*φ/(2*n.phi0)) := by
      rw [hte]
      rcases h.1.lt_or_eq with h' | h'
      · exact (tan_lt_tan_of_nonneg_of_lt_pi_div_two (ang _ hpe.1.le hpe.2).1 k.2
          (by rw [div_lt_div_iff_of_pos_right (by positivity)]; nlinarith)).le
      · rw [h']
    have : log (te^2+1) ≤ log (tan (π*φ/(2*n.phi0))^2 + 1) :=
      log_le_log (by positivity) (by nlinarith)
    have : 0 ≤ log (tan (π*φ/(2*n.phi0))^2 + 1) - log (te^2+1) := by linarith
    positivity
  · have hN : 0 ≤ N := hN
    have h1 : 1 ≤ exp (π^2*N/n.phi0^2) := by rw [one_le_exp_iff]; positivity
    have hle : te ≤ √(exp (π^2*N/n.phi0^2) * (te^2+1) - 1) := by
      apply le_sqrt_of_sq_le; nlinarith [sq_nonneg te]
    have ha := arctan_lt_pi_div_two (√(exp (π^2*N/n.phi0^2) * (te^2+1) - 1))
    have hb := arctan_mono hle
    constructor
    · rw [hN2, hpe']; exact mul_le_mul_of_nonneg_left hb (by positivity)
    · rw [hN2]
      have : 2*n.phi0/π * (π/2) = n.phi0 := by field_simp
      calc _ < 2*n.phi0/π * (π/2) := mul_lt_mul_of_pos_left ha (by positivity)
        _ = n.phi0 := this
  · have k := ang φ (hpe.1.le.trans h.1) h.2
    have t0 := tan_nonneg_of_nonneg_of_le_pi_div_two k.1 k.2.le
    have e : π^2 * n.sr_phi2N φ / n.phi0^2 = log (tan (π*φ/(2*n.phi0))^2 + 1) - log (te^2+1) := by
      rw [hsp]; field_simp
    rw [hN2, e, exp_sub, exp_log (by positivity), exp_log (by positivity)]
    have : (tan (π*φ/(2*n.phi0))^2 + 1) / (te^2+1) * (te^2+1) - 1 = tan (π*φ/(2*n.phi0))^2 := by
      field_simp; ring
    rw [this, sqrt_sq t0, arctan_tan (by linarith) k.2]; field_simp
  · have hN : 0 ≤ N := hN
    have h1 : 1 ≤ exp (π^2*N/n.phi0^2) := by rw [one_le_exp_iff]; positivity
    rw [hsp, hang, tan_arctan, sq_sqrt (by nlinarith [sq_nonneg te])]
    have : exp (π^2*N/n.phi0^2) * (te^2+1) - 1 + 1 = exp (π^2*N/n.phi0^2) * (te^2+1) := by ring
    rw [this, log_mul (exp_pos _).ne' (by positivity), log_exp]; field_simp; ring

/-! ## T-model -/

theorem C07_tmodel (t : Tmodel) (ha : 0 < t.alpha) (hp : 0 < t.p) :
    InverseOn (Ici t.phi_end) (Ici 0) t.sr_phi2N t.sr_N2phi := by
  have hs : 0 < t.s_6_a := sqrt_pos.mpr (by linarith)
  have hpe : 0 < t.phi_end := (C05_tmodel t ha hp).mem
  have hzero : t.sr_phi2N t.phi_end = 0 := (C06_tmodel ⟨1, t.p, t.alpha⟩ ha hp one_ne_zero).zero
  obtain ⟨R, hR⟩ : ∃ R, R = √(8*t.p^2 + t.s_6_a^2) := ⟨_, rfl⟩
  have hRs : t.s_6_a ≤ R := by rw [hR]; apply le_sqrt_of_sq_le; nlinarith [sq_nonneg t.p]
  have hmono : ∀ a b, 0 ≤ a → 0 ≤ b → (t.sr_phi2N a ≤ t.sr_phi2N b ↔ a ≤ b) := by
    intro a b ha hb
    have e : t.sr_phi2N b - t.sr_phi2N a = t.s_6_a^2/(8*t.p) *
      (cosh (2*b/t.s_6_a) - cosh (2*a/t.s_6_a)) := by simp only [Tmodel.sr_phi2N]; ring
    rw [← sub_nonneg, e, mul_nonneg_iff_of_pos_left (by positivity), sub_nonneg, cosh_le_cosh,
      abs_of_nonneg (by positivity), abs_of_nonneg (by positivity),
      div_le_div_iff_of_pos_right hs]
    constructor <;> intro h <;> linarith
  have harg : ∀ N, 0 ≤ N → 1 ≤ 8*t.p/t.s_6_a^2 * N + R/t.s_6_a := by
    intro N hN
    have : 1 ≤ R / t.s_6_a := by rw [le_div_iff₀ hs]; linarith
    have : 0 ≤ 8*t.p/t.s_6_a^2 * N := by positivity
    linarith
  have hN2 : ∀ N, t.sr_N2phi N = t.s_6_a / 2 * arcosh (8*t.p/t.s_6_a^2 * N + R/t.s_6_a) := by
    intro N; rw [hR]; rfl
  have right : ∀ N, 0 ≤ N → 0 ≤ t.sr_N2phi N ∧ t.sr_phi2N (t.sr_N2phi N) = N := by
    intro N hN
    have h1 := harg N hN
    constructor
    · rw [hN2]; have := arcosh_nonneg h1; positivity
    · have e : 2 * t.sr_N2phi N / t.s_6_a = arcosh (8*t.p/t.s_6_a^2 * N + R/t.s_6_a) := by
        rw [hN2]; field_simp
      simp only [Tmodel.sr_phi2N, e, cosh_arcosh h1, ← hR]; field_simp; ring
  refine ⟨fun φ h => ?_, fun N hN => ?_, fun φ h => ?_, fun N hN => (right N hN).2⟩
  · show 0 ≤ t.sr_phi2N φ
    rw [← hzero]; exact (hmono _ _ hpe.le (hpe.le.trans h)).mpr h
  · have := right N hN
    refine (hmono _ _ hpe.le this.1).mp ?_
    rw [hzero, this.2]; exact hN
  · have h : t.phi_end ≤ φ := h
    have e : 8*t.p/t.s_6_a^2 * t.sr_phi2N φ + R/t.s_6_a = cosh (2*φ/t.s_6_a) := by
      simp only [Tmodel.sr_phi2N, ← hR]; field_simp; ring
    rw [hN2, e, arcosh_cosh (by have := hpe.le.trans h; positivity)]; field_simp

/-! ## Radion gauge -/

private theorem rg_slope_pos (g : RadionGauge) (ha : 0 < g.alpha) (hp : 0 < g.p)
    (hL : g.Lambda ≠ 0) : ∀ φ ∈ Ioi (0:ℝ), 0 < g.V φ / g.dV φ := by
  intro φ h
  have h : 0 < φ := h
  have := rpow_pos_of_pos h g.p
  have := rpow_pos_of_pos h (g.p - 1)
  simp only [RadionGauge.V, RadionGauge.dV]; positivity

private theorem rg_mono (g : RadionGauge) (φe : ℝ) (ha : 0 < g.alpha) (hp : 0 < g.p) :
    StrictMonoOn (g.sr_phi2N φe) (Ioi 0) :=
  efold_strictMono (C06_radiongauge ⟨1, g.p, g.alpha⟩ φe ha hp one_ne_zero) (convex_Ioi 0)
    (rg_slope_pos ⟨1, g.p, g.alpha⟩ ha hp one_ne_zero)

/-- General radion gauge: the bracket is `[phi_end, B]` with `V(B) = Lambda⁴ (1 - 1e-15)`.  For every
e-fold number between `0` and that of `B` the root finder succeeds and returns the unique field with
that e-fold number; outside it raises `ValueError`. -/
theorem C07_radiongauge (root : RootScalar) (hroot : RootContract root) (g : RadionGauge)
    (ha : 0 < g.alpha) (hp : 0 < g.p) (φe : ℝ) (hφe : 0 < φe)
    (hB : φe ≤ g.inv_V (g.Lambda^4 * (1 - 1 / 10^15))) (N : ℝ) :
    (0 ≤ N → N ≤ g.sr_phi2N φe (g.inv_V (g.Lambda^4 * (1 - 1 / 10^15))) →
      ∃ φ, g.sr_N2phi root φe N = .ok φ ∧ φe ≤ φ ∧ g.sr_phi2N φe φ = N ∧
        ∀ ψ, 0 < ψ → g.sr_phi2N φe ψ = N → ψ = φ) ∧
    (N < 0 ∨ g.sr_phi2N φe (g.inv_V (g.Lambda^4 * (1 - 1 / 10^15))) < N →
      ∃ m, g.sr_N2phi root φe N = .error (.valueError m)) := by
  simp only [RadionGauge.sr_N2phi]
  generalize g.inv_V (g.Lambda^4 * (1 - 1 / 10^15)) = B at *
  have hmono := rg_mono g φe ha hp
  have hzero : g.sr_phi2N φe φe = 0 := by simp [RadionGauge.sr_phi2N]
  have hBpos : 0 < B := lt_of_lt_of_le hφe hB
  have hNB : 0 ≤ g.sr_phi2N φe B := by
    rw [← hzero]; exact hmono.monotoneOn hφe hBpos hB
  have hcont : ContinuousOn (fun φ => g.sr_phi2N φe φ - N) (Icc φe B) := fun x hx =>
    ((((C06_radiongauge ⟨1, g.p, g.alpha⟩ φe ha hp one_ne_zero).slope x
      (show 0 < x from lt_of_lt_of_le hφe hx.1)).continuousAt).sub continuousAt_const).continuousWithinAt
  constructor
  · intro h0 h1
    obtain ⟨r, hr1, hr2, hr3, hr4⟩ := hroot.found _ φe B hB hcont
      (mul_nonpos_of_nonpos_of_nonneg (by simp only [hzero]; linarith) (sub_nonneg.mpr h1))
    have hr4 : g.sr_phi2N φe r = N := by have := hr4; linarith
    exact ⟨r, hr1, hr2, hr4, fun ψ hψ e =>
      hmono.injOn hψ (show 0 < r from lt_of_lt_of_le hφe hr2) (e.trans hr4.symm)⟩
  · intro h
    refine hroot.rejected _ _ _ ?_
    simp only [hzero]
    rcases h with h | h
    · apply mul_pos <;> linarith
    · apply mul_pos_of_neg_of_neg <;> linarith

theorem C07_radiongauge2 (L a : ℝ) (ha : 0 < a) :
    InverseOn (Ici (RadionGauge2.phi_end a)) (Ici 0)
      ((RadionGauge2 L a).sr_phi2N (RadionGauge2.phi_end a)) (RadionGauge2.sr_N2phi a) := by
  have hpe : 0 < RadionGauge2.phi_end a := (C05_radiongauge2 L a ha).mem
  unfold RadionGauge2.sr_N2phi
  generalize RadionGauge2.phi_end a = e at *
  have r4 : ∀ x : ℝ, x ^ ((2:ℝ) + 2) = x ^ 4 := fun x => by rw [← rpow_natCast]; norm_num
  have hN : ∀ φ, (RadionGauge2 L a).sr_phi2N e φ = (φ^4 - e^4 + 2 * a * (φ^2 - e^2)) / (8 * a) := by
    intro φ; simp only [RadionGauge.sr_phi2N, RadionGauge2, r4]; field_simp; ring
  have hroot : ∀ N, 0 ≤ N → e^2 ≤ -a + √(8*N*a + a^2 + 2*a*e^2 + e^4) := by
    intro N hN
    have : e^2 + a ≤ √(8*N*a + a^2 + 2*a*e^2 + e^4) := by
      apply le_sqrt_of_sq_le; nlinarith [mul_nonneg hN ha.le]
    linarith
  refine ⟨fun φ h => ?_, fun N hN' => ?_, fun φ h => ?_, fun N hN' => ?_⟩
  · have h : e ≤ φ := h
    show 0 ≤ (RadionGauge2 L a).sr_phi2N e φ
    rw [hN]
    have h2 : e^2 ≤ φ^2 := pow_le_pow_left₀ hpe.le h 2
    have h4 : e^4 ≤ φ^4 := pow_le_pow_left₀ hpe.le h 4
    have : 0 ≤ φ^4 - e^4 + 2 * a * (φ^2 - e^2) := by nlinarith
    positivity
  · exact le_sqrt_of_sq_le (hroot N hN')
  · have h : e ≤ φ := h
    beta_reduce
    rw [hN]
    have : 8 * ((φ^4 - e^4 + 2 * a * (φ^2 - e^2)) / (8 * a)) * a + a^2 + 2*a*e^2 + e^4
        = (a + φ^2)^2 := by field_simp; ring
    rw [this, sqrt_sq (by positivity)]
    have : -a + (a + φ^2) = φ^2 := by ring
    rw [this, sqrt_sq (by linarith)]
  · have h1 := hroot N hN'
    have hN' : 0 ≤ N := hN'
    beta_reduce
    rw [hN]
    have h2 : √(-a + √(8*N*a + a^2 + 2*a*e^2 + e^4))^2 = -a + √(8*N*a + a^2 + 2*a*e^2 + e^4) :=
      sq_sqrt (le_trans (by positivity) h1)
    have h3 : √(8*N*a + a^2 + 2*a*e^2 + e^4)^2 = 8*N*a + a^2 + 2*a*e^2 + e^4 :=
      sq_sqrt (by positivity)
    have h4 : √(-a + √(8*N*a + a^2 + 2*a*e^2 + e^4))^4 =
        (-a + √(8*N*a + a^2 + 2*a*e^2 + e^4))^2 := by
      rw [← congrArg (· ^ 2) h2]; ring
    rw [h4, h2]
    rw [div_eq_iff (by positivity)]
    linear_combination h3

/-! ## Double well: table interpolation -/

private theorem interp_spec {n : ℕ} {xs ys : ℕ → ℝ} (hn : 1 ≤ n) (hx : ∀ i < n, xs i < xs (i+1))
    (x : ℝ) (h0 : xs 0 ≤ x) (h1 : x ≤ xs n) :
    ∃ i < n, xs i ≤ x ∧ x ≤ xs (i+1) ∧ interp1d n xs ys x =
      .ok ((ys (i+1) - ys i) / (xs (i+1) - xs i) * (x - xs i) + ys i) := by
  classical
  have mono : ∀ i j, i ≤ j → j ≤ n → xs i ≤ xs j := by
    intro i j hij
    induction j, hij using Nat.le_induction with
    | base => intro _; exact le_rfl
    | succ j _ ih => intro hj; exact (ih (by omega)).trans (hx j (by omega)).le
  have smono : ∀ i j, i < j → j ≤ n → xs i < xs j := fun i j hij hj =>
    (hx i (by omega)).trans_le (mono (i+1) j hij hj)
  set c := ((Finset.range (n+1)).filter (fun i => xs i < x)).card with hc
  have hch : ∀ i ≤ n, (xs i < x ↔ i < c) := by
    -- the filter is an initial segment
    have hseg : (Finset.range (n+1)).filter (fun i => xs i < x) = Finset.range c := by
      have hdown : ∀ i ≤ n, xs i < x → ∀ j ≤ i, xs j < x := fun i hi h j hj =>
        lt_of_le_of_lt (mono j i hj hi) h
      have hex : ∃ k, (Finset.range (n+1)).filter (fun i => xs i < x) = Finset.range k := by
        by_cases hall : ∀ i ≤ n, xs i < x
        · exact ⟨n+1, by
            ext i; simp only [Finset.mem_filter, Finset.mem_range]
            exact ⟨fun h => h.1, fun h => ⟨h, hall i (by omega)⟩⟩⟩
        · push Not at hall
          let P := fun i => i ≤ n ∧ x ≤ xs i
          have hP : ∃ i, P i := hall
          refine ⟨Nat.find hP, ?_⟩
          ext i
          simp only [Finset.mem_filter, Finset.mem_range]
          constructor
          · rintro ⟨hi, hlt⟩
            by_contra hge
            have hsp := Nat.find_spec hP
            have := mono _ i (not_lt.mp hge) (by omega)
            exact absurd (hsp.2.trans this) (not_le.mpr hlt)
          · intro hlt
            have hsp := Nat.find_spec hP
            refine ⟨by omega, ?_⟩
            by_contra hge
            exact Nat.find_min hP hlt ⟨by omega, not_lt.mp hge⟩
      obtain ⟨k, hk⟩ := hex
      rw [hk]; congr 1
      rw [hc, hk, Finset.card_range]
    intro i hi
    have : i ∈ (Finset.range (n+1)).filter (fun i => xs i < x) ↔ i ∈ Finset.range c := by rw [hseg]
    simpa [Nat.lt_succ_iff.mpr hi] using this
  refine ⟨max 1 (min n c) - 1, by omega, ?_, ?_, ?_⟩
  · by_cases h : c ≤ 1
    · have : max 1 (min n c) - 1 = 0 := by omega
      rw [this]; exact h0
    · by_cases hcn : c ≤ n
      · have : max 1 (min n c) - 1 = c - 1 := by omega
        rw [this]; exact ((hch (c-1) (by omega)).mpr (by omega)).le
      · have : max 1 (min n c) - 1 = n - 1 := by omega
        rw [this]; exact ((hch (n-1) (by omega)).mpr (by omega)).le
  · by_cases hcn : c ≤ n
    · have h2 : ¬ xs (max 1 (min n c)) < x := by
        rw [hch _ (by omega)]; omega
      have e : max 1 (min n c) - 1 + 1 = max 1 (min n c) := by omega
      rw [e]; exact not_lt.mp h2
    · exact absurd ((hch n le_rfl).mpr (by omega)) (not_lt.mpr h1)
  · have hcond : ¬ (x < xs 0 ∨ xs n < x) := by
      push Not; exact ⟨h0, h1⟩
    have e : max 1 (min n c) - 1 + 1 = max 1 (min n c) := by omega
    simp only [interp1d, if_neg hcond, ← hc, e]

private theorem dw_slope_pos (d : DoubleWell) (h0 : 0 < d.phi0) (hp : 0 < d.p) (hL : d.Lambda ≠ 0) :
    ∀ φ ∈ Ioo 0 d.phi0, 0 < d.V φ / d.dV φ := by
  intro φ h
  have hx0 : 0 < d.x φ := by
    simp only [DoubleWell.x]; have : φ / d.phi0 < 1 := by rw [div_lt_one h0]; exact h.2
    linarith
  have hx1 : d.x φ < 1 := by
    simp only [DoubleWell.x]; have : 0 < φ / d.phi0 := div_pos h.1 h0
    linarith
  have h1 := rpow_lt_one hx0.le hx1 hp
  have h2 := rpow_pos_of_pos hx0 (d.p - 1)
  have h3 : 0 < 1 - d.x φ ^ d.p := by linarith
  simp only [DoubleWell.V, DoubleWell.dV]; positivity

/-- General double well: `sr_N2phi` accepts exactly the e-fold numbers of the tabulated fields
`phi0/10⁵ ≤ φ ≤ phi0 (1 - 10⁻⁵)` (else `ValueError`), is exact at every tabulated field and otherwise
off by at most one table spacing.  *Partial*: an exact inverse would need error zero. -/
theorem C07_doublewell_partial (d : DoubleWell) (φe : ℝ) (h0 : 0 < d.phi0) (hp : 0 < d.p) :
    (∀ i ≤ 99998, d.sr_N2phi φe (d.sr_phi2N φe (d.phis i)) = .ok (d.phis i)) ∧
    (∀ φ, d.phi0 / 100000 ≤ φ → φ ≤ 99999 * d.phi0 / 100000 →
      ∃ ψ, d.sr_N2phi φe (d.sr_phi2N φe φ) = .ok ψ ∧ |ψ - φ| ≤ d.phi0 / 100000) ∧
    (∀ φ, 0 < φ → φ < d.phi0 → φ < d.phi0 / 100000 ∨ 99999 * d.phi0 / 100000 < φ →
      ∃ m, d.sr_N2phi φe (d.sr_phi2N φe φ) = .error (.valueError m)) := by
  have hmono : StrictMonoOn (d.sr_phi2N φe) (Ioo 0 d.phi0) :=
    efold_strictMono (C06_doublewell ⟨1, d.phi0, d.p⟩ φe h0 hp.ne' one_ne_zero) (convex_Ioo 0 d.phi0)
      (dw_slope_pos ⟨1, d.phi0, d.p⟩ h0 hp one_ne_zero)
  have hstep : ∀ i, d.phis (i+1) - d.phis i = d.phi0 / 100000 := by
    intro i; simp only [DoubleWell.phis]; push_cast; ring
  have hmem : ∀ i ≤ 99998, d.phis i ∈ Ioo 0 d.phi0 := by
    intro i hi
    have hi' : (i:ℝ) ≤ 99998 := by exact_mod_cast hi
    simp only [DoubleWell.phis]
    constructor
    · positivity
    · rw [div_lt_iff₀ (by norm_num)]; nlinarith
  have hfirst : d.phis 0 = d.phi0 / 100000 := by simp [DoubleWell.phis]
  have hlast : d.phis 99998 = 99999 * d.phi0 / 100000 := by
    simp only [DoubleWell.phis]; push_cast; norm_num
  have hinc : ∀ i < 99998, d.sr_phi2N φe (d.phis i) < d.sr_phi2N φe (d.phis (i+1)) := by
    intro i hi
    have h1 := hstep i
    have h2 : 0 < d.phi0/100000 := by positivity
    exact hmono (hmem i (by omega)) (hmem (i+1) (by omega)) (by linarith)
  have main : ∀ φ, d.phi0 / 100000 ≤ φ → φ ≤ 99999 * d.phi0 / 100000 →
      ∃ i < 99998, d.phis i ≤ φ ∧ φ ≤ d.phis (i+1) ∧ ∃ s, 0 ≤ s ∧ s ≤ 1 ∧
        (φ = d.phis i → s = 0) ∧ (φ = d.phis (i+1) → s = 1) ∧
        d.sr_N2phi φe (d.sr_phi2N φe φ) = .ok (d.phis i + s * (d.phi0 / 100000)) := by
    intro φ h1 h2
    have hφ : φ ∈ Ioo 0 d.phi0 := ⟨lt_of_lt_of_le (by positivity) h1, lt_of_le_of_lt h2 (by
      rw [div_lt_iff₀ (by norm_num)]; nlinarith)⟩
    obtain ⟨i, hi, ha, hb, he⟩ := interp_spec (n := 99998)
      (xs := fun i => d.sr_phi2N φe (d.phis i)) (ys := d.phis) (by norm_num) hinc (d.sr_phi2N φe φ)
      (hmono.monotoneOn (hmem 0 (by norm_num)) hφ (by rw [hfirst]; exact h1))
      (hmono.monotoneOn hφ (hmem 99998 le_rfl) (by rw [hlast]; exact h2))
    have hlt := hinc i hi
    refine ⟨i, hi, (hmono.le_iff_le (hmem i hi.le) hφ).mp ha,
      (hmono.le_iff_le hφ (hmem (i+1) hi)).mp hb,
      (d.sr_phi2N φe φ - d.sr_phi2N φe (d.phis i)) /
        (d.sr_phi2N φe (d.phis (i+1)) - d.sr_phi2N φe (d.phis i)), ?_, ?_, ?_, ?_, ?_⟩
    · apply div_nonneg <;> linarith
    · rw [div_le_one (by linarith)]; linarith
    · intro e; rw [e, sub_self, zero_div]
    · intro e; rw [e]; exact div_self (by linarith)
    · rw [DoubleWell.sr_N2phi, he, hstep]; congr 1; ring
  refine ⟨?_, ?_, ?_⟩
  · intro i hi
    have hi' : (i:ℝ) ≤ 99998 := by exact_mod_cast hi
    have b1 : d.phi0 / 100000 ≤ d.phis i := by
      simp only [DoubleWell.phis]
      rw [div_le_div_iff_of_pos_right (by norm_num)]; nlinarith [Nat.cast_nonneg (α := ℝ) i]
    have b2 : d.phis i ≤ 99999 * d.phi0 / 100000 := by
      simp only [DoubleWell.phis]
      rw [div_le_div_iff_of_pos_right (by norm_num)]; nlinarith
    obtain ⟨j, hj, c1, c2, s, _, _, s0, s1, he⟩ := main _ b1 b2
    have inj : ∀ a b : ℕ, d.phis a ≤ d.phis b → a ≤ b := by
      intro a b hab
      simp only [DoubleWell.phis] at hab
      rw [div_le_div_iff_of_pos_right (by norm_num)] at hab
      have := le_of_mul_le_mul_right hab h0
      exact_mod_cast (by linarith : (a:ℝ) ≤ b)
    have hij : i = j ∨ i = j + 1 := by have := inj _ _ c1; have := inj _ _ c2; omega
    rw [he]; congr 1
    rcases hij with h | h
    · rw [s0 (by rw [h]), h]; ring
    · rw [s1 (by rw [h]), h]; have := hstep j; linarith
  · intro φ h1 h2
    obtain ⟨i, _, c1, c2, s, s0, s1, _, _, he⟩ := main φ h1 h2
    refine ⟨_, he, ?_⟩
    have hs := hstep i
    have hpos : 0 < d.phi0 / 100000 := by positivity
    rw [abs_le]; constructor <;> nlinarith
  · intro φ h1 h2 h
    have hφ : φ ∈ Ioo 0 d.phi0 := ⟨h1, h2⟩
    refine ⟨"interp1d: outside interpolation range", ?_⟩
    simp only [DoubleWell.sr_N2phi, interp1d]
    rw [if_pos]
    rcases h with h | h
    · left; exact hmono hφ (hmem 0 (by norm_num)) (by rw [hfirst]; exact h)
    · right; exact hmono (hmem 99998 le_rfl) hφ (by rw [hlast]; exact h)

/-- General double well: whatever `sr_N2phi` returns lies in the table, hence strictly between the minimum and the hilltop. -/
theorem C07_doublewell_range (d : DoubleWell) (φe : ℝ) (h0 : 0 < d.phi0) (hp : 0 < d.p) {N ψ : ℝ} (h : d.sr_N2phi φe N = .ok ψ) :
    d.phi0 / 100000 ≤ ψ ∧ ψ ≤ 99999 * d.phi0 / 100000 := by
  have hmono : StrictMonoOn (d.sr_phi2N φe) (Ioo 0 d.phi0) :=
    efold_strictMono (C06_doublewell ⟨1, d.phi0, d.p⟩ φe h0 hp.ne' one_ne_zero) (convex_Ioo 0 d.phi0)
      (dw_slope_pos ⟨1, d.phi0, d.p⟩ h0 hp one_ne_zero)
  have hstep : ∀ i, d.phis (i+1) - d.phis i = d.phi0 / 100000 := by
    intro i; simp only [DoubleWell.phis]; push_cast; ring
  have hpos : 0 < d.phi0 / 100000 := by positivity
  have hb : ∀ i ≤ 99998, d.phi0 / 100000 ≤ d.phis i ∧ d.phis i ≤ 99999 * d.phi0 / 100000 := by
    intro i hi
    have hi' : (i:ℝ) ≤ 99998 := by exact_mod_cast hi
    simp only [DoubleWell.phis]
    constructor <;> rw [div_le_div_iff_of_pos_right (by norm_num)] <;> nlinarith [Nat.cast_nonneg (α := ℝ) i]
  have hmem : ∀ i ≤ 99998, d.phis i ∈ Ioo 0 d.phi0 := by
    intro i hi
    obtain ⟨a, b⟩ := hb i hi
    exact ⟨hpos.trans_le a, b.trans_lt (by rw [div_lt_iff₀ (by norm_num)]; nlinarith)⟩
  have hinc : ∀ i < 99998, d.sr_phi2N φe (d.phis i) < d.sr_phi2N φe (d.phis (i+1)) := by
    intro i hi
    have h1 := hstep i
    exact hmono (hmem i (by omega)) (hmem (i+1) (by omega)) (by linarith)
  have hr : d.sr_phi2N φe (d.phis 0) ≤ N ∧ N ≤ d.sr_phi2N φe (d.phis 99998) := by
    by_contra hc
    have : N < d.sr_phi2N φe (d.phis 0) ∨ d.sr_phi2N φe (d.phis 99998) < N := by
      by_contra h'
      push Not at h'
      exact hc h'
    simp only [DoubleWell.sr_N2phi, interp1d] at h
    rw [if_pos this] at h
    cases h
  obtain ⟨i, hi, ha, hb', he⟩ := interp_spec (n := 99998) (xs := fun i => d.sr_phi2N φe (d.phis i)) (ys := d.phis) (by norm_num) hinc N hr.1 hr.2
  rw [DoubleWell.sr_N2phi, he, hstep] at h
  cases h
  have hlt := hinc i hi
  obtain ⟨l1, l2⟩ := hb i hi.le
  obtain ⟨u1, u2⟩ := hb (i+1) hi
  have hs := hstep i
  obtain ⟨s, hsdef⟩ : ∃ s, s = (N - d.sr_phi2N φe (d.phis i)) / (d.sr_phi2N φe (d.phis (i+1)) - d.sr_phi2N φe (d.phis i)) := ⟨_, rfl⟩
  have s0 : 0 ≤ s := by rw [hsdef]; exact div_nonneg (sub_nonneg.2 ha) (by linarith)
  have s1 : s ≤ 1 := by rw [hsdef, div_le_one (by linarith)]; linarith
  have e : d.phi0 / 100000 / (d.sr_phi2N φe (d.phis (i+1)) - d.sr_phi2N φe (d.phis i)) * (N - d.sr_phi2N φe (d.phis i)) + d.phis i =
      d.phis i + s * (d.phi0 / 100000) := by rw [hsdef]; ring
  rw [e]
  constructor <;> nlinarith

end Primpy
