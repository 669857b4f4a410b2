import Verif.Model.Potentials
import Verif.Lemmas.Exact
import Verif.Props.C68

/-!
# C69: shape of the potentials

Per class: the potential is non-negative, vanishes exactly at its minimum, grows strictly along the branch on which the field rolls, and (for the plateau and
hilltop classes) stays below `Λ⁴`.  Features modulate the base potential multiplicatively by at most the amplitude.
-/

namespace Primpy
open Real Set Filter Topology

/-- Shape of a potential on a branch `S` starting at its minimum `m` (specification): zero at the minimum, strictly rising away from it. -/
structure RisesFrom (V : ℝ → ℝ) (S : Set ℝ) (m : ℝ) : Prop where
  mem : m ∈ S
  least : ∀ φ ∈ S, m ≤ φ
  zero : V m = 0
  mono : StrictMonoOn V S

theorem RisesFrom.pos {V : ℝ → ℝ} {S : Set ℝ} {m : ℝ} (h : RisesFrom V S m) {φ : ℝ} (hφ : φ ∈ S) (hm : φ ≠ m) : 0 < V φ := by
  rw [← h.zero]; exact h.mono h.mem hφ (lt_of_le_of_ne (h.least φ hφ) hm.symm)

/-! ## Monomials -/

/-- **C69, monomials.** -/
theorem C69_monomial (m : Monomial) (hp : 0 < m.p) (hL : m.Lambda ≠ 0) :
    (∀ φ, 0 ≤ m.V φ) ∧ (∀ φ, m.V φ = 0 ↔ φ = 0) ∧ (∀ φ, m.V (-φ) = m.V φ) ∧ RisesFrom m.V (Ici 0) 0 ∧ Tendsto m.V atTop atTop := by
  have hL4 : 0 < m.Lambda ^ 4 := by positivity
  refine ⟨fun φ => by unfold Monomial.V; positivity, fun φ => ?_, fun φ => by unfold Monomial.V; rw [abs_neg], ⟨self_mem_Ici, fun _ h => h, ?_, ?_⟩, ?_⟩
  · unfold Monomial.V
    rw [mul_eq_zero, or_iff_right hL4.ne', rpow_eq_zero (abs_nonneg _) hp.ne', abs_eq_zero]
  · simp [Monomial.V, zero_rpow hp.ne']
  · intro a ha b hb hab
    have ha : 0 ≤ a := ha
    have hb : 0 ≤ b := hb
    unfold Monomial.V
    rw [abs_of_nonneg ha, abs_of_nonneg hb]
    exact mul_lt_mul_of_pos_left (rpow_lt_rpow ha hab hp) hL4
  · unfold Monomial.V
    exact ((tendsto_rpow_atTop hp).comp tendsto_abs_atTop_atTop).const_mul_atTop hL4

/-- The quadratic class implements its own formulas. -/
theorem C69_quadratic (q : Quadratic) (hL : q.Lambda ≠ 0) :
    (∀ φ, 0 ≤ q.V φ) ∧ (∀ φ, q.V φ = 0 ↔ φ = 0) ∧ (∀ φ, q.V (-φ) = q.V φ) ∧ RisesFrom q.V (Ici 0) 0 := by
  have hL4 : 0 < q.Lambda ^ 4 := by positivity
  refine ⟨fun φ => by unfold Quadratic.V; positivity, fun φ => ?_, fun φ => by unfold Quadratic.V; ring, ⟨self_mem_Ici, fun _ h => h, ?_, ?_⟩⟩
  · simp [Quadratic.V, hL]
  · simp [Quadratic.V]
  · intro a ha b hb hab
    exact mul_lt_mul_of_pos_left (pow_lt_pow_left₀ hab ha two_ne_zero) hL4

/-! ## Starobinsky -/

private theorem gam : 0 < Starobinsky.gamma := sqrt_pos.2 (by norm_num)

/-- **C69, Starobinsky**: a plateau at `Λ⁴` on the right, a steep wall on the left. -/
theorem C69_starobinsky (s : Starobinsky) (hL : s.Lambda ≠ 0) :
    (∀ φ, 0 ≤ s.V φ) ∧ (∀ φ, s.V φ = 0 ↔ φ = 0) ∧ RisesFrom s.V (Ici 0) 0 ∧ StrictAntiOn s.V (Iic 0) ∧
      (∀ φ ≥ 0, s.V φ < s.Lambda ^ 4) ∧ Tendsto s.V atTop (𝓝 (s.Lambda ^ 4)) ∧ Tendsto s.V atBot atTop := by
  have hL4 : 0 < s.Lambda ^ 4 := by positivity
  have hg := gam
  have lt1 : ∀ φ ≥ 0, exp (-Starobinsky.gamma * φ) ≤ 1 := fun φ h => exp_le_one_iff.2 (by nlinarith)
  refine ⟨fun φ => by unfold Starobinsky.V; positivity, fun φ => ?_, ⟨self_mem_Ici, fun _ h => h, ?_, ?_⟩, ?_, fun φ h => ?_, ?_, ?_⟩
  · unfold Starobinsky.V
    rw [mul_eq_zero, or_iff_right hL4.ne', pow_eq_zero_iff two_ne_zero, sub_eq_zero, eq_comm, exp_eq_one_iff]
    constructor
    · intro h; exact (mul_eq_zero.1 h).resolve_left (by linarith)
    · intro h; rw [h, mul_zero]
  · simp [Starobinsky.V]
  · intro a ha b hb hab
    have e : exp (-Starobinsky.gamma * b) < exp (-Starobinsky.gamma * a) := exp_lt_exp.2 (by nlinarith)
    exact mul_lt_mul_of_pos_left (pow_lt_pow_left₀ (by linarith) (by linarith [lt1 a ha]) two_ne_zero) hL4
  · intro a ha b hb hab
    have hb : b ≤ 0 := hb
    have e : exp (-Starobinsky.gamma * b) < exp (-Starobinsky.gamma * a) := exp_lt_exp.2 (by nlinarith)
    have e1 : 1 ≤ exp (-Starobinsky.gamma * b) := one_le_exp (by nlinarith)
    unfold Starobinsky.V
    rw [show (1 - exp (-Starobinsky.gamma * b)) ^ 2 = (exp (-Starobinsky.gamma * b) - 1) ^ 2 by ring,
      show (1 - exp (-Starobinsky.gamma * a)) ^ 2 = (exp (-Starobinsky.gamma * a) - 1) ^ 2 by ring]
    exact mul_lt_mul_of_pos_left (pow_lt_pow_left₀ (by linarith) (by linarith) two_ne_zero) hL4
  · unfold Starobinsky.V
    have e0 := exp_pos (-Starobinsky.gamma * φ)
    have e1 := lt1 φ h
    have : (1 - exp (-Starobinsky.gamma * φ)) ^ 2 < 1 := by nlinarith
    nlinarith
  · have h1 : Tendsto (fun φ : ℝ => exp (-Starobinsky.gamma * φ)) atTop (𝓝 0) :=
      tendsto_exp_atBot.comp (tendsto_id.const_mul_atTop_of_neg (by linarith))
    have h2 := ((h1.const_sub 1).pow 2).const_mul (s.Lambda ^ 4)
    rw [sub_zero, one_pow, mul_one] at h2
    exact h2
  · have h1 : Tendsto (fun φ : ℝ => exp (-Starobinsky.gamma * φ)) atBot atTop :=
      tendsto_exp_atTop.comp (tendsto_id.const_mul_atBot_of_neg (by linarith))
    have h2 : Tendsto (fun φ : ℝ => exp (-Starobinsky.gamma * φ) - 1) atBot atTop := tendsto_atTop_add_const_right _ _ h1
    have h3 := (tendsto_pow_atTop (two_ne_zero)).comp h2
    refine (h3.const_mul_atTop hL4).congr fun φ => ?_
    simp only [Starobinsky.V, Function.comp]
    ring

/-- **C69, Starobinsky, the documented shape**: `V = Λ⁴ (1 - e^{-√(2/3) φ})²`; the plateau is approached exponentially, with the rate `√(2/3)`. -/
theorem C69_starobinsky_shape (s : Starobinsky) (hL : s.Lambda ≠ 0) :
    (∀ φ, s.V φ = s.Lambda ^ 4 * (1 - exp (-(√(2 / 3) * φ))) ^ 2) ∧
      Tendsto (fun φ => (1 - s.V φ / s.Lambda ^ 4) * exp (√(2 / 3) * φ)) atTop (𝓝 2) := by
  have form : ∀ φ, s.V φ = s.Lambda ^ 4 * (1 - exp (-(√(2 / 3) * φ))) ^ 2 := fun φ => by
    unfold Starobinsky.V Starobinsky.gamma
    rw [neg_mul]
  refine ⟨form, ?_⟩
  have hg : (0 : ℝ) < √(2 / 3) := sqrt_pos.2 (by norm_num)
  have h1 : Tendsto (fun φ : ℝ => exp (-(√(2 / 3) * φ))) atTop (𝓝 0) := tendsto_exp_neg_atTop_nhds_zero.comp (tendsto_id.const_mul_atTop hg)
  have h2 := h1.const_sub 2
  rw [sub_zero] at h2
  refine h2.congr fun φ => ?_
  have h4 : s.Lambda ^ 4 ≠ 0 := pow_ne_zero 4 hL
  rw [form, mul_div_cancel_left₀ _ h4, exp_neg]
  have := (exp_pos (√(2 / 3) * φ)).ne'
  field_simp
  ring

/-! ## Natural inflation -/

/-- **C69, natural inflation**: periodic, even, between 0 and `Λ⁴`, hilltop at `φ₀`. -/
theorem C69_natural (n : Natural) (h0 : 0 < n.phi0) (hL : n.Lambda ≠ 0) :
    (∀ φ, 0 ≤ n.V φ ∧ n.V φ ≤ n.Lambda ^ 4) ∧ (∀ φ, n.V φ = 0 ↔ ∃ k : ℤ, φ = 2 * k * n.phi0) ∧ (∀ φ, n.V (φ + 2 * n.phi0) = n.V φ) ∧
      (∀ φ, n.V (-φ) = n.V φ) ∧ RisesFrom n.V (Icc 0 n.phi0) 0 ∧ n.V n.phi0 = n.Lambda ^ 4 := by
  have hL4 : 0 < n.Lambda ^ 4 := by positivity
  have hpi := pi_pos
  have hne := h0.ne'
  refine ⟨fun φ => ?_, fun φ => ?_, fun φ => ?_, fun φ => ?_, ⟨⟨le_rfl, h0.le⟩, fun _ h => h.1, ?_, ?_⟩, ?_⟩
  · have := neg_one_le_cos (π * φ / n.phi0)
    have := cos_le_one (π * φ / n.phi0)
    unfold Natural.V
    constructor <;> nlinarith
  · unfold Natural.V
    rw [mul_eq_zero, or_iff_right (by positivity), sub_eq_zero, eq_comm, cos_eq_one_iff]
    refine exists_congr fun k => ?_
    rw [eq_div_iff hne]
    constructor
    · intro h
      have : π * (2 * k * n.phi0) = π * φ := by rw [← h]; ring
      exact (mul_left_cancel₀ hpi.ne' this).symm
    · intro h; rw [h]; ring
  · unfold Natural.V
    rw [show π * (φ + 2 * n.phi0) / n.phi0 = π * φ / n.phi0 + 2 * π by field_simp, cos_add_two_pi]
  · unfold Natural.V
    rw [show π * -φ / n.phi0 = -(π * φ / n.phi0) by ring, cos_neg]
  · simp [Natural.V]
  · intro a ha b hb hab
    have hm : ∀ c ∈ Icc 0 n.phi0, π * c / n.phi0 ∈ Icc 0 π := fun c hc => by
      refine ⟨by have := hc.1; positivity, ?_⟩
      rw [div_le_iff₀ h0]; nlinarith [hc.2]
    have hlt : π * a / n.phi0 < π * b / n.phi0 := by
      rw [div_lt_div_iff_of_pos_right h0]; nlinarith
    have := strictAntiOn_cos (hm a ha) (hm b hb) hlt
    unfold Natural.V
    nlinarith
  · unfold Natural.V
    rw [mul_div_cancel_right₀ _ hne, cos_pi]; ring

/-! ## Double well -/

/-- **C69, double well**: hilltop of height `Λ⁴` at `φ₀`. -/
theorem C69_doublewell (d : DoubleWell) (h0 : 0 < d.phi0) (hp : 0 < d.p) (hL : d.Lambda ≠ 0) :
    (∀ φ, 0 ≤ d.V φ) ∧ RisesFrom d.V (Icc 0 d.phi0) 0 ∧ d.V d.phi0 = d.Lambda ^ 4 := by
  have hL4 : 0 < d.Lambda ^ 4 := by positivity
  refine ⟨fun φ => by unfold DoubleWell.V; positivity, ⟨⟨le_rfl, h0.le⟩, fun _ h => h.1, ?_, ?_⟩, ?_⟩
  · simp [DoubleWell.V, DoubleWell.x]
  · intro a ha b hb hab
    have xb : 0 ≤ d.x b := by
      unfold DoubleWell.x; rw [sub_nonneg, div_le_one h0]; exact hb.2
    have xab : d.x b < d.x a := by
      unfold DoubleWell.x
      have := (div_lt_div_iff_of_pos_right h0).2 hab
      linarith
    have xa : d.x a ≤ 1 := by
      unfold DoubleWell.x
      have := div_nonneg ha.1 h0.le
      linarith
    have r1 := rpow_lt_rpow xb xab hp
    have r2 := rpow_le_one (xb.trans xab.le) xa hp.le
    exact mul_lt_mul_of_pos_left (pow_lt_pow_left₀ (by linarith) (by linarith) two_ne_zero) hL4
  · unfold DoubleWell.V DoubleWell.x
    rw [div_self h0.ne', sub_self, zero_rpow hp.ne']; ring

/-- The `p = 2` and `p = 4` wells are symmetric about the hilltop and their second minimum is at `2φ₀`. -/
theorem C69_doublewell_symmetric (L phi0 : ℝ) (h0 : 0 < phi0) (φ : ℝ) :
    (DoubleWell2 L phi0).V (2 * phi0 - φ) = (DoubleWell2 L phi0).V φ ∧ (DoubleWell4 L phi0).V (2 * phi0 - φ) = (DoubleWell4 L phi0).V φ ∧
      (DoubleWell2 L phi0).V (2 * phi0) = 0 ∧ (DoubleWell4 L phi0).V (2 * phi0) = 0 := by
  have e : ∀ ψ : ℝ, 1 - (2 * phi0 - ψ) / phi0 = -(1 - ψ / phi0) := fun ψ => by field_simp; ring
  have r2 : ∀ x : ℝ, x ^ (2 : ℝ) = x ^ 2 := fun x => rpow_two x
  have r4 : ∀ x : ℝ, x ^ (4 : ℝ) = x ^ 4 := fun x => by
    exact_mod_cast rpow_natCast x 4
  have s2 : ∀ ψ, (DoubleWell2 L phi0).V (2 * phi0 - ψ) = (DoubleWell2 L phi0).V ψ := fun ψ => by
    simp only [DoubleWell2, DoubleWell.V, DoubleWell.x, e, r2]; ring
  have s4 : ∀ ψ, (DoubleWell4 L phi0).V (2 * phi0 - ψ) = (DoubleWell4 L phi0).V ψ := fun ψ => by
    simp only [DoubleWell4, DoubleWell.V, DoubleWell.x, e, r4]; ring
  refine ⟨s2 φ, s4 φ, ?_, ?_⟩
  · have := s2 0; rw [sub_zero] at this; rw [this]; simp [DoubleWell2, DoubleWell.V, DoubleWell.x]
  · have := s4 0; rw [sub_zero] at this; rw [this]; simp [DoubleWell4, DoubleWell.V, DoubleWell.x]

/-! ## T-model -/

private theorem tanh_form (x : ℝ) : tanh x = 1 - 2 / (exp (2 * x) + 1) := by
  have h := exp_pos x
  rw [tanh_eq, exp_neg, show 2 * x = x + x by ring, exp_add]
  field_simp
  ring

private theorem tanh_strictMono : StrictMono tanh := fun a b h => by
  rw [tanh_form, tanh_form]
  have : exp (2 * a) < exp (2 * b) := exp_lt_exp.2 (by linarith)
  have := div_lt_div_of_pos_left two_pos (by positivity : 0 < exp (2 * a) + 1) (by linarith : exp (2 * a) + 1 < exp (2 * b) + 1)
  linarith

private theorem tendsto_tanh : Tendsto tanh atTop (𝓝 1) := by
  have h1 : Tendsto (fun x : ℝ => exp (2 * x) + 1) atTop atTop :=
    tendsto_atTop_add_const_right _ _ (tendsto_exp_atTop.comp (tendsto_id.const_mul_atTop two_pos))
  have h2 := (h1.const_div_atTop 2).const_sub 1
  rw [sub_zero] at h2
  exact h2.congr fun x => (tanh_form x).symm

/-- **C69, T-model**: plateau at `Λ⁴`. -/
theorem C69_tmodel (t : Tmodel) (ha : 0 < t.alpha) (hp : 0 < t.p) (hL : t.Lambda ≠ 0) :
    RisesFrom t.V (Ici 0) 0 ∧ (∀ φ ≥ 0, t.V φ < t.Lambda ^ 4) ∧ Tendsto t.V atTop (𝓝 (t.Lambda ^ 4)) := by
  have hL4 : 0 < t.Lambda ^ 4 := by positivity
  have hs : 0 < t.s_6_a := sqrt_pos.2 (by linarith)
  have h2p : 0 < 2 * t.p := by linarith
  have c0 : ∀ φ ≥ 0, 0 ≤ t.C φ := fun φ h => by
    have := tanh_strictMono.monotone (div_nonneg h hs.le); rwa [tanh_zero] at this
  have c1 : ∀ φ, t.C φ < 1 := fun φ => tanh_lt_one _
  have clt : ∀ a b, a < b → t.C a < t.C b := fun a b h => tanh_strictMono ((div_lt_div_iff_of_pos_right hs).2 h)
  refine ⟨⟨self_mem_Ici, fun _ h => h, ?_, ?_⟩, fun φ h => ?_, ?_⟩
  · simp [Tmodel.V, Tmodel.C, zero_rpow h2p.ne']
  · intro a ha b hb hab
    exact mul_lt_mul_of_pos_left (rpow_lt_rpow (c0 a ha) (clt a b hab) h2p) hL4
  · have := rpow_lt_one (c0 φ h) (c1 φ) h2p
    unfold Tmodel.V
    nlinarith
  · have h1 : Tendsto (fun φ => t.C φ) atTop (𝓝 1) := by
      refine tendsto_tanh.comp ?_
      exact tendsto_id.atTop_div_const hs
    have h2 := (h1.rpow_const (p := 2 * t.p) (Or.inl one_ne_zero)).const_mul (t.Lambda ^ 4)
    rw [one_rpow, mul_one] at h2
    exact h2

/-! ## Radion gauge -/

/-- **C69, radion gauge inflation**: plateau at `Λ⁴`. -/
theorem C69_radiongauge (g : RadionGauge) (ha : 0 < g.alpha) (hp : 0 < g.p) (hL : g.Lambda ≠ 0) :
    RisesFrom g.V (Ici 0) 0 ∧ (∀ φ ≥ 0, g.V φ < g.Lambda ^ 4) ∧ Tendsto g.V atTop (𝓝 (g.Lambda ^ 4)) := by
  have hL4 : 0 < g.Lambda ^ 4 := by positivity
  have form : ∀ φ ≥ 0, g.V φ = g.Lambda ^ 4 - g.Lambda ^ 4 * g.alpha / (g.alpha + φ ^ g.p) := fun φ h => by
    have : 0 ≤ φ ^ g.p := rpow_nonneg h _
    have : g.alpha + φ ^ g.p ≠ 0 := by positivity
    unfold RadionGauge.V
    field_simp
    ring
  refine ⟨⟨self_mem_Ici, fun _ h => h, ?_, ?_⟩, fun φ h => ?_, ?_⟩
  · simp [RadionGauge.V, zero_rpow hp.ne']
  · intro a ha' b hb hab
    rw [form a ha', form b hb]
    have r := rpow_lt_rpow ha' hab hp
    have : 0 ≤ a ^ g.p := rpow_nonneg ha' _
    have : g.Lambda ^ 4 * g.alpha / (g.alpha + b ^ g.p) < g.Lambda ^ 4 * g.alpha / (g.alpha + a ^ g.p) :=
      div_lt_div_of_pos_left (by positivity) (by positivity) (by linarith)
    linarith
  · rw [form φ h]
    have : 0 ≤ φ ^ g.p := rpow_nonneg h _
    have : 0 < g.Lambda ^ 4 * g.alpha / (g.alpha + φ ^ g.p) := by positivity
    linarith
  · have h1 : Tendsto (fun φ : ℝ => g.alpha + φ ^ g.p) atTop atTop := tendsto_atTop_add_const_left _ _ (tendsto_rpow_atTop hp)
    have h2 := (h1.const_div_atTop (g.Lambda ^ 4 * g.alpha)).const_sub (g.Lambda ^ 4)
    rw [sub_zero] at h2
    refine h2.congr' ?_
    filter_upwards [eventually_ge_atTop 0] with φ h
    rw [form φ h]

/-- **C69, radion gauge inflation, the scale `mu`**: `V = Λ⁴ (φ/mu)^p / (1 + (φ/mu)^p)`; `mu` is the field value at half the height of the plateau. -/
theorem C69_radiongauge_mu (g : RadionGauge) (ha : 0 < g.alpha) (hp : 0 < g.p) :
    0 < g.mu ∧ g.mu ^ g.p = g.alpha ∧ (∀ φ ≥ 0, g.V φ = g.Lambda ^ 4 * ((φ / g.mu) ^ g.p / (1 + (φ / g.mu) ^ g.p))) ∧ g.V g.mu = g.Lambda ^ 4 / 2 := by
  have hmu : 0 < g.mu := rpow_pos_of_pos ha _
  have hpow : g.mu ^ g.p = g.alpha := by
    unfold RadionGauge.mu
    rw [← rpow_mul ha.le, one_div, inv_mul_cancel₀ hp.ne', rpow_one]
  refine ⟨hmu, hpow, fun φ h => ?_, ?_⟩
  · rw [div_rpow h hmu.le, hpow]
    have : 0 ≤ φ ^ g.p := rpow_nonneg h _
    have h1 : g.alpha + φ ^ g.p ≠ 0 := by positivity
    unfold RadionGauge.V
    field_simp
  · unfold RadionGauge.V
    rw [hpow]
    field_simp
    norm_num

/-! ## Features -/

/-- **C69, Gaussian dip**: for amplitude `0 ≤ a < 1` the potential stays between `(1-a)` times the base and the base, is deepest exactly at the feature, and
approaches the base potential far away. -/
theorem C69_gaussian_dip (base : PotFns) (x0 a b φ : ℝ) (ha : 0 ≤ a) (hV : 0 ≤ base.V φ) :
    (1 - a) * base.V φ ≤ (FeaturePotential base (GaussianDip.fns x0 a b)).V φ ∧ (FeaturePotential base (GaussianDip.fns x0 a b)).V φ ≤ base.V φ ∧
      (FeaturePotential base (GaussianDip.fns x0 a b)).V x0 = (1 - a) * base.V x0 ∧ (a < 1 → 0 < base.V φ →
        0 < (FeaturePotential base (GaussianDip.fns x0 a b)).V φ) := by
  simp only [FeaturePotential, GaussianDip.fns, GaussianDip.F]
  have e0 := exp_pos (-(φ - x0) ^ 2 / (2 * b ^ 2))
  have e1 : exp (-(φ - x0) ^ 2 / (2 * b ^ 2)) ≤ 1 := exp_le_one_iff.2 (div_nonpos_of_nonpos_of_nonneg (neg_nonpos.2 (sq_nonneg _)) (by positivity))
  have a1 : a * exp (-(φ - x0) ^ 2 / (2 * b ^ 2)) ≤ a := mul_le_of_le_one_right ha e1
  have a0 : 0 ≤ a * exp (-(φ - x0) ^ 2 / (2 * b ^ 2)) := by positivity
  refine ⟨?_, ?_, ?_, fun h h' => ?_⟩
  · nlinarith
  · nlinarith
  · rw [sub_self]; simp; ring
  · exact mul_pos h' (by linarith)

/-- **C69, tanh step**: the modulation is less than the amplitude, and vanishes at the feature. -/
theorem C69_tanh_step (base : PotFns) (x0 a b φ : ℝ) (ha : a ≠ 0) (hV : 0 < base.V φ) :
    (1 - |a|) * base.V φ < (FeaturePotential base (TanhStep.fns x0 a b)).V φ ∧ (FeaturePotential base (TanhStep.fns x0 a b)).V φ < (1 + |a|) * base.V φ ∧
      (FeaturePotential base (TanhStep.fns x0 a b)).V x0 = base.V x0 ∧ (|a| ≤ 1 → 0 < (FeaturePotential base (TanhStep.fns x0 a b)).V φ) := by
  simp only [FeaturePotential, TanhStep.fns, TanhStep.F]
  have t := abs_tanh_lt_one ((φ - x0) / b)
  have hk : |a * tanh ((φ - x0) / b)| < |a| := by
    rw [abs_mul]; exact mul_lt_of_lt_one_right (abs_pos.2 ha) t
  have hk' := abs_lt.1 hk
  refine ⟨by nlinarith, by nlinarith, by simp, fun h => mul_pos hV (by linarith)⟩

/-- **C69, features far away**: both kinds of feature leave a bounded base potential asymptotically unchanged (dip) or rescaled by `1 ± a` (step). -/
theorem C69_feature_limits (base : PotFns) (x0 a b v : ℝ) (hb : 0 < b) (hbase : Tendsto base.V atTop (𝓝 v)) :
    Tendsto (FeaturePotential base (GaussianDip.fns x0 a b)).V atTop (𝓝 v) ∧
      Tendsto (FeaturePotential base (TanhStep.fns x0 a b)).V atTop (𝓝 (v * (1 + a))) := by
  constructor
  · have h1 : Tendsto (fun φ : ℝ => (φ - x0) ^ 2 / (2 * b ^ 2)) atTop atTop :=
      ((tendsto_pow_atTop two_ne_zero).comp (tendsto_atTop_add_const_right _ (-x0) tendsto_id)).atTop_div_const (by positivity)
    have h2 : Tendsto (fun φ : ℝ => exp (-(φ - x0) ^ 2 / (2 * b ^ 2))) atTop (𝓝 0) := by
      refine (tendsto_exp_neg_atTop_nhds_zero.comp h1).congr fun φ => ?_
      simp only [Function.comp, neg_div]
    have h3 := hbase.mul ((h2.const_mul (-a)).const_add 1)
    simpa [FeaturePotential, GaussianDip.fns, GaussianDip.F] using h3
  · have h1 : Tendsto (fun φ : ℝ => (φ - x0) / b) atTop atTop := (tendsto_atTop_add_const_right _ (-x0) tendsto_id).atTop_div_const hb
    have h3 := hbase.mul (((tendsto_tanh.comp h1).const_mul a).const_add 1)
    simpa [FeaturePotential, TanhStep.fns, TanhStep.F] using h3

/-- **C69, a feature of amplitude zero is no feature**: all derivatives coincide with the base class. -/
theorem C69_no_feature (base : PotFns) (x0 b : ℝ) :
    FeaturePotential base (GaussianDip.fns x0 0 b) = base ∧ FeaturePotential base (TanhStep.fns x0 0 b) = base := by
  constructor <;>
    simp [FeaturePotential, GaussianDip.fns, TanhStep.fns, GaussianDip.F, GaussianDip.dF, GaussianDip.d2F, GaussianDip.d3F, TanhStep.F, TanhStep.dF,
      TanhStep.d2F, TanhStep.d3F]

/-- **C69, with C68**: a flat universe filled with any of these fields away from the minimum expands, whatever its velocity. -/
theorem C69_expands (e : InflT) (hK : e.K ≤ 0) {S : Set ℝ} {m : ℝ} (h : RisesFrom e.pot.V S m) (y : ℕ → ℝ) (hφ : InflT.phi y ∈ S)
    (hm : InflT.phi y ≠ m) : 0 < e.H2 y :=
  (C68_expands e Exact.flatN 0 y).1 hK (h.pos hφ hm)

/-! ## Non-vacuity -/

/-- An open Starobinsky universe with the field anywhere on the positive branch. -/
example (φ dφ n : ℝ) (h : 0 < φ) :
    0 < (InflT.mk (-1) (Starobinsky.mk 1).fns false).H2 (fun i => if i = 0 then φ else if i = 1 then dφ else n) :=
  C69_expands _ (by norm_num) (C69_starobinsky ⟨1⟩ one_ne_zero).2.2.1 _ (by simpa [InflT.phi] using h.le) (by simpa [InflT.phi] using h.ne')

/-- Concrete members of each class. -/
example : RisesFrom (Monomial.mk 1 (2 / 3)).V (Ici 0) 0 ∧ RisesFrom (Natural.mk 1 5).V (Icc 0 5) 0 ∧ RisesFrom (DoubleWell2 1 5).V (Icc 0 5) 0 ∧
    RisesFrom (Tmodel.mk 1 1 1).V (Ici 0) 0 ∧ RisesFrom (RadionGauge2 1 3).V (Ici 0) 0 :=
  ⟨(C69_monomial ⟨1, 2 / 3⟩ (by norm_num) one_ne_zero).2.2.2.1, (C69_natural ⟨1, 5⟩ (by norm_num) one_ne_zero).2.2.2.2.1,
    (C69_doublewell (DoubleWell2 1 5) (by norm_num [DoubleWell2]) (by norm_num [DoubleWell2]) one_ne_zero).2.1,
    (C69_tmodel ⟨1, 1, 1⟩ one_pos one_pos one_ne_zero).1, (C69_radiongauge (RadionGauge2 1 3) (by norm_num [RadionGauge2]) (by norm_num [RadionGauge2]) one_ne_zero).1⟩

/-- A dip of 10% in the Starobinsky plateau leaves the potential positive and the plateau at `Λ⁴`. -/
example (φ : ℝ) (h : 0 < φ) : 0 < (StarobinskyGaussianDip 1 5 (1 / 10) (1 / 2)).V φ ∧
    Tendsto (StarobinskyGaussianDip 1 5 (1 / 10) (1 / 2)).V atTop (𝓝 (1 ^ 4)) := by
  have s := C69_starobinsky ⟨1⟩ one_ne_zero
  refine ⟨(C69_gaussian_dip (Starobinsky.mk 1).fns 5 (1 / 10) (1 / 2) φ (by norm_num) (s.1 φ)).2.2.2 (by norm_num) (s.2.2.1.pos h.le h.ne'), ?_⟩
  exact (C69_feature_limits (Starobinsky.mk 1).fns 5 (1 / 10) (1 / 2) _ (by norm_num) s.2.2.2.2.2.1).1

/-- A step of 10%. -/
example (φ : ℝ) (h : 0 < φ) : 0 < (StarobinskyTanhStep 1 5 (1 / 10) (1 / 2)).V φ := by
  have s := C69_starobinsky ⟨1⟩ one_ne_zero
  exact (C69_tanh_step (Starobinsky.mk 1).fns 5 (1 / 10) (1 / 2) φ (by norm_num) (s.2.2.1.pos h.le h.ne')).2.2.2 (by rw [abs_of_pos] <;> norm_num)

/-- `RadionGauge2Potential(alpha=9)` reaches half of its plateau at `φ = 3`. -/
example : (RadionGauge2 1 9).mu ^ (2 : ℝ) = 9 ∧ (RadionGauge2 1 9).V (RadionGauge2 1 9).mu = 1 / 2 ∧
    (Starobinsky.mk 1).V 0 = 0 := by
  have h := C69_radiongauge_mu (RadionGauge2 1 9) (by norm_num [RadionGauge2]) (by norm_num [RadionGauge2])
  refine ⟨h.2.1, ?_, ?_⟩
  · rw [h.2.2.2]; norm_num [RadionGauge2]
  · rw [(C69_starobinsky_shape ⟨1⟩ one_ne_zero).1]; simp

end Primpy
