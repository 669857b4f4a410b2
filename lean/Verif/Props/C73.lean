import Verif.Props.C72
import Verif.Lemmas.GammaExpansion
import Verif.Spec.PowerLaw

/-!
# C73: the analytic spectra against exactly solvable inflation
-/

namespace Primpy
open Real Asymptotics Filter Topology Approx

/-- `f = a + b t + c t² + d t³ + O(t⁴)` -/
def Jet (f : ℝ → ℝ) (a b c d : ℝ) : Prop :=
  (fun t => f t - (a + b * t + c * t ^ 2 + d * t ^ 3)) =O[𝓝 0] fun t : ℝ => t ^ 4

namespace Jet
variable {f g : ℝ → ℝ} {a b c d a' b' c' d' : ℝ}

theorem poly (a b c d : ℝ) : Jet (fun t => a + b * t + c * t ^ 2 + d * t ^ 3) a b c d :=
  (isBigO_zero (fun t : ℝ => t ^ 4) (𝓝 0)).congr_left fun t => by ring

theorem of_factor {r : ℝ → ℝ} (h : ∀ᶠ t in 𝓝 0, f t = a + b * t + c * t ^ 2 + d * t ^ 3 + t ^ 4 * r t)
    (hr : ContinuousAt r 0) : Jet f a b c d :=
  isBigO_of_factor 4 (h.mono fun t ht => by rw [ht]; ring) hr

theorem congr (h : Jet f a b c d) (ha : a = a') (hb : b = b') (hc : c = c') (hd : d = d') : Jet f a' b' c' d' := by
  subst ha hb hc hd; exact h

theorem congr_fun (h : Jet f a b c d) (e : ∀ t, g t = f t) : Jet g a b c d := by
  have : g = f := funext e
  rw [this]; exact h

theorem congr_ev (h : Jet f a b c d) (e : ∀ᶠ t in 𝓝 0, g t = f t) : Jet g a b c d :=
  IsBigO.congr' h (e.mono fun t ht => by simp only [ht]) EventuallyEq.rfl

theorem add (h : Jet f a b c d) (h' : Jet g a' b' c' d') :
    Jet (fun t => f t + g t) (a + a') (b + b') (c + c') (d + d') :=
  (IsBigO.add h h').congr_left fun t => by ring

theorem sub (h : Jet f a b c d) (h' : Jet g a' b' c' d') :
    Jet (fun t => f t - g t) (a - a') (b - b') (c - c') (d - d') :=
  (IsBigO.sub h h').congr_left fun t => by ring

theorem const_mul (k : ℝ) (h : Jet f a b c d) : Jet (fun t => k * f t) (k * a) (k * b) (k * c) (k * d) :=
  (IsBigO.const_mul_left h k).congr_left fun t => by ring

theorem tendsto (h : Jet f a b c d) : Tendsto f (𝓝 0) (𝓝 a) := by
  have h1 : Tendsto (fun t => f t - (a + b * t + c * t ^ 2 + d * t ^ 3)) (𝓝 0) (𝓝 0) := by
    refine IsBigO.trans_tendsto h ?_
    have : Continuous fun t : ℝ => t ^ 4 := by fun_prop
    simpa using this.tendsto 0
  have h2 : Tendsto (fun t : ℝ => a + b * t + c * t ^ 2 + d * t ^ 3) (𝓝 0) (𝓝 a) := by
    have : Continuous fun t : ℝ => a + b * t + c * t ^ 2 + d * t ^ 3 := by fun_prop
    simpa using this.tendsto 0
  simpa using h1.add h2

theorem mul (h : Jet f a b c d) (h' : Jet g a' b' c' d') :
    Jet (fun t => f t * g t) (a * a') (a * b' + b * a') (a * c' + b * b' + c * a')
      (a * d' + b * c' + c * b' + d * a') := by
  have b1 : f =O[𝓝 0] fun _ : ℝ => (1:ℝ) := h.tendsto.isBigO_one ℝ
  have hp : ContinuousAt (fun t : ℝ => a' + b' * t + c' * t ^ 2 + d' * t ^ 3) 0 := by fun_prop
  have b2 : (fun t : ℝ => a' + b' * t + c' * t ^ 2 + d' * t ^ 3) =O[𝓝 0] fun _ : ℝ => (1:ℝ) :=
    hp.isBigO_one ℝ
  have k1 := (b1.mul h').congr_right (g₂ := fun t : ℝ => t ^ 4) fun t => by ring
  have k2 := (IsBigO.mul h b2).congr_right (g₂ := fun t : ℝ => t ^ 4) fun t => by ring
  have k3 : (fun t : ℝ => t ^ 4 * ((b * d' + c * c' + d * b') + (c * d' + d * c') * t + d * d' * t ^ 2)) =O[𝓝 0]
      fun t : ℝ => t ^ 4 :=
    isBigO_of_factor 4 (Eventually.of_forall fun t => rfl) (by fun_prop)
  exact ((k1.add k2).add k3).congr_left fun t => by ring

/-- Composition with something that starts at order 1. -/
theorem comp {x : ℝ → ℝ} {x1 x2 x3 : ℝ} (h : Jet f a b c d) (hx : Jet x 0 x1 x2 x3) :
    Jet (fun t => f (x t)) a (b * x1) (b * x2 + c * x1 ^ 2) (b * x3 + c * (2 * x1 * x2) + d * x1 ^ 3) := by
  have hx0 : x =O[𝓝 0] fun t : ℝ => t ^ 1 := by
    have k : (fun t : ℝ => t ^ 4) =O[𝓝 0] fun t : ℝ => t ^ 1 :=
      isBigO_of_factor (g := fun t => t ^ 3) 1 (Eventually.of_forall fun t => by ring) (by fun_prop)
    have k2 : (fun t : ℝ => x1 * t + x2 * t ^ 2 + x3 * t ^ 3) =O[𝓝 0] fun t : ℝ => t ^ 1 :=
      isBigO_of_factor (g := fun t => x1 + x2 * t + x3 * t ^ 2) 1 (Eventually.of_forall fun t => by ring) (by fun_prop)
    exact ((IsBigO.trans hx k).add k2).congr_left fun t => by ring
  have h4 : (fun t => x t ^ 4) =O[𝓝 0] fun t : ℝ => t ^ 4 := (hx0.pow 4).congr_right fun t => by ring
  have k1 : (fun t => f (x t) - (a + b * x t + c * x t ^ 2 + d * x t ^ 3)) =O[𝓝 0] fun t : ℝ => t ^ 4 :=
    (IsBigO.comp_tendsto h hx.tendsto).trans h4
  have k2 : Jet (fun t => a + b * x t + c * x t ^ 2 + d * x t ^ 3) a (b * x1) (b * x2 + c * x1 ^ 2)
      (b * x3 + c * (2 * x1 * x2) + d * x1 ^ 3) := by
    have s2 := hx.mul hx
    refine ((((poly a 0 0 0).add (hx.const_mul b)).add (s2.const_mul c)).add ((hx.mul s2).const_mul d)
      |>.congr (by ring) (by ring) (by ring) (by ring)).congr_fun fun t => by ring
  exact (k1.add k2).congr_left fun t => by ring

theorem exp : Jet Real.exp 1 1 (1 / 2) (1 / 6) :=
  (Real.exp_sub_sum_range_isBigO_pow 4).congr_left fun t => by
    simp only [Finset.sum_range_succ, Finset.sum_range_zero, Nat.factorial]
    push_cast; ring

theorem log_one_sub : Jet (fun t => log (1 - t)) 0 (-1) (-1 / 2) (-1 / 3) := by
  refine IsBigO.of_bound 2 ?_
  filter_upwards [Metric.ball_mem_nhds (0:ℝ) (by norm_num : (0:ℝ) < 1 / 2)] with t ht
  rw [Metric.mem_ball, dist_zero_right, Real.norm_eq_abs] at ht
  have k := Real.abs_log_sub_add_sum_range_le (x := t) (by linarith) 3
  simp only [Finset.sum_range_succ, Finset.sum_range_zero] at k
  rw [Real.norm_eq_abs, Real.norm_eq_abs, abs_pow]
  have e : log (1 - t) - (0 + -1 * t + -1 / 2 * t ^ 2 + -1 / 3 * t ^ 3) = 0 + t ^ (0 + 1) / ((0:ℕ) + 1)
      + t ^ (1 + 1) / ((1:ℕ) + 1) + t ^ (2 + 1) / ((2:ℕ) + 1) + log (1 - t) := by push_cast; ring
  rw [e]
  refine k.trans ?_
  have hp : 0 ≤ |t| ^ 4 := by positivity
  rw [div_le_iff₀ (by linarith)]
  norm_num
  nlinarith [mul_nonneg hp (by linarith : (0:ℝ) ≤ 1 / 2 - |t|)]

/-- Order estimates from jets. -/
theorem isBigO4 (h : Jet f 0 0 0 0) : f =O[𝓝 0] fun t : ℝ => t ^ 4 := IsBigO.congr_left h fun t => by ring
theorem isBigO3 (h : Jet f 0 0 0 d) : f =O[𝓝 0] fun t : ℝ => t ^ 3 := by
  have k : (fun t : ℝ => t ^ 4) =O[𝓝 0] fun t : ℝ => t ^ 3 :=
    isBigO_of_factor (g := fun t => t) 3 (Eventually.of_forall fun t => by ring) (by fun_prop)
  have k2 : (fun t : ℝ => d * t ^ 3) =O[𝓝 0] fun t : ℝ => t ^ 3 := (isBigO_refl _ _).const_mul_left d
  exact ((IsBigO.trans h k).add k2).congr_left fun t => by ring
theorem isBigO2 (h : Jet f 0 0 c d) : f =O[𝓝 0] fun t : ℝ => t ^ 2 := by
  have k : (fun t : ℝ => t ^ 4) =O[𝓝 0] fun t : ℝ => t ^ 2 :=
    isBigO_of_factor (g := fun t => t ^ 2) 2 (Eventually.of_forall fun t => by ring) (by fun_prop)
  have k2 : (fun t : ℝ => c * t ^ 2 + d * t ^ 3) =O[𝓝 0] fun t : ℝ => t ^ 2 :=
    isBigO_of_factor (g := fun t => c + d * t) 2 (Eventually.of_forall fun t => by ring) (by fun_prop)
  exact ((IsBigO.trans h k).add k2).congr_left fun t => by ring
/-- The third-order coefficient is a limit. -/
theorem limit3 (h : Jet f 0 0 0 d) : Tendsto (fun t => f t / t ^ 3) (𝓝[≠] 0) (𝓝 d) := by
  obtain ⟨C, hC⟩ := IsBigO.bound h
  have h1 : Tendsto (fun t => f t / t ^ 3 - d) (𝓝[≠] 0) (𝓝 0) := by
    have hb : Tendsto (fun t : ℝ => C * |t|) (𝓝[≠] 0) (𝓝 0) := by
      have : Continuous fun t : ℝ => C * |t| := by fun_prop
      simpa using (this.tendsto 0).mono_left nhdsWithin_le_nhds
    refine squeeze_zero_norm' ?_ hb
    filter_upwards [self_mem_nhdsWithin, nhdsWithin_le_nhds hC] with t ht hb
    have ht0 : t ≠ 0 := ht
    have ha : (0:ℝ) < |t| ^ 3 := by positivity
    rw [Real.norm_eq_abs, Real.norm_eq_abs, abs_pow] at hb
    have e : f t / t ^ 3 - d = (f t - (0 + 0 * t + 0 * t ^ 2 + d * t ^ 3)) / t ^ 3 := by field_simp; ring
    rw [e, Real.norm_eq_abs, abs_div, abs_pow, div_le_iff₀ ha]
    calc _ ≤ _ := hb
      _ = _ := by ring
  simpa using h1.add_const d

end Jet

/-! ### The exact factors -/

open Spec in
theorem jet_logBD : Jet (fun x => log (bunchDavies (3 / 2 + x))) 0 (2 * alpha) (π ^ 2 / 2 - 4)
    ((16 - 14 * zeta3) / 3) := by
  have h := GammaExp.log_Gamma_expansion
  have hpos : ∀ᶠ x in 𝓝 (0:ℝ), (0:ℝ) < 3 / 2 + x := by
    have : ContinuousAt (fun x : ℝ => 3 / 2 + x) 0 := by fun_prop
    exact this.eventually (lt_mem_nhds (by norm_num))
  refine (h.const_mul_left 2).congr' ?_ EventuallyEq.rfl
  filter_upwards [hpos] with x hx
  have hG := Gamma_pos_of_pos hx
  have hG2 : 0 < Gamma (3 / 2 : ℝ) := Gamma_pos_of_pos (by norm_num)
  rw [bunchDavies, log_mul (by positivity) (by positivity), log_rpow (by norm_num), log_pow, alpha]
  push_cast; ring

theorem jet_x : Jet (fun t => t / (1 - t)) 0 1 1 1 := by
  refine Jet.of_factor (r := fun t => 1 / (1 - t)) ?_ ?_
  · have : ContinuousAt (fun t : ℝ => 1 - t) 0 := by fun_prop
    filter_upwards [this.eventually (lt_mem_nhds (by norm_num : (0:ℝ) < 1 - 0))] with t ht
    field_simp
    ring
  · exact ContinuousAt.div (by fun_prop) (by fun_prop) (by norm_num)

open Spec in
theorem jet_log_powerLaw (L : ℝ) : Jet (fun t => log (powerLaw t L)) 0 (2 * alpha - 2 - 2 * L)
    (2 * alpha + π ^ 2 / 2 - 7 - 2 * L) (2 * alpha + π ^ 2 - 19 / 3 - 14 / 3 * zeta3 - 2 * L) := by
  have j1 := jet_logBD.comp jet_x
  have j2 := ((Jet.poly 2 0 0 0).add (jet_x.const_mul 2)).mul Jet.log_one_sub
  have j3 := jet_x.const_mul (-2 * L)
  have j := (j1.add j2).add j3
  have near : ∀ᶠ t in 𝓝 (0:ℝ), 0 < 1 - t ∧ 0 < 3 / 2 + t / (1 - t) := by
    have c1 : ContinuousAt (fun t : ℝ => 1 - t) 0 := by fun_prop
    have c2 : ContinuousAt (fun t : ℝ => 3 / 2 + t / (1 - t)) 0 :=
      continuousAt_const.add (continuousAt_id.div c1 (by norm_num))
    exact (c1.eventually (lt_mem_nhds (by norm_num))).and (c2.eventually (lt_mem_nhds (by norm_num)))
  refine Jet.congr_ev (j.congr (by ring) (by ring) (by ring) (by ring)) ?_
  filter_upwards [near] with t ht
  obtain ⟨h1, h2⟩ := ht
  have hG := Gamma_pos_of_pos h2
  have hG2 : 0 < Gamma (3 / 2 : ℝ) := Gamma_pos_of_pos (by norm_num)
  have hb : 0 < bunchDavies (3 / 2 + t / (1 - t)) := by unfold bunchDavies; positivity
  rw [powerLaw, log_mul (by positivity) (exp_ne_zero _), log_mul hb.ne' (by positivity), log_exp,
    log_rpow h1]
  ring

open Spec in
theorem powerLaw_pos (L : ℝ) : ∀ᶠ t in 𝓝 (0:ℝ), 0 < powerLaw t L := by
  have c1 : ContinuousAt (fun t : ℝ => 1 - t) 0 := by fun_prop
  have c2 : ContinuousAt (fun t : ℝ => 3 / 2 + t / (1 - t)) 0 :=
    continuousAt_const.add (continuousAt_id.div c1 (by norm_num))
  filter_upwards [c1.eventually (lt_mem_nhds (by norm_num : (0:ℝ) < 1 - 0)),
    c2.eventually (lt_mem_nhds (by norm_num : (0:ℝ) < 3 / 2 + 0 / (1 - 0)))] with t h1 h2
  have hG := Gamma_pos_of_pos h2
  have hG2 : 0 < Gamma (3 / 2 : ℝ) := Gamma_pos_of_pos (by norm_num)
  unfold powerLaw bunchDavies
  positivity

open Spec in
theorem jet_powerLaw (L : ℝ) : Jet (fun t => powerLaw t L) 1 (2 * alpha - 2 - 2 * L)
    (2 * alpha + π ^ 2 / 2 - 7 - 2 * L + (2 * alpha - 2 - 2 * L) ^ 2 / 2)
    (2 * alpha + π ^ 2 - 19 / 3 - 14 / 3 * zeta3 - 2 * L
      + (2 * alpha - 2 - 2 * L) * (2 * alpha + π ^ 2 / 2 - 7 - 2 * L) + (2 * alpha - 2 - 2 * L) ^ 3 / 6) := by
  have j0 := Jet.exp.comp (jet_log_powerLaw L)
  refine Jet.congr_ev (j0.congr (by ring) (by ring) (by ring) (by ring)) ?_
  filter_upwards [powerLaw_pos L] with t ht
  rw [exp_log ht]

open Spec in
theorem jet_constantRoll (L : ℝ) : Jet (fun t => constantRoll t L) 1 (2 * alpha - 2 * L)
    (π ^ 2 / 2 - 4 + (2 * alpha - 2 * L) ^ 2 / 2)
    ((16 - 14 * zeta3) / 3 + (2 * alpha - 2 * L) * (π ^ 2 / 2 - 4) + (2 * alpha - 2 * L) ^ 3 / 6) := by
  have j := jet_logBD.add (Jet.poly 0 (-2 * L) 0 0)
  have j0 := Jet.exp.comp (j.congr (add_zero _) rfl rfl rfl)
  have near : ∀ᶠ t in 𝓝 (0:ℝ), 0 < 3 / 2 + t := by
    have c2 : ContinuousAt (fun t : ℝ => 3 / 2 + t) 0 := by fun_prop
    exact c2.eventually (lt_mem_nhds (by norm_num))
  refine Jet.congr_ev (j0.congr (by ring) (by ring) (by ring) (by ring)) ?_
  filter_upwards [near] with t h2
  have hG := Gamma_pos_of_pos h2
  have hG2 : 0 < Gamma (3 / 2 : ℝ) := Gamma_pos_of_pos (by norm_num)
  have hb : 0 < bunchDavies (3 / 2 + t) := by unfold bunchDavies; positivity
  rw [constantRoll, exp_add, exp_log hb]
  congr 2
  ring

/-! ### The slow-roll points -/

/-- Power-law inflation `a ∝ τ^{1/ε}`: all slow-roll parameters are constant.  (`ε₃ = d ln ε₂/dN` is `0/0`; any value
does, since every term of every method has it multiplied by `ε₂ = 0`.) -/
def plPoint (H ε : ℝ) : SRPoint :=
  { H := H, e1 := ε, e2 := 0, e3 := 0, d1 := -ε, d2 := 2 * ε ^ 2, d3 := -6 * ε ^ 3, g2 := 0, g3 := 0 }

/-- Constant roll `φ̈ = δ H φ̇` in the limit `ε₁ → 0`. -/
def crPoint (H δ : ℝ) : SRPoint :=
  { H := H, e1 := 0, e2 := 2 * δ, e3 := 0, d1 := δ, d2 := δ ^ 2, d3 := δ ^ 3, g2 := 0, g3 := 0 }

/-- The parameters the cosmic-time code computes on the power-law solution `a = τ^{1/ε}`, `φ = √(2/ε) ln τ` are those
of `plPoint`. -/
theorem C73_powerLaw_point (ε τ N : ℝ) (hε : 0 < ε) (hτ : 0 < τ) :
    let p := T.srPoint N (1 / (ε * τ)) (√(2 / ε) / τ) (-√(2 / ε) / τ ^ 2) (2 * √(2 / ε) / τ ^ 3)
      (-6 * √(2 / ε) / τ ^ 4) 0
    let q := plPoint (1 / (ε * τ)) ε
    p.H = q.H ∧ p.e1 = q.e1 ∧ p.e2 = q.e2 ∧ p.d1 = q.d1 ∧ p.d2 = q.d2 ∧ p.d3 = q.d3 ∧ p.g2 = q.g2 ∧ p.g3 = q.g3 := by
  have hs : √(2 / ε) ≠ 0 := (sqrt_pos.2 (by positivity)).ne'
  have hs2 : √(2 / ε) ^ 2 = 2 / ε := sq_sqrt (by positivity)
  obtain ⟨s, hsd⟩ : ∃ s, s = √(2 / ε) := ⟨_, rfl⟩
  rw [← hsd] at hs hs2 ⊢
  have hε' := hε.ne'
  have hτ' := hτ.ne'
  have e2 : s ^ 2 * ε = 2 := by rw [hs2]; field_simp
  have hh : T.get_dH N (1 / (ε * τ)) (s / τ) 0 = -(1 / (ε * τ ^ 2)) := by
    unfold T.get_dH
    rw [div_pow, hs2]
    field_simp
    ring
  have h2 : T.get_d2H N (1 / (ε * τ)) (-(1 / (ε * τ ^ 2))) (s / τ) (-s / τ ^ 2) 0 = 2 / (ε * τ ^ 3) := by
    unfold T.get_d2H
    field_simp
    linear_combination e2
  have h3 : T.get_d3H N (1 / (ε * τ)) (-(1 / (ε * τ ^ 2))) (2 / (ε * τ ^ 3)) (s / τ) (-s / τ ^ 2) (2 * s / τ ^ 3) 0
      = -6 / (ε * τ ^ 4) := by
    unfold T.get_d3H
    field_simp
    linear_combination -3 * ε * e2
  simp only [T.srPoint, hh, h2, h3, plPoint]
  refine ⟨trivial, ?_, ?_, ?_, ?_, ?_, ?_, ?_⟩
  · unfold T.get_epsilon_1H; field_simp
  · unfold T.get_epsilon_2H; field_simp; ring
  · unfold T.get_delta_1; field_simp
  · unfold T.get_delta_2; field_simp
  · unfold T.get_delta_3; field_simp
  · unfold T.get_epsilon_2H_Gong; field_simp; ring
  · unfold T.get_epsilon_3H_Gong; field_simp; ring

/-- The same in the e-fold formulation: `H ∝ e^{-εN}`, `dφ/dN = √(2ε)`. -/
theorem C73_powerLaw_point_N (ε H N₀ : ℝ) (hε : 0 < ε) (hH : 0 < H) :
    let p := N.srPoint N₀ H (√(2 * ε)) 0 0 0 0
    let q := plPoint H ε
    p.H = q.H ∧ p.e1 = q.e1 ∧ p.e2 = q.e2 ∧ p.d1 = q.d1 ∧ p.d2 = q.d2 ∧ p.d3 = q.d3 ∧ p.g2 = q.g2 ∧ p.g3 = q.g3 := by
  have hs2 : √(2 * ε) ^ 2 = 2 * ε := sq_sqrt (by positivity)
  have hs : √(2 * ε) ≠ 0 := (sqrt_pos.2 (by positivity)).ne'
  obtain ⟨s, hsd⟩ : ∃ s, s = √(2 * ε) := ⟨_, rfl⟩
  rw [← hsd] at hs hs2 ⊢
  have hh : N.get_dH N₀ H s 0 = -(ε * H) := by
    unfold N.get_dH; rw [hs2]; field_simp; ring
  have h2 : N.get_d2H N₀ H (-(ε * H)) s 0 0 = ε ^ 2 * H := by
    unfold N.get_d2H; rw [hs2]; field_simp; ring
  have h3 : N.get_d3H N₀ H (-(ε * H)) (ε ^ 2 * H) s 0 0 0 = -(ε ^ 3 * H) := by
    unfold N.get_d3H; rw [hs2]; field_simp; ring
  simp only [N.srPoint, hh, h2, h3, plPoint]
  refine ⟨trivial, ?_, ?_, ?_, ?_, ?_, ?_, ?_⟩
  · unfold N.get_epsilon_1H; field_simp
  · unfold N.get_epsilon_2H; field_simp; ring
  · unfold N.get_delta_1; field_simp; ring
  · unfold N.get_delta_2; field_simp; ring
  · unfold N.get_delta_3; field_simp; ring
  · unfold N.get_epsilon_2H_Gong; field_simp; ring
  · unfold N.get_epsilon_3H_Gong; field_simp; ring

/-! ### ARBDS -/

open Spec in
/-- **C73, ARBDS on power-law inflation.**  The moment's pivot is `k_* = -1/η = (1-ε)aH`; at every wavenumber
`k = e^L aH` the order-`n` prediction is exact up to order `n+1`, scalar and tensor. -/
theorem C73_ARBDS_powerLaw (n : ℕ) (h1 : 1 ≤ n) (h3 : n ≤ 3) (H L : ℝ) :
    ((fun ε => arbdsS n (plPoint H ε) (L - log (1 - ε)) - powerLaw ε L) =O[𝓝 0] fun ε => ε ^ (n + 1)) ∧
    ((fun ε => arbdsT n (plPoint H ε) (L - log (1 - ε)) - powerLaw ε L) =O[𝓝 0] fun ε => ε ^ (n + 1)) := by
  have jl : Jet (fun t => L - log (1 - t)) L 1 (1 / 2) (1 / 3) :=
    (((Jet.poly L 0 0 0).sub Jet.log_one_sub).congr (by ring) (by ring) (by ring) (by ring)).congr_fun
      fun t => by ring
  have jE := jet_powerLaw L
  interval_cases n
  · have key := (((Jet.poly 1 (2 * alpha - 2) 0 0).add ((Jet.poly 0 (-2) 0 0).mul jl)).sub jE)
    refine ⟨(Jet.congr_fun (key.congr (by ring) (by ring) rfl rfl) fun t => ?_).isBigO2,
      (Jet.congr_fun (key.congr (by ring) (by ring) rfl rfl) fun t => ?_).isBigO2⟩ <;>
    · simp only [arbdsS, as0_1, as1_1, arbdsT, at0_1, at1_1, plPoint]; ring
  · have key := (((Jet.poly 1 (2 * alpha - 2) (-3 - 2 * alpha + 2 * alpha ^ 2 + π ^ 2 / 2) 0).add
      ((Jet.poly 0 (-2) (2 * (-2 * alpha + 1)) 0).mul jl)).add ((Jet.poly 0 0 2 0).mul (jl.mul jl))).sub jE
    refine ⟨(Jet.congr_fun (key.congr (by ring) (by ring) (by ring) rfl) fun t => ?_).isBigO3,
      (Jet.congr_fun (key.congr (by ring) (by ring) (by ring) rfl) fun t => ?_).isBigO3⟩ <;>
    · simp only [arbdsS, as0_1, as0_2, as1_1, as1_2, as2_2, arbdsT, at0_1, at0_2, at1_1, at1_2, at2_2, plPoint]; ring
  · have key := (((Jet.poly 1 (2 * alpha - 2) (-3 - 2 * alpha + 2 * alpha ^ 2 + π ^ 2 / 2)
      (-(-16 + 24 * alpha - 4 * alpha ^ 3 - 3 * alpha * π ^ 2 + 6 * Z) / 3)).add
      ((Jet.poly 0 (-2) (2 * (-2 * alpha + 1)) (-(-8 + 4 * alpha ^ 2 + π ^ 2))).mul jl)).add
      (((Jet.poly 0 0 2 (4 * alpha)).mul (jl.mul jl)).add
        ((Jet.poly 0 0 0 (-4 / 3)).mul (jl.mul (jl.mul jl))))).sub jE
    refine ⟨(Jet.congr_fun (key.congr (by ring) (by ring) (by ring) (by unfold Z; ring)) fun t => ?_).isBigO4,
      (Jet.congr_fun (key.congr (by ring) (by ring) (by ring) (by unfold Z; ring)) fun t => ?_).isBigO4⟩ <;>
    · simp only [arbdsS, as0_1, as0_2, as0_3, as1_1, as1_2, as1_3, as2_2, as2_3, as3_3, arbdsT, at0_1, at0_2, at0_3,
        at1_1, at1_2, at1_3, at2_2, at2_3, at3_3, plPoint]; ring

open Spec in
/-- **C73, ARBDS on constant roll** (`ε₁ → 0`): exact up to order `n+1` at every wavenumber. -/
theorem C73_ARBDS_constantRoll (n : ℕ) (h1 : 1 ≤ n) (h3 : n ≤ 3) (H L : ℝ) :
    (fun δ => arbdsS n (crPoint H δ) L - constantRoll δ L) =O[𝓝 0] fun δ => δ ^ (n + 1) := by
  have jE := jet_constantRoll L
  interval_cases n
  · have key := (Jet.poly 1 (2 * alpha - 2 * L) 0 0).sub jE
    refine (Jet.congr_fun (key.congr (by ring) (by ring) rfl rfl) fun t => ?_).isBigO2
    simp only [arbdsS, as0_1, as1_1, crPoint]; ring
  · have key := (Jet.poly 1 (2 * alpha - 2 * L) ((-8 + 4 * alpha ^ 2 + π ^ 2) / 2 - 4 * alpha * L + 2 * L ^ 2) 0).sub jE
    refine (Jet.congr_fun (key.congr (by ring) (by ring) (by ring) rfl) fun t => ?_).isBigO3
    simp only [arbdsS, as0_1, as0_2, as1_1, as1_2, as2_2, crPoint]; ring
  · have key := (Jet.poly 1 (2 * alpha - 2 * L) ((-8 + 4 * alpha ^ 2 + π ^ 2) / 2 - 4 * alpha * L + 2 * L ^ 2)
      (-(-16 + 24 * alpha - 4 * alpha ^ 3 - 3 * alpha * π ^ 2 + 6 * Z) / 3 - (-8 + 4 * alpha ^ 2 + π ^ 2) * L
        + 4 * alpha * L ^ 2 - 4 / 3 * L ^ 3)).sub jE
    refine (Jet.congr_fun (key.congr (by ring) (by ring) (by ring) (by unfold Z; ring)) fun t => ?_).isBigO4
    simp only [arbdsS, as0_1, as0_2, as0_3, as1_1, as1_2, as1_3, as2_2, as2_3, as3_3, crPoint]; ring

/-! ### STE and LLMS -/

open Spec in
/-- **C73, STE.**  At `k = aH` exact up to third order, on power-law inflation (scalar and tensor) and on constant
roll. -/
theorem C73_STE (H : ℝ) :
    ((fun ε => steS (plPoint H ε) - powerLaw ε 0) =O[𝓝 0] fun ε => ε ^ 3) ∧
    ((fun ε => steT (plPoint H ε) - powerLaw ε 0) =O[𝓝 0] fun ε => ε ^ 3) ∧
    ((fun δ => steS (crPoint H δ) - constantRoll δ 0) =O[𝓝 0] fun δ => δ ^ 3) := by
  have key := (Jet.poly 1 (-2 * (C + 1)) (2 * C ^ 2 + 2 * C + π ^ 2 / 2 - 5) 0).sub (jet_powerLaw 0)
  have key2 := (Jet.poly 1 (-2 * C) (2 * C ^ 2 + π ^ 2 / 2 - 4) 0).sub (jet_constantRoll 0)
  refine ⟨(Jet.congr_fun (key.congr (by ring) (by rw [C_eq]; ring) (by rw [C_eq]; ring) rfl) fun t => ?_).isBigO3,
    (Jet.congr_fun (key.congr (by ring) (by rw [C_eq]; ring) (by rw [C_eq]; ring) rfl) fun t => ?_).isBigO3,
    (Jet.congr_fun (key2.congr (by ring) (by rw [C_eq]; ring) (by rw [C_eq]; ring) rfl) fun t => ?_).isBigO3⟩
  · simp only [steS, plPoint]; ring
  · simp only [steT, plPoint]; ring
  · simp only [steS, crPoint]; ring

open Spec in
theorem jet_log_constantRoll (L : ℝ) : Jet (fun t => log (constantRoll t L)) 0 (2 * alpha - 2 * L)
    (π ^ 2 / 2 - 4) ((16 - 14 * zeta3) / 3) := by
  have j := jet_logBD.add (Jet.poly 0 (-2 * L) 0 0)
  have near : ∀ᶠ t in 𝓝 (0:ℝ), 0 < 3 / 2 + t := by
    have c2 : ContinuousAt (fun t : ℝ => 3 / 2 + t) 0 := by fun_prop
    exact c2.eventually (lt_mem_nhds (by norm_num))
  refine Jet.congr_ev (j.congr (by ring) (by ring) (by ring) (by ring)) ?_
  filter_upwards [near] with t h2
  have hG := Gamma_pos_of_pos h2
  have hG2 : 0 < Gamma (3 / 2 : ℝ) := Gamma_pos_of_pos (by norm_num)
  have hb : 0 < bunchDavies (3 / 2 + t) := by unfold bunchDavies; positivity
  rw [constantRoll, log_mul hb.ne' (exp_ne_zero _), log_exp]
  ring

open Spec in
/-- **C73, LLMS.**  The log-spectrum, at every wavenumber `k = e^L aH`, is exact up to third order. -/
theorem C73_LLMS (H L : ℝ) :
    ((fun ε => llmsS (plPoint H ε) L - (log (Ps0 (plPoint H ε)) + log (powerLaw ε L))) =O[𝓝 0] fun ε => ε ^ 3) ∧
    ((fun ε => llmsT (plPoint H ε) L - (log (Pt0 (plPoint H ε)) + log (powerLaw ε L))) =O[𝓝 0] fun ε => ε ^ 3) ∧
    ((fun δ => llmsS (crPoint H δ) L - (log (Ps0 (crPoint H δ)) + log (constantRoll δ L))) =O[𝓝 0]
      fun δ => δ ^ 3) := by
  have key := (Jet.poly 0 (-2 * (C + 1) - 2 * L) (-2 * C + π ^ 2 / 2 - 7 - 2 * L) 0).sub (jet_log_powerLaw L)
  have key2 := (Jet.poly 0 (-2 * C - 2 * L) (π ^ 2 / 2 - 4) 0).sub (jet_log_constantRoll L)
  refine ⟨(Jet.congr_fun (key.congr (by ring) (by rw [C_eq]; ring) (by rw [C_eq]; ring) rfl) fun t => ?_).isBigO3,
    (Jet.congr_fun (key.congr (by ring) (by rw [C_eq]; ring) (by rw [C_eq]; ring) rfl) fun t => ?_).isBigO3,
    (Jet.congr_fun (key2.congr (by ring) (by rw [C_eq]; ring) (by ring) rfl) fun t => ?_).isBigO3⟩
  · simp only [llmsS, bs0, llms_ns, llms_nsrun]
    rw [show (plPoint H t).e1 = t from rfl, show (plPoint H t).e2 = 0 from rfl]; ring
  · simp only [llmsT, bt0, llms_nt, llms_ntrun]
    rw [show (plPoint H t).e1 = t from rfl, show (plPoint H t).e2 = 0 from rfl]; ring
  · simp only [llmsS, bs0, llms_ns, llms_nsrun]
    rw [show (crPoint H t).e1 = 0 from rfl, show (crPoint H t).e2 = 2 * t from rfl,
      show (crPoint H t).e3 = 0 from rfl]; ring

/-! ### CGS -/

theorem jet_cgsS3 (H : ℝ) : Jet (fun t => cgsS 3 (plPoint H t)) 1 (2 * alpha - 2)
    (-5 + π ^ 2 / 2 - 2 * alpha + 2 * alpha ^ 2)
    (22 / 3 - 14 / 3 * zeta3 - 12 * alpha + alpha * π ^ 2 + 4 / 3 * alpha ^ 3) := by
  refine Jet.of_factor (r := fun t => 10 - π ^ 2 - 4 * alpha ^ 2 + 4 * alpha * t - 4 / 3 * t ^ 2)
    (Eventually.of_forall fun t => ?_) (by fun_prop)
  simp only [cgsS, cgsS1, cgsS2, cgsS3, plPoint]; ring

theorem jet_cgsT3 (H : ℝ) : Jet (fun t => cgsT 3 (plPoint H t)) 1 (2 * alpha - 2)
    (-5 + π ^ 2 / 2 - 2 * alpha + 2 * alpha ^ 2)
    (22 / 3 - 14 / 3 * zeta3 - 12 * alpha + alpha * π ^ 2 + 4 / 3 * alpha ^ 3) := by
  refine Jet.of_factor (r := fun t => 10 - π ^ 2 - 4 * alpha ^ 2 + 4 * alpha * t - 4 / 3 * t ^ 2)
    (Eventually.of_forall fun t => ?_) (by fun_prop)
  simp only [cgsT, cgsT1, cgsT2, cgsT3, plPoint]; ring

open Spec in
/-- **C73, CGS order 1 and 2** at `k = aH` on power-law inflation, scalar and tensor: exact up to order `n+1`. -/
theorem C73_CGS_powerLaw (n : ℕ) (h1 : 1 ≤ n) (h2 : n ≤ 2) (H : ℝ) :
    ((fun ε => cgsS n (plPoint H ε) - powerLaw ε 0) =O[𝓝 0] fun ε => ε ^ (n + 1)) ∧
    ((fun ε => cgsT n (plPoint H ε) - powerLaw ε 0) =O[𝓝 0] fun ε => ε ^ (n + 1)) := by
  have jE := jet_powerLaw 0
  interval_cases n
  · have jS : Jet (fun t => cgsS 1 (plPoint H t)) 1 (2 * alpha - 2) (-2 + 1 / 6 * π ^ 2 - 2 * alpha ^ 2)
        (-8 + 4 * zeta3 + 4 * alpha + 1 / 2 * alpha * π ^ 2 - 2 * alpha ^ 3) := by
      refine Jet.of_factor (r := fun t => -2 - 1 / 2 * π ^ 2 + 6 * alpha ^ 2 - 6 * alpha * t + 2 * t ^ 2)
        (Eventually.of_forall fun t => ?_) (by fun_prop)
      simp only [cgsS, cgsS1, plPoint]; ring
    have jT : Jet (fun t => cgsT 1 (plPoint H t)) 1 (2 * alpha - 2) (-2) 0 :=
      (Jet.poly _ _ _ _).congr_fun fun t => by simp only [cgsT, cgsT1, plPoint]; ring
    exact ⟨((jS.sub jE).congr (by ring) (by ring) rfl rfl).isBigO2,
      ((jT.sub jE).congr (by ring) (by ring) rfl rfl).isBigO2⟩
  · have jS : Jet (fun t => cgsS 2 (plPoint H t)) 1 (2 * alpha - 2) (-5 + π ^ 2 / 2 - 2 * alpha + 2 * alpha ^ 2)
        (38 / 3 - 28 / 3 * zeta3 + 1 / 3 * π ^ 2 + 20 * alpha - 17 / 6 * alpha * π ^ 2 - 4 * alpha ^ 2
          + 2 / 3 * alpha ^ 3) := by
      refine Jet.of_factor (r := fun t => -22 + 17 / 6 * π ^ 2 + 8 * alpha - 2 * alpha ^ 2 + (2 * alpha - 4) * t
        - 2 / 3 * t ^ 2) (Eventually.of_forall fun t => ?_) (by fun_prop)
      simp only [cgsS, cgsS1, cgsS2, plPoint]; ring
    have jT : Jet (fun t => cgsT 2 (plPoint H t)) 1 (2 * alpha - 2) (-5 + π ^ 2 / 2 - 2 * alpha + 2 * alpha ^ 2)
        (2 - 4 * alpha) := by
      refine Jet.of_factor (r := fun t => 2) (Eventually.of_forall fun t => ?_) (by fun_prop)
      simp only [cgsT, cgsT1, cgsT2, plPoint]; ring
    exact ⟨((jS.sub jE).congr (by ring) (by ring) (by ring) rfl).isBigO3,
      ((jT.sub jE).congr (by ring) (by ring) (by ring) rfl).isBigO3⟩

open Spec in
/-- **C73, CGS order 3** on power-law inflation is exact only up to third order: it exceeds the exact spectrum by
`ε³ + O(ε⁴)`, scalar and tensor, so it is no better than order 2 (the code shifts `α` by `ε₁` where
`ln(aH|η|) = ε₁ + ε₁²/2 + …` is needed). -/
theorem C73_CGS3_powerLaw (H : ℝ) :
    ((fun ε => cgsS 3 (plPoint H ε) - powerLaw ε 0) =O[𝓝 0] fun ε => ε ^ 3) ∧
    ((fun ε => cgsT 3 (plPoint H ε) - powerLaw ε 0) =O[𝓝 0] fun ε => ε ^ 3) ∧
    Tendsto (fun ε => (cgsS 3 (plPoint H ε) - powerLaw ε 0) / ε ^ 3) (𝓝[≠] 0) (𝓝 1) ∧
    Tendsto (fun ε => (cgsT 3 (plPoint H ε) - powerLaw ε 0) / ε ^ 3) (𝓝[≠] 0) (𝓝 1) := by
  have kS := ((jet_cgsS3 H).sub (jet_powerLaw 0)).congr (a' := 0) (b' := 0) (c' := 0) (d' := 1)
    (by ring) (by ring) (by ring) (by ring)
  have kT := ((jet_cgsT3 H).sub (jet_powerLaw 0)).congr (a' := 0) (b' := 0) (c' := 0) (d' := 1)
    (by ring) (by ring) (by ring) (by ring)
  exact ⟨kS.isBigO3, kT.isBigO3, kS.limit3, kT.limit3⟩

open Spec in
/-- **C73, CGS on constant roll**: every order is exact up to order `n+1`. -/
theorem C73_CGS_constantRoll (n : ℕ) (h1 : 1 ≤ n) (h3 : n ≤ 3) (H : ℝ) :
    (fun δ => cgsS n (crPoint H δ) - constantRoll δ 0) =O[𝓝 0] fun δ => δ ^ (n + 1) := by
  have jE := jet_constantRoll 0
  interval_cases n
  · have jS : Jet (fun t => cgsS 1 (crPoint H t)) 1 (2 * alpha) (1 / 12 * π ^ 2 - alpha ^ 2)
        (4 / 3 - 2 / 3 * zeta3 - 1 / 12 * alpha * π ^ 2 + 1 / 3 * alpha ^ 3) :=
      (Jet.poly _ _ _ _).congr_fun fun t => by simp only [cgsS, cgsS1, crPoint]; ring
    exact ((jS.sub jE).congr (by ring) (by ring) rfl rfl).isBigO2
  · have jS : Jet (fun t => cgsS 2 (crPoint H t)) 1 (2 * alpha) (-4 + 1 / 2 * π ^ 2 + 2 * alpha ^ 2)
        (-8 / 3 + 4 / 3 * zeta3 + 8 * alpha - 2 / 3 * alpha * π ^ 2 - 8 / 3 * alpha ^ 3) :=
      (Jet.poly _ _ _ _).congr_fun fun t => by simp only [cgsS, cgsS1, cgsS2, crPoint]; ring
    exact ((jS.sub jE).congr (by ring) (by ring) (by ring) rfl).isBigO3
  · have jS : Jet (fun t => cgsS 3 (crPoint H t)) 1 (2 * alpha) (-4 + 1 / 2 * π ^ 2 + 2 * alpha ^ 2)
        (16 / 3 - 14 / 3 * zeta3 - 8 * alpha + alpha * π ^ 2 + 4 / 3 * alpha ^ 3) :=
      (Jet.poly _ _ _ _).congr_fun fun t => by simp only [cgsS, cgsS1, cgsS2, cgsS3, crPoint]; ring
    exact ((jS.sub jE).congr (by ring) (by ring) (by ring) (by ring)).isBigO4

/-- The exact factor is 1 in the de Sitter limit, and on `a ∝ τ²` (`ε = 1/2`) it is
`2² (Γ(5/2)/Γ(3/2))² (1/2)⁴ = 9/16` at `k = aH`. -/
example : Spec.powerLaw 0 3 = 1 ∧ Spec.powerLaw (1 / 2) 0 = 9 / 16 := by
  have hG : Gamma (3 / 2 : ℝ) ≠ 0 := (Gamma_pos_of_pos (by norm_num)).ne'
  constructor
  · unfold Spec.powerLaw Spec.bunchDavies
    norm_num [hG]
  · unfold Spec.powerLaw Spec.bunchDavies
    have : Gamma (3 / 2 + 1 / 2 / (1 - 1 / 2) : ℝ) = 3 / 2 * Gamma (3 / 2) := by
      rw [← Gamma_add_one (by norm_num)]; norm_num
    rw [this, mul_div_assoc, div_self hG]
    norm_num

end Primpy
