import Verif.Model.PotentialFlow
import Verif.Lemmas.SlowRollFlow
import Mathlib.Analysis.SpecialFunctions.Sqrt

/-!
# C13: `get_epsilon_1 … get_epsilon_4` approximate the Hubble-flow parameters of the background evolution

The exact parameters `ε_i` are those of a solution of the flat background equations (`Spec.IsUniverseN`); the bounds are uniform: one constant for all potentials, all solutions
and all times.
-/

namespace Primpy
open Real Spec
open FlowApprox (get_epsilon_1 get_epsilon_2 get_epsilon_3 get_epsilon_4)

/-- Specification: `e 1, …, e m` are the Hubble-flow parameters of `H` as functions of e-folds, `ε₁ = -d ln H/dN`, `ε_{i+1} = d ln ε_i/dN` (written without dividing). -/
structure IsFlow (S : Set ℝ) (H : ℝ → ℝ) (e : ℕ → ℝ → ℝ) (m : ℕ) : Prop where
  first : ∀ n ∈ S, HasDerivAt (fun n => log (H n)) (-e 1 n) n
  next : ∀ i, 1 ≤ i → i < m → ∀ n ∈ S, HasDerivAt (e i) (e i n * e (i + 1) n) n

/-- A flat universe with a moving scalar field in the potential `V` (with slow-roll hierarchy `E1 … E4`), with its first `m` Hubble-flow parameters. -/
structure Rolls (S dom : Set ℝ) (V dV E1 E2 E3 E4 φ q H : ℝ → ℝ) (e : ℕ → ℝ → ℝ) (m : ℕ) : Prop where
  isOpen : IsOpen S
  potential : IsDerivOn dom V dV
  hierarchy : IsSlowRollHierarchy dom V dV E1 E2 E3 E4
  evolution : IsUniverseN S V dV 0 φ q H
  inDomain : ∀ n ∈ S, φ n ∈ dom
  moving : ∀ n ∈ S, q n ≠ 0
  flow : IsFlow S H e m

namespace C13
open SR (Eps)

section
variable {S dom : Set ℝ} {V dV E1 E2 E3 E4 E5 φ q H : ℝ → ℝ} {e : ℕ → ℝ → ℝ} {m : ℕ}

theorem dH (r : Rolls S dom V dV E1 E2 E3 E4 φ q H e m) {n : ℝ} (hn : n ∈ S) : HasDerivAt H (-(e 1 n) * H n) n := by
  have h := (r.flow.first n hn).exp
  rw [exp_log (r.evolution.expanding n hn)] at h
  refine (h.congr_of_eventuallyEq ?_).congr_deriv (by ring)
  filter_upwards [r.isOpen.mem_nhds hn] with x hx
  exact (exp_log (r.evolution.expanding x hx)).symm

/-- `ε₁ = φ'²/2` -/
theorem e1_eq (r : Rolls S dom V dV E1 E2 E3 E4 φ q H e m) {n : ℝ} (hn : n ∈ S) : e 1 n = q n ^ 2 / 2 := by
  have hH := r.evolution.expanding n hn
  have h1 : HasDerivAt (fun n => 3 * H n ^ 2) (3 * (2 * H n * (-(e 1 n) * H n))) n :=
    (((dH r hn).fun_pow 2).const_mul 3).congr_deriv (by push_cast; ring)
  have hφ := (r.potential _ (r.inDomain n hn)).comp n (r.evolution.velocity n hn)
  have h2 : HasDerivAt (fun n => (H n * q n) ^ 2 / 2 + V (φ n) - 3 * 0 * exp (-2 * n))
      (H n * q n * ((-(3 * (H n)^2 * q n) - dV (φ n)) / H n) + dV (φ n) * q n) n := by
    refine (((((r.evolution.kleinGordon n hn).fun_pow 2).div_const 2).fun_add hφ).fun_sub (g := fun x => 3 * 0 * exp (-2 * x)) (g' := 0) ?_).congr_deriv (by push_cast; ring)
    simp only [mul_zero, zero_mul]
    exact hasDerivAt_const _ _
  have h3 := h1.unique (h2.congr_of_eventuallyEq (by
    filter_upwards [r.isOpen.mem_nhds hn] with x hx
    exact r.evolution.friedmann x hx))
  field_simp at h3
  have : H n ^ 2 ≠ 0 := by positivity
  have h4 : H n ^ 2 * (2 * e 1 n - q n ^ 2) = 0 := by linarith
  rcases mul_eq_zero.1 h4 with h | h
  · exact absurd h this
  · linarith

theorem V_eq (r : Rolls S dom V dV E1 E2 E3 E4 φ q H e m) {n : ℝ} (hn : n ∈ S) : V (φ n) = H n ^ 2 * (3 - e 1 n) := by
  have h := r.evolution.friedmann n hn
  rw [e1_eq r hn]
  simp at h
  linarith

theorem dV_eq (r : Rolls S dom V dV E1 E2 E3 E4 φ q H e m) (hm : 2 ≤ m) {n : ℝ} (hn : n ∈ S) :
    dV (φ n) * q n = -(e 1 n * H n ^ 2 * (2 * (3 - e 1 n) + e 2 n)) := by
  have hφ := (r.potential _ (r.inDomain n hn)).comp n (r.evolution.velocity n hn)
  have h2 := ((dH r hn).fun_pow 2).fun_mul ((r.flow.next 1 le_rfl (by omega) n hn).const_sub 3)
  have h3 := hφ.unique (h2.congr_of_eventuallyEq (by
    filter_upwards [r.isOpen.mem_nhds hn] with x hx
    exact V_eq r hx))
  rw [h3]
  push_cast
  ring

/-- small first three parameters -/
def Small (e : ℕ → ℝ → ℝ) (n : ℝ) : Prop := |e 1 n| < 1 / 2 ∧ |e 2 n| < 1 / 2 ∧ |e 3 n| < 1 / 2

noncomputable def x (e : ℕ → ℝ → ℝ) (n : ℝ) : ℝ := (3 - e 1 n)⁻¹
noncomputable def y (e : ℕ → ℝ → ℝ) (n : ℝ) : ℝ := (SR.w (e 1 n) (e 2 n) (e 3 n) (x e n))⁻¹

theorem d1 (r : Rolls S dom V dV E1 E2 E3 E4 φ q H e m) (hm : 2 ≤ m) {n : ℝ} (hn : n ∈ S) : HasDerivAt (e 1) (e 1 n * e 2 n) n :=
  r.flow.next 1 le_rfl hm n hn
theorem d2 (r : Rolls S dom V dV E1 E2 E3 E4 φ q H e m) (hm : 3 ≤ m) {n : ℝ} (hn : n ∈ S) : HasDerivAt (e 2) (e 2 n * e 3 n) n :=
  r.flow.next 2 (by norm_num) hm n hn
theorem d3 (r : Rolls S dom V dV E1 E2 E3 E4 φ q H e m) (hm : 4 ≤ m) {n : ℝ} (hn : n ∈ S) : HasDerivAt (e 3) (e 3 n * e 4 n) n :=
  r.flow.next 3 (by norm_num) hm n hn
theorem d4 (r : Rolls S dom V dV E1 E2 E3 E4 φ q H e m) (hm : 5 ≤ m) {n : ℝ} (hn : n ∈ S) : HasDerivAt (e 4) (e 4 n * e 5 n) n :=
  r.flow.next 4 (by norm_num) hm n hn
theorem d5 (r : Rolls S dom V dV E1 E2 E3 E4 φ q H e m) (hm : 6 ≤ m) {n : ℝ} (hn : n ∈ S) : HasDerivAt (e 5) (e 5 n * e 6 n) n :=
  r.flow.next 5 (by norm_num) hm n hn

theorem small_nhds (r : Rolls S dom V dV E1 E2 E3 E4 φ q H e m) (hm : 4 ≤ m) {n : ℝ} (hn : n ∈ S) (hs : Small e n) :
    ∀ᶠ x in nhds n, x ∈ S ∧ Small e x := by
  have c1 := (d1 r (by omega) hn).continuousAt.abs
  have c2 := (d2 r (by omega) hn).continuousAt.abs
  have c3 := (d3 r hm hn).continuousAt.abs
  filter_upwards [r.isOpen.mem_nhds hn, c1.eventually_lt_const hs.1, c2.eventually_lt_const hs.2.1, c3.eventually_lt_const hs.2.2] with z h0 h1 h2 h3
  exact ⟨h0, h1, h2, h3⟩

theorem three_sub (hs : Small e n) : 2 < 3 - e 1 n := by
  have := (abs_lt.1 hs.1).2
  linarith
theorem x_pos (hs : Small e n) : 0 < x e n ∧ x e n < 1 / 2 := by
  have := three_sub hs
  refine ⟨inv_pos.2 (by linarith), ?_⟩
  rw [x, one_div]
  exact inv_strictAnti₀ (by norm_num) this
theorem x_mul (hs : Small e n) : (3 - e 1 n) * x e n = 1 := mul_inv_cancel₀ (by have := three_sub hs; linarith)
theorem s_pos (hs : Small e n) : 0 < SR.s (e 2 n) (x e n) := by
  have h1 := x_pos hs
  have h2 := (abs_lt.1 hs.2.1).1
  unfold SR.s
  nlinarith
theorem w_pos (hs : Small e n) : 0 < SR.w (e 1 n) (e 2 n) (e 3 n) (x e n) := by
  have h1 := x_pos hs
  have h2 : |SR.u0 (e 1 n) (e 2 n) (e 3 n) (x e n)| ≤ 1 := by
    have h3 : |e 1 n * e 2 n * x e n| ≤ 1 / 2 * (1 / 2) * (1 / 2) := by
      rw [abs_mul, abs_mul, abs_of_pos h1.1]
      have := hs.1.le; have := hs.2.1.le; have := h1.2.le; have := h1.1.le
      gcongr
    unfold SR.u0
    have h4 := abs_le.1 h3
    have h5 := abs_lt.1 hs.2.1
    have h6 := abs_lt.1 hs.2.2
    rw [abs_le]
    constructor <;> linarith
  unfold SR.w
  have h4 := (abs_le.1 h2).1
  nlinarith
theorem dx (r : Rolls S dom V dV E1 E2 E3 E4 φ q H e m) (hm : 2 ≤ m) {n : ℝ} (hn : n ∈ S) (hs : Small e n) :
    HasDerivAt (x e) (e 1 n * e 2 n * x e n * x e n) n := by
  have h0 : 3 - e 1 n ≠ 0 := by have := three_sub hs; linarith
  refine (((d1 r hm hn).const_sub 3).fun_inv h0).congr_deriv ?_
  simp only [x]
  field_simp

theorem e1_pos (r : Rolls S dom V dV E1 E2 E3 E4 φ q H e m) {n : ℝ} (hn : n ∈ S) : 0 < e 1 n := by
  rw [e1_eq r hn]
  have := sq_pos_of_ne_zero (r.moving n hn)
  linarith

/-- `2 (3 - ε₁) + ε₂ = 2 (3 - ε₁) s` -/
theorem two_s (hs : Small e n) : 2 * (3 - e 1 n) + e 2 n = 2 * (3 - e 1 n) * SR.s (e 2 n) (x e n) := by
  unfold SR.s
  linear_combination (-e 2 n) * x_mul hs

theorem E1_eq (r : Rolls S dom V dV E1 E2 E3 E4 φ q H e m) (hm : 2 ≤ m) {n : ℝ} (hn : n ∈ S) (hs : Small e n) :
    E1 (φ n) = SR.E1 (e 1 n) (e 2 n) (x e n) := by
  have h3 := three_sub hs
  have hH := r.evolution.expanding n hn
  have hq : q n ^ 2 = 2 * e 1 n := by rw [e1_eq r hn]; ring
  have hV := V_eq r hn
  have hdV := dV_eq r hm hn
  rw [two_s hs] at hdV
  have hV0 : V (φ n) ≠ 0 := by rw [hV]; exact (mul_pos (by positivity) (by linarith)).ne'
  have he := e1_pos r hn
  rw [r.hierarchy.first _ (r.inDomain n hn), div_pow, SR.E1]
  obtain ⟨s, hs'⟩ : ∃ s, s = SR.s (e 2 n) (x e n) := ⟨_, rfl⟩
  rw [← hs'] at hdV ⊢
  have h2 : dV (φ n) ^ 2 * (2 * e 1 n) = (e 1 n * H n ^ 2 * (2 * (3 - e 1 n) * s)) ^ 2 := by
    rw [← hq, ← mul_pow, hdV]; ring
  have h4 : dV (φ n) ^ 2 = 2 * e 1 n * s ^ 2 * V (φ n) ^ 2 := by
    have : (dV (φ n) ^ 2 - 2 * e 1 n * s ^ 2 * V (φ n) ^ 2) * (2 * e 1 n) = 0 := by
      rw [sub_mul, h2, hV]; ring
    rcases mul_eq_zero.1 this with h | h
    · linarith
    · linarith
  rw [h4]
  field_simp

/-- Potential e-folds flow with rate `1/s`. -/
theorem slope (r : Rolls S dom V dV E1 E2 E3 E4 φ q H e m) (hm : 2 ≤ m) {n : ℝ} (hn : n ∈ S) (hs : Small e n) {F : ℝ → ℝ} {G : ℝ}
    (hF : HasDerivAt F (-(V (φ n) / dV (φ n)) * G) (φ n)) : HasDerivAt (fun n => F (φ n)) (G / SR.s (e 2 n) (x e n)) n := by
  refine (hF.comp n (r.evolution.velocity n hn)).congr_deriv ?_
  have h3 := three_sub hs
  have hH := r.evolution.expanding n hn
  have hq : q n ^ 2 = 2 * e 1 n := by rw [e1_eq r hn]; ring
  have hV := V_eq r hn
  have hdV := dV_eq r hm hn
  have he := e1_pos r hn
  have hsp := s_pos hs
  rw [two_s hs] at hdV
  obtain ⟨s, hs'⟩ : ∃ s, s = SR.s (e 2 n) (x e n) := ⟨_, rfl⟩
  rw [← hs'] at hdV hsp ⊢
  have hne : dV (φ n) * q n ≠ 0 := by
    rw [hdV, neg_ne_zero]
    have : 0 < 3 - e 1 n := by linarith
    positivity
  have hd0 : dV (φ n) ≠ 0 := left_ne_zero_of_mul hne
  have key : -(V (φ n) * q n) * s = dV (φ n) := by
    have hq0 := r.moving n hn
    have : (-(V (φ n) * q n) * s - dV (φ n)) * q n = 0 := by
      rw [sub_mul, hdV, hV]
      linear_combination (-(H n ^ 2 * (3 - e 1 n) * s)) * hq
    rcases mul_eq_zero.1 this with h | h
    · linarith
    · exact absurd h hq0
  field_simp
  linear_combination G * key

theorem E2_eq (r : Rolls S dom V dV E1 E2 E3 E4 φ q H e m) (hm : 4 ≤ m) {n : ℝ} (hn : n ∈ S) (hs : Small e n) :
    E2 (φ n) = SR.E2 (e 1 n) (e 2 n) (e 3 n) (x e n) := by
  have hx := dx r (by omega) hn hs
  have h1 := slope r (by omega) hn hs (r.hierarchy.second _ (r.inDomain n hn))
  have h2 := (d1 r (by omega) hn).fun_mul ((SR.hs (a := e 1) (d2 r (by omega) hn) hx).fun_pow 2)
  have h := h1.unique (h2.congr_of_eventuallyEq (by
    filter_upwards [small_nhds r hm hn hs] with z hz
    exact E1_eq r (by omega) hz.1 hz.2))
  rw [E1_eq r (by omega) hn hs] at h
  have hsp := s_pos hs
  have he := e1_pos r hn
  simp only [SR.E1, SR.E2, SR.w, SR.u0, SR.ds] at h ⊢
  have h5 : e 1 n * SR.s (e 2 n) (x e n) * (E2 (φ n) - (e 2 n * SR.s (e 2 n) (x e n) + x e n * (e 1 n * e 2 n * x e n * e 2 n + e 2 n * e 3 n))) = 0 := by
    field_simp at h
    push_cast at h
    linear_combination (e 1 n / 2) * h
  rcases mul_eq_zero.1 h5 with h6 | h6
  · exact absurd h6 (mul_pos he hsp).ne'
  · rw [sub_eq_zero.1 h6, SR.s]
    ring

theorem E23_eq (r : Rolls S dom V dV E1 E2 E3 E4 φ q H e m) (hm : 4 ≤ m) {n : ℝ} (hn : n ∈ S) (hs : Small e n) :
    E2 (φ n) * E3 (φ n) = SR.E23 (e 1 n) (e 2 n) (e 3 n) (e 4 n) (x e n) := by
  have hx := dx r (by omega) hn hs
  have h1 := slope r (by omega) hn hs (r.hierarchy.third _ (r.inDomain n hn))
  have h2 := (d2 r (by omega) hn).fun_mul (SR.hw (d1 r (by omega) hn) (d2 r (by omega) hn) (d3 r hm hn) hx)
  have h := h1.unique (h2.congr_of_eventuallyEq (by
    filter_upwards [small_nhds r hm hn hs] with z hz
    exact E2_eq r hm hz.1 hz.2))
  have hsp := s_pos hs
  rw [div_eq_iff hsp.ne'] at h
  rw [h, SR.E23]
  ring

theorem E3_eq (r : Rolls S dom V dV E1 E2 E3 E4 φ q H e m) (hm : 4 ≤ m) {n : ℝ} (hn : n ∈ S) (hs : Small e n) (h0 : e 2 n ≠ 0) :
    E3 (φ n) = SR.E3 (e 1 n) (e 2 n) (e 3 n) (e 4 n) (x e n) (y e n) := by
  have h := E23_eq r hm hn hs
  have hw := w_pos hs
  rw [E2_eq r hm hn hs] at h
  have hyw : SR.w (e 1 n) (e 2 n) (e 3 n) (x e n) * y e n = 1 := mul_inv_cancel₀ hw.ne'
  unfold SR.E23 SR.E2 at h
  unfold SR.E3 SR.k
  have h6 : e 2 n * SR.w (e 1 n) (e 2 n) (e 3 n) (x e n) ≠ 0 := mul_ne_zero h0 hw.ne'
  apply mul_left_cancel₀ h6
  rw [h]
  linear_combination (-(SR.s (e 2 n) (x e n) * e 2 n * x e n * SR.u1 (e 1 n) (e 2 n) (e 3 n) (e 4 n) (x e n))) * hyw

theorem ne_nhds (r : Rolls S dom V dV E1 E2 E3 E4 φ q H e m) (hm : 4 ≤ m) {n : ℝ} (hn : n ∈ S) (hs : Small e n) (h0 : e 2 n ≠ 0) :
    ∀ᶠ x in nhds n, x ∈ S ∧ Small e x ∧ e 2 x ≠ 0 := by
  filter_upwards [small_nhds r hm hn hs, (d2 r (by omega) hn).continuousAt.eventually_ne h0] with z hz h
  exact ⟨hz.1, hz.2, h⟩

theorem dy (r : Rolls S dom V dV E1 E2 E3 E4 φ q H e m) (hm : 4 ≤ m) {n : ℝ} (hn : n ∈ S) (hs : Small e n) :
    HasDerivAt (y e) (-(x e n * SR.u1 (e 1 n) (e 2 n) (e 3 n) (e 4 n) (x e n)) * y e n ^ 2) n :=
  SR.hy (fun _ => rfl) (w_pos hs).ne' (d1 r (by omega) hn) (d2 r (by omega) hn) (d3 r hm hn) (dx r (by omega) hn hs)

theorem E34_eq (r : Rolls S dom V dV E1 E2 E3 E4 φ q H e m) (hm : 5 ≤ m) {n : ℝ} (hn : n ∈ S) (hs : Small e n) (h0 : e 2 n ≠ 0) :
    E3 (φ n) * E4 (φ n) = SR.E34 (e 1 n) (e 2 n) (e 3 n) (e 4 n) (e 5 n) (x e n) (y e n) := by
  have hx := dx r (by omega) hn hs
  have h1 := slope r (by omega) hn hs (r.hierarchy.fourth _ (r.inDomain n hn))
  have h2 := SR.hdE3 (dy r (by omega) hn hs) (d1 r (by omega) hn) (d2 r (by omega) hn) (d3 r (by omega) hn) (d4 r hm hn) hx
  have h := h1.unique (h2.congr_of_eventuallyEq (by
    filter_upwards [ne_nhds r (by omega) hn hs h0] with z hz
    exact E3_eq r (by omega) hz.1 hz.2.1 hz.2.2))
  rw [div_eq_iff (s_pos hs).ne'] at h
  rw [h, SR.E34]
  ring

theorem E345_eq (r : Rolls S dom V dV E1 E2 E3 E4 φ q H e m) (hm : 6 ≤ m) (h5 : ∀ f ∈ dom, HasDerivAt E4 (-(V f / dV f) * (E4 f * E5 f)) f)
    {n : ℝ} (hn : n ∈ S) (hs : Small e n) (h0 : e 2 n ≠ 0) :
    E3 (φ n) * E4 (φ n) * (E4 (φ n) + E5 (φ n)) = SR.E345 (e 1 n) (e 2 n) (e 3 n) (e 4 n) (e 5 n) (e 6 n) (x e n) (y e n) := by
  have hx := dx r (by omega) hn hs
  have h1 := (slope r (by omega) hn hs (r.hierarchy.fourth _ (r.inDomain n hn))).fun_mul (slope r (by omega) hn hs (h5 _ (r.inDomain n hn)))
  have h2 := SR.hdE34 (dy r (by omega) hn hs) (d1 r (by omega) hn) (d2 r (by omega) hn) (d3 r (by omega) hn) (d4 r (by omega) hn) (d5 r hm hn) hx (s_pos hs).ne'
  have h := h1.unique (h2.congr_of_eventuallyEq (by
    filter_upwards [ne_nhds r (by omega) hn hs h0] with z hz
    exact E34_eq r (by omega) hz.1 hz.2.1 hz.2.2))
  have hsp := (s_pos hs).ne'
  field_simp at h
  rw [← h]

/-- The parameter vector, cut off after `m` entries -/
def vec (e : ℕ → ℝ → ℝ) (m : ℕ) (n : ℝ) : Eps := fun i => if i.val < m then e (i.val + 1) n else 0

theorem vec_le {δ n : ℝ} (h0 : 0 ≤ δ) (h : ∀ i, 1 ≤ i → i ≤ m → |e i n| ≤ δ) (i : Fin 6) : |vec e m n i| ≤ δ := by
  unfold vec
  split_ifs with hi
  · exact h _ (by omega) (by omega)
  · simpa using h0

theorem small_of {δ n : ℝ} (hδ : δ < 1 / 2) (hm : 3 ≤ m) (h : ∀ i, 1 ≤ i → i ≤ m → |e i n| ≤ δ) : Small e n :=
  ⟨lt_of_le_of_lt (h 1 le_rfl (by omega)) hδ, lt_of_le_of_lt (h 2 (by norm_num) (by omega)) hδ, lt_of_le_of_lt (h 3 (by norm_num) hm) hδ⟩

end
end C13

open C13 in
/-- **C13**, `ε₁`: in every flat universe and for every potential, `get_epsilon_1(φ)` equals the true `ε₁` up to terms of fourth order in the flow parameters. -/
theorem C13_epsilon_1 : ∃ C > 0, ∃ δ₀ > 0, ∀ (S dom : Set ℝ) (V dV E1 E2 E3 E4 φ q H : ℝ → ℝ) (e : ℕ → ℝ → ℝ), Rolls S dom V dV E1 E2 E3 E4 φ q H e 4 →
    ∀ n ∈ S, ∀ δ < δ₀, (∀ i, 1 ≤ i → i ≤ 4 → |e i n| ≤ δ) → |get_epsilon_1 E1 E2 E3 (φ n) - e 1 n| ≤ C * δ ^ 4 := by
  obtain ⟨C, hC, r₀, hr, hb⟩ := SR.big1.bound
  refine ⟨C, hC, min r₀ (1 / 2), lt_min hr (by norm_num), fun S dom V dV E1 E2 E3 E4 φ q H e r n hn δ hδ h => ?_⟩
  have hs := small_of (hδ.trans_le (min_le_right _ _)) (by norm_num) h
  have h0 : 0 ≤ δ := (abs_nonneg _).trans (h 1 le_rfl (by norm_num))
  have := hb (vec e 4 n) δ (vec_le h0 h) (hδ.trans_le (min_le_left _ _))
  have g1 : SR.F1 (vec e 4 n) = E1 (φ n) := (E1_eq r (by norm_num) hn hs).symm
  have g2 : SR.F2 (vec e 4 n) = E2 (φ n) := (E2_eq r (by norm_num) hn hs).symm
  have g3 : SR.F23 (vec e 4 n) = E2 (φ n) * E3 (φ n) := (E23_eq r (by norm_num) hn hs).symm
  rw [g1, g2, g3, show vec e 4 n 0 = e 1 n from rfl] at this
  rw [get_epsilon_1]
  refine le_trans (le_of_eq ?_) this
  congr 1
  ring

open C13 in
/-- **C13**, `ε₂`: `get_epsilon_2(φ)` equals the true `ε₂` up to terms of fourth order. -/
theorem C13_epsilon_2 : ∃ C > 0, ∃ δ₀ > 0, ∀ (S dom : Set ℝ) (V dV E1 E2 E3 E4 φ q H : ℝ → ℝ) (e : ℕ → ℝ → ℝ), Rolls S dom V dV E1 E2 E3 E4 φ q H e 5 →
    ∀ n ∈ S, ∀ δ < δ₀, (∀ i, 1 ≤ i → i ≤ 5 → |e i n| ≤ δ) → |get_epsilon_2 E1 E2 E3 E4 (φ n) - e 2 n| ≤ C * δ ^ 4 := by
  obtain ⟨C, hC, r₀, hr, hb⟩ := SR.big2.bound
  refine ⟨C, hC, min r₀ (1 / 2), lt_min hr (by norm_num), fun S dom V dV E1 E2 E3 E4 φ q H e r n hn δ hδ h => ?_⟩
  have hs := small_of (hδ.trans_le (min_le_right _ _)) (by norm_num) h
  have h0 : 0 ≤ δ := (abs_nonneg _).trans (h 1 le_rfl (by norm_num))
  have g2 : SR.F2 (vec e 5 n) = E2 (φ n) := (E2_eq r (by norm_num) hn hs).symm
  by_cases hz : e 2 n = 0
  · have hE : E2 (φ n) = 0 := by rw [E2_eq r (by norm_num) hn hs, SR.E2, hz, zero_mul]
    simp only [get_epsilon_2, hE, hz]
    norm_num
    positivity
  have := hb (vec e 5 n) δ (vec_le h0 h) (hδ.trans_le (min_le_left _ _))
  have g1 : SR.F1 (vec e 5 n) = E1 (φ n) := (E1_eq r (by norm_num) hn hs).symm
  have g23 : SR.F23 (vec e 5 n) = E2 (φ n) * E3 (φ n) := (E23_eq r (by norm_num) hn hs).symm
  have g3 : SR.F3 (vec e 5 n) = E3 (φ n) := (E3_eq r (by norm_num) hn hs hz).symm
  have g34 : SR.F34 (vec e 5 n) = E3 (φ n) * E4 (φ n) := (E34_eq r (by norm_num) hn hs hz).symm
  rw [g1, g2, g3, g23, g34, show vec e 5 n 1 = e 2 n from rfl] at this
  rw [get_epsilon_2]
  refine le_trans (le_of_eq ?_) this
  congr 1
  ring

/-- The fifth potential slow-roll parameter, which the code does not compute -/
def IsFifth (dom : Set ℝ) (V dV E4 E5 : ℝ → ℝ) : Prop := ∀ f ∈ dom, HasDerivAt E4 (-(V f / dV f) * (E4 f * E5 f)) f

open C13 in
/-- **C13**, `ε₃`: `get_epsilon_3(φ)` misses exactly the third-order term with `ε₅V`, for which the code substitutes `0` (`C13_epsilon_3_not_third_order`); otherwise it
equals the true `ε₃` up to fourth order. -/
theorem C13_epsilon_3_partial : ∃ C > 0, ∃ δ₀ > 0, ∀ (S dom : Set ℝ) (V dV E1 E2 E3 E4 E5 φ q H : ℝ → ℝ) (e : ℕ → ℝ → ℝ), Rolls S dom V dV E1 E2 E3 E4 φ q H e 6 →
    IsFifth dom V dV E4 E5 → ∀ n ∈ S, e 2 n ≠ 0 → ∀ δ < δ₀, (∀ i, 1 ≤ i → i ≤ 6 → |e i n| ≤ δ) →
    |get_epsilon_3 E1 E2 E3 E4 (φ n) + E3 (φ n) * E4 (φ n) * E5 (φ n) / 9 - e 3 n| ≤ C * δ ^ 4 := by
  obtain ⟨C, hC, r₀, hr, hb⟩ := SR.big3.bound
  refine ⟨C, hC, min r₀ (1 / 2), lt_min hr (by norm_num), fun S dom V dV E1 E2 E3 E4 E5 φ q H e r r5 n hn hz δ hδ h => ?_⟩
  have hs := small_of (hδ.trans_le (min_le_right _ _)) (by norm_num) h
  have h0 : 0 ≤ δ := (abs_nonneg _).trans (h 1 le_rfl (by norm_num))
  have := hb (vec e 6 n) δ (vec_le h0 h) (hδ.trans_le (min_le_left _ _))
  have g1 : SR.F1 (vec e 6 n) = E1 (φ n) := (E1_eq r (by norm_num) hn hs).symm
  have g2 : SR.F2 (vec e 6 n) = E2 (φ n) := (E2_eq r (by norm_num) hn hs).symm
  have g23 : SR.F23 (vec e 6 n) = E2 (φ n) * E3 (φ n) := (E23_eq r (by norm_num) hn hs).symm
  have g3 : SR.F3 (vec e 6 n) = E3 (φ n) := (E3_eq r (by norm_num) hn hs hz).symm
  have g34 : SR.F34 (vec e 6 n) = E3 (φ n) * E4 (φ n) := (E34_eq r (by norm_num) hn hs hz).symm
  have g345 : SR.F345 (vec e 6 n) = E3 (φ n) * E4 (φ n) * (E4 (φ n) + E5 (φ n)) := (E345_eq r (by norm_num) r5 hn hs hz).symm
  rw [g1, g2, g3, g23, g34, g345, show vec e 6 n 2 = e 3 n from rfl] at this
  rw [get_epsilon_3]
  refine le_trans (le_of_eq ?_) this
  congr 1
  ring

/-- **C13**, `ε₃`: hence it is accurate to second order, the error being at most of third order. -/
theorem C13_epsilon_3_second_order : ∃ C > 0, ∃ δ₀ > 0, ∀ (S dom : Set ℝ) (V dV E1 E2 E3 E4 E5 φ q H : ℝ → ℝ) (e : ℕ → ℝ → ℝ), Rolls S dom V dV E1 E2 E3 E4 φ q H e 6 →
    IsFifth dom V dV E4 E5 → ∀ n ∈ S, e 2 n ≠ 0 → ∀ δ < δ₀, (∀ i, 1 ≤ i → i ≤ 6 → |e i n| ≤ δ) → |E3 (φ n)| ≤ δ → |E4 (φ n)| ≤ δ → |E5 (φ n)| ≤ δ →
    |get_epsilon_3 E1 E2 E3 E4 (φ n) - e 3 n| ≤ C * δ ^ 3 := by
  obtain ⟨C, hC, r₀, hr, hb⟩ := C13_epsilon_3_partial
  refine ⟨C + 1, by linarith, min r₀ 1, lt_min hr one_pos, fun S dom V dV E1 E2 E3 E4 E5 φ q H e r r5 n hn hz δ hδ h h3 h4 h5 => ?_⟩
  have h0 : 0 ≤ δ := (abs_nonneg _).trans h3
  have h1 := hb S dom V dV E1 E2 E3 E4 E5 φ q H e r r5 n hn hz δ (hδ.trans_le (min_le_left _ _)) h
  have hδ1 : δ ≤ 1 := (hδ.trans_le (min_le_right _ _)).le
  have h2 : |E3 (φ n) * E4 (φ n) * E5 (φ n)| ≤ δ * δ * δ := by rw [abs_mul, abs_mul]; gcongr
  have h6 : δ ^ 4 ≤ δ ^ 3 := pow_le_pow_of_le_one h0 hδ1 (by norm_num)
  have h7 := mul_le_mul_of_nonneg_left h6 hC.le
  rw [abs_le] at *
  have : 0 ≤ δ ^ 3 := by positivity
  constructor <;> nlinarith

open C13 in
/-- **C13**, `ε₄`: `get_epsilon_4(φ)` misses the second-order term with `ε₅V`; otherwise it equals the true `ε₄` up to third order relative to `ε₃V`. -/
theorem C13_epsilon_4_partial : ∃ C > 0, ∃ δ₀ > 0, ∀ (S dom : Set ℝ) (V dV E1 E2 E3 E4 E5 φ q H : ℝ → ℝ) (e : ℕ → ℝ → ℝ), Rolls S dom V dV E1 E2 E3 E4 φ q H e 6 →
    IsFifth dom V dV E4 E5 → ∀ n ∈ S, e 2 n ≠ 0 → ∀ δ < δ₀, (∀ i, 1 ≤ i → i ≤ 6 → |e i n| ≤ δ) → |E4 (φ n)| ≤ δ →
    |E3 (φ n)| * |get_epsilon_4 E2 E3 E4 (φ n) - E4 (φ n) * E5 (φ n) / 3 - e 4 n| ≤ C * δ ^ 4 := by
  obtain ⟨C, hC, r₀, hr, hb⟩ := SR.big4.bound
  obtain ⟨C', hC', r₁, hr₁, hb'⟩ := SR.bigP.bound
  obtain ⟨C'', hC'', r₂, hr₂, hb''⟩ := SR.bigE.bound
  refine ⟨C + (C' + C''), by positivity, min (min r₀ (1 / 2)) (min r₁ r₂), lt_min (lt_min hr (by norm_num)) (lt_min hr₁ hr₂),
    fun S dom V dV E1 E2 E3 E4 E5 φ q H e r r5 n hn hz δ hδ h hE4 => ?_⟩
  have hs := small_of (hδ.trans_le ((min_le_left _ _).trans (min_le_right _ _))) (by norm_num) h
  have h0 : 0 ≤ δ := (abs_nonneg _).trans hE4
  have k1 := hb (vec e 6 n) δ (vec_le h0 h) (hδ.trans_le ((min_le_left _ _).trans (min_le_left _ _)))
  have k2 := hb' (vec e 6 n) δ (vec_le h0 h) (hδ.trans_le ((min_le_right _ _).trans (min_le_left _ _)))
  have k3 := hb'' (vec e 6 n) δ (vec_le h0 h) (hδ.trans_le ((min_le_right _ _).trans (min_le_right _ _)))
  have g2 : SR.F2 (vec e 6 n) = E2 (φ n) := (E2_eq r (by norm_num) hn hs).symm
  have g23 : SR.F23 (vec e 6 n) = E2 (φ n) * E3 (φ n) := (E23_eq r (by norm_num) hn hs).symm
  have g3 : SR.F3 (vec e 6 n) = E3 (φ n) := (E3_eq r (by norm_num) hn hs hz).symm
  have g34 : SR.F34 (vec e 6 n) = E3 (φ n) * E4 (φ n) := (E34_eq r (by norm_num) hn hs hz).symm
  have g345 : SR.F345 (vec e 6 n) = E3 (φ n) * E4 (φ n) * (E4 (φ n) + E5 (φ n)) := (E345_eq r (by norm_num) r5 hn hs hz).symm
  rw [g2, g3, g23, g34, g345, show vec e 6 n 3 = e 4 n from rfl] at k1
  rw [g34, show vec e 6 n 3 = e 4 n from rfl, show vec e 6 n 2 = e 3 n from rfl] at k2
  rw [g3, show vec e 6 n 2 = e 3 n from rfl] at k3
  have hd : |e 4 n| ≤ δ := h 4 (by norm_num) (by norm_num)
  have k4 : |E4 (φ n) * (E3 (φ n) * E4 (φ n) - e 3 n * e 4 n)| ≤ δ * (C' * δ ^ 3) := by rw [abs_mul]; gcongr
  have k5 : |E4 (φ n) * ((E3 (φ n) - e 3 n) * e 4 n)| ≤ δ * ((C'' * δ ^ 2) * δ) := by rw [abs_mul, abs_mul]; gcongr
  rw [← abs_mul]
  have expand : E3 (φ n) * (get_epsilon_4 E2 E3 E4 (φ n) - E4 (φ n) * E5 (φ n) / 3 - e 4 n) =
      (E3 (φ n) * E4 (φ n) - 1 / 6 * (E3 (φ n) * E4 (φ n) * E2 (φ n)) - 1 / 3 * (E2 (φ n) * E3 (φ n) * E3 (φ n))
        - 1 / 3 * (E3 (φ n) * E4 (φ n) * (E4 (φ n) + E5 (φ n))) + 1 / 3 * (e 4 n * (E3 (φ n) * E4 (φ n))) - E3 (φ n) * e 4 n)
      + 1 / 3 * (E4 (φ n) * (E3 (φ n) * E4 (φ n) - e 3 n * e 4 n)) - 1 / 3 * (E4 (φ n) * ((E3 (φ n) - e 3 n) * e 4 n)) := by
    rw [get_epsilon_4]; ring
  rw [expand]
  have : 0 ≤ C' * δ ^ 4 := by positivity
  have : 0 ≤ C'' * δ ^ 4 := by positivity
  rw [abs_le] at *
  constructor <;> nlinarith

/-- **C13**, `ε₄`: if `ε₃V` is not small compared to the other parameters, `get_epsilon_4` is accurate to second order up to the `ε₅V` term, and to first order outright. -/
theorem C13_epsilon_4_first_order (κ : ℝ) : ∃ C > 0, ∃ δ₀ > 0, ∀ (S dom : Set ℝ) (V dV E1 E2 E3 E4 E5 φ q H : ℝ → ℝ) (e : ℕ → ℝ → ℝ), Rolls S dom V dV E1 E2 E3 E4 φ q H e 6 →
    IsFifth dom V dV E4 E5 → ∀ n ∈ S, e 2 n ≠ 0 → ∀ δ < δ₀, (∀ i, 1 ≤ i → i ≤ 6 → |e i n| ≤ δ) → |E4 (φ n)| ≤ δ → δ ≤ κ * |E3 (φ n)| →
    |get_epsilon_4 E2 E3 E4 (φ n) - E4 (φ n) * E5 (φ n) / 3 - e 4 n| ≤ C * δ ^ 3 ∧
    (|E5 (φ n)| ≤ δ → |get_epsilon_4 E2 E3 E4 (φ n) - e 4 n| ≤ C * δ ^ 2) := by
  obtain ⟨C, hC, r₀, hr, hb⟩ := C13_epsilon_4_partial
  refine ⟨C * |κ| + 1, by positivity, min r₀ 1, lt_min hr one_pos, fun S dom V dV E1 E2 E3 E4 E5 φ q H e r r5 n hn hz δ hδ h h4 h3 => ?_⟩
  have h0 : 0 < δ := ((C13.e1_pos r hn).trans_le (le_abs_self _)).trans_le (h 1 le_rfl (by norm_num))
  have h1 := hb S dom V dV E1 E2 E3 E4 E5 φ q H e r r5 n hn hz δ (hδ.trans_le (min_le_left _ _)) h h4
  have hδ1 : δ ≤ 1 := (hδ.trans_le (min_le_right _ _)).le
  obtain ⟨g, hg⟩ : ∃ g, g = |get_epsilon_4 E2 E3 E4 (φ n) - E4 (φ n) * E5 (φ n) / 3 - e 4 n| := ⟨_, rfl⟩
  have hg0 : 0 ≤ g := hg ▸ abs_nonneg _
  have key : g ≤ C * |κ| * δ ^ 3 := by
    have h5 : δ * g ≤ |κ| * (C * δ ^ 4) := by
      calc δ * g ≤ |κ| * |E3 (φ n)| * g := mul_le_mul_of_nonneg_right (h3.trans (mul_le_mul_of_nonneg_right (le_abs_self κ) (abs_nonneg _))) hg0
        _ = |κ| * (|E3 (φ n)| * g) := by ring
        _ ≤ _ := mul_le_mul_of_nonneg_left (by rw [hg]; exact h1) (abs_nonneg _)
    have h6 : δ * g ≤ δ * (C * |κ| * δ ^ 3) := h5.trans (le_of_eq (by ring))
    exact le_of_mul_le_mul_left h6 h0
  have h3' : δ ^ 3 ≤ δ ^ 2 := pow_le_pow_of_le_one h0.le hδ1 (by norm_num)
  have hK : 0 ≤ C * |κ| := by positivity
  have p3 : 0 ≤ δ ^ 3 := by positivity
  refine ⟨?_, fun h5 => ?_⟩
  · rw [← hg]; nlinarith
  · have h2 : |E4 (φ n) * E5 (φ n)| ≤ δ * δ := by rw [abs_mul]; gcongr
    have h8 := mul_le_mul_of_nonneg_left h3' hK
    rw [hg] at key
    rw [abs_le] at *
    constructor <;> nlinarith

/-! ## An exact solution: `V = 3φ² - 2`, `H = φ = 2 √(-N)` -/

namespace C13
noncomputable section

def xV (f : ℝ) : ℝ := 3 * f ^ 2 - 2
def xdV (f : ℝ) : ℝ := 6 * f
/-- numerator of the fourth slow-roll parameter -/
def xA (f : ℝ) : ℝ := 9 * f ^ 6 + 42 * f ^ 4 + 20 * f ^ 2 + 8
def xE1 (f : ℝ) : ℝ := 18 * f ^ 2 / (3 * f ^ 2 - 2) ^ 2
def xE2 (f : ℝ) : ℝ := 12 * (3 * f ^ 2 + 2) / (3 * f ^ 2 - 2) ^ 2
def xE3 (f : ℝ) : ℝ := 108 * (f ^ 2 * (f ^ 2 + 2)) / ((3 * f ^ 2 - 2) ^ 2 * (3 * f ^ 2 + 2))
def xE4 (f : ℝ) : ℝ := 12 * xA f / ((3 * f ^ 2 - 2) ^ 2 * (3 * f ^ 2 + 2) * (f ^ 2 + 2))
def xE5 (f : ℝ) : ℝ := 12 * f ^ 2 / (3 * f ^ 2 - 2) *
  (6 / (3 * f ^ 2 - 2) + 3 / (3 * f ^ 2 + 2) + 1 / (f ^ 2 + 2) - (27 * f ^ 4 + 84 * f ^ 2 + 20) / xA f)
def xφ (n : ℝ) : ℝ := 2 * √(-n)
def xq (n : ℝ) : ℝ := -2 / xφ n
def xe (i : ℕ) (n : ℝ) : ℝ := if i = 1 then -1 / (2 * n) else -1 / n

theorem sq (f : ℝ) : HasDerivAt (fun f : ℝ => f ^ 2) (2 * f) f := (hasDerivAt_pow 2 f).congr_deriv (by push_cast; ring)
theorem hB (f : ℝ) : HasDerivAt (fun f : ℝ => 3 * f ^ 2 - 2) (6 * f) f := (((sq f).const_mul 3).sub_const 2).congr_deriv (by ring)
theorem hC (f : ℝ) : HasDerivAt (fun f : ℝ => 3 * f ^ 2 + 2) (6 * f) f := (((sq f).const_mul 3).add_const 2).congr_deriv (by ring)
theorem hD (f : ℝ) : HasDerivAt (fun f : ℝ => f ^ 2 + 2) (2 * f) f := (sq f).add_const 2
theorem hA (f : ℝ) : HasDerivAt xA (2 * f * (27 * f ^ 4 + 84 * f ^ 2 + 20)) f :=
  (((((hasDerivAt_pow 6 f).const_mul 9).fun_add ((hasDerivAt_pow 4 f).const_mul 42)).fun_add ((sq f).const_mul 20)).add_const 8).congr_deriv (by push_cast; ring)

theorem B_pos {f : ℝ} (h : 2 < f) : 0 < 3 * f ^ 2 - 2 := by nlinarith
theorem A_pos (f : ℝ) : 0 < xA f := by unfold xA; positivity

theorem xsecond {f : ℝ} (h : 2 < f) : HasDerivAt xE1 (-(xV f / xdV f) * (xE1 f * xE2 f)) f := by
  have hb := (B_pos h).ne'
  have h0 : f ≠ 0 := by linarith
  refine (((sq f).const_mul 18).fun_div ((hB f).fun_pow 2) (pow_ne_zero _ hb)).congr_deriv ?_
  simp only [xV, xdV, xE1, xE2]
  obtain ⟨b, hb'⟩ : ∃ b, b = 3 * f ^ 2 - 2 := ⟨_, rfl⟩
  rw [← hb'] at hb ⊢
  push_cast
  field_simp
  rw [hb']
  ring

theorem xthird {f : ℝ} (h : 2 < f) : HasDerivAt xE2 (-(xV f / xdV f) * (xE2 f * xE3 f)) f := by
  have hb := (B_pos h).ne'
  have h0 : f ≠ 0 := by linarith
  refine (((hC f).const_mul 12).fun_div ((hB f).fun_pow 2) (pow_ne_zero _ hb)).congr_deriv ?_
  simp only [xV, xdV, xE3, xE2]
  have hc : 3 * f ^ 2 + 2 ≠ 0 := by positivity
  obtain ⟨b, hb'⟩ : ∃ b, b = 3 * f ^ 2 - 2 := ⟨_, rfl⟩
  rw [← hb'] at hb ⊢
  push_cast
  field_simp
  rw [hb']
  ring

theorem xfourth {f : ℝ} (h : 2 < f) : HasDerivAt xE3 (-(xV f / xdV f) * (xE3 f * xE4 f)) f := by
  have hb := (B_pos h).ne'
  have h0 : f ≠ 0 := by linarith
  have hc : 3 * f ^ 2 + 2 ≠ 0 := by positivity
  have hd : f ^ 2 + 2 ≠ 0 := by positivity
  refine ((((sq f).fun_mul (hD f)).const_mul 108).fun_div (((hB f).fun_pow 2).fun_mul (hC f)) (mul_ne_zero (pow_ne_zero _ hb) hc)).congr_deriv ?_
  simp only [xV, xdV, xE3, xE4, xA]
  obtain ⟨b, hb'⟩ : ∃ b, b = 3 * f ^ 2 - 2 := ⟨_, rfl⟩
  rw [← hb'] at hb ⊢
  push_cast
  field_simp
  rw [hb']
  ring

theorem xfifth {f : ℝ} (h : 2 < f) : HasDerivAt xE4 (-(xV f / xdV f) * (xE4 f * xE5 f)) f := by
  have hb := (B_pos h).ne'
  have h0 : f ≠ 0 := by linarith
  have hc : 3 * f ^ 2 + 2 ≠ 0 := by positivity
  have hd : f ^ 2 + 2 ≠ 0 := by positivity
  have ha := (A_pos f).ne'
  refine (((hA f).const_mul 12).fun_div ((((hB f).fun_pow 2).fun_mul (hC f)).fun_mul (hD f)) (mul_ne_zero (mul_ne_zero (pow_ne_zero _ hb) hc) hd)).congr_deriv ?_
  simp only [xV, xdV, xE4, xE5]
  obtain ⟨A, hA'⟩ : ∃ A, A = xA f := ⟨_, rfl⟩
  rw [← hA'] at ha ⊢
  obtain ⟨b, hb'⟩ : ∃ b, b = 3 * f ^ 2 - 2 := ⟨_, rfl⟩
  rw [← hb'] at hb ⊢
  obtain ⟨c, hc'⟩ : ∃ c, c = 3 * f ^ 2 + 2 := ⟨_, rfl⟩
  rw [← hc'] at hc ⊢
  obtain ⟨d, hd'⟩ : ∃ d, d = f ^ 2 + 2 := ⟨_, rfl⟩
  rw [← hd'] at hd ⊢
  obtain ⟨p, hp⟩ : ∃ p, p = 27 * f ^ 4 + 84 * f ^ 2 + 20 := ⟨_, rfl⟩
  rw [← hp]
  push_cast
  field_simp
  ring

theorem xφ_pos {n : ℝ} (h : n < 0) : 0 < xφ n := mul_pos two_pos (sqrt_pos.2 (by linarith))
theorem xφ_sq {n : ℝ} (h : n < 0) : xφ n ^ 2 = -4 * n := by
  rw [xφ, mul_pow, sq_sqrt (by linarith)]; ring
theorem dxφ {n : ℝ} (h : n < 0) : HasDerivAt xφ (xq n) n := by
  have hs : 0 < √(-n) := sqrt_pos.2 (by linarith)
  have := ((hasDerivAt_neg n).sqrt (by linarith)).const_mul 2
  refine this.congr_deriv ?_
  rw [xq, xφ]
  field_simp

/-- The exact solution is a flat universe with all its Hubble-flow parameters, so the hypotheses of the theorems above can be met. -/
theorem example_rolls (m : ℕ) : Rolls (Set.Iio (-2)) (Set.Ioi 2) xV xdV xE1 xE2 xE3 xE4 xφ xq xφ xe m where
  isOpen := isOpen_Iio
  potential f _ := hB f
  hierarchy :=
    { first := fun f hf => by
        simp only [xE1, xV, xdV]
        rw [div_pow]
        ring
      second := fun f hf => xsecond hf
      third := fun f hf => xthird hf
      fourth := fun f hf => xfourth hf }
  evolution :=
    { velocity := fun n hn => dxφ (by have : n < -2 := hn; linarith)
      kleinGordon := fun n hn => by
        have hn' : n < 0 := by have : n < -2 := hn; linarith
        have hp := xφ_pos hn'
        have e : (fun n => xφ n * xq n) =ᶠ[nhds n] fun _ => -2 := by
          filter_upwards [Iio_mem_nhds hn'] with z hz
          rw [xq]
          field_simp [(xφ_pos hz).ne']
        refine ((hasDerivAt_const n (-2 : ℝ)).congr_of_eventuallyEq e).congr_deriv ?_
        rw [xq, xdV]
        field_simp
        ring
      friedmann := fun n hn => by
        have hp := xφ_pos (show n < 0 by have : n < -2 := hn; linarith)
        rw [xq, xV]
        field_simp
        ring
      expanding := fun n hn => xφ_pos (by have : n < -2 := hn; linarith) }
  inDomain n hn := by
    have hn' : n < -2 := hn
    have h1 := xφ_sq (show n < 0 by linarith)
    have h2 := xφ_pos (show n < 0 by linarith)
    show 2 < xφ n
    nlinarith
  moving n hn := by
    have hp := xφ_pos (show n < 0 by have : n < -2 := hn; linarith)
    rw [xq]
    exact div_ne_zero (by norm_num) hp.ne'
  flow :=
    { first := fun n hn => by
        have hn' : n < 0 := by have : n < -2 := hn; linarith
        have hp := xφ_pos hn'
        refine ((dxφ hn').log hp.ne').congr_deriv ?_
        have h2 := xφ_sq hn'
        rw [xq, xe, if_pos rfl, div_div, ← pow_two, h2]
        have := hn'.ne
        field_simp
        norm_num
      next := fun i hi _ n hn => by
        have hn' : n ≠ 0 := by have : n < -2 := hn; linarith
        have h : HasDerivAt (fun n : ℝ => n⁻¹) (-(n ^ 2)⁻¹) n := hasDerivAt_inv hn'
        have e2 : xe (i + 1) n = -1 / n := if_neg (by omega)
        rw [e2]
        by_cases h1 : i = 1
        · have e1 : xe i = fun n => -1 / 2 * n⁻¹ := by
            funext z; rw [xe, if_pos h1]; rw [div_eq_mul_inv, mul_inv]; ring
          rw [e1]
          refine (h.const_mul (-1 / 2)).congr_deriv ?_
          field_simp
        · have e1 : xe i = fun n => -1 * n⁻¹ := by
            funext z; rw [xe, if_neg h1]; ring
          rw [e1]
          refine (h.const_mul (-1)).congr_deriv ?_
          field_simp }

theorem example_fifth : IsFifth (Set.Ioi 2) xV xdV xE4 xE5 := fun _ hf => xfifth hf

theorem example_small {n : ℝ} (hn : n < -2) (i : ℕ) : |xe i n| ≤ -1 / n := by
  have h1 : 0 < -1 / n := div_pos_of_neg_of_neg (by norm_num) (by linarith)
  unfold xe
  split_ifs
  · have : -1 / (2 * n) = (-1 / n) / 2 := by field_simp
    rw [this, abs_of_pos (by linarith)]
    linarith
  · exact (abs_of_pos h1).le

theorem xE3_ge {f : ℝ} (h : 6 < f ^ 2) : 2 / f ^ 2 ≤ xE3 f := by
  obtain ⟨z, hz⟩ : ∃ z, z = f ^ 2 := ⟨_, rfl⟩
  rw [xE3, ← hz]
  rw [← hz] at h
  have h1 : 0 < 3 * z - 2 := by linarith
  rw [div_le_div_iff₀ (by linarith) (by positivity)]
  nlinarith [mul_pos (mul_pos (by linarith : 0 < z) (by linarith : 0 < z)) (by linarith : 0 < z), mul_pos (by linarith : 0 < z) (by linarith : 0 < z)]

theorem xE4_ge {f : ℝ} (h : 6 < f ^ 2) : 2 / f ^ 2 ≤ xE4 f := by
  obtain ⟨z, hz⟩ : ∃ z, z = f ^ 2 := ⟨_, rfl⟩
  have hA : xA f = 9 * z ^ 3 + 42 * z ^ 2 + 20 * z + 8 := by rw [xA, hz]; ring
  rw [xE4, hA, ← hz]
  rw [← hz] at h
  have h1 : 0 < 3 * z - 2 := by linarith
  rw [div_le_div_iff₀ (by linarith) (by positivity)]
  have h2 := mul_pos (by linarith : 0 < z) (by linarith : 0 < z)
  nlinarith [mul_pos h2 (by linarith : 0 < z), mul_pos h2 h2]

theorem xE5_ge {f : ℝ} (h : 6 < f ^ 2) : 2 / f ^ 2 ≤ xE5 f := by
  obtain ⟨z, hz⟩ : ∃ z, z = f ^ 2 := ⟨_, rfl⟩
  have hA : xA f = 9 * z ^ 3 + 42 * z ^ 2 + 20 * z + 8 := by rw [xA, hz]; ring
  have h4 : f ^ 4 = z ^ 2 := by rw [hz]; ring
  rw [xE5, hA, h4, ← hz]
  rw [← hz] at h
  have hz0 : 0 < z := by linarith
  have h1 : 0 < 3 * z - 2 := by linarith
  have a1 : 2 / z ≤ 6 / (3 * z - 2) := by rw [div_le_div_iff₀ hz0 h1]; linarith
  have a2 : 3 / 4 / z ≤ 3 / (3 * z + 2) := by rw [div_le_div_iff₀ hz0 (by positivity)]; linarith
  have a3 : 3 / 4 / z ≤ 1 / (z + 2) := by rw [div_le_div_iff₀ hz0 (by positivity)]; linarith
  have a4 : (27 * z ^ 2 + 84 * z + 20) / (9 * z ^ 3 + 42 * z ^ 2 + 20 * z + 8) ≤ 3 / z := by
    rw [div_le_div_iff₀ (by positivity) hz0]
    nlinarith [mul_pos hz0 hz0]
  have a5 : 4 ≤ 12 * z / (3 * z - 2) := by rw [le_div_iff₀ h1]; linarith
  have a6 : 1 / 2 / z ≤ 6 / (3 * z - 2) + 3 / (3 * z + 2) + 1 / (z + 2) - (27 * z ^ 2 + 84 * z + 20) / (9 * z ^ 3 + 42 * z ^ 2 + 20 * z + 8) := by
    have : 1 / 2 / z = 2 / z + 3 / 4 / z + 3 / 4 / z - 3 / z := by field_simp; norm_num
    rw [this]; linarith
  have a7 : 0 ≤ 1 / 2 / z := by positivity
  calc 2 / z = 4 * (1 / 2 / z) := by field_simp; norm_num
    _ ≤ _ := mul_le_mul a5 a6 a7 (by linarith)

theorem xE4_le {f : ℝ} (h : 16 ≤ f ^ 2) : xE4 f ≤ 8 / f ^ 2 := by
  obtain ⟨z, hz⟩ : ∃ z, z = f ^ 2 := ⟨_, rfl⟩
  have hA : xA f = 9 * z ^ 3 + 42 * z ^ 2 + 20 * z + 8 := by rw [xA, hz]; ring
  rw [xE4, hA, ← hz]
  rw [← hz] at h
  have h1 : 0 < 3 * z - 2 := by linarith
  rw [div_le_div_iff₀ (by positivity) (by linarith)]
  obtain ⟨u, rfl⟩ : ∃ u, z = u + 16 := ⟨z - 16, by ring⟩
  have hu : 0 ≤ u := by linarith
  have : 0 ≤ 8 * ((3 * (u + 16) - 2) ^ 2 * (3 * (u + 16) + 2) * (u + 16 + 2)) - 12 * (9 * (u + 16) ^ 3 + 42 * (u + 16) ^ 2 + 20 * (u + 16) + 8) * (u + 16) := by
    ring_nf
    positivity
  linarith

end
end C13

open C13 in
/-- **C13**: because of the placeholder `e5V = 0`, `get_epsilon_4` is *not* accurate to second order, even where `ε₃V` is as large as the other parameters. -/
theorem C13_epsilon_4_not_second_order : ¬ ∃ C > 0, ∃ δ₀ > 0, ∀ (S dom : Set ℝ) (V dV E1 E2 E3 E4 E5 φ q H : ℝ → ℝ) (e : ℕ → ℝ → ℝ),
    Rolls S dom V dV E1 E2 E3 E4 φ q H e 6 → IsFifth dom V dV E4 E5 → ∀ n ∈ S, e 2 n ≠ 0 → ∀ δ < δ₀, (∀ i, 1 ≤ i → i ≤ 6 → |e i n| ≤ δ) →
    |E4 (φ n)| ≤ δ → δ ≤ 4 * |E3 (φ n)| → |get_epsilon_4 E2 E3 E4 (φ n) - e 4 n| ≤ C * δ ^ 3 := by
  rintro ⟨C, hC, δ₀, hδ₀, h⟩
  obtain ⟨C', hC', δ₁, hδ₁, h'⟩ := C13_epsilon_4_first_order 4
  obtain ⟨t, ht⟩ : ∃ t, t = min (min (δ₀ / 4) (δ₁ / 4)) (min (1 / 4) (1 / (200 * (C + C')))) := ⟨_, rfl⟩
  have t0 : 0 < t := by rw [ht]; positivity
  have t1 : 2 * t < δ₀ := by have : t ≤ δ₀ / 4 := by (rw [ht]; exact (min_le_left _ _).trans (min_le_left _ _))
                             linarith
  have t2 : 2 * t < δ₁ := by have : t ≤ δ₁ / 4 := by (rw [ht]; exact (min_le_left _ _).trans (min_le_right _ _))
                             linarith
  have t3 : t ≤ 1 / 4 := by rw [ht]; exact (min_le_right _ _).trans (min_le_left _ _)
  have t4 : t ≤ 1 / (200 * (C + C')) := by rw [ht]; exact (min_le_right _ _).trans (min_le_right _ _)
  obtain ⟨n, hn⟩ : ∃ n, n = -1 / t := ⟨_, rfl⟩
  have hnt : -1 / n = t := by rw [hn]; field_simp
  have hn2 : n < -2 := by rw [hn, div_lt_iff₀ t0]; linarith
  have hsm : ∀ i, 1 ≤ i → i ≤ 6 → |xe i n| ≤ 2 * t := fun i _ _ => (hnt ▸ example_small hn2 i).trans (by linarith)
  have hne : xe 2 n ≠ 0 := by rw [xe, if_neg (by norm_num), hnt]; exact t0.ne'
  have hz : xφ n ^ 2 = 4 / t := by rw [xφ_sq (by linarith), hn]; field_simp
  have hz6 : 6 < xφ n ^ 2 := by rw [hz, lt_div_iff₀ t0]; linarith
  have hz16 : 16 ≤ xφ n ^ 2 := by rw [hz, le_div_iff₀ t0]; linarith
  have b : 2 / xφ n ^ 2 = t / 2 := by rw [hz]; field_simp; norm_num
  have b8 : 8 / xφ n ^ 2 = 2 * t := by rw [hz]; field_simp; norm_num
  have b3 := xE3_ge hz6
  have b4 := xE4_ge hz6
  have b5 := xE5_ge hz6
  have b4' := xE4_le hz16
  rw [b] at b3 b4 b5
  rw [b8] at b4'
  have h4 : |xE4 (xφ n)| ≤ 2 * t := by rw [abs_of_nonneg (by linarith)]; exact b4'
  have h3 : 2 * t ≤ 4 * |xE3 (xφ n)| := by have := b3.trans (le_abs_self _); linarith
  have k1 := h _ _ _ _ _ _ _ _ _ _ _ _ _ (example_rolls 6) example_fifth n hn2 hne (2 * t) t1 hsm h4 h3
  have k2 := (h' _ _ _ _ _ _ _ _ _ _ _ _ _ (example_rolls 6) example_fifth n hn2 hne (2 * t) t2 hsm h4 h3).1
  have t0' : 0 ≤ t / 2 := by linarith
  have k3 : t / 2 * (t / 2) ≤ xE4 (xφ n) * xE5 (xφ n) := by
    have := t0'.trans b4
    gcongr
  have k4 : xE4 (xφ n) * xE5 (xφ n) / 3 ≤ (C + C') * (2 * t) ^ 3 := by
    rw [abs_le] at k1 k2
    linarith
  have k5 : (C + C') * t ≤ 1 / 200 := by
    rw [le_div_iff₀ (by positivity)] at t4
    linarith
  have k6 : (C + C') * (2 * t) ^ 3 ≤ 8 / 200 * t ^ 2 := by
    calc (C + C') * (2 * t) ^ 3 = ((C + C') * t) * (8 * t ^ 2) := by ring
      _ ≤ 1 / 200 * (8 * t ^ 2) := mul_le_mul_of_nonneg_right k5 (by positivity)
      _ = _ := by ring
  have : 0 < t ^ 2 := by positivity
  nlinarith

open C13 in
/-- **C13**: because of the placeholder `e5V = 0`, `get_epsilon_3` is *not* accurate to third order (no bound `C δ⁴` holds for all universes). -/
theorem C13_epsilon_3_not_third_order : ¬ ∃ C > 0, ∃ δ₀ > 0, ∀ (S dom : Set ℝ) (V dV E1 E2 E3 E4 E5 φ q H : ℝ → ℝ) (e : ℕ → ℝ → ℝ),
    Rolls S dom V dV E1 E2 E3 E4 φ q H e 6 → IsFifth dom V dV E4 E5 → ∀ n ∈ S, e 2 n ≠ 0 → ∀ δ < δ₀, (∀ i, 1 ≤ i → i ≤ 6 → |e i n| ≤ δ) →
    |get_epsilon_3 E1 E2 E3 E4 (φ n) - e 3 n| ≤ C * δ ^ 4 := by
  rintro ⟨C, hC, δ₀, hδ₀, h⟩
  obtain ⟨C', hC', δ₁, hδ₁, h'⟩ := C13_epsilon_3_partial
  obtain ⟨t, ht⟩ : ∃ t, t = min (min (δ₀ / 2) (δ₁ / 2)) (min (1 / 4) (1 / (100 * (C + C')))) := ⟨_, rfl⟩
  have t0 : 0 < t := by rw [ht]; positivity
  have t1 : t < δ₀ := by have : t ≤ δ₀ / 2 := by (rw [ht]; exact (min_le_left _ _).trans (min_le_left _ _))
                         linarith
  have t2 : t < δ₁ := by have : t ≤ δ₁ / 2 := by (rw [ht]; exact (min_le_left _ _).trans (min_le_right _ _))
                         linarith
  have t3 : t ≤ 1 / 4 := by rw [ht]; exact (min_le_right _ _).trans (min_le_left _ _)
  have t4 : t ≤ 1 / (100 * (C + C')) := by rw [ht]; exact (min_le_right _ _).trans (min_le_right _ _)
  obtain ⟨n, hn⟩ : ∃ n, n = -1 / t := ⟨_, rfl⟩
  have hnt : -1 / n = t := by rw [hn]; field_simp
  have hn2 : n < -2 := by rw [hn, div_lt_iff₀ t0]; linarith
  have hsm : ∀ i, 1 ≤ i → i ≤ 6 → |xe i n| ≤ t := fun i _ _ => hnt ▸ example_small hn2 i
  have hne : xe 2 n ≠ 0 := by rw [xe, if_neg (by norm_num), hnt]; exact t0.ne'
  have k1 := h _ _ _ _ _ _ _ _ _ _ _ _ _ (example_rolls 6) example_fifth n hn2 hne t t1 hsm
  have k2 := h' _ _ _ _ _ _ _ _ _ _ _ _ _ (example_rolls 6) example_fifth n hn2 hne t t2 hsm
  have hz : xφ n ^ 2 = 4 / t := by rw [xφ_sq (by linarith), hn]; field_simp
  have hz6 : 6 < xφ n ^ 2 := by rw [hz, lt_div_iff₀ t0]; linarith
  have b : 2 / xφ n ^ 2 = t / 2 := by rw [hz]; field_simp; norm_num
  have b3 := xE3_ge hz6
  have b4 := xE4_ge hz6
  have b5 := xE5_ge hz6
  rw [b] at b3 b4 b5
  have t0' : 0 ≤ t / 2 := by linarith
  have k3 : t / 2 * (t / 2) * (t / 2) ≤ xE3 (xφ n) * xE4 (xφ n) * xE5 (xφ n) := by
    have := t0'.trans b3; have := t0'.trans b4
    gcongr
  have k4 : xE3 (xφ n) * xE4 (xφ n) * xE5 (xφ n) / 9 ≤ (C + C') * t ^ 4 := by
    rw [abs_le] at k1 k2
    linarith
  have k5 : (C + C') * t ≤ 1 / 100 := by
    rw [le_div_iff₀ (by positivity)] at t4
    linarith
  have k6 : (C + C') * t ^ 4 ≤ 1 / 100 * t ^ 3 := by
    calc (C + C') * t ^ 4 = ((C + C') * t) * t ^ 3 := by ring
      _ ≤ _ := mul_le_mul_of_nonneg_right k5 (by positivity)
  have : 0 < t ^ 3 := by positivity
  nlinarith

end Primpy
