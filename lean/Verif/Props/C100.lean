import Verif.Props.C98

/-!
# C100: inflation ends, and `solve` finds the end
-/

namespace Primpy
open Real Set Spec Bunch Approx Ctor

/-! ## Specification -/

/-- The field of a flat universe of energy density at most `E0`, now at `φ0`, is caught between two fields `a` and `b`: at each of them the potential is undefined, zero, or above
the energy density; and between them, where the potential is positive and below the energy density, its logarithmic slope is at least `c`. -/
structure Caught (V : ℝ → ℝ) (D : Set ℝ) (E0 φ0 a b c : ℝ) : Prop where
  here : φ0 ∈ Ioo a b
  wall_a : a ∉ D ∨ V a ≤ 0 ∨ E0 < V a
  wall_b : b ∉ D ∨ V b ≤ 0 ∨ E0 < V b
  slope : ∀ ψ ∈ D ∩ Ioo a b, 0 < V ψ → V ψ ≤ E0 → c * V ψ ≤ |deriv V ψ|

/-- a bound on the number of e-folds of acceleration -/
noncomputable def maxEfolds (a b c : ℝ) : ℝ := 2 / 3 + (4 + 6 * (b - a)) / c

/-- An end of inflation is recorded: the call `solve(ic, **kw)` tracks `InflationEvent(direction=-1)`, terminal or not, and the integrator reports it. -/
def EndSeen (ivp : SolveIvp) (E : Eqs) (ic : ICCall) (kw : SolveKw) : Prop :=
  ∀ c y0 q, ic (kw.rtol.getD (1 / 10 ^ 10)) (kw.atol.getD (1 / 10 ^ 12)) kw.rest (fun _ => some 0) = .ok (c, y0) → Requested E kw c y0 q →
    ∃ b : Bool, (∃ ev ∈ q.events, (∃ t_i, ev.kind = .inflation t_i) ∧ ev.direction = .neg ∧ ev.terminal = b) ∧
      ∀ res t y te ye, ivp E q = .ok res → IvpShape E.idx.length q.events.length res t y te ye → ∀ (j : ℕ) ev ts, q.events[j]? = some ev → te[j]? = some ts →
        (∃ t_i, ev.kind = .inflation t_i) → ev.direction = .neg → ev.terminal = b → ts ≠ []

namespace C100

theorem one_sign {f : ℝ → ℝ} {x0 x1 : ℝ} (hf : ContinuousOn f (Icc x0 x1)) (h0 : ∀ x ∈ Icc x0 x1, f x ≠ 0) : (∀ x ∈ Icc x0 x1, 0 < f x) ∨ ∀ x ∈ Icc x0 x1, f x < 0 := by
  by_contra hn
  push Not at hn
  obtain ⟨⟨x, hx, h1⟩, y, hy, h2⟩ := hn
  obtain ⟨z, hz, e⟩ := isPreconnected_Icc.intermediate_value hx hy hf ⟨h1, h2⟩
  exact h0 z hz e

theorem hubble_deriv {τ : ℝ → ℝ} {K : ℝ} {V dV : ℝ → ℝ} {D S : Set ℝ} (hS : IsOpen S) {φ v N H : ℝ → ℝ} (h : Textbook τ K V S φ v N H) (hV : IsDerivOn D V dV) (hφ : ∀ x ∈ S, φ x ∈ D)
    {x : ℝ} (hx : x ∈ S) : HasDerivAt H (-(τ (H x) * (v x ^ 2 / 2 - K * exp (-2 * N x)))) x := by
  have hp := h.expanding x hx
  have e := (C98.epsilon hS h hV hφ hx).exp
  have ev : (fun x => exp (log (H x))) =ᶠ[nhds x] H := by
    filter_upwards [hS.mem_nhds hx] with w hw
    exact exp_log (h.expanding w hw)
  refine (e.congr_of_eventuallyEq ev.symm).congr_deriv ?_
  rw [exp_log hp]
  field_simp

/-- the field velocity in units of the square root of the potential -/
theorem velocity_deriv {τ : ℝ → ℝ} {K : ℝ} {V dV : ℝ → ℝ} {D S : Set ℝ} {φ v N H : ℝ → ℝ} (h : Textbook τ K V S φ v N H) (hV : IsDerivOn D V dV) (hφ : ∀ x ∈ S, φ x ∈ D)
    {x : ℝ} (hx : x ∈ S) (hp : 0 < V (φ x)) (σ : ℝ) : HasDerivAt (fun x => σ * v x / √(V (φ x)))
      (τ (H x) * (-3 * H x * (σ * v x / √(V (φ x))) - σ * dV (φ x) / √(V (φ x)) * (1 + (v x / √(V (φ x))) ^ 2 / 2))) x := by
  have hd := hV _ (hφ x hx)
  have a := (HasDerivAt.comp x hd (h.field x hx)).sqrt hp.ne'
  have b := ((h.kleinGordon x hx).const_mul σ).div a (sqrt_pos.2 hp).ne'
  refine b.congr_deriv ?_
  rw [hd.deriv]
  have hs := sqrt_pos.2 hp
  have e : V (φ x) = √(V (φ x)) ^ 2 := (sq_sqrt hp.le).symm
  obtain ⟨s, hs'⟩ : ∃ s, s = √(V (φ x)) := ⟨_, rfl⟩
  show (σ * (τ (H x) * (-3 * H x * v x - dV (φ x))) * √(V (φ x)) - σ * v x * (dV (φ x) * (τ (H x) * v x) / (2 * √(V (φ x))))) / √(V (φ x)) ^ 2 = _
  rw [← hs'] at hs ⊢
  field_simp
  ring

section
variable {τ : ℝ → ℝ} (hτ : ∀ h, 0 < h → 0 < τ h) {V dV d2V : ℝ → ℝ} {D S : Set ℝ} (hS : IsOpen S) {φ v N H : ℝ → ℝ} (h : Textbook τ 0 V S φ v N H) (hV : IsDerivOn D V dV)
  (hd2 : IsDerivOn D dV d2V) (hφ : ∀ x ∈ S, φ x ∈ D) {x0 x1 : ℝ} (hsub : Icc x0 x1 ⊆ S) (hacc : ∀ x ∈ Icc x0 x1, v x ^ 2 ≤ V (φ x))
include hτ hS h hV hφ hsub hacc

theorem facts : (∀ x ∈ Icc x0 x1, 0 < V (φ x)) ∧ (∀ x ∈ Icc x0 x1, H x ≤ √(V (φ x))) ∧ AntitoneOn H (Icc x0 x1) ∧ MonotoneOn N (Icc x0 x1) ∧
    ∀ x ∈ Icc x0 x1, V (φ x) ≤ 3 * H x0 ^ 2 := by
  have pos : ∀ x ∈ Icc x0 x1, 0 < V (φ x) ∧ 2 * H x ^ 2 ≤ V (φ x) := fun x hx => by
    have f := h.friedmann x (hsub hx)
    have p := h.expanding x (hsub hx)
    have a := hacc x hx
    have : 0 < H x ^ 2 := by positivity
    constructor <;> nlinarith
  have anti : AntitoneOn H (Icc x0 x1) := by
    refine antitoneOn_of_deriv_nonpos (convex_Icc _ _) (fun x hx => (hubble_deriv hS h hV hφ (hsub hx)).continuousAt.continuousWithinAt) (fun x hx => ?_) fun x hx => ?_
    · exact (hubble_deriv hS h hV hφ (hsub (interior_subset hx))).differentiableAt.differentiableWithinAt
    · have hx := hsub (interior_subset hx)
      rw [(hubble_deriv hS h hV hφ hx).deriv, zero_mul, sub_zero]
      have := hτ _ (h.expanding x hx)
      have : 0 ≤ τ (H x) * (v x ^ 2 / 2) := by positivity
      linarith
  refine ⟨fun x hx => (pos x hx).1, fun x hx => ?_, anti, ?_, fun x hx => ?_⟩
  · refine le_sqrt_of_sq_le ?_
    have := (pos x hx).2
    nlinarith [sq_nonneg (H x)]
  · refine monotoneOn_of_deriv_nonneg (convex_Icc _ _) (fun x hx => (h.expansion x (hsub hx)).continuousAt.continuousWithinAt) (fun x hx => ?_) fun x hx => ?_
    · exact (h.expansion x (hsub (interior_subset hx))).differentiableAt.differentiableWithinAt
    · have hx := hsub (interior_subset hx)
      rw [(h.expansion x hx).deriv]
      exact (mul_pos (hτ _ (h.expanding x hx)) (h.expanding x hx)).le
  · have f := h.friedmann x (hsub hx)
    have p := h.expanding x (hsub hx)
    have : H x ≤ H x0 := anti ⟨le_rfl, hx.1.trans hx.2⟩ hx hx.1
    nlinarith [sq_nonneg (v x)]

include hd2 in
theorem bound {a b c : ℝ} (hc : 0 < c) (hC : Caught V D (3 * H x0 ^ 2) (φ x0) a b c) (h01 : x0 ≤ x1) : N x1 - N x0 ≤ maxEfolds a b c := by
  obtain ⟨pos, hHV, anti, mono, low⟩ := facts hτ hS h hV hφ hsub hacc
  have m0 : x0 ∈ Icc x0 x1 := ⟨le_rfl, h01⟩
  have m1 : x1 ∈ Icc x0 x1 := ⟨h01, le_rfl⟩
  have cφ : ContinuousOn φ (Icc x0 x1) := fun x hx => (h.field x (hsub hx)).continuousAt.continuousWithinAt
  -- the field stays between the walls
  have conf : ∀ x ∈ Icc x0 x1, φ x ∈ Ioo a b := fun x hx => by
    by_contra hn
    have hit : ∀ y ∈ Icc x0 x1, ∀ w, (w ∉ D ∨ V w ≤ 0 ∨ 3 * H x0 ^ 2 < V w) → φ y ≠ w := fun y hy w hw e => by
      rcases hw with hw | hw | hw
      · exact hw (e ▸ hφ y (hsub hy))
      · have := pos y hy; rw [e] at this; linarith
      · have := low y hy; rw [e] at this; linarith
    rw [mem_Ioo, not_and_or, not_lt, not_lt] at hn
    rcases hn with hn | hn
    · obtain ⟨y, hy, e⟩ := isPreconnected_Icc.intermediate_value hx m0 cφ ⟨hn, hC.here.1.le⟩
      exact hit y hy a hC.wall_a e
    · obtain ⟨y, hy, e⟩ := isPreconnected_Icc.intermediate_value m0 hx cφ ⟨hC.here.2.le, hn⟩
      exact hit y hy b hC.wall_b e
  -- the slope has one sign
  have sl : ∀ x ∈ Icc x0 x1, c * V (φ x) ≤ |dV (φ x)| := fun x hx => by
    have := hC.slope (φ x) ⟨hφ x (hsub hx), conf x hx⟩ (pos x hx) (low x hx)
    rwa [(hV _ (hφ x (hsub hx))).deriv] at this
  have cd : ContinuousOn (fun x => dV (φ x)) (Icc x0 x1) := fun x hx =>
    (ContinuousAt.comp (hd2 _ (hφ x (hsub hx))).continuousAt (h.field x (hsub hx)).continuousAt).continuousWithinAt
  obtain ⟨σ, hσ, hsl⟩ : ∃ σ : ℝ, (σ = 1 ∨ σ = -1) ∧ ∀ x ∈ Icc x0 x1, c * V (φ x) ≤ σ * dV (φ x) := by
    rcases one_sign cd (fun x hx e => by
      have := sl x hx
      have hp := mul_pos hc (pos x hx)
      rw [e, abs_zero] at this; linarith) with h1 | h1
    · exact ⟨1, .inl rfl, fun x hx => by rw [one_mul]; exact (sl x hx).trans_eq (abs_of_pos (h1 x hx))⟩
    · exact ⟨-1, .inr rfl, fun x hx => by rw [neg_one_mul]; exact (sl x hx).trans_eq (abs_of_neg (h1 x hx))⟩
  obtain ⟨w, hw⟩ : ∃ w : ℝ → ℝ, w = fun x => σ * v x / √(V (φ x)) := ⟨_, rfl⟩
  obtain ⟨w', hw'⟩ : ∃ w' : ℝ → ℝ, w' = fun x => τ (H x) * (-3 * H x * w x - σ * dV (φ x) / √(V (φ x)) * (1 + (v x / √(V (φ x))) ^ 2 / 2)) := ⟨_, rfl⟩
  have dw : ∀ x ∈ Icc x0 x1, HasDerivAt w (w' x) x := fun x hx => by
    rw [hw', hw]
    exact velocity_deriv h hV hφ (hsub hx) (pos x hx) σ
  -- while `w > -c/6` it falls at least by `c/2` per e-fold
  have fall : ∀ x ∈ Icc x0 x1, -(c / 6) ≤ w x → w' x ≤ -(c / 2) * (τ (H x) * H x) := fun x hx hwx => by
    have s := sqrt_pos.2 (pos x hx)
    have hp := h.expanding x (hsub hx)
    have ht := hτ _ hp
    have e : V (φ x) = √(V (φ x)) ^ 2 := (sq_sqrt (pos x hx).le).symm
    have q : c * H x ≤ σ * dV (φ x) / √(V (φ x)) := by
      rw [le_div_iff₀ s]
      have h1 := hsl x hx
      rw [e] at h1
      have := mul_le_mul_of_nonneg_left (hHV x hx) (mul_pos hc s).le
      nlinarith
    have q2 : c * H x ≤ σ * dV (φ x) / √(V (φ x)) * (1 + (v x / √(V (φ x))) ^ 2 / 2) := by
      have h0 : 0 ≤ c * H x := (mul_pos hc hp).le
      nlinarith [sq_nonneg (v x / √(V (φ x)))]
    rw [hw']
    show τ (H x) * (-3 * H x * w x - _) ≤ _
    have : -3 * H x * w x - σ * dV (φ x) / √(V (φ x)) * (1 + (v x / √(V (φ x))) ^ 2 / 2) ≤ -(c / 2) * H x := by nlinarith
    calc _ ≤ τ (H x) * (-(c / 2) * H x) := mul_le_mul_of_nonneg_left this ht.le
      _ = _ := by ring
  by_contra hn
  rw [not_le, maxEfolds] at hn
  have L0 : 0 < b - a := by have := hC.here; linarith [this.1, this.2]
  have cN : ContinuousOn N (Icc x0 x1) := fun x hx => (h.expansion x (hsub hx)).continuousAt.continuousWithinAt
  obtain ⟨n1, hn1⟩ : ∃ n1, n1 = 2 / 3 + 4 / c := ⟨_, rfl⟩
  have n1p : 0 < n1 := by rw [hn1]; positivity
  have hn' : n1 + 6 * (b - a) / c < N x1 - N x0 := by
    rw [hn1]
    calc _ = 2 / 3 + (4 + 6 * (b - a)) / c := by ring
      _ < _ := hn
  have r0 : 0 < 6 * (b - a) / c := by positivity
  obtain ⟨xA, hA, eA⟩ := isPreconnected_Icc.intermediate_value m0 m1 cN (show N x0 + n1 ∈ Icc (N x0) (N x1) from ⟨by linarith, by linarith⟩)
  have w0 : w x0 ≤ 1 := by
    rw [hw]
    show σ * v x0 / √(V (φ x0)) ≤ 1
    rw [div_le_one (sqrt_pos.2 (pos x0 m0))]
    refine le_sqrt_of_sq_le ?_
    rw [mul_pow, show σ ^ 2 = 1 by rcases hσ with rfl | rfl <;> norm_num, one_mul]
    exact hacc x0 m0
  have wA : w xA ≤ -(c / 6) := by
    have key := image_le_of_deriv_right_lt_deriv_boundary' (f := w) (f' := w') (a := x0) (b := xA) (B := fun x => 1 - c / 4 * (N x - N x0)) (B' := fun x => -(c / 4 * (τ (H x) * H x)))
      (fun x hx => (dw x ⟨hx.1, hx.2.trans hA.2⟩).continuousAt.continuousWithinAt) (fun x hx => (dw x ⟨hx.1, hx.2.le.trans hA.2⟩).hasDerivWithinAt)
      (by show w x0 ≤ 1 - c / 4 * (N x0 - N x0); rw [sub_self, mul_zero, sub_zero]; exact w0)
      (continuousOn_const.sub (continuousOn_const.mul ((cN.mono (Icc_subset_Icc le_rfl hA.2)).sub continuousOn_const)))
      (fun x hx => by
        have := (((h.expansion x (hsub ⟨hx.1, hx.2.le.trans hA.2⟩)).sub_const (N x0)).const_mul (c / 4)).const_sub 1
        exact this.hasDerivWithinAt)
      (fun x hx e => by
        have hx' : x ∈ Icc x0 x1 := ⟨hx.1, hx.2.le.trans hA.2⟩
        have hNx : N x - N x0 ≤ n1 := by
          have := mono hx' hA hx.2.le
          linarith
        have : -(c / 6) ≤ w x := by
          have e : w x = 1 - c / 4 * (N x - N x0) := e
          rw [e]
          have h1 : c / 4 * (N x - N x0) ≤ c / 4 * n1 := mul_le_mul_of_nonneg_left hNx (by positivity)
          have h2 : c / 4 * n1 = c / 6 + 1 := by rw [hn1]; field_simp; ring
          linarith
        have f := fall x hx' this
        have : 0 < τ (H x) * H x := mul_pos (hτ _ (h.expanding x (hsub hx'))) (h.expanding x (hsub hx'))
        show w' x < -(c / 4 * (τ (H x) * H x))
        nlinarith [mul_pos hc this])
    have := key (show xA ∈ Icc x0 xA from ⟨hA.1, le_rfl⟩)
    refine this.trans (le_of_eq ?_)
    show 1 - c / 4 * (N xA - N x0) = _
    rw [eA, hn1]; field_simp; ring
  have wB : ∀ x ∈ Icc xA x1, w x ≤ -(c / 6) := by
    have key := image_le_of_deriv_right_lt_deriv_boundary' (f := w) (f' := w') (a := xA) (b := x1) (B := fun _ => -(c / 6)) (B' := fun _ => 0)
      (fun x hx => (dw x ⟨hA.1.trans hx.1, hx.2⟩).continuousAt.continuousWithinAt) (fun x hx => (dw x ⟨hA.1.trans hx.1, hx.2.le⟩).hasDerivWithinAt)
      wA continuousOn_const (fun x _ => hasDerivWithinAt_const x _ _) (fun x hx e => by
        have hx' : x ∈ Icc x0 x1 := ⟨hA.1.trans hx.1, hx.2.le⟩
        have f := fall x hx' (le_of_eq (Eq.symm e))
        have : 0 < τ (H x) * H x := mul_pos (hτ _ (h.expanding x (hsub hx'))) (h.expanding x (hsub hx'))
        show w' x < 0
        nlinarith [mul_pos hc this])
    exact fun x hx => key hx
  -- so the field has travelled too far
  have travel : AntitoneOn (fun x => σ * φ x + c / 6 * N x) (Icc xA x1) := by
    have d : ∀ x ∈ Icc xA x1, HasDerivAt (fun x => σ * φ x + c / 6 * N x) (σ * (τ (H x) * v x) + c / 6 * (τ (H x) * H x)) x := fun x hx =>
      ((h.field x (hsub ⟨hA.1.trans hx.1, hx.2⟩)).const_mul σ).add ((h.expansion x (hsub ⟨hA.1.trans hx.1, hx.2⟩)).const_mul (c / 6))
    refine antitoneOn_of_deriv_nonpos (convex_Icc _ _) (fun x hx => (d x hx).continuousAt.continuousWithinAt)
      (fun x hx => (d x (interior_subset hx)).differentiableAt.differentiableWithinAt) fun x hx => ?_
    have hx := interior_subset hx
    have hx' : x ∈ Icc x0 x1 := ⟨hA.1.trans hx.1, hx.2⟩
    rw [(d x hx).deriv]
    have s := sqrt_pos.2 (pos x hx')
    have ht := hτ _ (h.expanding x (hsub hx'))
    have b := wB x hx
    rw [hw] at b
    have b : σ * v x / √(V (φ x)) ≤ -(c / 6) := b
    rw [div_le_iff₀ s] at b
    have b2 := hHV x hx'
    have : σ * v x + c / 6 * H x ≤ 0 := by nlinarith
    nlinarith
  have tr := travel ⟨le_rfl, hA.2⟩ ⟨hA.2, le_rfl⟩ hA.2
  have tr : σ * φ x1 + c / 6 * N x1 ≤ σ * φ xA + c / 6 * N xA := tr
  have dist : σ * (φ xA - φ x1) ≤ b - a := by
    have cA := conf xA hA
    have c1 := conf x1 m1
    rcases hσ with rfl | rfl
    · linarith [cA.2, c1.1]
    · linarith [cA.1, c1.2]
  have : 6 * (b - a) / c < N x1 - N xA := by rw [eA]; linarith
  rw [div_lt_iff₀ hc] at this
  nlinarith

omit hτ in
/-- while the expansion accelerates, `aH` does not fall -/
theorem growth (h01 : x0 ≤ x1) (h1 : ∀ h, τ h = 1) : log (1 + H x0 * (x1 - x0)) ≤ N x1 - N x0 := by
  have m0 : x0 ∈ Icc x0 x1 := ⟨le_rfl, h01⟩
  have d : ∀ x ∈ Icc x0 x1, HasDerivAt (fun x => exp (N x) * H x) (exp (N x) * (H x * H x - v x ^ 2 / 2)) x := fun x hx => by
    refine ((h.expansion x (hsub hx)).exp.mul (hubble_deriv hS h hV hφ (hsub hx))).congr_deriv ?_
    rw [h1]; ring
  have mono : MonotoneOn (fun x => exp (N x) * H x) (Icc x0 x1) := by
    refine monotoneOn_of_deriv_nonneg (convex_Icc _ _) (fun x hx => (d x hx).continuousAt.continuousWithinAt) (fun x hx => (d x (interior_subset hx)).differentiableAt.differentiableWithinAt) fun x hx => ?_
    have hx := interior_subset hx
    rw [(d x hx).deriv]
    have f := h.friedmann x (hsub hx)
    have a := hacc x hx
    refine mul_nonneg (exp_pos _).le ?_
    nlinarith
  have d2 : ∀ x ∈ Icc x0 x1, HasDerivAt (fun x => exp (N x) - exp (N x0) * H x0 * x) (exp (N x) * H x - exp (N x0) * H x0) x := fun x hx => by
    refine ((h.expansion x (hsub hx)).exp.sub ((hasDerivAt_id x).const_mul (exp (N x0) * H x0))).congr_deriv ?_
    rw [h1]; simp
  have mono2 : MonotoneOn (fun x => exp (N x) - exp (N x0) * H x0 * x) (Icc x0 x1) := by
    refine monotoneOn_of_deriv_nonneg (convex_Icc _ _) (fun x hx => (d2 x hx).continuousAt.continuousWithinAt) (fun x hx => (d2 x (interior_subset hx)).differentiableAt.differentiableWithinAt) fun x hx => ?_
    have hx := interior_subset hx
    rw [(d2 x hx).deriv]
    have := mono m0 hx hx.1
    linarith
  have k := mono2 m0 ⟨h01, le_rfl⟩ h01
  have k : exp (N x0) - exp (N x0) * H x0 * x0 ≤ exp (N x1) - exp (N x0) * H x0 * x1 := k
  have hp := h.expanding x0 (hsub m0)
  have p : 0 < 1 + H x0 * (x1 - x0) := by
    have := mul_nonneg hp.le (sub_nonneg.2 h01)
    linarith
  rw [log_le_iff_le_exp p, exp_sub, le_div_iff₀ (exp_pos _)]
  linarith

end

/-- a phase is over where the acceleration is -/
theorem slow {E : Eqs} {D S : Set ℝ} {Y : ℝ → ℕ → ℝ} (hT : E.Trajectory D S Y) {x : ℝ} (hx : x ∈ S) : E.accel Y x = E.pot.V (Y x 0) - E.velocity Y x ^ 2 := by
  cases E with
  | other K p => exact absurd hT (by simp [Eqs.Trajectory])
  | T e => rfl
  | N e =>
    have hH : 0 ≤ e.H2 x (Y x) := (hT.2.1 x hx).le
    show e.V (Y x) - e.H2 x (Y x) * InflN.dphidN (Y x) ^ 2 = _ - (√(e.H2 x (Y x)) * Y x 1) ^ 2
    rw [mul_pow, sq_sqrt hH]
    rfl

end C100

/-! ## The claims -/

/-- **C100, inflation ends**: a flat universe in which the field is caught does not accelerate for more than `maxEfolds a b c` e-folds.  Nothing is assumed about the path of the field. -/
theorem C100_exit {τ : ℝ → ℝ} (hτ : ∀ h, 0 < h → 0 < τ h) {V dV d2V : ℝ → ℝ} {D S : Set ℝ} (hS : IsOpen S) {φ v N H : ℝ → ℝ} (h : Textbook τ 0 V S φ v N H) (hV : IsDerivOn D V dV)
    (hd2 : IsDerivOn D dV d2V) (hφ : ∀ x ∈ S, φ x ∈ D) {x0 x1 : ℝ} (h01 : x0 ≤ x1) (hsub : Icc x0 x1 ⊆ S) {a b c : ℝ} (hc : 0 < c)
    (hC : Caught V D (3 * H x0 ^ 2) (φ x0) a b c) (hlong : maxEfolds a b c < N x1 - N x0) : ∃ x ∈ Icc x0 x1, V (φ x) < v x ^ 2 := by
  by_contra hn
  push Not at hn
  exact absurd (C100.bound hτ hS h hV hd2 hφ hsub hn hc hC h01) (not_le.2 hlong)

/-- **C100, in cosmic time**: it does not accelerate for longer than `(e^B - 1)/H` either, where `B = maxEfolds a b c` and `H` is the Hubble rate at the start. -/
theorem C100_time {V dV d2V : ℝ → ℝ} {D S : Set ℝ} (hS : IsOpen S) {φ v N H : ℝ → ℝ} (h : Textbook (fun _ => 1) 0 V S φ v N H) (hV : IsDerivOn D V dV)
    (hd2 : IsDerivOn D dV d2V) (hφ : ∀ x ∈ S, φ x ∈ D) {x0 x1 : ℝ} (hsub : Icc x0 x1 ⊆ S) {a b c : ℝ} (hc : 0 < c)
    (hC : Caught V D (3 * H x0 ^ 2) (φ x0) a b c) (h01 : x0 ≤ x1) (hlong : (exp (maxEfolds a b c) - 1) / H x0 < x1 - x0) : ∃ x ∈ Icc x0 x1, V (φ x) < v x ^ 2 := by
  by_contra hn
  push Not at hn
  have hτ : ∀ h : ℝ, 0 < h → 0 < (fun _ : ℝ => (1 : ℝ)) h := fun _ _ => one_pos
  have k := C100.bound hτ hS h hV hd2 hφ hsub hn hc hC h01
  have g := C100.growth hS h hV hφ hsub hn h01 (fun _ => rfl)
  have hp := h.expanding x0 (hsub ⟨le_rfl, h01⟩)
  rw [div_lt_iff₀ hp] at hlong
  have p : 0 < 1 + H x0 * (x1 - x0) := by
    have := mul_nonneg hp.le (sub_nonneg.2 h01)
    linarith
  have := (log_le_iff_le_exp p).1 (g.trans k)
  nlinarith

namespace C100

/-- the end was recorded, and so was the beginning -/
theorem mask_of_end {Q : EqView} {y : ℝ → ℕ → ℝ} {x0 x1 : ℝ} {s : RawSol} (V : ℝ → ℝ) (K : ℝ) (hf : Faithful Q y x0 x1 s)
    (hcoll : ¬ Seen s.events "Collapse") {pe : ℝ × (ℕ → ℝ)} (hpe : EndPoint s pe) (h0 : 0 ≤ Q.inflating x0 (y x0)) :
    ∃ m, (inflationSol Q V K s).inflation_mask = some m := by
  have hB : ∃ n, (inflationSol Q V K s).start.N_beg = some n := by
    cases hn : (inflationSol Q V K s).start.N_beg with
    | some n => exact ⟨n, rfl⟩
    | none =>
      exfalso
      simp only [inflationSol, postStart] at hn
      rw [if_neg (fun h => hcoll (C25.firstEvent_isSome.1 h)), if_pos (Or.inl (by rw [hf.start]; exact h0))] at hn
      cases hn
  obtain ⟨n, hn⟩ := hB
  have hne := ((C25_end Q V K s).1 pe hpe).1
  have hm := (C25_duration_mask Q V K s)
  cases h : (inflationSol Q V K s).inflation_mask with
  | some m => exact ⟨m, rfl⟩
  | none =>
    exfalso
    have h1 := hm.2.1.1 h
    rw [(hm.1 _).2 ⟨_, _, hn, hne, rfl⟩] at h1
    cases h1

/-- `solve` succeeds and has a mask if an end is recorded -/
theorem seen (ivp : SolveIvp) (fmtE : ℝ → String) {E : Eqs} {D S : Set ℝ} {ic : ICCall} {kw : SolveKw} {t : List ℝ} {Y : ℝ → ℕ → ℝ} {x0 x1 : ℝ} (h : Solved ivp E D S ic kw t Y x0 x1)
    (hw : Watched ivp E ic kw Y x0) (he : EndSeen ivp E ic kw) (h0 : 0 ≤ E.accel Y x0) : ∃ o s m, solve ivp fmtE E ic [] kw = .ok (o, s) ∧ s.inflation_mask = some m := by
  obtain ⟨c, y0, q, res, y, te, ye, hic, hq, hivp, sh, -, hI, hp⟩ := h.run
  obtain ⟨-, w2, -⟩ := hw c y0 q hic hq
  obtain ⟨b, ⟨ev0, hm0, hi0, hd0, hb0⟩, hne⟩ := he c y0 q hic hq
  have hcoll := w2 res t y te ye hivp sh
  have hne := hne res t y te ye hivp sh
  have hE := C91.shipped h.solution
  obtain ⟨o, raw, hs, hg, hev, -⟩ := C90_solve ivp fmtE E hE ic kw c y0 q hic hq hivp sh
  have tI : ∀ x, (C90.view E).inflating x (C90.trunc E.idx.length Y x) = (C90.view E).inflating x (Y x) := fun x => C91.inflating_congr hE C91.trunc_lt x
  have hf := C90.faithful (raw := raw) (fmtE := fmtE) (C90.Integrated.trunc hI hp tI) (fun x i hi => by rw [C90.trunc, if_neg (by omega)]) sh hg hev hp
  have obs : ∃ p, Observed raw.events (ev0.name fmtE) p := by
    obtain ⟨j, hj⟩ := C90.exists_lastAt (List.mem_map_of_mem (f := Event.name fmtE) hm0)
    have hl := hj.lt
    rw [List.length_map] at hl
    obtain ⟨ts, h1⟩ := exists_getElem? (l := te) (j := j) (by rw [sh.te_len]; exact hl)
    obtain ⟨ss, h2⟩ := exists_getElem? (l := ye) (j := j) (by rw [sh.ye_len]; exact hl)
    obtain ⟨ev, hev1, -, hname⟩ := C90.lastAt_event hj
    have same : ((∃ t_i, ev.kind = .inflation t_i) ∧ ev.direction = .neg) ∧ ev.terminal = b := by
      cases b with
      | true => rw [(C24_end_key fmtE ev0).1.2 ⟨⟨hi0, hd0⟩, hb0⟩] at hname; exact (C24_end_key fmtE ev).1.1 hname
      | false => rw [(C24_end_key fmtE ev0).2.2 ⟨⟨hi0, hd0⟩, hb0⟩] at hname; exact (C24_end_key fmtE ev).2.1 hname
    have := hne j ev ts hev1 h1 same.1.1 same.1.2 same.2
    have ho := sh.occ j ts ss h1 h2
    obtain ⟨a, ts', rfl⟩ := List.exists_cons_of_ne_nil this
    obtain ⟨d, ss', rfl⟩ : ∃ d ss', ss = d :: ss' := by
      cases ss with
      | nil => simp at ho
      | cons d l => exact ⟨d, l, rfl⟩
    exact ⟨_, _, (hev _ _).2 ⟨j, _, _, hj, h1, h2, rfl⟩⟩
  have hE : ∃ p, EndPoint raw p := by
    by_cases h1 : Seen raw.events "Inflation_dir-1_term1"
    · obtain ⟨q, hq⟩ := h1; exact ⟨q, Or.inl hq⟩
    · obtain ⟨p, hp⟩ := obs
      cases b with
      | true => rw [(C24_end_key fmtE ev0).1.2 ⟨⟨hi0, hd0⟩, hb0⟩] at hp; exact absurd ⟨p, hp⟩ h1
      | false => rw [(C24_end_key fmtE ev0).2.2 ⟨⟨hi0, hd0⟩, hb0⟩] at hp; exact ⟨p, Or.inr ⟨h1, hp⟩⟩
  obtain ⟨pe, hpe⟩ := hE
  obtain ⟨m, hm⟩ := mask_of_end (s := raw) E.pot.V E.K hf (fun hsn => by
      obtain ⟨p, l, hl⟩ := hsn
      obtain ⟨j, ts, ss, hj, h1, h2, hz⟩ := (hev _ _).1 hl
      obtain ⟨ev, he, -, hn⟩ := C90.lastAt_event hj
      obtain ⟨d, b', v, rfl⟩ := (C24_collapse_key fmtE ev).1 hn
      have := hcoll j _ ts he h1 rfl
      rw [this] at hz
      simp at hz) hpe (by rw [tI]; exact h0)
  exact ⟨o, _, m, hs, hm⟩

section
variable {o : PotOracles} {c : PotClass} {kwp : Kwargs} {p : Pot} (h : construct o c kwp = .ok p) (hg : c.sensible (value kwp)) {E : Eqs} (hE : E.pot = p.fns) (hK : E.K = 0)
  {S : Set ℝ} {Y : ℝ → ℕ → ℝ} {x0 x1 a b γ : ℝ} (hγ : 0 < γ) (hC : Caught (c.formula (value kwp) p.Lambda) (c.domain (value kwp)) (3 * E.hubble Y x0 ^ 2) (Y x0 0) a b γ)

theorem clock_pos (E : Eqs) : ∀ h, 0 < h → 0 < E.clock h := fun h hh => by
  cases E <;> simp [Eqs.clock, hh]

include h hg hE hK hγ hC in
/-- acceleration along the integrated trajectory is bounded -/
theorem along (hS : IsOpen S) (hT : E.Trajectory (c.domain (value kwp)) S Y) (h01 : x0 ≤ x1) (hsub : Icc x0 x1 ⊆ S) (hacc : ∀ x ∈ Icc x0 x1, 0 ≤ E.accel Y x) :
    E.efolds Y x1 - E.efolds Y x0 ≤ maxEfolds a b γ ∧ ((∃ e, E = .T e) → log (1 + E.hubble Y x0 * (x1 - x0)) ≤ E.efolds Y x1 - E.efolds Y x0) := by
  obtain ⟨d1, d2, -⟩ := C97_derivatives h hg
  have eq := C98_equations h hg hE hS hT
  rw [hK] at eq
  have hV : ∀ x ∈ Icc x0 x1, E.velocity Y x ^ 2 ≤ c.formula (value kwp) p.Lambda (Y x 0) := fun x hx => by
    have := hacc x hx
    rw [slow hT (hsub hx), hE, C97_formula h] at this
    linarith
  refine ⟨bound (clock_pos E) hS eq d1 d2 (C98.field_in hT) hsub hV hγ hC h01, fun ⟨e, he⟩ => growth hS eq d1 (C98.field_in hT) hsub hV h01 fun h => by rw [he]; rfl⟩

include h hg hE hK hγ hC in
/-- **C100, `solve` finds the end.**  A run in a flat universe starts accelerating, with the field caught.  If an end of inflation is recorded (for example because it stopped the run), or the run is
longer than `maxEfolds` e-folds, or (in cosmic time) longer than `(e^B - 1)/H`: then `solve` succeeds, the object it returns has the inflationary phase, which begins at the start of the run, and its
`N_tot` is at most `maxEfolds`. -/
theorem _root_.Primpy.C100_found {ivp : SolveIvp} (fmtE : ℝ → String) {ic : ICCall} {kw : SolveKw} {t : List ℝ} {z : ℕ → ℝ} (L : Launched ivp E (c.domain (value kwp)) S ic kw t Y x0 x1 z)
    (hw : Watched ivp E ic kw Y x0) (ha : 0 < E.accel Y x0)
    (hlong : EndSeen ivp E ic kw ∨ maxEfolds a b γ < E.efolds Y x1 - E.efolds Y x0 ∨ ((∃ e, E = .T e) ∧ (exp (maxEfolds a b γ) - 1) / E.hubble Y x0 < x1 - x0)) :
    ∃ r s m xe n, solve ivp fmtE E ic [] kw = .ok (r, s) ∧ s.inflation_mask = some m ∧ ReportedPhase E Y x0 x1 s x0 xe ∧ s.N_tot = some n ∧ n = E.efolds Y xe - E.efolds Y x0 ∧
      0 < n ∧ n ≤ maxEfolds a b γ := by
  have Sd := C98.solved h hg hE L
  have h01 : x0 ≤ x1 := by
    obtain ⟨_, _, _, _, _, _, _, -, -, -, -, -, -, -, hI, -⟩ := L.run
    exact (hI.inside x0 (List.mem_of_mem_head? hI.start)).2
  have hp : 0 < E.hubble Y x0 := (C98_equations h hg hE L.isOpen L.solution).expanding x0 L.start
  have found : ∃ r s m, solve ivp fmtE E ic [] kw = .ok (r, s) ∧ s.inflation_mask = some m := by
    have dec : (∃ x ∈ Icc x0 x1, E.accel Y x < 0) → ∃ r s m, solve ivp fmtE E ic [] kw = .ok (r, s) ∧ s.inflation_mask = some m := fun ⟨x, hx, hn⟩ =>
      C99_delivers fmtE Sd hw le_rfl (hx.1.lt_of_ne fun e => by rw [e] at ha; linarith) hx.2 ha hn
    rcases hlong with he | hl | ⟨hT, hl⟩
    · exact seen ivp fmtE Sd hw he ha.le
    · refine dec ?_
      by_contra hn
      push Not at hn
      exact absurd (along h hg hE hK hγ hC L.isOpen L.solution h01 L.inside hn).1 (not_le.2 hl)
    · refine dec ?_
      by_contra hn
      push Not at hn
      obtain ⟨k1, k2⟩ := along h hg hE hK hγ hC L.isOpen L.solution h01 L.inside hn
      have pp : 0 < 1 + E.hubble Y x0 * (x1 - x0) := by
        have := mul_nonneg hp.le (sub_nonneg.2 h01)
        linarith
      have := (log_le_iff_le_exp pp).1 ((k2 hT).trans k1)
      rw [div_lt_iff₀ hp] at hl
      nlinarith
  obtain ⟨r, s, m, hs, hm⟩ := found
  obtain ⟨sr, cs, I, xb, xe, -, hcs, -, -, -, hI, hph, -, -, hNt, -⟩ := C99.state Sd hs hm
  obtain rfl : xb = x0 := by
    by_contra hne
    have := hph.decelerates x0 le_rfl (hph.ordered.1.lt_of_ne (Ne.symm hne))
    linarith
  refine ⟨r, s, m, xe, _, hs, hm, hph, ?_, rfl, ?_, ?_⟩
  · obtain ⟨k, y0, q, res, y, te, ye, hic, hq, hivp, sh, -⟩ := Sd.run
    obtain ⟨o2, raw, hs2, -⟩ := C90_solve ivp fmtE E (C91.shipped L.solution) ic kw k y0 q hic hq hivp sh
    rw [hs] at hs2
    obtain ⟨-, hraw⟩ := Prod.mk.inj (Except.ok.inj hs2)
    have : s.N_tot = s.fin.N_end.bind fun e => s.start.N_beg.map (e - ·) := by rw [hraw]; rfl
    rw [this, hph.begins, hph.ends]
    rfl
  · have mN : StrictMonoOn (E.efolds Y) S := (C92.facts L.isOpen L.convex L.solution Sd.dV).1
    have := mN L.start (L.inside ⟨hph.ordered.2.1.le, hph.ordered.2.2⟩) hph.ordered.2.1
    linarith
  · exact (along h hg hE hK hγ hC L.isOpen L.solution hph.ordered.2.1.le (fun x hx => L.inside ⟨hx.1, hx.2.trans hph.ordered.2.2⟩) hph.accelerates).1

end
end C100

/-! ## The potentials whose fields are caught -/

namespace C100

/-- how the slope of a potential is bounded -/
theorem caught {V V' : ℝ → ℝ} {D : Set ℝ} {E0 φ0 a b c : ℝ} (h0 : φ0 ∈ Ioo a b) (ha : a ∉ D ∨ V a ≤ 0 ∨ E0 < V a) (hb : b ∉ D ∨ V b ≤ 0 ∨ E0 < V b)
    (hd : ∀ ψ ∈ Ioo a b, HasDerivAt V (V' ψ) ψ) (hs : ∀ ψ ∈ Ioo a b, c * V ψ ≤ |V' ψ|) : Caught V D E0 φ0 a b c where
  here := h0
  wall_a := ha
  wall_b := hb
  slope := fun ψ hψ _ _ => by rw [(hd ψ hψ.2).deriv]; exact hs ψ hψ.2

theorem monomial {Λ P b E0 φ0 : ℝ} {D : Set ℝ} {F : ℝ → ℝ} (hΛ : Λ ≠ 0) (hP : 0 < P) (hF : ∀ ψ, F ψ = Λ ^ 4 * |ψ| ^ P) (hb : 0 < b) (h0 : F φ0 ≤ E0) (hE : E0 < F b) :
    (0 < φ0 → Caught F D E0 φ0 0 b (P / b)) ∧ (φ0 < 0 → Caught F D E0 φ0 (-b) 0 (P / b)) := by
  have A : 0 < Λ ^ 4 := by positivity
  have lt : |φ0| < b := by
    have := h0.trans_lt hE
    rw [hF, hF, mul_lt_mul_iff_right₀ A, abs_of_pos hb] at this
    exact (rpow_lt_rpow_iff (abs_nonneg _) hb.le hP).1 this
  have z : F 0 ≤ 0 := by rw [hF, abs_zero, zero_rpow hP.ne', mul_zero]
  have eF : F = fun ψ => Λ ^ 4 * |ψ| ^ P := funext hF
  have sl : ∀ x, 0 < x → x < b → P / b * (Λ ^ 4 * x ^ P) ≤ Λ ^ 4 * (P * x ^ (P - 1)) := fun x hx hxb => by
    have e : x ^ P = x ^ (P - 1) * x := by rw [← rpow_add_one hx.ne', sub_add_cancel]
    have hp := rpow_pos_of_pos hx (P - 1)
    rw [e, div_mul_eq_mul_div, div_le_iff₀ hb]
    have := mul_le_mul_of_nonneg_left hxb.le (show 0 ≤ P * (Λ ^ 4 * x ^ (P - 1)) by positivity)
    linarith
  constructor
  · intro hp
    refine caught (V' := fun x => Λ ^ 4 * (P * x ^ (P - 1))) ⟨hp, by rwa [abs_of_pos hp] at lt⟩ (.inr (.inl z)) (.inr (.inr hE)) (fun x hx => ?_) fun x hx => ?_
    · have d := (hasDerivAt_rpow_const (p := P) (.inl hx.1.ne')).const_mul (Λ ^ 4)
      refine d.congr_of_eventuallyEq ?_
      filter_upwards [lt_mem_nhds hx.1] with w hw
      rw [hF, abs_of_pos hw]
    · have hq := rpow_pos_of_pos hx.1 (P - 1)
      rw [hF, abs_of_pos hx.1, abs_of_pos (show 0 < Λ ^ 4 * (P * x ^ (P - 1)) by positivity)]
      exact sl x hx.1 hx.2
  · intro hn
    refine caught (V' := fun x => -(Λ ^ 4 * (P * (-x) ^ (P - 1)))) ⟨by rw [abs_of_neg hn] at lt; linarith, hn⟩ (.inr (.inr (by rw [hF, abs_neg, ← hF]; exact hE))) (.inr (.inl z)) (fun x hx => ?_) fun x hx => ?_
    · have hx' : 0 < -x := by linarith [hx.2]
      have d := ((hasDerivAt_rpow_const (p := P) (.inl hx'.ne')).comp x (hasDerivAt_neg x)).const_mul (Λ ^ 4)
      have d : HasDerivAt (fun w => Λ ^ 4 * (-w) ^ P) (-(Λ ^ 4 * (P * (-x) ^ (P - 1)))) x := d.congr_deriv (by ring)
      refine d.congr_of_eventuallyEq ?_
      filter_upwards [gt_mem_nhds hx.2] with w hw
      rw [hF, abs_of_neg hw]
    · have hx' : 0 < -x := by linarith [hx.2]
      have hq := rpow_pos_of_pos hx' (P - 1)
      rw [hF, abs_of_neg hx.2, abs_neg, abs_of_pos (show 0 < Λ ^ 4 * (P * (-x) ^ (P - 1)) by positivity)]
      exact sl (-x) hx' (by linarith [hx.1])

end C100

/-- The power of the field in the monomial potentials -/
def PotClass.power (g : String → ℝ) : PotClass → Option ℝ
  | .monomial => some (g "p")
  | .linear => some 1
  | .quadratic => some 2
  | .cubic => some 3
  | .quartic => some 4
  | _ => none

/-- **C100, monomial potentials** `Λ⁴|φ|ᵖ`: the field is caught between the minimum and the field `b` at which the potential exceeds the energy density, on either side, with `c = p/b`. -/
theorem C100_monomial {c : PotClass} {g : String → ℝ} {P Λ b E0 φ0 : ℝ} (hc : c.power g = some P) (hP : 0 < P) (hΛ : Λ ≠ 0) (hb : 0 < b) (h0 : c.formula g Λ φ0 ≤ E0) (hE : E0 < c.formula g Λ b) :
    (0 < φ0 → Caught (c.formula g Λ) (c.domain g) E0 φ0 0 b (P / b)) ∧ (φ0 < 0 → Caught (c.formula g Λ) (c.domain g) E0 φ0 (-b) 0 (P / b)) := by
  refine C100.monomial hΛ hP (fun ψ => ?_) hb h0 hE
  cases c <;> simp only [PotClass.power, Option.some.injEq, reduceCtorEq] at hc <;> subst hc <;> simp only [PotClass.formula]
  · rw [rpow_one]
  · rw [rpow_ofNat, sq_abs]
  · rw [rpow_ofNat]
  · rw [rpow_ofNat, Even.pow_abs (by decide)]

/-- **C100, the Starobinsky potential**: on the plateau the field is caught below the field `b` at which the potential exceeds the energy density (if there is one), with
`c = 2γ/(e^{γb} - 1)`, `γ = √(2/3)`; on the steep side always, with `c = 2γ`. -/
theorem C100_starobinsky {g : String → ℝ} {Λ b E0 φ0 : ℝ} (hΛ : Λ ≠ 0) (h0 : PotClass.starobinsky.formula g Λ φ0 ≤ E0) (hE : E0 < PotClass.starobinsky.formula g Λ b) :
    (0 < φ0 → 0 < b → Caught (PotClass.starobinsky.formula g Λ) (PotClass.starobinsky.domain g) E0 φ0 0 b (2 * √(2 / 3) / (exp (√(2 / 3) * b) - 1))) ∧
    (φ0 < 0 → b < 0 → Caught (PotClass.starobinsky.formula g Λ) (PotClass.starobinsky.domain g) E0 φ0 b 0 (2 * √(2 / 3))) := by
  obtain ⟨F, hF⟩ : ∃ F, F = PotClass.starobinsky.formula g Λ := ⟨_, rfl⟩
  have h0 : F φ0 ≤ E0 := by rw [hF]; exact h0
  have hE : E0 < F b := by rw [hF]; exact hE
  rw [← hF]
  have γp : 0 < √(2 / 3 : ℝ) := by positivity
  obtain ⟨γ, hγ⟩ : ∃ γ : ℝ, γ = √(2 / 3) := ⟨_, rfl⟩
  have eF : F = fun ψ => Λ ^ 4 * (1 - exp (-γ * ψ)) ^ 2 := by rw [hF, hγ]; rfl
  rw [← hγ] at γp ⊢
  have A : 0 < Λ ^ 4 := by positivity
  have lt : (1 - exp (-γ * φ0)) ^ 2 < (1 - exp (-γ * b)) ^ 2 := by
    have := h0.trans_lt hE
    rw [eF] at this
    exact (mul_lt_mul_iff_right₀ A).1 this
  have z : F 0 ≤ 0 := by rw [eF]; simp
  have d : ∀ ψ, HasDerivAt F (2 * γ * Λ ^ 4 * ((1 - exp (-γ * ψ)) * exp (-γ * ψ))) ψ := fun ψ => by
    have d1 : HasDerivAt (fun ψ => -γ * ψ) (-γ) ψ := by simpa using (hasDerivAt_id ψ).const_mul (-γ)
    have d2 := ((d1.exp.const_sub 1).pow 2).const_mul (Λ ^ 4)
    rw [eF]
    refine d2.congr_deriv ?_
    push_cast; ring
  have e1 : ∀ {ψ}, 0 < ψ → exp (-γ * ψ) < 1 := fun hψ => by rw [exp_lt_one_iff]; nlinarith
  have e2 : ∀ {ψ}, ψ < 0 → 1 < exp (-γ * ψ) := fun hψ => by rw [one_lt_exp_iff]; nlinarith
  constructor
  · intro hp hb
    refine C100.caught ⟨hp, ?_⟩ (.inr (.inl z)) (.inr (.inr hE)) (fun ψ _ => d ψ) fun ψ hψ => ?_
    · have h1 := e1 hp
      have h2 := e1 hb
      have h3 : exp (-γ * b) < exp (-γ * φ0) := by nlinarith
      rw [exp_lt_exp] at h3
      nlinarith
    · have h1 := e1 hψ.1
      have h1p := exp_pos (-γ * ψ)
      have h2 : 1 < exp (γ * b) := by rw [one_lt_exp_iff]; positivity
      rw [abs_of_pos (mul_pos (by positivity) (mul_pos (by linarith) h1p)), eF]
      show _ * (Λ ^ 4 * (1 - exp (-γ * ψ)) ^ 2) ≤ _
      rw [div_mul_eq_mul_div, div_le_iff₀ (by linarith)]
      have h3 : exp (-γ * ψ) * exp (γ * b) ≥ 1 := by
        rw [← exp_add, ge_iff_le, one_le_exp_iff]
        nlinarith [hψ.2]
      have h4 : (1 - exp (-γ * ψ)) ≤ exp (-γ * ψ) * (exp (γ * b) - 1) := by linarith
      have := mul_le_mul_of_nonneg_left h4 (show 0 ≤ 2 * γ * Λ ^ 4 * (1 - exp (-γ * ψ)) from mul_nonneg (by positivity) (by linarith))
      linarith
  · intro hn hb
    refine C100.caught ⟨?_, hn⟩ (.inr (.inr hE)) (.inr (.inl z)) (fun ψ _ => d ψ) fun ψ hψ => ?_
    · have h1 := e2 hn
      have h2 := e2 hb
      have h3 : exp (-γ * φ0) < exp (-γ * b) := by nlinarith
      rw [exp_lt_exp] at h3
      nlinarith
    · have h1 := e2 hψ.2
      have h5 : 2 * γ * Λ ^ 4 * ((1 - exp (-γ * ψ)) * exp (-γ * ψ)) ≤ 0 := by
        have : 0 ≤ 2 * γ * Λ ^ 4 * ((exp (-γ * ψ) - 1) * exp (-γ * ψ)) := mul_nonneg (by positivity) (mul_nonneg (by linarith) (by linarith))
        linarith
      rw [abs_of_nonpos h5, eF]
      show _ * (Λ ^ 4 * (1 - exp (-γ * ψ)) ^ 2) ≤ _
      have := mul_le_mul_of_nonneg_left (show exp (-γ * ψ) - 1 ≤ exp (-γ * ψ) by linarith) (show 0 ≤ 2 * γ * Λ ^ 4 * (exp (-γ * ψ) - 1) from mul_nonneg (by positivity) (by linarith))
      linarith

/-- **C100, natural inflation**: between the minimum `0` and a field `b` below the hilltop `f = phi0` at which the potential exceeds the energy density the field is caught, with
`c = (π/f) cot(πb/(2f))`. -/
theorem C100_natural {g : String → ℝ} {Λ b E0 φ0 : ℝ} (hΛ : Λ ≠ 0) (hb : 0 < b) (hbf : b < g "phi0") (h0 : PotClass.natural.formula g Λ φ0 ≤ E0) (hE : E0 < PotClass.natural.formula g Λ b)
    (hp : 0 < φ0) (hpf : φ0 < g "phi0") :
    Caught (PotClass.natural.formula g Λ) (PotClass.natural.domain g) E0 φ0 0 b (π / g "phi0" * (cos (π * b / (2 * g "phi0")) / sin (π * b / (2 * g "phi0")))) := by
  obtain ⟨F, hF⟩ : ∃ F, F = PotClass.natural.formula g Λ := ⟨_, rfl⟩
  have h0 : F φ0 ≤ E0 := by rw [hF]; exact h0
  have hE : E0 < F b := by rw [hF]; exact hE
  rw [← hF]
  obtain ⟨f, hf⟩ : ∃ f, f = g "phi0" := ⟨_, rfl⟩
  rw [← hf] at hbf hpf ⊢
  have fp : 0 < f := hp.trans hpf
  have A : 0 < Λ ^ 4 := by positivity
  have eF : F = fun ψ => Λ ^ 4 / 2 * (1 - cos (π * ψ / f)) := by rw [hF, hf]; rfl
  have half : ∀ ψ, π * ψ / f = 2 * (π * ψ / (2 * f)) := fun ψ => by field_simp
  have eF2 : ∀ ψ, F ψ = Λ ^ 4 * sin (π * ψ / (2 * f)) ^ 2 := fun ψ => by
    rw [eF]
    show Λ ^ 4 / 2 * (1 - cos (π * ψ / f)) = _
    rw [half, cos_two_mul, sin_sq]; ring
  have rng : ∀ {ψ}, 0 < ψ → ψ < f → 0 < π * ψ / (2 * f) ∧ π * ψ / (2 * f) < π / 2 := fun h1 h2 => by
    constructor
    · positivity
    · rw [div_lt_div_iff₀ (by positivity) two_pos]
      nlinarith [pi_pos]
  have sp : ∀ {ψ}, 0 < ψ → ψ < f → 0 < sin (π * ψ / (2 * f)) ∧ 0 < cos (π * ψ / (2 * f)) := fun h1 h2 =>
    ⟨sin_pos_of_pos_of_lt_pi (rng h1 h2).1 ((rng h1 h2).2.trans (by linarith [pi_pos])), cos_pos_of_mem_Ioo ⟨by linarith [(rng h1 h2).1, pi_pos], (rng h1 h2).2⟩⟩
  have d : ∀ ψ, HasDerivAt F (Λ ^ 4 * (π / f) * (sin (π * ψ / (2 * f)) * cos (π * ψ / (2 * f)))) ψ := fun ψ => by
    have d1 : HasDerivAt (fun ψ => π * ψ / f) (π / f) ψ := by simpa using ((hasDerivAt_id ψ).const_mul π).div_const f
    rw [eF]
    refine ((d1.cos.const_sub 1).const_mul (Λ ^ 4 / 2)).congr_deriv ?_
    rw [half, sin_two_mul]; ring
  have zero : F 0 ≤ 0 := by rw [eF]; simp
  refine C100.caught ⟨hp, ?_⟩ (.inr (.inl zero)) (.inr (.inr hE)) (fun ψ _ => d ψ) fun ψ hψ => ?_
  · have := h0.trans_lt hE
    rw [eF2, eF2, mul_lt_mul_iff_right₀ A] at this
    have h3 := lt_of_pow_lt_pow_left₀ 2 (sp hb hbf).1.le this
    by_contra hn
    have h4 := sin_le_sin_of_le_of_le_pi_div_two (x := π * b / (2 * f)) (y := π * φ0 / (2 * f)) (by linarith [(rng hb hbf).1, pi_pos]) (rng hp hpf).2.le (by
      apply div_le_div_of_nonneg_right _ (by positivity)
      exact mul_le_mul_of_nonneg_left (not_lt.1 hn) pi_pos.le)
    linarith
  · obtain ⟨s1, c1⟩ := sp hψ.1 (hψ.2.trans hbf)
    obtain ⟨s2, c2⟩ := sp hb hbf
    rw [abs_of_pos (by have := pi_pos; positivity), eF2]
    have key : 0 ≤ sin (π * b / (2 * f) - π * ψ / (2 * f)) := by
      refine sin_nonneg_of_nonneg_of_le_pi ?_ ?_
      · rw [sub_nonneg]
        apply div_le_div_of_nonneg_right _ (by positivity)
        exact mul_le_mul_of_nonneg_left hψ.2.le pi_pos.le
      · linarith [(rng hb hbf).2, (rng hψ.1 (hψ.2.trans hbf)).1, pi_pos]
    rw [sin_sub] at key
    generalize sin (π * b / (2 * f)) = sb at *
    generalize cos (π * b / (2 * f)) = cb at *
    generalize sin (π * ψ / (2 * f)) = s at *
    generalize cos (π * ψ / (2 * f)) = k at *
    have : cb / sb * s ≤ k := by rw [div_mul_eq_mul_div, div_le_iff₀ s2]; linarith
    calc π / f * (cb / sb) * (Λ ^ 4 * s ^ 2) = Λ ^ 4 * (π / f) * s * (cb / sb * s) := by ring
      _ ≤ Λ ^ 4 * (π / f) * s * k := mul_le_mul_of_nonneg_left this (by have := pi_pos; positivity)
      _ = _ := by ring

/-- **C100, the T-model** with a positive exponent: the field is caught below the field `b` at which the potential exceeds the energy density, with `c = 4p/(s sinh(2b/s))`, `s = √(6α)`. -/
theorem C100_tmodel {g : String → ℝ} {Λ b E0 φ0 : ℝ} (hΛ : Λ ≠ 0) (hg : PotClass.tmodel.sensible g) (hq : 0 < g "p") (hb : 0 < b) (h0 : PotClass.tmodel.formula g Λ φ0 ≤ E0)
    (hE : E0 < PotClass.tmodel.formula g Λ b) (hp : 0 < φ0) :
    Caught (PotClass.tmodel.formula g Λ) (PotClass.tmodel.domain g) E0 φ0 0 b (4 * g "p" / (√(6 * g "alpha") * sinh (2 * (b / √(6 * g "alpha"))))) := by
  obtain ⟨F, hF⟩ : ∃ F, F = PotClass.tmodel.formula g Λ := ⟨_, rfl⟩
  have h0 : F φ0 ≤ E0 := by rw [hF]; exact h0
  have hE : E0 < F b := by rw [hF]; exact hE
  rw [← hF]
  have hg : 0 < g "alpha" := hg
  obtain ⟨q, hq'⟩ : ∃ q, q = g "p" := ⟨_, rfl⟩
  obtain ⟨w, hw⟩ : ∃ w, w = √(6 * g "alpha") := ⟨_, rfl⟩
  have wp : 0 < w := by rw [hw]; positivity
  have A : 0 < Λ ^ 4 := by positivity
  have eF : ∀ ψ, F ψ = Λ ^ 4 * tanh (ψ / w) ^ (2 * q) := fun ψ => by rw [hF, hw, hq']; rfl
  rw [← hw, ← hq']
  rw [← hq'] at hq
  have tp : ∀ {ψ}, 0 < ψ → 0 < sinh (ψ / w) ∧ 0 < cosh (ψ / w) ∧ 0 < tanh (ψ / w) := fun h => by
    have h1 : 0 < sinh (_ / w) := sinh_pos_iff.2 (div_pos h wp)
    exact ⟨h1, cosh_pos _, by rw [tanh_eq_sinh_div_cosh]; exact div_pos h1 (cosh_pos _)⟩
  refine C100.caught (V' := fun ψ => 2 * q * Λ ^ 4 * (tanh (ψ / w) ^ (2 * q) / (w * (sinh (ψ / w) * cosh (ψ / w))))) ⟨hp, ?_⟩ (.inl (by show ¬ (0 : ℝ) < 0; norm_num)) (.inr (.inr hE)) (fun ψ hψ => ?_) fun ψ hψ => ?_
  · have := h0.trans_lt hE
    rw [eF, eF, mul_lt_mul_iff_right₀ A, rpow_lt_rpow_iff (tp hp).2.2.le (tp hb).2.2.le (by linarith)] at this
    rw [tanh_eq_sinh_div_cosh, tanh_eq_sinh_div_cosh, div_lt_div_iff₀ (cosh_pos _) (cosh_pos _)] at this
    have h1 : 0 < sinh (b / w - φ0 / w) := by rw [sinh_sub]; linarith
    rw [sinh_pos_iff, sub_pos, div_lt_div_iff_of_pos_right wp] at h1
    exact h1
  · obtain ⟨s1, c1, t1⟩ := tp hψ.1
    have d0 : HasDerivAt (fun ψ => ψ / w) (1 / w) ψ := (hasDerivAt_id ψ).div_const w
    have d1 : HasDerivAt (fun ψ => tanh (ψ / w)) (1 / cosh (ψ / w) ^ 2 * (1 / w)) ψ := by
      have := (d0.sinh.div d0.cosh (cosh_pos _).ne')
      have e : (fun ψ => tanh (ψ / w)) = fun ψ => sinh (ψ / w) / cosh (ψ / w) := funext fun ψ => tanh_eq_sinh_div_cosh _
      rw [e]
      refine this.congr_deriv ?_
      have := cosh_sq (ψ / w)
      field_simp
      linarith
    have d2 := (d1.rpow_const (p := 2 * q) (.inl t1.ne')).const_mul (Λ ^ 4)
    rw [show F = fun ψ => Λ ^ 4 * tanh (ψ / w) ^ (2 * q) from funext eF]
    refine d2.congr_deriv ?_
    rw [rpow_sub_one t1.ne']
    have e := tanh_eq_sinh_div_cosh (ψ / w)
    generalize tanh (ψ / w) ^ (2 * q) = r
    rw [e]
    field_simp
  · obtain ⟨s1, c1, t1⟩ := tp hψ.1
    obtain ⟨s2, c2, -⟩ := tp hb
    have rp := rpow_pos_of_pos t1 (2 * q)
    show _ ≤ |2 * q * Λ ^ 4 * (tanh (ψ / w) ^ (2 * q) / (w * (sinh (ψ / w) * cosh (ψ / w))))|
    rw [abs_of_pos (by positivity), eF, sinh_two_mul]
    have hle : ψ / w ≤ b / w := div_le_div_of_nonneg_right hψ.2.le wp.le
    have k1 : sinh (ψ / w) ≤ sinh (b / w) := sinh_le_sinh.2 hle
    have k2 : cosh (ψ / w) ≤ cosh (b / w) := by
      rw [cosh_le_cosh, abs_of_pos (div_pos hψ.1 wp), abs_of_pos (div_pos hb wp)]; exact hle
    have k := mul_le_mul k1 k2 c1.le s2.le
    generalize tanh (ψ / w) ^ (2 * q) = r at *
    calc 4 * q / (w * (2 * sinh (b / w) * cosh (b / w))) * (Λ ^ 4 * r) = 2 * q * Λ ^ 4 * (r / (w * (sinh (b / w) * cosh (b / w)))) := by field_simp; ring
      _ ≤ _ := by
        refine mul_le_mul_of_nonneg_left ?_ (by positivity)
        exact div_le_div_of_nonneg_left rp.le (by positivity) (mul_le_mul_of_nonneg_left k wp.le)

/-- the exponent of the radion-gauge potentials -/
def PotClass.gauge (g : String → ℝ) : PotClass → Option ℝ
  | .radionGauge => some (g "p")
  | .radionGauge2 => some 2
  | _ => none

/-- **C100, radion gauge inflation** `Λ⁴ φᵖ/(α + φᵖ)`: the field is caught below the field `b` at which the potential exceeds the energy density, with `c = pα/(b(α + bᵖ))`. -/
theorem C100_radion {c : PotClass} {g : String → ℝ} {P Λ b E0 φ0 : ℝ} (hc : c.gauge g = some P) (hP : 0 < P) (hg : 0 < g "alpha") (hΛ : Λ ≠ 0) (hb : 0 < b) (h0 : c.formula g Λ φ0 ≤ E0)
    (hE : E0 < c.formula g Λ b) (hp : 0 < φ0) : Caught (c.formula g Λ) (c.domain g) E0 φ0 0 b (P * g "alpha" / (b * (g "alpha" + b ^ P))) := by
  have w0 : (0 : ℝ) ∉ c.domain g := by
    cases c <;> simp [PotClass.gauge] at hc <;> simp [PotClass.domain]
  have eF : ∀ ψ, c.formula g Λ ψ = Λ ^ 4 * ψ ^ P / (g "alpha" + ψ ^ P) := fun ψ => by
    cases c <;> simp only [PotClass.gauge, Option.some.injEq, reduceCtorEq] at hc <;> subst hc <;> simp only [PotClass.formula]
    rw [rpow_ofNat]
  obtain ⟨F, hF⟩ : ∃ F : ℝ → ℝ, ∀ ψ, c.formula g Λ ψ = F ψ := ⟨_, fun _ => rfl⟩
  simp only [hF] at h0 hE eF ⊢
  generalize g "alpha" = α at *
  have A : 0 < Λ ^ 4 := by positivity
  have pw : ∀ {ψ : ℝ}, 0 < ψ → 0 < ψ ^ P := fun h => rpow_pos_of_pos h P
  refine C100.caught (V' := fun ψ => P * α * (Λ ^ 4 * ψ ^ P) / (ψ * (α + ψ ^ P) ^ 2)) ⟨hp, ?_⟩ (.inl w0) (.inr (.inr hE)) (fun ψ hψ => ?_) fun ψ hψ => ?_
  · have h1 := pw hp
    have h2 := pw hb
    have := h0.trans_lt hE
    rw [eF, eF, div_lt_div_iff₀ (by positivity) (by positivity)] at this
    have h3 : φ0 ^ P < b ^ P := by
      by_contra hn
      rw [not_lt] at hn
      have := mul_le_mul_of_nonneg_left hn (mul_pos A hg).le
      nlinarith
    exact (rpow_lt_rpow_iff hp.le hb.le hP).1 h3
  · have h1 := pw hψ.1
    have d1 := hasDerivAt_rpow_const (p := P) (.inl hψ.1.ne' : ψ ≠ 0 ∨ 1 ≤ P)
    have d2 := (d1.const_mul (Λ ^ 4)).div (d1.const_add α) (by positivity)
    rw [show F = fun ψ => Λ ^ 4 * ψ ^ P / (α + ψ ^ P) from funext eF]
    refine d2.congr_deriv ?_
    rw [rpow_sub_one hψ.1.ne']
    have := hψ.1
    field_simp
    ring
  · have h1 := pw hψ.1
    have h2 := pw hb
    have h3 := hψ.1
    show _ ≤ |P * α * (Λ ^ 4 * ψ ^ P) / (ψ * (α + ψ ^ P) ^ 2)|
    rw [abs_of_pos (by positivity), eF]
    have k : ψ * (α + ψ ^ P) ≤ b * (α + b ^ P) := mul_le_mul hψ.2.le (by have := rpow_le_rpow hψ.1.le hψ.2.le hP.le; linarith) (by positivity) hb.le
    calc P * α / (b * (α + b ^ P)) * (Λ ^ 4 * ψ ^ P / (α + ψ ^ P)) ≤ P * α / (ψ * (α + ψ ^ P)) * (Λ ^ 4 * ψ ^ P / (α + ψ ^ P)) :=
          mul_le_mul_of_nonneg_right (div_le_div_of_nonneg_left (by positivity) (by positivity) k) (by positivity)
      _ = _ := by field_simp

/-- the exponent of the double wells -/
def PotClass.well (g : String → ℝ) : PotClass → Option ℝ
  | .doubleWell => some (g "p")
  | .doubleWell2 => some 2
  | .doubleWell4 => some 4
  | _ => none

/-- **C100, double wells** `Λ⁴ (1 - (1 - φ/f)ᵖ)²`, `p ≥ 1`: between the minimum `0` and a field `b` below the hilltop `f = phi0` at which the potential exceeds the energy density the field is caught,
with `c = 2p uᵖ⁻¹/(f(1 - uᵖ))`, `u = 1 - b/f`. -/
theorem C100_doublewell {c : PotClass} {g : String → ℝ} {P Λ b E0 φ0 : ℝ} (hc : c.well g = some P) (hP : 1 ≤ P) (hΛ : Λ ≠ 0) (hb : 0 < b) (hbf : b < g "phi0") (h0 : c.formula g Λ φ0 ≤ E0)
    (hE : E0 < c.formula g Λ b) (hp : 0 < φ0) (hpf : φ0 < g "phi0") :
    Caught (c.formula g Λ) (c.domain g) E0 φ0 0 b (2 * P * (1 - b / g "phi0") ^ (P - 1) / (g "phi0" * (1 - (1 - b / g "phi0") ^ P))) := by
  have eF : ∀ ψ, c.formula g Λ ψ = Λ ^ 4 * (1 - (1 - ψ / g "phi0") ^ P) ^ 2 := fun ψ => by
    cases c <;> simp only [PotClass.well, Option.some.injEq, reduceCtorEq] at hc <;> subst hc <;> simp only [PotClass.formula]
    all_goals rw [rpow_ofNat]
  obtain ⟨F, hF⟩ : ∃ F : ℝ → ℝ, ∀ ψ, c.formula g Λ ψ = F ψ := ⟨_, fun _ => rfl⟩
  simp only [hF] at h0 hE eF ⊢
  generalize g "phi0" = f at *
  have fp : 0 < f := hp.trans hpf
  have P0 : 0 < P := by linarith
  have A : 0 < Λ ^ 4 := by positivity
  have up : ∀ {ψ : ℝ}, 0 < ψ → ψ < f → 0 < 1 - ψ / f ∧ 1 - ψ / f < 1 ∧ 0 < (1 - ψ / f) ^ P ∧ (1 - ψ / f) ^ P < 1 := fun {ψ} h1 h2 => by
    have a1 : 0 < 1 - ψ / f := by rw [sub_pos, div_lt_one fp]; exact h2
    have a2 : 1 - ψ / f < 1 := by have := div_pos h1 fp; linarith
    exact ⟨a1, a2, rpow_pos_of_pos a1 P, rpow_lt_one a1.le a2 P0⟩
  have z : F 0 ≤ 0 := by rw [eF]; simp
  refine C100.caught (V' := fun ψ => 2 * P * Λ ^ 4 * (1 - (1 - ψ / f) ^ P) * (1 - ψ / f) ^ (P - 1) / f) ⟨hp, ?_⟩ (.inr (.inl z)) (.inr (.inr hE)) (fun ψ hψ => ?_) fun ψ hψ => ?_
  · obtain ⟨a1, a2, a3, a4⟩ := up hp hpf
    obtain ⟨b1, b2, b3, b4⟩ := up hb hbf
    have := h0.trans_lt hE
    rw [eF, eF, mul_lt_mul_iff_right₀ A] at this
    have h3 := lt_of_pow_lt_pow_left₀ 2 (by linarith) this
    have h4 := (rpow_lt_rpow_iff b1.le a1.le P0).1 (show (1 - b / f) ^ P < (1 - φ0 / f) ^ P by linarith)
    have h5 : φ0 / f < b / f := by linarith
    exact (div_lt_div_iff_of_pos_right fp).1 h5
  · obtain ⟨a1, a2, a3, a4⟩ := up hψ.1 (hψ.2.trans hbf)
    have d0 : HasDerivAt (fun ψ => 1 - ψ / f) (-(1 / f)) ψ := ((hasDerivAt_id ψ).div_const f).const_sub 1
    have d1 := (((d0.rpow_const (p := P) (.inl a1.ne')).const_sub 1).pow 2).const_mul (Λ ^ 4)
    rw [show F = fun ψ => Λ ^ 4 * (1 - (1 - ψ / f) ^ P) ^ 2 from funext eF]
    refine d1.congr_deriv ?_
    push_cast
    field_simp
  · obtain ⟨a1, a2, a3, a4⟩ := up hψ.1 (hψ.2.trans hbf)
    obtain ⟨b1, b2, b3, b4⟩ := up hb hbf
    have u1 := rpow_pos_of_pos a1 (P - 1)
    have u2 := rpow_pos_of_pos b1 (P - 1)
    have lt : 1 - b / f < 1 - ψ / f := by
      have := (div_lt_div_iff_of_pos_right fp).2 hψ.2
      linarith
    have k1 : (1 - b / f) ^ (P - 1) ≤ (1 - ψ / f) ^ (P - 1) := rpow_le_rpow b1.le lt.le (by linarith)
    have k2 : (1 - b / f) ^ P ≤ (1 - ψ / f) ^ P := rpow_le_rpow b1.le lt.le P0.le
    have k3 : 0 < 1 - (1 - ψ / f) ^ P := by linarith
    have k4 : 0 < 1 - (1 - b / f) ^ P := by linarith
    show _ ≤ |2 * P * Λ ^ 4 * (1 - (1 - ψ / f) ^ P) * (1 - ψ / f) ^ (P - 1) / f|
    rw [abs_of_pos (by positivity), eF]
    generalize (1 - ψ / f) ^ P = r at *
    generalize (1 - b / f) ^ P = rb at *
    generalize (1 - ψ / f) ^ (P - 1) = w at *
    generalize (1 - b / f) ^ (P - 1) = wb at *
    rw [div_mul_eq_mul_div, div_le_div_iff₀ (by positivity) fp]
    have : wb * (1 - r) ≤ w * (1 - rb) := mul_le_mul k1 (by linarith) k3.le u1.le
    have := mul_le_mul_of_nonneg_left this (show 0 ≤ 2 * P * Λ ^ 4 * (1 - r) * f by positivity)
    linarith

/-! ## The universe that never stops is excluded -/

namespace C100
section
variable {o : PotOracles} {c : PotClass} {kwp : Kwargs} {p : Pot} (h : construct o c kwp = .ok p) (hg : c.sensible (value kwp))
include h hg

/-- **C100, no eternal inflation**: a solution of the equations in cosmic time that exists for all times, of a flat universe with the field caught, decelerates at some time. -/
theorem _root_.Primpy.C100_forever {e : InflT} (hE : e.pot = p.fns) (hK : e.K = 0) {S : Set ℝ} (hS : IsOpen S) {Y : ℝ → ℕ → ℝ} (hT : (Eqs.T e).Trajectory (c.domain (value kwp)) S Y)
    {x0 a b γ : ℝ} (hsub : Ici x0 ⊆ S) (hγ : 0 < γ) (hC : Caught (c.formula (value kwp) p.Lambda) (c.domain (value kwp)) (3 * (Eqs.T e).hubble Y x0 ^ 2) (Y x0 0) a b γ) :
    ∃ x > x0, (Eqs.T e).accel Y x < 0 := by
  by_contra hn
  push Not at hn
  have hp : 0 < (Eqs.T e).hubble Y x0 := (C98_equations h hg (E := .T e) hE hS hT).expanding x0 (hsub self_mem_Ici)
  obtain ⟨d, hd⟩ : ∃ d, d = |(exp (maxEfolds a b γ) - 1) / (Eqs.T e).hubble Y x0| + 1 := ⟨_, rfl⟩
  have d0 : 0 < d := by rw [hd]; positivity
  have cont : ContinuousAt ((Eqs.T e).accel Y) x0 := by
    obtain ⟨d1, -⟩ := C97_derivatives h hg
    have u := C98_equations h hg (E := .T e) hE hS hT
    have x0S := hsub self_mem_Ici
    have c1 := ContinuousAt.comp (f := fun x => Y x 0) (d1 _ (C98.field_in hT x0 x0S)).continuousAt (u.field x0 x0S).continuousAt
    have c2 := (u.kleinGordon x0 x0S).continuousAt
    have c3 := c1.sub (c2.pow 2)
    refine c3.congr ?_
    filter_upwards [hS.mem_nhds x0S] with w hw
    rw [slow hT hw]
    show c.formula (value kwp) p.Lambda (Y w 0) - _ = e.pot.V (Y w 0) - _
    rw [hE, C97_formula h]
    rfl
  have all : ∀ x ∈ Icc x0 (x0 + d), 0 ≤ (Eqs.T e).accel Y x := fun x hx => by
    rcases hx.1.lt_or_eq with h1 | rfl
    · exact hn x h1
    · by_contra h2
      push Not at h2
      obtain ⟨w, hw1, hw2⟩ := (((cont.tendsto.mono_left (nhdsWithin_le_nhds (s := Ioi x0))).eventually (gt_mem_nhds h2)).and self_mem_nhdsWithin).exists
      exact absurd hw1 (not_lt.2 (hn w hw2))
  obtain ⟨k1, k2⟩ := along h hg (E := .T e) hE hK hγ hC hS hT (by linarith) (fun x hx => hsub hx.1) all
  have k2 := (k2 ⟨e, rfl⟩).trans k1
  rw [add_sub_cancel_left] at k2
  have := (log_le_iff_le_exp (by positivity)).1 k2
  have l := le_abs_self ((exp (maxEfolds a b γ) - 1) / (Eqs.T e).hubble Y x0)
  have : (exp (maxEfolds a b γ) - 1) / (Eqs.T e).hubble Y x0 < d := by rw [hd]; linarith
  rw [div_lt_iff₀ hp] at this
  linarith

/-- **C100, from the initial state to the end of inflation**: if the potential is smooth and nowhere negative (`quadratic`, `starobinsky`, `natural`), then from every accelerating initial state of
a flat universe with the field caught, the equations in cosmic time have a solution for all later times; it accelerates up to a time `t1`, and not all the time after; and until then the universe
expands by at most `maxEfolds` e-folds. -/
theorem _root_.Primpy.C100_global (hdom : c.domain (value kwp) = univ) (hV : ∀ φ, 0 ≤ c.formula (value kwp) p.Lambda φ) (track_eta : Bool) (t0 : ℝ) {y0 : ℕ → ℝ}
    (hacc : y0 1 ^ 2 < c.formula (value kwp) p.Lambda (y0 0)) {a b γ : ℝ} (hγ : 0 < γ)
    (hC : Caught (c.formula (value kwp) p.Lambda) univ (y0 1 ^ 2 / 2 + c.formula (value kwp) p.Lambda (y0 0)) (y0 0) a b γ) :
    ∃ (s : ℝ) (Y : ℝ → ℕ → ℝ) (t1 : ℝ), s < t0 ∧ (∀ i < (InflT.mk 0 p.fns track_eta).rows, Y t0 i = y0 i) ∧
      (Eqs.T ⟨0, p.fns, track_eta⟩).Trajectory (c.domain (value kwp)) (Ioi s) Y ∧ t0 < t1 ∧ (∀ t ∈ Ico t0 t1, 0 < (Eqs.T ⟨0, p.fns, track_eta⟩).accel Y t) ∧
      (Eqs.T ⟨0, p.fns, track_eta⟩).accel Y t1 = 0 ∧ (∃ t > t1, (Eqs.T ⟨0, p.fns, track_eta⟩).accel Y t < 0) ∧ Y t1 2 - Y t0 2 ≤ maxEfolds a b γ := by
  obtain ⟨d1, d2, d3, -⟩ := C97_derivatives h hg
  rw [hdom] at d1 d2 d3
  have eV : c.formula (value kwp) p.Lambda = p.fns.V := funext fun φ => (C97_formula h φ).symm
  rw [eV] at d1
  have eV' : ∀ φ, c.formula (value kwp) p.Lambda φ = p.fns.V φ := fun φ => (C97_formula h φ).symm
  have hV : ∀ φ, 0 ≤ p.fns.V φ := fun φ => (eV' φ) ▸ hV φ
  rw [eV'] at hacc
  obtain ⟨e, he⟩ : ∃ e : InflT, e = ⟨0, p.fns, track_eta⟩ := ⟨_, rfl⟩
  have eK : e.K = 0 := by rw [he]
  have eP : e.pot = p.fns := by rw [he]
  rw [← he]
  have H0 : e.H2 y0 = (y0 1 ^ 2 / 2 + p.fns.V (y0 0)) / 3 := by
    rw [he]
    simp only [InflT.H2, T.get_H2, InflT.V, InflT.phi, InflT.dphidt, InflT._N]
    ring
  have H0p : 0 < e.H2 y0 := by rw [H0]; nlinarith [sq_nonneg (y0 1)]
  obtain ⟨s, hs, Y, hi, sol, hH⟩ := C76_time (e := e) eK.le (by rw [eP]; exact d1) (by rw [eP]; exact d2) (by rw [eP]; exact d3) (by rw [eP]; exact hV) t0 y0 H0p
  have r3 : 3 ≤ e.rows := by rw [InflT.rows_eq]; split_ifs <;> omega
  have i0 := hi 0 (by omega)
  have i1 := hi 1 (by omega)
  have i2 := hi 2 (by omega)
  have hT : (Eqs.T e).Trajectory (c.domain (value kwp)) (Ioi s) Y := ⟨sol, hH, fun x _ => by rw [hdom]; trivial⟩
  have hsub : Ici t0 ⊆ Ioi s := fun x hx => hs.trans_le hx
  have hub : 3 * (Eqs.T e).hubble Y t0 ^ 2 = y0 1 ^ 2 / 2 + c.formula (value kwp) p.Lambda (y0 0) := by
    have hh : e.H2 (Y t0) = e.H2 y0 := by
      simp only [InflT.H2, T.get_H2, InflT.V, InflT.phi, InflT.dphidt, InflT._N, i0, i1, i2]
    show 3 * √(e.H2 (Y t0)) ^ 2 = _
    rw [sq_sqrt (by rw [hh]; exact H0p.le), hh, H0, eV']
    ring
  have hC' : Caught (c.formula (value kwp) p.Lambda) (c.domain (value kwp)) (3 * (Eqs.T e).hubble Y t0 ^ 2) (Y t0 0) a b γ := by rw [hub, i0, hdom]; exact hC
  obtain ⟨td, htd, hneg⟩ := C100_forever h hg (e := e) eP eK isOpen_Ioi hT hsub hγ hC'
  have ac : ∀ t, (Eqs.T e).accel Y t = p.fns.V (Y t 0) - Y t 1 ^ 2 := fun t => by
    show e.pot.V (Y t 0) - Y t 1 ^ 2 = _
    rw [eP]
  have cont : ContinuousOn ((Eqs.T e).accel Y) (Ioi s) := fun x hx => by
    have u := C98_equations h hg (E := .T e) eP isOpen_Ioi hT
    have c1 := ContinuousAt.comp (f := fun x => Y x 0) (d1 (Y x 0) (mem_univ _)).continuousAt (u.field x hx).continuousAt
    have c3 := c1.sub ((u.kleinGordon x hx).continuousAt.pow 2)
    rw [show (Eqs.T e).accel Y = fun t => p.fns.V (Y t 0) - Y t 1 ^ 2 from funext ac]
    exact c3.continuousWithinAt
  have a0 : 0 < (Eqs.T e).accel Y t0 := by rw [ac, i0, i1]; linarith
  -- the first time at which the acceleration is over
  have Zc : IsCompact (Icc t0 td ∩ (Eqs.T e).accel Y ⁻¹' Iic 0) :=
    isCompact_Icc.of_isClosed_subset ((cont.mono fun x hx => hsub hx.1).preimage_isClosed_of_isClosed isClosed_Icc isClosed_Iic) inter_subset_left
  obtain ⟨t1, ⟨⟨h1, h2⟩, h3⟩, hmin⟩ := Zc.exists_isLeast ⟨td, ⟨htd.le, le_rfl⟩, hneg.le⟩
  have h3 : (Eqs.T e).accel Y t1 ≤ 0 := h3
  have lt : t0 < t1 := h1.lt_of_ne fun hh => by rw [← hh] at h3; linarith
  have pos : ∀ t ∈ Ico t0 t1, 0 < (Eqs.T e).accel Y t := fun t ht => by
    by_contra hn
    exact absurd (hmin ⟨⟨ht.1, ht.2.le.trans h2⟩, not_lt.1 hn⟩) (not_le.2 ht.2)
  have zero : (Eqs.T e).accel Y t1 = 0 := by
    refine le_antisymm h3 ?_
    have ct : ContinuousWithinAt ((Eqs.T e).accel Y) (Iio t1) t1 := (cont.continuousAt (isOpen_Ioi.mem_nhds (hsub h1))).continuousWithinAt
    refine ge_of_tendsto ct.tendsto ?_
    filter_upwards [Ico_mem_nhdsLT lt] with w hw
    exact (pos w hw).le
  have tt : t1 < td := h2.lt_of_ne fun hh => by rw [hh] at zero; linarith
  refine ⟨s, Y, t1, hs, hi, hT, lt, pos, zero, ⟨td, tt, hneg⟩, ?_⟩
  exact (along h hg (E := .T e) eP eK hγ hC' isOpen_Ioi hT h1 (fun x hx => hsub hx.1) fun x hx => by
    rcases hx.2.lt_or_eq with h4 | h4
    · exact (pos x ⟨hx.1, h4⟩).le
    · rw [h4, zero]).1

end
end C100
namespace C100.Ex

/-! ## The hypotheses are met

`QuadraticPotential(Lambda=1)`, at rest at `φ = 20`: the universe exists for all times (C76), and inflation ends.  The run is stopped by the terminal `InflationEvent(direction=-1)`, at `t1`. -/

noncomputable def st (Y : ℝ → ℕ → ℝ) (t : ℝ) : List ℝ := [Y t 0, Y t 1, Y t 2]
noncomputable def grid (t1 : ℝ) : List ℝ := [0, t1]
noncomputable def rows (t1 : ℝ) (Y : ℝ → ℕ → ℝ) : List (List ℝ) := [(grid t1).map fun t => Y t 0, (grid t1).map fun t => Y t 1, (grid t1).map fun t => Y t 2]
noncomputable def te (t1 : ℝ) : List (List ℝ) := [[t1]]
noncomputable def ye (t1 : ℝ) (Y : ℝ → ℕ → ℝ) : List (List (List ℝ)) := [[st Y t1]]
noncomputable def res (t1 : ℝ) (Y : ℝ → ℕ → ℝ) : Dict Attr := [("t", .arr (grid t1)), ("y", .rows (rows t1 Y)), ("t_events", .tEvents (te t1)), ("y_events", .yEvents (ye t1 Y))]
noncomputable def ivp (t1 : ℝ) (Y : ℝ → ℕ → ℝ) : SolveIvp := fun _ _ => .ok (res t1 Y)
def events : List Event := [⟨.inflation none, .neg, true, 0⟩]
def kw : SolveKw := ⟨some events, none, none, none, []⟩
/-- an initial condition that asks for `φ = 20` at rest, and to integrate up to `t = 10⁴` -/
noncomputable def ic : ICCall := fun _ _ _ _ =>
  .ok (⟨20, some 0, none, 10000, 400, 0, some 0, none, none, none⟩, fun i => if i = 0 then some 20 else some 0)

section
variable {P : PotFns} {t1 : ℝ} (h1 : 0 < t1) {Y : ℝ → ℕ → ℝ} {s : ℝ} (hs : s < 0) (hi : ∀ i < (InflT.mk 0 P false).rows, Y 0 i = if i = 0 then 20 else 0)
  (hT : (C98.Ex.E P).Trajectory univ (Ioi s) Y) (hb : ∀ t ∈ Ico 0 t1, 0 < (C98.Ex.E P).accel Y t) (h0 : (C98.Ex.E P).accel Y t1 = 0)

theorem shape : IvpShape (C98.Ex.E P).idx.length 1 (res t1 Y) (grid t1) (rows t1 Y) (te t1) (ye t1 Y) where
  t_ne := by simp [grid]
  get_t := rfl
  get_y := rfl
  get_te := rfl
  get_ye := rfl
  rows := rfl
  cols := by simp [rows]
  te_len := rfl
  ye_len := rfl
  occ := fun j ts ss h1 h2 => by
    match j with
    | j + 1 => simp [te] at h1
    | 0 =>
      simp only [te, ye, List.getElem?_cons_zero, Option.some.injEq] at h1 h2
      subst h1 h2; rfl
  states := by
    intro v hv s hs
    simp only [ye, List.mem_singleton] at hv
    subst hv
    rw [List.mem_singleton] at hs
    subst hs; rfl

include h1 hb h0 in
theorem integrated : Integrated (C90.view (C98.Ex.E P)) (C98.Ex.E P).idx.length events Y 0 t1 (grid t1) (rows t1 Y) (te t1) (ye t1 Y) where
  start := rfl
  inside := by
    intro x hx
    simp only [grid, List.mem_cons, List.not_mem_nil, or_false] at hx
    rcases hx with rfl | rfl <;> constructor <;> linarith
  sampled := fun j x hx i hi => by
    rw [C98.Ex.rows3] at hi
    match j with
    | 0 => simp only [grid, List.getElem?_cons_zero, Option.some.injEq] at hx; subst hx; interval_cases i <;> rfl
    | 1 => simp only [grid, List.getElem?_cons_succ, List.getElem?_cons_zero, Option.some.injEq] at hx; subst hx; interval_cases i <;> rfl
    | j + 2 => simp [grid] at hx
  stated := fun j ts ss h1 h2 a x s h3 h4 i hi => by
    rw [C98.Ex.rows3] at hi
    match j with
    | j + 1 => simp [te] at h1
    | 0 =>
      simp only [te, ye, List.getElem?_cons_zero, Option.some.injEq] at h1 h2
      subst h1 h2
      match a with
      | a + 1 => simp at h3
      | 0 =>
        simp only [List.getElem?_cons_zero, Option.some.injEq] at h3 h4
        subst h3 h4
        interval_cases i <;> rfl
  detected := fun j ev ts h2 h3 _ _ => by
    match j with
    | j + 1 => simp [te] at h3
    | 0 =>
      simp only [te, events, List.getElem?_cons_zero, Option.some.injEq] at h2 h3
      subst h2 h3
      have key : Detects ((C98.Ex.E P).accel Y) 0 t1 (-1) [t1] := by
        refine ⟨by simp, fun c hc => ?_, fun a b k1 hab k2 k3 k4 => ?_⟩
        · rw [List.mem_singleton] at hc
          subst hc
          refine ⟨h1, le_rfl, h0, ⟨0, le_rfl, h1, fun x hx hx0 => ?_⟩, fun h => absurd h (lt_irrefl _)⟩
          have := hb x hx; linarith
        · rcases k2.lt_or_eq with k | rfl
          · have := hb b ⟨by linarith, k⟩; linarith
          · rw [h0] at k4; linarith
      have key : Detects (fun x => (C90.view (C98.Ex.E P)).inflating x (Y x)) 0 t1 (-1) [t1] := key
      simpa [Event.call, Direction.val] using key
  stopped := fun j ev ts h2 h3 _ c hc => by
    match j with
    | j + 1 => simp [te] at h3
    | 0 =>
      simp only [te, List.getElem?_cons_zero, Option.some.injEq] at h3
      subst h3
      exact List.mem_singleton.1 hc

theorem plain : PlainInflation events := by
  intro ev hm _
  rw [events, List.mem_singleton] at hm
  subst hm
  exact ⟨rfl, rfl⟩

include h1 hs hi hT hb h0 in
theorem launched : Launched (ivp t1 Y) (C98.Ex.E P) univ (Ioi s) ic kw (grid t1) Y 0 t1 (fun i => if i = 0 then 20 else 0) where
  run := ⟨_, _, _, res t1 Y, rows t1 Y, te t1, ye t1 Y, rfl, requested (C98.Ex.E P) kw _ _, rfl, fun i hl => ⟨by show (if i = 0 then some (20 : ℝ) else some 0) = _; split_ifs <;> rfl, hi i hl⟩, rfl, shape, rfl, integrated h1 hb h0, plain⟩
  curvature := .inl rfl
  isOpen := isOpen_Ioi
  convex := convex_Ioi _
  solution := hT
  start := hs
  inside := fun x hx => hs.trans_le hx.1
  density := by
    have h : 0 < (C90.view (C98.Ex.E P)).H2 0 (Y 0) := hT.2.1 0 hs
    have eK : (C98.Ex.E P).K = 0 := rfl
    rw [eK, zero_mul, add_zero]
    exact h
  sorted := by simp [grid, h1]
  clean := fun h => by
    have := hb 0 ⟨le_rfl, h1⟩
    linarith

include h1 hb in
theorem watched : Watched (ivp t1 Y) (C98.Ex.E P) ic kw Y 0 := by
  intro c y0 q _ hq
  have he : q.events = [⟨.inflation none, .neg, true, 0⟩] := hq.events.1 _ rfl
  refine ⟨by rw [he]; exact ⟨_, List.mem_singleton_self _, ⟨_, rfl⟩, rfl⟩, ?_, .inl (hb _ ⟨le_rfl, h1⟩).le⟩
  intro res t y te ye _ _ j ev ts k1 _ k3
  rw [he] at k1
  match j with
  | j + 1 => simp at k1
  | 0 =>
    simp only [List.getElem?_cons_zero, Option.some.injEq] at k1
    rw [← k1] at k3
    cases k3

theorem endSeen : EndSeen (ivp t1 Y) (C98.Ex.E P) ic kw := by
  intro c y0 q _ hq
  have he : q.events = [⟨.inflation none, .neg, true, 0⟩] := hq.events.1 _ rfl
  refine ⟨true, by rw [he]; exact ⟨_, List.mem_singleton_self _, ⟨_, rfl⟩, rfl, rfl⟩, ?_⟩
  intro r t y te' ye hr sh j ev ts k1 k2 _ _ _
  obtain rfl : res t1 Y = r := Except.ok.inj hr
  have := sh.get_te
  have k : te t1 = te' := Attr.tEvents.inj (Option.some.inj (Eq.trans rfl this))
  rw [← k] at k2
  match j with
  | j + 1 => simp [te] at k2
  | 0 =>
    simp only [te, List.getElem?_cons_zero, Option.some.injEq] at k2
    rw [← k2]; simp

end

theorem caught20 : Caught (fun φ : ℝ => φ ^ 2) univ 400 20 0 21 (2 / 21) := by
  have := (C100_monomial (c := .quadratic) (g := fun _ => 0) (P := 2) (Λ := 1) (b := 21) (E0 := 400) (φ0 := 20) rfl two_pos one_ne_zero (by norm_num)
    (by show (1 : ℝ) ^ 4 * 20 ^ 2 ≤ 400; norm_num) (by show (400 : ℝ) < 1 ^ 4 * 21 ^ 2; norm_num)).1 (by norm_num)
  have e : PotClass.quadratic.formula (fun _ => 0) 1 = fun φ : ℝ => φ ^ 2 := funext fun φ => by show (1 : ℝ) ^ 4 * φ ^ 2 = _; ring
  rwa [e] at this

/-- `C100_global`, `C100_found` and through them `C100_forever` and `C100_monomial` apply: from rest at `φ = 20`, inflation ends, the integration stops there, and `solve` returns an object with the
inflationary phase, which begins at `N = 0` and lasts for at most 1366 e-folds. -/
example (o : PotOracles) (fmtE : ℝ → String) : ∃ (kwp : Kwargs) (p : Pot) (ivp : SolveIvp) (r : Dict Attr) (s : InflSol) (n : ℝ), construct o .quadratic kwp = .ok p ∧
    solve ivp fmtE (.T ⟨0, p.fns, false⟩) ic [] kw = .ok (r, s) ∧ s.inflation_mask ≠ none ∧ s.start.N_beg = some 0 ∧ s.N_tot = some n ∧ 0 < n ∧ n < 1366 := by
  obtain ⟨kwp, p, hkw, hp, hf⟩ := C98.Ex.built o
  have ef : PotClass.quadratic.formula (value kwp) p.Lambda = fun φ => φ ^ 2 := funext hf
  have hg : PotClass.quadratic.sensible (value kwp) := trivial
  obtain ⟨y0, hy0⟩ : ∃ y0 : ℕ → ℝ, y0 = fun i => if i = 0 then 20 else 0 := ⟨_, rfl⟩
  have a0 : y0 0 = 20 := by rw [hy0]; rfl
  have a1 : y0 1 = 0 := by rw [hy0]; rfl
  have E0 : y0 1 ^ 2 / 2 + PotClass.quadratic.formula (value kwp) p.Lambda (y0 0) = 400 := by rw [hf, a0, a1]; norm_num
  obtain ⟨s, Y, t1, hs, hi, hT, h1, hb, h0, -, -⟩ := C100_global hp hg rfl (fun φ => by rw [hf]; positivity) false 0 (y0 := y0) (by rw [hf, a0, a1]; norm_num) (a := 0) (b := 21) (γ := 2 / 21) (by norm_num)
    (by rw [E0, ef, a0]; exact caught20)
  rw [hy0] at hi
  have hT : (C98.Ex.E p.fns).Trajectory univ (Ioi s) Y := hT
  have L : Launched (ivp t1 Y) (C98.Ex.E p.fns) (PotClass.quadratic.domain (value kwp)) (Ioi s) ic kw (grid t1) Y 0 t1 (fun i => if i = 0 then 20 else 0) := launched h1 hs hi hT hb h0
  have i0 : Y 0 0 = 20 := hi 0 (by rw [InflT.rows_eq]; norm_num)
  have i1 : Y 0 1 = 0 := hi 1 (by rw [InflT.rows_eq]; norm_num)
  have i2 : Y 0 2 = 0 := hi 2 (by rw [InflT.rows_eq]; norm_num)
  have hub : 3 * (C98.Ex.E p.fns).hubble Y 0 ^ 2 = 400 := by
    have hh := hT.2.1 0 hs
    have hh : 0 < (InflT.mk 0 p.fns false).H2 (Y 0) := hh
    show 3 * √((InflT.mk 0 p.fns false).H2 (Y 0)) ^ 2 = _
    rw [sq_sqrt hh.le]
    simp only [InflT.H2, T.get_H2, InflT.V, InflT.phi, InflT.dphidt, InflT._N, i0, i1, i2]
    have : p.fns.V 20 = 400 := by rw [C97_formula hp, hf]; norm_num
    rw [this]; norm_num
  obtain ⟨r, sol, m, xe, n, hsol, hm, hph, hn, -, hn0, hle⟩ := C100_found hp hg (E := C98.Ex.E p.fns) rfl rfl (γ := 2 / 21) (a := 0) (b := 21) (by norm_num)
    (by rw [hub, ef, i0]; exact caught20) fmtE L (watched h1 hb) (hb 0 ⟨le_rfl, h1⟩) (.inl endSeen)
  refine ⟨kwp, p, ivp t1 Y, r, sol, n, hp, hsol, by rw [hm]; simp, ?_, hn, hn0, hle.trans_lt ?_⟩
  · rw [hph.begins]
    exact congrArg some i2
  · rw [maxEfolds]; norm_num

end C100.Ex
end Primpy
