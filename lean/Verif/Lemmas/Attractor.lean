import Verif.Spec.Background
import Mathlib.Analysis.Calculus.Deriv.MeanValue
import Mathlib.Analysis.Calculus.Deriv.Inverse
import Mathlib.Analysis.Calculus.Deriv.Pow
import Mathlib.Analysis.SpecialFunctions.ExpDeriv
import Mathlib.Topology.Order.MonotoneContinuity
import Mathlib.Topology.Order.IntermediateValue

/-!
# Comparing two flat universes in the same potential at equal field values
-/

namespace Primpy
open Real Set Spec Topology Filter

/-- A flat scalar-field universe in the potential `V`, with any time variable: `r = dt/dx` is the rate of cosmic time, `p = dφ/dt`. -/
structure Rolling (S : Set ℝ) (V N φ p H r : ℝ → ℝ) : Prop where
  velocity : ∀ x ∈ S, HasDerivAt φ (p x * r x) x
  hubble : ∀ x ∈ S, HasDerivAt N (H x * r x) x
  raychaudhuri : ∀ x ∈ S, HasDerivAt H (-(p x ^ 2) / 2 * r x) x
  friedmann : ∀ x ∈ S, 3 * H x ^ 2 = p x ^ 2 / 2 + V (φ x)
  expanding : ∀ x ∈ S, 0 < H x
  rate : ∀ x ∈ S, 0 < r x
  cont_p : ContinuousOn p S
  cont_r : ContinuousOn r S

theorem Rolling.reflect {S : Set ℝ} {V N φ p H r : ℝ → ℝ} (u : Rolling S V N φ p H r) : Rolling S (fun v => V (-v)) N (fun x => -φ x) (fun x => -p x) H r where
  velocity x hx := (u.velocity x hx).fun_neg.congr_deriv (by ring)
  hubble := u.hubble
  raychaudhuri x hx := (u.raychaudhuri x hx).congr_deriv (by ring)
  friedmann x hx := by rw [u.friedmann x hx, neg_neg]; ring
  expanding := u.expanding
  rate := u.rate
  cont_p := u.cont_p.neg
  cont_r := u.cont_r

/-- matching two strictly decreasing functions by their values -/
theorem exists_match {S1 S2 : Set ℝ} (o1 : IsOpen S1) (o2 : IsOpen S2) (c2 : Convex ℝ S2) {f g f' g' : ℝ → ℝ} (hf : ∀ x ∈ S1, HasDerivAt f (f' x) x)
    (hg : ∀ x ∈ S2, HasDerivAt g (g' x) x) (hf' : ∀ x ∈ S1, f' x < 0) (hg' : ∀ x ∈ S2, g' x < 0) {a b a2 b2 : ℝ} (c1 : Convex ℝ S1) (ha : a ∈ S1) (hb : b ∈ S1) (hab : a ≤ b)
    (ha2 : a2 ∈ S2) (hb2 : b2 ∈ S2) (hfa : f a = g a2) (hfb : f b = g b2) :
    ∃ ψ : ℝ → ℝ, ψ a = a2 ∧ ψ b = b2 ∧ ∀ x ∈ Icc a b, ψ x ∈ S2 ∧ g (ψ x) = f x ∧ HasDerivAt ψ (f' x / g' (ψ x)) x := by
  have ganti : StrictAntiOn g S2 := strictAntiOn_of_deriv_neg c2 (fun x hx => (hg x hx).continuousAt.continuousWithinAt)
    (fun x hx => by rw [(hg x (interior_subset hx)).deriv]; exact hg' x (interior_subset hx))
  have fanti : StrictAntiOn f S1 := strictAntiOn_of_deriv_neg c1 (fun x hx => (hf x hx).continuousAt.continuousWithinAt)
    (fun x hx => by rw [(hf x (interior_subset hx)).deriv]; exact hf' x (interior_subset hx))
  obtain ⟨i, hi⟩ : ∃ i, i = Function.invFunOn g S2 := ⟨_, rfl⟩
  have im : ∀ v ∈ g '' S2, i v ∈ S2 ∧ g (i v) = v := fun v hv => by
    rw [hi]; exact ⟨Function.invFunOn_mem hv, Function.invFunOn_eq hv⟩
  have il : ∀ s ∈ S2, i (g s) = s := fun s hs => by
    obtain ⟨h1, h2⟩ := im (g s) ⟨s, hs, rfl⟩
    exact ganti.injOn h1 hs h2
  have himage : i '' (g '' S2) = S2 := by
    ext s
    constructor
    · rintro ⟨v, hv, rfl⟩; exact (im v hv).1
    · intro hs; exact ⟨g s, ⟨s, hs, rfl⟩, il s hs⟩
  have opn : ∀ v ∈ g '' S2, g '' S2 ∈ 𝓝 v := by
    rintro v ⟨s, hs, rfl⟩
    obtain ⟨ε, hε, hball⟩ := Metric.isOpen_iff.1 o2 s hs
    have m1 : s - ε / 2 ∈ S2 := hball (by rw [Metric.mem_ball, Real.dist_eq]; rw [abs_lt]; constructor <;> linarith)
    have m2 : s + ε / 2 ∈ S2 := hball (by rw [Metric.mem_ball, Real.dist_eq]; rw [abs_lt]; constructor <;> linarith)
    have hsub : Icc (s - ε / 2) (s + ε / 2) ⊆ S2 := c2.ordConnected.out m1 m2
    have := intermediate_value_Icc' (by linarith : s - ε / 2 ≤ s + ε / 2) (fun x hx => (hg x (hsub hx)).continuousAt.continuousWithinAt)
    refine mem_of_superset (Icc_mem_nhds (ganti hs m2 (by linarith)) (ganti m1 hs (by linarith))) (this.trans (image_mono hsub))
  have icont : ∀ v ∈ g '' S2, ContinuousAt i v := by
    intro v hv
    have hneg : StrictMonoOn (fun v => -i v) (g '' S2) := by
      rintro _ ⟨s, hs, rfl⟩ _ ⟨t, ht, rfl⟩ hlt
      simp only [il s hs, il t ht]
      have : t < s := by
        by_contra h
        rcases (not_lt.1 h).lt_or_eq with k | k
        · exact absurd (ganti hs ht k) (not_lt.2 hlt.le)
        · rw [k] at hlt; exact lt_irrefl _ hlt
      linarith
    have h2 : (fun v => -i v) '' (g '' S2) ∈ 𝓝 (-i v) := by
      have : (fun v => -i v) '' (g '' S2) = Neg.neg ⁻¹' S2 := by
        ext s
        constructor
        · rintro ⟨w, hw, rfl⟩; simpa using (im w hw).1
        · intro hs; exact ⟨g (-s), ⟨-s, hs, rfl⟩, by simp only [il (-s) hs, neg_neg]⟩
      rw [this]
      refine (o2.preimage continuous_neg).mem_nhds ?_
      simpa using (im v hv).1
    have h3 := hneg.continuousAt_of_image_mem_nhds (opn v hv) h2
    have h4 : ContinuousAt (fun v => - -i v) v := h3.neg
    simpa only [neg_neg] using h4
  have ider : ∀ v ∈ g '' S2, HasDerivAt i (g' (i v))⁻¹ v := fun v hv =>
    HasDerivAt.of_local_left_inverse (icont v hv) (hg _ (im v hv).1) (hg' _ (im v hv).1).ne (by filter_upwards [opn v hv] with w hw using (im w hw).2)
  have hrange : ∀ x ∈ Icc a b, f x ∈ g '' S2 := by
    intro x hx
    have hxS : x ∈ S1 := c1.ordConnected.out ha hb hx
    have h1 : f x ≤ f a := fanti.antitoneOn ha hxS hx.1
    have h2 : f b ≤ f x := fanti.antitoneOn hxS hb hx.2
    have hle : a2 ≤ b2 := by
      by_contra h
      have := ganti hb2 ha2 (not_le.1 h)
      rw [← hfa, ← hfb] at this
      have := fanti.antitoneOn ha hb hab
      linarith
    have hsub : Icc a2 b2 ⊆ S2 := c2.ordConnected.out ha2 hb2
    have := intermediate_value_Icc' hle (fun x hx => (hg x (hsub hx)).continuousAt.continuousWithinAt)
    rw [hfa] at h1; rw [hfb] at h2
    exact image_mono hsub (this ⟨h2, h1⟩)
  refine ⟨fun x => i (f x), ?_, ?_, fun x hx => ?_⟩
  · simp only [hfa, il a2 ha2]
  · simp only [hfb, il b2 hb2]
  · have hv := hrange x hx
    refine ⟨(im _ hv).1, (im _ hv).2, ?_⟩
    have := (ider (f x) hv).comp x (hf x (c1.ordConnected.out ha hb hx))
    exact this.congr_deriv (by rw [div_eq_inv_mul])

theorem monotoneOn_Icc {f f' : ℝ → ℝ} {a b : ℝ} (hf : ∀ x ∈ Icc a b, HasDerivAt f (f' x) x) (h : ∀ x ∈ Icc a b, 0 ≤ f' x) : MonotoneOn f (Icc a b) :=
  monotoneOn_of_deriv_nonneg (convex_Icc a b) (fun x hx => (hf x hx).continuousAt.continuousWithinAt)
    (fun x hx => (hf x (interior_subset hx)).differentiableAt.differentiableWithinAt) (fun x hx => by rw [(hf x (interior_subset hx)).deriv]; exact h x (interior_subset hx))

theorem antitoneOn_Icc {f f' : ℝ → ℝ} {a b : ℝ} (hf : ∀ x ∈ Icc a b, HasDerivAt f (f' x) x) (h : ∀ x ∈ Icc a b, f' x ≤ 0) : AntitoneOn f (Icc a b) :=
  antitoneOn_of_deriv_nonpos (convex_Icc a b) (fun x hx => (hf x hx).continuousAt.continuousWithinAt)
    (fun x hx => (hf x (interior_subset hx)).differentiableAt.differentiableWithinAt) (fun x hx => by rw [(hf x (interior_subset hx)).deriv]; exact h x (interior_subset hx))

/-- a solution of a linear homogeneous equation keeps its sign -/
theorem linear_sign {δ μ : ℝ → ℝ} {a b : ℝ} (hab : a ≤ b) (hδ : ∀ x ∈ Icc a b, HasDerivAt δ (-(μ x * δ x)) x) (hμ : ContinuousOn μ (Icc a b)) (h0 : 0 ≤ δ a) :
    ∀ x ∈ Icc a b, 0 ≤ δ x := by
  obtain ⟨M, hM⟩ := isCompact_Icc.exists_bound_of_continuousOn hμ
  have hM' : ∀ x ∈ Icc a b, μ x ≤ M ∧ -M ≤ μ x := fun x hx => by
    have := hM x hx; rw [Real.norm_eq_abs, abs_le] at this; exact ⟨this.2, this.1⟩
  have ex : ∀ c x : ℝ, HasDerivAt (fun x => exp (c * x)) (c * exp (c * x)) x := fun c x => by
    have := (((hasDerivAt_id x).const_mul c).exp); simpa [mul_comm] using this
  have hsq : ∀ c, ∀ x ∈ Icc a b, HasDerivAt (fun x => δ x ^ 2 * exp (c * x)) ((c - 2 * μ x) * (δ x ^ 2 * exp (c * x))) x := fun c x hx =>
    (((hδ x hx).fun_pow 2).fun_mul (ex c x)).congr_deriv (by push_cast; ring)
  rcases h0.lt_or_eq with hpos | hz
  · have hm := monotoneOn_Icc (hsq (2 * M)) (fun x hx => mul_nonneg (by linarith [(hM' x hx).1]) (by positivity))
    have nz : ∀ x ∈ Icc a b, δ x ≠ 0 := fun x hx h => by
      have h1 := hm (left_mem_Icc.2 hab) hx hx.1
      simp only [h] at h1
      have : 0 < δ a ^ 2 * exp (2 * M * a) := by positivity
      norm_num at h1
      linarith
    intro x hx
    by_contra hn
    push Not at hn
    have hsub : Icc a x ⊆ Icc a b := Icc_subset_Icc_right hx.2
    obtain ⟨z, hz, hz0⟩ := intermediate_value_Icc' hx.1 (fun z hz => (hδ z (hsub hz)).continuousAt.continuousWithinAt) ⟨hn.le, hpos.le⟩
    exact nz z (hsub hz) hz0
  · have hm := antitoneOn_Icc (hsq (-(2 * M))) (fun x hx => mul_nonpos_of_nonpos_of_nonneg (by linarith [(hM' x hx).2]) (by positivity))
    intro x hx
    have h1 := hm (left_mem_Icc.2 hab) hx hx.1
    simp only [← hz] at h1
    norm_num at h1
    have h2 : 0 < exp (-(2 * M * x)) := exp_pos _
    have h3 : δ x ^ 2 ≤ 0 := by
      by_contra h
      have := mul_pos (not_le.1 h) h2
      linarith
    have : δ x = 0 := by nlinarith [sq_nonneg (δ x)]
    exact this.ge

/-- of two universes at the same point of a non-negative potential the one with the larger Hubble rate moves faster per e-fold -/
theorem faster_per_efold {H1 H2 p1 p2 v : ℝ} (h1 : 0 < H1) (h2 : 0 < H2) (f1 : 3 * H1 ^ 2 = p1 ^ 2 / 2 + v) (f2 : 3 * H2 ^ 2 = p2 ^ 2 / 2 + v) (hv : 0 ≤ v) (hp1 : p1 < 0)
    (hp2 : p2 < 0) (h : H2 ≤ H1) : H1 * (-p2) ≤ H2 * (-p1) := by
  have : (H1 * (-p2)) ^ 2 ≤ (H2 * (-p1)) ^ 2 := by
    have e1 : p1 ^ 2 = 6 * H1 ^ 2 - 2 * v := by linarith
    have e2 : p2 ^ 2 = 6 * H2 ^ 2 - 2 * v := by linarith
    have e3 : (H1 * (-p2)) ^ 2 = H1 ^ 2 * p2 ^ 2 := by ring
    have e4 : (H2 * (-p1)) ^ 2 = H2 ^ 2 * p1 ^ 2 := by ring
    rw [e3, e4, e1, e2]
    have : H2 ^ 2 ≤ H1 ^ 2 := pow_le_pow_left₀ h2.le h 2
    nlinarith
  exact abs_le_of_sq_le_sq' this (mul_nonneg h2.le (by linarith)) |>.2

/-- **The attractor.**  Two flat universes roll down the same non-negative potential between the same two field values; the first one has the larger Hubble rate at the
beginning.  Then it has the larger one at the end, it takes fewer e-folds, and the difference has shrunk by `e^{-3}` per e-fold. -/
theorem Rolling.attractor {S1 S2 : Set ℝ} {V N1 φ1 p1 H1 r1 N2 φ2 p2 H2 r2 : ℝ → ℝ} (o1 : IsOpen S1) (c1 : Convex ℝ S1) (o2 : IsOpen S2) (c2 : Convex ℝ S2)
    (u1 : Rolling S1 V N1 φ1 p1 H1 r1) (u2 : Rolling S2 V N2 φ2 p2 H2 r2) (d1 : ∀ x ∈ S1, p1 x < 0) (d2 : ∀ x ∈ S2, p2 x < 0) {a1 b1 a2 b2 : ℝ} (ha1 : a1 ∈ S1) (hb1 : b1 ∈ S1) (ha2 : a2 ∈ S2) (hb2 : b2 ∈ S2) (hab : a1 ≤ b1)
    (ea : φ1 a1 = φ2 a2) (eb : φ1 b1 = φ2 b2) (hV : ∀ x ∈ Icc a1 b1, 0 ≤ V (φ1 x)) (h0 : H2 a2 ≤ H1 a1) :
    H2 b2 ≤ H1 b1 ∧ H1 b1 - H2 b2 ≤ exp (-3 * (N1 b1 - N1 a1)) * (H1 a1 - H2 a2) ∧ N1 b1 - N1 a1 ≤ N2 b2 - N2 a2 := by
  have neg1 : ∀ x ∈ S1, p1 x * r1 x < 0 := fun x hx => mul_neg_of_neg_of_pos (d1 x hx) (u1.rate x hx)
  have neg2 : ∀ x ∈ S2, p2 x * r2 x < 0 := fun x hx => mul_neg_of_neg_of_pos (d2 x hx) (u2.rate x hx)
  obtain ⟨ψ, hψa, hψb, hψ⟩ := exists_match o1 o2 c2 u1.velocity u2.velocity neg1 neg2 c1 ha1 hb1 hab ha2 hb2 ea eb
  have hI : ∀ x ∈ Icc a1 b1, x ∈ S1 := fun x hx => c1.ordConnected.out ha1 hb1 hx
  obtain ⟨μ, hμ⟩ : ∃ μ : ℝ → ℝ, μ = fun x => 3 * r1 x * p1 x * (H1 x + H2 (ψ x)) / (p1 x + p2 (ψ x)) := ⟨_, rfl⟩
  -- the two Friedmann constraints at equal field values
  have fr : ∀ x ∈ Icc a1 b1, 3 * H2 (ψ x) ^ 2 = p2 (ψ x) ^ 2 / 2 + V (φ1 x) := fun x hx => by
    have := u2.friedmann (ψ x) (hψ x hx).1; rw [(hψ x hx).2.1] at this; exact this
  have hδ : ∀ x ∈ Icc a1 b1, HasDerivAt (fun x => H1 x - H2 (ψ x)) (-(μ x * (H1 x - H2 (ψ x)))) x := fun x hx => by
    obtain ⟨hm, -, hd⟩ := hψ x hx
    refine ((u1.raychaudhuri x (hI x hx)).fun_sub ((u2.raychaudhuri (ψ x) hm).comp x hd)).congr_deriv ?_
    have q1 := d1 x (hI x hx)
    have q2 := d2 (ψ x) hm
    have q3 := u2.rate (ψ x) hm
    have f1 := u1.friedmann x (hI x hx)
    have f2 := fr x hx
    have hs : p1 x + p2 (ψ x) ≠ 0 := by linarith
    have key : 3 * (H1 x + H2 (ψ x)) * (H1 x - H2 (ψ x)) = (p1 x + p2 (ψ x)) * (p1 x - p2 (ψ x)) / 2 := by nlinarith
    rw [hμ]
    dsimp only
    have e1 : -(3 * r1 x * p1 x * (H1 x + H2 (ψ x)) / (p1 x + p2 (ψ x)) * (H1 x - H2 (ψ x))) =
        -(r1 x * p1 x * (3 * (H1 x + H2 (ψ x)) * (H1 x - H2 (ψ x))) / (p1 x + p2 (ψ x))) := by ring
    rw [e1, key]
    have := q2.ne
    have := q3.ne'
    field_simp
    ring
  have hcψ : ContinuousOn ψ (Icc a1 b1) := fun x hx => (hψ x hx).2.2.continuousAt.continuousWithinAt
  have hmaps : MapsTo ψ (Icc a1 b1) S2 := fun x hx => (hψ x hx).1
  have hH1c : ContinuousOn H1 (Icc a1 b1) := fun x hx => (u1.raychaudhuri x (hI x hx)).continuousAt.continuousWithinAt
  have hH2c : ContinuousOn (fun x => H2 (ψ x)) (Icc a1 b1) := ContinuousOn.comp (t := S2) (g := H2)
    (fun x hx => (u2.raychaudhuri x hx).continuousAt.continuousWithinAt) hcψ hmaps
  have hp2c : ContinuousOn (fun x => p2 (ψ x)) (Icc a1 b1) := ContinuousOn.comp (t := S2) u2.cont_p hcψ hmaps
  have hμc : ContinuousOn μ (Icc a1 b1) := by
    rw [hμ]
    refine ContinuousOn.div ?_ ((u1.cont_p.mono hI).add hp2c) fun x hx => ?_
    · exact ((continuousOn_const.mul (u1.cont_r.mono hI)).mul (u1.cont_p.mono hI)).mul (hH1c.add hH2c)
    · have := d1 x (hI x hx); have := d2 _ (hψ x hx).1; linarith
  have hpos : ∀ x ∈ Icc a1 b1, 0 ≤ H1 x - H2 (ψ x) := linear_sign hab hδ hμc (by rw [hψa]; linarith)
  have fast : ∀ x ∈ Icc a1 b1, H1 x * (-p2 (ψ x)) ≤ H2 (ψ x) * (-p1 x) := fun x hx =>
    faster_per_efold (u1.expanding x (hI x hx)) (u2.expanding _ (hψ x hx).1) (u1.friedmann x (hI x hx)) (fr x hx) (hV x hx) (d1 x (hI x hx))
      (d2 _ (hψ x hx).1) (by linarith [hpos x hx])
  have hb := right_mem_Icc.2 hab
  have ha := left_mem_Icc.2 hab
  refine ⟨by have := hpos b1 hb; rw [hψb] at this; linarith, ?_, ?_⟩
  · have hanti := antitoneOn_Icc (f := fun x => (H1 x - H2 (ψ x)) * exp (3 * N1 x)) (f' := fun x => (3 * H1 x * r1 x - μ x) * ((H1 x - H2 (ψ x)) * exp (3 * N1 x)))
      (fun x hx => ((hδ x hx).fun_mul ((u1.hubble x (hI x hx)).const_mul 3).exp).congr_deriv (by ring)) (fun x hx => by
        refine mul_nonpos_of_nonpos_of_nonneg ?_ (mul_nonneg (hpos x hx) (exp_pos _).le)
        have q1 := d1 x (hI x hx)
        have q2 := d2 (ψ x) (hψ x hx).1
        have f := fast x hx
        have hr := u1.rate x (hI x hx)
        rw [sub_nonpos, hμ]
        dsimp only
        rw [le_div_iff_of_neg (by linarith)]
        have : 3 * r1 x * (p1 x * (H1 x + H2 (ψ x))) ≤ 3 * r1 x * (H1 x * (p1 x + p2 (ψ x))) := mul_le_mul_of_nonneg_left (by linarith) (by linarith)
        linarith)
    have h := hanti ha hb hab
    dsimp only at h
    rw [hψa, hψb] at h
    have e : exp (-3 * (N1 b1 - N1 a1)) = exp (3 * N1 a1) / exp (3 * N1 b1) := by rw [← exp_sub]; ring_nf
    rw [e, div_mul_eq_mul_div, le_div_iff₀ (exp_pos _)]
    linarith
  · have hmono := monotoneOn_Icc (f := fun x => N2 (ψ x) - N1 x) (f' := fun x => H2 (ψ x) * r2 (ψ x) * (p1 x * r1 x / (p2 (ψ x) * r2 (ψ x))) - H1 x * r1 x)
      (fun x hx => ((u2.hubble (ψ x) (hψ x hx).1).comp x (hψ x hx).2.2).fun_sub (u1.hubble x (hI x hx))) (fun x hx => by
        have q2 := d2 (ψ x) (hψ x hx).1
        have hr2 := u2.rate (ψ x) (hψ x hx).1
        have hr := u1.rate x (hI x hx)
        have f := fast x hx
        have e : H2 (ψ x) * r2 (ψ x) * (p1 x * r1 x / (p2 (ψ x) * r2 (ψ x))) - H1 x * r1 x = r1 x * ((H2 (ψ x) * (-p1 x) - H1 x * (-p2 (ψ x))) / (-p2 (ψ x))) := by
          have := q2.ne; have := hr2.ne'
          field_simp
          ring
        rw [e]
        exact mul_nonneg hr.le (div_nonneg (by linarith) (by linarith)))
    have h := hmono ha hb hab
    dsimp only at h
    rw [hψa, hψb] at h
    linarith

/-- The attractor, rolling in either direction; the faster universe stays the faster one. -/
theorem Rolling.attractor' {S1 S2 : Set ℝ} {V N1 φ1 p1 H1 r1 N2 φ2 p2 H2 r2 : ℝ → ℝ} (o1 : IsOpen S1) (c1 : Convex ℝ S1) (o2 : IsOpen S2) (c2 : Convex ℝ S2)
    (u1 : Rolling S1 V N1 φ1 p1 H1 r1) (u2 : Rolling S2 V N2 φ2 p2 H2 r2)
    (dir : ((∀ x ∈ S1, p1 x < 0) ∧ ∀ x ∈ S2, p2 x < 0) ∨ ((∀ x ∈ S1, 0 < p1 x) ∧ ∀ x ∈ S2, 0 < p2 x)) {a1 b1 a2 b2 : ℝ} (ha1 : a1 ∈ S1) (hb1 : b1 ∈ S1)
    (ha2 : a2 ∈ S2) (hb2 : b2 ∈ S2) (hab : a1 ≤ b1) (ea : φ1 a1 = φ2 a2) (eb : φ1 b1 = φ2 b2) (hV : ∀ x ∈ Icc a1 b1, 0 ≤ V (φ1 x)) (h0 : H2 a2 ≤ H1 a1) :
    H2 b2 ≤ H1 b1 ∧ H1 b1 - H2 b2 ≤ exp (-3 * (N1 b1 - N1 a1)) * (H1 a1 - H2 a2) ∧ |p2 b2| ≤ |p1 b1| ∧ N1 b1 - N1 a1 ≤ N2 b2 - N2 a2 := by
  have key : H2 b2 ≤ H1 b1 ∧ H1 b1 - H2 b2 ≤ exp (-3 * (N1 b1 - N1 a1)) * (H1 a1 - H2 a2) ∧ N1 b1 - N1 a1 ≤ N2 b2 - N2 a2 := by
    rcases dir with ⟨d1, d2⟩ | ⟨d1, d2⟩
    · exact u1.attractor o1 c1 o2 c2 u2 d1 d2 ha1 hb1 ha2 hb2 hab ea eb hV h0
    · exact u1.reflect.attractor o1 c1 o2 c2 u2.reflect (fun x hx => neg_neg_of_pos (d1 x hx)) (fun x hx => neg_neg_of_pos (d2 x hx)) ha1 hb1 ha2 hb2 hab
        (congrArg Neg.neg ea) (congrArg Neg.neg eb) (fun x hx => by rw [neg_neg]; exact hV x hx) h0
  refine ⟨key.1, key.2.1, ?_, key.2.2⟩
  have f1 := u1.friedmann b1 hb1
  have f2 := u2.friedmann b2 hb2
  rw [eb] at f1
  have : H2 b2 ^ 2 ≤ H1 b1 ^ 2 := pow_le_pow_left₀ (u2.expanding b2 hb2).le key.1 2
  exact sq_le_sq.1 (by linarith)

end Primpy
