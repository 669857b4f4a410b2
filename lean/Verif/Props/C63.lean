import Verif.Props.C47
import Verif.Props.C50
import Verif.Props.C51
import Mathlib.MeasureTheory.Integral.IntervalIntegral.FundThmCalculus
import Mathlib.Analysis.Calculus.Deriv.Star

/-!
# C63: the matched mode is the solution with the vacuum state, at all times
-/

namespace Primpy
open Real Spec
namespace Pert

/-- `M (f g' - f' g)` is constant for two solutions `f`, `g`, if `M' = 2 γ M` (Abel). -/
theorem abel {S : Set ℝ} {M γ ω2 : ℝ → ℝ} (hS : IsOpen S) (hc : IsPreconnected S)
    (hM : ∀ t ∈ S, HasDerivAt M (M t * (2 * γ t)) t) {f f1 f2 g g1 g2 : ℝ → ℂ} (hf : Twice S f f1 f2) (hg : Twice S g g1 g2)
    (of : ∀ t ∈ S, oscillator ω2 γ f f1 f2 t = 0) (og : ∀ t ∈ S, oscillator ω2 γ g g1 g2 t = 0) {x y : ℝ} (hx : x ∈ S) (hy : y ∈ S) :
    (M x : ℂ) * (f x * g1 x - f1 x * g x) = M y * (f y * g1 y - f1 y * g y) := by
  have key : ∀ t ∈ S, HasDerivAt (fun t => (M t : ℂ) * (f t * g1 t - f1 t * g t)) 0 t := by
    intro t ht
    have h := (hM t ht).ofReal_comp.mul (((hf.first t ht).mul (hg.second t ht)).sub ((hf.second t ht).mul (hg.first t ht)))
    refine h.congr_deriv ?_
    have e1 := of t ht
    have e2 := og t ht
    simp only [oscillator] at e1 e2
    simp only [Pi.sub_apply, Pi.mul_apply]
    push_cast
    linear_combination (M t : ℂ) * f t * e2 - (M t : ℂ) * g t * e1
  exact hS.is_const_of_deriv_eq_zero hc (fun t ht => (key t ht).differentiableAt.differentiableWithinAt)
    (fun t ht => (key t ht).deriv) hx hy

theorem exists_weight {S : Set ℝ} {γ : ℝ → ℝ} (hS : IsOpen S) (hc : IsPreconnected S) (hγ : ContinuousOn γ S) {t0 : ℝ} (h0 : t0 ∈ S) :
    ∃ M : ℝ → ℝ, ∀ t ∈ S, 0 < M t ∧ HasDerivAt M (M t * (2 * γ t)) t := by
  refine ⟨fun t => exp (∫ x in t0..t, 2 * γ x), fun t ht => ⟨exp_pos _, ?_⟩⟩
  have hsub : Set.uIcc t0 t ⊆ S := hc.ordConnected.uIcc_subset h0 ht
  have hc2 : ContinuousOn (fun x => 2 * γ x) S := continuousOn_const.mul hγ
  have hi : IntervalIntegrable (fun x => 2 * γ x) MeasureTheory.volume t0 t := (hc2.mono hsub).intervalIntegrable
  have hd := intervalIntegral.integral_hasDerivAt_right hi
    (hc2.stronglyMeasurableAtFilter hS t ht) (hc2.continuousAt (hS.mem_nhds ht))
  exact hd.exp

/-- **C63, the matching coefficients do not depend on where they are computed.**  Two solutions of a mode equation with continuous
damping, independent at one point, and a third solution `u`, on an open interval: the coefficients computed by
`_get_coefficients_a_b` are finite and the same at every point, and the combination is `u`, with its derivative, everywhere. -/
theorem C63_matching {S : Set ℝ} {γ ω2 : ℝ → ℝ} (hS : IsOpen S) (hc : IsPreconnected S) (hγ : ContinuousOn γ S)
    {u u1 u2 y y1 y2 z z1 z2 : ℝ → ℂ} (hu : Twice S u u1 u2) (hy : Twice S y y1 y2) (hz : Twice S z z1 z2)
    (ou : ∀ t ∈ S, oscillator ω2 γ u u1 u2 t = 0) (oy : ∀ t ∈ S, oscillator ω2 γ y y1 y2 t = 0)
    (oz : ∀ t ∈ S, oscillator ω2 γ z z1 z2 t = 0) {t0 : ℝ} (h0 : t0 ∈ S) (hW : y t0 * z1 t0 - y1 t0 * z t0 ≠ 0) :
    ∃ a b : ℂ, ∀ t ∈ S, coefficients (u t) (u1 t) (y t) (y1 t) (z t) (z1 t) = (some a, some b) ∧
      u t = a * y t + b * z t ∧ u1 t = a * y1 t + b * z1 t := by
  obtain ⟨M, hM⟩ := exists_weight hS hc hγ h0
  have hM' : ∀ t ∈ S, HasDerivAt M (M t * (2 * γ t)) t := fun t ht => (hM t ht).2
  have hne : ∀ t ∈ S, (M t : ℂ) ≠ 0 := fun t ht => by exact_mod_cast (hM t ht).1.ne'
  refine ⟨(u t0 * z1 t0 - u1 t0 * z t0) / (y t0 * z1 t0 - y1 t0 * z t0), (u t0 * y1 t0 - u1 t0 * y t0) / (z t0 * y1 t0 - z1 t0 * y t0),
    fun t ht => ?_⟩
  have w1 := abel hS hc hM' hy hz oy oz ht h0
  have w2 := abel hS hc hM' hu hz ou oz ht h0
  have w3 := abel hS hc hM' hu hy ou oy ht h0
  have hm0 := hne t0 h0
  have hmt := hne t ht
  have hWt : y t * z1 t - y1 t * z t ≠ 0 := by
    intro h
    rw [h, mul_zero] at w1
    exact mul_ne_zero hm0 hW w1.symm
  have hW' : z t0 * y1 t0 - z1 t0 * y t0 ≠ 0 := by
    intro h; apply hW; linear_combination -h
  have hWt' : z t * y1 t - z1 t * y t ≠ 0 := by
    intro h; apply hWt; linear_combination -h
  have ea : (u t * z1 t - u1 t * z t) / (y t * z1 t - y1 t * z t) = (u t0 * z1 t0 - u1 t0 * z t0) / (y t0 * z1 t0 - y1 t0 * z t0) := by
    rw [← mul_div_mul_left _ _ hmt, ← mul_div_mul_left _ (y t0 * z1 t0 - y1 t0 * z t0) hm0, w1, w2]
  have eb : (u t * y1 t - u1 t * y t) / (z t * y1 t - z1 t * y t) = (u t0 * y1 t0 - u1 t0 * y t0) / (z t0 * y1 t0 - z1 t0 * y t0) := by
    have w1' : (M t : ℂ) * (z t * y1 t - z1 t * y t) = M t0 * (z t0 * y1 t0 - z1 t0 * y t0) := by linear_combination -w1
    rw [← mul_div_mul_left _ _ hmt, ← mul_div_mul_left _ (z t0 * y1 t0 - z1 t0 * y t0) hm0, w1', w3]
  refine ⟨?_, ?_, ?_⟩
  · simp only [coefficients, cdiv, if_neg hWt, if_neg hWt', ea, eb]
  · rw [← ea, ← eb, show z t * y1 t - z1 t * y t = -(y t * z1 t - y1 t * z t) by ring, div_neg]
    obtain ⟨W, hWd⟩ : ∃ W, W = y t * z1 t - y1 t * z t := ⟨_, rfl⟩
    rw [← hWd] at hWt ⊢
    field_simp
    rw [hWd]
    ring
  · rw [← ea, ← eb, show z t * y1 t - z1 t * y t = -(y t * z1 t - y1 t * z t) by ring, div_neg]
    obtain ⟨W, hWd⟩ : ∃ W, W = y t * z1 t - y1 t * z t := ⟨_, rfl⟩
    rw [← hWd] at hWt ⊢
    field_simp
    rw [hWd]
    ring

/-- **C63, uniqueness.**  Under the same conditions two solutions with the same value and derivative at one point are the same. -/
theorem C63_unique {S : Set ℝ} {γ ω2 : ℝ → ℝ} (hS : IsOpen S) (hc : IsPreconnected S) (hγ : ContinuousOn γ S)
    {u u1 u2 v v1 v2 y y1 y2 z z1 z2 : ℝ → ℂ} (hu : Twice S u u1 u2) (hv : Twice S v v1 v2) (hy : Twice S y y1 y2) (hz : Twice S z z1 z2)
    (ou : ∀ t ∈ S, oscillator ω2 γ u u1 u2 t = 0) (ov : ∀ t ∈ S, oscillator ω2 γ v v1 v2 t = 0)
    (oy : ∀ t ∈ S, oscillator ω2 γ y y1 y2 t = 0)
    (oz : ∀ t ∈ S, oscillator ω2 γ z z1 z2 t = 0) {t0 : ℝ} (h0 : t0 ∈ S) (hW : y t0 * z1 t0 - y1 t0 * z t0 ≠ 0) (e : u t0 = v t0)
    (e1 : u1 t0 = v1 t0) : ∀ t ∈ S, u t = v t := by
  obtain ⟨a, b, h⟩ := C63_matching hS hc hγ hu hy hz ou oy oz h0 hW
  obtain ⟨a', b', h'⟩ := C63_matching hS hc hγ hv hy hz ov oy oz h0 hW
  have k := (h t0 h0).1
  rw [e, e1, (h' t0 h0).1, Prod.mk.injEq, Option.some.injEq, Option.some.injEq] at k
  intro t ht
  rw [(h t ht).2.1, (h' t ht).2.1, k.1, k.2]

variable {S : Set ℝ} {ω2 : List ℝ → List ℂ → ℝ → ℝ} {γ : List ℝ → List ℝ → ℝ → ℝ}

/-- The spectrum of **every** mode that solves the equation and starts in the state `v`. -/
def IsTheModeSpectrum (S : Set ℝ) (ω2 γ : ℝ → ℝ) (ti : ℝ) (v : ℂ × ℂ) (norm : ℝ) (xs : List ℝ) (P : List (Option ℝ)) : Prop :=
  (∃ u u' u'' : ℝ → ℂ, Twice S u u' u'' ∧ (∀ x ∈ S, oscillator ω2 γ u u' u'' x = 0) ∧ u ti = v.1 ∧ u' ti = v.2) ∧
  ∀ u u' u'' : ℝ → ℂ, Twice S u u' u'' → (∀ x ∈ S, oscillator ω2 γ u u' u'' x = 0) → u ti = v.1 → u' ti = v.2 →
    P = xs.map fun x => some (‖u x‖ ^ 2 * norm)

theorem spectrum_unique {osc : Oscode} (hex : Exact osc S ω2 γ) (hS : IsOpen S) (hc : IsPreconnected S)
    (hγ : ∀ ts g, ContinuousOn (γ ts g) S) {A1 A2 : OscArgs} {one two : OscSol}
    (h1 : osc A1 = .ok one) (h2 : osc A2 = .ok two) (hts : A2.ts = A1.ts) (hw : A2.w = A1.w) (hg : A2.g = A1.g)
    (hti : A2.ti = A1.ti) (hy : A1.x0 * A2.dx0 - A1.dx0 * A2.x0 ≠ 0) {xs : List ℝ} (hin : A1.ti ∈ S) (hxs : ∀ x ∈ xs, x ∈ S)
    {v : ℂ × ℂ} {norm : ℝ} {l : List (Option ℝ)} (h : IsModeSpectrum S (ω2 A1.ts A1.w) (γ A1.ts A1.g) A1.ti v norm xs l) :
    IsTheModeSpectrum S (ω2 A1.ts A1.w) (γ A1.ts A1.g) A1.ti v norm xs l := by
  obtain ⟨y, y', y'', t1, o1, i1, i1', -⟩ := hex A1 one h1
  obtain ⟨z, z', z'', t2, o2, i2, i2', -⟩ := hex A2 two h2
  rw [hts, hw, hg] at o2
  rw [hti] at i2 i2'
  have hW : y A1.ti * z' A1.ti - y' A1.ti * z A1.ti ≠ 0 := by
    rw [i1, i1', i2, i2']
    intro hc
    apply hy
    exact_mod_cast hc
  obtain ⟨w, w', w'', tw, ow, hw0, hw1, hl⟩ := h
  refine ⟨⟨w, w', w'', tw, ow, hw0, hw1⟩, fun u u' u'' tu ou hu0 hu1 => ?_⟩
  rw [hl]
  apply List.map_congr_left
  intro x hx
  rw [C63_unique hS hc (hγ _ _) tw tu t1 t2 ow ou o1 o2 hin hW (hw0.trans hu0.symm) (hw1.trans hu1.symm) x (hxs x hx)]

/-- **C63, through the API.**  `solve_oscode` for one wavenumber with dense output, any background, index range, independent initial
data of the two auxiliary solutions, exact integrator with continuous damping on an open interval containing the evaluation
points: the dense spectrum of each vacuum is that of the one and only mode that solves the mode equation and is in the vacuum
state at the first point. -/
theorem C63_dense {osc : Oscode} (hex : Exact osc S ω2 γ) (hS : IsOpen S) (hc : IsPreconnected S)
    (hγ : ∀ ts g, ContinuousOn (γ ts g) S) {b : Bg} {kw : OscKw} {k : ℝ} {r : ModeSpectra}
    (h : solveOscode1 osc b k kw = .ok r) (y : ℝ × ℝ × ℝ × ℝ) (hy0 : kw.y0.getD b.perturbation_ic = y)
    (hy : y.1 * y.2.2.2 - y.2.1 * y.2.2.1 ≠ 0) {vac : String} (hvac : vac ∈ kw.vacuum) (hx : 0 < kw.num_eval)
    (hin : ∀ p ∈ b.pts, p.x ∈ S) (hev : ∀ i j xs, xEval b kw.num_eval i j = some xs → ∀ x ∈ xs, x ∈ S) :
    ∃ s t beg stop pb xs vs vt, modes b k = some (s, t) ∧ b.pts[beg]? = some pb ∧ xEval b kw.num_eval beg stop = some xs ∧
      s.vacuum vac = some vs ∧ t.vacuum vac = some vt ∧
      (∀ v, vs pb = some v → ∃ l, r.P_s_eval.get? vac = some (some l) ∧
        IsTheModeSpectrum S (ω2 ((slice b.pts beg stop).map (·.x)) ((slice b.pts beg stop).map fun p => csqrt (s.frequency2 p)))
          (γ ((slice b.pts beg stop).map (·.x)) ((slice b.pts beg stop).map s.damping)) pb.x v (k ^ 3 / (2 * π ^ 2)) xs l) ∧
      (∀ v, vt pb = some v → ∃ l, r.P_t_eval.get? vac = some (some l) ∧
        IsTheModeSpectrum S (ω2 ((slice b.pts beg stop).map (·.x)) ((slice b.pts beg stop).map fun p => csqrt (t.frequency2 p)))
          (γ ((slice b.pts beg stop).map (·.x)) ((slice b.pts beg stop).map t.damping)) pb.x v (k ^ 3 / (2 * π ^ 2) * 2) xs l) := by
  have h' := h
  rw [single_eq] at h'
  obtain ⟨stop, s, t, pb, pe, s1, s2, t1, t2, Ps, hstop, hm, hb, he, hruns, hs, ht, -⟩ := oneMode_ok h'
  obtain ⟨c1, c2, c3, c4⟩ := hruns y hy0.symm
  obtain ⟨xs, hxs⟩ : ∃ xs, xEval b kw.num_eval (idxBeg b kw.fac_beg k) stop = some xs := by
    unfold xEval
    rw [if_pos hx, hb, he]
    dsimp only
    split <;> exact ⟨_, rfl⟩
  obtain ⟨vs, P, Pe, hvs, hcs, -, hgs⟩ := (combineAll_get hs).1 vac hvac
  obtain ⟨vt, P', Pe', hvt, hct, -, hgt⟩ := (combineAll_get ht).1 vac hvac
  have hnorm : s.pps_norm = k ^ 3 / (2 * π ^ 2) ∧ t.pps_norm = k ^ 3 / (2 * π ^ 2) * 2 := by
    unfold modes at hm
    split at hm <;> cases hm <;> exact ⟨rfl, rfl⟩
  have hpb : pb.x ∈ S := hin pb (List.mem_of_getElem? hb)
  refine ⟨s, t, _, stop, pb, xs, vs, vt, hm, hb, hxs, hvs, hvt, ?_, ?_⟩
  · intro v hv
    rw [hv] at hcs
    obtain ⟨l, hl, hsp⟩ := combine_spectrum hex c1 c2 rfl rfl rfl rfl rfl hy hxs hcs
    rw [hnorm.1] at hsp
    exact ⟨l, by rw [hgs, hl], spectrum_unique hex hS hc hγ c1 c2 rfl rfl rfl rfl hy hpb (hev _ _ _ hxs) hsp⟩
  · intro v hv
    rw [hv] at hct
    obtain ⟨l, hl, hsp⟩ := combine_spectrum hex c3 c4 rfl rfl rfl rfl rfl hy hxs hct
    rw [hnorm.2] at hsp
    exact ⟨l, by rw [hgt, hl], spectrum_unique hex hS hc hγ c3 c4 rfl rfl rfl rfl hy hpb (hev _ _ _ hxs) hsp⟩

/-! ## The normalisation persists -/

theorem conj_twice {S : Set ℝ} {f f1 f2 : ℝ → ℂ} (h : Twice S f f1 f2) :
    Twice S (fun t => (starRingEnd ℂ) (f t)) (fun t => (starRingEnd ℂ) (f1 t)) (fun t => (starRingEnd ℂ) (f2 t)) :=
  ⟨fun t ht => (h.first t ht).star, fun t ht => (h.second t ht).star⟩

theorem conj_oscillator {ω2 γ : ℝ → ℝ} {f f1 f2 : ℝ → ℂ} {t : ℝ} (h : oscillator ω2 γ f f1 f2 t = 0) :
    oscillator ω2 γ (fun t => (starRingEnd ℂ) (f t)) (fun t => (starRingEnd ℂ) (f1 t)) (fun t => (starRingEnd ℂ) (f2 t)) t = 0 := by
  have := congrArg (starRingEnd ℂ) h
  simpa [oscillator, Complex.conj_ofNat] using this

variable {D : Set ℝ} {pot : PotFns} {K : ℝ} {N φ p H : ℝ → ℝ}

/-- **C63, scalar modes, any curvature.**  Along any mode that solves the equation handed to oscode, `M (R Ṙ* - R* Ṙ)` is the same at
all times, `M = a³ (φ̇/H)² / (κ² + K φ̇²/(2H²))` being the kinetic weight: quantisation once is quantisation for ever. -/
theorem C63_scalar_commutator (hS : IsOpen S) (hc : IsPreconnected S) (u : IsUniverse S pot.V pot.dV K N φ p H)
    (hV : IsDerivOn D pot.V pot.dV) (hφ : ∀ t ∈ S, φ t ∈ D) (k : ℝ) (hp : ∀ t ∈ S, p t ≠ 0)
    (hden : ∀ t ∈ S, k ^ 2 + k * K * (K + 1) - 3 * K + K * p t ^ 2 / (2 * H t ^ 2) ≠ 0)
    (R R1 R2 : ℝ → ℂ) (hR : Twice S R R1 R2)
    (ho : ∀ t ∈ S, oscillator (fun t => ScalarT.frequency2 pot K k (ptT K N φ p H t))
      (fun t => ScalarT.damping pot K k (ptT K N φ p H t)) R R1 R2 t = 0) {t t0 : ℝ} (ht : t ∈ S) (h0 : t0 ∈ S) :
    (weight (k ^ 2 + k * K * (K + 1) - 3 * K) K N p H t : ℂ) * wronskian (R t) (R1 t) =
      weight (k ^ 2 + k * K * (K + 1) - 3 * K) K N p H t0 * wronskian (R t0) (R1 t0) := by
  have h := abel hS hc (hasDerivAt_weight hS u hV hφ k hp hden) hR (conj_twice hR) ho (fun t ht => conj_oscillator (ho t ht)) ht h0
  simp only [wronskian]
  linear_combination h

/-- **C63, scalar modes, flat universes.**  A mode that starts in any of the vacua (`k`, `HD`, `RST`) at any time is canonically
normalised at **every** time: `a z² (R Ṙ* - R* Ṙ) = i` with `z = a φ̇/H`. -/
theorem C63_scalar_flat (hS : IsOpen S) (hc : IsPreconnected S) (u : IsUniverse S pot.V pot.dV 0 N φ p H)
    (hV : IsDerivOn D pot.V pot.dV) (hφ : ∀ t ∈ S, φ t ∈ D) (k : ℝ) (hk : k ≠ 0) (hp : ∀ t ∈ S, p t ≠ 0)
    (R R1 R2 : ℝ → ℂ) (hR : Twice S R R1 R2)
    (ho : ∀ t ∈ S, oscillator (fun t => ScalarT.frequency2 pot 0 k (ptT 0 N φ p H t))
      (fun t => ScalarT.damping pot 0 k (ptT 0 N φ p H t)) R R1 R2 t = 0) {t t0 : ℝ} (ht : t ∈ S) (h0 : t0 ∈ S)
    (b : Bg) (hb : b.indep = .t) {s tm : Mode} (hm : modes b k = some (s, tm)) {vac : String}
    {f : Pt → Vacuum} (hf : s.vacuum vac = some f) (hv : f (ptT 0 N φ p H t0) = some (R t0, R1 t0)) :
    ((exp (N t) * (exp (N t) * p t / H t) ^ 2 : ℝ) : ℂ) * wronskian (R t) (R1 t) = Complex.I := by
  have hn := C51_scalar_normalised b k s tm hm (ptT 0 N φ p H t0) (u.expanding t0 h0) (hp t0 h0) vac f hf _ _ hv
  have hr : rate b (ptT 0 N φ p H t0) = 1 := by simp [rate, hb]
  rw [hr, one_mul, Complex.ofReal_one, one_mul] at hn
  simp only [ptT] at hn
  have hcm := C63_scalar_commutator hS hc u hV hφ k hp (fun t ht => by simpa using hk) R R1 R2 hR ho ht h0
  have hw : ∀ t, (weight (k ^ 2 + k * 0 * (0 + 1) - 3 * 0) 0 N p H t) = exp (N t) * (exp (N t) * p t / H t) ^ 2 / k ^ 2 := by
    intro t
    simp only [weight]
    rw [show k ^ 2 + k * 0 * (0 + 1) - 3 * 0 + 0 * p t ^ 2 / (2 * H t ^ 2) = k ^ 2 by ring]
    ring
  rw [hw, hw] at hcm
  rw [← hn]
  have hk2 : ((k : ℂ) ^ 2) ≠ 0 := by
    have : (k : ℂ) ≠ 0 := by exact_mod_cast hk
    exact pow_ne_zero 2 this
  rw [Complex.ofReal_div, Complex.ofReal_div, Complex.ofReal_pow, div_mul_eq_mul_div, div_mul_eq_mul_div, div_left_inj' hk2] at hcm
  exact hcm

/-- **C63, tensor modes, any curvature.**  A mode that starts in any of the vacua at any time is canonically normalised at every
time: `a³ (h ḣ* - h* ḣ) = 4 i`. -/
theorem C63_tensor (hS : IsOpen S) (hc : IsPreconnected S) (u : IsUniverse S pot.V pot.dV K N φ p H) (k : ℝ)
    (h h1 h2 : ℝ → ℂ) (hh : Twice S h h1 h2)
    (ho : ∀ t ∈ S, oscillator (fun t => TensorT.frequency2 K k (ptT K N φ p H t))
      (fun t => TensorT.damping (ptT K N φ p H t)) h h1 h2 t = 0) {t t0 : ℝ} (ht : t ∈ S) (h0 : t0 ∈ S)
    (b : Bg) (hb : b.indep = .t) {s tm : Mode} (hm : modes b k = some (s, tm)) {vac : String}
    {f : Pt → Vacuum} (hf : tm.vacuum vac = some f) (hv : f (ptT K N φ p H t0) = some (h t0, h1 t0)) :
    ((exp (N t) ^ 3 : ℝ) : ℂ) * wronskian (h t) (h1 t) = 4 * Complex.I := by
  have hn := C51_tensor_normalised b k s tm hm (ptT K N φ p H t0) (u.expanding t0 h0) vac f hf _ _ hv
  have hr : rate b (ptT K N φ p H t0) = 1 := by simp [rate, hb]
  rw [hr, Complex.ofReal_one, one_mul] at hn
  simp only [ptT] at hn
  have hM : ∀ t ∈ S, HasDerivAt (fun t => exp (N t) ^ 3) (exp (N t) ^ 3 * (2 * TensorT.damping (ptT K N φ p H t))) t := by
    intro t ht
    refine ((hasDerivAt_scale (u.hubble t ht)).fun_pow 3).congr_deriv ?_
    simp only [TensorT.damping, ptT]
    push_cast
    ring
  have hcm := abel hS hc hM hh (conj_twice hh) ho (fun t ht => conj_oscillator (ho t ht)) ht h0
  rw [← hn]
  simp only [wronskian]
  linear_combination hcm

/-! ### Power-law inflation `a = t²`: an exact mode -/

/-- `(x² + 3 i x - 3) e^{ix}` at `x = 1/t`, its first and second time derivative -/
noncomputable def pl (t : ℝ) : ℂ := ((t : ℂ)⁻¹ ^ 2 + 3 * Complex.I * (t : ℂ)⁻¹ - 3) * Complex.exp (Complex.I * (t : ℂ)⁻¹)
noncomputable def pl1 (t : ℝ) : ℂ := ((t : ℂ)⁻¹ ^ 3 - Complex.I * (t : ℂ)⁻¹ ^ 4) * Complex.exp (Complex.I * (t : ℂ)⁻¹)
noncomputable def pl2 (t : ℝ) : ℂ :=
  -(3 * (t : ℂ)⁻¹ ^ 4 - 3 * Complex.I * (t : ℂ)⁻¹ ^ 5 + (t : ℂ)⁻¹ ^ 6) * Complex.exp (Complex.I * (t : ℂ)⁻¹)

theorem pl_twice : Twice (Set.Ioi 0) pl pl1 pl2 := by
  have hi : ∀ t ∈ Set.Ioi (0 : ℝ), HasDerivAt (fun t : ℝ => (t : ℂ)⁻¹) (-(t : ℂ)⁻¹ ^ 2) t := by
    intro t ht
    have h := (hasDerivAt_inv (ne_of_gt ht : t ≠ 0)).ofReal_comp
    have e : (fun t : ℝ => ((t⁻¹ : ℝ) : ℂ)) = fun t : ℝ => (t : ℂ)⁻¹ := by funext t; push_cast; rfl
    rw [e] at h
    refine h.congr_deriv ?_
    push_cast
    ring
  constructor
  · intro t ht
    have h := hi t ht
    have hI := Complex.I_sq
    refine ((((h.fun_pow 2).fun_add (h.const_mul (3 * Complex.I))).sub_const 3).fun_mul ((h.const_mul Complex.I).cexp)).congr_deriv ?_
    simp only [pl1]
    push_cast
    linear_combination (-(3 * (t : ℂ)⁻¹ ^ 3) * Complex.exp (Complex.I * (t : ℂ)⁻¹)) * hI
  · intro t ht
    have h := hi t ht
    have hI := Complex.I_sq
    refine (((h.fun_pow 3).fun_sub ((h.fun_pow 4).const_mul Complex.I)).fun_mul ((h.const_mul Complex.I).cexp)).congr_deriv ?_
    simp only [pl2]
    push_cast
    linear_combination ((t : ℂ)⁻¹ ^ 6 * Complex.exp (Complex.I * (t : ℂ)⁻¹)) * hI

theorem pl_solves {t : ℝ} (ht : 0 < t) : oscillator (fun t => 1 / t ^ 4) (fun t => 3 / t) pl pl1 pl2 t = 0 := by
  have : (t : ℂ) ≠ 0 := by exact_mod_cast ht.ne'
  simp only [oscillator, pl, pl1, pl2]
  push_cast
  rw [one_div, ← inv_pow, div_eq_mul_inv]
  ring

/-- There is a solution with any given data at `t = 1`. -/
theorem pl_ivp (c d : ℂ) : ∃ u u1 u2, Twice (Set.Ioi 0) u u1 u2 ∧
    (∀ t ∈ Set.Ioi (0 : ℝ), oscillator (fun t => 1 / t ^ 4) (fun t => 3 / t) u u1 u2 t = 0) ∧ u 1 = c ∧ u1 1 = d := by
  have hE : Complex.exp (Complex.I) * (starRingEnd ℂ) (Complex.exp Complex.I) = 1 := by
    rw [← Complex.exp_conj, ← Complex.exp_add]; simp
  have hW : pl 1 * (starRingEnd ℂ) (pl1 1) - pl1 1 * (starRingEnd ℂ) (pl 1) ≠ 0 := by
    have : pl 1 * (starRingEnd ℂ) (pl1 1) - pl1 1 * (starRingEnd ℂ) (pl 1) = 2 * Complex.I := by
      simp only [pl, pl1, Complex.ofReal_one, inv_one, one_pow, mul_one, map_mul, map_sub, map_add, map_one, Complex.conj_I,
        Complex.conj_ofNat]
      linear_combination 2 * Complex.I * hE
    rw [this]
    simp [Complex.I_ne_zero]
  obtain ⟨a, b, -, ha, hb, -⟩ := C47_solves c d _ _ _ _ hW
  refine ⟨fun t => a * pl t + b * (starRingEnd ℂ) (pl t), fun t => a * pl1 t + b * (starRingEnd ℂ) (pl1 t),
    fun t => a * pl2 t + b * (starRingEnd ℂ) (pl2 t), ⟨?_, ?_⟩, ?_, ha, hb⟩
  · exact fun t ht => ((pl_twice.first t ht).const_mul a).add (((conj_twice pl_twice).first t ht).const_mul b)
  · exact fun t ht => ((pl_twice.second t ht).const_mul a).add (((conj_twice pl_twice).second t ht).const_mul b)
  · intro t ht
    have p1 := pl_solves ht
    have p2 := conj_oscillator p1
    unfold oscillator at p1 p2 ⊢
    linear_combination a * p1 + b * p2

/-- The hypotheses of `C63_scalar_flat` are met: power-law inflation, `k = 1`, starting in the `RST` vacuum at `t = 1`. -/
example : ∃ R R1 R2 : ℝ → ℂ, Twice (Set.Ioi 0) R R1 R2 ∧
    (∀ t ∈ Set.Ioi (0 : ℝ), oscillator
      (fun t => ScalarT.frequency2 Primpy.Exact.flatT.pot 0 1 (ptT 0 (fun t => 2 * log t) (fun t => 2 * log t) (fun t => 2 / t) (fun t => 2 / t) t))
      (fun t => ScalarT.damping Primpy.Exact.flatT.pot 0 1 (ptT 0 (fun t => 2 * log t) (fun t => 2 * log t) (fun t => 2 / t) (fun t => 2 / t) t))
      R R1 R2 t = 0) ∧
    ScalarT.vacRST 1 (ptT 0 (fun t => 2 * log t) (fun t => 2 * log t) (fun t => 2 / t) (fun t => 2 / t) 1) = some (R 1, R1 1) := by
  obtain ⟨v, hv⟩ : ∃ v, ScalarT.vacRST 1 (ptT 0 (fun t => 2 * log t) (fun t => 2 * log t) (fun t => 2 / t) (fun t => 2 / t) 1) = some v := by
    simp only [ScalarT.vacRST, if_pos one_pos]
    exact ⟨_, rfl⟩
  obtain ⟨u, u1, u2, h1, h2, h3, h4⟩ := pl_ivp v.1 v.2
  refine ⟨u, u1, u2, h1, fun t ht => ?_, by rw [hv, h3, h4]⟩
  have ht0 : (0 : ℝ) < t := ht
  rw [← h2 t ht]
  have e : exp (-2 * (2 * log t)) = 1 / t ^ 4 := by
    rw [show -2 * (2 * log t) = -(log t * (4 : ℕ)) by push_cast; ring, exp_neg, exp_mul, exp_log ht0, rpow_natCast, one_div]
  have e2 : exp (-(2 * log t)) = 1 / t ^ 2 := by
    rw [show -(2 * log t) = -(log t * (2 : ℕ)) by push_cast; ring, exp_neg, exp_mul, exp_log ht0, rpow_natCast, one_div]
  have f1 : ScalarT.frequency2 Primpy.Exact.flatT.pot 0 1 (ptT 0 (fun t => 2 * log t) (fun t => 2 * log t) (fun t => 2 / t) (fun t => 2 / t) t) = 1 / t ^ 4 := by
    simp only [ScalarT.frequency2, ptT, kappa2, e]; ring
  have f2 : ScalarT.damping Primpy.Exact.flatT.pot 0 1 (ptT 0 (fun t => 2 * log t) (fun t => 2 * log t) (fun t => 2 / t) (fun t => 2 / t) t) = 3 / t := by
    simp only [ScalarT.damping, ScalarT.shared, ScalarT.terms, ptT, kappa2, e, Primpy.Exact.flatT, Primpy.Exact.expPot, e2]
    field_simp
    ring
  simp only [oscillator, f1, f2]

/-- A straight-line integrator (`ω² = γ = 0`), grid and evaluation points on the line: everything assumed in `C63_dense` holds (for
the run itself see the example after `C47_dense`). -/
example : (∀ ts g, ContinuousOn ((fun _ _ _ => 0 : List ℝ → List ℝ → ℝ → ℝ) ts g) Set.univ) ∧ IsOpen (Set.univ : Set ℝ) ∧
    IsPreconnected (Set.univ : Set ℝ) :=
  ⟨fun _ _ => continuousOn_const, isOpen_univ, isPreconnected_univ⟩

end Pert
end Primpy
