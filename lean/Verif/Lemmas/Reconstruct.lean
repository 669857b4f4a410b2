import Verif.Lemmas.Exact
import Mathlib.Analysis.Calculus.InverseFunctionTheorem.Deriv
import Mathlib.Analysis.Calculus.ContDiff.Operations
import Mathlib.Analysis.Calculus.Deriv.MeanValue
import Mathlib.MeasureTheory.Integral.IntervalIntegral.FundThmCalculus

/-!
# A potential for a given expansion history

For an expanding scale factor `a(t)` on an open interval whose Hubble rate decays fast enough, `K/a² - dH/dt > 0`, there is a potential of which it is a solution; used to construct
exact solutions in curved universes.
-/

namespace Primpy
open Real Set Filter Topology Spec
open scoped ContDiff

namespace Reconstruct

/-- an expansion history on `(l, r)`: scale factor, its first two derivatives, and field velocity `f < 0` -/
structure History (K l r t0 : ℝ) (a a1 a2 f : ℝ → ℝ) : Prop where
  mem : t0 ∈ Ioo l r
  d1 : ∀ t ∈ Ioo l r, HasDerivAt a (a1 t) t
  d2 : ∀ t ∈ Ioo l r, HasDerivAt a1 (a2 t) t
  sa : ContDiffOn ℝ ∞ a (Ioo l r)
  sa1 : ContDiffOn ℝ ∞ a1 (Ioo l r)
  sf : ContDiffOn ℝ ∞ f (Ioo l r)
  pos : ∀ t ∈ Ioo l r, 0 < a t
  grow : ∀ t ∈ Ioo l r, 0 < a1 t
  neg : ∀ t ∈ Ioo l r, f t < 0
  eq : ∀ t ∈ Ioo l r, f t ^ 2 * a t ^ 2 = 2 * (K + a1 t ^ 2 - a t * a2 t)

variable {K l r t0 : ℝ} {a a1 a2 f : ℝ → ℝ}

/-- a primitive -/
theorem primitive (h : History K l r t0 a a1 a2 f) : ∃ φ : ℝ → ℝ, φ t0 = 0 ∧ ∀ t ∈ Ioo l r, HasDerivAt φ (f t) t := by
  refine ⟨fun t => ∫ s in t0..t, f s, intervalIntegral.integral_same, fun t ht => ?_⟩
  have hc : ContinuousOn f (Ioo l r) := h.sf.continuousOn
  refine intervalIntegral.integral_hasDerivAt_right ?_ (hc.stronglyMeasurableAtFilter isOpen_Ioo t ht) (hc.continuousAt (isOpen_Ioo.mem_nhds ht))
  refine (hc.mono ?_).intervalIntegrable
  intro s hs
  rcases le_total t0 t with h' | h'
  · rw [uIcc_of_le h'] at hs; exact ⟨h.mem.1.trans_le hs.1, hs.2.trans_lt ht.2⟩
  · rw [uIcc_of_ge h'] at hs; exact ⟨ht.1.trans_le hs.1, hs.2.trans_lt h.mem.2⟩

/-- the inverse of the field along the history -/
theorem inverse (h : History K l r t0 a a1 a2 f) {φ : ℝ → ℝ} (hφ : ∀ t ∈ Ioo l r, HasDerivAt φ (f t) t) :
    IsOpen (φ '' Ioo l r) ∧ ∃ ψ : ℝ → ℝ, (∀ t ∈ Ioo l r, ψ (φ t) = t) ∧ ∀ t ∈ Ioo l r, HasDerivAt ψ (f t)⁻¹ (φ t) := by
  have hcf : ∀ t ∈ Ioo l r, ContinuousAt f t := fun t ht => h.sf.continuousOn.continuousAt (isOpen_Ioo.mem_nhds ht)
  have hs : ∀ t ∈ Ioo l r, HasStrictDerivAt φ (f t) t := fun t ht =>
    hasStrictDerivAt_of_hasDerivAt_of_continuousAt (by filter_upwards [isOpen_Ioo.mem_nhds ht] with s hs using hφ s hs) (hcf t ht)
  have hn : ∀ t ∈ Ioo l r, map φ (𝓝 t) = 𝓝 (φ t) := fun t ht => (hs t ht).map_nhds_eq (h.neg t ht).ne
  have hop : IsOpen (φ '' Ioo l r) := by
    rw [isOpen_iff_mem_nhds]
    rintro _ ⟨t, ht, rfl⟩
    rw [← hn t ht]
    exact image_mem_map (isOpen_Ioo.mem_nhds ht)
  have hanti : StrictAntiOn φ (Ioo l r) := by
    refine strictAntiOn_of_deriv_neg (convex_Ioo l r) (fun t ht => (hφ t ht).continuousAt.continuousWithinAt) fun t ht => ?_
    rw [interior_Ioo] at ht
    rw [(hφ t ht).deriv]; exact h.neg t ht
  have hinv : ∀ t ∈ Ioo l r, Function.invFunOn φ (Ioo l r) (φ t) = t := fun t ht => hanti.injOn.leftInvOn_invFunOn ht
  refine ⟨hop, Function.invFunOn φ (Ioo l r), hinv, fun t ht => ?_⟩
  refine HasDerivAt.of_local_left_inverse (f := φ) ?_ (by rw [hinv t ht]; exact hφ t ht) (h.neg t ht).ne ?_
  · rw [ContinuousAt, ← hn t ht, tendsto_map'_iff, hinv t ht]
    refine tendsto_id.congr' ?_
    filter_upwards [isOpen_Ioo.mem_nhds ht] with s hs
    exact (hinv s hs).symm
  · filter_upwards [hop.mem_nhds ⟨t, ht, rfl⟩] with y hy
    obtain ⟨s, hs', rfl⟩ := hy
    rw [hinv s hs']

/-- **Every such history is a solution**, from the field value `0`, of a potential with three derivatives. -/
theorem exists_potential (h : History K l r t0 a a1 a2 f) : ∃ (pot : PotFns) (φ : ℝ → ℝ), φ t0 = 0 ∧ IsOpen (φ '' Ioo l r) ∧
    IsDerivOn (φ '' Ioo l r) pot.V pot.dV ∧ IsDerivOn (φ '' Ioo l r) pot.dV pot.d2V ∧ IsDerivOn (φ '' Ioo l r) pot.d2V pot.d3V ∧
    (∀ t ∈ Ioo l r, pot.V (φ t) = (2 * a1 t ^ 2 + 2 * K + a t * a2 t) / a t ^ 2) ∧
    ∀ Y : ℝ → ℕ → ℝ, (∀ t, Y t 0 = φ t ∧ Y t 1 = f t ∧ Y t 2 = log (a t)) →
      SolvesODE (Ioo l r) (InflT.rows ⟨K, pot, false⟩) (InflT.call ⟨K, pot, false⟩) Y ∧ ∀ t ∈ Ioo l r, InflT.H2 ⟨K, pot, false⟩ (Y t) = (a1 t / a t) ^ 2 := by
  obtain ⟨φ, h0, hφ⟩ := primitive h
  obtain ⟨hop, ψ, hinv, hψ⟩ := inverse h hφ
  have hI : IsOpen (Ioo l r) := isOpen_Ioo
  -- functions of time, as functions of the field
  have lift : ∀ (g g' : ℝ → ℝ), (∀ t ∈ Ioo l r, HasDerivAt g (g' t * f t) t) → IsDerivOn (φ '' Ioo l r) (g ∘ ψ) (g' ∘ ψ) := by
    rintro g g' hg _ ⟨t, ht, rfl⟩
    have := HasDerivAt.comp (φ t) (h₂ := g) (h := ψ) (by rw [hinv t ht]; exact hg t ht) (hψ t ht)
    refine this.congr_deriv ?_
    rw [Function.comp, hinv t ht, mul_assoc, mul_inv_cancel₀ (h.neg t ht).ne, mul_one]
  have sfd : ContDiffOn ℝ ∞ (deriv f) (Ioo l r) := h.sf.deriv_of_isOpen hI (by simp)
  obtain ⟨G, hG⟩ : ∃ G : ℝ → ℝ, G = fun t => -(deriv f t + 3 * (a1 t / a t) * f t) := ⟨_, rfl⟩
  have sG : ContDiffOn ℝ ∞ G (Ioo l r) := by
    rw [hG]
    exact (sfd.add ((contDiffOn_const.mul (h.sa1.div h.sa fun t ht => (h.pos t ht).ne')).mul h.sf)).neg
  have sG1 : ContDiffOn ℝ ∞ (deriv G) (Ioo l r) := sG.deriv_of_isOpen hI (by simp)
  obtain ⟨G2, hG2⟩ : ∃ G2 : ℝ → ℝ, G2 = fun t => deriv G t / f t := ⟨_, rfl⟩
  have sG2 : ContDiffOn ℝ ∞ G2 (Ioo l r) := by rw [hG2]; exact sG1.div h.sf fun t ht => (h.neg t ht).ne
  have dd : ∀ {g : ℝ → ℝ}, ContDiffOn ℝ ∞ g (Ioo l r) → ∀ t ∈ Ioo l r, HasDerivAt g (deriv g t) t := fun hg t ht =>
    ((hg.contDiffAt (hI.mem_nhds ht)).differentiableAt (by simp)).hasDerivAt
  obtain ⟨v, hv⟩ : ∃ v : ℝ → ℝ, v = fun t => 3 * (a1 t / a t) ^ 2 + 3 * K / a t ^ 2 - f t ^ 2 / 2 := ⟨_, rfl⟩
  have hvd : ∀ t ∈ Ioo l r, HasDerivAt v (G t * f t) t := fun t ht => by
    have ha := (h.pos t ht).ne'
    have e := h.eq t ht
    rw [hv, hG]
    have d := (((((h.d2 t ht).fun_div (h.d1 t ht) ha).fun_pow 2).const_mul 3).fun_add ((hasDerivAt_const t (3 * K)).fun_div ((h.d1 t ht).fun_pow 2) (pow_ne_zero 2 ha))).fun_sub
      (((dd h.sf t ht).fun_pow 2).div_const 2)
    refine d.congr_deriv ?_
    have e' : a2 t * a t - a1 t * a1 t = K - f t ^ 2 * a t ^ 2 / 2 := by linarith
    dsimp only
    rw [e']
    generalize a t = x at *
    generalize a1 t = x1 at *
    generalize f t = y at *
    generalize deriv f t = y1 at *
    norm_num
    field_simp
    ring
  have hvv : ∀ t ∈ Ioo l r, v t = (2 * a1 t ^ 2 + 2 * K + a t * a2 t) / a t ^ 2 := fun t ht => by
    have ha := (h.pos t ht).ne'
    have e := h.eq t ht
    rw [hv]
    have e' : f t ^ 2 = 2 * (K + a1 t ^ 2 - a t * a2 t) / a t ^ 2 := by rw [eq_div_iff (pow_ne_zero 2 ha)]; exact e
    dsimp only
    rw [e']
    field_simp
    ring
  refine ⟨⟨v ∘ ψ, G ∘ ψ, G2 ∘ ψ, (fun t => deriv G2 t / f t) ∘ ψ, fun _ => 0⟩, φ, h0, hop, lift v G hvd, lift G G2 fun t ht => ?_, lift G2 (fun t => deriv G2 t / f t) fun t ht => ?_, fun t ht => ?_, fun Y hY => ?_⟩
  · refine (dd sG t ht).congr_deriv ?_
    rw [hG2]; exact (div_mul_cancel₀ _ (h.neg t ht).ne).symm
  · exact (dd sG2 t ht).congr_deriv (div_mul_cancel₀ _ (h.neg t ht).ne).symm
  · show v (ψ (φ t)) = _
    rw [hinv t ht, hvv t ht]
  · have hH : ∀ t ∈ Ioo l r, InflT.H2 ⟨K, ⟨v ∘ ψ, G ∘ ψ, G2 ∘ ψ, (fun t => deriv G2 t / f t) ∘ ψ, fun _ => 0⟩, false⟩ (Y t) = (a1 t / a t) ^ 2 := fun t ht => by
      obtain ⟨y0, y1, y2⟩ := hY t
      have ha := h.pos t ht
      simp only [InflT.H2, T.get_H2, InflT.V, InflT.phi, InflT.dphidt, InflT._N, y0, y1, y2, Function.comp, hinv t ht]
      rw [show -2 * log (a t) = -(2 * log (a t)) by ring, exp_neg, show (2 : ℝ) * log (a t) = ((2 : ℕ) : ℝ) * log (a t) by norm_num, exp_nat_mul, exp_log ha, hv]
      have := ha.ne'
      field_simp
      ring
    refine ⟨fun t ht i hi => ?_, hH⟩
    have rr : InflT.rows ⟨K, ⟨v ∘ ψ, G ∘ ψ, G2 ∘ ψ, (fun t => deriv G2 t / f t) ∘ ψ, fun _ => 0⟩, false⟩ = 3 := by rw [InflT.rows_eq]; rfl
    rw [rr] at hi
    obtain ⟨y0, y1, y2⟩ := hY t
    have hHt : InflT.H ⟨K, ⟨v ∘ ψ, G ∘ ψ, G2 ∘ ψ, (fun t => deriv G2 t / f t) ∘ ψ, fun _ => 0⟩, false⟩ (Y t) = a1 t / a t := by
      rw [InflT.H, hH t ht, sqrt_sq (div_pos (h.grow t ht) (h.pos t ht)).le]
    interval_cases i
    · rw [InflT.call0, show (fun s => Y s 0) = φ from funext fun s => (hY s).1]
      refine (hφ t ht).congr_deriv ?_
      rw [InflT.dphidt, y1]
    · rw [InflT.call1, hHt, show (fun s => Y s 1) = f from funext fun s => (hY s).2.1]
      refine (dd h.sf t ht).congr_deriv ?_
      simp only [InflT.dphidt, InflT.dVdphi, InflT.phi, y0, y1, Function.comp, hinv t ht, hG]
      ring
    · rw [InflT.call2, hHt, show (fun s => Y s 2) = fun s => log (a s) from funext fun s => (hY s).2.2]
      exact (h.d1 t ht).log (h.pos t ht).ne'

end Reconstruct
end Primpy
