import Verif.Props.C14
import Verif.Props.C15

/-!
# C16 — the cosmic-time and the e-fold formulation agree on every state

The quantities that are invariant (`H²`, `w`, `inflating`, ε₁, ε₂, ε₃, δ₁, δ₂, δ₃ and the two `Gong`
variants) are compared at the *same physical state*.  δ₂, δ₃, ε₃ and Gong's ε₃ depend on the third
derivative of the field and agree only for `K = 0` (see C14); for `K ≠ 0` they are shown to differ.
-/

namespace Primpy
open Real Spec Set

/-- The two equation objects describe the same model and the two states are the same physical
state: same field, same scale factor, `dφ/dt = H dφ/dN`. -/
structure SameState (eT : InflT) (eN : InflN) (yT : ℕ → ℝ) (x : ℝ) (yN : ℕ → ℝ) : Prop where
  K : eN.K = eT.K
  pot : eN.pot = eT.pot
  phi : InflN.phi yN = InflT.phi yT
  scale : x = InflT._N yT
  velocity : InflN.dphidN yN = InflT.dphidt yT / eT.H yT

section
variable {eT : InflT} {eN : InflN} {yT yN : ℕ → ℝ} {x : ℝ}

/-- `H²`, `H`, `w` and `inflating` agree.  (If `V = 3K e^{-2N}` the e-fold formula divides zero by
zero; that single value is excluded.) -/
theorem C16_state (s : SameState eT eN yT x yN) (hH : 0 < eT.H2 yT)
    (hV : eT.V yT ≠ 3 * eT.K * exp (-2 * InflT._N yT)) :
    eN.H2 x yN = eT.H2 yT ∧ eN.H x yN = eT.H yT ∧ eN.w x yN = eT.w yT ∧
    eN.inflating x yN = eT.inflating yT := by
  have hp : 0 < eT.H yT := sqrt_pos.mpr hH
  have h2 : eT.H yT ^ 2 = eT.H2 yT := sq_sqrt hH.le
  have eV : eN.V yN = eT.V yT := by simp only [InflN.V, InflT.V, s.pot, s.phi]
  have hv : 6 - (InflT.dphidt yT / eT.H yT)^2
      = 2 * (eT.V yT - 3 * eT.K * exp (-2 * InflT._N yT)) / eT.H yT ^ 2 := by
    have : 6 * eT.H yT ^ 2 - InflT.dphidt yT ^ 2
      = 2 * (eT.V yT - 3 * eT.K * exp (-2 * InflT._N yT)) := by
      rw [h2]; simp only [InflT.H2, T.get_H2]; ring
    rw [← this]; field_simp
  have hne : eT.V yT - 3 * eT.K * exp (-2 * InflT._N yT) ≠ 0 := sub_ne_zero.mpr hV
  have e1 : eN.H2 x yN = eT.H2 yT := by
    simp only [InflN.H2, N.get_H2, s.velocity, s.scale, s.K, eV]
    rw [hv, ← h2, show 2 * eT.V yT - 6 * eT.K * exp (-2 * InflT._N yT)
      = 2 * (eT.V yT - 3 * eT.K * exp (-2 * InflT._N yT)) by ring]
    generalize eT.V yT - 3 * eT.K * exp (-2 * InflT._N yT) = M at *
    field_simp
  refine ⟨e1, by simp only [InflN.H, InflT.H, e1], ?_, ?_⟩
  · simp only [InflN.w, InflT.w, e1, eV, s.velocity, ← h2]; field_simp
  · simp only [InflN.inflating, InflT.inflating, e1, eV, s.velocity, ← h2]; field_simp

/-- Conversion of the first two derivatives of `H` and the second of `φ`, every curvature. -/
theorem C16_derivs (s : SameState eT eN yT x yN) (hH : 0 < eT.H2 yT)
    (hV : eT.V yT ≠ 3 * eT.K * exp (-2 * InflT._N yT)) :
    let d := eT.derivs yT
    let n := eN.derivs x yN
    let H := eT.H yT
    n.dH = d.dH / H ∧ n.d2phi = d.d2phi / H^2 - InflT.dphidt yT * d.dH / H^3 ∧
    n.d2H = d.d2H / H^2 - d.dH^2 / H^3 := by
  have hx := s.scale; subst hx
  intro d n H
  have hp : 0 < eT.H yT := sqrt_pos.mpr hH
  obtain ⟨e1, e2, -, -⟩ := C16_state s hH hV
  have hp' : 0 < H := hp
  have hs : √(H ^ 2) = H := sqrt_sq hp.le
  have eH : eT.H yT = H := rfl
  obtain ⟨E, hE⟩ : ∃ E, E = exp (-2 * InflT._N yT) := ⟨_, rfl⟩
  obtain ⟨p, hpp⟩ : ∃ p, p = InflT.dphidt yT := ⟨_, rfl⟩
  simp only [d, n, InflN.derivs, N.pipeline, e2, s.K, s.pot, s.phi, s.velocity,
    InflT.derivs, T.pipeline, N.get_dH, N.get_dH_H, N.get_d2phi, N.get_d2H, T.get_dH, T.get_d2phi,
    T.get_d2H, hs, ← hE, ← hpp, eH]
  refine ⟨?_, ?_, ?_⟩
  · field_simp
  all_goals (field_simp; ring)

/-- The same for the third derivative of `H` and the third and fourth of `φ`, `K = 0`. -/
theorem C16_higher_derivs (s : SameState eT eN yT x yN) (hH : 0 < eT.H2 yT)
    (hV : eT.V yT ≠ 0) (hK : eT.K = 0) :
    let d := eT.derivs yT
    let n := eN.derivs x yN
    let H := eT.H yT
    let p := InflT.dphidt yT
    n.d3phi = d.d3phi / H^3 - 3 * d.d2phi * d.dH / H^4 - p * d.d2H / H^4 + 3 * p * d.dH^2 / H^5 ∧
    n.d3H = d.d3H / H^3 - 4 * d.dH * d.d2H / H^4 + 3 * d.dH^3 / H^5 ∧
    n.d4phi = d.d4phi / H^4 - 6 * d.d3phi * d.dH / H^5 - 4 * d.d2phi * d.d2H / H^5
      + 15 * d.d2phi * d.dH^2 / H^6 - p * d.d3H / H^5 + 10 * p * d.dH * d.d2H / H^6
      - 15 * p * d.dH^3 / H^7 := by
  have hx := s.scale; subst hx
  intro d n H p
  have hV' : eT.V yT ≠ 3 * eT.K * exp (-2 * InflT._N yT) := by simpa [hK] using hV
  have hp : 0 < eT.H yT := sqrt_pos.mpr hH
  obtain ⟨e1, e2, -, -⟩ := C16_state s hH hV'
  have hp' : 0 < H := hp
  have hs : √(H ^ 2) = H := sqrt_sq hp.le
  have eH : eT.H yT = H := rfl
  have ep : InflT.dphidt yT = p := rfl
  simp only [d, n, InflN.derivs, N.pipeline, e2, s.K, s.pot, s.phi, s.velocity,
    InflT.derivs, T.pipeline, N.get_dH, N.get_dH_H, N.get_d2phi, N.get_d2H, T.get_dH, T.get_d2phi,
    T.get_d2H, N.get_d3phi, N.get_d3H, T.get_d3phi, T.get_d3H, N.get_d4phi, T.get_d4phi, hs, eH, ep,
    hK, zero_mul, mul_zero, zero_div, add_zero, sub_zero]
  refine ⟨?_, ?_, ?_⟩ <;> (field_simp; ring)

/-- Formula level: the Hubble-flow and δ formulas of the two classes agree for *all* arguments
related by `d/dt = H d/dN`. -/
theorem C16_formulas (H dH d2H d3H p d2phi d3phi d4phi : ℝ) (hH : 0 < H) :
    let dHn := dH / H
    let d2Hn := d2H / H^2 - dH^2 / H^3
    let d3Hn := d3H / H^3 - 4 * dH * d2H / H^4 + 3 * dH^3 / H^5
    let q := p / H
    let q2 := d2phi / H^2 - p * dH / H^3
    let q3 := d3phi / H^3 - 3 * d2phi * dH / H^4 - p * d2H / H^4 + 3 * p * dH^2 / H^5
    let q4 := d4phi / H^4 - 6 * d3phi * dH / H^5 - 4 * d2phi * d2H / H^5
      + 15 * d2phi * dH^2 / H^6 - p * d3H / H^5 + 10 * p * dH * d2H / H^6 - 15 * p * dH^3 / H^7
    N.get_epsilon_1H H dHn = T.get_epsilon_1H H dH ∧
    (dH ≠ 0 → N.get_epsilon_2H H dHn d2Hn = T.get_epsilon_2H H dH d2H) ∧
    (dH ≠ 0 → H * d2H ≠ 2 * dH^2 →
      N.get_epsilon_3H H dHn d2Hn d3Hn = T.get_epsilon_3H H dH d2H d3H) ∧
    N.get_epsilon_2H_Gong H dHn d2Hn = T.get_epsilon_2H_Gong H dH d2H ∧
    (p ≠ 0 → N.get_delta_1 H dHn q q2 = T.get_delta_1 H dH p d2phi) ∧
    (p ≠ 0 → N.get_delta_2 H dHn d2Hn q q2 q3 = T.get_delta_2 H dH d2H p d2phi d3phi) ∧
    (p ≠ 0 → N.get_delta_3 H dHn d2Hn d3Hn q q2 q3 q4
      = T.get_delta_3 H dH d2H d3H p d2phi d3phi d4phi) ∧
    N.get_epsilon_3H_Gong H dHn d2Hn d3Hn = T.get_epsilon_3H_Gong H dH d2H d3H := by
  intro dHn d2Hn d3Hn q q2 q3 q4
  refine ⟨?_, fun h => ?_, fun h h' => ?_, ?_, fun h => ?_, fun h => ?_, fun h => ?_, ?_⟩
  · simp only [dHn, N.get_epsilon_1H, T.get_epsilon_1H]; field_simp
  · simp only [dHn, d2Hn, N.get_epsilon_2H, T.get_epsilon_2H]; field_simp; ring
  · have hB : H * d2H - 2 * dH^2 ≠ 0 := sub_ne_zero.mpr h'
    have ab : |H^2*d2Hn^2 - 2*H*dHn^2*d2Hn + dHn^4| = ((H * d2H - 2 * dH^2) / H^2)^2 := by
      have : H^2*d2Hn^2 - 2*H*dHn^2*d2Hn + dHn^4 = ((H * d2H - 2 * dH^2) / H^2)^2 := by
        simp only [dHn, d2Hn]; field_simp; ring
      rw [this, abs_of_nonneg (sq_nonneg _)]
    simp only [N.get_epsilon_3H, T.get_epsilon_3H]
    rw [ab]
    simp only [dHn, d2Hn, d3Hn]
    generalize hM : H * d2H - 2 * dH^2 = M at *
    field_simp
    rw [← hM]; ring
  · simp only [dHn, d2Hn, N.get_epsilon_2H_Gong, T.get_epsilon_2H_Gong]; field_simp; ring
  · simp only [dHn, q, q2, N.get_delta_1, T.get_delta_1]; field_simp; ring
  · simp only [dHn, d2Hn, q, q2, q3, N.get_delta_2, T.get_delta_2]; field_simp; ring
  · simp only [dHn, d2Hn, d3Hn, q, q2, q3, q4, N.get_delta_3, T.get_delta_3]; field_simp; ring
  · simp only [dHn, d2Hn, d3Hn, N.get_epsilon_3H_Gong, T.get_epsilon_3H_Gong]; field_simp; ring

/-- ε₁, ε₂ (both kinds) and δ₁ agree on every state, for every curvature. -/
theorem C16_parameters (s : SameState eT eN yT x yN) (hH : 0 < eT.H2 yT)
    (hV : eT.V yT ≠ 3 * eT.K * exp (-2 * InflT._N yT)) :
    let d := eT.derivs yT
    let n := eN.derivs x yN
    N.get_epsilon_1H (eN.H x yN) n.dH = T.get_epsilon_1H (eT.H yT) d.dH ∧
    (d.dH ≠ 0 → N.get_epsilon_2H (eN.H x yN) n.dH n.d2H = T.get_epsilon_2H (eT.H yT) d.dH d.d2H) ∧
    N.get_epsilon_2H_Gong (eN.H x yN) n.dH n.d2H = T.get_epsilon_2H_Gong (eT.H yT) d.dH d.d2H ∧
    (InflT.dphidt yT ≠ 0 → N.get_delta_1 (eN.H x yN) n.dH (InflN.dphidN yN) n.d2phi
      = T.get_delta_1 (eT.H yT) d.dH (InflT.dphidt yT) d.d2phi) := by
  intro d n
  obtain ⟨-, e2, -, -⟩ := C16_state s hH hV
  obtain ⟨a, b, c⟩ := C16_derivs s hH hV
  have f := C16_formulas (eT.H yT) d.dH d.d2H 0 (InflT.dphidt yT) d.d2phi 0 0 (sqrt_pos.mpr hH)
  refine ⟨?_, fun h => ?_, ?_, fun h => ?_⟩
  · rw [e2]; simp only [n, a]; exact f.1
  · rw [e2]; simp only [n, a, c]; exact f.2.1 h
  · rw [e2]; simp only [n, a, c]; exact f.2.2.2.1
  · rw [e2, s.velocity]; simp only [n, a, b]; exact f.2.2.2.2.1 h

/-- ε₃, δ₂, δ₃ agree on every state of a flat universe. -/
theorem C16_parameters_flat_partial (s : SameState eT eN yT x yN) (hH : 0 < eT.H2 yT)
    (hV : eT.V yT ≠ 0) (hK : eT.K = 0) (hp : InflT.dphidt yT ≠ 0) :
    let d := eT.derivs yT
    let n := eN.derivs x yN
    (eT.H yT * d.d2H ≠ 2 * d.dH^2 → N.get_epsilon_3H (eN.H x yN) n.dH n.d2H n.d3H
      = T.get_epsilon_3H (eT.H yT) d.dH d.d2H d.d3H) ∧
    N.get_delta_2 (eN.H x yN) n.dH n.d2H (InflN.dphidN yN) n.d2phi n.d3phi
      = T.get_delta_2 (eT.H yT) d.dH d.d2H (InflT.dphidt yT) d.d2phi d.d3phi ∧
    N.get_delta_3 (eN.H x yN) n.dH n.d2H n.d3H (InflN.dphidN yN) n.d2phi n.d3phi n.d4phi
      = T.get_delta_3 (eT.H yT) d.dH d.d2H d.d3H (InflT.dphidt yT) d.d2phi d.d3phi d.d4phi ∧
    N.get_epsilon_3H_Gong (eN.H x yN) n.dH n.d2H n.d3H
      = T.get_epsilon_3H_Gong (eT.H yT) d.dH d.d2H d.d3H := by
  intro d n
  have hV' : eT.V yT ≠ 3 * eT.K * exp (-2 * InflT._N yT) := by simpa [hK] using hV
  obtain ⟨-, e2, -, -⟩ := C16_state s hH hV'
  obtain ⟨a, b, c⟩ := C16_derivs s hH hV'
  obtain ⟨a3, b3, c3⟩ := C16_higher_derivs s hH hV hK
  have f := C16_formulas (eT.H yT) d.dH d.d2H d.d3H (InflT.dphidt yT) d.d2phi d.d3phi d.d4phi
    (sqrt_pos.mpr hH)
  have hdH : d.dH ≠ 0 := by
    have : d.dH = -InflT.dphidt yT ^2 / 2 := by
      simp only [d, InflT.derivs, T.pipeline, T.get_dH, hK]; ring
    rw [this]; have := pow_ne_zero 2 hp
    exact div_ne_zero (neg_ne_zero.mpr this) two_ne_zero
  refine ⟨fun h => ?_, ?_, ?_, ?_⟩
  · rw [e2]; simp only [n, a, c, b3]; exact f.2.2.1 hdH h
  · rw [e2, s.velocity]; simp only [n, a, b, c, a3]; exact f.2.2.2.2.2.1 hp
  · rw [e2, s.velocity]; simp only [n, a, b, c, a3, b3, c3]; exact f.2.2.2.2.2.2.1 hp
  · rw [e2]; simp only [n, a, c, b3]; exact f.2.2.2.2.2.2.2

/-- In a curved universe the two formulations *disagree* on δ₂ at every state with a moving field:
the difference is exactly `3K e^{-2N}/H²`. -/
theorem C16_curved_delta2_differs (s : SameState eT eN yT x yN) (hH : 0 < eT.H2 yT)
    (hV : eT.V yT ≠ 3 * eT.K * exp (-2 * InflT._N yT)) (hp : InflT.dphidt yT ≠ 0) :
    let d := eT.derivs yT
    let n := eN.derivs x yN
    T.get_delta_2 (eT.H yT) d.dH d.d2H (InflT.dphidt yT) d.d2phi d.d3phi
      - N.get_delta_2 (eN.H x yN) n.dH n.d2H (InflN.dphidN yN) n.d2phi n.d3phi
      = 3 * eT.K * exp (-2 * InflT._N yT) / eT.H yT ^ 2 := by
  intro d n
  have hp' : 0 < eT.H yT := sqrt_pos.mpr hH
  obtain ⟨e1, e2, -, -⟩ := C16_state s hH hV
  obtain ⟨a, b, c⟩ := C16_derivs s hH hV
  have e3 : n.d3phi = (d.d3phi - 3 * eT.K * exp (-2 * InflT._N yT) * InflT.dphidt yT) / eT.H yT^3
      - 3 * d.d2phi * d.dH / eT.H yT^4 - InflT.dphidt yT * d.d2H / eT.H yT^4
      + 3 * InflT.dphidt yT * d.dH^2 / eT.H yT^5 := by
    have : n.d3phi = N.get_d3phi (eT.H yT) n.dH n.d2H (InflN.dphidN yN) n.d2phi
        (eT.pot.dV (InflT.phi yT)) (eT.pot.d2V (InflT.phi yT)) := by
      simp only [n, InflN.derivs, N.pipeline, e2, s.pot, s.phi]
    rw [this, s.velocity]; simp only [n, a, b, c, N.get_d3phi]
    have hs : √(eT.H yT ^ 2) = eT.H yT := sqrt_sq hp'.le
    simp only [d, InflT.derivs, T.pipeline, T.get_dH, T.get_d2phi, T.get_d2H, T.get_d3phi, hs]
    obtain ⟨E, hE⟩ : ∃ E, E = exp (-2 * InflT._N yT) := ⟨_, rfl⟩
    rw [← hE]
    field_simp; ring
  have f := (C16_formulas (eT.H yT) d.dH d.d2H 0 (InflT.dphidt yT) d.d2phi
    (d.d3phi - 3 * eT.K * exp (-2 * InflT._N yT) * InflT.dphidt yT) 0 hp').2.2.2.2.2.1 hp
  rw [e2, e3, s.velocity]; simp only [n, a, b, c]
  rw [f]; simp only [T.get_delta_2]
  field_simp; ring
end

/-- Non-vacuity: the closed coasting universe at `t = 3`, in both formulations. -/
example : SameState Exact.curvedT Exact.curvedN (Exact.yCurvedT 3) (log 3) (Exact.yCurvedN (log 3)) ∧
    0 < Exact.curvedT.H2 (Exact.yCurvedT 3) ∧
    Exact.curvedT.V (Exact.yCurvedT 3) ≠ 3 * Exact.curvedT.K * exp (-2 * InflT._N (Exact.yCurvedT 3)) := by
  refine ⟨⟨rfl, rfl, rfl, rfl, ?_⟩, ?_, ?_⟩
  · rw [Exact.curvedT_H (by norm_num)]; simp [InflN.dphidN, InflT.dphidt, Exact.yCurvedN, Exact.yCurvedT]
  · rw [Exact.curvedT_H2 (by norm_num)]; norm_num
  · have h : exp (-2 * log 3) = 1 / 3^2 := by
      rw [neg_mul]; exact Exact.exp_neg_two_log (by norm_num)
    simp only [InflT.V, Exact.curvedT, Exact.expPot, InflT.phi, InflT._N, Exact.yCurvedT, h,
      Exact.exp_neg_two_log (show (0:ℝ) < 3 by norm_num)]
    norm_num

end Primpy
