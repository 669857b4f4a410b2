import Verif.Props.C16

/-!
# C18 — Hubble-flow and δ parameters

Along every trajectory the parameters computed from the derivative pipeline satisfy the defining
relations of the Hubble-flow hierarchy, of Gong's variant and of the δ parameters: in e-folds for
every curvature, in cosmic time for `K = 0` (ε₁, ε₂, δ₁ for every `K`; the parameters built on
primpy's `d3phi` inherit its error for `K ≠ 0`, see C14).
-/

namespace Primpy
open Real Spec Set

section generic
variable {S : Set ℝ} {h0 h1 h2 h3 : ℝ → ℝ}

/-- The e-fold formulas on any function with three derivatives. -/
theorem flowN (d1 : IsDerivOn S h0 h1) (d2 : IsDerivOn S h1 h2) (d3 : IsDerivOn S h2 h3)
    (hp : ∀ n ∈ S, 0 < h0 n) (hd : ∀ n ∈ S, h1 n ≠ 0)
    (he : ∀ n ∈ S, N.get_epsilon_2H (h0 n) (h1 n) (h2 n) ≠ 0) :
    IsHubbleFlow S (fun _ => 1) h0 (fun n => N.get_epsilon_1H (h0 n) (h1 n))
      (fun n => N.get_epsilon_2H (h0 n) (h1 n) (h2 n))
      (fun n => N.get_epsilon_3H (h0 n) (h1 n) (h2 n) (h3 n)) := by
  refine ⟨fun n hn => ?_, fun n hn => ?_, fun n hn => ?_⟩
  · have := hp n hn
    refine hderiv ((d1 n hn).log this.ne') ?_
    simp only [N.get_epsilon_1H]; fsr
  · have := hp n hn; have := hd n hn
    refine hderiv (((d2 n hn).neg).div (d1 n hn) (hp n hn).ne') ?_
    simp only [N.get_epsilon_1H, N.get_epsilon_2H, Pi.neg_apply]; field_simp; ring
  · have p := hp n hn; have q := hd n hn; have r := he n hn
    refine hderiv (((d3 n hn).div (d2 n hn) q).sub ((d2 n hn).div (d1 n hn) p.ne')) ?_
    have hM : h0 n * h2 n - h1 n ^ 2 ≠ 0 := by
      intro h; apply r; simp only [N.get_epsilon_2H]; field_simp; linarith
    have ab : |h0 n^2*h2 n^2 - 2*h0 n*h1 n^2*h2 n + h1 n^4| = (h0 n * h2 n - h1 n ^ 2)^2 := by
      rw [show h0 n^2*h2 n^2 - 2*h0 n*h1 n^2*h2 n + h1 n^4 = (h0 n * h2 n - h1 n ^ 2)^2 by ring,
        abs_of_nonneg (sq_nonneg _)]
    have e2 : N.get_epsilon_2H (h0 n) (h1 n) (h2 n) = (h0 n * h2 n - h1 n^2)/(h0 n * h1 n) := by
      simp only [N.get_epsilon_2H]; field_simp
    rw [e2]; simp only [N.get_epsilon_3H]
    rw [ab]
    generalize hMM : h0 n * h2 n - h1 n ^ 2 = M at *
    field_simp
    rw [← hMM]; ring

/-- The cosmic-time formulas on any function with three derivatives. -/
theorem flowT (d1 : IsDerivOn S h0 h1) (d2 : IsDerivOn S h1 h2) (d3 : IsDerivOn S h2 h3)
    (hp : ∀ n ∈ S, 0 < h0 n) (hd : ∀ n ∈ S, h1 n ≠ 0)
    (he : ∀ n ∈ S, T.get_epsilon_2H (h0 n) (h1 n) (h2 n) ≠ 0) :
    IsHubbleFlow S h0 h0 (fun n => T.get_epsilon_1H (h0 n) (h1 n))
      (fun n => T.get_epsilon_2H (h0 n) (h1 n) (h2 n))
      (fun n => T.get_epsilon_3H (h0 n) (h1 n) (h2 n) (h3 n)) := by
  refine ⟨fun n hn => ?_, fun n hn => ?_, fun n hn => ?_⟩
  · have := hp n hn
    refine hderiv ((d1 n hn).log this.ne') ?_
    simp only [T.get_epsilon_1H]; field_simp
  · have := hp n hn; have := hd n hn
    refine hderiv (((d2 n hn).neg).div ((d1 n hn).pow 2) (pow_pos (hp n hn) 2).ne') ?_
    simp only [T.get_epsilon_1H, T.get_epsilon_2H, Pi.neg_apply, Pi.pow_apply]; field_simp; push_cast
    ring
  · have p := hp n hn; have q := hd n hn; have r := he n hn
    refine hderiv (((d3 n hn).div ((d1 n hn).mul (d2 n hn)) (mul_ne_zero p.ne' q)).sub
      (((d2 n hn).const_mul 2).div ((d1 n hn).pow 2) (pow_pos p 2).ne')) ?_
    have hM : h0 n * h2 n - 2 * h1 n ^ 2 ≠ 0 := by
      intro h; apply r; simp only [T.get_epsilon_2H]; field_simp; linarith
    have e2 : T.get_epsilon_2H (h0 n) (h1 n) (h2 n) = (h0 n * h2 n - 2 * h1 n^2)/(h0 n^2 * h1 n) := by
      simp only [T.get_epsilon_2H]; field_simp
    rw [e2]; simp only [T.get_epsilon_3H, Pi.mul_apply, Pi.pow_apply]
    generalize hMM : h0 n * h2 n - 2 * h1 n ^ 2 = M at *
    push_cast
    field_simp
    ring

theorem gongN (d1 : IsDerivOn S h0 h1) (d2 : IsDerivOn S h1 h2) (d3 : IsDerivOn S h2 h3)
    (hp : ∀ n ∈ S, 0 < h0 n) :
    IsGongFlow S (fun _ => 1) h0 (fun n => N.get_epsilon_1H (h0 n) (h1 n))
      (fun n => N.get_epsilon_2H_Gong (h0 n) (h1 n) (h2 n))
      (fun n => N.get_epsilon_3H_Gong (h0 n) (h1 n) (h2 n) (h3 n)) := by
  refine ⟨fun n hn => ?_, fun n hn => ?_⟩
  · have p := hp n hn
    refine hderiv (((d2 n hn).neg).div (d1 n hn) p.ne') ?_
    simp only [N.get_epsilon_2H_Gong, Pi.neg_apply]; field_simp; ring
  · have p := hp n hn
    refine hderiv ((d1 n hn).mul (((d3 n hn).neg.div (d1 n hn) p.ne').add
      (((d2 n hn).pow 2).div ((d1 n hn).pow 2) (pow_pos p 2).ne'))) ?_
    simp only [N.get_epsilon_3H_Gong, N.get_epsilon_2H_Gong, Pi.neg_apply, Pi.pow_apply, Pi.add_apply, Pi.div_apply]
    push_cast; field_simp; ring

theorem gongT (d1 : IsDerivOn S h0 h1) (d2 : IsDerivOn S h1 h2) (d3 : IsDerivOn S h2 h3)
    (hp : ∀ n ∈ S, 0 < h0 n) :
    IsGongFlow S h0 h0 (fun n => T.get_epsilon_1H (h0 n) (h1 n))
      (fun n => T.get_epsilon_2H_Gong (h0 n) (h1 n) (h2 n))
      (fun n => T.get_epsilon_3H_Gong (h0 n) (h1 n) (h2 n) (h3 n)) := by
  refine ⟨fun n hn => ?_, fun n hn => ?_⟩
  · have p := hp n hn
    refine hderiv (((d2 n hn).neg).div ((d1 n hn).pow 2) (pow_pos p 2).ne') ?_
    simp only [T.get_epsilon_2H_Gong, Pi.neg_apply, Pi.pow_apply]; push_cast; field_simp; ring
  · have p := hp n hn
    refine hderiv ((d1 n hn).mul (((d3 n hn).neg.div ((d1 n hn).pow 3) (pow_pos p 3).ne').add
      ((((d2 n hn).pow 2).const_mul 2).div ((d1 n hn).pow 4) (pow_pos p 4).ne'))) ?_
    simp only [T.get_epsilon_3H_Gong, T.get_epsilon_2H_Gong, Pi.neg_apply, Pi.pow_apply, Pi.add_apply, Pi.div_apply]
    push_cast; field_simp; ring
end generic

/-- E-folds, every curvature. -/
theorem C18_efolds {S D : Set ℝ} {e : InflN} {y : ℝ → ℕ → ℝ} (hS : IsOpen S)
    (sol : SolvesODE S e.rows e.call y)
    (hH : ∀ n ∈ S, 0 < e.H2 n (y n)) (hV : IsDerivOn D e.pot.V e.pot.dV)
    (hV2 : IsDerivOn D e.pot.dV e.pot.d2V) (hV3 : IsDerivOn D e.pot.d2V e.pot.d3V)
    (hφ : ∀ n ∈ S, InflN.phi (y n) ∈ D) :
    let H := fun n => e.H n (y n)
    let d := fun n => e.derivs n (y n)
    let q := fun n => InflN.dphidN (y n)
    ((∀ n ∈ S, (d n).dH ≠ 0) → (∀ n ∈ S, N.get_epsilon_2H (H n) (d n).dH (d n).d2H ≠ 0) →
      IsHubbleFlow S (fun _ => 1) H (fun n => N.get_epsilon_1H (H n) (d n).dH)
        (fun n => N.get_epsilon_2H (H n) (d n).dH (d n).d2H)
        (fun n => N.get_epsilon_3H (H n) (d n).dH (d n).d2H (d n).d3H)) ∧
    IsGongFlow S (fun _ => 1) H (fun n => N.get_epsilon_1H (H n) (d n).dH)
      (fun n => N.get_epsilon_2H_Gong (H n) (d n).dH (d n).d2H)
      (fun n => N.get_epsilon_3H_Gong (H n) (d n).dH (d n).d2H (d n).d3H) ∧
    ((∀ n ∈ S, q n ≠ 0) → IsDeltaFlow S (fun _ => 1) H (fun n => H n * q n)
      (fun n => N.get_delta_1 (H n) (d n).dH (q n) (d n).d2phi)
      (fun n => N.get_delta_2 (H n) (d n).dH (d n).d2H (q n) (d n).d2phi (d n).d3phi)
      (fun n => N.get_delta_3 (H n) (d n).dH (d n).d2H (d n).d3H (q n) (d n).d2phi (d n).d3phi
        (d n).d4phi)) := by
  intro H d q
  obtain ⟨h1, -, h2, h3, -, p1, p2, p3⟩ := C15_derivatives hS sol hH hV hV2 hV3 hφ
  have hp : ∀ n ∈ S, 0 < H n := fun n hn => sqrt_pos.mpr (hH n hn)
  refine ⟨fun a b => flowN h1 h2 h3 hp a b, gongN h1 h2 h3 hp, fun hq => ?_⟩
  have h1' : IsDerivOn S H (fun n => (d n).dH) := h1
  have p1' : IsDerivOn S q (fun n => (d n).d2phi) := p1
  have p2' : IsDerivOn S (fun n => (d n).d2phi) (fun n => (d n).d3phi) := p2
  have p3' : IsDerivOn S (fun n => (d n).d3phi) (fun n => (d n).d4phi) := p3
  refine ⟨fun n hn => ?_, fun n hn => ?_, fun n hn => ?_⟩ <;>
    have Hn := (hp n hn).ne' <;> have qn := hq n hn
  · refine hderiv ((h1' n hn).mul (p1' n hn)) ?_
    simp only [N.get_delta_1]; field_simp; ring
  · have h := ((h1' n hn).mul ((h1' n hn).mul (p1' n hn))).mul
      (((p2' n hn).div (p1' n hn) qn).add ((h2 n hn).div (h1' n hn) Hn))
    refine hderiv (f := fun n => H n * (H n * q n) * N.get_delta_1 (H n) (d n).dH (q n) (d n).d2phi) h ?_
    simp only [N.get_delta_2, Pi.mul_apply, Pi.add_apply, Pi.div_apply]
    simp only [d] at *
    field_simp; ring
  · have h := (((h1' n hn).pow 2).mul ((h1' n hn).mul (p1' n hn))).mul
      (((((p3' n hn).div (p1' n hn) qn).add
        (((((p2' n hn).const_mul 3).div (p1' n hn) qn).mul (h2 n hn)).div (h1' n hn) Hn)).add
        ((h3 n hn).div (h1' n hn) Hn)).add (((h2 n hn).pow 2).div ((h1' n hn).pow 2) (pow_ne_zero 2 Hn)))
    refine hderiv (f := fun n => (H n)^2 * (H n * q n) *
      N.get_delta_2 (H n) (d n).dH (d n).d2H (q n) (d n).d2phi (d n).d3phi) h ?_
    simp only [N.get_delta_3, Pi.mul_apply, Pi.add_apply, Pi.div_apply, Pi.pow_apply]
    simp only [d] at *
    push_cast
    field_simp; ring

/-- Cosmic time, flat: all parameters. -/
theorem C18_time_flat_partial {S D : Set ℝ} {e : InflT} {y : ℝ → ℕ → ℝ} (hS : IsOpen S)
    (sol : SolvesODE S e.rows e.call y)
    (hH : ∀ n ∈ S, 0 < e.H2 (y n)) (hV : IsDerivOn D e.pot.V e.pot.dV)
    (hV2 : IsDerivOn D e.pot.dV e.pot.d2V) (hV3 : IsDerivOn D e.pot.d2V e.pot.d3V)
    (hφ : ∀ n ∈ S, InflT.phi (y n) ∈ D) (hK : e.K = 0) :
    let H := fun t => e.H (y t)
    let d := fun t => e.derivs (y t)
    let p := fun t => InflT.dphidt (y t)
    ((∀ t ∈ S, (d t).dH ≠ 0) → (∀ t ∈ S, T.get_epsilon_2H (H t) (d t).dH (d t).d2H ≠ 0) →
      IsHubbleFlow S H H (fun t => T.get_epsilon_1H (H t) (d t).dH)
        (fun t => T.get_epsilon_2H (H t) (d t).dH (d t).d2H)
        (fun t => T.get_epsilon_3H (H t) (d t).dH (d t).d2H (d t).d3H)) ∧
    IsGongFlow S H H (fun t => T.get_epsilon_1H (H t) (d t).dH)
      (fun t => T.get_epsilon_2H_Gong (H t) (d t).dH (d t).d2H)
      (fun t => T.get_epsilon_3H_Gong (H t) (d t).dH (d t).d2H (d t).d3H) ∧
    ((∀ t ∈ S, p t ≠ 0) → IsDeltaFlow S H H p
      (fun t => T.get_delta_1 (H t) (d t).dH (p t) (d t).d2phi)
      (fun t => T.get_delta_2 (H t) (d t).dH (d t).d2H (p t) (d t).d2phi (d t).d3phi)
      (fun t => T.get_delta_3 (H t) (d t).dH (d t).d2H (d t).d3H (p t) (d t).d2phi (d t).d3phi
        (d t).d4phi)) := by
  intro H d p
  obtain ⟨h1, h2, h3, -, p1, p2, p3⟩ := C14_flat_partial hS sol hH hV hV2 hV3 hφ hK
  have hp : ∀ n ∈ S, 0 < H n := fun n hn => sqrt_pos.mpr (hH n hn)
  refine ⟨fun a b => flowT h1 h2 h3 hp a b, gongT h1 h2 h3 hp, fun hq => ?_⟩
  have p1' : IsDerivOn S p (fun n => (d n).d2phi) := p1
  have p2' : IsDerivOn S (fun n => (d n).d2phi) (fun n => (d n).d3phi) := p2
  have p3' : IsDerivOn S (fun n => (d n).d3phi) (fun n => (d n).d4phi) := p3
  refine ⟨fun n hn => ?_, fun n hn => ?_, fun n hn => ?_⟩ <;>
    have Hn := (hp n hn).ne' <;> have qn := hq n hn
  · refine hderiv (p1' n hn) ?_
    simp only [T.get_delta_1]; field_simp
  · have ev : (fun x => H x * p x * T.get_delta_1 (H x) (d x).dH (p x) (d x).d2phi)
        =ᶠ[nhds n] (fun n => (d n).d2phi) := by
      filter_upwards [hS.mem_nhds hn] with s hs
      have a := (hp s hs).ne'; have b := hq s hs
      simp only [T.get_delta_1]; field_simp
    refine hderiv ((p2' n hn).congr_of_eventuallyEq ev) ?_
    simp only [T.get_delta_2]; field_simp
  · have ev : (fun x => (H x)^2 * p x * T.get_delta_2 (H x) (d x).dH (d x).d2H (p x) (d x).d2phi
        (d x).d3phi) =ᶠ[nhds n] (fun n => (d n).d3phi) := by
      filter_upwards [hS.mem_nhds hn] with s hs
      have a := (hp s hs).ne'; have b := hq s hs
      simp only [T.get_delta_2]; field_simp
    refine hderiv ((p3' n hn).congr_of_eventuallyEq ev) ?_
    simp only [T.get_delta_3]; field_simp

/-- Cosmic time, every curvature: ε₁ and ε₂ (both kinds). -/
theorem C18_time_curved_low {S D : Set ℝ} {e : InflT} {y : ℝ → ℕ → ℝ} (hS : IsOpen S)
    (sol : SolvesODE S e.rows e.call y)
    (hH : ∀ n ∈ S, 0 < e.H2 (y n)) (hV : IsDerivOn D e.pot.V e.pot.dV)
    (hφ : ∀ n ∈ S, InflT.phi (y n) ∈ D) (t : ℝ) (ht : t ∈ S) :
    let H := fun t => e.H (y t)
    let d := fun t => e.derivs (y t)
    HasDerivAt (fun t => log (H t)) (-(H t * T.get_epsilon_1H (H t) (d t).dH)) t ∧
    ((d t).dH ≠ 0 → HasDerivAt (fun t => T.get_epsilon_1H (H t) (d t).dH)
      (H t * (T.get_epsilon_1H (H t) (d t).dH * T.get_epsilon_2H (H t) (d t).dH (d t).d2H)) t) ∧
    HasDerivAt (fun t => T.get_epsilon_1H (H t) (d t).dH)
      (H t * T.get_epsilon_2H_Gong (H t) (d t).dH (d t).d2H) t := by
  intro H d
  obtain ⟨h1, -, -, h2⟩ := C14_first_second hS sol hH hV hφ
  have hp : 0 < H t := sqrt_pos.mpr (hH t ht)
  have h1' : HasDerivAt H (d t).dH t := h1 t ht
  have key := ((h2 t ht).neg).div (h1'.pow 2) (pow_pos hp 2).ne'
  refine ⟨?_, fun hd => ?_, ?_⟩
  · refine hderiv (h1'.log hp.ne') ?_
    simp only [T.get_epsilon_1H]; field_simp
  · refine hderiv (f := fun t => T.get_epsilon_1H (H t) (d t).dH) key ?_
    simp only [T.get_epsilon_1H, T.get_epsilon_2H, Pi.neg_apply, Pi.pow_apply]
    simp only [d] at *
    push_cast; field_simp; ring
  · refine hderiv (f := fun t => T.get_epsilon_1H (H t) (d t).dH) key ?_
    simp only [T.get_epsilon_2H_Gong, Pi.neg_apply, Pi.pow_apply]
    simp only [d] at *
    push_cast; field_simp; ring

/-- Non-vacuity of `C18_time_flat_partial`: on the trajectory `φ = -2t` (`t < 0`) in `V = 3φ² - 2`
neither `dH` nor ε₂ nor the velocity vanishes. -/
example (t : ℝ) (ht : t < 0) :
    0 < Exact.hjT.H2 (Exact.yHjT t) ∧ (Exact.hjT.derivs (Exact.yHjT t)).dH ≠ 0 ∧
    InflT.dphidt (Exact.yHjT t) ≠ 0 ∧
    T.get_epsilon_2H (Exact.hjT.H (Exact.yHjT t)) (Exact.hjT.derivs (Exact.yHjT t)).dH
      (Exact.hjT.derivs (Exact.yHjT t)).d2H ≠ 0 ∧
    SolvesODE (Iio 0) Exact.hjT.rows Exact.hjT.call Exact.yHjT ∧ Exact.hjT.K = 0 := by
  have hp : 0 < -2 * t := by linarith
  have hs : √((-2 * t)^2) = -2 * t := sqrt_sq hp.le
  have hdH : (Exact.hjT.derivs (Exact.yHjT t)).dH = -2 := by
    simp only [InflT.derivs, T.pipeline, T.get_dH, Exact.hjT, InflT.dphidt, Exact.yHjT]; norm_num
  have hd2H : (Exact.hjT.derivs (Exact.yHjT t)).d2H = 0 := by
    simp only [InflT.derivs, T.pipeline, T.get_d2H, T.get_d2phi, Exact.hjT_H ht, hs]
    simp only [Exact.hjT, InflT.dphidt, Exact.yHjT, Exact.hjPot, InflT.phi]; ring
  refine ⟨by rw [Exact.hjT_H2]; positivity, by rw [hdH]; norm_num, by
    simp [InflT.dphidt, Exact.yHjT], ?_, Exact.hjT_sol, rfl⟩
  rw [hdH, hd2H, Exact.hjT_H ht]
  simp only [T.get_epsilon_2H, zero_div, zero_sub, neg_ne_zero]
  exact div_ne_zero (by norm_num) (pow_ne_zero 2 hp.ne')

/-- Non-vacuity of `C18_efolds`: closed de Sitter space. -/
example (n : ℝ) (hn : 0 < n) :
    0 < Exact.dsN.H2 n (Exact.yDsN n) ∧ (Exact.dsN.derivs n (Exact.yDsN n)).dH ≠ 0 ∧
    N.get_epsilon_2H (Exact.dsN.H n (Exact.yDsN n)) (Exact.dsN.derivs n (Exact.yDsN n)).dH
      (Exact.dsN.derivs n (Exact.yDsN n)).d2H ≠ 0 ∧
    SolvesODE (Ioi 0) Exact.dsN.rows Exact.dsN.call Exact.yDsN := by
  have h2 := Exact.dsN_pos hn
  have hp : 0 < Exact.dsN.H n (Exact.yDsN n) := sqrt_pos.mpr h2
  obtain ⟨h, hh⟩ : ∃ h, h = Exact.dsN.H n (Exact.yDsN n) := ⟨_, rfl⟩
  rw [← hh] at hp
  have hE := exp_pos (-2 * n)
  have hdH : (Exact.dsN.derivs n (Exact.yDsN n)).dH = exp (-2 * n) / h := by
    simp only [InflN.derivs, N.pipeline, N.get_dH, ← hh]
    simp only [Exact.dsN, InflN.dphidN, Exact.yDsN]; ring
  have hd2H : (Exact.dsN.derivs n (Exact.yDsN n)).d2H
      = -exp (-2*n) * (2 * h + exp (-2*n) / h) / h^2 := by
    rw [← hdH]
    simp only [InflN.derivs, N.pipeline, N.get_d2H, N.get_dH, ← hh]
    simp only [Exact.dsN, InflN.dphidN, Exact.yDsN]; ring
  refine ⟨h2, by rw [hdH]; positivity, ?_, Exact.dsN_sol⟩
  rw [hdH, hd2H, ← hh]
  have : N.get_epsilon_2H h (exp (-2 * n) / h) (-exp (-2*n) * (2 * h + exp (-2*n) / h) / h^2)
      = -(2 * (1 + exp (-2*n) / h^2)) := by
    simp only [N.get_epsilon_2H]; field_simp; ring
  rw [this]
  exact neg_ne_zero.mpr (by positivity)

end Primpy
