import Verif.Props.C86
import Verif.Props.C09

/-!
# C87: the amplitude promised by the potential is the amplitude of the numerical spectrum
-/

namespace Primpy
open Real Spec Set

/-- algebra: the potential's slow-roll amplitude against the one in terms of `H` and `ε₁` -/
theorem potential_amplitude {δ h ε E v e1V : ℝ} (hδ : δ ≤ 1 / 20) (hh : 0 < h) (h1 : 0 < ε) (h2 : ε ≤ δ) (h3 : |E| ≤ δ)
    (hv : v = h ^ 2 * (3 - ε)) (he : e1V = ε * ((3 - ε + E / 2) / (3 - ε)) ^ 2) :
    0 < v ∧ 0 < e1V ∧ |e1V - ε| ≤ δ / 2 * ε ∧ |h ^ 2 / (8 * π ^ 2 * ε) - v / (24 * π ^ 2 * e1V)| ≤ δ * (v / (24 * π ^ 2 * e1V)) ∧
      |2 * h ^ 2 / π ^ 2 - 2 * v / (3 * π ^ 2)| ≤ δ * (2 * v / (3 * π ^ 2)) := by
  have hπ := pi_pos
  have h3' := abs_le.1 h3
  have a1 : 0 < 3 - ε := by linarith
  have a2 : 0 < 3 - ε + E / 2 := by linarith
  obtain ⟨r, hr⟩ : ∃ r, r = (3 - ε + E / 2) / (3 - ε) := ⟨_, rfl⟩
  have hr0 : 0 < r := by rw [hr]; positivity
  have hr1 : |r - 1| ≤ δ / 5 := by
    rw [hr, div_sub_one a1.ne', abs_div, abs_of_pos a1, div_le_iff₀ a1, add_sub_cancel_left, abs_div, abs_two]
    nlinarith
  have hr1' := abs_le.1 hr1
  rw [← hr] at he
  have hv0 : 0 < v := by rw [hv]; positivity
  have he0 : 0 < e1V := by rw [he]; positivity
  refine ⟨hv0, he0, ?_, ?_, ?_⟩
  · rw [he, show ε * r ^ 2 - ε = ε * ((r - 1) * (r + 1)) by ring, abs_mul, abs_of_pos h1, mul_comm (δ / 2)]
    refine mul_le_mul_of_nonneg_left ?_ h1.le
    rw [abs_mul]
    have : |r + 1| ≤ 5 / 2 := abs_le.2 ⟨by linarith, by linarith⟩
    have := mul_le_mul hr1 this (abs_nonneg _) (by linarith [abs_nonneg E])
    linarith
  · have e : h ^ 2 / (8 * π ^ 2 * ε) - v / (24 * π ^ 2 * e1V) = (3 * r ^ 2 / (3 - ε) - 1) * (v / (24 * π ^ 2 * e1V)) := by
      rw [hv, he]; field_simp; ring
    rw [e, abs_mul, abs_of_pos (by positivity : 0 < v / (24 * π ^ 2 * e1V))]
    refine mul_le_mul_of_nonneg_right ?_ (by positivity)
    rw [div_sub_one a1.ne', abs_div, abs_of_pos a1, div_le_iff₀ a1]
    have q1 : r ^ 2 - 1 ≤ δ / 2 := by nlinarith
    have q2 : -(δ / 2) ≤ r ^ 2 - 1 := by nlinarith
    exact abs_le.2 ⟨by nlinarith, by nlinarith⟩
  · have e : 2 * h ^ 2 / π ^ 2 - 2 * v / (3 * π ^ 2) = ε / (3 - ε) * (2 * v / (3 * π ^ 2)) := by
      rw [hv]; field_simp; ring
    rw [e, abs_mul, abs_of_pos (by positivity : 0 < 2 * v / (3 * π ^ 2)), abs_of_pos (by positivity : 0 < ε / (3 - ε))]
    refine mul_le_mul_of_nonneg_right ?_ (by positivity)
    rw [div_le_iff₀ a1]
    nlinarith

theorem near_chain {P A B C δ : ℝ} (hC : 0 ≤ C) (hδ0 : 0 < δ) (hδ : δ ≤ 1 / 20) (hB : 0 < B) (h1 : |P - A| ≤ C * δ * A) (h2 : |A - B| ≤ δ * B) : |P - B| ≤ (2 * C + 1) * δ * B := by
  have h2' := abs_le.1 h2
  have hA : A ≤ 2 * B := by nlinarith
  have := abs_sub_le P A B
  have : C * δ * A ≤ C * δ * (2 * B) := mul_le_mul_of_nonneg_left hA (by positivity)
  linarith

/-- What `sr_As2Lambda` promises, whichever way it is called. -/
theorem As2Lambda_amplitude (fam : ℝ → SRMethods) (hfam : ScaleFree fam) {L A Λ φs Ns : ℝ} (hL : L ≠ 0) (hA : 0 < A)
    (hset : sr_As2Lambda L (fam L) A none (some Ns) = .ok (Λ, φs, Ns) ∨ sr_As2Lambda L (fam L) A (some φs) none = .ok (Λ, φs, Ns))
    (hV0 : 0 < (fam L).V φs) (hE0 : 0 < (fam L).get_epsilon_1V φs) : slowRollAmplitude (fam Λ) φs = A := by
  rcases hset with h | h
  · have h1 : (fam L).sr_N2phi Ns = .ok φs := by
      simp only [sr_As2Lambda] at h
      cases h2 : (fam L).sr_N2phi Ns with
      | error e => rw [h2] at h; cases h
      | ok φ' => rw [h2] at h; cases h; rfl
    obtain ⟨L', g1, g2, -⟩ := C09_from_Nstar fam hfam L A Ns φs hL hA h1 hV0 hE0
    rw [h] at g1
    cases g1
    exact g2
  · have h1 : (fam L).sr_phi2N φs = .ok Ns := by
      simp only [sr_As2Lambda] at h
      cases h2 : (fam L).sr_phi2N φs with
      | error e => rw [h2] at h; cases h
      | ok φ' => rw [h2] at h; cases h; rfl
    obtain ⟨L', g1, g2, -⟩ := C09_from_phistar fam hfam L A Ns φs hL hA h1 hV0 hE0
    rw [h] at g1
    cases g1
    exact g2

/-- quotients of two quantities known to relative accuracy `κ` -/
theorem near_ratio {P Q S T κ : ℝ} (hS : 0 < S) (hT : 0 < T) (hκ : κ ≤ 1 / 2) (h1 : |P - S| ≤ κ * S) (h2 : |Q - T| ≤ κ * T) : |Q / P - T / S| ≤ 4 * κ * (T / S) := by
  have a1 := abs_le.1 h1
  have a2 := abs_le.1 h2
  have hP : S / 2 ≤ P := by nlinarith
  have hP0 : 0 < P := by linarith
  rw [div_sub_div _ _ hP0.ne' hS.ne', abs_div, abs_of_pos (mul_pos hP0 hS), div_le_iff₀ (mul_pos hP0 hS)]
  have e1 : 4 * κ * (T / S) * (P * S) = 4 * κ * T * P := by field_simp
  rw [e1, show Q * S - P * T = (Q - T) * S - (P - S) * T by ring]
  refine (abs_sub _ _).trans ?_
  rw [abs_mul, abs_mul, abs_of_pos hS, abs_of_pos hT]
  have b1 := mul_le_mul_of_nonneg_right h2 hS.le
  have b2 := mul_le_mul_of_nonneg_right h1 hT.le
  have hκ0 : 0 ≤ κ := by
    by_contra h
    have := abs_nonneg (P - S)
    nlinarith
  have b3 : κ * T * (S / 2) ≤ κ * T * P := mul_le_mul_of_nonneg_left hP (by positivity)
  linarith

namespace Pert
section
variable {δ : ℝ} {S D : Set ℝ} {pot : PotFns} {e1V e1 e2 d2 N φ q H : ℝ → ℝ}

/-- **C87, e-folds.**  On every flat slow-roll background an exact numerical run reports, for the mode that crosses the horizon at the field value `φ`, the
scalar amplitude `V/(24π²ε₁V)` and the tensor amplitude `2V/(3π²)` of the potential at `φ`, up to a relative error of a constant times `δ`. -/
theorem C87_efolds (hδ0 : 0 < δ) (hδ : δ ≤ 1 / 20) (hS : IsOpen S) (hc : IsPreconnected S) (u : IsUniverseN S pot.V pot.dV 0 φ q H)
    (hV : IsDerivOn D pot.V pot.dV) (hV2 : IsDerivOn D pot.dV pot.d2V) (hφ : ∀ n ∈ S, φ n ∈ D) (sr : IsSlowRoll δ S (fun _ => 1) H e1 e2 d2)
    (he : ∀ φ ∈ D, e1V φ = (pot.dV φ / pot.V φ) ^ 2 / 2) {osc : Oscode} {b : Bg} {kw : OscKw} {k : ℝ} {r : ModeSpectra} (R : SlowRunN δ S pot φ q H osc b kw k r) :
    ∀ vac ∈ kw.vacuum, ∃ Ps Pt : ℝ, r.P_s.get? vac = some (some Ps) ∧ r.P_t.get? vac = some (some Pt) ∧ ∀ n ∈ S, k = exp n * H n →
      |Ps - pot.V (φ n) / (24 * π ^ 2 * e1V (φ n))| ≤ (2 * slowP + 1) * δ * (pot.V (φ n) / (24 * π ^ 2 * e1V (φ n))) ∧
      |Pt - 2 * pot.V (φ n) / (3 * π ^ 2)| ≤ (2 * slowP + 1) * δ * (2 * pot.V (φ n) / (3 * π ^ 2)) := by
  intro vac hvac
  obtain ⟨Ps, Pt, a1, a2, a3⟩ := (C84_efolds hδ0 hδ hS hc u hV hV2 hφ sr R).2 vac hvac
  refine ⟨Ps, Pt, a1, a2, fun n hn hk => ?_⟩
  obtain ⟨h1, h2, -, -, h5, -⟩ := slow_jetN hS u hV hV2 hφ sr n hn
  obtain ⟨s1, s2, s3, -⟩ := sr.small n hn
  have hH := u.expanding n hn
  have hf : pot.V (φ n) = H n ^ 2 * (3 - e1 n) := by
    have := u.friedmann n hn
    rw [h1]; linear_combination -this
  have he' : e1V (φ n) = e1 n * ((3 - e1 n + e2 n / 2) / (3 - e1 n)) ^ 2 := by
    have h3 : 0 < 3 - e1 n := by linarith
    rw [he _ (hφ n hn), hf, h5, show -(H n ^ 2 * q n * (3 - e1 n + e2 n / 2)) / (H n ^ 2 * (3 - e1 n)) = -(q n * ((3 - e1 n + e2 n / 2) / (3 - e1 n))) by field_simp, neg_sq, mul_pow]
    conv_rhs => rw [show e1 n * ((3 - e1 n + e2 n / 2) / (3 - e1 n)) ^ 2 = q n ^ 2 / 2 * ((3 - e1 n + e2 n / 2) / (3 - e1 n)) ^ 2 by rw [← h1]]
    ring
  obtain ⟨p1, p2, -, p4, p5⟩ := potential_amplitude hδ hH s1 s2 s3 hf he'
  obtain ⟨g1, g2⟩ := a3 n hn hk
  have hP : 0 ≤ slowP := by have := slowC_pos; unfold slowP; positivity
  have hπ := pi_pos
  exact ⟨near_chain hP hδ0 hδ (by positivity) g1 p4, near_chain hP hδ0 hδ (by positivity) g2 p5⟩

/-- **C87, cosmic time.** -/
theorem C87_time (hδ0 : 0 < δ) (hδ : δ ≤ 1 / 20) (hS : IsOpen S) (hc : IsPreconnected S) (u : IsUniverse S pot.V pot.dV 0 N φ q H)
    (hV : IsDerivOn D pot.V pot.dV) (hV2 : IsDerivOn D pot.dV pot.d2V) (hφ : ∀ n ∈ S, φ n ∈ D) (sr : IsSlowRoll δ S H H e1 e2 d2)
    (he : ∀ φ ∈ D, e1V φ = (pot.dV φ / pot.V φ) ^ 2 / 2) {osc : Oscode} {b : Bg} {kw : OscKw} {k : ℝ} {r : ModeSpectra} (R : SlowRunT δ S pot N φ q H osc b kw k r) :
    ∀ vac ∈ kw.vacuum, ∃ Ps Pt : ℝ, r.P_s.get? vac = some (some Ps) ∧ r.P_t.get? vac = some (some Pt) ∧ ∀ t ∈ S, k = exp (N t) * H t →
      |Ps - pot.V (φ t) / (24 * π ^ 2 * e1V (φ t))| ≤ (2 * slowP + 1) * δ * (pot.V (φ t) / (24 * π ^ 2 * e1V (φ t))) ∧
      |Pt - 2 * pot.V (φ t) / (3 * π ^ 2)| ≤ (2 * slowP + 1) * δ * (2 * pot.V (φ t) / (3 * π ^ 2)) := by
  intro vac hvac
  obtain ⟨Ps, Pt, a1, a2, a3⟩ := (C84_time hδ0 hδ hS hc u hV hV2 hφ sr R).2 vac hvac
  refine ⟨Ps, Pt, a1, a2, fun n hn hk => ?_⟩
  obtain ⟨h1, h2, -, -, h5, -⟩ := slow_jetT hS u hV hV2 hφ sr n hn
  obtain ⟨s1, s2, s3, -⟩ := sr.small n hn
  have hH := u.expanding n hn
  have hf : pot.V (φ n) = H n ^ 2 * (3 - e1 n) := by
    have := u.friedmann n hn
    rw [h1]; field_simp; linear_combination -2 * this
  have he' : e1V (φ n) = e1 n * ((3 - e1 n + e2 n / 2) / (3 - e1 n)) ^ 2 := by
    have h3 : 0 < 3 - e1 n := by linarith
    rw [he _ (hφ n hn), hf, h5, show -(H n * q n * (3 - e1 n + e2 n / 2)) / (H n ^ 2 * (3 - e1 n)) = -(q n / H n * ((3 - e1 n + e2 n / 2) / (3 - e1 n))) by field_simp, neg_sq, mul_pow]
    conv_rhs => rw [show e1 n * ((3 - e1 n + e2 n / 2) / (3 - e1 n)) ^ 2 = q n ^ 2 / (2 * H n ^ 2) * ((3 - e1 n + e2 n / 2) / (3 - e1 n)) ^ 2 by rw [← h1]]
    ring
  obtain ⟨p1, p2, -, p4, p5⟩ := potential_amplitude hδ hH s1 s2 s3 hf he'
  obtain ⟨g1, g2⟩ := a3 n hn hk
  have hP : 0 ≤ slowP := by have := slowC_pos; unfold slowP; positivity
  have hπ := pi_pos
  exact ⟨near_chain hP hδ0 hδ (by positivity) g1 p4, near_chain hP hδ0 hδ (by positivity) g2 p5⟩

/-- **C87, tensor-to-scalar ratio.**  The numerical spectra of the mode that crosses the horizon at `φ` have the ratio `16 ε₁V(φ)`, up to a constant times `δ`. -/
theorem C87_ratio (hδ0 : 0 < δ) (hδ : δ ≤ 1 / 20) (hδP : (2 * slowP + 1) * δ ≤ 1 / 2) (hS : IsOpen S) (hc : IsPreconnected S)
    (hV : IsDerivOn D pot.V pot.dV) (hV2 : IsDerivOn D pot.dV pot.d2V) (hφ : ∀ n ∈ S, φ n ∈ D)
    (hpos : ∀ φ ∈ D, 0 < pot.V φ ∧ pot.dV φ ≠ 0) (he : ∀ φ ∈ D, e1V φ = (pot.dV φ / pot.V φ) ^ 2 / 2)
    {osc : Oscode} {b : Bg} {kw : OscKw} {k : ℝ} {r : ModeSpectra} {x : ℝ} (hx : x ∈ S)
    (run : (IsUniverseN S pot.V pot.dV 0 φ q H ∧ IsSlowRoll δ S (fun _ => 1) H e1 e2 d2 ∧ SlowRunN δ S pot φ q H osc b kw k r ∧ k = exp x * H x) ∨
      (IsUniverse S pot.V pot.dV 0 N φ q H ∧ IsSlowRoll δ S H H e1 e2 d2 ∧ SlowRunT δ S pot N φ q H osc b kw k r ∧ k = exp (N x) * H x)) :
    ∀ vac ∈ kw.vacuum, ∃ Ps Pt : ℝ, r.P_s.get? vac = some (some Ps) ∧ r.P_t.get? vac = some (some Pt) ∧
      |Pt / Ps - 16 * e1V (φ x)| ≤ 4 * ((2 * slowP + 1) * δ) * (16 * e1V (φ x)) := by
  intro vac hvac
  have hπ := pi_pos
  obtain ⟨hV0, hd0⟩ := hpos _ (hφ x hx)
  have hE : 0 < e1V (φ x) := by rw [he _ (hφ x hx)]; positivity
  have e : 2 * pot.V (φ x) / (3 * π ^ 2) / (pot.V (φ x) / (24 * π ^ 2 * e1V (φ x))) = 16 * e1V (φ x) := by
    field_simp
    norm_num
  obtain ⟨Ps, Pt, a1, a2, a3, a4⟩ : ∃ Ps Pt : ℝ, r.P_s.get? vac = some (some Ps) ∧ r.P_t.get? vac = some (some Pt) ∧
      |Ps - pot.V (φ x) / (24 * π ^ 2 * e1V (φ x))| ≤ (2 * slowP + 1) * δ * (pot.V (φ x) / (24 * π ^ 2 * e1V (φ x))) ∧
      |Pt - 2 * pot.V (φ x) / (3 * π ^ 2)| ≤ (2 * slowP + 1) * δ * (2 * pot.V (φ x) / (3 * π ^ 2)) := by
    rcases run with ⟨u, sr, R, hk⟩ | ⟨u, sr, R, hk⟩
    · obtain ⟨Ps, Pt, a1, a2, a3⟩ := C87_efolds hδ0 hδ hS hc u hV hV2 hφ sr he R vac hvac
      exact ⟨Ps, Pt, a1, a2, a3 x hx hk⟩
    · obtain ⟨Ps, Pt, a1, a2, a3⟩ := C87_time hδ0 hδ hS hc u hV hV2 hφ sr he R vac hvac
      exact ⟨Ps, Pt, a1, a2, a3 x hx hk⟩
  refine ⟨Ps, Pt, a1, a2, ?_⟩
  rw [← e]
  exact near_ratio (by positivity) (by positivity) hδP a3 a4

/-- **C87, `sr_As2Lambda`.**  A potential whose `Lambda` was set with `sr_As2Lambda(A_s, N_star=...)` (or `phi_star=...`) gives the requested amplitude `A_s`, up to a constant times
`δ`, in the numerical spectrum of the mode that crosses the horizon at `phi_star` — on every slow-roll background, in cosmic time or e-folds. -/
theorem C87_As2Lambda (hδ0 : 0 < δ) (hδ : δ ≤ 1 / 20) (fam : ℝ → SRMethods) (hfam : ScaleFree fam) {L A Λ φs Ns : ℝ} (hL : L ≠ 0) (hA : 0 < A)
    (hset : sr_As2Lambda L (fam L) A none (some Ns) = .ok (Λ, φs, Ns) ∨ sr_As2Lambda L (fam L) A (some φs) none = .ok (Λ, φs, Ns))
    (hV0 : 0 < (fam L).V φs) (hE0 : 0 < (fam L).get_epsilon_1V φs)
    (hpV : pot.V = (fam Λ).V) (hV : IsDerivOn D pot.V pot.dV) (hV2 : IsDerivOn D pot.dV pot.d2V)
    (he : ∀ φ ∈ D, (fam Λ).get_epsilon_1V φ = (pot.dV φ / pot.V φ) ^ 2 / 2) (hS : IsOpen S) (hc : IsPreconnected S) (hφ : ∀ n ∈ S, φ n ∈ D)
    {osc : Oscode} {b : Bg} {kw : OscKw} {k : ℝ} {r : ModeSpectra} {x : ℝ} (hx : x ∈ S) (hφs : φ x = φs)
    (run : (IsUniverseN S pot.V pot.dV 0 φ q H ∧ IsSlowRoll δ S (fun _ => 1) H e1 e2 d2 ∧ SlowRunN δ S pot φ q H osc b kw k r ∧ k = exp x * H x) ∨
      (IsUniverse S pot.V pot.dV 0 N φ q H ∧ IsSlowRoll δ S H H e1 e2 d2 ∧ SlowRunT δ S pot N φ q H osc b kw k r ∧ k = exp (N x) * H x)) :
    ∀ vac ∈ kw.vacuum, ∃ Ps : ℝ, r.P_s.get? vac = some (some Ps) ∧ |Ps - A| ≤ (2 * slowP + 1) * δ * A := by
  have hamp := As2Lambda_amplitude fam hfam hL hA hset hV0 hE0
  intro vac hvac
  unfold slowRollAmplitude at hamp
  rcases run with ⟨u, sr, R, hk⟩ | ⟨u, sr, R, hk⟩
  · obtain ⟨Ps, Pt, a1, -, a3⟩ := C87_efolds hδ0 hδ hS hc u hV hV2 hφ sr he R vac hvac
    have := (a3 x hx hk).1
    rw [hφs, hpV, hamp] at this
    exact ⟨Ps, a1, this⟩
  · obtain ⟨Ps, Pt, a1, -, a3⟩ := C87_time hδ0 hδ hS hc u hV hV2 hφ sr he R vac hvac
    have := (a3 x hx hk).1
    rw [hφs, hpV, hamp] at this
    exact ⟨Ps, a1, this⟩
end

/-- Hypotheses met (all of them at once, for arbitrarily small `δ`): power-law inflation, every wavenumber. -/
example {δ q : ℝ} (hδ0 : 0 < δ) (hδ : δ ≤ 1 / 20) (hq : q ≠ 0) (hqδ : q ^ 2 / 2 ≤ δ) : ∃ (pot : PotFns) (φ H : ℝ → ℝ),
    IsUniverseN Set.univ pot.V pot.dV 0 φ (fun _ => q) H ∧ IsDerivOn Set.univ pot.V pot.dV ∧ IsDerivOn Set.univ pot.dV pot.d2V ∧
    IsSlowRoll δ Set.univ (fun _ => 1) H (fun _ => q ^ 2 / 2) (fun _ => 0) (fun _ => 0) ∧
    ∀ k, 0 < k → (∃ n, k = exp n * H n) ∧ ∃ osc b r, SlowRunN δ Set.univ pot φ (fun _ => q) H osc b { vacuum := ["k", "HD", "RST"] } k r := by
  obtain ⟨pot, φ, H, u, V, V2, h⟩ := exists_runN (X := 1 / δ) hq (by linarith) hδ0
  refine ⟨pot, φ, H, u, V, V2, ⟨fun n _ => ?_, fun n _ => ?_, fun n _ => ?_, fun n _ => ⟨by positivity, hqδ, by simpa using hδ0.le, by simpa using hδ0.le⟩⟩, fun k hk => ⟨(h k hk).1, ?_⟩⟩
  · have hH : 0 < H n := u.expanding n trivial
    exact ((u.dH isOpen_univ V (fun _ _ => trivial) n trivial).log hH.ne').congr_deriv (by field_simp; ring)
  · exact (hasDerivAt_const n _).congr_deriv (by ring)
  · exact (hasDerivAt_const n _).congr_deriv (by ring)
  · obtain ⟨-, osc, b, r, R⟩ := h k hk
    refine ⟨osc, b, r, R.indep, R.flat, R.potential, R.pos, fun _ _ _ p _ _ hp => R.grid p (List.mem_of_getElem? hp), R.ic, R.run, fun p hp => ?_, R.exact⟩
    have := R.inside p hp
    rw [div_mul_eq_mul_div, div_le_iff₀ hδ0] at this
    linarith
end Pert
end Primpy
