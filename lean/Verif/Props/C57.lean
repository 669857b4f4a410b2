import Verif.Model.Wrapper
import Mathlib.Analysis.SpecialFunctions.ExpDeriv
import Mathlib.Analysis.SpecialFunctions.Log.Deriv
import Mathlib.Analysis.SpecialFunctions.Pow.Asymptotics

/-!
# C57: power-law spectrum wrapper
-/

namespace Primpy
open Real
namespace Wrap

/-- `P` is the amplitude `A` at the pivot scale, and with respect to `x = ln(k / k_pivot)`, `ln(P/A)` has first, second and third derivative
`tilt`, `running`, `runrun` at the pivot, the third one being constant; `P` has the sign of `A`. -/
def IsPowerLaw (P : ℝ → ℝ) (k_pivot A tilt running runrun : ℝ) : Prop :=
  P k_pivot = A ∧ (A = 0 → ∀ k, P k = 0) ∧ (A ≠ 0 → (∀ k, 0 < P k / A) ∧
    ∃ d1 d2 : ℝ → ℝ, (∀ x, HasDerivAt (fun x => log (P (k_pivot * exp x) / A)) (d1 x) x) ∧ (∀ x, HasDerivAt d1 (d2 x) x) ∧
      (∀ x, HasDerivAt d2 runrun x) ∧ d1 0 = tilt ∧ d2 0 = running)

theorem scalar_isPowerLaw {k_pivot : ℝ} (hk : 0 < k_pivot) (A n r rr : ℝ) :
    IsPowerLaw (scalar_pk A n r rr k_pivot) k_pivot A (n - 1) r rr := by
  refine ⟨by simp [scalar_pk, hk.ne'], fun h k => by simp [scalar_pk, h], fun hA => ⟨fun k => ?_, ?_⟩⟩
  · simp only [scalar_pk]
    rw [mul_div_assoc, mul_comm, div_mul_eq_mul_div, mul_div_assoc, div_self hA, mul_one]
    exact exp_pos _
  · refine ⟨fun x => (n - 1) + r * x + rr / 2 * x ^ 2, fun x => r + rr * x, fun x => ?_, fun x => ?_, fun x => ?_, by simp, by simp⟩
    · have e : (fun x => log (scalar_pk A n r rr k_pivot (k_pivot * exp x) / A)) =
          fun x => (n - 1) * x + r / 2 * x ^ 2 + rr / 6 * x ^ 3 := by
        funext x
        have : k_pivot * exp x / k_pivot = exp x := by field_simp
        simp only [scalar_pk, this, log_exp]
        rw [mul_comm A, mul_div_assoc, div_self hA, mul_one, log_exp]
      rw [e]
      have h := (((hasDerivAt_id x).const_mul (n - 1)).add (((hasDerivAt_id x).pow 2).const_mul (r / 2))).add
        (((hasDerivAt_id x).pow 3).const_mul (rr / 6))
      refine h.congr_deriv ?_
      simp
      ring
    · have h := (((hasDerivAt_id x).const_mul r).const_add (n - 1)).add (((hasDerivAt_id x).pow 2).const_mul (rr / 2))
      refine h.congr_deriv ?_
      simp
      ring
    · have h := ((hasDerivAt_id x).const_mul rr).const_add r
      refine h.congr_deriv ?_
      simp

theorem tensor_eq_scalar (A n r k_pivot : ℝ) : tensor_pk A n r k_pivot = scalar_pk A (n + 1) r 0 k_pivot := by
  funext k
  simp [tensor_pk, scalar_pk]

theorem tensor_isPowerLaw {k_pivot : ℝ} (hk : 0 < k_pivot) (A n r : ℝ) :
    IsPowerLaw (tensor_pk A n r k_pivot) k_pivot A n r 0 := by
  rw [tensor_eq_scalar]
  have := scalar_isPowerLaw hk A (n + 1) r 0
  rwa [add_sub_cancel_right] at this

/-- **C57, scalar.**  Whatever the parameters, a successful `PowerLawPPS.calculate` stores at every wavenumber of the grid the values of a power
law with amplitude `A_s` at the pivot, tilt `n_s - 1` (`0` if `n_s` is not sampled), running `n_run`, running of the running `n_runrun`
(`0` if not sampled). -/
theorem C57_scalar {k_pivot : ℝ} (hk : 0 < k_pivot) {ks : List ℝ} {p : Params} {s : Spectra} (h : powerLaw k_pivot ks p = .ok s) :
    ∃ A_s P, p.A_s = some A_s ∧ s.Pks = ks.map P ∧
      IsPowerLaw P k_pivot A_s (p.n_s.getD 1 - 1) (p.n_run.getD 0) (p.n_runrun.getD 0) := by
  unfold powerLaw at h
  split at h
  · cases h
  next q hq =>
  unfold resolve at hq
  split at hq
  · cases hq
  next A_s hA =>
  dsimp only at hq
  split_ifs at hq
  all_goals
    cases hq
    unfold baseSpectra at h
    split at h
    · cases h
    · cases h
      exact ⟨A_s, _, hA, rfl, scalar_isPowerLaw hk _ _ _ _⟩

/-- **C57, tensor.**  Let `r` be the sampled tensor-to-scalar ratio, or `A_t / A_s` if it is not sampled.  If `r` and `A_t` are not negative, a successful
`PowerLawPPS.calculate` stores the values of a power law with amplitude `r A_s` at the pivot; with the sampled tilt and running, or, if
`n_t` is not sampled, with those of single-field inflationary consistency. -/
theorem C57_tensor {k_pivot : ℝ} (hk : 0 < k_pivot) {ks : List ℝ} {p : Params} {s : Spectra} (h : powerLaw k_pivot ks p = .ok s)
    {A_s r : ℝ} (hA : p.A_s = some A_s) (hr : r = p.r.getD (p.A_t.getD 0 / A_s)) (hr0 : 0 ≤ r) (hA0 : 0 ≤ p.A_t.getD 0) :
    ∃ P, s.Pkt = ks.map P ∧
      (∀ n_t, p.n_t = some n_t → IsPowerLaw P k_pivot (r * A_s) n_t (p.n_t_run.getD 0) 0) ∧
      (p.n_t = none → IsPowerLaw P k_pivot (r * A_s) (-r / 8 * (2 - p.n_s.getD 1 - r / 8)) (r / 8 * (r / 8 + p.n_s.getD 1 - 1)) 0) := by
  unfold powerLaw at h
  split at h
  · cases h
  next q hq =>
  unfold resolve at hq
  rw [hA] at hq
  dsimp only at hq
  rw [← hr] at hq
  by_cases hA1 : A_s = 0
  · rw [if_pos hA1] at hq; cases hq
  rw [if_neg hA1] at hq
  by_cases h1 : p.n_t = none ∧ ∃ x, p.n_t_run.or (some 0) = some x ∧ x ≠ 0
  · rw [if_pos h1] at hq; cases hq
  rw [if_neg h1] at hq
  by_cases h2 : 0 < p.A_t.getD 0 ∧ r ≠ p.A_t.getD 0 / A_s
  · rw [if_pos h2] at hq; cases hq
  rw [if_neg h2] at hq
  cases hq
  have hamp : (if 0 < p.A_t.getD 0 then p.A_t.getD 0 else if 0 < r then r * A_s else p.A_t.getD 0) = r * A_s := by
    split_ifs with c1 c2
    · have : r = p.A_t.getD 0 / A_s := by
        by_contra hne
        exact h2 ⟨c1, hne⟩
      rw [this]; field_simp
    · rfl
    · have e1 : r = 0 := le_antisymm (not_lt.1 c2) hr0
      have e2 : p.A_t.getD 0 = 0 := le_antisymm (not_lt.1 c1) hA0
      rw [e1, e2, zero_mul]
  rw [hamp] at h
  unfold baseSpectra at h
  dsimp only at h
  split at h
  · cases h
  next n_t_run hn =>
    cases h
    refine ⟨_, rfl, ?_, ?_⟩
    · intro n_t hnt
      rw [hnt]
      rw [hnt] at hn
      have : p.n_t_run.getD 0 = n_t_run := by
        simp only [reduceCtorEq, if_false] at hn
        cases hp : p.n_t_run with
        | none => rw [hp] at hn; simpa using hn
        | some x => rw [hp] at hn; simpa using hn
      rw [this]
      exact tensor_isPowerLaw hk _ _ _
    · intro hnt
      rw [hnt]
      rw [hnt, if_pos rfl, Option.some.injEq] at hn
      rw [← hn]
      exact tensor_isPowerLaw hk _ _ _

/-- **C57, when it raises**: exactly if `A_s` is missing or zero, if `n_t_run ≠ 0` is sampled without `n_t`, or if both `A_t > 0` and a different `r` are
sampled. -/
theorem C57_raises (k_pivot : ℝ) (ks : List ℝ) (p : Params) :
    (∃ e, powerLaw k_pivot ks p = .error e) ↔
      p.A_s = none ∨ p.A_s = some 0 ∨ (p.n_t = none ∧ ∃ x, p.n_t_run = some x ∧ x ≠ 0) ∨
      ∃ A_s A_t r, p.A_s = some A_s ∧ p.A_t = some A_t ∧ p.r = some r ∧ 0 < A_t ∧ r ≠ A_t / A_s := by
  obtain ⟨oA, n_s, n_run, n_rr, A_t, n_t, n_t_run, r⟩ := p
  unfold powerLaw resolve baseSpectra
  cases oA with
  | none => simp
  | some A_s =>
    dsimp only
    by_cases h0 : A_s = 0
    · simp [h0]
    · rw [if_neg h0]
      have hdef : (∃ x, n_t_run.or (some 0) = some x ∧ x ≠ 0) ↔ ∃ x, n_t_run = some x ∧ x ≠ 0 := by
        cases n_t_run <;> simp
      have hconf : (0 < A_t.getD 0 ∧ r.getD (A_t.getD 0 / A_s) ≠ A_t.getD 0 / A_s) ↔
          ∃ B t q, A_s = B ∧ A_t = some t ∧ r = some q ∧ 0 < t ∧ q ≠ t / B := by
        cases A_t with
        | none => simp
        | some t =>
          cases r with
          | none => simp
          | some q => simp
      by_cases h1 : n_t = none ∧ ∃ x, n_t_run = some x ∧ x ≠ 0
      · rw [if_pos (by rw [hdef]; exact h1)]
        simp [h1]
      · rw [if_neg (by rw [hdef]; exact h1)]
        by_cases h2 : 0 < A_t.getD 0 ∧ r.getD (A_t.getD 0 / A_s) ≠ A_t.getD 0 / A_s
        · rw [if_pos h2]
          simp only [Option.some.injEq, reduceCtorEq, false_or]
          constructor
          · intro _
            exact Or.inr (Or.inr (hconf.1 h2))
          · exact fun _ => ⟨_, rfl⟩
        · rw [if_neg h2]
          dsimp only
          have hsome : ∃ z, (if n_t = none then some (r.getD (A_t.getD 0 / A_s) / 8 * (r.getD (A_t.getD 0 / A_s) / 8 + n_s.getD 1 - 1))
              else n_t_run.or (some 0)) = some z := by
            split_ifs
            · exact ⟨_, rfl⟩
            · cases n_t_run <;> exact ⟨_, rfl⟩
          obtain ⟨z, hz⟩ := hsome
          rw [hz]
          constructor
          · rintro ⟨_, h⟩; cases h
          · rintro (h | h | h | h)
            · cases h
            · exact absurd (Option.some.inj h) h0
            · exact absurd h h1
            · simp only [Option.some.injEq] at h
              exact absurd (hconf.2 h) h2

/-- Hypotheses met: `A_s`, `n_s`, `r` sampled, and `r` together with `n_t`. -/
example : (∃ s, powerLaw 0.05 [0.001, 0.05, 1] { A_s := some 2, n_s := some 0.965, r := some 0.1 } = .ok s) ∧
    ∃ s, powerLaw 0.05 [0.001, 0.05, 1] { A_s := some 2, n_s := some 0.965, r := some 0.1, n_t := some (-0.01) } = .ok s := by
  constructor
  · refine not_forall_not.1 fun hn => ?_
    cases h : powerLaw 0.05 [0.001, 0.05, 1] { A_s := some 2, n_s := some 0.965, r := some 0.1 } with
    | ok s => exact hn s h
    | error e => have := (C57_raises _ _ _).1 ⟨e, h⟩; simp at this
  · refine not_forall_not.1 fun hn => ?_
    cases h : powerLaw 0.05 [0.001, 0.05, 1] { A_s := some 2, n_s := some 0.965, r := some 0.1, n_t := some (-0.01) } with
    | ok s => exact hn s h
    | error e => have := (C57_raises _ _ _).1 ⟨e, h⟩; simp at this

/-! ### features -/

theorem modulate_get {ks : List ℝ} {m : ℝ → ℝ} {s : Spectra} {P Pt : ℝ → ℝ} (h1 : s.Pks = ks.map P) (h2 : s.Pkt = ks.map Pt) :
    (modulate ks m s).Pks = ks.map (fun k => P k * m k) ∧ (modulate ks m s).Pkt = ks.map fun k => Pt k * m k := by
  simp only [modulate, h1, h2, List.zipWith_map_right, List.zipWith_self]
  exact ⟨trivial, trivial⟩

/-- **C57, features crash.**  The three feature spectra raise `TypeError` whenever a tensor tilt is sampled without a tensor running (for which the power-law wrapper
uses running 0), provided the parameters are otherwise fine. -/
theorem C57_feature_crash (k_pivot : ℝ) (ks : List ℝ) (p : Params) (n_t : ℝ) (hn : p.n_t = some n_t) (hrun : p.n_t_run = none)
    (hok : ∃ s, powerLaw k_pivot ks p = .ok s) (osc : ℝ → ℝ → ℝ → ℝ → ℝ → ℝ) (A w ph k_cut s_cut : Option ℝ) :
    (∃ m, oscillation osc k_pivot ks p A w ph = .error (.typeError m)) ∧ ∃ m, cutoffPPS k_pivot ks p k_cut s_cut = .error (.typeError m) := by
  have hno := mt (C57_raises k_pivot ks p).2 (by rintro ⟨e, he⟩; obtain ⟨s, hs⟩ := hok; rw [he] at hs; cases hs)
  push Not at hno
  obtain ⟨c1, c2, c3, c4⟩ := hno
  have key : ∃ q, resolve none p = .ok q ∧ q.n_t_run = none := by
    obtain ⟨oA, n_s, n_run, n_rr, A_t, on_t, n_t_run, r⟩ := p
    dsimp only at *
    subst hn hrun
    cases oA with
    | none => exact absurd rfl c1
    | some A_s =>
      have hA : A_s ≠ 0 := fun h => c2 (by rw [h])
      unfold resolve
      dsimp only
      rw [if_neg hA, if_neg (by simp)]
      have h2 : ¬ (0 < A_t.getD 0 ∧ r.getD (A_t.getD 0 / A_s) ≠ A_t.getD 0 / A_s) := by
        rintro ⟨h, h'⟩
        cases A_t with
        | none => simp at h
        | some t =>
          cases r with
          | none => simp at h'
          | some q => exact h' (by simpa using c4 A_s t q rfl rfl rfl (by simpa using h))
      rw [if_neg h2]
      exact ⟨_, rfl, by simp⟩
  obtain ⟨q, hq, hq'⟩ := key
  constructor
  · unfold oscillation baseSpectra
    rw [hq]
    dsimp only
    rw [hq']
    exact ⟨_, rfl⟩
  · unfold cutoffPPS baseSpectra
    rw [hq]
    dsimp only
    rw [hq']
    exact ⟨_, rfl⟩

/-- Even with amplitude zero the oscillation spectra need a frequency and a phase. -/
theorem C57_oscillation_needs_all (k_pivot : ℝ) (ks : List ℝ) (p : Params) (osc : ℝ → ℝ → ℝ → ℝ → ℝ → ℝ) (A w ph : Option ℝ) (s : Spectra)
    (h : oscillation osc k_pivot ks p A w ph = .ok s) : w.isSome ∧ ph.isSome := by
  unfold oscillation at h
  split at h
  · cases h
  split at h
  · cases h
  split at h
  · simp
  · cases h

/-- The power law an oscillation or cutoff spectrum modulates is the one `PowerLawPPS` gives for the same parameters, and scalar and tensor are multiplied by the
same factor. -/
theorem feature_base {k_pivot : ℝ} {ks : List ℝ} {p : Params} {q : Resolved} {s : Spectra} (hq : resolve none p = .ok q)
    (hs : baseSpectra k_pivot ks q = .ok s) : powerLaw k_pivot ks p = .ok s := by
  have hr : resolve (some 0) p = .ok q ∨ q.n_t_run = none := by
    obtain ⟨oA, n_s, n_run, n_rr, A_t, on_t, n_t_run, r⟩ := p
    unfold resolve at hq ⊢
    cases oA with
    | none => cases hq
    | some A_s =>
      dsimp only at hq ⊢
      cases n_t_run with
      | some x => left; exact hq
      | none =>
        by_cases c1 : A_s = 0
        · rw [if_pos c1] at hq; cases hq
        rw [if_neg c1] at hq ⊢
        rw [if_neg (by simp)] at hq
        by_cases c3 : 0 < A_t.getD 0 ∧ r.getD (A_t.getD 0 / A_s) ≠ A_t.getD 0 / A_s
        · rw [if_pos c3] at hq; cases hq
        rw [if_neg c3] at hq ⊢
        cases hq
        cases on_t with
        | none =>
          left
          rw [if_neg (by simp)]
          rfl
        | some n => right; simp
  rcases hr with h | h
  · unfold powerLaw
    rw [h]
    exact hs
  · unfold baseSpectra at hs
    rw [h] at hs
    cases hs

/-- **C57, oscillations.**  The log- and linear-oscillation spectra are the power-law spectra of the same parameters times `1 + A cos(w x + 2π p)`, scalar and
tensor alike, `x = ln(k/k_pivot)` or `k/k_pivot`; for `|A| < 1` the factor is positive, for `A = 0` it is 1. -/
theorem C57_oscillation {k_pivot : ℝ} {ks : List ℝ} {p : Params} {A w ph : ℝ} {s : Spectra} (lin : Bool)
    (h : oscillation (if lin then lin_oscillations else log_oscillations) k_pivot ks p (some A) (some w) (some ph) = .ok s) :
    ∃ s0 : Spectra, ∃ m : ℝ → ℝ, powerLaw k_pivot ks p = .ok s0 ∧ s = modulate ks m s0 ∧
      (∀ k, m k = 1 + A * cos (w * (if lin then k / k_pivot else log (k / k_pivot)) + 2 * π * ph)) ∧
      (|A| < 1 → ∀ k, 0 < m k) ∧ (A = 0 → ∀ k, m k = 1) := by
  unfold oscillation at h
  split at h
  · cases h
  next q hq =>
  split at h
  · cases h
  next s0 hs0 =>
  dsimp only at h
  cases h
  refine ⟨s0, _, feature_base hq hs0, rfl, ?_, ?_, ?_⟩
  · intro k
    cases lin <;> simp [lin_oscillations, log_oscillations]
  · intro hA k
    have hb : ∀ θ, 0 < 1 + A * cos θ := by
      intro θ
      have h1 : |A * cos θ| < 1 := by
        rw [abs_mul]
        exact lt_of_le_of_lt (mul_le_of_le_one_right (abs_nonneg _) (abs_cos_le_one θ)) hA
      have := (abs_lt.1 h1).1
      linarith
    cases lin
    · exact hb _
    · exact hb _
  · intro hA k
    cases lin <;> simp [lin_oscillations, log_oscillations, hA]

/-- **C57, cutoff.**  The cutoff spectra are the power-law spectra times `1 - exp(-(k/k_cut)^s)`, scalar and tensor alike; for positive `k_cut`, `s` the factor lies
strictly between 0 and 1, grows with `k`, tends to 0 on large scales and to 1 on small scales.  Defaults: `k_cut = 1e-3`, `s = 2`. -/
theorem C57_cutoff {k_pivot : ℝ} {ks : List ℝ} {p : Params} {k_cut s_cut : Option ℝ} {s : Spectra}
    (h : cutoffPPS k_pivot ks p k_cut s_cut = .ok s) :
    ∃ s0 : Spectra, ∃ m : ℝ → ℝ, powerLaw k_pivot ks p = .ok s0 ∧ s = modulate ks m s0 ∧
      (0 < k_cut.getD (1 / 1000) → 0 < s_cut.getD 2 →
        (∀ k, 0 < k → 0 < m k ∧ m k < 1) ∧ (∀ k k', 0 < k → k < k' → m k < m k') ∧
        Filter.Tendsto m (nhdsWithin 0 (Set.Ioi 0)) (nhds 0) ∧ Filter.Tendsto m Filter.atTop (nhds 1) ∧
        ∀ k, m k = 1 - exp (-(k / k_cut.getD (1 / 1000)) ^ (s_cut.getD 2))) := by
  unfold cutoffPPS at h
  split at h
  · cases h
  next q hq =>
  split at h
  · cases h
  next s0 hs0 =>
  cases h
  refine ⟨s0, _, feature_base hq hs0, rfl, ?_⟩
  intro hk hs
  generalize k_cut.getD (1 / 1000) = c at *
  generalize s_cut.getD 2 = q at *
  have hpow : ∀ k, 0 < k → 0 < (k / c) ^ q := fun k hk' => rpow_pos_of_pos (div_pos hk' hk) q
  refine ⟨fun k hk' => ⟨?_, ?_⟩, fun k k' hk' hlt => ?_, ?_, ?_, fun k => rfl⟩
  · have : exp (-(k / c) ^ q) < 1 := by rw [← exp_zero]; exact exp_lt_exp.2 (by linarith [hpow k hk'])
    simp only [cutoff]
    linarith
  · have := exp_pos (-(k / c) ^ q)
    simp only [cutoff]
    linarith
  · have h1 : (k / c) ^ q < (k' / c) ^ q := rpow_lt_rpow (div_pos hk' hk).le (div_lt_div_of_pos_right hlt hk) hs
    have h2 : exp (-(k' / c) ^ q) < exp (-(k / c) ^ q) := exp_lt_exp.2 (by linarith)
    simp only [cutoff]
    linarith
  · have hc : ContinuousAt (fun k : ℝ => 1 - exp (-(k / c) ^ q)) 0 := by
      have h1 : ContinuousAt (fun k : ℝ => (k / c) ^ q) 0 := (continuousAt_id.div_const c).rpow_const (Or.inr hs.le)
      exact continuousAt_const.sub h1.neg.rexp
    have h2 := hc.tendsto
    simp only [zero_div, zero_rpow hs.ne', neg_zero, exp_zero, sub_self] at h2
    exact h2.mono_left nhdsWithin_le_nhds
  · have h1 : Filter.Tendsto (fun k : ℝ => (k / c) ^ q) Filter.atTop Filter.atTop :=
      (tendsto_rpow_atTop hs).comp (Filter.tendsto_id.atTop_div_const hk)
    have h2 : Filter.Tendsto (fun k : ℝ => exp (-(k / c) ^ q)) Filter.atTop (nhds 0) :=
      tendsto_exp_neg_atTop_nhds_zero.comp h1
    have h3 := (tendsto_const_nhds (x := (1 : ℝ))).sub h2
    rw [sub_zero] at h3
    exact h3

/-- **C57, grid.**  In exact arithmetic the grid has 801 points, from `kmin = 5e-7` to `kmax = 50` inclusive, with constant ratio `10^(1/100)`: the promise
`log_regular` made to cobaya. -/
theorem C57_grid : ks.length = 801 ∧ ks.head? = some kmin ∧ ks.getLast? = some kmax ∧
    ∀ i : ℕ, i < 801 → ks[i]? = some (kmin * ((10 : ℝ) ^ (1 / 100 : ℝ)) ^ i) := by
  have h8 : logb 10 kmax - logb 10 kmin = 8 := by
    rw [← logb_div (by norm_num [kmax]) (by norm_num [kmin])]
    have : kmax / kmin = (10 : ℝ) ^ (8 : ℝ) := by
      unfold kmax kmin
      norm_num
    rw [this, logb_rpow (by norm_num) (by norm_num)]
  have hn : ⌊(logb 10 kmax - logb 10 kmin) * 100 + 1⌋₊ = 801 := by
    rw [h8, show (8 : ℝ) * 100 + 1 = ((801 : ℕ) : ℝ) by norm_num, Nat.floor_natCast]
  have hl : ks.length = 801 := by
    simp only [ks, logspace, List.length_map, List.length_range, hn]
  have hget : ∀ i : ℕ, i < 801 → ks[i]? = some (kmin * ((10 : ℝ) ^ (1 / 100 : ℝ)) ^ i) := by
    intro i hi
    simp only [ks, logspace, hn]
    rw [List.getElem?_map, List.getElem?_range hi, Option.map_some, h8, rpow_add (by norm_num),
      rpow_logb (by norm_num) (by norm_num) (by norm_num [kmin]), ← rpow_natCast, ← rpow_mul (by norm_num)]
    congr 3
    norm_num
    ring
  refine ⟨hl, ?_, ?_, hget⟩
  · rw [List.head?_eq_getElem?, hget 0 (by norm_num), pow_zero, mul_one]
  · rw [List.getLast?_eq_getElem?, hl, hget _ (by norm_num)]
    congr 1
    rw [← rpow_natCast, ← rpow_mul (by norm_num)]
    have : (1 / 100 : ℝ) * ((801 - 1 : ℕ) : ℝ) = 8 := by norm_num
    rw [this]
    unfold kmin kmax
    norm_num

end Wrap
end Primpy
