import Verif.Props.C09

/-!
# C10 — what the constructor does with `Lambda`, `A_s`, `N_star`, `phi_star`

The full decision table of `InflationaryPotential.__init__`.
-/

namespace Primpy
open Real Spec Set

/-- Without `A_s` and without stray arguments `Lambda` is stored unchanged (default 1), no warning. -/
theorem C10_Lambda_only (fam : ℝ → SRMethods) (L : Option ℝ) :
    potInit fam ⟨L, none, none, none, []⟩ = .ok (L.getD 1, false) := by
  simp [potInit]

/-- Without `A_s`, any further keyword (also `N_star` and `phi_star`) is rejected. -/
theorem C10_unknown_without_As (fam : ℝ → SRMethods) (kw : PotKwargs) (hA : kw.A_s = none)
    (h : kw.N_star ≠ none ∨ kw.phi_star ≠ none ∨ kw.other ≠ []) :
    ∃ m, potInit fam kw = .error (.exception m) := by
  refine ⟨"does not accept kwarg", ?_⟩
  simp only [potInit, hA]
  rw [if_pos]
  simpa [Option.isSome_iff_ne_none] using h

/-- `A_s` alone is rejected with the documented error — whatever `Lambda` and the other keywords. -/
theorem C10_As_alone (fam : ℝ → SRMethods) (kw : PotKwargs) (A : ℝ) (hA : kw.A_s = some A)
    (h1 : kw.N_star = none) (h2 : kw.phi_star = none) :
    ∃ m, potInit fam kw = .error (.primpyError m) :=
  ⟨_, by simp only [potInit, hA, h1, h2, and_self, if_true]; rfl⟩

/-- `A_s` with both `N_star` and `phi_star` (numbers) is rejected. -/
theorem C10_As_both (fam : ℝ → SRMethods) (kw : PotKwargs) (A N φ : ℝ) (hA : kw.A_s = some A)
    (h1 : kw.N_star = some (some N)) (h2 : kw.phi_star = some (some φ)) :
    ∃ m, potInit fam kw = .error (.exception m) :=
  ⟨"Need to specify either N_star or phi_star", by simp [potInit, hA, h1, h2, sr_As2Lambda, bind, Except.bind]⟩

/-- `A_s` with `N_star`: the stored `Lambda` gives exactly the requested slow-roll amplitude at
`phi_star = sr_N2phi(N_star)`; the warning is issued iff a `Lambda ≠ 1` was passed as well. -/
theorem C10_As_Nstar (fam : ℝ → SRMethods) (h : ScaleFree fam) (kw : PotKwargs) (A N φ : ℝ)
    (hA : kw.A_s = some A) (hA0 : 0 < A) (h1 : kw.N_star = some (some N))
    (h2 : kw.phi_star = none ∨ kw.phi_star = some none) (ho : kw.other = [])
    (hL : kw.Lambda.getD 1 ≠ 0)
    (hφ : (fam (kw.Lambda.getD 1)).sr_N2phi N = .ok φ)
    (hV : 0 < (fam (kw.Lambda.getD 1)).V φ) (he : 0 < (fam (kw.Lambda.getD 1)).get_epsilon_1V φ) :
    ∃ L' w, potInit fam kw = .ok (L', w) ∧ slowRollAmplitude (fam L') φ = A ∧
      (w = true ↔ ∃ L, kw.Lambda = some L ∧ L ≠ 1) := by
  obtain ⟨L', e1, e2, _⟩ := C09_from_Nstar fam h _ A N φ hL hA0 hφ hV he
  refine ⟨L', decide (kw.Lambda.getD 1 ≠ 1), ?_, e2, ?_⟩
  · have hp : kw.phi_star.getD none = none := by rcases h2 with h | h <;> simp [h]
    simp only [potInit, hA, h1, ho, hp]
    simp [e1, bind, Except.bind]
  · cases hk : kw.Lambda with
    | none => simp
    | some L => simp

/-- `A_s` with `phi_star`. -/
theorem C10_As_phistar (fam : ℝ → SRMethods) (h : ScaleFree fam) (kw : PotKwargs) (A N φ : ℝ)
    (hA : kw.A_s = some A) (hA0 : 0 < A) (h1 : kw.N_star = none ∨ kw.N_star = some none)
    (h2 : kw.phi_star = some (some φ)) (ho : kw.other = []) (hL : kw.Lambda.getD 1 ≠ 0)
    (hN : (fam (kw.Lambda.getD 1)).sr_phi2N φ = .ok N)
    (hV : 0 < (fam (kw.Lambda.getD 1)).V φ) (he : 0 < (fam (kw.Lambda.getD 1)).get_epsilon_1V φ) :
    ∃ L' w, potInit fam kw = .ok (L', w) ∧ slowRollAmplitude (fam L') φ = A ∧
      (w = true ↔ ∃ L, kw.Lambda = some L ∧ L ≠ 1) := by
  obtain ⟨L', e1, e2, _⟩ := C09_from_phistar fam h _ A N φ hL hA0 hN hV he
  refine ⟨L', decide (kw.Lambda.getD 1 ≠ 1), ?_, e2, ?_⟩
  · have hp : kw.N_star.getD none = none := by rcases h1 with h | h <;> simp [h]
    simp only [potInit, hA, h2, ho, hp]
    simp [e1, bind, Except.bind]
  · cases hk : kw.Lambda with
    | none => simp
    | some L => simp

/-- With `A_s`, a stray keyword is rejected too. -/
theorem C10_unknown_with_As (fam : ℝ → SRMethods) (kw : PotKwargs) (A : ℝ) (hA : kw.A_s = some A)
    (ho : kw.other ≠ []) : ∃ e, potInit fam kw = .error e := by
  simp only [potInit, hA]
  split
  · exact ⟨_, rfl⟩
  · cases sr_As2Lambda (kw.Lambda.getD 1) (fam (kw.Lambda.getD 1)) A (kw.phi_star.getD none)
      (kw.N_star.getD none) with
    | error e => exact ⟨e, rfl⟩
    | ok r => exact ⟨.exception "does not accept kwarg", by simp [bind, Except.bind, ho]⟩

/-- Non-vacuity: `StarobinskyPotential(A_s=2e-9, phi_star=5)`. -/
example (W : ℝ → ℝ) : ∃ L' w, potInit (Starobinsky.sr W) ⟨none, some (2/10^9), none, some (some 5), []⟩
    = .ok (L', w) ∧ slowRollAmplitude (Starobinsky.sr W L') 5 = 2/10^9 := by
  have hg : 0 < Starobinsky.gamma := sqrt_pos.mpr (by norm_num)
  have hE : 1 < exp (Starobinsky.gamma * 5) := by rw [one_lt_exp_iff]; positivity
  have hE' : exp (-Starobinsky.gamma * 5) < 1 := by rw [exp_lt_one_iff]; linarith
  obtain ⟨L', w, h1, h2, _⟩ := C10_As_phistar (Starobinsky.sr W) (C09_starobinsky W)
    ⟨none, some (2/10^9), none, some (some 5), []⟩ (2/10^9) _ 5 rfl (by norm_num) (Or.inl rfl) rfl rfl
    (by simp) rfl
    (by
      show 0 < (1:ℝ)^4 * (1 - exp (-Starobinsky.gamma * 5))^2
      have : 0 < 1 - exp (-Starobinsky.gamma * 5) := by linarith
      positivity)
    (by
      show 0 < 2 * Starobinsky.gamma^2 / (1 - exp (Starobinsky.gamma * 5))^2
      have : 1 - exp (Starobinsky.gamma * 5) ≠ 0 := by linarith
      positivity)
  exact ⟨L', w, h1, h2⟩

end Primpy
