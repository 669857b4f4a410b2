import Verif.Model.Wrapper

/-!
# C58: the amplitude shooting loop of the slow-roll wrapper
-/

namespace Primpy
open Real
namespace Wrap
variable {B : Type} {u : SI} {d : Backend B} {p : SRParams}

/-- `Missed L0 N0 m L N`: starting with `Lambda = L0`, `N_star = N0`, the first `m` passes of the loop ran without raising and missed the target amplitude, and the
next pass uses `Lambda = L`, `N_star = N`. -/
inductive Missed (u : SI) (d : Backend B) (p : SRParams) (L0 : Option ℝ) (N0 : ℝ) : ℕ → Option ℝ → ℝ → Prop where
  | start : Missed u d p L0 N0 0 L0 N0
  | step {m : ℕ} {L : Option ℝ} {N N' : ℝ} {b : B} : Missed u d p L0 N0 m L N → pass u d p L N = .ok (b, N') →
      ¬ met p.A_s (d.A_s b) → Missed u d p L0 N0 (m + 1) (rescale p.A_s (d.A_s b) L) N'

theorem Missed.cons {L0 : Option ℝ} {N0 N1 : ℝ} {b : B} (h0 : pass u d p L0 N0 = .ok (b, N1)) (hm : ¬ met p.A_s (d.A_s b))
    {m : ℕ} {L : Option ℝ} {N : ℝ} (H : Missed u d p (rescale p.A_s (d.A_s b) L0) N1 m L N) : Missed u d p L0 N0 (m + 1) L N := by
  induction H with
  | start => exact .step .start h0 hm
  | step _ h1 h2 ih => exact .step ih h1 h2

/-- How a run of the loop ends. -/
inductive Ends (u : SI) (d : Backend B) (p : SRParams) (n : ℕ) (L0 : Option ℝ) (N0 : ℝ) : Except PyErr B → Prop where
  /-- the target is met in pass `m` -/
  | hit {m : ℕ} {L : Option ℝ} {N N' : ℝ} {b : B} : m ≤ n → Missed u d p L0 N0 m L N → pass u d p L N = .ok (b, N') →
      met p.A_s (d.A_s b) → Ends u d p n L0 N0 (.ok b)
  /-- pass `m` raises -/
  | raised {m : ℕ} {L : Option ℝ} {N : ℝ} {e : PyErr} : m ≤ n → Missed u d p L0 N0 m L N → pass u d p L N = .error e →
      Ends u d p n L0 N0 (.error e)
  /-- all `n + 1` passes missed -/
  | exhausted {L : Option ℝ} {N : ℝ} : Missed u d p L0 N0 (n + 1) L N → Ends u d p n L0 N0 (.error (.primpyError "`A_s` shooting failed."))

theorem shoot_ends (n : ℕ) (L0 : Option ℝ) (N0 : ℝ) : Ends u d p n L0 N0 (shoot u d p n L0 N0) := by
  induction n generalizing L0 N0 with
  | zero =>
    unfold shoot
    split
    next e he => exact .raised le_rfl .start he
    next b N' hp =>
      split_ifs with hm
      · exact .hit le_rfl .start hp hm
      · exact .exhausted (.step .start hp hm)
  | succ n ih =>
    unfold shoot
    split
    next e he => exact .raised (by omega) .start he
    next b N' hp =>
      split_ifs with hm
      · exact .hit (by omega) .start hp hm
      · dsimp only
        have := ih (rescale p.A_s (d.A_s b) L0) N'
        generalize shoot u d p n (rescale p.A_s (d.A_s b) L0) N' = r at this
        cases this with
        | hit h1 h2 h3 h4 => exact .hit (by omega) (.cons hp hm h2) h3 h4
        | raised h1 h2 h3 => exact .raised (by omega) (.cons hp hm h2) h3
        | exhausted h => exact .exhausted (.cons hp hm h)

/-- **C58, success.**  Whatever primpy returns in each pass: if `calculate` ends normally with the solution `b`, then `b` is the solution of one of the first eleven
passes, all earlier ones having missed the target; its amplitude is a number within `1e-14 + 1e-6 A_s` of the requested one; and each of
its reheating parameters that is a number is physical. -/
theorem C58_success {Lambda0 : ℝ} {b : B} (h : slowRoll u d p Lambda0 = .ok b) :
    (∃ m L N N', m ≤ 10 ∧ Missed u d p (some Lambda0) p.N_star m L N ∧ pass u d p L N = .ok (b, N')) ∧
    (∃ A, d.A_s b = some A ∧ |A - p.A_s| < 1 / 10 ^ 14 + 1 / 10 ^ 6 * p.A_s) ∧
    (∀ w, d.w_reh b = some w → -1 / 3 < w ∧ w < 1) ∧ (∀ D, d.DeltaN_reh b = some D → 0 ≤ D) ∧
    ∀ N, d.N_reh b = some N → N ≤ d.N0 b := by
  unfold slowRoll at h
  have := shoot_ends (u := u) (d := d) (p := p) 10 (some Lambda0) p.N_star
  split at h
  · cases h
  next b' hb =>
  rw [hb] at this
  split_ifs at h with hc
  cases h
  simp only [not_or] at hc
  obtain ⟨c1, c2, c3, c4⟩ := hc
  cases this with
  | hit h1 h2 h3 h4 =>
    refine ⟨⟨_, _, _, _, h1, h2, h3⟩, h4, fun w hw => ⟨?_, ?_⟩, fun D hD => ?_, fun N hN => ?_⟩
    · by_contra hn
      exact c1 ⟨w, _, hw, rfl, not_lt.1 hn⟩
    · by_contra hn
      exact c2 ⟨_, w, rfl, hw, not_lt.1 hn⟩
    · by_contra hn
      exact c3 ⟨D, _, hD, rfl, not_le.1 hn⟩
    · by_contra hn
      exact c4 ⟨_, N, rfl, hN, not_le.1 hn⟩

/-- **C58, a successful integration.**  The solution a successful `calculate` leaves behind comes from an integration that succeeded; a sampled reheating density did not
exceed what the wrapper takes for the energy density at the end of inflation; and that integration was then calibrated. -/
theorem C58_integrated {Lambda0 : ℝ} {b : B} (h : slowRoll u d p Lambda0 = .ok b) :
    ∃ L N b0 N', d.solve L = .ok b0 ∧ d.success b0 = true ∧ (∀ rho, p.rho_reh_GeV = some rho → rho ≤ rho_end_GeV u d b0) ∧
      calibrateStep d p N b0 = .ok (b, N') := by
  obtain ⟨⟨m, L, N, N', -, -, hp⟩, -⟩ := C58_success h
  unfold pass at hp
  split at hp
  · cases hp
  next b0 hb0 =>
  by_cases c1 : d.success b0 = false
  · rw [if_pos c1] at hp; cases hp
  rw [if_neg c1] at hp
  by_cases c2 : ∃ rho, p.rho_reh_GeV = some rho ∧ rho_end_GeV u d b0 < rho
  · rw [if_pos c2] at hp; cases hp
  rw [if_neg c2] at hp
  exact ⟨L, N, b0, N', hb0, by simpa using c1, fun rho hr => not_lt.1 fun hlt => c2 ⟨rho, hr, hlt⟩, hp⟩

/-- **C58, failure.**  If `calculate` raises `e`, then a pass of the loop (one of the first eleven) raised `e` after only misses; or eleven passes missed the target and
`e` is the shooting failure; or the target was met by a solution with unphysical reheating. -/
theorem C58_failure {Lambda0 : ℝ} {e : PyErr} (h : slowRoll u d p Lambda0 = .error e) :
    (∃ m L N, m ≤ 10 ∧ Missed u d p (some Lambda0) p.N_star m L N ∧ pass u d p L N = .error e) ∨
    ((∃ L N, Missed u d p (some Lambda0) p.N_star 11 L N) ∧ e = .primpyError "`A_s` shooting failed.") ∨
    ∃ m L N N' b, m ≤ 10 ∧ Missed u d p (some Lambda0) p.N_star m L N ∧ pass u d p L N = .ok (b, N') ∧ met p.A_s (d.A_s b) ∧
      ((∃ w, d.w_reh b = some w ∧ (w ≤ -1 / 3 ∨ 1 ≤ w)) ∨ (∃ D, d.DeltaN_reh b = some D ∧ D < 0) ∨
        ∃ N, d.N_reh b = some N ∧ d.N0 b < N) := by
  unfold slowRoll at h
  have := shoot_ends (u := u) (d := d) (p := p) 10 (some Lambda0) p.N_star
  split at h
  next e' he =>
    cases h
    rw [he] at this
    cases this with
    | raised h1 h2 h3 => exact Or.inl ⟨_, _, _, h1, h2, h3⟩
    | exhausted h => exact Or.inr (Or.inl ⟨⟨_, _, h⟩, rfl⟩)
  next b' hb =>
    rw [hb] at this
    split_ifs at h with hc
    · cases this with
      | hit h1 h2 h3 h4 =>
        refine Or.inr (Or.inr ⟨_, _, _, _, _, h1, h2, h3, h4, ?_⟩)
        rcases hc with ⟨x, y, hx, hy, hxy⟩ | ⟨x, y, hx, hy, hxy⟩ | ⟨x, y, hx, hy, hxy⟩ | ⟨x, y, hx, hy, hxy⟩
        · cases hy; exact Or.inl ⟨x, hx, Or.inl hxy⟩
        · cases hx; exact Or.inl ⟨y, hy, Or.inr hxy⟩
        · cases hy; exact Or.inr (Or.inl ⟨x, hx, hxy⟩)
        · cases hx; exact Or.inr (Or.inr ⟨y, hy, hxy⟩)

/-- **C58, rescaling.**  After a miss with positive amplitude `A`, the next potential scale satisfies `Lambda'⁴ / Lambda⁴ = A_s / A`. -/
theorem C58_rescale {target A L : ℝ} (ht : 0 < target) (hA : 0 < A) (hL : 0 < L) :
    ∃ L', rescale target (some A) (some L) = some L' ∧ 0 < L' ∧ L' ^ 4 = target / A * L ^ 4 := by
  have h : 0 < target / A := div_pos ht hA
  refine ⟨_, if_pos ⟨hA.ne', h.le⟩, mul_pos (rpow_pos_of_pos h _) hL, ?_⟩
  rw [mul_pow, ← rpow_natCast, ← rpow_mul h.le]
  norm_num

/-- **C58, convergence under the scaling relation.**  If the amplitude is proportional to `Lambda⁴` (and no pass raises), the loop ends after at most two passes; if the first
pass missed, the second has exactly the requested amplitude. -/
theorem C58_converges {Lambda0 c : ℝ} (hc : 0 < c) (ht : 0 < p.A_s) (hL : 0 < Lambda0)
    (hscale : ∀ L N, 0 < L → ∃ b N', pass u d p (some L) N = .ok (b, N') ∧ d.A_s b = some (c * L ^ 4)) :
    ∃ b L N N', shoot u d p 10 (some Lambda0) p.N_star = .ok b ∧ pass u d p (some L) N = .ok (b, N') ∧
      (L = Lambda0 ∨ d.A_s b = some p.A_s) := by
  obtain ⟨b, N', hp, hA⟩ := hscale Lambda0 p.N_star hL
  by_cases hm : met p.A_s (d.A_s b)
  · refine ⟨b, Lambda0, _, _, ?_, hp, Or.inl rfl⟩
    unfold shoot
    rw [hp]
    exact if_pos hm
  · have hA0 : 0 < c * Lambda0 ^ 4 := by positivity
    obtain ⟨L', hL', hpos, hpow⟩ := C58_rescale ht hA0 hL
    obtain ⟨b', N'', hp', hA'⟩ := hscale L' N' hpos
    have hval : d.A_s b' = some p.A_s := by
      rw [hA', hpow]
      congr 1
      field_simp
    have hm' : met p.A_s (d.A_s b') := by
      refine ⟨p.A_s, hval, ?_⟩
      rw [sub_self, abs_zero]
      positivity
    refine ⟨b', L', _, _, ?_, hp', Or.inr hval⟩
    unfold shoot
    rw [hp]
    dsimp only
    rw [if_neg hm]
    rw [hA, hL']
    unfold shoot
    rw [hp']
    exact if_pos hm'

/-- **C58, drift of `N_star`.**  The bound `N_star` used for the `n_s` matching never grows from pass to pass: a too short trial solution lowers it for good. -/
theorem C58_N_star_drift {L0 L : Option ℝ} {N0 N : ℝ} {m : ℕ} (h : Missed u d p L0 N0 m L N) : N ≤ N0 := by
  induction h with
  | start => exact le_rfl
  | @step m L N N' b _ hp _ ih =>
    refine le_trans ?_ ih
    unfold pass at hp
    split at hp
    · cases hp
    next b0 hb0 =>
    split_ifs at hp
    unfold calibrateStep at hp
    split at hp
    · cases hd : d.calReheating b0 _ _ with
      | error e => rw [hd] at hp; cases hp
      | ok x => rw [hd] at hp; cases hp; exact le_rfl
    · cases hd : d.calNstar b0 N _ with
      | error e => rw [hd] at hp; cases hp
      | ok x => rw [hd] at hp; cases hp; exact le_rfl
    · dsimp only at hp
      split at hp
      · cases hp
      next b1 hb1 =>
      cases hd : d.setNs b1 _ _ (min N (d.N_tot b0 - 0.1)) with
      | error e => rw [hd] at hp; cases hp
      | ok x => rw [hd] at hp; cases hp; exact min_le_left _ _

/-- **C58, a silently ignored parameter.**  A sampled `w_reh` has no influence unless `rho_reh_GeV` is sampled too. -/
theorem C58_w_reh_ignored (Lambda0 : ℝ) (w : Option ℝ) (h : p.rho_reh_GeV = none) :
    slowRoll u d { p with w_reh := w } Lambda0 = slowRoll u d { p with w_reh := none } Lambda0 := by
  have hp : ∀ L N, pass u d { p with w_reh := w } L N = pass u d { p with w_reh := none } L N := by
    intro L N
    unfold pass calibrateStep
    dsimp only
    rw [h]
    cases w <;> cases hn : p.n_s <;> rfl
  have hs : ∀ n L N, shoot u d { p with w_reh := w } n L N = shoot u d { p with w_reh := none } n L N := by
    intro n
    induction n with
    | zero =>
      intro L N
      unfold shoot
      rw [hp]
    | succ n ih =>
      intro L N
      unfold shoot
      rw [hp]
      simp only [ih]
  unfold slowRoll
  rw [hs]

/-- Hypotheses met: a backend whose amplitude is `Lambda⁴`, whose solution object is the amplitude itself. -/
noncomputable def demoBackend : Backend ℝ where
  solve L := match L with | some L => .ok (L ^ 4) | none => .error (.primpyError "nan")
  success _ := true
  N_tot _ := 60
  dphidt_last _ := 1
  V_last _ := 1
  calReheating b _ _ := .ok b
  calNstar b _ _ := .ok b
  setNs b _ _ _ := .ok b
  A_s b := some b
  w_reh _ := none
  DeltaN_reh _ := none
  N_reh _ := none
  N0 _ := 0

example (u : SI) : (∀ L N, 0 < L → ∃ b N', pass u demoBackend { A_s := 2 } (some L) N = .ok (b, N') ∧ demoBackend.A_s b = some (1 * L ^ 4)) ∧
    ∃ b, slowRoll u demoBackend { A_s := 2 } 1 = .ok b := by
  have hs : ∀ L N, 0 < L → ∃ b N', pass u demoBackend { A_s := 2 } (some L) N = .ok (b, N') ∧ demoBackend.A_s b = some (1 * L ^ 4) := by
    intro L N _
    refine ⟨L ^ 4, N, ?_, by simp [demoBackend]⟩
    simp [pass, demoBackend, calibrateStep, Except.map]
  refine ⟨hs, ?_⟩
  obtain ⟨b, L, N, N', h, -⟩ := C58_converges (u := u) (d := demoBackend) (p := { A_s := 2 }) one_pos (by norm_num) one_pos hs
  refine ⟨b, ?_⟩
  unfold slowRoll
  rw [h]
  dsimp only
  rw [if_neg]
  simp [nanLe, nanLt, demoBackend]

end Wrap
end Primpy
