import Verif.Props.C16

/-!
# C19 — both right-hand sides are the scalar-field universe, and the same flow

* `C19_time_iff`: solving the cosmic-time right-hand side is equivalent to being an expanding
  Klein–Gordon/Friedmann universe; the Raychaudhuri equation follows.
* `C19_efolds`: solving the e-fold right-hand side gives the same equations in e-folds.
* `C19_time_to_efolds`, `C19_efolds_to_time`: reparametrising one by the other, including the tracked
  `t` and `eta` rows, gives a solution of the other right-hand side.
-/

namespace Primpy
open Real Spec Set

/-- Solving the cosmic-time system ⇔ being a scalar-field universe (rows 0,1,2). -/
theorem C19_time_iff {S : Set ℝ} (e : InflT) (y : ℝ → ℕ → ℝ) (heta : e.track_eta = false) :
    (SolvesODE S e.rows e.call y ∧ ∀ t ∈ S, 0 < e.H2 (y t)) ↔
    ∃ H, IsUniverse S e.pot.V e.pot.dV e.K (fun t => y t 2) (fun t => y t 0) (fun t => y t 1) H := by
  constructor
  · rintro ⟨sol, hH⟩; exact ⟨_, InflT.universe sol hH⟩
  · rintro ⟨H, u⟩
    have h2 : ∀ t ∈ S, e.H2 (y t) = H t ^ 2 := by
      intro t ht; have := u.friedmann t ht
      simp only [InflT.H2, T.get_H2, InflT.V, InflT.phi, InflT.dphidt, InflT._N]
      linarith
    have hh : ∀ t ∈ S, e.H (y t) = H t := by
      intro t ht; rw [InflT.H, h2 t ht, sqrt_sq (u.expanding t ht).le]
    refine ⟨fun t ht i hi => ?_, fun t ht => by rw [h2 t ht]; exact pow_pos (u.expanding t ht) 2⟩
    rw [InflT.rows_eq, heta] at hi
    simp only [Bool.false_eq_true, if_false] at hi
    interval_cases i
    · rw [InflT.call0]; exact u.velocity t ht
    · rw [InflT.call1, hh t ht]; refine hderiv (u.kleinGordon t ht) ?_
      simp only [InflT.dphidt, InflT.dVdphi, InflT.phi]; ring
    · rw [InflT.call2, hh t ht]; exact u.hubble t ht

/-- The Raychaudhuri equation `Ḣ = -φ̇²/2 + K/a²` along every solution. -/
theorem C19_raychaudhuri {S D : Set ℝ} {e : InflT} {y : ℝ → ℕ → ℝ} (hS : IsOpen S)
    (sol : SolvesODE S e.rows e.call y) (hH : ∀ t ∈ S, 0 < e.H2 (y t))
    (hV : IsDerivOn D e.pot.V e.pot.dV) (hφ : ∀ t ∈ S, y t 0 ∈ D) :
    IsDerivOn S (fun t => e.H (y t)) (fun t => -(y t 1)^2/2 + e.K / (exp (y t 2))^2) := by
  intro t ht
  refine hderiv ((InflT.universe sol hH).dH hS hV hφ t ht) ?_
  have : exp (-2 * y t 2) = 1 / (exp (y t 2))^2 := by
    rw [← exp_nat_mul, one_div, ← exp_neg]; congr 1; push_cast; ring
  simp only [InflT.dphidt, InflT._N, this]; ring

/-- Solving the e-fold system gives the scalar-field universe in e-folds. -/
theorem C19_efolds {S D : Set ℝ} {e : InflN} {y : ℝ → ℕ → ℝ} (hS : IsOpen S)
    (sol : SolvesODE S e.rows e.call y) (hH : ∀ n ∈ S, 0 < e.H2 n (y n))
    (hV : IsDerivOn D e.pot.V e.pot.dV) (hφ : ∀ n ∈ S, y n 0 ∈ D) :
    IsUniverseN S e.pot.V e.pot.dV e.K (fun n => y n 0) (fun n => y n 1) (fun n => e.H n (y n)) := by
  have r : 2 ≤ e.rows := by rw [InflN.rows_eq]; omega
  refine ⟨fun n hn => hderiv (sol n hn 0 (by omega)) (InflN.call0 e n (y n)).symm, fun n hn => ?_,
    fun n hn => ?_, fun n hn => sqrt_pos.mpr (hH n hn)⟩
  · have hp : 0 < e.H n (y n) := sqrt_pos.mpr (hH n hn)
    have h1 := hderiv (sol n hn 1 (by omega)) (InflN.call1 e n (y n)).symm
    refine hderiv ((InflN.hasDerivAt_H hS sol hH hV hφ n hn).mul h1) ?_
    simp only [N.get_dH, N.get_d2phi, N.get_dH_H, InflN.dphidN, InflN.dVdphi, InflN.phi,
      ← InflN.H_sq (hH n hn)]
    field_simp; ring
  · have h6 := InflN.six_ne (hH n hn)
    rw [mul_pow, InflN.H_sq (hH n hn)]
    simp only [InflN.dphidN] at h6
    simp only [InflN.H2, N.get_H2, InflN.V, InflN.phi, InflN.dphidN]
    field_simp; ring

/-- Conversely a scalar-field universe in e-folds with differentiable `H` solves the e-fold system,
provided `6 ≠ (dφ/dN)²` (where the code would divide by zero). -/
theorem C19_efolds_conv {S D : Set ℝ} (e : InflN) (y : ℝ → ℕ → ℝ) (H : ℝ → ℝ) (hS : IsOpen S)
    (ht : e.track_time = false) (heta : e.track_eta = false)
    (hdiff : ∀ n ∈ S, DifferentiableAt ℝ H n)
    (hV : IsDerivOn D e.pot.V e.pot.dV) (hφ : ∀ n ∈ S, y n 0 ∈ D)
    (h6 : ∀ n ∈ S, (y n 1)^2 ≠ 6)
    (u : IsUniverseN S e.pot.V e.pot.dV e.K (fun n => y n 0) (fun n => y n 1) H) :
    SolvesODE S e.rows e.call y ∧ ∀ n ∈ S, 0 < e.H2 n (y n) := by
  have h2 : ∀ n ∈ S, e.H2 n (y n) = H n ^ 2 := by
    intro n hn; have := u.friedmann n hn
    have h6' : 6 - (y n 1)^2 ≠ 0 := sub_ne_zero.mpr (h6 n hn).symm
    simp only [InflN.H2, N.get_H2, InflN.V, InflN.phi, InflN.dphidN]
    rw [div_eq_iff h6']; linear_combination (-2) * this
  refine ⟨fun n hn i hi => ?_, fun n hn => by rw [h2 n hn]; exact pow_pos (u.expanding n hn) 2⟩
  rw [InflN.rows_eq, heta, ht] at hi
  simp only [Bool.false_eq_true, if_false, add_zero] at hi
  have hp := u.expanding n hn
  interval_cases i
  · rw [InflN.call0]; exact u.velocity n hn
  · -- `q = (Hq)/H`
    have hH := (hdiff n hn).hasDerivAt
    obtain ⟨H', hH'⟩ : ∃ H', H' = deriv H n := ⟨_, rfl⟩
    rw [← hH'] at hH
    -- derivative of the Friedmann constraint determines `H'`
    have hfr : HasDerivAt (fun n => 3 * (H n)^2) (6 * H n * H') n :=
      hderiv ((hH.pow 2).const_mul 3) (by push_cast; ring)
    have hr := ((((u.kleinGordon n hn).pow 2).div_const 2).add
      ((hV _ (hφ n hn)).comp n (u.velocity n hn))).sub
        ((hasDerivAt_exp_neg_two_id n).const_mul (3 * e.K))
    have ev : (fun n => 3 * (H n)^2) =ᶠ[nhds n]
        (fun n => (H n * y n 1)^2 / 2 + e.pot.V (y n 0) - 3 * e.K * exp (-2 * n)) := by
      filter_upwards [hS.mem_nhds hn] with s hs using u.friedmann s hs
    have hu := hfr.unique (hr.congr_of_eventuallyEq ev)
    have h1 := (u.kleinGordon n hn).div hH hp.ne'
    have ev1 : (fun s => y s 1) =ᶠ[nhds n] (fun s => H s * y s 1 / H s) := by
      filter_upwards [hS.mem_nhds hn] with s hs
      have := (u.expanding s hs).ne'; field_simp
    refine hderiv (h1.congr_of_eventuallyEq ev1) ?_
    rw [InflN.call1, h2 n hn]
    simp only [N.get_d2phi, N.get_dH_H, InflN.dphidN, InflN.dVdphi, InflN.phi]
    have hH'v : H' = -(y n 1)^2 * H n / 2 + e.K * exp (-2 * n) / H n := by
      have e6 : 6 * H n * H' = 6 * H n * (-(y n 1)^2 * H n / 2 + e.K * exp (-2 * n) / H n) := by
        rw [hu]; push_cast; field_simp; ring
      exact mul_left_cancel₀ (mul_ne_zero (by norm_num) hp.ne') e6
    rw [hH'v]; field_simp; ring

/-- Derivative of an inverse reparametrisation. -/
theorem hasDerivAt_inverse {S S' : Set ℝ} {f g : ℝ → ℝ} {f' x : ℝ} (hS' : IsOpen S') (hx : x ∈ S')
    (hg : ∀ s ∈ S', g s ∈ S ∧ f (g s) = s) (hc : ContinuousAt g x) (hf : HasDerivAt f f' (g x))
    (h0 : f' ≠ 0) : HasDerivAt g (f'⁻¹) x :=
  HasDerivAt.of_local_left_inverse hc hf h0 (by
    filter_upwards [hS'.mem_nhds hx] with s hs using (hg s hs).2)

/-- Reparametrise a cosmic-time solution by `n = N(t)`: the result solves the e-fold system,
including the tracked `t` and `eta` rows. -/
theorem C19_time_to_efolds {S S' D : Set ℝ} {eT : InflT} {eN : InflN} {y : ℝ → ℕ → ℝ} {τ : ℝ → ℝ}
    (hS : IsOpen S) (hS' : IsOpen S')
    (hK : eN.K = eT.K) (hpot : eN.pot = eT.pot) (heta : eN.track_eta = true → eT.track_eta = true)
    (sol : SolvesODE S eT.rows eT.call y) (hH : ∀ t ∈ S, 0 < eT.H2 (y t))
    (hV : IsDerivOn D eT.pot.V eT.pot.dV) (hφ : ∀ t ∈ S, y t 0 ∈ D)
    (hV0 : ∀ t ∈ S, eT.pot.V (y t 0) ≠ 3 * eT.K * exp (-2 * y t 2))
    (hτ : ∀ n ∈ S', τ n ∈ S ∧ y (τ n) 2 = n) (hτc : ∀ n ∈ S', ContinuousAt τ n) :
    SolvesODE S' eN.rows eN.call (fun n i =>
      if i = 0 then y (τ n) 0
      else if i = 1 then y (τ n) 1 / eT.H (y (τ n))
      else if i = 2 ∧ eN.track_time = true then τ n
      else y (τ n) 3) := by
  intro n hn i hi
  obtain ⟨htS, htn⟩ := hτ n hn
  have u := InflT.universe sol hH
  have hp : 0 < eT.H (y (τ n)) := u.expanding _ htS
  have dτ : HasDerivAt τ (eT.H (y (τ n)))⁻¹ n :=
    hasDerivAt_inverse hS' hn hτ (hτc n hn) (u.hubble _ htS) hp.ne'
  obtain ⟨Y, hY⟩ : ∃ Y : ℕ → ℝ, Y = (fun i => if i = 0 then y (τ n) 0
      else if i = 1 then y (τ n) 1 / eT.H (y (τ n))
      else if i = 2 ∧ eN.track_time = true then τ n
      else y (τ n) 3) := ⟨_, rfl⟩
  have s : SameState eT eN (y (τ n)) n Y := by
    refine ⟨hK, hpot, ?_, htn.symm, ?_⟩ <;> rw [hY] <;> rfl
  obtain ⟨e1, e2, -, -⟩ := C16_state s (hH _ htS) (hV0 _ htS)
  obtain ⟨-, d2, -⟩ := C16_derivs s (hH _ htS) (hV0 _ htS)
  rw [InflN.rows_eq] at hi
  have hrT : 3 ≤ eT.rows := by rw [InflT.rows_eq]; split <;> omega
  show HasDerivAt _ (eN.call n (fun i => if i = 0 then y (τ n) 0
      else if i = 1 then y (τ n) 1 / eT.H (y (τ n))
      else if i = 2 ∧ eN.track_time = true then τ n
      else y (τ n) 3) i) n
  rw [← hY]
  -- row 3 of the cosmic-time solution is conformal time
  have rowEta : eT.track_eta = true → HasDerivAt (fun n => y (τ n) 3) (exp (-n) / eN.H n Y) n := by
    intro h
    have r4 : 3 < eT.rows := by rw [InflT.rows_eq, h]; decide
    have h3 := hderiv (sol _ htS 3 r4) (InflT.call3 eT h _ _).symm
    refine hderiv (h3.comp n dτ) ?_
    rw [e2]; simp only [InflT._N, htn]; rw [div_eq_mul_inv]
  by_cases i0 : i = 0
  · subst i0
    rw [InflN.call0, s.velocity]
    refine hderiv ((u.velocity _ htS).comp n dτ) ?_
    rw [div_eq_mul_inv]
  by_cases i1 : i = 1
  · subst i1
    have hd : eN.call n Y 1 = (eN.derivs n Y).d2phi := by
      rw [InflN.call1, ← InflN.H_sq (by rw [e1]; exact hH _ htS)]; rfl
    rw [hd, d2]
    have hdH := (u.dH hS hV hφ _ htS).comp n dτ
    have hkg := (u.kleinGordon _ htS).comp n dτ
    refine hderiv (hkg.div hdH hp.ne') ?_
    have hs : √(eT.H (y (τ n)) ^ 2) = eT.H (y (τ n)) := sqrt_sq hp.le
    simp only [InflT.derivs, T.pipeline, T.get_d2phi, T.get_dH, hs, Function.comp]
    field_simp
  by_cases ht : eN.track_time = true
  · by_cases i2 : i = 2
    · subst i2
      rw [InflN.call_t _ ht, e2]
      refine HasDerivAt.congr_of_eventuallyEq (hderiv dτ (one_div _)) ?_
      filter_upwards with m; simp [ht]
    · have he : eN.track_eta = true := by
        by_contra hne; simp [ht, hne] at hi; omega
      have i3 : i = eN.etaRow := by
        simp only [InflN.etaRow, ht, if_true]; simp only [ht, he, if_true] at hi; omega
      have hc := InflN.call_eta eN he n Y
      rw [← i3] at hc; rw [hc]
      refine HasDerivAt.congr_of_eventuallyEq (rowEta (heta he)) ?_
      filter_upwards with m; simp [i0, i1, i2]
  · have he : eN.track_eta = true := by
      by_contra hne; simp [ht, hne] at hi; omega
    have i3 : i = eN.etaRow := by
      simp only [InflN.etaRow, ht]; simp only [ht, he] at hi
      simp only [Bool.false_eq_true, if_false, if_true] at hi ⊢; omega
    have hc := InflN.call_eta eN he n Y
    rw [← i3] at hc; rw [hc]
    refine HasDerivAt.congr_of_eventuallyEq (rowEta (heta he)) ?_
    filter_upwards with m; simp [i0, i1, ht]

/-- Reparametrise an e-fold solution by its tracked time: the result solves the cosmic-time system,
including the tracked `eta` row. -/
theorem C19_efolds_to_time {S S' D : Set ℝ} {eT : InflT} {eN : InflN} {y : ℝ → ℕ → ℝ} {ν : ℝ → ℝ}
    (hS : IsOpen S) (hS' : IsOpen S')
    (hK : eT.K = eN.K) (hpot : eT.pot = eN.pot) (htime : eN.track_time = true)
    (heta : eT.track_eta = true → eN.track_eta = true)
    (sol : SolvesODE S eN.rows eN.call y) (hH : ∀ n ∈ S, 0 < eN.H2 n (y n))
    (hV : IsDerivOn D eN.pot.V eN.pot.dV) (hφ : ∀ n ∈ S, y n 0 ∈ D)
    (hν : ∀ t ∈ S', ν t ∈ S ∧ y (ν t) 2 = t) (hνc : ∀ t ∈ S', ContinuousAt ν t) :
    SolvesODE S' eT.rows eT.call (fun t i =>
      if i = 0 then y (ν t) 0
      else if i = 1 then eN.H (ν t) (y (ν t)) * y (ν t) 1
      else if i = 2 then ν t
      else y (ν t) 3) := by
  intro t ht i hi
  obtain ⟨hnS, hnt⟩ := hν t ht
  have u := C19_efolds hS sol hH hV hφ
  have hp : 0 < eN.H (ν t) (y (ν t)) := u.expanding _ hnS
  have r : 3 ≤ eN.rows := by rw [InflN.rows_eq, htime]; simp
  have h2 := hderiv (sol _ hnS 2 (by omega)) (InflN.call_t eN htime _ _).symm
  have dν : HasDerivAt ν (eN.H (ν t) (y (ν t))) t := by
    refine hderiv (hasDerivAt_inverse hS' ht hν (hνc t ht) h2 (by positivity)) ?_
    simp
  obtain ⟨Y, hY⟩ : ∃ Y : ℕ → ℝ, Y = (fun i => if i = 0 then y (ν t) 0
      else if i = 1 then eN.H (ν t) (y (ν t)) * y (ν t) 1
      else if i = 2 then ν t
      else y (ν t) 3) := ⟨_, rfl⟩
  have Y0 : InflT.phi Y = y (ν t) 0 := by rw [hY]; rfl
  have Y1 : InflT.dphidt Y = eN.H (ν t) (y (ν t)) * y (ν t) 1 := by rw [hY]; rfl
  have Y2 : InflT._N Y = ν t := by rw [hY]; rfl
  have eH2 : eT.H2 Y = eN.H (ν t) (y (ν t))^2 := by
    have := u.friedmann _ hnS
    simp only [InflT.H2, T.get_H2, InflT.V, Y0, Y1, Y2, hK, hpot]; linarith
  have eH : eT.H Y = eN.H (ν t) (y (ν t)) := by rw [InflT.H, eH2, sqrt_sq hp.le]
  show HasDerivAt _ (eT.call t (fun i => if i = 0 then y (ν t) 0
      else if i = 1 then eN.H (ν t) (y (ν t)) * y (ν t) 1
      else if i = 2 then ν t
      else y (ν t) 3) i) t
  rw [← hY]
  rw [InflT.rows_eq] at hi
  have hi4 : i < 4 := by split at hi <;> omega
  have h0 := hderiv (sol _ hnS 0 (by omega)) (InflN.call0 eN _ _).symm
  interval_cases i
  · rw [InflT.call0, Y1]
    refine hderiv (h0.comp t dν) ?_
    simp only [InflN.dphidN]; ring
  · rw [InflT.call1, eH, Y1]
    refine hderiv ((u.kleinGordon _ hnS).comp t dν) ?_
    simp only [InflT.dVdphi, Y0, hpot]; field_simp
  · rw [InflT.call2, eH]; exact dν
  · have he : eT.track_eta = true := by by_contra hne; simp [hne] at hi
    rw [InflT.call3 _ he, Y2]
    have hr3 : eN.etaRow = 3 := by simp [InflN.etaRow, htime]
    have r4 : 3 < eN.rows := by rw [InflN.rows_eq, htime, heta he]; simp
    have hc := InflN.call_eta eN (heta he) (ν t) (y (ν t))
    rw [hr3] at hc
    have h3 := hderiv (sol _ hnS 3 r4) hc.symm
    refine hderiv (h3.comp t dν) ?_
    field_simp

/-- Non-vacuity: the flat power-law solution reparametrised by `τ(n) = exp(n/2)`, all rows tracked. -/
example : (∀ n ∈ (univ : Set ℝ), exp (n / 2) ∈ Ioi (0:ℝ) ∧ Exact.yFlatT (exp (n / 2)) 2 = n) ∧
    (∀ n ∈ (univ : Set ℝ), ContinuousAt (fun n : ℝ => exp (n / 2)) n) ∧
    (∀ t ∈ Ioi (0:ℝ), Exact.flatT.pot.V (Exact.yFlatT t 0)
      ≠ 3 * Exact.flatT.K * exp (-2 * Exact.yFlatT t 2)) ∧
    Exact.flatN.K = Exact.flatT.K ∧ Exact.flatN.pot = Exact.flatT.pot ∧
    Exact.flatN.track_time = true ∧ Exact.flatN.track_eta = true ∧ Exact.flatT.track_eta = true := by
  refine ⟨fun n _ => ⟨exp_pos _, ?_⟩, fun n _ => by fun_prop, fun t ht => ?_, rfl, rfl, rfl, rfl, rfl⟩
  · simp only [Exact.yFlatT, log_exp]; ring
  · simp only [Exact.flatT, Exact.expPot, mul_zero, zero_mul]; positivity

end Primpy
