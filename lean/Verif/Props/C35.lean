import Verif.Lemmas.Reheating
import Verif.Props.C32

/-!
# C35 — reheating

Specification (independent of the code's formulas):
* `Thermalised`: at the end of reheating the energy density is that of a plasma of `g` relativistic
  degrees of freedom at some temperature, `ρ = (π²/30) g T⁴`, and comoving entropy is conserved from
  then (e-fold `N_reh`) until today (e-fold `N0`): `g T³ a_reh³ = g0 T_CMB³ a_0³`.
* dilution: during reheating, of `d` e-folds, the energy density drops from `3/2 V_end` (the density
  at the end of inflation) as `a^{-3(1+w)}`.
All in reduced Planck units.
-/

namespace Primpy
open Real
open Cal

/-- Thermal plasma at `N_reh` and entropy conservation until `N0`. -/
def Thermalised (u : SI) (g ρ N_reh N0 : ℝ) : Prop :=
  ∃ T > 0, ρ = π ^ 2 / 30 * g * T ^ 4 ∧
    g * T ^ 3 * exp N_reh ^ 3 = SI.g0 * u.T_CMB_Tp ^ 3 * exp N0 ^ 3

/-- The temperature of the plasma is unique, so `Thermalised` pins down `N_reh - N0`. -/
theorem Thermalised.unique {u : SI} {g ρ N N' N0 : ℝ} (hg : 0 < g) (h : Thermalised u g ρ N N0)
    (h' : Thermalised u g ρ N' N0) : N = N' := by
  obtain ⟨T, hT, h1, h2⟩ := h
  obtain ⟨T', hT', h3, h4⟩ := h'
  have hTT : T = T' := by
    have : T ^ 4 = T' ^ 4 := by
      have hc : π ^ 2 / 30 * g ≠ 0 := by positivity
      exact mul_left_cancel₀ hc (h1.symm.trans h3)
    exact (pow_left_inj₀ hT.le hT'.le (by norm_num)).1 this
  subst hTT
  have : g * T ^ 3 ≠ 0 := by positivity
  have h5 := mul_left_cancel₀ this (h2.trans h4.symm)
  exact exp_injective ((pow_left_inj₀ (exp_pos _).le (exp_pos _).le (by norm_num)).1 h5)

/-- The reheating attributes describe one consistent reheating history. -/
structure ReheatingHistory (u : SI) (g V_end N_end N_reh N0 rhoGeV ρ w d dm1 : ℝ) : Prop where
  /-- `rho_reh_GeV` is the fourth root of the density `rho_reh_mp4`, in GeV -/
  units : ρ = rhoGeV ^ 4 / u.mp_GeV * u.lp_iGeV ^ 3
  dilution : ρ = 3 / 2 * V_end * exp (-3 * (1 + w) * d)
  duration : N_reh = N_end + d
  entropy : Thermalised u g ρ N_reh N0
  /-- Martin & Ringeval's `-ln R_rad` -/
  minus1 : dm1 = d * (1 - 3 * w) / 4

theorem log_T4 {u : SI} {x : ℝ} (hx : 0 < x) (y : ℝ) (hy : 0 < y) :
    log (y * u.T_CMB_Tp ^ 4 / x) = log y + 4 * log u.T_CMB_Tp - log x := by
  have := T_CMB_pos u
  rw [log_div (by positivity) hx.ne', log_mul hy.ne' (by positivity), log_pow]
  norm_num

theorem log_V {u : SI} {V : ℝ} (hV : 0 < V) :
    log (V / u.T_CMB_Tp ^ 4) = log V - 4 * log u.T_CMB_Tp := by
  have := T_CMB_pos u
  rw [log_div hV.ne' (by positivity), log_pow]
  norm_num

theorem log_logg {g : ℝ} : logg g = (log 45 - 2 * log π) / 4 - log SI.g0 / 3 + log g / 12 := by
  have := g0_pos
  unfold logg
  rw [log_mul (by positivity) (by positivity), log_rpow (by positivity), log_rpow (by positivity),
    log_div (by norm_num) (by positivity), log_pow]
  push_cast
  ring

/-- The code's expression for the end of reheating is exactly entropy conservation. -/
theorem thermalised_of {u : SI} {g ρ N_reh N0 : ℝ} (hg : 0 < g) (hρ : 0 < ρ)
    (h : N_reh = N0 - logg g + log (3 / 2 * u.T_CMB_Tp ^ 4 / ρ) / 4) :
    Thermalised u g ρ N_reh N0 := by
  have hg0 := g0_pos
  have hT := T_CMB_pos u
  refine ⟨exp ((log ρ - log (π ^ 2 / 30 * g)) / 4), exp_pos _, ?_, ?_⟩
  · rw [← exp_nat_mul, show (((4:ℕ):ℝ) * ((log ρ - log (π ^ 2 / 30 * g)) / 4)) =
      log ρ - log (π ^ 2 / 30 * g) by push_cast; ring, exp_sub, exp_log hρ, exp_log (by positivity)]
    field_simp
  · have e1 : g = exp (log g) := (exp_log hg).symm
    have e2 : SI.g0 = exp (log SI.g0) := (exp_log hg0).symm
    have e3 : u.T_CMB_Tp = exp (log u.T_CMB_Tp) := (exp_log hT).symm
    rw [← exp_nat_mul, ← exp_nat_mul, ← exp_nat_mul]
    nth_rw 1 [e1]
    nth_rw 1 [e2]
    nth_rw 1 [e3]
    rw [← exp_nat_mul, ← exp_add, ← exp_add, ← exp_add, ← exp_add]
    congr 1
    rw [h, log_logg, log_T4 hρ _ (by norm_num), log_mul (by positivity) hg.ne',
      log_div (by positivity) (by norm_num), log_pow, log_div (by norm_num) (by norm_num),
      show (45:ℝ) = 30 * 3 / 2 by norm_num, log_div (by norm_num) (by norm_num),
      log_mul (by norm_num) (by norm_num)]
    push_cast
    ring

/-- Combining the calibrated end of inflation with a duration `d` of equation of state `w`. -/
theorem history_of {u : SI} {g V N_end N0 w d : ℝ} (hg : 0 < g) (hV : 0 < V)
    (h : N_end = N0 - logg g - log (V / u.T_CMB_Tp ^ 4) / 4 - d / 4 * (1 - 3 * w)) :
    Thermalised u g (3 / 2 * V * exp (-3 * (1 + w) * d)) (N_end + d) N0 := by
  refine thermalised_of hg (by positivity) ?_
  rw [h, log_V hV, log_T4 (by positivity) _ (by norm_num), log_mul (by positivity) (exp_pos _).ne',
    log_mul (by norm_num) hV.ne', log_exp]
  ring

/-- a given density with the derived equation of state dilutes correctly -/
theorem dilution_of {V ρ d w : ℝ} (hV : 0 < V) (hρ : 0 < ρ)
    (h : (BB.fdiv (log (3 / 2 * V / ρ)) (3 * d)).map (· - 1) = some w) :
    d ≠ 0 ∧ ρ = 3 / 2 * V * exp (-3 * (1 + w) * d) ∧
      log (3 / 2 * V / ρ) = 3 * (1 + w) * d := by
  unfold BB.fdiv at h
  split_ifs at h with h1
  · simp at h
  · simp only [Option.map_some, Option.some.injEq] at h
    have hd : d ≠ 0 := fun h => h1 (by rw [h, mul_zero])
    have hl : log (3 / 2 * V / ρ) = 3 * (1 + w) * d := by rw [← h]; field_simp; ring
    refine ⟨hd, ?_, hl⟩
    rw [show -3 * (1 + w) * d = -log (3 / 2 * V / ρ) by rw [hl]; ring, exp_neg,
      exp_log (by positivity)]
    field_simp

/-- **C35, flat.**  For every successful flat calibration with `calibration_method='reheating'` the
reheating attributes (whenever they are numbers) describe a consistent history: energy density
dilution with `w_reh` over `DeltaN_reh` e-folds from the end of inflation, a thermal plasma then, and
conserved entropy until today at the calibrated scale factors. -/
theorem C35_flat (u : SI) (s s' : CalState) (a : CalArgs) (hK : s.K = 0) (hm : a.method = "reheating")
    (hb : a.background = none) (hg : 0 < a.g_th) (hrho : ∀ r, a.rho_reh_GeV = some r → 0 < r)
    (hV : ∀ I, s.infl = some I → 0 < I.V_end) (hok : calibrate u s a = .ok s') :
    ∃ I c, s.infl = some I ∧ s'.cal = some c ∧ ∀ rG ρ w d dm1,
      s'.sticky.rho_reh_GeV = some (some rG) → s'.sticky.rho_reh_mp4 = some (some ρ) →
      s'.sticky.w_reh = some (some w) → s'.sticky.DeltaN_reh = some (some d) →
      s'.sticky.DeltaN_minus1 = some (some dm1) →
      ∃ N_reh, c.N_reh = some N_reh ∧
        ReheatingHistory u a.g_th I.V_end c.N_end N_reh c.N0 rG ρ w d dm1 := by
  obtain ⟨p, hp, rfl⟩ := calibrate_flat hK hok
  obtain ⟨-, ns, nc, ls, δ, nr, I, st, hs, rfl⟩ := flat_ok hp
  unfold flatSel at hs
  rw [hb] at hs
  dsimp only at hs
  rw [if_neg (by rw [hm]; decide), if_pos hm] at hs
  obtain ⟨hbad, hI, N_end, dN, hr, hδ, -, -, -, -, -, hnr⟩ := flatReheating_ok hs
  have hV := hV I hI
  refine ⟨I, _, hI, rfl, fun rG ρ w d dm1 hG hρ hw hd hdm => ?_⟩
  simp only [finish] at hG hρ hw hd hdm ⊢
  have hNend : I.N_end + δ = N_end := by rw [hδ]; ring
  -- the duration
  have hdN : dN = some d := by
    unfold flatReh at hr
    split at hr
    · cases hr
    · simp only [Except.ok.injEq, Prod.mk.injEq] at hr
      rw [← hr.2.2] at hd
      rw [← hr.2.1]
      exact Option.some.inj hd
    · split at hr
      · split_ifs at hr
        split at hr
        all_goals
          simp only [Except.ok.injEq, Prod.mk.injEq] at hr
          rw [← hr.2.2] at hd
          first
            | (rw [← hr.2.1]; exact Option.some.inj hd)
            | cases hd
      · split at hr
        · simp only [Except.ok.injEq, Prod.mk.injEq] at hr
          rw [← hr.2.2] at hd
          rw [← hr.2.1]
          exact Option.some.inj hd
        · simp only [Except.ok.injEq, Prod.mk.injEq] at hr
          rw [← hr.2.2] at hd
          rw [← hr.2.1]
          exact Option.some.inj hd
        · cases hr
  refine ⟨N_end + d, by rw [hnr, hdN]; simp only [Option.map_some, Option.some.injEq]; linarith, ?_⟩
  rw [hNend]
  unfold flatReh at hr
  split at hr
  · cases hr
  · simp only [Except.ok.injEq, Prod.mk.injEq] at hr
    obtain ⟨hE, -, rfl⟩ := hr
    simp only [Option.some.injEq] at hG hρ hw hd hdm
    subst hG hρ hw hd hdm
    refine ⟨(toPlanck_toGeV u (by positivity)).symm, by simp, rfl, ?_, by norm_num⟩
    have := history_of (u := u) (g := a.g_th) (N_end := N_end) (N0 := 0) (w := 1 / 3) (d := 0) hg hV
      (by rw [← hE]; ring)
    simpa using this
  · split at hr
    · next dmi hdmi =>
      split_ifs at hr with hc
      split at hr
      · next r hrr =>
        have hr0 := hrho r hrr
        have hp0 := toPlanck_pos u hr0
        simp only [Except.ok.injEq, Prod.mk.injEq] at hr
        obtain ⟨hE, hdN', rfl⟩ := hr
        simp only [Option.some.injEq] at hG hρ hw hd hdm
        subst hG hρ hdm
        obtain ⟨hd0, h1, h2⟩ := dilution_of hV hp0 hw
        rw [hd] at h1 h2
        refine ⟨rfl, h1, rfl, thermalised_of hg hp0 ?_, ?_⟩
        · rw [← hd, ← hE]; ring
        · rw [log_div (by positivity) hp0.ne', log_mul (by norm_num) hV.ne'] at h2
          rw [log_V hV, log_T4 hp0 _ (by norm_num)] at hd
          linear_combination hd - (1 / 4) * h2
      · simp only [Except.ok.injEq, Prod.mk.injEq] at hr
        obtain ⟨-, -, rfl⟩ := hr
        cases hG
    · split at hr
      · simp only [Except.ok.injEq, Prod.mk.injEq] at hr
        obtain ⟨hE, -, rfl⟩ := hr
        simp only [Option.some.injEq] at hG hρ hw hd hdm
        subst hG hρ hw hd hdm
        exact ⟨(toPlanck_toGeV u (by positivity)).symm, rfl, rfl, history_of hg hV hE.symm, by ring⟩
      · next w' r hw' _ hrr =>
        have hr0 := hrho r hrr
        have hp0 := toPlanck_pos u hr0
        simp only [Except.ok.injEq, Prod.mk.injEq] at hr
        obtain ⟨hE, -, rfl⟩ := hr
        simp only [Option.some.injEq] at hG hρ hw hd hdm
        subst hG hρ hw
        have hw3 : (1:ℝ) + w' ≠ 0 := by
          have h := hbad
          unfold badReheating at h
          simp only [decide_eq_false_iff_not, not_or, not_exists, not_and, not_lt] at h
          have := h.2 _ hw'
          intro h0
          linarith
        have hdil : toPlanck u r = 3 / 2 * I.V_end * exp (-3 * (1 + w') * d) := by
          rw [← hd, show -3 * (1 + w') * (log (3 / 2 * I.V_end / toPlanck u r) / (3 * (1 + w'))) =
            -log (3 / 2 * I.V_end / toPlanck u r) by field_simp, exp_neg, exp_log (by positivity)]
          field_simp
        refine ⟨rfl, hdil, rfl, ?_, by rw [← hdm, hd]; ring⟩
        rw [hdil]
        exact history_of hg hV (by rw [← hE, hd])
      · cases hr

/-- **C35, flat, derived from `N_star`.**  The same holds for the reheating attributes derived by the
'N_star' method from `w_reh` or from `rho_reh_GeV`. -/
theorem C35_flat_N_star (u : SI) (s s' : CalState) (a : CalArgs) (hK : s.K = 0)
    (hm : a.method = "N_star") (hb : a.background = none) (hg : 0 < a.g_th)
    (hrho : ∀ r, a.rho_reh_GeV = some r → 0 < r) (hV : ∀ I, s.infl = some I → 0 < I.V_end)
    (hok : calibrate u s a = .ok s') :
    ∃ I c, s.infl = some I ∧ s'.cal = some c ∧ ∀ rG ρ w d dm1,
      s'.sticky.rho_reh_GeV = some (some rG) → s'.sticky.rho_reh_mp4 = some (some ρ) →
      s'.sticky.w_reh = some (some w) → s'.sticky.DeltaN_reh = some (some d) →
      s'.sticky.DeltaN_minus1 = some (some dm1) →
      ∃ N_reh, c.N_reh = some N_reh ∧
        ReheatingHistory u a.g_th I.V_end c.N_end N_reh c.N0 rG ρ w d dm1 := by
  obtain ⟨p, hp, rfl⟩ := calibrate_flat hK hok
  obtain ⟨-, ns, nc, ls, δ, nr, I, st, hs, rfl⟩ := flat_ok hp
  unfold flatSel at hs
  rw [hb] at hs
  dsimp only at hs
  rw [if_pos hm] at hs
  obtain ⟨-, -, hI, -, hnc, -, hδ, m, hmm, hr⟩ := flatNstar_ok hs
  have hV := hV I hI
  have hKs := (C56_pivot u).2
  -- the derived `DeltaN_minus1` is the offset from instantaneous reheating
  have hend : I.N_end + δ = 0 - logg a.g_th - log (I.V_end / u.T_CMB_Tp ^ 4) / 4 - m := by
    rw [hmm, hδ, log_div hKs.ne' (exp_pos _).ne', log_exp, hnc]; ring
  refine ⟨I, _, hI, rfl, fun rG ρ w d dm1 hG hρ hw hd hdm => ?_⟩
  simp only [finish] at hG hρ hw hd hdm ⊢
  unfold flatNstarReh at hr
  split at hr
  · simp only [Except.ok.injEq, Prod.mk.injEq] at hr
    obtain ⟨-, rfl⟩ := hr
    cases hG
  · next w' _ _ _ =>
    split_ifs at hr with h13
    dsimp only at hr
    split_ifs at hr with hneg
    simp only [Except.ok.injEq, Prod.mk.injEq] at hr
    obtain ⟨rfl, rfl⟩ := hr
    simp only [Option.some.injEq] at hG hρ hw hd hdm
    subst hG hρ hw hdm
    have h13' : (1:ℝ) - 3 * w' ≠ 0 := fun h => h13 (by linear_combination -(1 / 3) * h)
    have hm' : m = d / 4 * (1 - 3 * w') := by rw [← hd]; field_simp
    rw [hd]
    refine ⟨_, rfl, (toPlanck_toGeV u (by positivity)).symm, rfl, by ring, ?_, by rw [hm']; ring⟩
    show Thermalised u a.g_th _ (I.N_end + d + δ) 0
    rw [show I.N_end + d + δ = I.N_end + δ + d by ring]
    exact history_of hg hV (by rw [hend, hm'])
  · next r hrr _ _ =>
    have hr0 := hrho r hrr
    have hp0 := toPlanck_pos u hr0
    simp only [Except.ok.injEq, Prod.mk.injEq] at hr
    obtain ⟨rfl, rfl⟩ := hr
    simp only [Option.some.injEq] at hG hρ hw hd hdm
    subst hG hρ hdm
    obtain ⟨hd0, h1, h2⟩ := dilution_of hV hp0 hw
    rw [hd] at h1 h2
    refine ⟨_, rfl, rfl, h1, by rw [← hd]; ring, thermalised_of hg hp0 (by ring), ?_⟩
    rw [log_div (by positivity) hp0.ne', log_mul (by norm_num) hV.ne'] at h2
    rw [log_V hV] at hend
    rw [log_T4 hp0 _ (by norm_num)] at hd
    linear_combination hd - (1 / 4) * h2 + hend
  · cases hr

/-- **C35, curved, 'Omega_K0'.**  The same holds for the reheating attributes derived by the 'Omega_K0'
method from `rho_reh_GeV`. -/
theorem C35_curved_Omega_K0 (u : SI) (s s' : CalState) (a : CalArgs) (hK : s.K ≠ 0)
    (hm : a.method = "Omega_K0") (hg : 0 < a.g_th) (r : ℝ) (hr : a.rho_reh_GeV = some r) (hr0 : 0 < r)
    (hV : ∀ I, s.infl = some I → 0 < I.V_end) (hok : calibrate u s a = .ok s') :
    ∃ I c, s.infl = some I ∧ s'.cal = some c ∧ ∀ rG ρ w d dm1,
      s'.sticky.rho_reh_GeV = some (some rG) → s'.sticky.rho_reh_mp4 = some (some ρ) →
      s'.sticky.w_reh = some (some w) → s'.sticky.DeltaN_reh = some (some d) →
      s'.sticky.DeltaN_minus1 = some (some dm1) →
      ∃ N_reh, c.N_reh = some N_reh ∧
        ReheatingHistory u a.g_th I.V_end c.N_end N_reh c.N0 rG ρ w d dm1 := by
  obtain ⟨p, hp, rfl⟩ := calibrate_curved hK hok
  obtain ⟨-, h, Ω, aM, a0, N0, nr, st, I, nc, -, -, hs, hI, -, -, -, rfl⟩ := curved_ok hp
  have hV := hV I hI
  have hp0 := toPlanck_pos u hr0
  unfold curvedSel at hs
  rw [if_pos hm] at hs
  unfold curvedOmega at hs
  split at hs
  · cases hs
  · split_ifs at hs
    rw [hr, hI] at hs
    simp only [Option.map_some, Option.bind_some, Except.ok.injEq, Prod.mk.injEq] at hs
    obtain ⟨-, -, -, hN0, rfl, rfl⟩ := hs
    refine ⟨I, _, hI, rfl, fun rG ρ w d dm1 hG hρ hw hd hdm => ?_⟩
    simp only [finish] at hG hρ hw hd hdm ⊢
    simp only [Option.some.injEq] at hG hρ hw hd
    subst hG hρ
    rw [hw] at hdm
    simp only [Option.map_some, Option.some.injEq] at hdm
    obtain ⟨hd0, h1, h2⟩ := dilution_of hV hp0 hw
    rw [hd] at h1 h2 hdm
    refine ⟨_, rfl, rfl, h1, by rw [← hd]; ring, thermalised_of hg hp0 (by rw [hN0]; ring), ?_⟩
    rw [← hdm]; ring

/-- **C35, curved, 'reheating' without a density.**  The same holds for instantaneous reheating and for
`w_reh` with `DeltaN_reh`.  Missing for the full statement: `w_reh` with `rho_reh_GeV`, where it is
false (`C35_curved_w_rho_false`). -/
theorem C35_curved_reheating_partial (u : SI) (s s' : CalState) (a : CalArgs) (hK : s.K ≠ 0)
    (hm : a.method = "reheating") (hg : 0 < a.g_th) (hr : a.rho_reh_GeV = none)
    (hV : ∀ I, s.infl = some I → 0 < I.V_end) (hok : calibrate u s a = .ok s') :
    ∃ I c, s.infl = some I ∧ s'.cal = some c ∧ ∃ rG ρ w d dm1 N_reh,
      s'.sticky.rho_reh_GeV = some (some rG) ∧ s'.sticky.rho_reh_mp4 = some (some ρ) ∧
      s'.sticky.w_reh = some (some w) ∧ s'.sticky.DeltaN_reh = some (some d) ∧
      s'.sticky.DeltaN_minus1 = some (some dm1) ∧ c.N_reh = some N_reh ∧
        ReheatingHistory u a.g_th I.V_end c.N_end N_reh c.N0 rG ρ w d dm1 := by
  obtain ⟨p, hp, rfl⟩ := calibrate_curved hK hok
  obtain ⟨-, h, Ω, aM, a0, N0, nr, st, I, nc, -, -, hs, hI, -, -, -, rfl⟩ := curved_ok hp
  have hV := hV I hI
  unfold curvedSel at hs
  rw [if_neg (by rw [hm]; decide), if_pos hm] at hs
  unfold curvedReheating at hs
  split_ifs at hs
  rw [hI] at hs
  dsimp only at hs
  split at hs
  · cases hs
  · next N0' nr' st' hc =>
    simp only [Except.ok.injEq, Prod.mk.injEq] at hs
    obtain ⟨-, -, -, rfl, rfl, rfl⟩ := hs
    refine ⟨I, _, hI, rfl, ?_⟩
    simp only [finish]
    unfold curvedReh at hc
    split at hc
    · cases hc
    · simp only [Except.ok.injEq, Prod.mk.injEq] at hc
      obtain ⟨hN, hnr, rfl⟩ := hc
      refine ⟨_, _, _, _, _, _, rfl, rfl, rfl, rfl, rfl, rfl, 
        (toPlanck_toGeV u (by positivity)).symm, by simp, by rw [← hnr]; ring, ?_, by norm_num⟩
      have := history_of (u := u) (g := a.g_th) (N_end := I.N_end) (N0 := N0') (w := 1 / 3) (d := 0)
        hg hV (by rw [← hN]; ring)
      rw [← hnr]
      simpa using this
    · split at hc
      · next w' d' _ _ _ =>
        simp only [Except.ok.injEq, Prod.mk.injEq] at hc
        obtain ⟨hN, hnr, rfl⟩ := hc
        refine ⟨_, _, _, _, _, _, rfl, rfl, rfl, rfl, rfl, rfl, 
          (toPlanck_toGeV u (by positivity)).symm, rfl, by rw [← hnr]; ring, ?_, by ring⟩
        rw [← hnr]
        have := history_of (u := u) (g := a.g_th) (N_end := I.N_end) (N0 := N0') (w := w') (d := d') hg hV
          (by rw [← hN]; ring)
        simpa using this
      · next h3 => rw [hr] at h3; cases h3
      · cases hc

/-- **C35, the defect.**  For a curved universe with `w_reh` and `rho_reh_GeV` the reported duration of
reheating is the one over which the density dilutes to `rho_reh` *only if* `w_reh = 0` (or reheating is
instantaneous): the code multiplies by `(1+w)/3` where it should divide by `3(1+w)`. -/
theorem C35_curved_w_rho_iff (u : SI) (s s' : CalState) (a : CalArgs) (hK : s.K ≠ 0)
    (hm : a.method = "reheating") (w r : ℝ) (hw : a.w_reh = some w) (hd : a.DeltaN_reh = none)
    (hr : a.rho_reh_GeV = some r) (hr0 : 0 < r)
    (hV : ∀ I, s.infl = some I → 0 < I.V_end) (hok : calibrate u s a = .ok s') :
    ∃ I ρ d, s.infl = some I ∧ s'.sticky.rho_reh_mp4 = some (some ρ) ∧
      s'.sticky.DeltaN_reh = some (some d) ∧ ρ = r ^ 4 / u.mp_GeV * u.lp_iGeV ^ 3 ∧
      (ρ = 3 / 2 * I.V_end * exp (-3 * (1 + w) * d) ↔ w = 0 ∨ ρ = 3 / 2 * I.V_end) := by
  obtain ⟨p, hp, rfl⟩ := calibrate_curved hK hok
  obtain ⟨hN, h, Ω, aM, a0, N0, nr, st, I, nc, -, -, hs, hI, -, -, -, rfl⟩ := curved_ok hp
  have hV := hV I hI
  have hp0 := toPlanck_pos u hr0
  unfold curvedSel at hs
  rw [if_neg (by rw [hm]; decide), if_pos hm] at hs
  unfold curvedReheating at hs
  split_ifs at hs with h1 hbad
  rw [hI] at hs
  dsimp only at hs
  split at hs
  · cases hs
  · next N0' nr' st' hc =>
    simp only [Except.ok.injEq, Prod.mk.injEq] at hs
    obtain ⟨-, -, -, rfl, rfl, rfl⟩ := hs
    unfold curvedReh at hc
    split at hc
    · cases hc
    · next hi =>
      exact absurd ((C32_table _ _ _ _ _).1.1 hi).2 (fun h => h (.inl ⟨r, hr⟩))
    · rw [hw, hd, hr] at hc
      simp only [Except.ok.injEq, Prod.mk.injEq] at hc
      obtain ⟨-, -, rfl⟩ := hc
      refine ⟨I, _, _, hI, rfl, rfl, rfl, ?_⟩
      have hw3 : -1 / 3 ≤ w := by
        by_contra hlt
        apply hbad
        unfold badReheating
        exact decide_eq_true (.inr ⟨w, hw, not_le.1 hlt⟩)
      obtain ⟨L, hL⟩ : ∃ L, L = log (2 / 3 * toPlanck u r / I.V_end) := ⟨_, rfl⟩
      have hρ : toPlanck u r = 3 / 2 * I.V_end * exp L := by
        rw [hL, exp_log (by positivity)]; field_simp
      rw [← hL, hρ]
      have hne : (3 / 2 * I.V_end) ≠ 0 := by positivity
      constructor
      · intro h
        have h2 := exp_injective (mul_left_cancel₀ hne h)
        have h3 : L * (w * (w + 2)) = 0 := by linear_combination -h2
        rcases mul_eq_zero.1 h3 with h4 | h4
        · right; rw [h4, exp_zero, mul_one]
        · rcases mul_eq_zero.1 h4 with h5 | h5
          · exact .inl h5
          · exfalso; linarith
      · rintro (rfl | h)
        · congr 2; ring
        · have h2 : exp L = 1 := by
            have := mul_left_cancel₀ hne (h.trans (mul_one _).symm); exact this
          have h3 : L = 0 := by rw [← log_exp L, h2, log_one]
          rw [h3]; simp

/-- **C35, agreement (flat).**  Giving `w_reh` with `DeltaN_reh`, or `w_reh` with the density that this
produces, gives the same calibrated solution, attribute by attribute. -/
theorem C35_flat_agreement (u : SI) (s s' : CalState) (a : CalArgs) (hK : s.K = 0)
    (hm : a.method = "reheating") (hb : a.background = none) (w d : ℝ)
    (hw : a.w_reh = some w) (hd : a.DeltaN_reh = some d) (hw3 : w ≠ 1 / 3) (hd0 : d ≠ 0)
    (hr : a.rho_reh_GeV = none) (hdm : a.DeltaN_minus1 = none)
    (hV : ∀ I, s.infl = some I → 0 < I.V_end) (hok : calibrate u s a = .ok s') :
    ∃ r, s'.sticky.rho_reh_GeV = some (some r) ∧
      calibrate u s { a with DeltaN_reh := none, rho_reh_GeV := some r } = .ok s' := by
  have hi1 : is_instant_reheating a.N_star none (some w) (some d) none = .ok false := by
    refine (C32_table _ _ _ _ _).2.2.1.2 (.inr ⟨.inr (.inl ⟨w, rfl, hw3⟩), ?_⟩)
    rintro (h | h | h)
    · exact hw3 (Option.some.inj h)
    · exact hd0 (Option.some.inj h)
    · cases h
  have hi2 : ∀ x, is_instant_reheating a.N_star (some x) (some w) none none = .ok false := by
    intro x
    refine (C32_table _ _ _ _ _).2.2.1.2 (.inr ⟨.inr (.inl ⟨w, rfl, hw3⟩), ?_⟩)
    rintro (h | h | h)
    · exact hw3 (Option.some.inj h)
    · cases h
    · cases h
  obtain ⟨m, Ω, hh, ns, bg, dr, wr, rho, g, dm⟩ := a
  dsimp only at hm hb hw hd hdm hr hi1 hi2
  subst hm hb hw hd hdm hr
  obtain ⟨p, hp, rfl⟩ := calibrate_flat hK hok
  have hp' := hp
  obtain ⟨-, ns', nc, ls, δ, nr, I, st, hs, rfl⟩ := flat_ok hp
  unfold flatSel at hs
  dsimp only at hs
  rw [if_neg (by decide), if_pos rfl] at hs
  obtain ⟨hbad, hI, N_end, dN, hre, -⟩ := flatReheating_ok hs
  have hV := hV I hI
  have hw13 : 1 + w ≠ 0 := by
    have h := hbad
    unfold badReheating at h
    simp only [decide_eq_false_iff_not, not_or, not_exists, not_and, not_lt] at h
    have := h.2 _ rfl
    intro h0
    linarith
  have key : ∀ n st, flatReh u I n ⟨"reheating", Ω, hh, ns, none, none, some w,
      some (toGeV u (3 / 2 * I.V_end * exp (-3 * (1 + w) * d))), g, none⟩ st =
      flatReh u I n ⟨"reheating", Ω, hh, ns, none, some d, some w, none, g, none⟩ st := by
    intro n st
    unfold flatReh
    simp only [hi1, hi2]
    rw [toPlanck_toGeV u (by positivity)]
    have : log (3 / 2 * I.V_end / (3 / 2 * I.V_end * exp (-3 * (1 + w) * d))) / (3 * (1 + w)) = d := by
      rw [show 3 / 2 * I.V_end / (3 / 2 * I.V_end * exp (-3 * (1 + w) * d)) = exp (3 * (1 + w) * d) by
        rw [show -3 * (1 + w) * d = -(3 * (1 + w) * d) by ring, exp_neg]; field_simp, log_exp]
      field_simp
    rw [this]
  refine ⟨toGeV u (3 / 2 * I.V_end * exp (-3 * (1 + w) * d)), ?_, ?_⟩
  · simp only [finish]
    unfold flatReh at hre
    simp only [hi1] at hre
    simp only [Except.ok.injEq, Prod.mk.injEq] at hre
    rw [← hre.2.2]
  · have hf : flatReheating u s ⟨"reheating", Ω, hh, ns, none, none, some w,
      some (toGeV u (3 / 2 * I.V_end * exp (-3 * (1 + w) * d))), g, none⟩ =
      flatReheating u s ⟨"reheating", Ω, hh, ns, none, some d, some w, none, g, none⟩ := by
      unfold flatReheating
      have hbad' : badReheating ⟨"reheating", Ω, hh, ns, none, none, some w,
          some (toGeV u (3 / 2 * I.V_end * exp (-3 * (1 + w) * d))), g, none⟩ = false := by
        unfold badReheating at hbad ⊢
        simp only [decide_eq_false_iff_not, not_or] at hbad ⊢
        exact ⟨(by rintro ⟨_, h, -⟩; cases h), hbad.2⟩
      rw [if_neg (by rw [hbad']; simp), if_neg (by rw [hbad]; simp), hI]
      dsimp only
      rw [key]
    unfold calibrate at hok ⊢
    rw [if_pos hK] at hok ⊢
    unfold flat flatSel at hok ⊢
    dsimp only at hok ⊢
    have hne : ("reheating" = "N_star") = False := by simp
    simp only [hne, if_false, if_true] at hok ⊢
    rw [hf]
    exact hok

/-- **C35, a documented pair that is refused.**  The error message and docstring ask for "two of
`w_reh`, `DeltaN_reh` and `rho_reh_GeV`", but the pair `DeltaN_reh`, `rho_reh_GeV` is refused in both
geometries. -/
theorem C35_duration_density_refused (u : SI) (s : CalState) (a : CalArgs) (hm : a.method = "reheating")
    (hb : a.background = none) (d r : ℝ) (hd : a.DeltaN_reh = some d) (hr : a.rho_reh_GeV = some r)
    (hw : a.w_reh = none) (hdm : a.DeltaN_minus1 = none) : ∃ e, calibrate u s a = .error e := by
  have hfin : ∀ N : Option ℝ, (∃ e, is_instant_reheating N (some r) none (some d) none = .error e) ∨
      is_instant_reheating N (some r) none (some d) none = .ok false := by
    intro N
    have hT := C32_table N (some r) none (some d) none
    by_cases h : N = none ∧ d = 0
    · left
      exact hT.2.1.2 ⟨h.1, .inr (.inl (by rw [h.2])), .inl ⟨r, rfl⟩⟩
    · right
      refine hT.2.2.1.2 ?_
      rw [not_and_or] at h
      rcases h with h | h
      · exact .inl h
      · refine .inr ⟨.inl ⟨r, rfl⟩, ?_⟩
        rintro (h' | h' | h')
        · cases h'
        · exact h (Option.some.inj h')
        · cases h'
  cases hok : calibrate u s a with
  | error e => exact ⟨e, rfl⟩
  | ok s' =>
    exfalso
    by_cases hK : s.K = 0
    · obtain ⟨p, hp, rfl⟩ := calibrate_flat hK hok
      obtain ⟨-, ns, nc, ls, δ, nr, I, st, hs, rfl⟩ := flat_ok hp
      unfold flatSel at hs
      rw [hb] at hs
      dsimp only at hs
      rw [if_neg (by rw [hm]; decide), if_pos hm] at hs
      obtain ⟨-, -, N_end, dN, hre, -⟩ := flatReheating_ok hs
      unfold flatReh at hre
      rw [hd, hr, hw, hdm] at hre
      rcases hfin a.N_star with ⟨e, h⟩ | h <;> rw [h] at hre <;> cases hre
    · obtain ⟨p, hp, rfl⟩ := calibrate_curved hK hok
      obtain ⟨-, h, Ω, aM, a0, N0, nr, st, I, nc, -, -, hs, hI, -⟩ := curved_ok hp
      unfold curvedSel at hs
      rw [if_neg (by rw [hm]; decide), if_pos hm] at hs
      unfold curvedReheating at hs
      split_ifs at hs
      rw [hI] at hs
      dsimp only at hs
      split at hs
      · cases hs
      · next hre =>
        unfold curvedReh at hre
        rw [hd, hr, hw, hdm] at hre
        rcases hfin a.N_star with ⟨e, h⟩ | h <;> rw [h] at hre <;> cases hre

/-! ### concrete instances -/

theorem andMask_nodup {l : List ℝ} {m : List Bool} (hlen : m.length = l.length) (h : l.Nodup) :
    andMask m (firstOccurrence l) = m := by
  refine andMask_firstOccurrence hlen fun i hi j hj hEq => ?_
  have hil : i < l.length := by
    rw [← hlen]
    by_contra hge
    rw [List.getElem?_eq_none (not_lt.1 hge)] at hi
    cases hi
  have := (List.getElem?_inj (by omega : j < l.length) h).1 hEq
  omega

/-- A solution with four grid points whose comoving Hubble rate passes `exp x`. -/
noncomputable def demoAt (K x : ℝ) : CalState where
  K := K
  N := [0, 1, 2, 3]
  logaH := [x - 2, x - 1, x + 1, x + 2]
  H := [1, 1, 1, 1]
  infl := some ⟨0, 3, 3, 1, 1, x - 2, x + 2, [false, true, true, false]⟩
  sticky := ⟨none, none, none, none, none, none⟩
  cal := none

theorem demoAt_interp (x : ℝ) : interpL [x - 1, x + 1] [1, 2] x = .ok (3 / 2) := by
  rw [interpL_sorted (by simp; linarith)]
  simp only [List.zip_cons_cons, List.zip_nil_right, interpSorted]
  rw [if_neg (by linarith), if_pos (by linarith)]
  congr 1
  have : x + 1 - (x - 1) = 2 := by ring
  rw [this]; norm_num

/-- Flat: calibrating this solution with reheating arguments that pass the reheating branch. -/
theorem demoAt_flat (u : SI) (a : CalArgs) (hm : a.method = "reheating") (hb : a.background = none)
    (hΩ : a.Omega_K0 = none) (hbad : badReheating a = false) (N_end : ℝ) (dN : Option ℝ) (st : Sticky)
    (hr : ∀ x, flatReh u ⟨0, 3, 3, 1, 1, x - 2, x + 2, [false, true, true, false]⟩
      (0 - logg a.g_th - log (1 / u.T_CMB_Tp ^ 4) / 4) a (demoAt 0 x).sticky = .ok (N_end, dN, st)) :
    ∃ x s', calibrate u (demoAt 0 x) a = .ok s' ∧ s'.sticky = st := by
  obtain ⟨x, hx⟩ : ∃ x, x = 0 + log u.K_STAR_lp - (N_end - 3) := ⟨_, rfl⟩
  have hi : flatSel u (demoAt 0 x) a =
      .ok (3 - 3 / 2, 3 / 2, x, N_end - 3, dN.map (3 + ·),
        ⟨0, 3, 3, 1, 1, x - 2, x + 2, [false, true, true, false]⟩, st) := by
    unfold flatSel
    rw [hb]
    dsimp only
    rw [if_neg (by rw [hm]; decide), if_pos hm]
    unfold flatReheating
    rw [if_neg (by rw [hbad]; simp), show (demoAt 0 x).infl = some
      ⟨0, 3, 3, 1, 1, x - 2, x + 2, [false, true, true, false]⟩ from rfl]
    dsimp only
    rw [hr x]
    dsimp only
    rw [← hx, if_neg (by rintro (h | h) <;> linarith)]
    simp only [demoAt, maskSel, List.zip_cons_cons, List.zip_nil_right, List.filterMap_cons,
      Bool.false_eq_true, if_false, if_true, List.filterMap_nil]
    rw [demoAt_interp]
  refine ⟨x, ?_⟩
  unfold calibrate
  rw [if_pos (show (demoAt 0 x).K = 0 from rfl)]
  unfold flat
  rw [if_neg (by rw [hΩ]; rintro ⟨_, h, -⟩; cases h), hi]
  exact ⟨_, rfl, rfl⟩

/-- Curved: the same for closed and open universes. -/
theorem demoAt_curved_at (u : SI) (K : ℝ) (hK : K ≠ 0) (a : CalArgs) (h : ℝ) (hh : a.h = some h)
    (h0 : 0 < h) (hN : a.N_star = none) (Ω aM a0 N0 : ℝ) (nr : Option ℝ) (st : Sticky) (x : ℝ)
    (hx : x = log SI.K_STAR + log aM)
    (hs : curvedSel u (demoAt K x) a h = .ok (Ω, aM, a0, N0, nr, st)) :
    ∃ s', calibrate u (demoAt K x) a = .ok s' ∧ s'.sticky = st := by
  unfold calibrate
  rw [if_neg (show (demoAt K x).K ≠ 0 from hK)]
  unfold curved
  rw [hN, if_neg (by simp), hh]
  dsimp only
  rw [if_neg (not_le.2 h0), hs]
  have hmask : andMask [false, true, true, false]
      (firstOccurrence ((demoAt K x).logaH.map fun l => l - log aM)) = [false, true, true, false] := by
    apply andMask_nodup
    · rfl
    · simp only [demoAt, List.map_cons, List.map_nil, List.nodup_cons, List.mem_cons, not_or,
        List.not_mem_nil, not_false_eq_true, and_true, List.nodup_nil]
      refine ⟨⟨?_, ?_, ?_⟩, ⟨?_, ?_⟩, ?_⟩ <;> intro h <;> linarith
  simp only [show (demoAt K x).infl = some
      ⟨0, 3, 3, 1, 1, x - 2, x + 2, [false, true, true, false]⟩ from rfl, hmask]
  have hl : maskSel ((demoAt K x).logaH.map fun l => l - log aM) [false, true, true, false] =
      [log SI.K_STAR - 1, log SI.K_STAR + 1] := by
    simp only [demoAt, maskSel, List.map_cons, List.map_nil, List.zip_cons_cons, List.zip_nil_right,
      List.filterMap_cons, Bool.false_eq_true, if_false, if_true, List.filterMap_nil]
    rw [hx]
    congr 1
    · ring
    · congr 1; ring
  have hn : maskSel (demoAt K x).N [false, true, true, false] = [1, 2] := by
    simp [demoAt, maskSel]
  rw [hl, hn, if_neg (by simp), if_neg ?_, demoAt_interp]
  · exact ⟨_, rfl, rfl⟩
  · rintro (h | h)
    · have := h (log SI.K_STAR - 1) (by simp); linarith
    · have := h (log SI.K_STAR + 1) (by simp); linarith

theorem demoAt_curved (u : SI) (K : ℝ) (hK : K ≠ 0) (a : CalArgs) (h : ℝ) (hh : a.h = some h)
    (h0 : 0 < h) (hN : a.N_star = none) (Ω aM a0 N0 : ℝ) (nr : Option ℝ) (st : Sticky)
    (hs : ∀ x, curvedSel u (demoAt K x) a h = .ok (Ω, aM, a0, N0, nr, st)) :
    ∃ x s', calibrate u (demoAt K x) a = .ok s' ∧ s'.sticky = st :=
  ⟨_, demoAt_curved_at u K hK a h hh h0 hN Ω aM a0 N0 nr st _ rfl (hs _)⟩

/-- Hypotheses of `C35_flat` and `C35_flat_agreement` met: matter-like reheating for one e-fold. -/
example (u : SI) : ∃ x s', calibrate u (demoAt 0 x)
    { method := "reheating", w_reh := some 0, DeltaN_reh := some 1 } = .ok s' := by
  obtain ⟨x, s', h, -⟩ := demoAt_flat u { method := "reheating", w_reh := some 0, DeltaN_reh := some 1 }
    rfl rfl rfl (by
      unfold badReheating
      refine decide_eq_false ?_
      rintro (⟨_, h, h'⟩ | ⟨_, h, h'⟩) <;> cases h <;> norm_num at h') _ _ _ (by
      intro x
      unfold flatReh
      rw [show is_instant_reheating none none (some 0) (some 1) none = .ok false by
        simp [is_instant_reheating]]
      dsimp only [demoAt])
  exact ⟨x, s', h⟩

/-- Hypotheses of `C35_curved_reheating_partial` met: a closed universe with instantaneous reheating. -/
theorem demoAt_closed (u : SI) :
    ∃ x s', calibrate u (demoAt 1 x) { method := "reheating", h := some 0.7 } = .ok s' := by
  obtain ⟨x, s', h, -⟩ := demoAt_curved u 1 one_ne_zero { method := "reheating", h := some 0.7 } 0.7 rfl
    (by norm_num) rfl _ _ _ _ _ _ (by
      intro x
      unfold curvedSel
      rw [if_neg (by decide), if_pos rfl]
      unfold curvedReheating
      rw [if_neg (by simp), if_neg (by unfold badReheating; simp), show (demoAt 1 x).infl = some
        ⟨0, 3, 3, 1, 1, x - 2, x + 2, [false, true, true, false]⟩ from rfl]
      dsimp only
      unfold curvedReh
      rw [show is_instant_reheating none none none none none = .ok true by
        simp [is_instant_reheating]]
      dsimp only [demoAt])
  exact ⟨x, s', h⟩

/-- **C35 is false for curved universes with `w_reh` and `rho_reh_GeV`.**  A closed universe with
`w_reh = 1/6` is calibrated without complaint, and the reported attributes violate the dilution law
`ρ_reh = 3/2 V_end e^{-3(1+w)ΔN}`. -/
theorem C35_curved_w_rho_false (u : SI) : ∃ s s' : CalState, ∃ a : CalArgs, ∃ I ρ d,
    s.K = 1 ∧ a.w_reh = some (1 / 6) ∧ a.rho_reh_GeV.isSome ∧ calibrate u s a = .ok s' ∧
      s.infl = some I ∧ s'.sticky.rho_reh_mp4 = some (some ρ) ∧
      s'.sticky.DeltaN_reh = some (some d) ∧ ρ < 3 / 2 * I.V_end ∧
      ρ ≠ 3 / 2 * I.V_end * exp (-3 * (1 + 1 / 6) * d) := by
  obtain ⟨a, ha⟩ : ∃ a : CalArgs, a =
      { method := "reheating", h := some 0.7, w_reh := some (1 / 6), rho_reh_GeV := some (toGeV u 1) } :=
    ⟨_, rfl⟩
  obtain ⟨x, s', h, -⟩ := demoAt_curved u 1 one_ne_zero a 0.7 (by rw [ha])
    (by norm_num) (by rw [ha]) _ _ _ _ _ _ (by
      intro x
      rw [ha]
      unfold curvedSel
      rw [if_neg (by simp), if_pos rfl]
      unfold curvedReheating
      rw [if_neg (by simp), if_neg (by
        unfold badReheating
        rw [decide_eq_true_iff]
        rintro (⟨_, h, h'⟩ | ⟨_, h, h'⟩) <;> cases h <;> norm_num at h'),
        show (demoAt 1 x).infl = some ⟨0, 3, 3, 1, 1, x - 2, x + 2, [false, true, true, false]⟩ from rfl]
      dsimp only
      unfold curvedReh
      rw [show is_instant_reheating none (some (toGeV u 1)) (some (1 / 6)) none none = .ok false by
        simp [is_instant_reheating]]
      dsimp only [demoAt])
  have hI : (demoAt 1 x).infl = some ⟨0, 3, 3, 1, 1, x - 2, x + 2, [false, true, true, false]⟩ := rfl
  obtain ⟨I, ρ, d, hI', h1, h2, h3, h4⟩ := C35_curved_w_rho_iff u (demoAt 1 x) s' a
    (show (1:ℝ) ≠ 0 from one_ne_zero) (by rw [ha]) (1 / 6) (toGeV u 1) (by rw [ha]) (by rw [ha])
    (by rw [ha]) (toGeV_pos u one_pos) (by
      intro I hI'; rw [hI] at hI'; cases hI'; exact one_pos) h
  rw [hI] at hI'
  obtain rfl := Option.some.inj hI'
  have hρ : ρ = 1 := by rw [h3]; exact toPlanck_toGeV u zero_le_one
  refine ⟨_, s', a, _, ρ, d, rfl, by rw [ha], by rw [ha]; rfl, h, hI, h1, h2, by rw [hρ]; norm_num, ?_⟩
  intro hcon
  rcases h4.1 hcon with h5 | h5
  · norm_num at h5
  · rw [hρ] at h5; norm_num at h5

end Primpy
