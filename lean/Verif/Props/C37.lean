import Verif.Props.C36
import Verif.Props.C42

/-!
# C37 — `Omega_K0` and `a0` of a calibrated curved universe

The curvature density parameter today is `Ω_K0 = -K / (a0 H0)²` in Planck units.
-/

namespace Primpy
open Real
open Cal

theorem sign_negK {K x : ℝ} (hK : K = 1 ∨ K = -1) (hx : 0 < x) :
    (SignType.sign (-K * x) : ℝ) = -K := by
  rcases hK with rfl | rfl
  · have : -1 * x < 0 := by linarith
    rw [sign_neg this]; simp
  · have : 0 < - -1 * x := by linarith
    rw [sign_pos this]; simp

theorem negK_div {K Ω : ℝ} (hK : K = 1 ∨ K = -1) (hs : (SignType.sign Ω : ℝ) = -K) :
    -K / Ω = 1 / |Ω| := by
  have hΩ : Ω ≠ 0 := by
    rintro rfl
    rcases hK with rfl | rfl <;> simp at hs
  rw [← hs, div_eq_div_iff hΩ (abs_ne_zero.2 hΩ), one_mul]
  exact sign_mul_abs Ω

/-- The two curved branches yield a scale factor today that belongs to `Omega_K0` and `h`. -/
theorem curvedSel_a0 {u : SI} {s : CalState} {a : CalArgs} {h Ω aM a0 N0 : ℝ} {nr : Option ℝ} {st : Sticky}
    (hK : s.K = 1 ∨ s.K = -1) (h0 : 0 < h) (hs : curvedSel u s a h = .ok (Ω, aM, a0, N0, nr, st)) :
    Ω ≠ 0 ∧ (SignType.sign Ω : ℝ) = -s.K ∧ aM = u.c / (h * 100 * 1000) * √(-s.K / Ω) ∧
      a0 = aM * u.Mpc_m / u.lp_m ∧ N0 = log a0 ∧ 0 < aM := by
  have hc := u.c_pos; have hM := u.Mpc_pos; have hl := u.lp_pos
  unfold curvedSel at hs
  split_ifs at hs with h1 h2
  · unfold curvedOmega at hs
    split at hs
    · cases hs
    · next Ω' hO =>
      split_ifs at hs with h3 h4
      push Not at h4
      have hpos : 0 < u.c / (h * 100 * 1000) * √(-s.K / Ω') := by
        have : 0 < -s.K / Ω' := by rw [negK_div hK h4]; have := abs_pos.2 h3; positivity
        have := sqrt_pos.2 this
        positivity
      dsimp only at hs
      split at hs
      all_goals
        simp only [Except.ok.injEq, Prod.mk.injEq] at hs
        obtain ⟨rfl, rfl, rfl, rfl, -, -⟩ := hs
        exact ⟨h3, h4, rfl, rfl, rfl, hpos⟩
  · unfold curvedReheating at hs
    split_ifs at hs
    split at hs
    · split at hs <;> cases hs
    · dsimp only at hs
      split at hs
      · cases hs
      · next n _ _ _ =>
        simp only [Except.ok.injEq, Prod.mk.injEq] at hs
        obtain ⟨hΩ, rfl, rfl, rfl, -, -⟩ := hs
        obtain ⟨y, hy⟩ : ∃ y, y = exp n * u.lp_m / u.Mpc_m := ⟨_, rfl⟩
        rw [← hy] at hΩ ⊢
        have hy0 : 0 < y := by rw [hy]; positivity
        have hsg : (SignType.sign Ω : ℝ) = -s.K := by
          rw [← hΩ, show -s.K * u.c ^ 2 / (y * h * 100 * 1000) ^ 2 =
            -s.K * (u.c ^ 2 / (y * h * 100 * 1000) ^ 2) by ring]
          exact sign_negK hK (by positivity)
        have hne : Ω ≠ 0 := by
          rintro rfl
          rw [sign_zero] at hsg
          rcases hK with h | h <;> rw [h] at hsg <;> simp at hsg
        have hK0 : s.K ≠ 0 := by rcases hK with h | h <;> rw [h] <;> norm_num
        refine ⟨hne, hsg, ?_, ?_, (log_exp n).symm, hy0⟩
        · rw [← hΩ, show -s.K / (-s.K * u.c ^ 2 / (y * h * 100 * 1000) ^ 2) =
            (y * h * 100 * 1000 / u.c) ^ 2 by field_simp, sqrt_sq (by positivity)]
          field_simp
        · rw [hy]; field_simp

/-- **C37.**  After every successful calibration of a curved universe (`K = ±1`), by whichever method, the
attributes `Omega_K0`, `a0`, `a0_Mpc`, `N0` belong together: `Omega_K0` has the sign of `-K`,
`Omega_K0 = -K/(a0 H0)²` in Planck units, `N0 = ln a0`, and `a0`, `a0_Mpc` are what `bigbang.get_a0`
returns for this `Omega_K0` and `h`. -/
theorem C37_Omega_K0_a0 (u : SI) (s s' : CalState) (a : CalArgs) (hK : s.K = 1 ∨ s.K = -1)
    (hok : calibrate u s a = .ok s') :
    ∃ h c H0, a.h = some h ∧ s'.cal = some c ∧ BB.get_H0 u h "planck" = .ok H0 ∧ 0 < H0 ∧ 0 < c.a0 ∧
      (SignType.sign c.Omega_K0 : ℝ) = -s.K ∧ c.Omega_K0 = -s.K / (c.a0 * H0) ^ 2 ∧
      c.N0 = log c.a0 ∧
      BB.get_a0 u h c.Omega_K0 "planck" = .ok c.a0 ∧ BB.get_a0 u h c.Omega_K0 "Mpc" = .ok c.a0_Mpc := by
  have hK0 : s.K ≠ 0 := by rcases hK with h | h <;> rw [h] <;> norm_num
  have hc := u.c_pos; have hM := u.Mpc_pos; have hl := u.lp_pos; have ht := u.tp_pos
  obtain ⟨p, hp, rfl⟩ := calibrate_curved hK0 hok
  obtain ⟨-, h, Ω, aM, a0, N0, nr, st, I, nc, hh, h0, hs, -, -, -, -, rfl⟩ := curved_ok hp
  obtain ⟨hne, hsg, haM, ha0, hN0, hpos⟩ := curvedSel_a0 hK h0 hs
  have hH := BB.H0_pos u h0
  have ha : a0 = √(1 / |Ω|) / (h * 100000 / u.Mpc_m * u.tp_s) := by
    rw [ha0, haM, negK_div hK hsg, ← C56.c_tp]
    field_simp
    ring
  have ha0pos : 0 < a0 := by rw [ha0]; positivity
  have habs : |Ω| ≠ 0 := abs_ne_zero.2 hne
  refine ⟨h, _, _, hh, rfl, BB.get_H0_planck u h, hH, ha0pos, hsg, ?_, hN0, ?_, ?_⟩
  · show Ω = -s.K / (a0 * (h * 100000 / u.Mpc_m * u.tp_s)) ^ 2
    rw [ha, div_mul_cancel₀ _ hH.ne', sq_sqrt (by positivity), div_div_eq_mul_div, div_one, ← hsg]
    exact (sign_mul_abs Ω).symm
  · show BB.get_a0 u h Ω "planck" = .ok a0
    rw [BB.get_a0_planck u h hne, ha]
  · show BB.get_a0 u h Ω "Mpc" = .ok aM
    obtain ⟨a', H', h1, -, -, -, -, b, h2, h3⟩ := C42_a0 u h Ω h0 hne
    rw [BB.get_a0_planck u h hne, ← ha] at h1
    rw [h2]
    congr 1
    rw [← Except.ok.inj h1, ha0] at h3
    have : b * u.Mpc_m = aM * u.Mpc_m := by rw [h3]; field_simp
    exact mul_right_cancel₀ hM.ne' this

/-- **C37, interchangeable.**  Calibrate a curved universe by reheating, read off `Omega_K0`, and calibrate
the same solution with `calibration_method='Omega_K0'`, that value and the same `h`: the second call
succeeds and gives the same scale-factor calibration (`a0`, `N0`, `N_star`, `N_dagg`, wavenumbers, Hubble
horizons), only the reheating attributes differ. -/
theorem C37_reheating_to_Omega_K0 (u : SI) (s s₁ : CalState) (a : CalArgs) (hK : s.K = 1 ∨ s.K = -1)
    (hm : a.method = "reheating") (hb : a.background = none) (hok : calibrate u s a = .ok s₁) :
    ∃ c₁, s₁.cal = some c₁ ∧ ∃ s₂, calibrate u s
        { method := "Omega_K0", Omega_K0 := some c₁.Omega_K0, h := a.h, g_th := a.g_th } = .ok s₂ ∧
      s₂.cal = some { c₁ with N_reh_ := none, N_reh := none, warning := 0 } := by
  have hK0 : s.K ≠ 0 := by rcases hK with h | h <;> rw [h] <;> norm_num
  obtain ⟨p, hp, rfl⟩ := calibrate_curved hK0 hok
  obtain ⟨-, h, Ω, aM, a0, N0, nr, st, I, nc, hh, h0, hs, hI, ⟨x, hx, hxle⟩, ⟨y, hy, hyge⟩, hi, rfl⟩ :=
    curved_ok hp
  obtain ⟨hne, hsg, haM, ha0, hN0, hpos⟩ := curvedSel_a0 hK h0 hs
  refine ⟨_, rfl, ?_⟩
  simp only [finish]
  have key : curvedSel u s { method := "Omega_K0", Omega_K0 := some Ω, h := a.h, g_th := a.g_th } h =
      .ok (Ω, aM, a0, N0, none, { s.sticky with
        rho_reh_GeV := some none, w_reh := some none, DeltaN_reh := some none,
        DeltaN_minus1 := some none }) := by
    unfold curvedSel
    rw [if_pos rfl]
    unfold curvedOmega
    dsimp only
    rw [if_neg hne, if_neg (not_not.2 hsg), ← haM, ← ha0, ← hN0]
  unfold calibrate
  rw [if_neg hK0]
  unfold curved
  dsimp only
  rw [if_neg (by simp), hh]
  dsimp only
  rw [if_neg (not_le.2 h0), ← hh, key]
  dsimp only
  rw [hI]
  dsimp only
  rw [if_neg (by intro h; rw [h] at hx; cases hx), if_neg (by
    rintro (h | h)
    · exact absurd (h x hx) (not_lt.2 hxle)
    · exact absurd (h y hy) (not_lt.2 hyge)), hi]
  refine ⟨_, rfl, ?_⟩
  simp [finish]

/-- Hypotheses met: a closed universe calibrated by instantaneous reheating. -/
example (u : SI) : ∃ x s', (demoAt 1 x).K = 1 ∧
    calibrate u (demoAt 1 x) { method := "reheating", h := some 0.7 } = .ok s' := by
  obtain ⟨x, s', h⟩ := demoAt_closed u
  exact ⟨x, s', rfl, h⟩

end Primpy
