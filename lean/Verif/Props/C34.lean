import Verif.Lemmas.Calibration
import Verif.Props.C56

/-!
# C34 — flat calibration with `N_star`

In calibrated e-folds `N = _N + delta_N_calib`, with `a0 = 1`, the comoving Hubble rate is
`exp(_logaH + delta_N_calib)` per Planck length; `K_STAR_lp` is the pivot scale in the same unit (C56).
-/

namespace Primpy
open Real
open Cal

/-- **C34.**  After a successful `calibrate_scale_factor(calibration_method='N_star', N_star=ns)` of a flat
universe: the attribute `N_star` is the requested one and lies in `(0, N_tot]`; crossing is exactly
`N_star` e-folds before the end; `N_dagg + N_star = N_tot`; the calibrated comoving Hubble rate,
interpolated at `N_cross`, is exactly the pivot scale; and `a H = k` holds there with the reported
`H_star`. -/
theorem C34_flat_N_star (u : SI) (s s' : CalState) (a : CalArgs) (hK : s.K = 0)
    (hm : a.method = "N_star") (hb : a.background = none) (hok : calibrate u s a = .ok s') :
    ∃ I c ns H, s.infl = some I ∧ s'.cal = some c ∧ a.N_star = some ns ∧
      0 < ns ∧ ns ≤ I.N_tot ∧ c.N_star = ns ∧ c.N_cross + c.N_star = c.N_end ∧
      (I.N_tot = I.N_end - I.N_beg → c.N_dagg + c.N_star = I.N_tot ∧ 0 ≤ c.N_dagg) ∧
      c.a0 = 1 ∧ c.N0 = 0 ∧ c.Omega_K0 = 0 ∧
      c.N = s.N.map (· + c.delta_N_calib) ∧ c.N_end = I.N_end + c.delta_N_calib ∧
      interpL (maskSel c.N I.mask) (maskSel (s.logaH.map (· + c.delta_N_calib)) I.mask) c.N_cross =
        .ok (log u.K_STAR_lp) ∧
      s'.sticky.H_star = some (some H) ∧ exp c.N_cross * H = u.K_STAR_lp := by
  obtain ⟨p, hp, rfl⟩ := calibrate_flat hK hok
  obtain ⟨-, ns, nc, ls, δ, nr, I, st, hs, rfl⟩ := flat_ok hp
  unfold flatSel at hs
  rw [hb] at hs
  dsimp only at hs
  rw [if_pos hm] at hs
  obtain ⟨h1, h2, h3, h4, h5, h6, h7, dm1, -, h8⟩ := flatNstar_ok hs
  have hKs := (C56_pivot u).2
  have hH : st.H_star = some (some (exp (ls - nc))) := by
    unfold flatNstarReh at h8
    split at h8
    · simp only [Except.ok.injEq, Prod.mk.injEq] at h8; rw [← h8.2]
    · split_ifs at h8
      dsimp only at h8
      split_ifs at h8
      simp only [Except.ok.injEq, Prod.mk.injEq] at h8; rw [← h8.2]
    · simp only [Except.ok.injEq, Prod.mk.injEq] at h8; rw [← h8.2]
    · cases h8
  refine ⟨I, _, ns, exp (ls - nc), h3, rfl, h1, h2, h4, rfl, ?_, fun hN => ⟨?_, ?_⟩, rfl, rfl, rfl,
    rfl, rfl, ?_, hH, ?_⟩
  · dsimp only; rw [h5]; ring
  · dsimp only; rw [h5, hN]; ring
  · dsimp only; rw [h5]; linarith
  · dsimp only
    rw [maskSel_map, maskSel_map, interpL_shift, h6]
    simp only [Except.map, Except.ok.injEq]
    rw [h7]; ring
  · dsimp only
    rw [← exp_add, show nc + δ + (ls - nc) = log u.K_STAR_lp by rw [h7]; ring, exp_log hKs]

/-- **C34, at a grid point.**  If crossing falls on a grid point of an ascending grid, the pivot scale is
exactly `aH` of the integrated solution at that point (no interpolation error). -/
theorem C34_on_grid (u : SI) (s s' : CalState) (a : CalArgs) (hK : s.K = 0)
    (hm : a.method = "N_star") (hb : a.background = none) (hok : calibrate u s a = .ok s')
    (I : Infl) (hI : s.infl = some I) (hlen : s.N.length = s.logaH.length)
    (hasc : (maskSel (s.N.zip s.logaH) I.mask).Pairwise fun p q => p.1 < q.1)
    (p : ℝ × ℝ) (hp : p ∈ maskSel (s.N.zip s.logaH) I.mask)
    (ns : ℝ) (hns : a.N_star = some ns) (hcross : p.1 = I.N_end - ns) :
    ∃ c, s'.cal = some c ∧ exp (p.2 + c.delta_N_calib) = u.K_STAR_lp := by
  obtain ⟨pp, hpp, rfl⟩ := calibrate_flat hK hok
  obtain ⟨-, ns', nc, ls, δ, nr, J, st, hs, rfl⟩ := flat_ok hpp
  unfold flatSel at hs
  rw [hb] at hs
  dsimp only at hs
  rw [if_pos hm] at hs
  obtain ⟨h1, h2, h3, h4, h5, h6, h7, -⟩ := flatNstar_ok hs
  rw [hI] at h3
  obtain rfl := Option.some.inj h3
  rw [hns] at h1
  obtain rfl := Option.some.inj h1
  refine ⟨_, rfl, ?_⟩
  have hz : (maskSel s.N I.mask).zip (maskSel s.logaH I.mask) = maskSel (s.N.zip s.logaH) I.mask :=
    maskSel_zip _ _ hlen _
  rw [interpL_sorted (by rw [hz]; exact hasc), hz, h5, ← hcross] at h6
  have hls : ls = p.2 := by
    cases hl : maskSel (s.N.zip s.logaH) I.mask with
    | nil => rw [hl] at hp; cases hp
    | cons q l =>
      rw [hl] at h6 hp hasc
      by_cases hne : l = []
      · subst hne; simp [interpSorted] at h6
      · rw [interpSorted_node hasc hne hp] at h6
        exact (Except.ok.inj h6).symm
  dsimp only
  rw [h7, hls, show p.2 + (0 - p.2 + log u.K_STAR_lp) = log u.K_STAR_lp by ring,
    exp_log (C56_pivot u).2]

/-- **C34, a limit.**  The documented condition is `N_star ≤ N_tot`, but the interpolation only covers
the grid points strictly inside inflation: if crossing would fall between the start of inflation and
the first such grid point, the call raises `ValueError` from `interp1d`, not
`InsufficientInflationError`. -/
theorem C34_before_first_gridpoint (u : SI) (s : CalState) (a : CalArgs) (hK : s.K = 0)
    (hm : a.method = "N_star") (hb : a.background = none) (hΩ : a.Omega_K0 = none)
    (I : Infl) (hI : s.infl = some I) (hlen : s.N.length = s.logaH.length)
    (ns : ℝ) (hns : a.N_star = some ns) (h0 : 0 < ns) (hle : ns ≤ I.N_tot)
    (p : ℝ × ℝ) (l : List (ℝ × ℝ)) (hl : maskSel (s.N.zip s.logaH) I.mask = p :: l)
    (hasc : (p :: l).Pairwise fun p q => p.1 < q.1) (hlt : I.N_end - ns < p.1) :
    ∃ m, calibrate u s a = .error (.valueError m) := by
  have hz : (maskSel s.N I.mask).zip (maskSel s.logaH I.mask) = p :: l := by
    rw [maskSel_zip _ _ hlen, hl]
  obtain ⟨m, hmm⟩ := interpSorted_below (l := l) hlt
  have hi : interpL (maskSel s.N I.mask) (maskSel s.logaH I.mask) (I.N_end - ns) =
      .error (.valueError m) := by
    rw [interpL_sorted (by rw [hz]; exact hasc), hz, hmm]
  have hf : flatNstar u s a = .error (.valueError m) := by
    unfold flatNstar
    rw [hns]
    dsimp only
    rw [if_neg (not_le.2 h0), hI]
    dsimp only
    rw [if_neg (not_lt.2 hle), hi]
  refine ⟨m, ?_⟩
  unfold calibrate flat flatSel
  rw [if_pos hK, if_neg (by rw [hΩ]; rintro ⟨_, h, -⟩; cases h), hb]
  dsimp only
  rw [if_pos hm, hf]

/-- A flat solution with four grid points, inflating from `_N = 0` to `_N = 3`. -/
noncomputable def demoFlat : CalState where
  K := 0
  N := [0, 1, 2, 3]
  logaH := [0, 1, 2, 3]
  H := [1, 1, 1, 1]
  infl := some ⟨0, 3, 3, 1, 1, 0, 3, [false, true, true, false]⟩
  sticky := ⟨none, none, none, none, none, none⟩
  cal := none

theorem demoFlat_interp (x : ℝ) (h1 : 1 ≤ x) (h2 : x ≤ 2) :
    interpL (maskSel demoFlat.N [false, true, true, false])
      (maskSel demoFlat.logaH [false, true, true, false]) x = .ok x := by
  rw [interpL_sorted (by simp [demoFlat, maskSel])]
  simp only [demoFlat, maskSel, List.zip_cons_cons, List.zip_nil_right, List.filterMap_cons,
    Bool.false_eq_true, if_false, if_true, List.filterMap_nil, interpSorted]
  rw [if_neg (by linarith), if_pos h2]
  congr 1; norm_num

/-- Hypotheses met: this solution is calibrated with `N_star = 3/2`. -/
theorem demoFlat_calibrates (u : SI) : ∃ s', calibrate u demoFlat { method := "N_star", N_star := some (3 / 2) } = .ok s' := by
  have hi := demoFlat_interp (3 / 2) (by norm_num) (by norm_num)
  unfold calibrate
  rw [if_pos (show demoFlat.K = 0 from rfl)]
  unfold flat flatSel flatNstar
  rw [if_neg (by rintro ⟨_, h, -⟩; cases h)]
  dsimp only
  rw [if_pos rfl, if_neg (by norm_num)]
  simp only [demoFlat] at hi ⊢
  rw [if_neg (by norm_num), show (3:ℝ) - 3 / 2 = 3 / 2 by norm_num, hi]
  exact ⟨_, rfl⟩

end Primpy
