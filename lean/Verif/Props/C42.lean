import Verif.Lemmas.BigBang

/-!
# C42 — the Hubble function of the standard Big Bang
-/

namespace Primpy
open Real
open BB

/-- **C42, today.**  At today's scale factor the Hubble parameter is exactly `H0`, in every unit and
for every parameter point that is accepted. -/
theorem C42_today (u : SI) (m ΩK h a0 H0 : ℝ) (units : String) (v : Option ℝ) (w : Bool)
    (ha : get_a0 u h ΩK "planck" = .ok a0) (hH : get_H0 u h units = .ok H0)
    (hok : Hubble_parameter u (log a0) m ΩK h units = .ok (v, w)) : v = some H0 := by
  unfold Hubble_parameter at hok
  rw [hH, get_Omega_r0_eq] at hok
  cases hn : no_Big_Bang_line m with
  | error e => rw [hn] at hok; simp [bind, Except.bind] at hok
  | ok nbb =>
    rw [hn] at hok
    simp only [bind, Except.bind] at hok
    split_ifs at hok with hL
    cases he : expand_recollapse_line m with
    | error e => rw [he] at hok; simp at hok
    | ok erl =>
      rw [he] at hok
      simp only [ha] at hok
      have h1 : radicand (OmegaR u h) m ΩK (1 - OmegaR u h - m - ΩK) (exp (log a0 - log a0)) = 1 := by
        rw [sub_self, exp_zero]; unfold radicand; ring
      rw [h1] at hok
      simp only [nanSqrt, zero_le_one, if_true, sqrt_one, Option.map_some, mul_one,
        Except.ok.injEq, Prod.mk.injEq] at hok
      exact hok.1.symm

/-- **C42, Friedmann equation.**  For a curved universe and Planck units, the returned `H` and the
scale factor `a = e^N` satisfy `3 H² = ρ_r + ρ_m + ρ_Λ - 3 K/a²` with `K = -sign Ω_K0` exactly as in the
inflationary equations, `ρ_r` scaling as `a⁻⁴` from the present radiation density
`rho_r0_mp_ilp3`, `ρ_m` as `a⁻³`, `ρ_Λ` constant. -/
theorem C42_friedmann (u : SI) (N m ΩK h : ℝ) (hh : 0 < h) (hΩ : ΩK ≠ 0) (hm : 0 ≤ m)
    (H : ℝ) (w : Bool) (hok : Hubble_parameter u N m ΩK h "planck" = .ok (some H, w)) :
    ∃ a0 H0, get_a0 u h ΩK "planck" = .ok a0 ∧ get_H0 u h "planck" = .ok H0 ∧ 0 < a0 ∧ 0 ≤ H ∧
      3 * H ^ 2 = u.rho_r0_mp_ilp3 * (a0 / exp N) ^ 4 + 3 * H0 ^ 2 * m * (a0 / exp N) ^ 3 +
        3 * H0 ^ 2 * (1 - OmegaR u h - m - ΩK) - 3 * (-(SignType.sign ΩK : ℝ)) / exp N ^ 2 := by
  obtain ⟨⟨nbb, hn⟩, erl, he⟩ := lines_ok hm
  obtain ⟨a0, ha, hapos⟩ := get_a0_total u hh ΩK
  have hH0 := H0_pos u hh
  have hL : ¬ nbb < 1 - OmegaR u h - m - ΩK := fun hL => by
    rw [Hubble_error u N m ΩK h "planck" (get_H0_planck u h) hn hL] at hok; cases hok
  rw [Hubble_eq u N m ΩK h "planck" (get_H0_planck u h) hn he ha (not_lt.1 hL)] at hok
  obtain ⟨H0, hH0e⟩ : ∃ H0, H0 = h * 100000 / u.Mpc_m * u.tp_s := ⟨_, rfl⟩
  rw [← hH0e] at hok hH0
  refine ⟨a0, H0, ha, by rw [get_H0_planck, hH0e], hapos, ?_⟩
  simp only [Except.ok.injEq, Prod.mk.injEq, nanSqrt] at hok
  split_ifs at hok with hr
  · simp only [Option.map_some, Option.some.injEq] at hok
    have hHH := hok.1
    refine ⟨by rw [← hHH]; positivity, ?_⟩
    have hx : exp (log a0 - N) = a0 / exp N := by rw [exp_sub, exp_log hapos]
    have hsq : H ^ 2 = H0 ^ 2 * radicand (OmegaR u h) m ΩK (1 - OmegaR u h - m - ΩK) (a0 / exp N) := by
      rw [← hHH, mul_pow, sq_sqrt hr, hx]
    rw [hsq]
    unfold radicand
    -- curvature
    have hcurv : 3 * (H0 ^ 2 * (ΩK * (a0 / exp N) ^ 2)) = 3 * (SignType.sign ΩK : ℝ) / exp N ^ 2 := by
      have haeq : a0 = √(1 / |ΩK|) / H0 := by
        have := get_a0_planck u h hΩ
        rw [ha] at this
        rw [hH0e]; exact Except.ok.inj this
      have hs : (√(1 / |ΩK|)) ^ 2 = 1 / |ΩK| := sq_sqrt (by positivity)
      have habs : ΩK * (1 / |ΩK|) = (SignType.sign ΩK : ℝ) := by
        rcases lt_or_gt_of_ne hΩ with hneg | hpos
        · rw [abs_of_neg hneg, sign_neg hneg]; simp; field_simp
        · rw [abs_of_pos hpos, sign_pos hpos]; simp; field_simp
      rw [haeq, ← habs]
      generalize √(1 / |ΩK|) = q at hs
      rw [← hs]
      have := exp_pos N
      field_simp
    -- radiation
    have hrad : 3 * H0 ^ 2 * OmegaR u h = u.rho_r0_mp_ilp3 := by
      have hm := u.mp_pos; have ht := u.tp_pos; have hl := u.lp_pos
      have hM := u.Mpc_pos; have hG := u.G_pos
      have hP := (C56_planck u).G_one
      rw [div_eq_one_iff_eq (by positivity)] at hP
      unfold OmegaR SI.rho_r0_mp_ilp3
      rw [hP, hH0e]
      field_simp
    rw [← hrad]
    linear_combination hcurv
  · simp at hok

/-- **C42, units.**  The three unit choices return the same physical quantity — NaN, warning and error
behaviour included: 1/tp, km/s/Mpc and 1/s. -/
theorem C42_units (u : SI) (N m ΩK h : ℝ) :
    Hubble_parameter u N m ΩK h "planck" =
      (Hubble_parameter u N m ΩK h "SI").map (fun r => (r.1.map (· * u.tp_s), r.2)) ∧
    Hubble_parameter u N m ΩK h "SI" =
      (Hubble_parameter u N m ΩK h "H0").map (fun r => (r.1.map (· * 1000 / u.Mpc_m), r.2)) := by
  have key : ∀ (units units' : String) (H H' q : ℝ), get_H0 u h units = .ok H →
      get_H0 u h units' = .ok H' → H = H' * q →
      Hubble_parameter u N m ΩK h units =
        (Hubble_parameter u N m ΩK h units').map (fun r => (r.1.map (· * q), r.2)) := by
    intro units units' H H' q h1 h2 hq
    unfold Hubble_parameter
    rw [h1, h2, get_Omega_r0_eq]
    simp only [bind, Except.bind]
    cases no_Big_Bang_line m with
    | error e => rfl
    | ok nbb =>
      dsimp only
      split_ifs
      · rfl
      · cases expand_recollapse_line m with
        | error e => rfl
        | ok erl =>
          dsimp only
          cases get_a0 u h ΩK "planck" with
          | error e => rfl
          | ok a0 =>
            simp only [Except.map, Option.map_map]
            congr 3
            funext x
            simp only [Function.comp]
            rw [hq]; ring
  constructor
  · exact key _ _ _ _ _ (get_H0_planck u h) (get_H0_SI u h) rfl
  · have := key "SI" "H0" _ _ (1000 / u.Mpc_m) (get_H0_SI u h) (get_H0_H0 u h) (by ring)
    rw [this]
    congr 1
    funext r
    congr 2
    funext x
    ring

/-- **C42, errors.**  With valid `h` and a curvature, exactly these inputs raise: an unknown unit
(NotImplementedError), a negative matter density (ValueError), and a cosmological constant above the
no-Big-Bang line (BigBangError). -/
theorem C42_errors (u : SI) (N m ΩK h : ℝ) (hh : 0 < h) (units : String) :
    ((units ≠ "planck" ∧ units ≠ "H0" ∧ units ≠ "SI") →
      Hubble_parameter u N m ΩK h units = .error (.notImplemented "H0 units")) ∧
    ((units = "planck" ∨ units = "H0" ∨ units = "SI") → m < 0 →
      Hubble_parameter u N m ΩK h units = .error (.valueError "Matter density can't be negative")) ∧
    ((units = "planck" ∨ units = "H0" ∨ units = "SI") → 0 ≤ m → ∃ nbb, no_Big_Bang_line m = .ok nbb ∧
      (nbb < 1 - OmegaR u h - m - ΩK →
        Hubble_parameter u N m ΩK h units = .error (.primpyError "BigBangError: no Big Bang")) ∧
      (1 - OmegaR u h - m - ΩK ≤ nbb → ∃ r, Hubble_parameter u N m ΩK h units = .ok r)) := by
  have hu : (units = "planck" ∨ units = "H0" ∨ units = "SI") → ∃ H0, get_H0 u h units = .ok H0 := by
    rintro (rfl | rfl | rfl)
    exacts [⟨_, get_H0_planck u h⟩, ⟨_, get_H0_H0 u h⟩, ⟨_, get_H0_SI u h⟩]
  refine ⟨fun ⟨h1, h2, h3⟩ => ?_, fun hun hm => ?_, fun hun hm => ?_⟩
  · unfold Hubble_parameter
    have : get_H0 u h units = .error (.notImplemented "H0 units") := by simp [get_H0, h1, h2, h3]
    rw [this]; rfl
  · obtain ⟨H0, hH⟩ := hu hun
    have : no_Big_Bang_line m = .error (.valueError "Matter density can't be negative") := by
      unfold no_Big_Bang_line
      rw [if_neg hm.ne, if_neg (fun h => absurd h.1 (by linarith)), if_neg (by norm_num; linarith)]
    unfold Hubble_parameter
    rw [hH, get_Omega_r0_eq, this]; rfl
  · obtain ⟨H0, hH⟩ := hu hun
    obtain ⟨⟨nbb, hn⟩, erl, he⟩ := lines_ok hm
    obtain ⟨a0, ha, -⟩ := get_a0_total u hh ΩK
    exact ⟨nbb, hn, fun hL => Hubble_error u N m ΩK h units hH hn hL,
      fun hL => ⟨_, Hubble_eq u N m ΩK h units hH hn he ha hL⟩⟩

/-- **C42, radiation.**  `Omega_r0` is the ratio of the present radiation density to the critical
density `3H0²/(8πG)`; it is positive and scales as `h⁻²`. -/
theorem C42_Omega_r0 (u : SI) (h : ℝ) (hh : 0 < h) :
    ∃ Ω rc H, get_Omega_r0 u h = .ok Ω ∧ get_rho_crit_kg_im3 u h = .ok rc ∧ get_H0 u h "SI" = .ok H ∧
      H ^ 2 = 8 * π * u.G / 3 * rc ∧ Ω * rc = u.rho_r0_kg_im3 ∧ 0 < Ω ∧
      get_Omega_r0 u 1 = .ok (Ω * h ^ 2) := by
  have hM := u.Mpc_pos; have hG := u.G_pos
  refine ⟨_, 3 * (h * 100000 / u.Mpc_m) ^ 2 / (8 * π * u.G), _, get_Omega_r0_eq u h, ?_,
    get_H0_SI u h, ?_, ?_, OmegaR_pos u hh, ?_⟩
  · simp [get_rho_crit_kg_im3, get_H0_SI, Except.map]
  · field_simp
  · unfold OmegaR; field_simp
  · rw [get_Omega_r0_eq]; congr 1; unfold OmegaR; field_simp

/-- **C42, a0.**  `get_a0` is the scale factor for which the curvature term today is
`-K/(a0 H0)² = Omega_K0` (with `K = -sign Omega_K0`), in Planck units; the other two units are the same
length in Mpc and in metres. -/
theorem C42_a0 (u : SI) (h ΩK : ℝ) (hh : 0 < h) (hΩ : ΩK ≠ 0) :
    ∃ a H0, get_a0 u h ΩK "planck" = .ok a ∧ get_H0 u h "planck" = .ok H0 ∧ 0 < a ∧
      ΩK = -(-(SignType.sign ΩK : ℝ)) / (a * H0) ^ 2 ∧
      (∃ b, get_a0 u h ΩK "SI" = .ok b ∧ b = a * u.lp_m) ∧
      (∃ b, get_a0 u h ΩK "Mpc" = .ok b ∧ b * u.Mpc_m = a * u.lp_m) := by
  have hM := u.Mpc_pos; have hH := H0_pos u hh
  refine ⟨_, _, get_a0_planck u h hΩ, get_H0_planck u h, ?_, ?_, ⟨_, ?_, rfl⟩,
    ⟨√(1 / |ΩK|) / (h * 100000 / u.Mpc_m * u.tp_s) * u.lp_m / u.Mpc_m, ?_, ?_⟩⟩
  · exact div_pos (sqrt_pos.2 (by have := abs_pos.2 hΩ; positivity)) hH
  · obtain ⟨H0, hH0⟩ : ∃ H0, H0 = h * 100000 / u.Mpc_m * u.tp_s := ⟨_, rfl⟩
    rw [← hH0] at hH ⊢
    rw [div_mul_cancel₀ _ hH.ne', sq_sqrt (by positivity)]
    rcases lt_or_gt_of_ne hΩ with hneg | hpos
    · rw [abs_of_neg hneg, sign_neg hneg]; simp
    · rw [abs_of_pos hpos, sign_pos hpos]; simp
  · unfold get_a0
    rw [if_neg hΩ, get_H0_planck]
    simp only [bind, Except.bind, sign_div _ hΩ]
    simp
  · unfold get_a0
    rw [if_neg hΩ, get_H0_planck]
    simp only [bind, Except.bind, sign_div _ hΩ]
    simp
  · field_simp

/-- **C42, a limit of `get_a0`.**  For a flat universe the result is 1 in *every* unit, even an unknown
one, although one Planck length, one metre and one megaparsec are different lengths. -/
theorem C42_a0_flat_ignores_units (u : SI) (h : ℝ) (units : String) :
    get_a0 u h 0 units = .ok 1 := get_a0_flat u h units

/-- **C42, BBN.**  `N_BBN` lies `ln(1+z_BBN)` e-folds before today. -/
theorem C42_N_BBN (u : SI) (h ΩK : ℝ) (hh : 0 < h) :
    ∃ a0 N, get_a0 u h ΩK "planck" = .ok a0 ∧ get_N_BBN u h ΩK = .ok (some N) ∧
      log a0 - N = log (1 + 10 ^ 9) ∧ N < log a0 := by
  obtain ⟨a0, ha, hp⟩ := get_a0_total u hh ΩK
  have hz : (0:ℝ) < 1 + SI.z_BBN := by unfold SI.z_BBN; norm_num
  refine ⟨a0, log (a0 / (1 + SI.z_BBN)), ha, ?_, ?_, ?_⟩
  · simp only [get_N_BBN, ha, Except.map, nanLog]
    rw [if_pos (by positivity)]
  · rw [log_div hp.ne' hz.ne']; unfold SI.z_BBN; ring_nf
  · apply log_lt_log (by positivity)
    rw [div_lt_iff₀ hz]
    have : (1:ℝ) < 1 + SI.z_BBN := by unfold SI.z_BBN; norm_num
    nlinarith

/-- Hypotheses met: an Einstein–de Sitter-like closed universe is accepted. -/
example : ∃ nbb, no_Big_Bang_line 0.5 = .ok nbb ∧ 2 ≤ nbb := by
  refine ⟨4 * 0.5 * cosh (arcosh ((1 - 0.5) / 0.5) / 3) ^ 3, ?_, ?_⟩
  · unfold no_Big_Bang_line; norm_num
  · have := one_le_cosh (arcosh ((1 - 0.5) / 0.5) / 3)
    have : (1:ℝ) ≤ cosh (arcosh ((1 - 0.5) / 0.5) / 3) ^ 3 := one_le_pow₀ this
    linarith

end Primpy
