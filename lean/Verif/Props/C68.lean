import Verif.Lemmas.Trajectory
import Verif.Lemmas.Exact
import Verif.Props.C20
import Verif.Props.C25

/-!
# C68: energy conditions and curvature of the background
-/

namespace Primpy
open Real Spec Set

/-- The curvature density at a point (specification): `Ω_K = -K / (aH)²`. -/
noncomputable def curvatureDensity (K N H : ℝ) : ℝ := -K / (exp N * H) ^ 2

theorem curvatureDensity_eq (K N H : ℝ) : curvatureDensity K N H = -K * exp (-2 * N) / H ^ 2 := by
  unfold curvatureDensity
  rw [show -2 * N = -(N + N) by ring, exp_neg, exp_add]
  field_simp

theorem curvatureDensity_log {K N H : ℝ} (hH : 0 < H) : curvatureDensity K N H = -K * exp (-2 * (N + log H)) := by
  rw [curvatureDensity_eq, show -2 * (N + log H) = -2 * N + -(2 * log H) by ring, exp_add, Exact.exp_neg_two_log hH]
  ring

/-- **C68, the stored attribute.**  At every grid point with `H² > 0` the solution's `Omega_K` (`-K exp(-2 logaH)`, inflation.py:458) is that density, in
both formulations. -/
theorem C68_stored (eT : InflT) (eN : InflN) (V : ℝ → ℝ) (s : RawSol) (i : ℕ) (hi : i < s.grid.length) :
    (0 < eT.H2 s.grid[i].2 → (inflationSol eT.view V eT.K s).Omega_K[i]? =
      some (some (curvatureDensity eT.K (InflT._N s.grid[i].2) (eT.H s.grid[i].2)))) ∧
    (0 < eN.H2 s.grid[i].1 s.grid[i].2 → (inflationSol eN.view V eN.K s).Omega_K[i]? =
      some (some (curvatureDensity eN.K s.grid[i].1 (eN.H s.grid[i].1 s.grid[i].2)))) :=
  ⟨fun h => C25_Omega_K eT.view V eT.K s i hi h, fun h => C25_Omega_K eN.view V eN.K s i hi h⟩

/-! ## Equation of state -/

/-- **C68, equation of state (cosmic time).**  With a non-negative potential and a positive energy density `-1 ≤ w ≤ 1`; `w = -1` exactly for a field at
rest, `w = 1` exactly for a vanishing potential. -/
theorem C68_w_time (e : InflT) (y : ℕ → ℝ) (hV : 0 ≤ e.V y) (hr : 0 < InflT.dphidt y ^ 2 / 2 + e.V y) :
    -1 ≤ e.w y ∧ e.w y ≤ 1 ∧ (e.w y = -1 ↔ InflT.dphidt y = 0) ∧ (e.w y = 1 ↔ e.V y = 0) := by
  have h2 := sq_nonneg (InflT.dphidt y)
  simp only [InflT.w]
  refine ⟨?_, ?_, ?_, ?_⟩
  · rw [le_div_iff₀ hr]; linarith
  · rw [div_le_iff₀ hr]; linarith
  · rw [div_eq_iff hr.ne']
    constructor
    · intro h; exact pow_eq_zero_iff (two_ne_zero) |>.1 (by linarith)
    · intro h; rw [h]; ring
  · rw [div_eq_iff hr.ne']
    constructor <;> intro h <;> linarith

/-- **C68, equation of state (e-folds).** -/
theorem C68_w_efolds (e : InflN) (x : ℝ) (y : ℕ → ℝ) (hH : 0 < e.H2 x y) (hV : 0 ≤ e.V y) (hr : 0 < e.H2 x y * InflN.dphidN y ^ 2 / 2 + e.V y) :
    -1 ≤ e.w x y ∧ e.w x y ≤ 1 ∧ (e.w x y = -1 ↔ InflN.dphidN y = 0) ∧ (e.w x y = 1 ↔ e.V y = 0) := by
  have h2 := mul_nonneg hH.le (sq_nonneg (InflN.dphidN y))
  simp only [InflN.w]
  refine ⟨?_, ?_, ?_, ?_⟩
  · rw [le_div_iff₀ hr]; linarith
  · rw [div_le_iff₀ hr]; linarith
  · rw [div_eq_iff hr.ne']
    constructor
    · intro h
      have : e.H2 x y * InflN.dphidN y ^ 2 = 0 := by linarith
      exact pow_eq_zero_iff (two_ne_zero) |>.1 ((mul_eq_zero.1 this).resolve_left hH.ne')
    · intro h; rw [h]; ring
  · rw [div_eq_iff hr.ne']
    constructor <;> intro h <;> linarith

/-! ## First slow-roll parameter -/

/-- **C68, `ε₁` from `w` and the curvature (cosmic time)**: `ε₁ = 3/2 (1+w)(1-Ω_K) + Ω_K`, at every state with `H² > 0` and positive energy density. -/
theorem C68_epsilon_time (e : InflT) (y : ℕ → ℝ) (hH : 0 < e.H2 y) (hr : 0 < InflT.dphidt y ^ 2 / 2 + e.V y) :
    T.get_epsilon_1H (e.H y) (T.get_dH (InflT._N y) (e.H y) (InflT.dphidt y) e.K) =
      3 / 2 * (1 + e.w y) * (1 - curvatureDensity e.K (InflT._N y) (e.H y)) + curvatureDensity e.K (InflT._N y) (e.H y) := by
  have hp : 0 < e.H y := sqrt_pos.2 hH
  rw [curvatureDensity_eq]
  have h3 : e.H y ^ 2 = (InflT.dphidt y ^ 2 / 2 + e.V y) / 3 - e.K * exp (-2 * InflT._N y) := by
    unfold InflT.H; rw [sq_sqrt hH.le]; rfl
  unfold T.get_epsilon_1H T.get_dH
  simp only [InflT.w]
  have hr' := hr.ne'
  have hp' := hp.ne'
  obtain ⟨r, er⟩ : ∃ r, r = InflT.dphidt y ^ 2 / 2 + e.V y := ⟨_, rfl⟩
  have e1 : InflT.dphidt y ^ 2 / 2 - e.V y = InflT.dphidt y ^ 2 - r := by rw [er]; ring
  rw [← er] at hr' h3 ⊢
  rw [e1]
  have e2 : r = 3 * (e.H y ^ 2 + e.K * exp (-2 * InflT._N y)) := by rw [h3]; ring
  have e3 : 1 - -e.K * exp (-2 * InflT._N y) / e.H y ^ 2 = r / (3 * e.H y ^ 2) := by rw [e2]; field_simp; ring
  rw [e3]
  field_simp
  ring

/-- **C68, `ε₁` from `w` and the curvature (e-folds).** -/
theorem C68_epsilon_efolds (e : InflN) (x : ℝ) (y : ℕ → ℝ) (hH : 0 < e.H2 x y) (hr : 0 < e.H2 x y * InflN.dphidN y ^ 2 / 2 + e.V y) :
    N.get_epsilon_1H (e.H x y) (N.get_dH x (e.H x y) (InflN.dphidN y) e.K) =
      3 / 2 * (1 + e.w x y) * (1 - curvatureDensity e.K x (e.H x y)) + curvatureDensity e.K x (e.H x y) := by
  have hp : 0 < e.H x y := sqrt_pos.2 hH
  rw [curvatureDensity_eq]
  have hs : e.H2 x y = e.H x y ^ 2 := by unfold InflN.H; rw [sq_sqrt hH.le]
  have h6 := InflN.six_ne hH
  have h3 : e.H x y ^ 2 * (6 - InflN.dphidN y ^ 2) = 2 * e.V y - 6 * e.K * exp (-2 * x) := by
    rw [← hs]; unfold InflN.H2 N.get_H2; rw [div_mul_cancel₀ _ h6]
  unfold N.get_epsilon_1H N.get_dH
  simp only [InflN.w]
  rw [hs] at hr ⊢
  have hr' := hr.ne'
  have hp' := hp.ne'
  obtain ⟨r, er⟩ : ∃ r, r = e.H x y ^ 2 * InflN.dphidN y ^ 2 / 2 + e.V y := ⟨_, rfl⟩
  have e1 : e.H x y ^ 2 * InflN.dphidN y ^ 2 / 2 - e.V y = e.H x y ^ 2 * InflN.dphidN y ^ 2 - r := by rw [er]; ring
  rw [← er] at hr' ⊢
  rw [e1]
  have e2 : r = 3 * (e.H x y ^ 2 + e.K * exp (-2 * x)) := by linear_combination er - h3 / 2
  have e3 : 1 - -e.K * exp (-2 * x) / e.H x y ^ 2 = r / (3 * e.H x y ^ 2) := by rw [e2]; field_simp; ring
  rw [e3]
  field_simp
  ring

/-- **C68, flat universes**: `ε₁ = 3/2 (1+w)`, hence `0 ≤ ε₁ ≤ 3` for non-negative potentials, in both formulations. -/
theorem C68_flat_time (e : InflT) (y : ℕ → ℝ) (hK : e.K = 0) (hH : 0 < e.H2 y) :
    T.get_epsilon_1H (e.H y) (T.get_dH (InflT._N y) (e.H y) (InflT.dphidt y) e.K) = 3 / 2 * (1 + e.w y) ∧
    (0 ≤ e.V y → 0 ≤ T.get_epsilon_1H (e.H y) (T.get_dH (InflT._N y) (e.H y) (InflT.dphidt y) e.K) ∧
      T.get_epsilon_1H (e.H y) (T.get_dH (InflT._N y) (e.H y) (InflT.dphidt y) e.K) ≤ 3) := by
  have hr : 0 < InflT.dphidt y ^ 2 / 2 + e.V y := by
    have : e.H2 y = (InflT.dphidt y ^ 2 / 2 + e.V y) / 3 := by unfold InflT.H2 T.get_H2; rw [hK]; ring
    rw [this] at hH; linarith
  have h0 : curvatureDensity e.K (InflT._N y) (e.H y) = 0 := by unfold curvatureDensity; rw [hK]; ring
  have key := C68_epsilon_time e y hH hr
  rw [h0, sub_zero, mul_one, add_zero] at key
  refine ⟨key, fun hV => ?_⟩
  rw [key]
  obtain ⟨a, b, -⟩ := C68_w_time e y hV hr
  constructor <;> linarith

theorem C68_flat_efolds (e : InflN) (x : ℝ) (y : ℕ → ℝ) (hK : e.K = 0) (hH : 0 < e.H2 x y) :
    N.get_epsilon_1H (e.H x y) (N.get_dH x (e.H x y) (InflN.dphidN y) e.K) = 3 / 2 * (1 + e.w x y) ∧
    (0 ≤ e.V y → 0 ≤ N.get_epsilon_1H (e.H x y) (N.get_dH x (e.H x y) (InflN.dphidN y) e.K) ∧
      N.get_epsilon_1H (e.H x y) (N.get_dH x (e.H x y) (InflN.dphidN y) e.K) ≤ 3) := by
  have h6 := InflN.six_ne hH
  have hr : 0 < e.H2 x y * InflN.dphidN y ^ 2 / 2 + e.V y := by
    have : e.H2 x y * (6 - InflN.dphidN y ^ 2) = 2 * e.V y := by
      unfold InflN.H2 N.get_H2; rw [div_mul_cancel₀ _ h6, hK]; ring
    nlinarith
  have h0 : curvatureDensity e.K x (e.H x y) = 0 := by unfold curvatureDensity; rw [hK]; ring
  have key := C68_epsilon_efolds e x y hH hr
  rw [h0, sub_zero, mul_one, add_zero] at key
  refine ⟨key, fun hV => ?_⟩
  rw [key]
  obtain ⟨a, b, -⟩ := C68_w_efolds e x y hH hV hr
  constructor <;> linarith

/-! ## Expansion and field velocity -/

/-- **C68, expansion.**  In flat and open universes with a positive potential every state expands in cosmic time; in e-folds exactly the states with
`|dφ/dN| < √6` do. -/
theorem C68_expands (eT : InflT) (eN : InflN) (x : ℝ) (y : ℕ → ℝ) :
    (eT.K ≤ 0 → 0 < eT.V y → 0 < eT.H2 y) ∧ (eN.K ≤ 0 → 0 < eN.V y → (0 < eN.H2 x y ↔ InflN.dphidN y ^ 2 < 6)) := by
  constructor
  · intro hK hV
    have := mul_nonpos_of_nonpos_of_nonneg hK (exp_pos (-2 * InflT._N y)).le
    have := sq_nonneg (InflT.dphidt y)
    unfold InflT.H2 T.get_H2
    linarith
  · intro hK hV
    have := mul_nonpos_of_nonpos_of_nonneg hK (exp_pos (-2 * x)).le
    have hnum : 0 < 2 * eN.V y - 6 * eN.K * exp (-2 * x) := by linarith
    unfold InflN.H2 N.get_H2
    rw [div_pos_iff_of_pos_left hnum]
    constructor <;> intro h <;> linarith

/-- **C68, velocity bound.**  Wherever the potential exceeds the curvature term, the field moves by less than `√6` Planck masses per e-fold. -/
theorem C68_velocity (eT : InflT) (eN : InflN) (x : ℝ) (y : ℕ → ℝ) :
    (3 * eT.K * exp (-2 * InflT._N y) < eT.V y → InflT.dphidt y ^ 2 < 6 * eT.H2 y) ∧
    (0 < eN.H2 x y → 3 * eN.K * exp (-2 * x) < eN.V y → InflN.dphidN y ^ 2 < 6) := by
  constructor
  · intro h
    unfold InflT.H2 T.get_H2
    linarith
  · intro hH h
    have h6 := InflN.six_ne hH
    have : eN.H2 x y * (6 - InflN.dphidN y ^ 2) = 2 * eN.V y - 6 * eN.K * exp (-2 * x) := by
      unfold InflN.H2 N.get_H2; rw [div_mul_cancel₀ _ h6]
    have : 0 < eN.H2 x y * (6 - InflN.dphidN y ^ 2) := by rw [this]; linarith
    have := (mul_pos_iff_of_pos_left hH).1 this
    linarith

/-! ## Along solutions -/

section
variable {S D : Set ℝ}

/-- **C68, conservation (cosmic time)**: `dρ/dt = -3H(ρ + p)`, along every solution, in any curvature. -/
theorem C68_conservation_time {e : InflT} {y : ℝ → ℕ → ℝ} (sol : SolvesODE S e.rows e.call y) (hV : IsDerivOn D e.pot.V e.pot.dV)
    (hφ : ∀ t ∈ S, InflT.phi (y t) ∈ D) :
    IsDerivOn S (fun t => InflT.dphidt (y t) ^ 2 / 2 + e.V (y t))
      (fun t => -3 * e.H (y t) * ((InflT.dphidt (y t) ^ 2 / 2 + e.V (y t)) + (InflT.dphidt (y t) ^ 2 / 2 - e.V (y t)))) := by
  intro t ht
  have r : 3 ≤ e.rows := by rw [InflT.rows_eq]; split <;> omega
  have h0 : HasDerivAt (fun t => InflT.phi (y t)) (InflT.dphidt (y t)) t := by
    have := sol t ht 0 (by omega); rw [InflT.call0] at this; exact this
  have h1 : HasDerivAt (fun t => InflT.dphidt (y t)) (-3 * e.H (y t) * InflT.dphidt (y t) - e.dVdphi (y t)) t := by
    have := sol t ht 1 (by omega); rw [InflT.call1] at this; exact this
  have h2 := (hV _ (hφ t ht)).comp t h0
  have h3 := (h1.fun_pow 2).div_const 2
  refine (h3.fun_add h2).congr_deriv ?_
  simp only [InflT.dVdphi]
  push_cast
  ring

/-- **C68, conservation (e-folds)**: `dρ/dN = -3(ρ + p)`. -/
theorem C68_conservation_efolds {e : InflN} {y : ℝ → ℕ → ℝ} (hS : IsOpen S) (sol : SolvesODE S e.rows e.call y) (hH : ∀ n ∈ S, 0 < e.H2 n (y n))
    (hV : IsDerivOn D e.pot.V e.pot.dV) (hφ : ∀ n ∈ S, InflN.phi (y n) ∈ D) :
    IsDerivOn S (fun n => e.H2 n (y n) * InflN.dphidN (y n) ^ 2 / 2 + e.V (y n))
      (fun n => -3 * ((e.H2 n (y n) * InflN.dphidN (y n) ^ 2 / 2 + e.V (y n)) + (e.H2 n (y n) * InflN.dphidN (y n) ^ 2 / 2 - e.V (y n)))) := by
  intro n hn
  have hp : 0 < e.H n (y n) := sqrt_pos.2 (hH n hn)
  have ev : (fun s => e.H2 s (y s) * InflN.dphidN (y s) ^ 2 / 2 + e.V (y s)) =ᶠ[nhds n] (fun s => 3 * (e.H s (y s) ^ 2 + e.K * exp (-2 * s))) := by
    filter_upwards [hS.mem_nhds hn] with s hs
    have h6 := InflN.six_ne (hH s hs)
    have : e.H2 s (y s) * (6 - InflN.dphidN (y s) ^ 2) = 2 * e.V (y s) - 6 * e.K * exp (-2 * s) := by
      unfold InflN.H2 N.get_H2; rw [div_mul_cancel₀ _ h6]
    rw [InflN.H_sq (hH s hs)]
    linear_combination -this / 2
  have h := (((InflN.hasDerivAt_H hS sol hH hV hφ n hn).fun_pow 2).fun_add ((hasDerivAt_exp_neg_two_id n).const_mul e.K)).const_mul 3
  refine (h.congr_of_eventuallyEq ev).congr_deriv ?_
  dsimp only
  rw [← InflN.H_sq (hH n hn)]
  unfold N.get_dH
  push_cast
  field_simp
  ring

/-- **C68, the curvature density dilutes during inflation (cosmic time).**  In a curved universe `|Ω_K|` strictly decreases, with the sign opposite to `K`. -/
theorem C68_dilution_time {e : InflT} {y : ℝ → ℕ → ℝ} (hS : IsOpen S) (hc : Convex ℝ S) (sol : SolvesODE S e.rows e.call y)
    (hH : ∀ t ∈ S, 0 < e.H2 (y t)) (hV : IsDerivOn D e.pot.V e.pot.dV) (hφ : ∀ t ∈ S, InflT.phi (y t) ∈ D)
    (hinf : ∀ t ∈ S, 0 < e.inflating (y t)) (hK : e.K ≠ 0) :
    StrictAntiOn (fun t => |curvatureDensity e.K (InflT._N (y t)) (e.H (y t))|) S ∧
      ∀ t ∈ S, curvatureDensity e.K (InflT._N (y t)) (e.H (y t)) * e.K < 0 := by
  have key := C20_logaH_T hS hc sol hH hV hφ hinf
  have hk : 0 < |e.K| := abs_pos.2 hK
  refine ⟨fun a ha b hb hab => ?_, fun t ht => ?_⟩
  · have := key ha hb hab
    dsimp only at this ⊢
    rw [curvatureDensity_log (H := e.H (y a)) (sqrt_pos.2 (hH a ha)), curvatureDensity_log (H := e.H (y b)) (sqrt_pos.2 (hH b hb))]
    rw [abs_mul, abs_mul, abs_neg, abs_of_pos (exp_pos _), abs_of_pos (exp_pos _)]
    exact mul_lt_mul_of_pos_left (exp_lt_exp.2 (by linarith)) hk
  · rw [curvatureDensity_log (H := e.H (y t)) (sqrt_pos.2 (hH t ht))]
    have := exp_pos (-2 * (InflT._N (y t) + log (e.H (y t))))
    have h2 : 0 < e.K ^ 2 := by positivity
    nlinarith

/-- **C68, dilution (e-folds).** -/
theorem C68_dilution_efolds {e : InflN} {y : ℝ → ℕ → ℝ} (hS : IsOpen S) (hc : Convex ℝ S) (sol : SolvesODE S e.rows e.call y)
    (hH : ∀ n ∈ S, 0 < e.H2 n (y n)) (hV : IsDerivOn D e.pot.V e.pot.dV) (hφ : ∀ n ∈ S, InflN.phi (y n) ∈ D)
    (hinf : ∀ n ∈ S, 0 < e.inflating n (y n)) (hK : e.K ≠ 0) :
    StrictAntiOn (fun n => |curvatureDensity e.K n (e.H n (y n))|) S ∧ ∀ n ∈ S, curvatureDensity e.K n (e.H n (y n)) * e.K < 0 := by
  have key := C20_logaH_N hS hc sol hH hV hφ hinf
  have hk : 0 < |e.K| := abs_pos.2 hK
  refine ⟨fun a ha b hb hab => ?_, fun n hn => ?_⟩
  · have := key ha hb hab
    dsimp only at this ⊢
    rw [curvatureDensity_log (H := e.H a (y a)) (sqrt_pos.2 (hH a ha)), curvatureDensity_log (H := e.H b (y b)) (sqrt_pos.2 (hH b hb))]
    rw [abs_mul, abs_mul, abs_neg, abs_of_pos (exp_pos _), abs_of_pos (exp_pos _)]
    exact mul_lt_mul_of_pos_left (exp_lt_exp.2 (by linarith)) hk
  · rw [curvatureDensity_log (H := e.H n (y n)) (sqrt_pos.2 (hH n hn))]
    have := exp_pos (-2 * (n + log (e.H n (y n))))
    have h2 : 0 < e.K ^ 2 := by positivity
    nlinarith
end

/-! ## Non-vacuity -/

/-- `a = t²`: `w = -2/3`, `ε₁ = 1/2`. -/
example (t : ℝ) (ht : 0 < t) : 0 ≤ Exact.flatT.V (Exact.yFlatT t) ∧ Exact.flatT.w (Exact.yFlatT t) = -2 / 3 ∧
    T.get_epsilon_1H (Exact.flatT.H (Exact.yFlatT t))
      (T.get_dH (InflT._N (Exact.yFlatT t)) (Exact.flatT.H (Exact.yFlatT t)) (InflT.dphidt (Exact.yFlatT t)) Exact.flatT.K) = 1 / 2 := by
  have hw : Exact.flatT.w (Exact.yFlatT t) = -2 / 3 := by
    simp only [InflT.w, InflT.V, InflT.phi, InflT.dphidt, Exact.flatT, Exact.expPot, Exact.yFlatT, Exact.exp_neg_two_log ht]
    field_simp; norm_num
  refine ⟨?_, hw, ?_⟩
  · simp only [InflT.V, Exact.flatT, Exact.expPot]; positivity
  · rw [(C68_flat_time Exact.flatT _ rfl (by rw [Exact.flatT_H2 ht]; positivity)).1, hw]; norm_num

/-- Closed universe `a = t`: positive energy density, `Ω_K = -1`, `w = -1/3`, `ε₁ = 1`. -/
example (t : ℝ) (ht : 0 < t) : 0 < InflT.dphidt (Exact.yCurvedT t) ^ 2 / 2 + Exact.curvedT.V (Exact.yCurvedT t) ∧
    curvatureDensity Exact.curvedT.K (InflT._N (Exact.yCurvedT t)) (Exact.curvedT.H (Exact.yCurvedT t)) = -1 := by
  constructor
  · simp only [InflT.V, Exact.curvedT, Exact.expPot]; positivity
  · rw [Exact.curvedT_H ht, curvatureDensity]
    simp only [Exact.curvedT, InflT._N, Exact.yCurvedT, exp_log ht]
    field_simp

/-- Closed de Sitter space, e-folds: the curvature dilutes. -/
example : StrictAntiOn (fun n => |curvatureDensity Exact.dsN.K n (Exact.dsN.H n (Exact.yDsN n))|) (Ioi 0) :=
  (C68_dilution_efolds (D := univ) isOpen_Ioi (convex_Ioi 0) Exact.dsN_sol (fun _ hn => Exact.dsN_pos hn) Exact.ccPot_chain.d1 (fun _ _ => mem_univ _)
    (fun n hn => by
      simp [InflN.inflating, Exact.dsN, Exact.ccPot, InflN.V, InflN.dphidN, Exact.yDsN]) one_ne_zero).1

/-- Every state of the flat exponential universe expands, and moves by less than `√6` per e-fold. -/
example (y : ℕ → ℝ) : 0 < Exact.flatT.H2 y ∧ InflT.dphidt y ^ 2 < 6 * Exact.flatT.H2 y := by
  have hV : 0 < Exact.flatT.V y := by simp only [InflT.V, Exact.flatT, Exact.expPot]; positivity
  refine ⟨(C68_expands Exact.flatT Exact.flatN 0 y).1 le_rfl hV, (C68_velocity Exact.flatT Exact.flatN 0 y).1 ?_⟩
  simpa [Exact.flatT] using hV

end Primpy
