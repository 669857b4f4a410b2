import Verif.Props.C55
import Verif.Props.C64

/-!
# C66: the slow-roll spectra scale with the potential
-/

namespace Primpy
open Real

/-- `H` times `s`, everything else the same. -/
def SRPoint.scaled (p : SRPoint) (s : ℝ) : SRPoint := { p with H := s * p.H }

section
variable {s c K : ℝ} (hs : 0 < s) (hK : K = 0 ∨ s * exp c = 1) (pot : PotFns) (N_ H phi dphi : ℝ)
include hs hK

/-- **C66, the slow-roll parameters (cosmic time)** do not change when the potential is multiplied by `s²`, the field velocity and `H`
by `s` and the e-folds are shifted (in a curved universe with `s exp c = 1`): any point, any potential. -/
theorem C66_parameters_time : T.srAt K (pot.scaled (s ^ 2)) (N_ + c) (s * H) phi (s * dphi) = (T.srAt K pot N_ H phi dphi).scaled s := by
  have hE := Pert.kE hK N_
  have h0 := hs.ne'
  have h1 : T.get_dH (N_ + c) (s * H) (s * dphi) K = s ^ 2 * T.get_dH N_ H dphi K := by
    unfold T.get_dH; rw [hE]; ring
  have h2 : T.get_d2phi ((s * H) ^ 2) (s * dphi) (s ^ 2 * pot.dV phi) = s ^ 2 * T.get_d2phi (H ^ 2) dphi (pot.dV phi) := by
    unfold T.get_d2phi; rw [Pert.sqrt_H2 hs]; ring
  have h3 : ∀ a b, T.get_d2H (N_ + c) (s * H) (s ^ 2 * a) (s * dphi) (s ^ 2 * b) K = s ^ 3 * T.get_d2H N_ H a dphi b K := by
    intro a b; unfold T.get_d2H; linear_combination (-2 * s * H) * hE
  have h4 : ∀ a b d, T.get_d3phi (s * H) (s ^ 2 * a) (s ^ 3 * b) (s * dphi) (s ^ 2 * d) (s ^ 2 * pot.dV phi) (s ^ 2 * pot.d2V phi) =
      s ^ 3 * T.get_d3phi H a b dphi d (pot.dV phi) (pot.d2V phi) := by
    intro a b d; unfold T.get_d3phi; ring
  have h5 : ∀ a b d e, T.get_d3H (N_ + c) (s * H) (s ^ 2 * a) (s ^ 3 * b) (s * dphi) (s ^ 2 * d) (s ^ 3 * e) K =
      s ^ 4 * T.get_d3H N_ H a b dphi d e K := by
    intro a b d e; unfold T.get_d3H; linear_combination 2 * s ^ 2 * (2 * H ^ 2 - a) * hE
  have h6 : ∀ a b d e f, T.get_d4phi (s * H) (s ^ 2 * a) (s ^ 3 * b) (s ^ 4 * d) (s * dphi) (s ^ 2 * e) (s ^ 3 * f) (s ^ 2 * pot.dV phi)
      (s ^ 2 * pot.d2V phi) (s ^ 2 * pot.d3V phi) = s ^ 4 * T.get_d4phi H a b d dphi e f (pot.dV phi) (pot.d2V phi) (pot.d3V phi) := by
    intro a b d e f; unfold T.get_d4phi; ring
  unfold T.srAt T.pipeline T.srPoint SRPoint.scaled
  dsimp only [PotFns.scaled]
  rw [h1, h2, h3, h4, h5, h6]
  generalize T.get_dH N_ H dphi K = a
  generalize T.get_d2phi (H ^ 2) dphi (pot.dV phi) = d2
  generalize T.get_d2H N_ H a dphi d2 K = b
  generalize T.get_d3phi H a b dphi d2 (pot.dV phi) (pot.d2V phi) = d3
  generalize T.get_d3H N_ H a b dphi d2 d3 K = e
  generalize T.get_d4phi H a b e dphi d2 d3 (pot.dV phi) (pot.d2V phi) (pot.d3V phi) = d4
  have q : ∀ (n : ℕ) (x y x' y' : ℝ), x' = s ^ n * x → y' = s ^ n * y → x' / y' = x / y := by
    intro n x y x' y' hx hy; rw [hx, hy, mul_div_mul_left _ _ (pow_ne_zero n h0)]
  congr 1
  · unfold T.get_epsilon_1H; exact q 2 _ _ _ _ (by ring) (by ring)
  · unfold T.get_epsilon_2H
    exact congrArg₂ (· - ·) (q 3 _ _ _ _ (by ring) (by ring)) (q 2 _ _ _ _ (by ring) (by ring))
  · unfold T.get_epsilon_3H; exact q 12 _ _ _ _ (by ring) (by ring)
  · unfold T.get_delta_1; exact q 2 _ _ _ _ (by ring) (by ring)
  · unfold T.get_delta_2; exact q 3 _ _ _ _ (by ring) (by ring)
  · unfold T.get_delta_3; exact q 4 _ _ _ _ (by ring) (by ring)
  · unfold T.get_epsilon_2H_Gong
    exact congrArg₂ (· + ·) (q 3 _ _ _ _ (by ring) (by ring)) (q 4 _ _ _ _ (by ring) (by ring))
  · unfold T.get_epsilon_3H_Gong
    exact congrArg₂ (· - ·) (congrArg₂ (· + ·) (q 4 _ _ _ _ (by ring) (by ring)) (q 5 _ _ _ _ (by ring) (by ring))) (q 6 _ _ _ _ (by ring) (by ring))

/-- **C66, the slow-roll parameters (e-folds).** -/
theorem C66_parameters_efolds : N.srAt K (pot.scaled (s ^ 2)) (N_ + c) (s * H) phi dphi = (N.srAt K pot N_ H phi dphi).scaled s := by
  have hE := Pert.kE hK N_
  have h0 := hs.ne'
  have q : ∀ (n : ℕ) (x y x' y' : ℝ), x' = s ^ n * x → y' = s ^ n * y → x' / y' = x / y := by
    intro n x y x' y' hx hy; rw [hx, hy, mul_div_mul_left _ _ (pow_ne_zero n h0)]
  have h1 : N.get_dH (N_ + c) (s * H) dphi K = s * N.get_dH N_ H dphi K := by
    unfold N.get_dH; rw [hE]; simp only [div_eq_mul_inv, mul_inv, mul_pow, inv_pow]; generalize H⁻¹ = Hi; field_simp
  have h1' : N.get_dH_H (N_ + c) ((s * H) ^ 2) dphi K = N.get_dH_H N_ (H ^ 2) dphi K := by
    unfold N.get_dH_H; rw [hE]; simp only [div_eq_mul_inv, mul_inv, mul_pow, inv_pow]; generalize H⁻¹ = Hi; field_simp
  have h2 : ∀ a, N.get_d2phi ((s * H) ^ 2) a dphi (s ^ 2 * pot.dV phi) = N.get_d2phi (H ^ 2) a dphi (pot.dV phi) := by
    intro a; unfold N.get_d2phi; simp only [div_eq_mul_inv, mul_inv, mul_pow, inv_pow]; generalize H⁻¹ = Hi; field_simp
  have h3 : ∀ a b, N.get_d2H (N_ + c) (s * H) (s * a) dphi b K = s * N.get_d2H N_ H a dphi b K := by
    intro a b; unfold N.get_d2H; rw [hE]; simp only [div_eq_mul_inv, mul_inv, mul_pow, inv_pow]; generalize H⁻¹ = Hi; field_simp
  have h4 : ∀ a b d, N.get_d3phi (s * H) (s * a) (s * b) dphi d (s ^ 2 * pot.dV phi) (s ^ 2 * pot.d2V phi) =
      N.get_d3phi H a b dphi d (pot.dV phi) (pot.d2V phi) := by
    intro a b d; unfold N.get_d3phi; simp only [div_eq_mul_inv, mul_inv, mul_pow, inv_pow]; generalize H⁻¹ = Hi; field_simp
  have h5 : ∀ a b d e, N.get_d3H (N_ + c) (s * H) (s * a) (s * b) dphi d e K = s * N.get_d3H N_ H a b dphi d e K := by
    intro a b d e; unfold N.get_d3H; rw [hE]; simp only [div_eq_mul_inv, mul_inv, mul_pow, inv_pow]; generalize H⁻¹ = Hi; field_simp
  have h6 : ∀ a b d e f, N.get_d4phi (s * H) (s * a) (s * b) (s * d) dphi e f (s ^ 2 * pot.dV phi)
      (s ^ 2 * pot.d2V phi) (s ^ 2 * pot.d3V phi) = N.get_d4phi H a b d dphi e f (pot.dV phi) (pot.d2V phi) (pot.d3V phi) := by
    intro a b d e f; unfold N.get_d4phi; simp only [div_eq_mul_inv, mul_inv, mul_pow, inv_pow]; generalize H⁻¹ = Hi; field_simp
  unfold N.srAt N.pipeline N.srPoint SRPoint.scaled
  dsimp only [PotFns.scaled]
  rw [h1, h1', h2, h3, h4, h5, h6]
  generalize N.get_dH N_ H dphi K = a
  generalize N.get_d2phi (H ^ 2) (N.get_dH_H N_ (H ^ 2) dphi K) dphi (pot.dV phi) = d2
  generalize N.get_d2H N_ H a dphi d2 K = b
  generalize N.get_d3phi H a b dphi d2 (pot.dV phi) (pot.d2V phi) = d3
  generalize N.get_d3H N_ H a b dphi d2 d3 K = e
  generalize N.get_d4phi H a b e dphi d2 d3 (pot.dV phi) (pot.d2V phi) (pot.d3V phi) = d4
  congr 1
  · unfold N.get_epsilon_1H; exact q 1 _ _ _ _ (by ring) (by ring)
  · unfold N.get_epsilon_2H
    exact congrArg₂ (· - ·) (q 1 _ _ _ _ (by ring) (by ring)) (q 1 _ _ _ _ (by ring) (by ring))
  · unfold N.get_epsilon_3H
    have : |(s * H) ^ 2 * (s * b) ^ 2 - 2 * (s * H) * (s * a) ^ 2 * (s * b) + (s * a) ^ 4| =
        s ^ 4 * |H ^ 2 * b ^ 2 - 2 * H * a ^ 2 * b + a ^ 4| := by
      rw [show (s * H) ^ 2 * (s * b) ^ 2 - 2 * (s * H) * (s * a) ^ 2 * (s * b) + (s * a) ^ 4 =
        s ^ 4 * (H ^ 2 * b ^ 2 - 2 * H * a ^ 2 * b + a ^ 4) by ring, abs_mul, abs_of_pos (by positivity)]
    rw [this]
    exact q 6 _ _ _ _ (by ring) (by ring)
  · unfold N.get_delta_1; simp only [div_eq_mul_inv, mul_inv, mul_pow, inv_pow]; generalize H⁻¹ = Hi; generalize dphi⁻¹ = Di; field_simp
  · unfold N.get_delta_2; simp only [div_eq_mul_inv, mul_inv, mul_pow, inv_pow]; generalize H⁻¹ = Hi; generalize dphi⁻¹ = Di; field_simp
  · unfold N.get_delta_3; simp only [div_eq_mul_inv, mul_inv, mul_pow, inv_pow]; generalize H⁻¹ = Hi; generalize dphi⁻¹ = Di; field_simp
  · unfold N.get_epsilon_2H_Gong; simp only [div_eq_mul_inv, mul_inv, mul_pow, inv_pow]; generalize H⁻¹ = Hi; field_simp
  · unfold N.get_epsilon_3H_Gong; simp only [div_eq_mul_inv, mul_inv, mul_pow, inv_pow]; generalize H⁻¹ = Hi; field_simp
end

/-! ## Spectra -/
namespace Approx

/-- The same grid with all `H` multiplied by `s`. -/
def Grid.scaled (g : Grid) (s : ℝ) : Grid := ⟨g.pts.map fun q => (q.1, q.2.scaled s), g.star.scaled s⟩

/-- The log-spectra shifted by `d`. -/
def Spectrum.shifted (S : Spectrum) (d : ℝ) : Spectrum := ⟨fun x => S.s x + d, fun x => S.t x + d⟩

def Caches.shifted (c : Caches) (d : ℝ) : Caches where
  cgs n := (c.cgs n).map (·.shifted d)
  llms := c.llms.map (·.shifted d)
  ste := c.ste.map (·.shifted d)
  arbds n := (c.arbds n).map (·.shifted d)
  current := c.current.map (·.shifted d)

/-- Fitting a (non-empty) curve shifted by a constant gives the fitted curve shifted by the constant. -/
def ShiftEquivariant {κ : Type} (spline : κ → List (ℝ × ℝ) → ℝ → ℝ) : Prop :=
  ∀ kw tab d x, tab ≠ [] → spline kw (tab.map fun q => (q.1, q.2 + d)) x = spline kw tab x + d

/-- Some grid point has positive approximate spectra, for every order the method derives, so that there is something to interpolate. -/
def Grid.Fittable (g : Grid) (method : String) : Prop :=
  (method = "CGS" → ∀ n ≤ 3, ∃ q ∈ g.pts, 0 < Ps0 q.2 * cgsS n q.2 ∧ 0 < Pt0 q.2 * cgsT n q.2) ∧
  (method = "LLMS" → g.pts ≠ [] ∧ g.star.H ≠ 0 ∧ g.star.e1 ≠ 0) ∧
  (method = "STE" → ∃ q ∈ g.pts, 0 < Ps0 q.2 * steS q.2 ∧ 0 < Pt0 q.2 * steT q.2) ∧
  (method = "ARBDS" → ∀ n ≤ 3, ∃ q ∈ g.pts, 0 < Ps0 g.star * arbdsS n g.star (q.1 - log SI.K_STAR) ∧
    0 < Pt0 g.star * arbdsT n g.star (q.1 - log SI.K_STAR))

theorem logTable_ne {Ps Pt : ℝ → SRPoint → ℝ} {g : Grid} (h : ∃ q ∈ g.pts, 0 < Ps q.1 q.2 ∧ 0 < Pt q.1 q.2) : logTable Ps Pt g ≠ [] := by
  obtain ⟨q, hq, hp⟩ := h
  intro h'
  unfold logTable at h'
  rw [List.filterMap_eq_nil_iff] at h'
  have := h' q hq
  rw [if_pos hp] at this
  cases this

theorem Ps0_scaled (p : SRPoint) (s : ℝ) : Ps0 (p.scaled s) = s ^ 2 * Ps0 p := by
  unfold Ps0 SRPoint.scaled; dsimp only; rw [mul_pow, mul_div_assoc]
theorem Pt0_scaled (p : SRPoint) (s : ℝ) : Pt0 (p.scaled s) = s ^ 2 * Pt0 p := by
  unfold Pt0 SRPoint.scaled; dsimp only; ring

section
variable {κ : Type} {spline : κ → List (ℝ × ℝ) → ℝ → ℝ} (hsp : ShiftEquivariant spline) {s : ℝ} (hs : 0 < s)
include hsp

theorem fit_shifted (kw : κ) (tab : List (ℝ × ℝ × ℝ)) (d : ℝ) (ht : tab ≠ []) :
    fit spline kw (tab.map fun q => (q.1, q.2.1 + d, q.2.2 + d)) = (fit spline kw tab).shifted d := by
  unfold fit Spectrum.shifted
  simp only [List.map_map]
  congr 1
  · funext x
    rw [← hsp _ _ _ _ (by simpa using ht), List.map_map]; rfl
  · funext x
    rw [← hsp _ _ _ _ (by simpa using ht), List.map_map]; rfl

omit hsp
include hs

theorem logTable_scaled {Ps Pt Ps' Pt' : ℝ → SRPoint → ℝ} (g : Grid) (h1 : ∀ l p, Ps' l (p.scaled s) = s ^ 2 * Ps l p)
    (h2 : ∀ l p, Pt' l (p.scaled s) = s ^ 2 * Pt l p) :
    logTable Ps' Pt' (g.scaled s) = (logTable Ps Pt g).map fun q => (q.1, q.2.1 + 2 * log s, q.2.2 + 2 * log s) := by
  unfold logTable Grid.scaled
  dsimp only
  rw [List.filterMap_map, List.map_filterMap]
  apply List.filterMap_congr
  intro q _
  simp only [Function.comp]
  rw [h1, h2]
  have e : (0 < s ^ 2 * Ps q.1 q.2 ∧ 0 < s ^ 2 * Pt q.1 q.2) ↔ (0 < Ps q.1 q.2 ∧ 0 < Pt q.1 q.2) := by
    rw [mul_pos_iff_of_pos_left (by positivity), mul_pos_iff_of_pos_left (by positivity)]
  by_cases h : 0 < Ps q.1 q.2 ∧ 0 < Pt q.1 q.2
  · rw [if_pos h, if_pos (e.mpr h), log_mul (by positivity) h.1.ne', log_mul (by positivity) h.2.ne', log_pow]
    simp only [Option.map_some, Option.some.injEq, Prod.mk.injEq, true_and]
    push_cast
    constructor <;> ring
  · rw [if_neg h, if_neg (fun h' => h (e.mp h'))]; rfl

include hsp

theorem specCGS_scaled (kw : κ) (order : ℕ) (g : Grid)
    (hg : ∃ q ∈ g.pts, 0 < Ps0 q.2 * cgsS order q.2 ∧ 0 < Pt0 q.2 * cgsT order q.2) : specCGS spline kw order (g.scaled s) = (specCGS spline kw order g).shifted (2 * log s) := by
  unfold specCGS
  rw [← fit_shifted hsp _ _ _ (logTable_ne hg), ← logTable_scaled hs]
  · intro l p
    have : cgsS order (p.scaled s) = cgsS order p := by
      match order with
      | 0 => rfl
      | 1 => rfl
      | 2 => rfl
      | n + 3 => rfl
    rw [Ps0_scaled, this]; ring
  · intro l p
    have : cgsT order (p.scaled s) = cgsT order p := by
      match order with
      | 0 => rfl
      | 1 => rfl
      | 2 => rfl
      | n + 3 => rfl
    rw [Pt0_scaled, this]; ring

theorem specSTE_scaled (kw : κ) (g : Grid)
    (hg : ∃ q ∈ g.pts, 0 < Ps0 q.2 * steS q.2 ∧ 0 < Pt0 q.2 * steT q.2) : specSTE spline kw (g.scaled s) = (specSTE spline kw g).shifted (2 * log s) := by
  unfold specSTE
  rw [← fit_shifted hsp _ _ _ (logTable_ne hg), ← logTable_scaled hs]
  · intro l p
    have : steS (p.scaled s) = steS p := rfl
    rw [Ps0_scaled, this]; ring
  · intro l p
    have : steT (p.scaled s) = steT p := rfl
    rw [Pt0_scaled, this]; ring

theorem specARBDS_scaled (kw : κ) (order : ℕ) (g : Grid)
    (hg : ∃ q ∈ g.pts, 0 < Ps0 g.star * arbdsS order g.star (q.1 - log SI.K_STAR) ∧ 0 < Pt0 g.star * arbdsT order g.star (q.1 - log SI.K_STAR)) : specARBDS spline kw order (g.scaled s) = (specARBDS spline kw order g).shifted (2 * log s) := by
  unfold specARBDS
  have e1 : ∀ L, arbdsS order (g.star.scaled s) L = arbdsS order g.star L := by
    intro L
    match order with
    | 0 => rfl
    | 1 => rfl
    | 2 => rfl
    | n + 3 => rfl
  have e2 : ∀ L, arbdsT order (g.star.scaled s) L = arbdsT order g.star L := by
    intro L
    match order with
    | 0 => rfl
    | 1 => rfl
    | 2 => rfl
    | n + 3 => rfl
  rw [← fit_shifted hsp _ _ _ (logTable_ne hg), ← logTable_scaled hs]
  · intro l p
    show Ps0 (g.star.scaled s) * arbdsS order (g.star.scaled s) _ = _
    rw [Ps0_scaled, e1]; ring
  · intro l p
    show Pt0 (g.star.scaled s) * arbdsT order (g.star.scaled s) _ = _
    rw [Pt0_scaled, e2]; ring

theorem specLLMS_scaled (kw : κ) (g : Grid) (hg : g.pts ≠ []) (hH : g.star.H ≠ 0) (he : g.star.e1 ≠ 0) :
    specLLMS spline kw (g.scaled s) = (specLLMS spline kw g).shifted (2 * log s) := by
  unfold specLLMS
  rw [← fit_shifted hsp _ _ _ (by simpa using hg)]
  congr 1
  rw [List.map_map]
  unfold Grid.scaled
  dsimp only
  rw [List.map_map]
  apply List.map_congr_left
  intro q _
  simp only [Function.comp, Prod.mk.injEq, true_and]
  have hp := pi_pos
  constructor
  · unfold llmsS
    have e : bs0 (g.star.scaled s) = bs0 g.star ∧ llms_ns (g.star.scaled s) = llms_ns g.star ∧ llms_nsrun (g.star.scaled s) = llms_nsrun g.star := ⟨rfl, rfl, rfl⟩
    rw [Ps0_scaled, e.1, e.2.1, e.2.2, log_mul (by positivity) (by unfold Ps0; positivity), log_pow]
    push_cast; ring
  · unfold llmsT
    have e : bt0 (g.star.scaled s) = bt0 g.star ∧ llms_nt (g.star.scaled s) = llms_nt g.star ∧ llms_ntrun (g.star.scaled s) = llms_ntrun g.star := ⟨rfl, rfl, rfl⟩
    rw [Pt0_scaled, e.1, e.2.1, e.2.2, log_mul (by positivity) (by unfold Pt0; positivity), log_pow]
    push_cast; ring

/-- **C66, deriving.**  Any method, order and grid: if all Hubble rates are `s` times as large, every spectrum that
`derive_approx_power` stores has `ln P` larger by `2 ln s`, that is `P` is `s²` times as large. -/
theorem C66_derive (method : String) (kw : κ) (order : ℕ) (g : Grid) (hg : g.Fittable method) (c : Caches) :
    derive spline method kw order (g.scaled s) (c.shifted (2 * log s)) = (derive spline method kw order g c).shifted (2 * log s) := by
  unfold derive
  by_cases h1 : method = "CGS"
  · rw [if_pos h1, if_pos h1]
    unfold deriveCGS Caches.shifted
    congr 1
    · funext n
      dsimp only
      by_cases hn : n ≤ 3
      · rw [if_pos hn, if_pos hn, specCGS_scaled hsp hs _ _ _ (hg.1 h1 n hn)]; rfl
      · rw [if_neg hn, if_neg hn]
    · split_ifs with hn
      · rw [specCGS_scaled hsp hs _ _ _ (hg.1 h1 order hn)]; rfl
      · rfl
  rw [if_neg h1, if_neg h1]
  by_cases h2 : method = "LLMS"
  · rw [if_pos h2, if_pos h2]
    unfold deriveLLMS Caches.shifted
    simp only [specLLMS_scaled hsp hs kw g (hg.2.1 h2).1 (hg.2.1 h2).2.1 (hg.2.1 h2).2.2]
    rfl
  rw [if_neg h2, if_neg h2]
  by_cases h3 : method = "STE"
  · rw [if_pos h3, if_pos h3]
    unfold deriveSTE Caches.shifted
    simp only [specSTE_scaled hsp hs _ _ (hg.2.2.1 h3)]
    rfl
  rw [if_neg h3, if_neg h3]
  by_cases h4 : method = "ARBDS"
  · rw [if_pos h4, if_pos h4]
    unfold deriveARBDS Caches.shifted
    congr 1
    · funext n
      dsimp only
      by_cases hn : 1 ≤ n ∧ n ≤ 3
      · rw [if_pos hn, if_pos hn, specARBDS_scaled hsp hs _ _ _ (hg.2.2.2 h4 n hn.2)]; rfl
      · rw [if_neg hn, if_neg hn]
    · split_ifs with hn
      · rw [specARBDS_scaled hsp hs _ _ _ (hg.2.2.2 h4 order hn.2)]; rfl
      · rfl
  · rw [if_neg h4, if_neg h4]

omit hsp in
theorem evalAttr_shifted (name : String) (pick : Spectrum → ℝ → ℝ) (hp : pick = Spectrum.s ∨ pick = Spectrum.t) (k : ℝ) (S : Option Spectrum) :
    evalAttr name pick k (S.map (·.shifted (2 * log s))) = (evalAttr name pick k S).map (s ^ 2 * ·) := by
  cases S with
  | none => rfl
  | some S =>
    have e : exp (2 * log s) = s ^ 2 := by rw [mul_comm, exp_mul, exp_log hs]; norm_num
    rcases hp with rfl | rfl
    · simp only [Option.map_some, evalAttr, Except.map, Spectrum.shifted]
      rw [exp_add, e, mul_comm]
    · simp only [Option.map_some, evalAttr, Except.map, Spectrum.shifted]
      rw [exp_add, e, mul_comm]

/-- **C66, evaluating.**  `P_s_approx` and `P_t_approx`, any method, order, wavenumber and history of derived spectra: the value is `s²` times
the original one (or the same error), and the cached spectra correspond. -/
theorem C66_evaluate (pick : Spectrum → ℝ → ℝ) (hp : pick = Spectrum.s ∨ pick = Spectrum.t) (method : String) (order : ℕ) (kw : κ) (k : ℝ) (g : Grid)
    (hg : g.Fittable method) (c : Caches) :
    evalP spline pick method order kw k (g.scaled s) (c.shifted (2 * log s)) =
      ((evalP spline pick method order kw k g c).1.shifted (2 * log s), (evalP spline pick method order kw k g c).2.map (s ^ 2 * ·)) := by
  have hd := fun m h => C66_derive hsp hs m kw order g h c
  unfold evalP
  by_cases h1 : method = "CGS"
  · rw [if_pos h1, if_pos h1]
    split_ifs
    · rw [← evalAttr_shifted hs _ _ hp]; rfl
    · rw [← evalAttr_shifted hs _ _ hp]; rfl
  rw [if_neg h1, if_neg h1]
  by_cases h2 : method = "LLMS"
  · rw [if_pos h2, if_pos h2]
    have e : (c.shifted (2 * log s)).llms.isSome = c.llms.isSome := by simp [Caches.shifted]
    have := hd "LLMS" (h2 ▸ hg)
    simp only [derive, if_true, show ("LLMS" : String) ≠ "CGS" by decide, if_false] at this
    dsimp only
    rw [e]
    split_ifs
    · rw [← evalAttr_shifted hs _ _ hp]; rfl
    · rw [this, ← evalAttr_shifted hs _ _ hp]; rfl
  rw [if_neg h2, if_neg h2]
  by_cases h3 : method = "STE"
  · rw [if_pos h3, if_pos h3]
    have e : (c.shifted (2 * log s)).ste.isSome = c.ste.isSome := by simp [Caches.shifted]
    have := hd "STE" (h3 ▸ hg)
    simp only [derive, if_true, show ("STE" : String) ≠ "CGS" by decide, show ("STE" : String) ≠ "LLMS" by decide, if_false] at this
    dsimp only
    rw [e]
    split_ifs
    · rw [← evalAttr_shifted hs _ _ hp]; rfl
    · rw [this, ← evalAttr_shifted hs _ _ hp]; rfl
  rw [if_neg h3, if_neg h3]
  by_cases h4 : method = "ARBDS"
  · rw [if_pos h4, if_pos h4]
    have := hd "ARBDS" (h4 ▸ hg)
    simp only [derive, if_true, show ("ARBDS" : String) ≠ "CGS" by decide, show ("ARBDS" : String) ≠ "LLMS" by decide,
      show ("ARBDS" : String) ≠ "STE" by decide, if_false] at this
    dsimp only
    rw [this]
    split_ifs
    · rw [← evalAttr_shifted hs _ _ hp]; rfl
    · rw [← evalAttr_shifted hs _ _ hp]; rfl
  · rw [if_neg h4, if_neg h4, ← evalAttr_shifted hs _ _ hp]; rfl
end

/-- **C66, pivot parameters.**  With a spectrum `s²` times as large, `A_s` and `A_t` are `s²` times as large and all tilts, runnings and the
tensor-to-scalar ratio are the same. -/
theorem C66_pivot {s : ℝ} (hs : 0 < s) (S : Spectrum) : params (S.shifted (2 * log s)) =
    { params S with A_s := s ^ 2 * (params S).A_s, A_t := s ^ 2 * (params S).A_t } := by
  have e : exp (2 * log s) = s ^ 2 := by rw [mul_comm, exp_mul, exp_log hs]; norm_num
  have hd : ∀ (f : ℝ → ℝ) (n : ℕ), 0 < n → iteratedDeriv n (fun x => f x + 2 * log s) = iteratedDeriv n f := by
    intro f n hn
    obtain ⟨m, rfl⟩ : ∃ m, n = m + 1 := ⟨n - 1, by omega⟩
    rw [iteratedDeriv_succ', iteratedDeriv_succ']
    congr 1
    funext x
    exact deriv_add_const _
  unfold params Spectrum.shifted
  simp only [hd _ 1 (by norm_num), hd _ 2 (by norm_num), hd _ 3 (by norm_num), exp_add, e]
  congr 1
  · ring
  · ring
  · rw [mul_div_mul_right _ _ (by positivity)]

/-! ## Non-vacuity -/

/-- Piecewise linear interpolation, extended linearly to the left and constantly to the right. -/
noncomputable def polyline : List (ℝ × ℝ) → ℝ → ℝ
  | [], _ => 0
  | [p], _ => p.2
  | p :: q :: l, x => if x ≤ q.1 then (q.2 - p.2) / (q.1 - p.1) * (x - p.1) + p.2 else polyline (q :: l) x

/-- Linear interpolation meets the contract. -/
theorem polyline_shift : ShiftEquivariant (fun (_ : Unit) => polyline) := by
  intro _ tab d x
  induction tab with
  | nil => intro h; exact absurd rfl h
  | cons p l ih =>
    intro _
    cases l with
    | nil => rfl
    | cons q l =>
      simp only [List.map_cons, polyline]
      split_ifs
      · rw [show q.2 + d - (p.2 + d) = q.2 - p.2 by ring]; ring
      · exact ih (by simp)

/-- A point with `ε₁ = 1` and nothing else, to be scaled down. -/
def unitPoint : SRPoint := { H := 1, e1 := 1, e2 := 0, e3 := 0, d1 := 0, d2 := 0, d3 := 0, g2 := 0, g3 := 0 }

/-- Every method can fit a grid whose slow-roll parameters are small enough. -/
theorem exists_fittable : ∃ t : ℝ, 0 < t ∧ ∀ method, Grid.Fittable ⟨[(log SI.K_STAR, unitPoint.at t)], unitPoint.at t⟩ method := by
  have key : ∀ f : ℝ → ℝ, Continuous f → f 0 = 1 → ∀ᶠ t in nhds (0 : ℝ), 0 < f t := fun f hf h =>
    hf.continuousAt.eventually (lt_mem_nhds (show (0 : ℝ) < f 0 by rw [h]; exact one_pos))
  have hS : ∀ n, Continuous fun t => cgsS n (unitPoint.at t) := by
    intro n
    match n with
    | 0 => exact continuous_const
    | 1 => simp only [cgsS, cgsS1, SRPoint.at]; fun_prop
    | 2 => simp only [cgsS, cgsS1, cgsS2, SRPoint.at]; fun_prop
    | n + 3 => simp only [cgsS, cgsS1, cgsS2, cgsS3, SRPoint.at]; fun_prop
  have hT : ∀ n, Continuous fun t => cgsT n (unitPoint.at t) := by
    intro n
    match n with
    | 0 => exact continuous_const
    | 1 => simp only [cgsT, cgsT1, SRPoint.at]; fun_prop
    | 2 => simp only [cgsT, cgsT1, cgsT2, SRPoint.at]; fun_prop
    | n + 3 => simp only [cgsT, cgsT1, cgsT2, cgsT3, SRPoint.at]; fun_prop
  have gS : ∀ n, Continuous fun t => arbdsS n (unitPoint.at t) 0 := by
    intro n
    match n with
    | 1 => simp only [arbdsS, as0_1, as1_1, SRPoint.at]; fun_prop
    | 2 => simp only [arbdsS, as0_1, as1_1, as0_2, as1_2, as2_2, SRPoint.at]; fun_prop
    | 0 => simp only [arbdsS, as0_1, as1_1, as0_2, as1_2, as2_2, as0_3, as1_3, as2_3, as3_3, SRPoint.at]; fun_prop
    | n + 3 => simp only [arbdsS, as0_1, as1_1, as0_2, as1_2, as2_2, as0_3, as1_3, as2_3, as3_3, SRPoint.at]; fun_prop
  have gT : ∀ n, Continuous fun t => arbdsT n (unitPoint.at t) 0 := by
    intro n
    match n with
    | 1 => simp only [arbdsT, at0_1, at1_1, SRPoint.at]; fun_prop
    | 2 => simp only [arbdsT, at0_1, at1_1, at0_2, at1_2, at2_2, SRPoint.at]; fun_prop
    | 0 => simp only [arbdsT, at0_1, at1_1, at0_2, at1_2, at2_2, at0_3, at1_3, at2_3, at3_3, SRPoint.at]; fun_prop
    | n + 3 => simp only [arbdsT, at0_1, at1_1, at0_2, at1_2, at2_2, at0_3, at1_3, at2_3, at3_3, SRPoint.at]; fun_prop
  have L := fun n => C55_leading unitPoint n 0
  have E : ∀ᶠ t in nhds (0 : ℝ), (∀ n ∈ Finset.range 4, 0 < cgsS n (unitPoint.at t) ∧ 0 < cgsT n (unitPoint.at t) ∧
      0 < arbdsS n (unitPoint.at t) 0 ∧ 0 < arbdsT n (unitPoint.at t) 0) ∧ 0 < steS (unitPoint.at t) ∧ 0 < steT (unitPoint.at t) := by
    refine ((Filter.eventually_all_finset _).2 fun n _ => ?_).and ((key _ ?_ (L 0).2.2.1).and (key _ ?_ (L 0).2.2.2.1))
    · exact (key _ (hS n) (L n).1).and ((key _ (hT n) (L n).2.1).and ((key _ (gS n) (L n).2.2.2.2.1).and (key _ (gT n) (L n).2.2.2.2.2.1)))
    · simp only [steS, SRPoint.at]; fun_prop
    · simp only [steT, SRPoint.at]; fun_prop
  obtain ⟨t, ht, ht0⟩ := ((E.filter_mono nhdsWithin_le_nhds).and (self_mem_nhdsWithin (s := Set.Ioi (0 : ℝ)))).exists
  have h0 : (0 : ℝ) < t := ht0
  have p1 : 0 < Ps0 (unitPoint.at t) := by
    have := pi_pos
    simp only [Ps0, SRPoint.at, unitPoint]; positivity
  have p2 : 0 < Pt0 (unitPoint.at t) := by
    have := pi_pos
    simp only [Pt0, SRPoint.at, unitPoint]; positivity
  refine ⟨t, h0, fun method => ⟨fun _ n hn => ?_, fun _ => ⟨by simp, ?_, ?_⟩, fun _ => ?_, fun _ n hn => ?_⟩⟩
  · obtain ⟨a, b, -⟩ := ht.1 n (Finset.mem_range.2 (by omega))
    exact ⟨_, List.mem_singleton.2 rfl, mul_pos p1 a, mul_pos p2 b⟩
  · simp [SRPoint.at, unitPoint]
  · simp [SRPoint.at, unitPoint, h0.ne']
  · exact ⟨_, List.mem_singleton.2 rfl, mul_pos p1 ht.2.1, mul_pos p2 ht.2.2⟩
  · obtain ⟨-, -, a, b⟩ := ht.1 n (Finset.mem_range.2 (by omega))
    refine ⟨_, List.mem_singleton.2 rfl, ?_⟩
    simp only [sub_self]
    exact ⟨mul_pos p1 a, mul_pos p2 b⟩

/-- All hypotheses of the two theorems together, any `s > 0` (here 3), any method and order, starting from nothing derived. -/
example : ∃ g : Grid, ∀ method order k, (evalP (fun (_ : Unit) => polyline) Spectrum.s method order () k (g.scaled 3) Caches.empty).2 =
    ((evalP (fun (_ : Unit) => polyline) Spectrum.s method order () k g Caches.empty).2).map (3 ^ 2 * ·) := by
  obtain ⟨t, _, ht⟩ := exists_fittable
  exact ⟨_, fun method order k =>
    congrArg Prod.snd (C66_evaluate polyline_shift (by norm_num) _ (.inl rfl) method order () k _ (ht method) Caches.empty)⟩

/-- The curved case of the parameter theorems, with any potential: `s = 2`, `c = -ln 2`. -/
example (pot : PotFns) (N_ H phi dphi : ℝ) : T.srAt 1 (pot.scaled (2 ^ 2)) (N_ + -log 2) (2 * H) phi (2 * dphi) = (T.srAt 1 pot N_ H phi dphi).scaled 2 :=
  C66_parameters_time (by norm_num) (.inr (by rw [exp_neg, exp_log] <;> norm_num)) _ _ _ _ _

end Approx
end Primpy
