import Verif.Props.C50

/-!
# C51: the vacuum states are normalised, and the same in both formulations
-/

namespace Primpy
open Real Spec
namespace Pert

/-- `u * conj(u') - conj(u) * u'` -/
noncomputable def wronskian (u du : ℂ) : ℂ := u * (starRingEnd ℂ) du - (starRingEnd ℂ) u * du

/-- `dN/dx` of the independent variable: `d/dt = rate * d/dx` is `1` for cosmic time, `H` for e-folds. -/
noncomputable def rate (b : Bg) (p : Pt) : ℝ := if b.indep = .t then 1 else p.H

/-- The form all vacua have: `u = c / √(2w) / z`, `u' = (-i w / A - d) u`. -/
def IsState (c A z w : ℝ) (v : ℂ × ℂ) : Prop :=
  0 < w ∧ v.1 = (c : ℂ) / (√(2 * w) : ℝ) / (z : ℝ) ∧ ∃ d : ℝ, v.2 = (-Complex.I * w / (A : ℝ) - (d : ℝ)) * v.1

/-- Wronskian of such a state. -/
theorem wronskian_state {c A z w : ℝ} {v : ℂ × ℂ} (h : IsState c A z w v) (hz : z ≠ 0) (hA : A ≠ 0) :
    (A * z ^ 2 : ℝ) * wronskian v.1 v.2 = c ^ 2 * Complex.I := by
  obtain ⟨hw, hR, d, hd⟩ := h
  have hs : (√(2 * w)) ^ 2 = 2 * w := sq_sqrt (by positivity)
  have hs0 : √(2 * w) ≠ 0 := (sqrt_pos.2 (by positivity)).ne'
  have hRc : (starRingEnd ℂ) v.1 = v.1 := by
    rw [hR]; simp [Complex.conj_ofReal]
  have hR2 : v.1 ^ 2 * (2 * (w : ℂ)) * (z : ℂ) ^ 2 = c ^ 2 := by
    have h1 : ((√(2 * w) : ℝ) : ℂ) ≠ 0 := by exact_mod_cast hs0
    have h2 : (z : ℂ) ≠ 0 := by exact_mod_cast hz
    have h3 : ((√(2 * w) : ℝ) : ℂ) ^ 2 = 2 * (w : ℂ) := by exact_mod_cast hs
    rw [hR, ← h3]
    field_simp
  have hA' : (A : ℂ) ≠ 0 := by exact_mod_cast hA
  rw [hd]
  simp only [wronskian, map_mul, map_sub, map_div₀, map_neg, Complex.conj_I, Complex.conj_ofReal, hRc, neg_neg]
  rw [← hR2]
  push_cast
  field_simp
  ring

theorem wk_pos {A r w : ℝ} (h : wk A r = some w) : 0 < w := by
  unfold wk at h
  split_ifs at h with hc
  · cases h; exact hc.1

variable {pot : PotFns} {K k : ℝ} {p : Pt} {v : ℂ × ℂ}

theorem ScalarT.vacK_state (h : ScalarT.vacK pot K k p = some v) : IsState 1 (exp p.N) (exp p.N * p.dphi / p.H) k v := by
  simp only [ScalarT.vacK] at h
  split_ifs at h with hk
  · rw [Option.some.injEq] at h
    subst h
    exact ⟨hk, by rw [Complex.ofReal_one], _, rfl⟩

theorem ScalarT.vacHD_state (h : ScalarT.vacHD pot K k p = some v) :
    ∃ w, wk (exp p.N) (ScalarT.radicand pot K k p) = some w ∧ IsState 1 (exp p.N) (exp p.N * p.dphi / p.H) w v := by
  simp only [ScalarT.vacHD, Option.map_eq_some_iff] at h
  obtain ⟨w, hw, h⟩ := h
  subst h
  exact ⟨w, hw, wk_pos hw, by rw [Complex.ofReal_one], _, rfl⟩

theorem ScalarT.vacRST_state (h : ScalarT.vacRST k p = some v) : IsState 1 (exp p.N) (exp p.N * p.dphi / p.H) k v := by
  simp only [ScalarT.vacRST] at h
  split_ifs at h with hk
  · rw [Option.some.injEq] at h
    subst h
    exact ⟨hk, by rw [Complex.ofReal_one], 0, by rw [Complex.ofReal_zero, sub_zero]⟩

theorem ScalarN.vacK_state (h : ScalarN.vacK pot K k p = some v) : IsState 1 (exp p.N * p.H) (exp p.N * p.dphi) k v := by
  simp only [ScalarN.vacK] at h
  split_ifs at h with hk
  · rw [Option.some.injEq] at h
    subst h
    exact ⟨hk, by rw [Complex.ofReal_one], _, rfl⟩

theorem ScalarN.vacHD_state (h : ScalarN.vacHD pot K k p = some v) :
    ∃ w, wk (exp p.N * p.H) (ScalarN.radicand pot K k p) = some w ∧ IsState 1 (exp p.N * p.H) (exp p.N * p.dphi) w v := by
  simp only [ScalarN.vacHD, Option.map_eq_some_iff] at h
  obtain ⟨w, hw, h⟩ := h
  subst h
  exact ⟨w, hw, wk_pos hw, by rw [Complex.ofReal_one], _, rfl⟩

theorem ScalarN.vacRST_state (h : ScalarN.vacRST k p = some v) : IsState 1 (exp p.N * p.H) (exp p.N * p.dphi) k v := by
  simp only [ScalarN.vacRST] at h
  split_ifs at h with hk
  · rw [Option.some.injEq] at h
    subst h
    exact ⟨hk, by rw [Complex.ofReal_one], 0, by rw [Complex.ofReal_zero, sub_zero]⟩

theorem TensorT.vacK_state (h : TensorT.vacK k p = some v) : IsState 2 (exp p.N) (exp p.N) k v := by
  simp only [TensorT.vacK] at h
  split_ifs at h with hk
  · rw [Option.some.injEq] at h
    subst h
    exact ⟨hk, by rw [Complex.ofReal_ofNat], _, rfl⟩

theorem TensorT.vacHD_state (h : TensorT.vacHD K k p = some v) : ∃ w, IsState 2 (exp p.N) (exp p.N) w v := by
  simp only [TensorT.vacHD, Option.map_eq_some_iff] at h
  obtain ⟨w, hw, h⟩ := h
  subst h
  exact ⟨w, wk_pos hw, by rw [Complex.ofReal_ofNat], _, rfl⟩

theorem TensorT.vacRST_state (h : TensorT.vacRST k p = some v) : IsState 2 (exp p.N) (exp p.N) k v := by
  simp only [TensorT.vacRST] at h
  split_ifs at h with hk
  · rw [Option.some.injEq] at h
    subst h
    exact ⟨hk, by rw [Complex.ofReal_ofNat], 0, by rw [Complex.ofReal_zero, sub_zero]⟩

theorem TensorN.vacK_state (h : TensorN.vacK k p = some v) : IsState 2 (exp p.N * p.H) (exp p.N) k v := by
  simp only [TensorN.vacK] at h
  split_ifs at h with hk
  · rw [Option.some.injEq] at h
    subst h
    exact ⟨hk, by rw [Complex.ofReal_ofNat], 1, by rw [Complex.ofReal_one]⟩

theorem TensorN.vacHD_state (h : TensorN.vacHD K k p = some v) : ∃ w, IsState 2 (exp p.N * p.H) (exp p.N) w v := by
  simp only [TensorN.vacHD, Option.map_eq_some_iff] at h
  obtain ⟨w, hw, h⟩ := h
  subst h
  exact ⟨w, wk_pos hw, by rw [Complex.ofReal_ofNat], 1, by rw [Complex.ofReal_one]⟩

theorem TensorN.vacRST_state (h : TensorN.vacRST k p = some v) : IsState 2 (exp p.N * p.H) (exp p.N) k v := by
  simp only [TensorN.vacRST] at h
  split_ifs at h with hk
  · rw [Option.some.injEq] at h
    subst h
    exact ⟨hk, by rw [Complex.ofReal_ofNat], 0, by rw [Complex.ofReal_zero, sub_zero]⟩

/-- One of three names. -/
theorem byName_cases {f1 f2 f3 f : Pt → Vacuum} {vac : String} (h : byName f1 f2 f3 vac = some f) :
    f = f1 ∨ f = f2 ∨ f = f3 := by
  unfold byName at h
  split_ifs at h <;> cases h <;> simp

theorem wronskian_smul (r : ℝ) (u du : ℂ) : wronskian u (r * du) = r * wronskian u du := by
  simp only [wronskian, map_mul, Complex.conj_ofReal]
  ring

/-- **C51, scalar modes.**  Every vacuum of every formulation is canonically normalised: with `z = a φ̇/H` and
`Ṙ = dR/dt` (`φ̇ = rate·phi'`, `Ṙ = rate·dR`), `a z² (R Ṙ* - R* Ṙ) = i`. -/
theorem C51_scalar_normalised (b : Bg) (k : ℝ) (s t : Mode) (hm : modes b k = some (s, t)) (p : Pt) (hH : 0 < p.H)
    (hp : p.dphi ≠ 0) (vac : String) (f : Pt → Vacuum) (hf : s.vacuum vac = some f) (R dR : ℂ) (hv : f p = some (R, dR)) :
    ((exp p.N * (exp p.N * (rate b p * p.dphi) / p.H) ^ 2 : ℝ) : ℂ) * wronskian R (rate b p * dR) = Complex.I := by
  have hE := exp_pos p.N
  have h1 : ((1 : ℝ) : ℂ) ^ 2 * Complex.I = Complex.I := by simp
  unfold modes at hm
  split at hm
  · next hb =>
    rw [Option.some.injEq, Prod.mk.injEq] at hm
    obtain ⟨rfl, -⟩ := hm
    have hr : rate b p = 1 := by simp [rate, hb]
    have hz : exp p.N * p.dphi / p.H ≠ 0 := div_ne_zero (mul_ne_zero hE.ne' hp) hH.ne'
    rw [hr, one_mul, Complex.ofReal_one, one_mul, ← h1]
    rcases byName_cases hf with rfl | rfl | rfl
    · exact wronskian_state (ScalarT.vacK_state hv) hz hE.ne'
    · obtain ⟨w, -, hw⟩ := ScalarT.vacHD_state hv
      exact wronskian_state hw hz hE.ne'
    · exact wronskian_state (ScalarT.vacRST_state hv) hz hE.ne'
  · next hb =>
    rw [Option.some.injEq, Prod.mk.injEq] at hm
    obtain ⟨rfl, -⟩ := hm
    have hr : rate b p = p.H := by simp [rate, hb]
    have hz : exp p.N * p.dphi ≠ 0 := mul_ne_zero hE.ne' hp
    have hA : exp p.N * p.H ≠ 0 := mul_ne_zero hE.ne' hH.ne'
    have hcoef : (exp p.N * (exp p.N * (p.H * p.dphi) / p.H) ^ 2 : ℝ) * p.H = exp p.N * p.H * (exp p.N * p.dphi) ^ 2 := by
      field_simp
    rw [hr, wronskian_smul, ← mul_assoc, ← Complex.ofReal_mul, hcoef, ← h1]
    rcases byName_cases hf with rfl | rfl | rfl
    · exact wronskian_state (ScalarN.vacK_state hv) hz hA
    · obtain ⟨w, -, hw⟩ := ScalarN.vacHD_state hv
      exact wronskian_state hw hz hA
    · exact wronskian_state (ScalarN.vacRST_state hv) hz hA
  · cases hm

/-- **C51, tensor modes.**  `a³ (h ḣ* - h* ḣ) = 4 i`, i.e. `v = a h / 2` is canonically normalised. -/
theorem C51_tensor_normalised (b : Bg) (k : ℝ) (s t : Mode) (hm : modes b k = some (s, t)) (p : Pt) (hH : 0 < p.H)
    (vac : String) (f : Pt → Vacuum) (hf : t.vacuum vac = some f) (h dh : ℂ) (hv : f p = some (h, dh)) :
    ((exp p.N ^ 3 : ℝ) : ℂ) * wronskian h (rate b p * dh) = 4 * Complex.I := by
  have hE := exp_pos p.N
  have h4 : ((2 : ℝ) : ℂ) ^ 2 * Complex.I = 4 * Complex.I := by push_cast; ring
  unfold modes at hm
  split at hm
  · next hb =>
    rw [Option.some.injEq, Prod.mk.injEq] at hm
    obtain ⟨-, rfl⟩ := hm
    have hr : rate b p = 1 := by simp [rate, hb]
    rw [hr, Complex.ofReal_one, one_mul, show exp p.N ^ 3 = exp p.N * exp p.N ^ 2 by ring, ← h4]
    rcases byName_cases hf with rfl | rfl | rfl
    · exact wronskian_state (TensorT.vacK_state hv) hE.ne' hE.ne'
    · obtain ⟨w, hw⟩ := TensorT.vacHD_state hv
      exact wronskian_state hw hE.ne' hE.ne'
    · exact wronskian_state (TensorT.vacRST_state hv) hE.ne' hE.ne'
  · next hb =>
    rw [Option.some.injEq, Prod.mk.injEq] at hm
    obtain ⟨-, rfl⟩ := hm
    have hr : rate b p = p.H := by simp [rate, hb]
    have hA : exp p.N * p.H ≠ 0 := mul_ne_zero hE.ne' hH.ne'
    rw [hr, wronskian_smul, ← mul_assoc, ← Complex.ofReal_mul, show exp p.N ^ 3 * p.H = exp p.N * p.H * exp p.N ^ 2 by ring, ← h4]
    rcases byName_cases hf with rfl | rfl | rfl
    · exact wronskian_state (TensorN.vacK_state hv) hE.ne' hA
    · obtain ⟨w, hw⟩ := TensorN.vacHD_state hv
      exact wronskian_state hw hE.ne' hA
    · exact wronskian_state (TensorN.vacRST_state hv) hE.ne' hA
  · cases hm

/-- The grid points of a cosmic-time and of an e-folds background describe the same moment of the same universe. -/
structure SameMoment (pT pN : Pt) : Prop where
  N : pN.N = pT.N
  phi : pN.phi = pT.phi
  hubble : pN.H = pT.H
  velocity : pN.dphi = pT.dphi / pT.H
  expanding : 0 < pT.H

/-- An e-folds state `(u, du/dN)` as a cosmic-time state `(u, du/dt)`. -/
noncomputable def toTime (H : ℝ) (v : Vacuum) : Vacuum := v.map fun v => (v.1, (H : ℂ) * v.2)

variable {pT pN : Pt}

theorem dz_same (s : SameMoment pT pN) (hp : pT.dphi ≠ 0) :
    pT.H + T.get_d2phi (pT.H ^ 2) pT.dphi (pot.dV pT.phi) / pT.dphi - T.get_dH_H pT.N (pT.H ^ 2) pT.dphi K =
    pT.H * (N.get_d2phi (pT.H ^ 2) (N.get_dH_H pT.N (pT.H ^ 2) (pT.dphi / pT.H) K) (pT.dphi / pT.H) (pot.dV pT.phi)
      / (pT.dphi / pT.H) + 1) := by
  have hH := s.expanding
  simp only [T.get_d2phi, T.get_dH_H, N.get_d2phi, N.get_dH_H, sqrt_sq hH.le]
  field_simp
  ring

/-- **C51, both formulations, scalar modes.**  The vacua `k` and `RST` of the two formulations are the same state, for every
curvature and wavenumber. -/
theorem C51_scalar_same (s : SameMoment pT pN) (hp : pT.dphi ≠ 0) :
    ScalarT.vacK pot K k pT = toTime pT.H (ScalarN.vacK pot K k pN) ∧
    ScalarT.vacRST k pT = toTime pT.H (ScalarN.vacRST k pN) := by
  have hH := s.expanding
  have hE := exp_pos pT.N
  have hz : exp pT.N * pT.dphi / pT.H = exp pT.N * (pT.dphi / pT.H) := by ring
  have hc : (pT.H : ℂ) ≠ 0 := by exact_mod_cast hH.ne'
  have hc2 : ((exp pT.N : ℝ) : ℂ) ≠ 0 := by exact_mod_cast hE.ne'
  constructor
  · simp only [ScalarT.vacK, ScalarN.vacK, s.N, s.phi, s.hubble, s.velocity, toTime]
    rw [dz_same s hp, hz]
    split_ifs
    · simp only [Option.map_some, Option.some.injEq, Prod.mk.injEq, true_and]
      obtain ⟨d, hd⟩ : ∃ d, d = N.get_d2phi (pT.H ^ 2) (N.get_dH_H pT.N (pT.H ^ 2) (pT.dphi / pT.H) K) (pT.dphi / pT.H) (pot.dV pT.phi)
        / (pT.dphi / pT.H) + 1 := ⟨_, rfl⟩
      rw [← hd, ← mul_assoc]
      congr 1
      rw [Complex.ofReal_mul, Complex.ofReal_mul]
      field_simp
    · rfl
  · simp only [ScalarT.vacRST, ScalarN.vacRST, s.N, s.hubble, s.velocity, toTime]
    rw [hz]
    split_ifs
    · simp only [Option.map_some, Option.some.injEq, Prod.mk.injEq, true_and]
      rw [← mul_assoc]
      congr 1
      rw [Complex.ofReal_mul]
      field_simp
    · rfl

theorem wk_same {a H rT rN : ℝ} (ha : 0 < a) (hH : 0 < H) (h : rT = H ^ 2 * rN) : wk a rT = wk (a * H) rN := by
  have e : a * √rT = a * H * √rN := by rw [h, sqrt_mul (by positivity), sqrt_sq hH.le]; ring
  have e2 : 0 ≤ rT ↔ 0 ≤ rN := by
    rw [h]
    constructor
    · intro g; by_contra hc; push Not at hc; nlinarith [mul_pos (pow_pos hH 2) (neg_pos.2 hc)]
    · intro g; positivity
  unfold wk
  rw [e]
  exact if_congr (and_congr_right' e2) rfl rfl

/-- **C51, both formulations, tensor modes.**  All three vacua agree, for every curvature and wavenumber. -/
theorem C51_tensor_same (s : SameMoment pT pN) :
    TensorT.vacK k pT = toTime pT.H (TensorN.vacK k pN) ∧
    TensorT.vacHD K k pT = toTime pT.H (TensorN.vacHD K k pN) ∧
    TensorT.vacRST k pT = toTime pT.H (TensorN.vacRST k pN) := by
  have hH := s.expanding
  have hE := exp_pos pT.N
  have hc : (pT.H : ℂ) ≠ 0 := by exact_mod_cast hH.ne'
  have hc2 : ((exp pT.N : ℝ) : ℂ) ≠ 0 := by exact_mod_cast hE.ne'
  refine ⟨?_, ?_, ?_⟩
  · simp only [TensorT.vacK, TensorN.vacK, s.N, s.hubble, toTime]
    split_ifs
    · simp only [Option.map_some, Option.some.injEq, Prod.mk.injEq, true_and]
      rw [← mul_assoc]
      congr 1
      rw [Complex.ofReal_mul]
      field_simp
    · rfl
  · simp only [TensorT.vacHD, TensorN.vacHD, s.N, s.hubble, s.velocity, toTime]
    have hw : wk (exp pT.N) (k ^ 2 / exp pT.N ^ 2 - 2 * pT.H ^ 2 - T.get_dH pT.N pT.H pT.dphi K) =
        wk (exp pT.N * pT.H) (k ^ 2 / (exp pT.N * pT.H) ^ 2 - 2 - N.get_dH pT.N pT.H (pT.dphi / pT.H) K / pT.H) := by
      apply wk_same hE hH
      simp only [T.get_dH, N.get_dH]
      field_simp
    rw [hw, Option.map_map]
    congr 1
    funext w
    simp only [Function.comp]
    congr 1
    rw [← mul_assoc]
    congr 1
    rw [Complex.ofReal_mul]
    field_simp
  · simp only [TensorT.vacRST, TensorN.vacRST, s.N, s.hubble, toTime]
    split_ifs
    · simp only [Option.map_some, Option.some.injEq, Prod.mk.injEq, true_and]
      rw [← mul_assoc]
      congr 1
      rw [Complex.ofReal_mul]
      field_simp
    · rfl

/-- The radicands of the two Hamiltonian-diagonalisation frequencies: `w_T² = w_N² - 3K`. -/
theorem radicand_relation (s : SameMoment pT pN) (hp : pT.dphi ≠ 0) :
    ScalarT.radicand pot K k pT = pT.H ^ 2 * ScalarN.radicand pot K k pN - 3 * K * exp (-2 * pT.N) := by
  have hH := s.expanding
  have hE := exp_pos pT.N
  simp only [ScalarT.radicand, ScalarN.radicand, s.N, s.phi, s.hubble, s.velocity, T.get_d2phi, T.get_dH_H, N.get_d2phi,
    N.get_dH_H, T.get_dH, N.get_dH, T.get_d2H, N.get_d2H, T.get_d3phi, N.get_d3phi, sqrt_sq hH.le]
  obtain ⟨X, hX⟩ : ∃ X, X = exp (-2 * pT.N) := ⟨_, rfl⟩
  rw [← hX]
  field_simp
  ring

/-- **C51, scalar `HD` vacuum, flat universes**: the same state in both formulations.  (Missing for the full claim:
curved universes, where it is false, see `C51_HD_curved_differs`.) -/
theorem C51_scalar_HD_flat_partial (s : SameMoment pT pN) (hp : pT.dphi ≠ 0) :
    ScalarT.vacHD pot 0 k pT = toTime pT.H (ScalarN.vacHD pot 0 k pN) := by
  have hH := s.expanding
  have hE := exp_pos pT.N
  have hz : exp pT.N * pT.dphi / pT.H = exp pT.N * (pT.dphi / pT.H) := by ring
  have hc : (pT.H : ℂ) ≠ 0 := by exact_mod_cast hH.ne'
  have hc2 : ((exp pT.N : ℝ) : ℂ) ≠ 0 := by exact_mod_cast hE.ne'
  have hw : wk (exp pT.N) (ScalarT.radicand pot 0 k pT) = wk (exp pT.N * pT.H) (ScalarN.radicand pot 0 k pN) := by
    apply wk_same hE hH
    rw [radicand_relation s hp]; ring
  simp only [ScalarT.vacHD, ScalarN.vacHD, s.N, s.phi, s.hubble, s.velocity, toTime]
  rw [hw, dz_same s hp, hz, Option.map_map]
  congr 1
  funext w
  simp only [Function.comp]
  obtain ⟨d, hd⟩ : ∃ d, d = N.get_d2phi (pT.H ^ 2) (N.get_dH_H pT.N (pT.H ^ 2) (pT.dphi / pT.H) 0) (pT.dphi / pT.H) (pot.dV pT.phi)
    / (pT.dphi / pT.H) + 1 := ⟨_, rfl⟩
  rw [← hd]
  congr 1
  rw [← mul_assoc]
  congr 1
  rw [Complex.ofReal_mul, Complex.ofReal_mul]
  field_simp

/-- **C51 is false for the scalar `HD` vacuum of curved universes**: whenever both formulations define it, they differ (already
in the initial value of `R`). -/
theorem C51_HD_curved_differs (s : SameMoment pT pN) (hp : pT.dphi ≠ 0) (hK : K ≠ 0) (R dR R' dR' : ℂ)
    (hT : ScalarT.vacHD pot K k pT = some (R, dR)) (hN : ScalarN.vacHD pot K k pN = some (R', dR')) : R ≠ R' := by
  have hH := s.expanding
  have hE := exp_pos pT.N
  obtain ⟨w, hw, h1, h2, -⟩ := ScalarT.vacHD_state hT
  obtain ⟨w', hw', h1', h2', -⟩ := ScalarN.vacHD_state hN
  rw [s.N, s.hubble] at hw'
  rw [s.N, s.velocity] at h2'
  intro heq
  dsimp only at h2 h2'
  have hz : exp pT.N * pT.dphi / pT.H = exp pT.N * (pT.dphi / pT.H) := by ring
  have hz0 : exp pT.N * (pT.dphi / pT.H) ≠ 0 := mul_ne_zero hE.ne' (div_ne_zero hp hH.ne')
  rw [hz] at h2
  rw [heq, h2', ← Complex.ofReal_div, ← Complex.ofReal_div, ← Complex.ofReal_div, ← Complex.ofReal_div, Complex.ofReal_inj,
    div_left_inj' hz0] at h2
  have s1 : 0 < √(2 * w) := sqrt_pos.2 (by positivity)
  have s2 : 0 < √(2 * w') := sqrt_pos.2 (by positivity)
  rw [div_eq_div_iff s2.ne' s1.ne', one_mul, one_mul] at h2
  have h3 : 2 * w = 2 * w' := by
    rw [← sq_sqrt (show 0 ≤ 2 * w by positivity), ← sq_sqrt (show 0 ≤ 2 * w' by positivity), h2]
  have h4 : w = w' := by linarith
  unfold wk at hw hw'
  split_ifs at hw with c1
  split_ifs at hw' with c2
  rw [Option.some.injEq] at hw hw'
  have e1 : w ^ 2 = exp pT.N ^ 2 * ScalarT.radicand pot K k pT := by
    rw [← hw, mul_pow, sq_sqrt c1.2]
  have e2 : w' ^ 2 = (exp pT.N * pT.H) ^ 2 * ScalarN.radicand pot K k pN := by
    rw [← hw', mul_pow, sq_sqrt c2.2]
  rw [radicand_relation s hp] at e1
  have e3 : exp pT.N ^ 2 * exp (-2 * pT.N) = 1 := by
    rw [exp_two_mul_inv, inv_mul_cancel₀ (exp_pos _).ne']
  apply hK
  have : w ^ 2 = w' ^ 2 := by rw [h4]
  rw [e1, e2] at this
  have h5 : 3 * K * (exp pT.N ^ 2 * exp (-2 * pT.N)) = 0 := by linarith
  rw [e3] at h5
  linarith

/-- **C51, meaning of the `HD` frequency.**  In any universe, with `z = a φ̇/H` and primes for conformal-time derivatives, the
squared frequency of the e-folds formulation is `k² - z''/z`, that of the cosmic-time formulation is
`k² - z''/z - 3K` (so it is wrong for `K ≠ 0`), and those of the tensor modes are `k² - a''/a`. -/
theorem C51_HD_frequency {S D : Set ℝ} {N φ p H : ℝ → ℝ} (hS : IsOpen S) (u : IsUniverse S pot.V pot.dV K N φ p H)
    (hV : IsDerivOn D pot.V pot.dV) (hV2 : IsDerivOn D pot.dV pot.d2V) (hφ : ∀ t ∈ S, φ t ∈ D) (hp : ∀ t ∈ S, p t ≠ 0)
    {φ' q' H' : ℝ → ℝ} (s : SameUniverse S N φ p H φ' q' H') :
    let z : ℝ → ℝ := fun t => exp (N t) * p t / H t
    let a : ℝ → ℝ := fun t => exp (N t)
    ∃ dz ddz da dda : ℝ → ℝ, IsDerivOn S z dz ∧ IsDerivOn S (fun t => a t * dz t) ddz ∧
      IsDerivOn S a da ∧ IsDerivOn S (fun t => a t * da t) dda ∧ ∀ t ∈ S,
      (a t * H t) ^ 2 * ScalarN.radicand pot K k (ptN K φ' q' H' (N t)) = k ^ 2 - a t * ddz t / z t ∧
      a t ^ 2 * ScalarT.radicand pot K k (ptT K N φ p H t) = k ^ 2 - a t * ddz t / z t - 3 * K ∧
      (∀ w, (TensorT.vacHD K k (ptT K N φ p H t) = some w → ∃ ω, 0 < ω ∧ ω ^ 2 = k ^ 2 - a t * dda t / a t ∧
        w.1 = ((2 / √(2 * ω) / a t : ℝ) : ℂ))) := by
  intro z a
  have hdH := u.dH hS hV hφ
  have hX : ∀ t ∈ S, HasDerivAt (fun s => exp (-2 * N s)) (-2 * H t * exp (-2 * N t)) t :=
    fun t ht => hasDerivAt_exp_neg_two (u.hubble t ht)
  refine ⟨fun t => exp (N t) * (p t + (-(3 * H t * p t) - pot.dV (φ t)) / H t
      - p t * (-(p t) ^ 2 / 2 + K * exp (-2 * N t)) / H t ^ 2),
    fun t => exp (N t) * p t / H t * (k ^ 2 - (exp (N t) * H t) ^ 2 * ScalarN.radicand pot K k (ptN K φ' q' H' (N t))) / exp (N t),
    fun t => exp (N t) * H t,
    fun t => 2 * exp (N t) ^ 2 * H t ^ 2 + exp (N t) ^ 2 * (-(p t) ^ 2 / 2 + K * exp (-2 * N t)),
    fun t ht => ?_, fun t ht => ?_, fun t ht => hasDerivAt_scale (u.hubble t ht), fun t ht => ?_, fun t ht => ?_⟩
  · have hH := u.expanding t ht
    refine hderiv (((hasDerivAt_scale (u.hubble t ht)).mul (u.kleinGordon t ht)).div (hdH t ht) hH.ne') ?_
    simp only [Pi.mul_apply]
    field_simp
  · have hH := u.expanding t ht
    have hpt := hp t ht
    have hE := exp_pos (N t)
    have h2H : (H t ^ 2) ≠ 0 := by positivity
    have hdp := u.kleinGordon t ht
    have hdV := (hV2 _ (hφ t ht)).comp t (u.velocity t ht)
    have ha := hasDerivAt_scale (u.hubble t ht)
    have hdH' := hdH t ht
    have h1 := ha.mul (ha.mul ((hdp.add (((((hdH').const_mul 3).mul hdp).neg.sub hdV).div hdH' hH.ne')).sub
      ((hdp.mul ((((hdp.pow 2).neg).div_const 2).add ((hX t ht).const_mul K))).div (hdH'.pow 2) h2H)))
    refine hderiv h1 ?_
    simp only [ScalarN.radicand, ptN, s.phi t ht, s.hubble t ht, s.velocity t ht, Primpy.N.get_d2phi, Primpy.N.get_dH_H,
      Primpy.N.get_dH, Primpy.N.get_d2H, Primpy.N.get_d3phi, Pi.mul_apply, Pi.add_apply, Pi.sub_apply, Pi.div_apply, Pi.neg_apply, Pi.pow_apply, Function.comp]
    obtain ⟨X, hX⟩ : ∃ X, X = exp (-2 * N t) := ⟨_, rfl⟩
    rw [← hX]
    have e2 : ((2 : ℕ) : ℝ) = 2 := by norm_num
    rw [e2, show 2 - 1 = 1 from rfl]
    simp only [pow_one]
    clear h1 hdp hdV ha hdH' hX
    field_simp
    ring
  · have ha := hasDerivAt_scale (u.hubble t ht)
    refine hderiv (ha.mul (ha.mul (hdH t ht))) ?_
    ring
  · have hH := u.expanding t ht
    have hpt := hp t ht
    have hE := exp_pos (N t)
    have e3 : exp (N t) ^ 2 * exp (-2 * N t) = 1 := by
      rw [exp_two_mul_inv, inv_mul_cancel₀ (exp_pos _).ne']
    have hN : (exp (N t) * H t) ^ 2 * ScalarN.radicand pot K k (ptN K φ' q' H' (N t)) =
        k ^ 2 - exp (N t) * (exp (N t) * p t / H t * (k ^ 2 - (exp (N t) * H t) ^ 2 *
          ScalarN.radicand pot K k (ptN K φ' q' H' (N t))) / exp (N t)) / (exp (N t) * p t / H t) := by
      field_simp
      ring
    refine ⟨hN, ?_, ?_⟩
    · dsimp only [a, z]
      rw [← hN, radicand_relation (pT := ptT K N φ p H t)
        (pN := ptN K φ' q' H' (N t)) ⟨rfl, s.phi t ht, s.hubble t ht, s.velocity t ht, hH⟩ hpt]
      dsimp only [ptT]
      linear_combination (-3 * K) * e3
    · intro w hw
      simp only [TensorT.vacHD, Option.map_eq_some_iff] at hw
      obtain ⟨ω, hω, rfl⟩ := hw
      refine ⟨ω, wk_pos hω, ?_, by simp only [ptT, a]; push_cast; rfl⟩
      unfold wk at hω
      split_ifs at hω with c
      rw [Option.some.injEq] at hω
      rw [← hω, mul_pow, sq_sqrt c.2]
      simp only [ptT, T.get_dH, a]
      field_simp
      ring

theorem wk_exists {A r : ℝ} (hA : 0 < A) (hr : 0 < r) : ∃ w, wk A r = some w :=
  ⟨A * √r, if_pos ⟨mul_pos hA (sqrt_pos.2 hr), hr.le⟩⟩

open Exact in
/-- Hypotheses met: a moment of the closed universe `a = t` seen by both formulations, for `k = 10`, where both `HD` vacua
exist. -/
example : ∃ pT pN : Pt, SameMoment pT pN ∧ pT.dphi ≠ 0 ∧
    (∃ v, ScalarT.vacHD curvedT.pot 1 10 pT = some v) ∧ (∃ v, ScalarN.vacHD curvedT.pot 1 10 pN = some v) ∧
    (∃ v, TensorT.vacHD 1 10 pT = some v) := by
  have s : SameMoment ⟨1, 0, 0, 2, 1, -1, 0⟩ ⟨0, 0, 0, 2, 1, -1, 0⟩ := ⟨rfl, rfl, rfl, by norm_num, by norm_num⟩
  have hr : 0 < ScalarT.radicand curvedT.pot 1 10 ⟨1, 0, 0, 2, 1, -1, 0⟩ := by
    simp [ScalarT.radicand, T.get_dH, T.get_dH_H, T.get_d2phi, T.get_d2H, T.get_d3phi, curvedT, expPot]
    norm_num
  have hr' := radicand_relation (pot := curvedT.pot) (K := 1) (k := 10) s (by norm_num)
  obtain ⟨w, hw⟩ := wk_exists (exp_pos 0) hr
  obtain ⟨w', hw'⟩ := wk_exists (A := exp 0 * 1) (r := ScalarN.radicand curvedT.pot 1 10 ⟨0, 0, 0, 2, 1, -1, 0⟩)
    (by simp) (by norm_num at hr'; linarith)
  refine ⟨⟨1, 0, 0, 2, 1, -1, 0⟩, ⟨0, 0, 0, 2, 1, -1, 0⟩, s, by norm_num, ?_, ?_, ?_⟩
  · simp only [ScalarT.vacHD, hw, Option.map_some]
    exact ⟨_, rfl⟩
  · simp only [ScalarN.vacHD, hw', Option.map_some]
    exact ⟨_, rfl⟩
  · obtain ⟨w, hw⟩ := wk_exists (A := exp 0) (r := 10 ^ 2 / exp 0 ^ 2 - 2 * 1 ^ 2 - T.get_dH 0 1 2 1) (exp_pos 0)
      (by simp [T.get_dH]; norm_num)
    simp only [TensorT.vacHD, hw, Option.map_some]
    exact ⟨_, rfl⟩

end Pert
end Primpy
