import Verif.Props.C48
import Verif.Props.C53

/-!
# C64: the spectra scale with the potential
-/

namespace Primpy
open Real

/-- The potential multiplied by a constant (the effect of a different `A_s`, `Lambda` in primpy/potentials.py). -/
def PotFns.scaled (f : PotFns) (q : ℝ) : PotFns :=
  ⟨fun x => q * f.V x, fun x => q * f.dV x, fun x => q * f.d2V x, fun x => q * f.d3V x, fun x => q * f.d4V x⟩

/-- `{key: f(value)}` -/
def Dict.mapVal {α β : Type} (f : α → β) (d : Dict α) : Dict β := d.map fun p => (p.1, f p.2)

theorem Dict.get?_mapVal {α β : Type} (f : α → β) (d : Dict α) (k : String) : (d.mapVal f).get? k = (d.get? k).map f := by
  induction d with
  | nil => rfl
  | cons p d ih =>
    obtain ⟨q, v⟩ := p
    have e : Dict.mapVal f ((q, v) :: d) = (q, f v) :: Dict.mapVal f d := rfl
    rw [e, Dict.get?_cons, Dict.get?_cons, ih]
    split_ifs <;> rfl

theorem Dict.mapVal_set {α β : Type} (f : α → β) (d : Dict α) (k : String) (v : α) : (d.set k v).mapVal f = (d.mapVal f).set k (f v) := by
  induction d with
  | nil => rfl
  | cons p d ih =>
    obtain ⟨q, w⟩ := p
    have e : Dict.mapVal f ((q, w) :: d) = (q, f w) :: Dict.mapVal f d := rfl
    rw [e]
    unfold Dict.set
    by_cases h : k = q
    · rw [if_pos h, if_pos h]; rfl
    · rw [if_neg h, if_neg h, ← ih]; rfl

namespace Pert

/-- The same moment of a universe whose Hubble rate is `s` times as large and whose scale factor is `exp c` times as large: cosmic time
runs `s` times as fast, the number of e-folds is shifted. -/
noncomputable def Pt.rescaled (i : Indep) (s c : ℝ) (p : Pt) : Pt where
  x := match i with | .t => p.x / s | _ => p.x + c
  N := p.N + c
  phi := p.phi
  dphi := match i with | .t => s * p.dphi | _ => p.dphi
  H := s * p.H
  Omega_K := p.Omega_K
  logaH := p.logaH + (log s + c)

/-- The whole background, in the potential `s² V`. -/
noncomputable def Bg.rescaled (b : Bg) (s c : ℝ) : Bg where
  indep := b.indep
  K := b.K
  pot := b.pot.scaled (s ^ 2)
  pts := b.pts.map (Pt.rescaled b.indep s c)
  logaH_star := b.logaH_star + (log s + c)
  perturbation_ic := b.perturbation_ic

/-- Derivatives with respect to the independent variable are `rate` times as large. -/
noncomputable def rateOf (i : Indep) (s : ℝ) : ℝ := match i with | .t => s | _ => 1

/-- The same initial data in the rescaled independent variable. -/
noncomputable def y0Rescaled (i : Indep) (s : ℝ) (y : ℝ × ℝ × ℝ × ℝ) : ℝ × ℝ × ℝ × ℝ :=
  (y.1, rateOf i s * y.2.1, y.2.2.1, rateOf i s * y.2.2.2)

/-- A mode problem in the independent variable `α x + β` instead of `x`. -/
noncomputable def OscArgs.affine (A : OscArgs) (α β : ℝ) : OscArgs where
  ts := A.ts.map fun x => α * x + β
  ti := α * A.ti + β
  tf := α * A.tf + β
  w := A.w.map fun w => w / α
  g := A.g.map fun g => g / α
  x0 := A.x0
  dx0 := A.dx0 / α
  t_eval := A.t_eval.map (List.map fun x => α * x + β)

/-- Its solution. -/
noncomputable def OscSol.affine (r : OscSol) (α : ℝ) : OscSol where
  sol := r.sol
  dsol := r.dsol.map (Option.map fun z => z / α)
  x_eval := r.x_eval

/-- The integrator knows no preferred unit or origin of its independent variable. -/
def Covariant (osc : Oscode) : Prop := ∀ (A : OscArgs) (α β : ℝ), 0 < α → osc (A.affine α β) = (osc A).map fun r => r.affine α

/-- All spectra multiplied by `q`. -/
noncomputable def ModeSpectra.scaled (r : ModeSpectra) (q : ℝ) : ModeSpectra where
  P_s := Dict.mapVal (Option.map (q * ·)) r.P_s
  P_t := Dict.mapVal (Option.map (q * ·)) r.P_t
  P_s_eval := Dict.mapVal (Option.map (List.map (Option.map (q * ·)))) r.P_s_eval
  P_t_eval := Dict.mapVal (Option.map (List.map (Option.map (q * ·)))) r.P_t_eval

/-! ## Frequencies and dampings -/
section
variable {s c K : ℝ}

theorem kE (hK : K = 0 ∨ s * exp c = 1) (x : ℝ) : K * exp (-2 * (x + c)) = s ^ 2 * (K * exp (-2 * x)) := by
  rcases hK with rfl | h
  · simp
  · have : exp (-2 * (x + c)) * exp c ^ 2 = exp (-2 * x) := by rw [← exp_nat_mul, ← exp_add]; congr 1; push_cast; ring
    rw [← this]
    linear_combination (-K * exp (-2 * (x + c))) * (s * exp c + 1) * h

theorem mE (x : ℝ) : (s * exp c) ^ 2 * exp (-2 * (x + c)) = s ^ 2 * exp (-2 * x) := by
  have : exp (-2 * (x + c)) * exp c ^ 2 = exp (-2 * x) := by rw [← exp_nat_mul, ← exp_add]; congr 1; push_cast; ring
  rw [← this]; ring

theorem kM (hK : K = 0 ∨ s * exp c = 1) : K * (s * exp c) ^ 2 = K := by
  rcases hK with rfl | h
  · simp
  · rw [h]; ring

theorem kM1 (hK : K = 0 ∨ s * exp c = 1) : K * (s * exp c) = K := by
  rcases hK with rfl | h
  · simp
  · rw [h]; ring

theorem kappa2_rescaled (hK : K = 0 ∨ s * exp c = 1) (k : ℝ) : kappa2 (s * exp c * k) K = (s * exp c) ^ 2 * kappa2 k K := by
  unfold kappa2
  linear_combination (k * (K + 1)) * (kM1 hK) + (3 - k * (K + 1)) * (kM hK)

variable (hs : 0 < s) (hK : K = 0 ∨ s * exp c = 1) (pot : PotFns) (k : ℝ) (p : Pt)
include hs

theorem m_pos : 0 < s * exp c := by positivity

include hK

theorem sharedT : ScalarT.shared K (s * exp c * k) (p.rescaled .t s c) = ScalarT.shared K k p := by
  unfold ScalarT.shared
  rw [kappa2_rescaled hK]
  dsimp only [Pt.rescaled]
  have h1 : K * (s * p.dphi) ^ 2 / (2 * (s * p.H) ^ 2) = (s * exp c) ^ 2 * (K * p.dphi ^ 2 / (2 * p.H ^ 2)) := by
    rw [show K * (s * p.dphi) ^ 2 = s ^ 2 * (K * p.dphi ^ 2) by ring, show 2 * (s * p.H) ^ 2 = s ^ 2 * (2 * p.H ^ 2) by ring,
      mul_div_mul_left _ _ (by positivity)]
    rw [← mul_div_assoc]
    congr 1
    linear_combination -p.dphi ^ 2 * (kM hK)
  rw [h1, ← mul_add, show 2 * ((s * exp c) ^ 2 * kappa2 k K) = (s * exp c) ^ 2 * (2 * kappa2 k K) by ring, mul_div_mul_left _ _ (by positivity)]

theorem termsT : ScalarT.terms (pot.scaled (s ^ 2)) K (p.rescaled .t s c) = ScalarT.terms pot K p := by
  unfold ScalarT.terms
  dsimp only [Pt.rescaled, PotFns.scaled]
  rw [kE hK]
  have h1 : (s * p.dphi) ^ 2 / (2 * (s * p.H) ^ 2) = p.dphi ^ 2 / (2 * p.H ^ 2) := by
    rw [show (s * p.dphi) ^ 2 = s ^ 2 * (p.dphi ^ 2) by ring, show 2 * (s * p.H) ^ 2 = s ^ 2 * (2 * p.H ^ 2) by ring,
      mul_div_mul_left _ _ (by positivity)]
  have h2 : s ^ 2 * pot.dV p.phi / (s * p.H * (s * p.dphi)) = pot.dV p.phi / (p.H * p.dphi) := by
    rw [show s * p.H * (s * p.dphi) = s ^ 2 * (p.H * p.dphi) by ring, mul_div_mul_left _ _ (by positivity)]
  have h3 : s ^ 2 * (K * exp (-2 * p.N)) / (s * p.H) ^ 2 = K * exp (-2 * p.N) / p.H ^ 2 := by
    rw [mul_pow, mul_div_mul_left _ _ (by positivity)]
  rw [h1, h2, h3]

theorem freqT : ScalarT.frequency2 (pot.scaled (s ^ 2)) K (s * exp c * k) (p.rescaled .t s c) = s ^ 2 * ScalarT.frequency2 pot K k p := by
  unfold ScalarT.frequency2
  rw [sharedT hs hK, termsT hs hK, kappa2_rescaled hK]
  dsimp only [Pt.rescaled]
  have h1 := kE hK p.N
  have h2 := mE (s := s) (c := c) p.N
  linear_combination kappa2 k K * h2 - (1 + ScalarT.shared K k p * ScalarT.terms pot K p) * h1

theorem dampT : ScalarT.damping (pot.scaled (s ^ 2)) K (s * exp c * k) (p.rescaled .t s c) = s * ScalarT.damping pot K k p := by
  unfold ScalarT.damping
  rw [sharedT hs hK, termsT hs hK]
  dsimp only [Pt.rescaled]
  ring

omit hs in
theorem freqTT : TensorT.frequency2 K (s * exp c * k) (p.rescaled .t s c) = s ^ 2 * TensorT.frequency2 K k p := by
  unfold TensorT.frequency2
  dsimp only [Pt.rescaled]
  have h1 := kE hK p.N
  have h2 := mE (s := s) (c := c) p.N
  linear_combination k ^ 2 * h2 + (k * (K + 1) + 2) * h1 + k * (K + 1) * exp (-2 * (p.N + c)) * kM1 hK

theorem xiN : ScalarN.xi (p.rescaled .N s c) = ScalarN.xi p := rfl

theorem damp2N : ScalarN.damping2 (pot.scaled (s ^ 2)) K (s * exp c * k) (p.rescaled .N s c) = ScalarN.damping2 pot K k p := by
  unfold ScalarN.damping2
  rw [kappa2_rescaled hK, xiN hs hK]
  dsimp only [Pt.rescaled, PotFns.scaled]
  have h1 : K * (p.dphi ^ 2 / 2) = (s * exp c) ^ 2 * (K * (p.dphi ^ 2 / 2)) := by linear_combination (-(p.dphi ^ 2 / 2)) * kM hK
  rw [h1]
  have h2 : s ^ 2 * pot.dV p.phi / ((s * p.H) ^ 2 * p.dphi) = pot.dV p.phi / (p.H ^ 2 * p.dphi) := by
    rw [show (s * p.H) ^ 2 * p.dphi = s ^ 2 * (p.H ^ 2 * p.dphi) by ring, mul_div_mul_left _ _ (by positivity)]
  rw [h2, ← mul_add, show 2 * ((s * exp c) ^ 2 * kappa2 k K) = (s * exp c) ^ 2 * (2 * kappa2 k K) by ring, mul_div_mul_left _ _ (by positivity), ← h1]

theorem freqN : ScalarN.frequency2 (pot.scaled (s ^ 2)) K (s * exp c * k) (p.rescaled .N s c) = ScalarN.frequency2 pot K k p := by
  unfold ScalarN.frequency2
  rw [damp2N hs hK, kappa2_rescaled hK, xiN hs hK]
  dsimp only [Pt.rescaled]
  rw [show exp (2 * (p.N + c)) * (s * p.H) ^ 2 = (s * exp c) ^ 2 * (exp (2 * p.N) * p.H ^ 2) by
    rw [mul_add, exp_add, show exp (2 * c) = exp c ^ 2 by rw [← exp_nat_mul]; norm_num]; ring, mul_div_mul_left _ _ (by positivity)]

theorem freqTN : TensorN.frequency2 K (s * exp c * k) (p.rescaled .N s c) = TensorN.frequency2 K k p := by
  unfold TensorN.frequency2
  have h := freqTT (s := s) (c := c) hK k p
  unfold TensorT.frequency2 at h
  dsimp only [Pt.rescaled] at h ⊢
  rw [h, mul_pow, mul_div_mul_left _ _ (by positivity)]

theorem dampTN : TensorN.damping K (p.rescaled .N s c) = TensorN.damping K p := by
  unfold TensorN.damping
  dsimp only [Pt.rescaled]
  rw [kE hK, mul_pow, mul_div_mul_left _ _ (by positivity)]
end

/-! ## Vacua -/

/-- Amplitude `ρ` times as large, derivative `ρ σ` times. -/
noncomputable def vacScaled (ρ σ : ℝ) (v : Vacuum) : Vacuum := v.map fun u => ((ρ : ℂ) * u.1, (ρ : ℂ) * (σ : ℂ) * u.2)

noncomputable def amp (s c : ℝ) : ℝ := 1 / (√(s * exp c) * exp c)

section
variable {s c K : ℝ} (hs : 0 < s) (hK : K = 0 ∨ s * exp c = 1) (pot : PotFns) (k : ℝ) (p : Pt)
include hs

theorem amp_sq : (s * exp c) ^ 3 * amp s c ^ 2 = s ^ 2 := by
  unfold amp
  have : √(s * exp c) ^ 2 = s * exp c := sq_sqrt (m_pos hs).le
  have h0 : √(s * exp c) ≠ 0 := by have := sqrt_pos.mpr (m_pos (c := c) hs); positivity
  rw [div_pow, mul_pow (√(s * exp c)), this]
  field_simp

theorem wk_rescaled {A A' r r' : ℝ} (hA : A' * √r' = s * exp c * (A * √r)) (hr : 0 ≤ r' ↔ 0 ≤ r) :
    wk A' r' = (wk A r).map (s * exp c * ·) := by
  unfold wk
  have : (0 < A' * √r' ∧ 0 ≤ r') ↔ (0 < A * √r ∧ 0 ≤ r) := by
    rw [hA, hr, mul_pos_iff_of_pos_left (m_pos hs)]
  by_cases h : 0 < A * √r ∧ 0 ≤ r
  · rw [if_pos h, if_pos (this.mpr h), hA]; rfl
  · rw [if_neg h, if_neg (fun h' => h (this.mp h'))]; rfl

/-- The common form of all vacua: `u = n / √(2 w) / z`, `u' = (-i w / A - d) u`. -/
theorem state_rescaled {n w z A d z' A' d' σ : ℝ} (hz : z' = exp c * z) (hA : s * exp c / A' = σ / A) (hd : d' = σ * d) :
    let u : ℂ := n / (√(2 * w) : ℝ) / (z : ℝ)
    let u' : ℂ := n / (√(2 * (s * exp c * w)) : ℝ) / (z' : ℝ)
    u' = amp s c * u ∧ (-Complex.I * (s * exp c * w : ℝ) / A' - d') * u' = amp s c * σ * ((-Complex.I * w / A - d) * u) := by
  dsimp only
  have hm : √(2 * (s * exp c * w)) = √(s * exp c) * √(2 * w) := by
    rw [← sqrt_mul (m_pos hs).le]; congr 1; ring
  have h1 : (n : ℂ) / (√(2 * (s * exp c * w)) : ℝ) / (z' : ℝ) = amp s c * (n / (√(2 * w) : ℝ) / (z : ℝ)) := by
    rw [hm, hz]
    unfold amp
    push_cast
    simp only [div_eq_mul_inv, mul_inv]
    ring
  refine ⟨h1, ?_⟩
  rw [h1, hd]
  have hA' : (s * exp c * w : ℝ) / (A' : ℂ) = σ * (w / A) := by
    have : s * exp c * w / A' = σ * (w / A) := by rw [mul_div_right_comm, hA]; ring
    rw [← Complex.ofReal_div, this]
    push_cast
    ring
  rw [show -Complex.I * ((s * exp c * w : ℝ) : ℂ) / (A' : ℂ) = -Complex.I * ((s * exp c * w : ℝ) / (A' : ℂ)) by ring, hA']
  push_cast
  ring

theorem rst_rescaled {n w z A z' A' σ : ℝ} (hz : z' = exp c * z) (hA : s * exp c / A' = σ / A) :
    let u : ℂ := n / (√(2 * w) : ℝ) / (z : ℝ)
    let u' : ℂ := n / (√(2 * (s * exp c * w)) : ℝ) / (z' : ℝ)
    u' = amp s c * u ∧ (-Complex.I * (s * exp c * w : ℝ) / A') * u' = amp s c * σ * ((-Complex.I * w / A) * u) := by
  have := state_rescaled hs (n := n) (w := w) (d := 0) (d' := 0) hz hA (by ring)
  dsimp only at this ⊢
  simpa using this

theorem sqrt_H2 (H : ℝ) : √((s * H) ^ 2) = s * √(H ^ 2) := by
  rw [mul_pow, sqrt_mul (by positivity), sqrt_sq hs.le]

include hK
theorem dH_HT : T.get_dH_H (p.N + c) ((s * p.H) ^ 2) (s * p.dphi) K = s * T.get_dH_H p.N (p.H ^ 2) p.dphi K := by
  unfold T.get_dH_H
  dsimp only
  rw [sqrt_H2 hs, kE hK]
  rw [show -(s * p.dphi) ^ 2 = s * (s * -p.dphi ^ 2) by ring, show 2 * (s * √(p.H ^ 2)) = s * (2 * √(p.H ^ 2)) by ring,
    mul_div_mul_left _ _ hs.ne', show s ^ 2 * (K * exp (-2 * p.N)) = s * (s * (K * exp (-2 * p.N))) by ring, mul_div_mul_left _ _ hs.ne']
  ring

theorem dHT : T.get_dH (p.N + c) (s * p.H) (s * p.dphi) K = s ^ 2 * T.get_dH p.N p.H p.dphi K := by
  unfold T.get_dH
  rw [kE hK]; ring

omit hK in
theorem d2phiT : T.get_d2phi ((s * p.H) ^ 2) (s * p.dphi) (s ^ 2 * pot.dV p.phi) = s ^ 2 * T.get_d2phi (p.H ^ 2) p.dphi (pot.dV p.phi) := by
  unfold T.get_d2phi
  rw [sqrt_H2 hs]; ring

omit hK in
theorem aH_T : s * exp c / (exp (p.N + c)) = s / exp p.N := by
  rw [exp_add]; field_simp

omit hK in
theorem zT : exp (p.N + c) * (s * p.dphi) / (s * p.H) = exp c * (exp p.N * p.dphi / p.H) := by
  rw [exp_add, show exp p.N * exp c * (s * p.dphi) = s * (exp c * (exp p.N * p.dphi)) by ring, mul_div_mul_left _ _ hs.ne']; ring

theorem dz_zT : s * p.H + s ^ 2 * T.get_d2phi (p.H ^ 2) p.dphi (pot.dV p.phi) / (s * p.dphi) - s * T.get_dH_H p.N (p.H ^ 2) p.dphi K =
    s * (p.H + T.get_d2phi (p.H ^ 2) p.dphi (pot.dV p.phi) / p.dphi - T.get_dH_H p.N (p.H ^ 2) p.dphi K) := by
  rw [sq, mul_assoc, mul_div_mul_left _ _ hs.ne']; ring

theorem vacKT : ScalarT.vacK (pot.scaled (s ^ 2)) K (s * exp c * k) (p.rescaled .t s c) = vacScaled (amp s c) s (ScalarT.vacK pot K k p) := by
  unfold ScalarT.vacK
  dsimp only [Pt.rescaled, PotFns.scaled]
  have hpos : 0 < s * exp c * k ↔ 0 < k := mul_pos_iff_of_pos_left (m_pos hs)
  by_cases h : 0 < k
  · rw [if_pos h, if_pos (hpos.mpr h), dH_HT hs hK, d2phiT hs, dz_zT hs hK]
    have := state_rescaled hs (n := 1) (w := k) (zT (c := c) hs p) (aH_T hs p) (rfl : s * _ = s * (p.H + T.get_d2phi (p.H ^ 2) p.dphi (pot.dV p.phi) / p.dphi - T.get_dH_H p.N (p.H ^ 2) p.dphi K))
    dsimp only at this
    rw [Complex.ofReal_one] at this
    unfold vacScaled
    simp only [Option.map_some]
    rw [this.2, this.1]
  · rw [if_neg h, if_neg (fun h' => h (hpos.mp h'))]; rfl

omit hK in
theorem vacRSTT : ScalarT.vacRST (s * exp c * k) (p.rescaled .t s c) = vacScaled (amp s c) s (ScalarT.vacRST k p) := by
  unfold ScalarT.vacRST
  dsimp only [Pt.rescaled]
  have hpos : 0 < s * exp c * k ↔ 0 < k := mul_pos_iff_of_pos_left (m_pos hs)
  by_cases h : 0 < k
  · rw [if_pos h, if_pos (hpos.mpr h)]
    have := rst_rescaled hs (n := 1) (w := k) (zT (c := c) hs p) (aH_T hs p)
    dsimp only at this
    rw [Complex.ofReal_one] at this
    unfold vacScaled
    simp only [Option.map_some]
    rw [this.2, this.1]
  · rw [if_neg h, if_neg (fun h' => h (hpos.mp h'))]; rfl

theorem radT : ScalarT.radicand (pot.scaled (s ^ 2)) K (s * exp c * k) (p.rescaled .t s c) = s ^ 2 * ScalarT.radicand pot K k p := by
  unfold ScalarT.radicand
  dsimp only [Pt.rescaled, PotFns.scaled]
  rw [dH_HT hs hK, d2phiT hs, dHT hs hK]
  obtain ⟨d2, hd2⟩ : ∃ d, d = T.get_d2phi (p.H ^ 2) p.dphi (pot.dV p.phi) := ⟨_, rfl⟩
  obtain ⟨dHH, hdHH⟩ : ∃ d, d = T.get_dH_H p.N (p.H ^ 2) p.dphi K := ⟨_, rfl⟩
  obtain ⟨dH, hdH⟩ : ∃ d, d = T.get_dH p.N p.H p.dphi K := ⟨_, rfl⟩
  rw [← hd2, ← hdHH, ← hdH]
  have e1 : T.get_d2H (p.N + c) (s * p.H) (s ^ 2 * dH) (s * p.dphi) (s ^ 2 * d2) K = s ^ 3 * T.get_d2H p.N p.H dH p.dphi d2 K := by
    unfold T.get_d2H
    linear_combination (-2 * s * p.H) * kE hK p.N
  rw [e1]
  obtain ⟨dd, hdd⟩ : ∃ d, d = T.get_d2H p.N p.H dH p.dphi d2 K := ⟨_, rfl⟩
  rw [← hdd]
  have e2 : T.get_d3phi (s * p.H) (s ^ 2 * dH) (s ^ 3 * dd) (s * p.dphi) (s ^ 2 * d2) (s ^ 2 * pot.dV p.phi) (s ^ 2 * pot.d2V p.phi) =
      s ^ 3 * T.get_d3phi p.H dH dd p.dphi d2 (pot.dV p.phi) (pot.d2V p.phi) := by
    unfold T.get_d3phi; ring
  rw [e2]
  obtain ⟨d3, hd3⟩ : ∃ d, d = T.get_d3phi p.H dH dd p.dphi d2 (pot.dV p.phi) (pot.d2V p.phi) := ⟨_, rfl⟩
  rw [← hd3, exp_add]
  have c1 : s ^ 2 * d2 / (s * p.dphi) = s * (d2 / p.dphi) := by rw [sq, mul_assoc, mul_div_mul_left _ _ hs.ne']; ring
  have c2 : s ^ 3 * d3 / (s * p.dphi) = s ^ 2 * (d3 / p.dphi) := by rw [show s ^ 3 * d3 = s * (s ^ 2 * d3) by ring, mul_div_mul_left _ _ hs.ne']; ring
  have c3 : s ^ 3 * dd / (s * p.H) = s ^ 2 * (dd / p.H) := by rw [show s ^ 3 * dd = s * (s ^ 2 * dd) by ring, mul_div_mul_left _ _ hs.ne']; ring
  have c4 : 2 * (s * p.H) * (s ^ 2 * d2) / (s * p.dphi) = s ^ 2 * (2 * p.H * d2 / p.dphi) := by
    rw [show 2 * (s * p.H) * (s ^ 2 * d2) = s * (s ^ 2 * (2 * p.H * d2)) by ring, mul_div_mul_left _ _ hs.ne']; ring
  have c5 : 2 * (s ^ 2 * d2) * (s * dHH) / (s * p.dphi) = s ^ 2 * (2 * d2 * dHH / p.dphi) := by
    rw [show 2 * (s ^ 2 * d2) * (s * dHH) = s * (s ^ 2 * (2 * d2 * dHH)) by ring, mul_div_mul_left _ _ hs.ne']; ring
  have c6 : (s * exp c * k) ^ 2 / (exp p.N * exp c) ^ 2 = s ^ 2 * (k ^ 2 / exp p.N ^ 2) := by field_simp
  rw [c1, c2, c3, c4, c5, c6]
  ring

theorem vacHDT : ScalarT.vacHD (pot.scaled (s ^ 2)) K (s * exp c * k) (p.rescaled .t s c) = vacScaled (amp s c) s (ScalarT.vacHD pot K k p) := by
  unfold ScalarT.vacHD
  rw [radT hs hK]
  dsimp only [Pt.rescaled, PotFns.scaled]
  rw [wk_rescaled (c := c) (s := s) (A := exp p.N) (r := ScalarT.radicand pot K k p) hs ?_ ?_]
  · cases wk (exp p.N) (ScalarT.radicand pot K k p) with
    | none => rfl
    | some w =>
      simp only [Option.map_some, vacScaled]
      rw [dH_HT hs hK, d2phiT hs, dz_zT hs hK]
      have := state_rescaled hs (n := 1) (w := w) (zT (c := c) hs p) (aH_T hs p) (rfl : s * _ = s * (p.H + T.get_d2phi (p.H ^ 2) p.dphi (pot.dV p.phi) / p.dphi - T.get_dH_H p.N (p.H ^ 2) p.dphi K))
      dsimp only at this
      rw [Complex.ofReal_one] at this
      rw [this.2, this.1]
  · rw [sqrt_mul (by positivity), sqrt_sq hs.le, exp_add]; ring
  · rw [mul_nonneg_iff_of_pos_left (by positivity)]

omit hK in
theorem vacKTT : TensorT.vacK (s * exp c * k) (p.rescaled .t s c) = vacScaled (amp s c) s (TensorT.vacK k p) := by
  unfold TensorT.vacK
  dsimp only [Pt.rescaled]
  have hpos : 0 < s * exp c * k ↔ 0 < k := mul_pos_iff_of_pos_left (m_pos hs)
  by_cases h : 0 < k
  · rw [if_pos h, if_pos (hpos.mpr h)]
    have := state_rescaled hs (n := 2) (w := k) (c := c) (z := exp p.N) (z' := exp (p.N + c)) (by rw [exp_add]; ring) (aH_T hs p) (rfl : s * p.H = s * p.H)
    dsimp only at this
    rw [Complex.ofReal_ofNat] at this
    unfold vacScaled
    simp only [Option.map_some]
    rw [this.2, this.1]
  · rw [if_neg h, if_neg (fun h' => h (hpos.mp h'))]; rfl

omit hK in
theorem vacRSTTT : TensorT.vacRST (s * exp c * k) (p.rescaled .t s c) = vacScaled (amp s c) s (TensorT.vacRST k p) := by
  unfold TensorT.vacRST
  dsimp only [Pt.rescaled]
  have hpos : 0 < s * exp c * k ↔ 0 < k := mul_pos_iff_of_pos_left (m_pos hs)
  by_cases h : 0 < k
  · rw [if_pos h, if_pos (hpos.mpr h)]
    have := rst_rescaled hs (n := 2) (w := k) (c := c) (z := exp p.N) (z' := exp (p.N + c)) (by rw [exp_add]; ring) (aH_T hs p)
    dsimp only at this
    rw [Complex.ofReal_ofNat] at this
    unfold vacScaled
    simp only [Option.map_some]
    rw [this.2, this.1]
  · rw [if_neg h, if_neg (fun h' => h (hpos.mp h'))]; rfl

theorem vacHDTT : TensorT.vacHD K (s * exp c * k) (p.rescaled .t s c) = vacScaled (amp s c) s (TensorT.vacHD K k p) := by
  unfold TensorT.vacHD
  dsimp only [Pt.rescaled]
  rw [dHT hs hK]
  obtain ⟨r, hr⟩ : ∃ r, r = k ^ 2 / exp p.N ^ 2 - 2 * p.H ^ 2 - T.get_dH p.N p.H p.dphi K := ⟨_, rfl⟩
  rw [show (s * exp c * k) ^ 2 / exp (p.N + c) ^ 2 - 2 * (s * p.H) ^ 2 - s ^ 2 * T.get_dH p.N p.H p.dphi K = s ^ 2 * r by
    rw [hr, exp_add]; field_simp, ← hr]
  rw [wk_rescaled (c := c) (s := s) (A := exp p.N) (r := r) hs ?_ ?_]
  · cases wk (exp p.N) r with
    | none => rfl
    | some w =>
      simp only [Option.map_some, vacScaled]
      have := state_rescaled hs (n := 2) (w := w) (c := c) (z := exp p.N) (z' := exp (p.N + c)) (by rw [exp_add]; ring) (aH_T hs p) (rfl : s * p.H = s * p.H)
      dsimp only at this
      rw [Complex.ofReal_ofNat] at this
      rw [this.2, this.1]
  · rw [sqrt_mul (by positivity), sqrt_sq hs.le, exp_add]; ring
  · rw [mul_nonneg_iff_of_pos_left (by positivity)]

/-! e-folds -/

theorem dH_HN : N.get_dH_H (p.N + c) ((s * p.H) ^ 2) p.dphi K = N.get_dH_H p.N (p.H ^ 2) p.dphi K := by
  unfold N.get_dH_H
  rw [kE hK, mul_pow, mul_div_mul_left _ _ (by positivity)]

theorem dHN : N.get_dH (p.N + c) (s * p.H) p.dphi K = s * N.get_dH p.N p.H p.dphi K := by
  unfold N.get_dH
  rw [kE hK, show s ^ 2 * (K * exp (-2 * p.N)) = s * (s * (K * exp (-2 * p.N))) by ring, mul_div_mul_left _ _ hs.ne']
  ring

omit hK in
theorem d2phiN (d : ℝ) : N.get_d2phi ((s * p.H) ^ 2) d p.dphi (s ^ 2 * pot.dV p.phi) = N.get_d2phi (p.H ^ 2) d p.dphi (pot.dV p.phi) := by
  unfold N.get_d2phi
  rw [mul_pow, mul_div_mul_left _ _ (by positivity)]

omit hK in
theorem aH_N : s * exp c / (exp (p.N + c) * (s * p.H) : ℝ) = 1 / (exp p.N * p.H) := by
  rw [exp_add, show exp p.N * exp c * (s * p.H) = s * exp c * (exp p.N * p.H) by ring]
  nth_rewrite 1 [← mul_one (s * exp c)]
  rw [mul_div_mul_left _ _ (m_pos hs).ne']

omit hK in
theorem zN : exp (p.N + c) * p.dphi = exp c * (exp p.N * p.dphi) := by
  rw [exp_add]; ring

theorem vacKN : ScalarN.vacK (pot.scaled (s ^ 2)) K (s * exp c * k) (p.rescaled .N s c) = vacScaled (amp s c) 1 (ScalarN.vacK pot K k p) := by
  unfold ScalarN.vacK
  dsimp only [Pt.rescaled, PotFns.scaled]
  have hpos : 0 < s * exp c * k ↔ 0 < k := mul_pos_iff_of_pos_left (m_pos hs)
  by_cases h : 0 < k
  · rw [if_pos h, if_pos (hpos.mpr h), dH_HN hs hK, d2phiN hs]
    obtain ⟨d, hd⟩ : ∃ d, d = N.get_d2phi (p.H ^ 2) (N.get_dH_H p.N (p.H ^ 2) p.dphi K) p.dphi (pot.dV p.phi) / p.dphi + 1 := ⟨_, rfl⟩
    rw [← hd]
    have := state_rescaled hs (n := 1) (w := k) (zN (c := c) hs p) (aH_N hs p) (one_mul d).symm
    dsimp only at this
    rw [Complex.ofReal_one] at this
    unfold vacScaled
    simp only [Option.map_some]
    rw [this.2, this.1, Complex.ofReal_one]
  · rw [if_neg h, if_neg (fun h' => h (hpos.mp h'))]; rfl

omit hK in
theorem vacRSTN : ScalarN.vacRST (s * exp c * k) (p.rescaled .N s c) = vacScaled (amp s c) 1 (ScalarN.vacRST k p) := by
  unfold ScalarN.vacRST
  dsimp only [Pt.rescaled]
  have hpos : 0 < s * exp c * k ↔ 0 < k := mul_pos_iff_of_pos_left (m_pos hs)
  by_cases h : 0 < k
  · rw [if_pos h, if_pos (hpos.mpr h)]
    have := rst_rescaled hs (n := 1) (w := k) (zN (c := c) hs p) (aH_N hs p)
    dsimp only at this
    rw [Complex.ofReal_one] at this
    unfold vacScaled
    simp only [Option.map_some]
    rw [this.2, this.1, Complex.ofReal_one]
  · rw [if_neg h, if_neg (fun h' => h (hpos.mp h'))]; rfl

theorem radN : ScalarN.radicand (pot.scaled (s ^ 2)) K (s * exp c * k) (p.rescaled .N s c) = ScalarN.radicand pot K k p := by
  unfold ScalarN.radicand
  dsimp only [Pt.rescaled, PotFns.scaled]
  rw [dH_HN hs hK, d2phiN hs, dHN hs hK]
  obtain ⟨d2, hd2⟩ : ∃ d, d = N.get_d2phi (p.H ^ 2) (N.get_dH_H p.N (p.H ^ 2) p.dphi K) p.dphi (pot.dV p.phi) := ⟨_, rfl⟩
  obtain ⟨dH, hdH⟩ : ∃ d, d = N.get_dH p.N p.H p.dphi K := ⟨_, rfl⟩
  rw [← hd2, ← hdH]
  have e1 : N.get_d2H (p.N + c) (s * p.H) (s * dH) p.dphi d2 K = s * N.get_d2H p.N p.H dH p.dphi d2 K := by
    unfold N.get_d2H
    rw [kE hK, show s ^ 2 * (K * exp (-2 * p.N)) * (2 * (s * p.H) + s * dH) = s ^ 2 * (s * (K * exp (-2 * p.N) * (2 * p.H + dH))) by ring,
      mul_pow, mul_div_mul_left _ _ (by positivity)]
    ring
  rw [e1]
  obtain ⟨dd, hdd⟩ : ∃ d, d = N.get_d2H p.N p.H dH p.dphi d2 K := ⟨_, rfl⟩
  rw [← hdd]
  have q1 : s * dH / (s * p.H) = dH / p.H := mul_div_mul_left _ _ hs.ne'
  have e2 : N.get_d3phi (s * p.H) (s * dH) (s * dd) p.dphi d2 (s ^ 2 * pot.dV p.phi) (s ^ 2 * pot.d2V p.phi) =
      N.get_d3phi p.H dH dd p.dphi d2 (pot.dV p.phi) (pot.d2V p.phi) := by
    unfold N.get_d3phi
    have q2 : -(s * dd) / (s * p.H) = -dd / p.H := by rw [← mul_neg, mul_div_mul_left _ _ hs.ne']
    have q3 : s ^ 2 * pot.d2V p.phi / (s * p.H) ^ 2 = pot.d2V p.phi / p.H ^ 2 := by rw [mul_pow, mul_div_mul_left _ _ (by positivity)]
    have q4 : (s * dH) ^ 2 / (s * p.H) ^ 2 = dH ^ 2 / p.H ^ 2 := by rw [mul_pow, mul_pow, mul_div_mul_left _ _ (by positivity)]
    have q5 : 2 * (s ^ 2 * pot.dV p.phi) * (s * dH) / (s * p.H) ^ 3 = 2 * pot.dV p.phi * dH / p.H ^ 3 := by
      rw [show 2 * (s ^ 2 * pot.dV p.phi) * (s * dH) = s ^ 3 * (2 * pot.dV p.phi * dH) by ring, mul_pow, mul_div_mul_left _ _ (by positivity)]
    rw [q1, q2, q3, q4, q5]
  rw [e2, q1]
  have c6 : (s * exp c * k) ^ 2 / (exp (p.N + c) * (s * p.H)) ^ 2 = k ^ 2 / (exp p.N * p.H) ^ 2 := by
    rw [exp_add, show (exp p.N * exp c * (s * p.H)) ^ 2 = (s * exp c) ^ 2 * (exp p.N * p.H) ^ 2 by ring, mul_pow _ k,
      mul_div_mul_left _ _ (by have := m_pos (c := c) hs; positivity)]
  rw [c6]

theorem vacHDN : ScalarN.vacHD (pot.scaled (s ^ 2)) K (s * exp c * k) (p.rescaled .N s c) = vacScaled (amp s c) 1 (ScalarN.vacHD pot K k p) := by
  unfold ScalarN.vacHD
  rw [radN hs hK]
  dsimp only [Pt.rescaled, PotFns.scaled]
  rw [wk_rescaled (c := c) (s := s) (A := exp p.N * p.H) (r := ScalarN.radicand pot K k p) hs ?_ Iff.rfl]
  · cases wk (exp p.N * p.H) (ScalarN.radicand pot K k p) with
    | none => rfl
    | some w =>
      simp only [Option.map_some, vacScaled]
      rw [dH_HN hs hK, d2phiN hs]
      obtain ⟨d, hd⟩ : ∃ d, d = N.get_d2phi (p.H ^ 2) (N.get_dH_H p.N (p.H ^ 2) p.dphi K) p.dphi (pot.dV p.phi) / p.dphi + 1 := ⟨_, rfl⟩
      rw [← hd]
      have := state_rescaled hs (n := 1) (w := w) (zN (c := c) hs p) (aH_N hs p) (one_mul d).symm
      dsimp only at this
      rw [Complex.ofReal_one] at this
      rw [this.2, this.1, Complex.ofReal_one]
  · rw [exp_add]; ring

omit hK in
theorem vacKTN : TensorN.vacK (s * exp c * k) (p.rescaled .N s c) = vacScaled (amp s c) 1 (TensorN.vacK k p) := by
  unfold TensorN.vacK
  dsimp only [Pt.rescaled]
  have hpos : 0 < s * exp c * k ↔ 0 < k := mul_pos_iff_of_pos_left (m_pos hs)
  by_cases h : 0 < k
  · rw [if_pos h, if_pos (hpos.mpr h)]
    have := state_rescaled hs (n := 2) (w := k) (c := c) (z := exp p.N) (z' := exp (p.N + c)) (by rw [exp_add]; ring) (aH_N hs p) (one_mul (1 : ℝ)).symm
    dsimp only at this
    rw [Complex.ofReal_ofNat, Complex.ofReal_one] at this
    unfold vacScaled
    simp only [Option.map_some]
    rw [Complex.ofReal_one, this.2, this.1]
  · rw [if_neg h, if_neg (fun h' => h (hpos.mp h'))]; rfl

omit hK in
theorem vacRSTTN : TensorN.vacRST (s * exp c * k) (p.rescaled .N s c) = vacScaled (amp s c) 1 (TensorN.vacRST k p) := by
  unfold TensorN.vacRST
  dsimp only [Pt.rescaled]
  have hpos : 0 < s * exp c * k ↔ 0 < k := mul_pos_iff_of_pos_left (m_pos hs)
  by_cases h : 0 < k
  · rw [if_pos h, if_pos (hpos.mpr h)]
    have := rst_rescaled hs (n := 2) (w := k) (c := c) (z := exp p.N) (z' := exp (p.N + c)) (by rw [exp_add]; ring) (aH_N hs p)
    dsimp only at this
    rw [Complex.ofReal_ofNat] at this
    unfold vacScaled
    simp only [Option.map_some]
    rw [this.2, this.1, Complex.ofReal_one]
  · rw [if_neg h, if_neg (fun h' => h (hpos.mp h'))]; rfl

theorem vacHDTN : TensorN.vacHD K (s * exp c * k) (p.rescaled .N s c) = vacScaled (amp s c) 1 (TensorN.vacHD K k p) := by
  unfold TensorN.vacHD
  dsimp only [Pt.rescaled]
  rw [dHN hs hK, mul_div_mul_left _ _ hs.ne',
    show (s * exp c * k) ^ 2 / (exp (p.N + c) * (s * p.H)) ^ 2 = k ^ 2 / (exp p.N * p.H) ^ 2 by
    rw [exp_add, show (exp p.N * exp c * (s * p.H)) ^ 2 = (s * exp c) ^ 2 * (exp p.N * p.H) ^ 2 by ring, mul_pow _ k,
      mul_div_mul_left _ _ (by have := m_pos (c := c) hs; positivity)]]
  obtain ⟨r, hr⟩ : ∃ r, r = k ^ 2 / (exp p.N * p.H) ^ 2 - 2 - N.get_dH p.N p.H p.dphi K / p.H := ⟨_, rfl⟩
  rw [← hr]
  rw [wk_rescaled (c := c) (s := s) (A := exp p.N * p.H) (r := r) hs ?_ Iff.rfl]
  · cases wk (exp p.N * p.H) r with
    | none => rfl
    | some w =>
      simp only [Option.map_some, vacScaled]
      have := state_rescaled hs (n := 2) (w := w) (c := c) (z := exp p.N) (z' := exp (p.N + c)) (by rw [exp_add]; ring) (aH_N hs p) (one_mul (1 : ℝ)).symm
      dsimp only at this
      rw [Complex.ofReal_ofNat, Complex.ofReal_one] at this
      rw [this.2, this.1, Complex.ofReal_one]
  · rw [exp_add]; ring
end

/-! ## The pipeline -/

theorem argwhere_map {P Q : Pt → Prop} {f : Pt → Pt} {l : List Pt} (h : ∀ p ∈ l, P (f p) ↔ Q p) : argwhere P (l.map f) = argwhere Q l := by
  unfold argwhere
  rw [List.length_map]
  apply List.filter_congr
  intro i _
  rw [decide_eq_decide, List.getElem?_map]
  constructor
  · rintro ⟨p, hp, hP⟩
    rw [Option.map_eq_some_iff] at hp
    obtain ⟨q, hq, rfl⟩ := hp
    exact ⟨q, hq, (h q (List.mem_of_getElem? hq)).mp hP⟩
  · rintro ⟨q, hq, hQ⟩
    exact ⟨f q, by rw [hq]; rfl, (h q (List.mem_of_getElem? hq)).mpr hQ⟩

theorem slice_map {α β : Type} (f : α → β) (l : List α) (i j : ℕ) : slice (l.map f) i j = (slice l i j).map f := by
  unfold slice
  rw [List.map_take, List.map_drop]

section
variable {s c : ℝ} (hs : 0 < s) (b : Bg) (k : ℝ)
include hs

theorem log_m : log (s * exp c) = log s + c := by rw [log_mul hs.ne' (exp_pos c).ne', log_exp]

theorem idxBeg_rescaled (fac : ℝ) : idxBeg (b.rescaled s c) fac (s * exp c * k) = idxBeg b fac k := by
  unfold idxBeg
  split_ifs
  · rfl
  · dsimp only [Bg.rescaled]
    rw [argwhere_map]
    intro p _
    unfold begTest
    rw [mul_pos_iff_of_pos_left (m_pos hs)]
    refine and_congr_right fun hk => and_congr_right fun _ => ?_
    rw [log_mul (m_pos hs).ne' hk.ne', log_m hs]
    dsimp only [Pt.rescaled]
    rw [show log s + c + log k - (p.logaH + (log s + c)) = log k - p.logaH by ring]

theorem idxEnd_rescaled (beg : ℕ) (fac : ℝ) : idxEnd (b.rescaled s c) beg fac (s * exp c * k) = idxEnd b beg fac k := by
  unfold idxEnd
  dsimp only [Bg.rescaled]
  rw [argwhere_map (Q := fun p => endTest k fac p.logaH)]
  · split
    · rfl
    next e he =>
    rw [List.getElem?_map, List.getElem?_map]
    cases b.pts[e]? with
    | none => rfl
    | some pe =>
    cases b.pts[beg]? with
    | none => rfl
    | some pb =>
    dsimp only [Option.map_some, Pt.rescaled]
    rw [add_sub_add_right_eq_sub]
    split_ifs
    · rw [argwhere_map (Q := fun p => 10 < p.N - pb.N)]
      intro p _
      dsimp only [Pt.rescaled]
      rw [add_sub_add_right_eq_sub]
    · rfl
  · intro p _
    unfold endTest
    rw [mul_nonneg_iff_of_pos_left (m_pos hs), mul_eq_zero, or_iff_right (m_pos hs).ne']
    refine and_congr_right fun hk => and_congr_right fun _ => ?_
    by_cases h0 : k = 0
    · simp [h0]
    · rw [log_mul (m_pos hs).ne' h0, log_m hs]
      dsimp only [Pt.rescaled]
      rw [show p.logaH + (log s + c) - (log s + c + log k) = p.logaH - log k by ring]

/-- The change of the independent variable. -/
noncomputable def stretch (i : Indep) (s : ℝ) : ℝ := match i with | .t => 1 / s | _ => 1
noncomputable def shift (i : Indep) (c : ℝ) : ℝ := match i with | .t => 0 | _ => c

omit hs in
theorem x_rescaled (i : Indep) (p : Pt) : (p.rescaled i s c).x = stretch i s * p.x + shift i c := by
  cases i <;> simp [Pt.rescaled, stretch, shift]; ring

theorem linspace_add (a e d : ℝ) (n : ℕ) : linspace (a + d) (e + d) n = (linspace a e n).map (· + d) := by
  unfold linspace
  rw [List.map_map]
  apply List.map_congr_left
  intro i _
  simp only [Function.comp]
  ring

theorem xEval_rescaled (hx : ∀ p ∈ b.pts, b.indep = .t → p.x ≠ 0) (n beg stop : ℕ) :
    xEval (b.rescaled s c) n beg stop = (xEval b n beg stop).map (List.map fun x => stretch b.indep s * x + shift b.indep c) := by
  unfold xEval
  split_ifs
  · dsimp only [Bg.rescaled]
    rw [List.getElem?_map, List.getElem?_map]
    cases hb : b.pts[beg]? with
    | none => rfl
    | some pb =>
    cases he : b.pts[stop]? with
    | none => rfl
    | some pe =>
    dsimp only [Option.map_some]
    have hxb := hx pb (List.mem_of_getElem? hb)
    have hxe := hx pe (List.mem_of_getElem? he)
    cases hi : b.indep with
    | t =>
      dsimp only [Pt.rescaled, Option.map_some, stretch, shift]
      rw [logb_div (hxb hi) hs.ne', logb_div (hxe hi) hs.ne', sub_eq_add_neg, sub_eq_add_neg, linspace_add hs, List.map_map, List.map_map]
      congr 1
      apply List.map_congr_left
      intro x _
      simp only [Function.comp]
      rw [rpow_add (by norm_num), rpow_neg (by norm_num), rpow_logb (by norm_num) (by norm_num) hs]
      ring
    | N =>
      dsimp only [Pt.rescaled, Option.map_some, stretch, shift]
      rw [linspace_add hs]
      simp
    | other =>
      dsimp only [Pt.rescaled, Option.map_some, stretch, shift]
      rw [linspace_add hs]
      simp
  · rfl

omit hs in
theorem csqrt_scaled {α : ℝ} (hα : 0 < α) (x : ℝ) : csqrt (x / α ^ 2) = csqrt x / α := by
  unfold csqrt
  have h1 : 0 ≤ x / α ^ 2 ↔ 0 ≤ x := by rw [le_div_iff₀ (by positivity), zero_mul]
  by_cases h : 0 ≤ x
  · rw [if_pos h, if_pos (h1.mpr h), sqrt_div h, sqrt_sq hα.le]; push_cast; ring
  · rw [if_neg h, if_neg (fun h' => h (h1.mp h')), ← neg_div, sqrt_div (by linarith), sqrt_sq hα.le]; push_cast; ring

/-- What the rescaling does to a mode. -/
structure IsRescaledMode (i : Indep) (s c : ℝ) (m m' : Mode) : Prop where
  freq : ∀ p, m'.frequency2 (p.rescaled i s c) = m.frequency2 p / stretch i s ^ 2
  damp : ∀ p, m'.damping (p.rescaled i s c) = m.damping p / stretch i s
  noVac : ∀ vac, m.vacuum vac = none → m'.vacuum vac = none
  vac : ∀ vac v, m.vacuum vac = some v → ∃ v', m'.vacuum vac = some v' ∧
    ∀ p, v' (p.rescaled i s c) = vacScaled (amp s c) (1 / stretch i s) (v p)
  norm : m'.pps_norm * amp s c ^ 2 = s ^ 2 * m.pps_norm

theorem byName_rescaled {i : Indep} {σ : ℝ} {f g h f' g' h' : Pt → Vacuum}
    (hf : ∀ p : Pt, f' (p.rescaled i s c) = vacScaled (amp s c) σ (f p)) (hg : ∀ p : Pt, g' (p.rescaled i s c) = vacScaled (amp s c) σ (g p))
    (hh : ∀ p : Pt, h' (p.rescaled i s c) = vacScaled (amp s c) σ (h p)) :
    (∀ vac, byName f g h vac = none → byName f' g' h' vac = none) ∧
    ∀ vac v, byName f g h vac = some v → ∃ v', byName f' g' h' vac = some v' ∧ ∀ p : Pt, v' (p.rescaled i s c) = vacScaled (amp s c) σ (v p) := by
  unfold byName
  constructor
  · intro vac
    split_ifs <;> simp
  · intro vac v
    split_ifs
    · intro e; cases e; exact ⟨_, rfl, hf⟩
    · intro e; cases e; exact ⟨_, rfl, hg⟩
    · intro e; cases e; exact ⟨_, rfl, hh⟩
    · simp

theorem modes_rescaled (hK : b.K = 0 ∨ s * exp c = 1) : (modes b k = none ∧ modes (b.rescaled s c) (s * exp c * k) = none) ∨
    ∃ m t m' t', modes b k = some (m, t) ∧ modes (b.rescaled s c) (s * exp c * k) = some (m', t') ∧
      IsRescaledMode b.indep s c m m' ∧ IsRescaledMode b.indep s c t t' := by
  unfold modes
  dsimp only [Bg.rescaled]
  have hn : (s * exp c * k) ^ 3 / (2 * π ^ 2) * amp s c ^ 2 = s ^ 2 * (k ^ 3 / (2 * π ^ 2)) := by
    rw [← amp_sq (c := c) hs]; ring
  have hn2 : (s * exp c * k) ^ 3 / (2 * π ^ 2) * 2 * amp s c ^ 2 = s ^ 2 * (k ^ 3 / (2 * π ^ 2) * 2) := by
    rw [← amp_sq (c := c) hs]; ring
  cases hi : b.indep with
  | other => exact .inl ⟨rfl, rfl⟩
  | t =>
    have e1 : ∀ x : ℝ, x / (1 / s) ^ 2 = s ^ 2 * x := fun x => by field_simp
    have e2 : ∀ x : ℝ, x / (1 / s) = s * x := fun x => by field_simp
    have e3 : 1 / (1 / s) = s := by field_simp
    refine .inr ⟨_, _, _, _, rfl, rfl, ⟨fun p => ?_, fun p => ?_, ?_, ?_, hn⟩, ⟨fun p => ?_, fun p => ?_, ?_, ?_, hn2⟩⟩
    all_goals dsimp only [stretch]; (try rw [e1]); (try rw [e2]); (try simp only [e3, mul_one])
    · exact freqT hs hK _ _ _
    · exact dampT hs hK _ _ _
    · exact (byName_rescaled (σ := s) hs (fun p => vacKT hs hK _ _ p) (fun p => vacHDT hs hK _ _ p) (fun p => vacRSTT hs _ p)).1
    · exact (byName_rescaled hs (fun p => vacKT hs hK _ _ p) (fun p => vacHDT hs hK _ _ p) (fun p => vacRSTT hs _ p)).2
    · exact freqTT hK _ _
    · unfold TensorT.damping; dsimp only [Pt.rescaled]; ring
    · exact (byName_rescaled (σ := s) hs (fun p => vacKTT hs _ p) (fun p => vacHDTT hs hK _ p) (fun p => vacRSTTT hs _ p)).1
    · exact (byName_rescaled hs (fun p => vacKTT hs _ p) (fun p => vacHDTT hs hK _ p) (fun p => vacRSTTT hs _ p)).2
  | N =>
    refine .inr ⟨_, _, _, _, rfl, rfl, ⟨fun p => ?_, fun p => ?_, ?_, ?_, hn⟩, ⟨fun p => ?_, fun p => ?_, ?_, ?_, hn2⟩⟩
    all_goals dsimp only [stretch]; (try rw [one_pow, div_one]); (try rw [div_one]); (try simp only [div_one])
    · exact freqN hs hK _ _ _
    · unfold ScalarN.damping; rw [damp2N hs hK]
    · exact (byName_rescaled (σ := 1) hs (fun p => vacKN hs hK _ _ p) (fun p => vacHDN hs hK _ _ p) (fun p => vacRSTN hs _ p)).1
    · exact (byName_rescaled hs (fun p => vacKN hs hK _ _ p) (fun p => vacHDN hs hK _ _ p) (fun p => vacRSTN hs _ p)).2
    · exact freqTN hs hK _ _
    · exact dampTN hs hK _
    · exact (byName_rescaled (σ := 1) hs (fun p => vacKTN hs _ p) (fun p => vacHDTN hs hK _ p) (fun p => vacRSTTN hs _ p)).1
    · exact (byName_rescaled hs (fun p => vacKTN hs _ p) (fun p => vacHDTN hs hK _ p) (fun p => vacRSTTN hs _ p)).2

theorem stretch_pos (i : Indep) : 0 < stretch i s := by cases i <;> simp [stretch, hs]

theorem oscCall_rescaled {osc : Oscode} (hosc : Covariant osc) (hx : ∀ p ∈ b.pts, b.indep = .t → p.x ≠ 0) {m m' : Mode}
    (hm : IsRescaledMode b.indep s c m m') (kw kw' : OscKw) (hkw : kw'.num_eval = kw.num_eval) (beg stop : ℕ) (x0 dx0 : ℝ) :
    oscCall osc (b.rescaled s c) kw' beg stop m' x0 (dx0 / stretch b.indep s) =
      (oscCall osc b kw beg stop m x0 dx0).map fun r => r.affine (stretch b.indep s) := by
  unfold oscCall
  have hp : (b.rescaled s c).pts = b.pts.map (Pt.rescaled b.indep s c) := rfl
  rw [hp, List.getElem?_map, List.getElem?_map]
  cases hb : b.pts[beg]? with
  | none => rfl
  | some pb =>
  cases he : b.pts[stop]? with
  | none => rfl
  | some pe =>
  dsimp only [Option.map_some]
  rw [← hosc _ _ (shift b.indep c) (stretch_pos hs _), hkw, xEval_rescaled hs b hx, slice_map]
  unfold OscArgs.affine
  congr 1
  dsimp only
  simp only [List.map_map]
  congr 1
  · apply List.map_congr_left
    intro p _
    exact x_rescaled _ p
  · exact x_rescaled _ pb
  · exact x_rescaled _ pe
  · apply List.map_congr_left
    intro p _
    simp only [Function.comp]
    rw [hm.freq, csqrt_scaled (stretch_pos hs _)]
  · apply List.map_congr_left
    intro p _
    exact hm.damp p

end

theorem cdiv_scaled {a a' d d' q : ℂ} {r : ℂ} (hr : r ≠ 0) (ha : a' = r * (q * a)) (hd : d' = r * d) : cdiv a' d' = (cdiv a d).map (q * ·) := by
  unfold cdiv
  by_cases h : d = 0
  · rw [if_pos h, if_pos (by rw [hd, h, mul_zero])]; rfl
  · rw [if_neg h, if_neg (by rw [hd]; exact mul_ne_zero hr h), ha, hd, mul_div_mul_left _ _ hr, mul_div_assoc]; rfl

theorem coefficients_scaled {α : ℝ} (hα : 0 < α) (ρ : ℝ) (u du y1 dy1 y2 dy2 : ℂ) :
    coefficients (ρ * u) (ρ * ((1 / α : ℝ) : ℂ) * du) y1 (dy1 / α) y2 (dy2 / α) =
      ((coefficients u du y1 dy1 y2 dy2).1.map ((ρ : ℂ) * ·), (coefficients u du y1 dy1 y2 dy2).2.map ((ρ : ℂ) * ·)) := by
  have h : ((1 : ℂ) / (α : ℂ)) ≠ 0 := by
    have : (α : ℂ) ≠ 0 := by exact_mod_cast hα.ne'
    exact div_ne_zero one_ne_zero this
  unfold coefficients
  dsimp only
  congr 1
  · exact cdiv_scaled (a := u * dy2 - du * y2) (d := y1 * dy2 - dy1 * y2) (q := ρ) h (by push_cast; ring) (by ring)
  · exact cdiv_scaled (a := u * dy1 - du * y1) (d := y2 * dy1 - dy2 * y1) (q := ρ) h (by push_cast; ring) (by ring)

theorem ab_scaled {α : ℝ} (hα : 0 < α) (ρ : ℝ) (v : Vacuum) (one two : OscSol) :
    ab (vacScaled ρ (1 / α) v) (one.affine α) (two.affine α) = (ab v one two).map fun q => (q.1.map ((ρ : ℂ) * ·), q.2.map ((ρ : ℂ) * ·)) := by
  unfold ab
  dsimp only [OscSol.affine]
  rw [List.head?_map, List.head?_map]
  rcases one.sol.head? with _ | y1
  · rfl
  rcases one.dsol.head? with _ | dy1
  · rfl
  rcases two.sol.head? with _ | y2
  · rfl
  rcases two.dsol.head? with _ | dy2
  · rfl
  rcases v with _ | ⟨u, du⟩
  · rfl
  rcases y1 with _ | y1
  · rfl
  rcases dy1 with _ | dy1
  · rfl
  rcases y2 with _ | y2
  · rfl
  rcases dy2 with _ | dy2
  · rfl
  simp only [vacScaled, Option.map_some, Except.map]
  rw [coefficients_scaled hα]

theorem lincomb_scaled (ρ : ℂ) (a b x y : Option ℂ) : lincomb (a.map (ρ * ·)) (b.map (ρ * ·)) x y = (lincomb a b x y).map (ρ * ·) := by
  unfold lincomb
  rcases a with _ | a
  · rfl
  rcases b with _ | b
  · rfl
  rcases x with _ | x
  · rfl
  rcases y with _ | y
  · rfl
  simp only [Option.map_some, Option.bind_some, Option.some.injEq]
  ring

theorem power_scaled {n n' q ρ : ℝ} (h : n' * ρ ^ 2 = q * n) (u : ℂ) : power n' (ρ * u) = q * power n u := by
  unfold power
  rw [norm_mul, Complex.norm_real, mul_pow, norm_eq_abs, sq_abs]
  linear_combination ‖u‖ ^ 2 * h

theorem combine_scaled {α : ℝ} (hα : 0 < α) {ρ q : ℝ} {m m' : Mode} (h : m'.pps_norm * ρ ^ 2 = q * m.pps_norm) (v : Vacuum) (one two : OscSol) :
    combine m' (vacScaled ρ (1 / α) v) (one.affine α) (two.affine α) =
      (combine m v one two).map fun P => (P.1.map (q * ·), P.2.map (List.map (Option.map (q * ·)))) := by
  unfold combine
  rw [ab_scaled hα]
  cases ab v one two with
  | error e => rfl
  | ok z =>
  obtain ⟨a, b⟩ := z
  have key : ∀ x y : Option ℂ, (lincomb (a.map ((ρ : ℂ) * ·)) (b.map ((ρ : ℂ) * ·)) x y).map (power m'.pps_norm) =
      ((lincomb a b x y).map (power m.pps_norm)).map (q * ·) := by
    intro x y
    rw [lincomb_scaled, Option.map_map, Option.map_map]
    congr 1
    funext u
    exact power_scaled h u
  dsimp only [Except.map, OscSol.affine]
  congr 2
  · exact key _ _
  · cases one.x_eval with
    | none => rfl
    | some l1 =>
    cases two.x_eval with
    | none => rfl
    | some l2 =>
    simp only [Option.bind_some, Option.map_some, List.map_zipWith, Option.some.injEq]
    congr 1
    funext x y
    exact key x y

theorem combineAll_scaled {s c : ℝ} {i : Indep} (hs : 0 < s) {m m' : Mode} (hm : IsRescaledMode i s c m m') (p : Pt) (one two : OscSol)
    (vacs : List String) :
    combineAll m' (p.rescaled i s c) (one.affine (stretch i s)) (two.affine (stretch i s)) vacs = (combineAll m p one two vacs).map fun d =>
      (d.1.mapVal (Option.map (s ^ 2 * ·)), d.2.mapVal (Option.map (List.map (Option.map (s ^ 2 * ·))))) := by
  induction vacs with
  | nil => rfl
  | cons vac rest ih =>
    unfold combineAll
    rw [ih]
    cases hv : m.vacuum vac with
    | none => rw [hm.noVac vac hv]; rfl
    | some v =>
    obtain ⟨v', hv', hp⟩ := hm.vac vac v hv
    rw [hv']
    dsimp only
    rw [hp, combine_scaled (stretch_pos hs i) hm.norm]
    cases combine m (v p) one two with
    | error e => rfl
    | ok P =>
    obtain ⟨P, Pe⟩ := P
    dsimp only [Except.map]
    cases combineAll m p one two rest with
    | error e => rfl
    | ok d =>
    obtain ⟨d, de⟩ := d
    dsimp only
    rw [Dict.mapVal_set, Dict.mapVal_set]

theorem bindMap {α β γ δ ε : Type} (x : Except ε α) (f : α → β) (g : β → Except ε γ) (h : α → Except ε δ) (k : δ → γ)
    (e : ∀ a, g (f a) = (h a).map k) : (x.map f).bind g = (x.bind h).map k := by
  cases x with
  | error e => rfl
  | ok a => exact e a

theorem runs_rescaled {s c : ℝ} (hs : 0 < s) (b : Bg) {osc : Oscode} (hosc : Covariant osc) (hx : ∀ p ∈ b.pts, b.indep = .t → p.x ≠ 0)
    {m m' t t' : Mode} (hm : IsRescaledMode b.indep s c m m') (ht : IsRescaledMode b.indep s c t t') (kw kw' : OscKw)
    (hkw : kw'.num_eval = kw.num_eval) (beg stop : ℕ) (y : ℝ × ℝ × ℝ × ℝ) :
    runs osc (b.rescaled s c) kw' beg stop (y0Rescaled b.indep s y) m' t' =
      (runs osc b kw beg stop y m t).map (List.map fun r => r.affine (stretch b.indep s)) := by
  have hr : ∀ d, rateOf b.indep s * d = d / stretch b.indep s := by
    intro d; cases b.indep <;> simp [rateOf, stretch]; ring
  unfold runs y0Rescaled
  simp only [hr]
  rw [oscCall_rescaled hs b hosc hx hm kw kw' hkw, oscCall_rescaled hs b hosc hx hm kw kw' hkw, oscCall_rescaled hs b hosc hx ht kw kw' hkw,
    oscCall_rescaled hs b hosc hx ht kw kw' hkw]
  refine bindMap _ _ _ _ _ fun r0 => ?_
  refine bindMap _ _ _ _ _ fun r1 => ?_
  refine bindMap _ _ _ _ _ fun r2 => ?_
  refine bindMap _ _ _ _ _ fun r3 => ?_
  rfl

theorem pick_map (f : OscSol → OscSol) (l : List OscSol) (m i : ℕ) : pick (l.map f) m i = (pick l m i).map f := by
  unfold pick
  rw [List.getElem?_map]
  cases l[2 * m + i]? <;> rfl

/-- **C64.**  Any background of either formulation, any Hubble-rate factor `s > 0` and scale-factor factor `exp c` (in a curved
universe with `s exp c = 1`, the curvature radius fixes the scale factor), any wavenumber, vacua, factors and initial data, any
integrator that knows no preferred unit or origin of its independent variable: in the rescaled universe (potential `s² V`, all rates
`s` times as fast) the mode `s exp c k` has `s²` times the spectra of the mode `k` in the original one — final and dense output, scalar
and tensor, every vacuum — with the same NaNs and the same errors.  (Dropped closed large scales are excepted: they are set to
a constant.) -/
theorem C64_single {s c : ℝ} (hs : 0 < s) (b : Bg) (hK : b.K = 0 ∨ s * exp c = 1) {osc : Oscode} (hosc : Covariant osc)
    (hx : ∀ p ∈ b.pts, b.indep = .t → p.x ≠ 0) (kw : OscKw) (k : ℝ) (hdrop : ¬(k < 1 ∧ b.K = 1 ∧ kw.drop_closed_large_scales = true)) :
    solveOscode1 osc (b.rescaled s c) (s * exp c * k) { kw with y0 := some (y0Rescaled b.indep s (kw.y0.getD b.perturbation_ic)) } =
      (solveOscode1 osc b k kw).map fun r => r.scaled (s ^ 2) := by
  rw [single_eq, single_eq]
  unfold oneMode
  dsimp only [Option.getD_some]
  rw [idxBeg_rescaled hs, idxEnd_rescaled hs]
  cases idxEnd b (idxBeg b kw.fac_beg k) kw.fac_end k with
  | error e => rfl
  | ok stop =>
  rcases modes_rescaled (c := c) hs b k hK with ⟨h1, h2⟩ | ⟨m, t, m', t', h1, h2, hm, ht⟩
  · rw [h1, h2]; rfl
  rw [h1, h2]
  dsimp only
  rw [runs_rescaled hs b hosc hx hm ht kw { kw with y0 := some (y0Rescaled b.indep s (kw.y0.getD b.perturbation_ic)) } rfl]
  cases runs osc b kw (idxBeg b kw.fac_beg k) stop (kw.y0.getD b.perturbation_ic) m t with
  | error e => rfl
  | ok rs =>
  dsimp only [Except.map]
  rw [show (b.rescaled s c).pts = b.pts.map (Pt.rescaled b.indep s c) from rfl, List.getElem?_map]
  cases b.pts[idxBeg b kw.fac_beg k]? with
  | none => rfl
  | some p0 =>
  dsimp only [Option.map_some]
  simp only [pick_map]
  cases pick rs 0 0 with
  | error e => rfl
  | ok s1 =>
  cases pick rs 0 1 with
  | error e => rfl
  | ok s2 =>
  cases pick rs 1 0 with
  | error e => rfl
  | ok t1 =>
  cases pick rs 1 1 with
  | error e => rfl
  | ok t2 =>
  dsimp only [Except.map]
  rw [combineAll_scaled hs hm, combineAll_scaled hs ht]
  have hd : ¬(s * exp c * k < 1 ∧ (b.rescaled s c).K = 1 ∧ kw.drop_closed_large_scales = true) := by
    rintro ⟨g1, g2, g3⟩
    have g2' : b.K = 1 := g2
    rcases hK with h | h
    · rw [g2'] at h; norm_num at h
    · rw [h, one_mul] at g1; exact hdrop ⟨g1, g2', g3⟩
  simp only [if_neg hd, if_neg hdrop]
  cases combineAll m p0 s1 s2 kw.vacuum with
  | error e => rfl
  | ok P =>
  cases combineAll t p0 t1 t2 kw.vacuum with
  | error e => rfl
  | ok Q => rfl

/-- All spectra of an array of wavenumbers `m` times as large multiplied by `q`; the physical wavenumbers `k_iMpc` stay. -/
noncomputable def PPS.scaled (P : PPS) (m q : ℝ) : PPS where
  k := P.k.map (m * ·)
  k_iMpc := P.k_iMpc
  P_s := P.P_s.mapVal (List.map (Option.map (q * ·)))
  P_t := P.P_t.mapVal (List.map (Option.map (q * ·)))

theorem store_scaled (q : ℝ) (d : Dict (List (Option ℝ))) (i : ℕ) (src : Dict (Option ℝ)) (vac : String) :
    store (d.mapVal (List.map (Option.map (q * ·)))) i (src.mapVal (Option.map (q * ·))) vac =
      (store d i src vac).map (Dict.mapVal (List.map (Option.map (q * ·)))) := by
  unfold store
  rw [Dict.get?_mapVal, Dict.get?_mapVal]
  cases d.get? vac with
  | none => rfl
  | some arr =>
  cases src.get? vac with
  | none => rfl
  | some v =>
  dsimp only [Option.map_some, Except.map]
  rw [Dict.mapVal_set, List.map_set]

theorem storeAll_scaled (m q : ℝ) (i : ℕ) (r : ModeSpectra) (vacs : List String) (P : PPS) :
    storeAll i (r.scaled q) vacs (P.scaled m q) = (storeAll i r vacs P).map fun P => P.scaled m q := by
  induction vacs generalizing P with
  | nil => rfl
  | cons vac rest ih =>
    unfold storeAll
    dsimp only [ModeSpectra.scaled, PPS.scaled]
    rw [store_scaled, store_scaled]
    cases store P.P_s i r.P_s vac with
    | error e => rfl
    | ok a =>
    cases store P.P_t i r.P_t vac with
    | error e => rfl
    | ok b =>
    exact ih { P with P_s := a, P_t := b }

theorem init_scaled {s c : ℝ} (hs : 0 < s) (b : Bg) (q : ℝ) (ks : List ℝ) (vacs : List String) :
    PPS.init (b.rescaled s c) (ks.map (s * exp c * ·)) vacs = (PPS.init b ks vacs).scaled (s * exp c) q := by
  have hd : ∀ d : Dict (List (Option ℝ)), vacs.foldl (fun d vac => d.set vac ((ks.map (s * exp c * ·)).map fun _ => none)) (d.mapVal (List.map (Option.map (q * ·)))) =
      (vacs.foldl (fun d vac => d.set vac (ks.map fun _ => none)) d).mapVal (List.map (Option.map (q * ·))) := by
    intro d
    induction vacs generalizing d with
    | nil => rfl
    | cons v vs ih =>
      rw [List.foldl_cons, List.foldl_cons, ← ih, Dict.mapVal_set]
      congr 2
      rw [List.map_map, List.map_map]
      rfl
  have := hd []
  unfold PPS.init PPS.scaled
  dsimp only
  rw [← this]
  congr 1
  dsimp only [Bg.rescaled]
  rw [List.map_map]
  apply List.map_congr_left
  intro k _
  simp only [Function.comp]
  rw [exp_add, exp_add, exp_log hs, show s * exp c * k * SI.K_STAR = s * exp c * (k * SI.K_STAR) by ring,
    show exp b.logaH_star * (s * exp c) = s * exp c * exp b.logaH_star by ring, mul_div_mul_left _ _ (m_pos hs).ne']

/-- **C64, arrays of wavenumbers.**  `solve_oscode` with all wavenumbers `s exp c` times as large, in the rescaled universe: the same
physical wavenumbers `k_iMpc`, `s²` times the spectra. -/
theorem C64_array {s c : ℝ} (hs : 0 < s) (b : Bg) (hK : b.K = 0 ∨ s * exp c = 1) {osc : Oscode} (hosc : Covariant osc)
    (hx : ∀ p ∈ b.pts, b.indep = .t → p.x ≠ 0) (kw : OscKw) (ks : List ℝ)
    (hdrop : ∀ k ∈ ks, ¬(k < 1 ∧ b.K = 1 ∧ kw.drop_closed_large_scales = true)) :
    solveOscode osc (b.rescaled s c) (ks.map (s * exp c * ·)) { kw with y0 := some (y0Rescaled b.indep s (kw.y0.getD b.perturbation_ic)) } =
      (solveOscode osc b ks kw).map fun P => P.scaled (s * exp c) (s ^ 2) := by
  unfold solveOscode
  dsimp only
  rw [init_scaled hs b (s ^ 2)]
  generalize PPS.init b ks kw.vacuum = P
  generalize 0 = i
  induction ks generalizing P i with
  | nil => rfl
  | cons k ks ih =>
    rw [List.map_cons]
    unfold loop
    have := C64_single hs b hK hosc hx kw k (hdrop k (by simp))
    rw [single_eq, single_eq] at this
    rw [this]
    cases oneMode osc b kw k with
    | error e => rfl
    | ok r =>
    dsimp only [Except.map]
    rw [storeAll_scaled]
    cases storeAll i r kw.vacuum P with
    | error e => rfl
    | ok P' => exact ih (fun k' hk' => hdrop k' (by simp [hk'])) P' (i + 1)

/-- **C64, e-folds.**  With e-folds as independent variable the initial data need no change: same call. -/
theorem C64_efolds {s c : ℝ} (hs : 0 < s) (b : Bg) (hi : b.indep = .N) (hK : b.K = 0 ∨ s * exp c = 1) {osc : Oscode} (hosc : Covariant osc)
    (kw : OscKw) (ks : List ℝ) (hdrop : ∀ k ∈ ks, ¬(k < 1 ∧ b.K = 1 ∧ kw.drop_closed_large_scales = true)) :
    solveOscode osc (b.rescaled s c) (ks.map (s * exp c * ·)) kw = (solveOscode osc b ks kw).map fun P => P.scaled (s * exp c) (s ^ 2) := by
  rw [← C64_array hs b hK hosc (fun p _ h => by rw [hi] at h; cases h) kw ks hdrop]
  have e : y0Rescaled b.indep s (kw.y0.getD b.perturbation_ic) = kw.y0.getD b.perturbation_ic := by
    rw [hi]; simp [y0Rescaled, rateOf]
  rw [e]
  have key : ∀ k, oneMode osc (b.rescaled s c) { kw with y0 := some (kw.y0.getD b.perturbation_ic) } k = oneMode osc (b.rescaled s c) kw k := by
    intro k
    unfold oneMode
    rfl
  unfold solveOscode
  dsimp only
  generalize PPS.init (b.rescaled s c) (ks.map (s * exp c * ·)) kw.vacuum = P
  generalize 0 = i
  generalize ks.map (s * exp c * ·) = l
  induction l generalizing P i with
  | nil => rfl
  | cons k l ih =>
    unfold loop
    rw [key]
    cases oneMode osc (b.rescaled s c) kw k with
    | error e => rfl
    | ok r =>
    dsimp only
    cases storeAll i r kw.vacuum P with
    | error e => rfl
    | ok P' => exact ih P' (i + 1)

/-- **C64, cosmic time.**  With cosmic time as independent variable the fixed initial data `y0` of the code are not the rescaled ones; if
the modes are frozen over the last five steps (C48) the result is the same nevertheless: same call, `s²` times the spectra. -/
theorem C64_time {s c : ℝ} (hs : 0 < s) (b : Bg) (hi : b.indep = .t) (hK : b.K = 0 ∨ s * exp c = 1) {osc : Oscode} (hosc : Covariant osc)
    (hx : ∀ p ∈ b.pts, p.x ≠ 0) (kw : OscKw) (ks : List ℝ) (y : ℝ × ℝ × ℝ × ℝ) (hy : y.1 * y.2.2.2 - y.2.1 * y.2.2.1 ≠ 0)
    (hF : ∀ k ∈ ks, AllFrozen osc (b.rescaled s c) kw (s * exp c * k))
    (hdrop : ∀ k ∈ ks, ¬(k < 1 ∧ b.K = 1 ∧ kw.drop_closed_large_scales = true)) :
    solveOscode osc (b.rescaled s c) (ks.map (s * exp c * ·)) { kw with y0 := some y } =
      (solveOscode osc b ks { kw with y0 := some y }).map fun P => P.scaled (s * exp c) (s ^ 2) := by
  have h1 := C64_array hs b hK hosc (fun p hp _ => hx p hp) { kw with y0 := some y } ks hdrop
  rw [← h1]
  refine C48_array (fun k hk => ?_) _ _ hy ?_
  · obtain ⟨k', hk', rfl⟩ := List.mem_map.mp hk
    exact hF k' hk'
  · rw [hi]
    simp only [y0Rescaled, rateOf, Option.getD_some]
    rw [show y.1 * (s * y.2.2.2) - s * y.2.1 * y.2.2.1 = s * (y.1 * y.2.2.2 - y.2.1 * y.2.2.1) by ring]
    exact mul_ne_zero hs.ne' hy

/-- The demonstration integrator is covariant. -/
theorem demo_covariant : Covariant demoOsc := by
  intro A α β hα
  unfold demoOsc
  simp only [OscArgs.affine, OscSol.affine, Except.map, List.map_cons, List.map_nil, Option.map_some, Option.map_map]
  congr 2
  · push_cast; rfl
  · congr 1
    funext l
    simp

/-- Twice the Hubble rate, the same scale factor: twice the wavenumber in the demonstration universe, four times the spectra. -/
example : ∃ r, solveOscode1 demoOsc (demoBg 0) 1 {} = .ok r ∧
    solveOscode1 demoOsc ((demoBg 0).rescaled 2 0) 2 { y0 := some (1, 0, 0, 1) } = .ok (r.scaled 4) := by
  have h := C64_single (s := 2) (c := 0) (by norm_num) (demoBg 0) (.inl rfl) demo_covariant (fun p _ h => by cases h) {} 1 (by simp)
  have e : solveOscode1 demoOsc (demoBg 0) 1 {} = solveOscode1 demoOsc (demoBg 0) 1 {} := rfl
  cases hr : solveOscode1 demoOsc (demoBg 0) 1 {} with
  | error err =>
    exfalso
    rw [single_eq] at hr
    unfold oneMode at hr
    simp only [idxBeg, if_true] at hr
    rw [demo_idxEnd 0 1 (by norm_num) (by norm_num)] at hr
    cases hr
  | ok r =>
    rw [hr] at h
    norm_num [y0Rescaled, rateOf, demoBg, Except.map] at h
    exact ⟨r, rfl, by simpa [demoBg] using h⟩

/-- Cosmic time, default initial data: the hypotheses of `C64_time` are met by any (frozen) demonstration background. -/
example (ks : List ℝ) : solveOscode demoOsc (Bg.rescaled ⟨.t, 0, (demoBg 0).pot, [⟨1, 0, 0, 1, 1, 0, 0⟩, ⟨100, 20, 0, 1, 1, 0, 20⟩], 0, (1, 0, 0, 1)⟩ 3 5)
      (ks.map (3 * exp 5 * ·)) { y0 := some (1, 0, 0, 1) } =
    (solveOscode demoOsc ⟨.t, 0, (demoBg 0).pot, [⟨1, 0, 0, 1, 1, 0, 0⟩, ⟨100, 20, 0, 1, 1, 0, 20⟩], 0, (1, 0, 0, 1)⟩ ks
      { y0 := some (1, 0, 0, 1) }).map fun P => P.scaled (3 * exp 5) (3 ^ 2) :=
  C64_time (by norm_num) _ rfl (.inl rfl) demo_covariant (by simp) {} ks (1, 0, 0, 1) (by norm_num)
    (fun _ _ _ _ _ _ _ _ _ _ _ _ _ => ⟨⟨_, _, _, _, demo_frozen _⟩, _, _, _, _, demo_frozen _⟩) (fun k _ => by simp)

end Pert
end Primpy
