import Verif.Model.PertSol
import Verif.Props.C19
import Verif.Props.C38
import Verif.Props.C50
import Verif.Props.C52
import Verif.Props.C53
import Verif.Props.C88
import Verif.Props.C94

/-!
# C95: the numerical spectra of an integrated and calibrated background belong to the trajectory

`solve(…)`, then `calibrate_scale_factor(…)`, then `solve_oscode(b, ks, …)`: which equations are integrated on which grid, in terms of the trajectory alone; and on slow-roll trajectories the
numerical spectra agree with what `P_s_approx`, `P_t_approx` of the same object return.
-/

namespace Primpy
open Real Set Spec Bunch Approx Pert

/-! ## Specification -/

/-- the formulation of the perturbation equations that belongs to the background equations -/
def Eqs.indep : Eqs → Indep
  | .T _ => .t
  | .N _ => .N
  | .other _ _ => .other
/-- the grid point of a trajectory at `x` -/
noncomputable def Eqs.point (E : Eqs) (Y : ℝ → ℕ → ℝ) (x : ℝ) : Pt :=
  ⟨x, E.efolds Y x, Y x 0, Y x 1, E.hubble Y x, -E.K / E.aH Y x ^ 2, log (E.aH Y x)⟩
/-- conformal time per unit of the independent variable -/
noncomputable def Eqs.conformal (E : Eqs) (Y : ℝ → ℕ → ℝ) (x : ℝ) : ℝ := E.rate Y x / E.aH Y x
/-- the field velocity per e-fold -/
noncomputable def Eqs.perEfold (E : Eqs) (Y : ℝ → ℕ → ℝ) (x : ℝ) : ℝ := E.velocity Y x / E.hubble Y x
/-- the factor `q²/(κ² + K q²/2)` in the action of the curvature perturbation, `q = dφ/dN` -/
noncomputable def Eqs.scalarFactor (E : Eqs) (Y : ℝ → ℕ → ℝ) (k x : ℝ) : ℝ :=
  E.perEfold Y x ^ 2 / (k ^ 2 + k * E.K * (E.K + 1) - 3 * E.K + E.K * E.perEfold Y x ^ 2 / 2)

/-- `ω² = ω2` and `γ` are the coefficients at `x` of the equation `h'' + 2γ h' + ω² h = 0` of a gravitational wave, i.e. of `(M h')' + M ω² h = 0` with the weight
`M = a³ dx/dt`: `ω = κ dη/dx` with the eigenvalue `κ² = k² + kK(K+1) + 2K` of the Laplacian, and `2γ = d ln M/dx`. -/
def TensorEquation (E : Eqs) (Y : ℝ → ℕ → ℝ) (k x ω2 γ : ℝ) : Prop :=
  ω2 = (k ^ 2 + k * E.K * (E.K + 1) + 2 * E.K) * E.conformal Y x ^ 2 ∧ HasDerivAt (fun x => log (exp (E.efolds Y x) ^ 3 * (E.hubble Y x / E.rate Y x))) (2 * γ) x

/-- The same for the curvature perturbation: with the eigenvalue `κ² = k² + kK(K+1) - 3K`, the weight is `M = a³ (dx/dt) Z` with `Z = q²/(κ² + K q²/2)`, `q = dφ/dN`, and
`ω² = (κ² - K (1 + d ln Z/dN)) (dη/dx)²`. -/
def ScalarEquation (E : Eqs) (Y : ℝ → ℕ → ℝ) (k x ω2 γ : ℝ) : Prop :=
  ∃ e, HasDerivAt (fun x => log (E.scalarFactor Y k x)) (E.rate Y x * e) x ∧
    ω2 = (k ^ 2 + k * E.K * (E.K + 1) - 3 * E.K - E.K * (1 + e)) * E.conformal Y x ^ 2 ∧
    HasDerivAt (fun x => log (exp (E.efolds Y x) ^ 3 * (E.hubble Y x / E.rate Y x) * E.scalarFactor Y k x)) (2 * γ) x

/-- The arrays handed to the integrator: at the grid points number `beg` to `stop` the abscissa, `γ`, and a root of `ω²` (non-negative, or on the positive imaginary axis), where
`eq x ω² γ`. -/
def HandedOver (t : List ℝ) (beg stop : ℕ) (eq : ℝ → ℝ → ℝ → Prop) (A : OscArgs) : Prop :=
  ∀ i, i ≤ stop - beg → ∃ x ω2 γ w, t[beg + i]? = some x ∧ A.ts[i]? = some x ∧ A.w[i]? = some w ∧ A.g[i]? = some γ ∧
    w ^ 2 = ((ω2 : ℝ) : ℂ) ∧ (0 ≤ w.re ∧ w.im = 0 ∨ w.re = 0 ∧ 0 < w.im) ∧ eq x ω2 γ

/-- The numerical run for the wavenumber `k` is accurate to `δ`: it starts with the two unit vectors, at a grid point at which the mode is inside the horizon by the factor `1/δ`; the grid points
it uses lie in `S'`; and the integrations are exact (`ExactRun`, C82) and end after the mode has left the horizon by the factor `1/δ`. -/
structure ExactNumerics (δ : ℝ) (E : Eqs) (Y : ℝ → ℕ → ℝ) (S' : Set ℝ) (t : List ℝ) (osc : Oscode) (b : Bg) (kw : OscKw) (k : ℝ) : Prop where
  pos : 0 < k
  ic : kw.y0.getD (1, 0, 0, 1) = (1, 0, 0, 1)
  grid : ∀ stop, idxEnd b (idxBeg b kw.fac_beg k) kw.fac_end k = .ok stop → ∀ (i : ℕ) x, idxBeg b kw.fac_beg k ≤ i → i ≤ max (idxBeg b kw.fac_beg k) stop → t[i]? = some x → x ∈ S'
  inside : ∀ x, t[idxBeg b kw.fac_beg k]? = some x → E.aH Y x ≤ δ * k
  exact : ∀ s t, modes b k = some (s, t) → ∀ m ∈ [s, t], ExactRun osc b kw k m (E.point Y) S' {x ∈ S' | k ≤ δ * E.aH Y x}

namespace C95

section
variable {E : Eqs} {D S : Set ℝ} {Y : ℝ → ℕ → ℝ}

theorem hubble_pos (hT : E.Trajectory D S Y) {x : ℝ} (hx : x ∈ S) : 0 < E.hubble Y x := sqrt_pos.2 (C92.H2_pos hT x hx)

/-- the background equations, for both formulations at once -/
theorem jet (hS : IsOpen S) (hT : E.Trajectory D S Y) (hV : IsDerivOn D E.pot.V E.pot.dV) {x : ℝ} (hx : x ∈ S) :
    HasDerivAt (E.efolds Y) (E.rate Y x) x ∧
    HasDerivAt (E.hubble Y) (-(E.rate Y x * E.hubble Y x * (E.perEfold Y x ^ 2 / 2 - E.K / E.aH Y x ^ 2))) x ∧
    HasDerivAt (E.perEfold Y) (E.rate Y x * ((E.perEfold Y x ^ 2 / 2 - E.K / E.aH Y x ^ 2 - 3) * E.perEfold Y x - E.pot.dV (Y x 0) / E.hubble Y x ^ 2)) x := by
  have hH := hubble_pos hT hx
  cases E with
  | other K p => exact absurd hT (by simp [Eqs.Trajectory])
  | T e =>
    have u := InflT.universe hT.1 hT.2.1
    have dH := u.dH hS hV hT.2.2 x hx
    have dp := u.kleinGordon x hx
    have hH : 0 < e.H (Y x) := hH
    have hexp : exp (-2 * InflT._N (Y x)) = (exp (InflT._N (Y x)) ^ 2)⁻¹ := by rw [exp_two_mul_inv, inv_inv]
    refine ⟨u.hubble x hx, ?_, ?_⟩
    · refine hderiv (f := fun x => e.H (Y x)) dH ?_
      show -(e.H (Y x) * e.H (Y x) * ((InflT.dphidt (Y x) / e.H (Y x)) ^ 2 / 2 - e.K / (exp (InflT._N (Y x)) * e.H (Y x)) ^ 2)) = _
      dsimp only
      rw [hexp]
      field_simp
      ring
    · refine hderiv (f := fun x => InflT.dphidt (Y x) / e.H (Y x)) (dp.fun_div dH hH.ne') ?_
      show e.H (Y x) * (((InflT.dphidt (Y x) / e.H (Y x)) ^ 2 / 2 - e.K / (exp (InflT._N (Y x)) * e.H (Y x)) ^ 2 - 3) * (InflT.dphidt (Y x) / e.H (Y x))
        - e.pot.dV (InflT.phi (Y x)) / e.H (Y x) ^ 2) = _
      dsimp only
      rw [hexp]
      field_simp
      ring
  | N e =>
    have dH := InflN.hasDerivAt_H hS hT.1 hT.2.1 hV hT.2.2 x hx
    have r : 2 ≤ e.rows := by rw [InflN.rows_eq]; omega
    have dq := hderiv (hT.1 x hx 1 (by omega)) (InflN.call1 e x (Y x)).symm
    have hH : 0 < e.H x (Y x) := hH
    have hexp : exp (-2 * x) = (exp x ^ 2)⁻¹ := by rw [exp_two_mul_inv, inv_inv]
    have q0 : Eqs.perEfold (.N e) Y x = Y x 1 := by
      show e.H x (Y x) * Y x 1 / e.H x (Y x) = _
      field_simp
    have q1 : Eqs.perEfold (.N e) Y =ᶠ[nhds x] fun z => Y z 1 := by
      filter_upwards [hS.mem_nhds hx] with z hz
      have : 0 < e.H z (Y z) := sqrt_pos.2 (hT.2.1 z hz)
      show e.H z (Y z) * Y z 1 / e.H z (Y z) = _
      field_simp
    refine ⟨hasDerivAt_id x, ?_, ?_⟩
    · refine hderiv (f := fun x => e.H x (Y x)) dH ?_
      rw [q0]
      show -(1 * e.H x (Y x) * (Y x 1 ^ 2 / 2 - e.K / (exp x * e.H x (Y x)) ^ 2)) = _
      simp only [N.get_dH, InflN.dphidN]
      rw [hexp]
      field_simp
      ring
    · refine (hderiv dq ?_).congr_of_eventuallyEq q1
      rw [q0]
      show 1 * ((Y x 1 ^ 2 / 2 - e.K / (exp x * e.H x (Y x)) ^ 2 - 3) * Y x 1 - e.pot.dV (Y x 0) / e.H x (Y x) ^ 2) = _
      simp only [N.get_d2phi, N.get_dH_H, InflN.dphidN, InflN.dVdphi, InflN.phi, ← InflN.H_sq (hT.2.1 x hx)]
      rw [hexp]
      field_simp
      ring

/-- `a³ dx/dt` -/
theorem tensor_weight (hS : IsOpen S) (hT : E.Trajectory D S Y) (hV : IsDerivOn D E.pot.V E.pot.dV) {x : ℝ} (hx : x ∈ S) :
    HasDerivAt (fun x => log (exp (E.efolds Y x) ^ 3 * (E.hubble Y x / E.rate Y x)))
      (match E with | .T _ => 3 * E.rate Y x | _ => 3 - (E.perEfold Y x ^ 2 / 2 - E.K / E.aH Y x ^ 2)) x := by
  obtain ⟨dN, dH, -⟩ := jet hS hT hV hx
  have hH := hubble_pos hT hx
  have ev : (fun x => log (exp (E.efolds Y x) ^ 3 * (E.hubble Y x / E.rate Y x))) =ᶠ[nhds x] fun x => 3 * E.efolds Y x + log (E.hubble Y x / E.rate Y x) := by
    filter_upwards [hS.mem_nhds hx] with z hz
    rw [log_mul (by positivity) (div_pos (hubble_pos hT hz) (C94.rate_pos hT hz)).ne', log_pow, log_exp]
    push_cast
    ring
  refine HasDerivAt.congr_of_eventuallyEq ?_ ev
  cases E with
  | other K p => exact absurd hT (by simp [Eqs.Trajectory])
  | T e =>
    have ev2 : (fun x => 3 * (Eqs.T e).efolds Y x + log ((Eqs.T e).hubble Y x / (Eqs.T e).rate Y x)) =ᶠ[nhds x] fun x => 3 * (Eqs.T e).efolds Y x := by
      filter_upwards [hS.mem_nhds hx] with z hz
      have h : (Eqs.T e).rate Y z = (Eqs.T e).hubble Y z := rfl
      rw [h, div_self (hubble_pos hT hz).ne', log_one, add_zero]
    exact (dN.const_mul 3).congr_of_eventuallyEq ev2
  | N e =>
    have dH' : HasDerivAt (fun x => (Eqs.N e).hubble Y x / 1) _ x := dH.div_const 1
    refine hderiv (f := fun x => 3 * (Eqs.N e).efolds Y x + log ((Eqs.N e).hubble Y x / 1)) ((dN.const_mul 3).fun_add (dH'.log (by simpa using hH.ne'))) ?_
    have h : (Eqs.N e).rate Y x = 1 := rfl
    rw [h]
    dsimp only
    field_simp
    ring

/-- the logarithm of the factor in the action of the curvature perturbation -/
theorem scalar_factor (hS : IsOpen S) (hT : E.Trajectory D S Y) (hV : IsDerivOn D E.pot.V E.pot.dV) {k x : ℝ} (hx : x ∈ S) (hq : E.perEfold Y x ≠ 0)
    (hd : k ^ 2 + k * E.K * (E.K + 1) - 3 * E.K + E.K * E.perEfold Y x ^ 2 / 2 ≠ 0) :
    (∀ᶠ z in nhds x, E.scalarFactor Y k z ≠ 0) ∧
    HasDerivAt (fun x => log (E.scalarFactor Y k x)) (E.rate Y x * (2 * kappa2 k E.K / (kappa2 k E.K + E.K * E.perEfold Y x ^ 2 / 2) *
      (E.perEfold Y x ^ 2 / 2 - E.K / E.aH Y x ^ 2 - 3 - E.pot.dV (Y x 0) / (E.hubble Y x ^ 2 * E.perEfold Y x)))) x := by
  obtain ⟨-, -, dq⟩ := jet hS hT hV hx
  have hH := hubble_pos hT hx
  have dd := ((dq.fun_pow 2).const_mul E.K).div_const 2
  have dd := dd.const_add (k ^ 2 + k * E.K * (E.K + 1) - 3 * E.K)
  have dZ : HasDerivAt (fun x => E.scalarFactor Y k x) _ x := (dq.fun_pow 2).fun_div dd hd
  have hZ : E.scalarFactor Y k x ≠ 0 := div_ne_zero (pow_ne_zero 2 hq) hd
  refine ⟨dZ.continuousAt.eventually_ne hZ, hderiv (dZ.log hZ) ?_⟩
  have hd' : kappa2 k E.K + E.K * E.perEfold Y x ^ 2 / 2 ≠ 0 := hd
  have e : E.scalarFactor Y k x = E.perEfold Y x ^ 2 / (kappa2 k E.K + E.K * E.perEfold Y x ^ 2 / 2) := rfl
  have e2 : k ^ 2 + k * E.K * (E.K + 1) - 3 * E.K = kappa2 k E.K := rfl
  rw [e, e2]
  generalize E.perEfold Y x = q at *
  generalize kappa2 k E.K = κ2 at *
  generalize E.K / E.aH Y x ^ 2 = Ω at *
  generalize E.pot.dV (Y x 0) = W at *
  generalize E.hubble Y x = H at *
  generalize E.rate Y x = R at *
  obtain ⟨m, hm⟩ : ∃ m, m = κ2 + E.K * q ^ 2 / 2 := ⟨_, rfl⟩
  rw [← hm] at hd' ⊢
  have hκ : κ2 = m - E.K * q ^ 2 / 2 := by rw [hm]; ring
  rw [hκ]
  field_simp
  ring

end

/-- the coefficients the code computes at a point of the trajectory -/
theorem equations {E : Eqs} {D S : Set ℝ} {Y : ℝ → ℕ → ℝ} (hS : IsOpen S) (hT : E.Trajectory D S Y) (hV : IsDerivOn D E.pot.V E.pot.dV) {b : Bg} (hi : b.indep = E.indep) (hK : b.K = E.K)
    (hpot : b.pot = E.pot) {k : ℝ} {s t : Mode} (hm : modes b k = some (s, t)) {x : ℝ} (hx : x ∈ S) :
    TensorEquation E Y k x (t.frequency2 (E.point Y x)) (t.damping (E.point Y x)) ∧
    (E.perEfold Y x ≠ 0 → k ^ 2 + k * E.K * (E.K + 1) - 3 * E.K + E.K * E.perEfold Y x ^ 2 / 2 ≠ 0 →
      ScalarEquation E Y k x (s.frequency2 (E.point Y x)) (s.damping (E.point Y x))) := by
  have tw := tensor_weight hS hT hV hx
  have hH := hubble_pos hT hx
  have hR := C94.rate_pos hT hx
  have haH : E.aH Y x = exp (E.efolds Y x) * E.hubble Y x := rfl
  have hexp : exp (-2 * E.efolds Y x) = (exp (E.efolds Y x) ^ 2)⁻¹ := by rw [exp_two_mul_inv, inv_inv]
  have hexp' : exp (2 * E.efolds Y x) = exp (E.efolds Y x) ^ 2 := by rw [← exp_nat_mul]; push_cast; rfl
  have ha := exp_pos (E.efolds Y x)
  have sum : ∀ {d1 d2 : ℝ}, (∀ᶠ z in nhds x, E.scalarFactor Y k z ≠ 0) → HasDerivAt (fun x => log (exp (E.efolds Y x) ^ 3 * (E.hubble Y x / E.rate Y x))) d1 x →
      HasDerivAt (fun x => log (E.scalarFactor Y k x)) d2 x →
      HasDerivAt (fun x => log (exp (E.efolds Y x) ^ 3 * (E.hubble Y x / E.rate Y x) * E.scalarFactor Y k x)) (d1 + d2) x := fun hz h1 h2 => by
    refine (h1.fun_add h2).congr_of_eventuallyEq ?_
    filter_upwards [hz, hS.mem_nhds hx] with z hz hzS
    have : 0 < E.hubble Y z / E.rate Y z := div_pos (hubble_pos hT hzS) (C94.rate_pos hT hzS)
    rw [log_mul (by positivity) hz]
  cases E with
  | other K p => exact absurd hT (by simp [Eqs.Trajectory])
  | T e =>
    have hr : (Eqs.T e).rate Y x = (Eqs.T e).hubble Y x := rfl
    have hv : Y x 1 = (Eqs.T e).perEfold Y x * (Eqs.T e).hubble Y x := by
      show Y x 1 = Y x 1 / (Eqs.T e).hubble Y x * (Eqs.T e).hubble Y x
      field_simp
    unfold modes at hm
    rw [hi, hK, hpot] at hm
    simp only [Eqs.indep] at hm
    cases hm
    refine ⟨⟨?_, hderiv tw ?_⟩, fun hq hd => ?_⟩
    · simp only [TensorT.frequency2, Eqs.point, Eqs.conformal]
      rw [hexp, hr, haH]
      field_simp
    · simp only [TensorT.damping, Eqs.point, hr]
      ring
    · obtain ⟨hz, sf⟩ := scalar_factor hS hT hV hx hq hd
      have hd' : kappa2 k (Eqs.T e).K + (Eqs.T e).K * (Eqs.T e).perEfold Y x ^ 2 / 2 ≠ 0 := hd
      have esh : ScalarT.shared (Eqs.T e).K k ((Eqs.T e).point Y x) = 2 * kappa2 k (Eqs.T e).K / (kappa2 k (Eqs.T e).K + (Eqs.T e).K * (Eqs.T e).perEfold Y x ^ 2 / 2) := by
        simp only [ScalarT.shared, Eqs.point, hv]
        congr 2
        field_simp
      have ete : ScalarT.terms (Eqs.T e).pot (Eqs.T e).K ((Eqs.T e).point Y x) = (Eqs.T e).perEfold Y x ^ 2 / 2 - (Eqs.T e).K / (Eqs.T e).aH Y x ^ 2 - 3 -
          (Eqs.T e).pot.dV (Y x 0) / ((Eqs.T e).hubble Y x ^ 2 * (Eqs.T e).perEfold Y x) := by
        simp only [ScalarT.terms, Eqs.point, hv]
        rw [hexp, haH]
        field_simp
        ring
      refine ⟨_, sf, ?_, hderiv (sum hz tw sf) ?_⟩
      · simp only [ScalarT.frequency2]
        rw [esh, ete]
        simp only [Eqs.point, Eqs.conformal]
        rw [hexp, hr, haH]
        have e2 : k ^ 2 + k * (Eqs.T e).K * ((Eqs.T e).K + 1) - 3 * (Eqs.T e).K = kappa2 k (Eqs.T e).K := rfl
        rw [e2]
        field_simp
      · simp only [ScalarT.damping]
        rw [esh, ete]
        simp only [Eqs.point, hr]
        ring
  | N e =>
    have hr : (Eqs.N e).rate Y x = 1 := rfl
    have hv : Y x 1 = (Eqs.N e).perEfold Y x := by
      show Y x 1 = (Eqs.N e).hubble Y x * Y x 1 / (Eqs.N e).hubble Y x
      field_simp
    unfold modes at hm
    rw [hi, hK, hpot] at hm
    simp only [Eqs.indep] at hm
    cases hm
    refine ⟨⟨?_, hderiv tw ?_⟩, fun hq hd => ?_⟩
    · simp only [TensorN.frequency2, Eqs.point, Eqs.conformal]
      rw [hexp, hr, haH]
      field_simp
    · simp only [TensorN.damping, Eqs.point, hv]
      rw [hexp, haH]
      field_simp
      ring
    · obtain ⟨hz, sf⟩ := scalar_factor hS hT hV hx hq hd
      have hd' : kappa2 k (Eqs.N e).K + (Eqs.N e).K * (Eqs.N e).perEfold Y x ^ 2 / 2 ≠ 0 := hd
      have exi : ScalarN.xi ((Eqs.N e).point Y x) = (Eqs.N e).perEfold Y x ^ 2 / 2 - (Eqs.N e).K / (Eqs.N e).aH Y x ^ 2 - 3 := by
        simp only [ScalarN.xi, Eqs.point, hv]
        ring
      have eda : ScalarN.damping2 (Eqs.N e).pot (Eqs.N e).K k ((Eqs.N e).point Y x) = 2 * kappa2 k (Eqs.N e).K / (kappa2 k (Eqs.N e).K + (Eqs.N e).K * (Eqs.N e).perEfold Y x ^ 2 / 2) *
          ((Eqs.N e).perEfold Y x ^ 2 / 2 - (Eqs.N e).K / (Eqs.N e).aH Y x ^ 2 - 3 - (Eqs.N e).pot.dV (Y x 0) / ((Eqs.N e).hubble Y x ^ 2 * (Eqs.N e).perEfold Y x)) -
          ((Eqs.N e).perEfold Y x ^ 2 / 2 - (Eqs.N e).K / (Eqs.N e).aH Y x ^ 2 - 3) := by
        simp only [ScalarN.damping2]
        rw [exi]
        simp only [Eqs.point, hv, mul_div_assoc]
      refine ⟨_, sf, ?_, hderiv (sum hz tw sf) ?_⟩
      · simp only [ScalarN.frequency2]
        rw [eda, exi]
        simp only [Eqs.point, Eqs.conformal]
        rw [hexp', hr, haH]
        have e2 : k ^ 2 + k * (Eqs.N e).K * ((Eqs.N e).K + 1) - 3 * (Eqs.N e).K = kappa2 k (Eqs.N e).K := rfl
        rw [e2]
        generalize 2 * kappa2 k (Eqs.N e).K / (kappa2 k (Eqs.N e).K + (Eqs.N e).K * (Eqs.N e).perEfold Y x ^ 2 / 2) *
          ((Eqs.N e).perEfold Y x ^ 2 / 2 - (Eqs.N e).K / (exp ((Eqs.N e).efolds Y x) * (Eqs.N e).hubble Y x) ^ 2 - 3 -
            (Eqs.N e).pot.dV (Y x 0) / ((Eqs.N e).hubble Y x ^ 2 * (Eqs.N e).perEfold Y x)) = X
        field_simp
        ring
      · simp only [ScalarN.damping]
        rw [eda, hr]
        ring

/-- the scale that `calibrate_scale_factor` sets -/
theorem pivot {u : SI} {cs st : CalState} {a : CalArgs} (hK : cs.K = 0 ∨ cs.K = 1 ∨ cs.K = -1) (hok : Cal.calibrate u cs a = .ok st) :
    ∃ c, st.cal = some c ∧ 0 < c.a0_Mpc ∧ exp c.logaH_star = SI.K_STAR * c.a0_Mpc := by
  obtain ⟨c, hc, hpos, -⟩ := C38_k u cs st a hK hok
  refine ⟨c, hc, hpos, ?_⟩
  have hKS : 0 < SI.K_STAR := by unfold SI.K_STAR; norm_num
  by_cases h0 : cs.K = 0
  · obtain ⟨p, hp, rfl⟩ := Cal.calibrate_flat h0 hok
    obtain ⟨-, ns, nc, ls, δ, nr, I, st, hs, rfl⟩ := Cal.flat_ok hp
    cases hc
    show exp ls = SI.K_STAR * (exp ls / SI.K_STAR)
    field_simp
  · obtain ⟨p, hp, rfl⟩ := Cal.calibrate_curved h0 hok
    obtain ⟨-, h, Ω, aM, a0, N0, nr, st, I, nc, -, -, -, hI, -, -, -, rfl⟩ := Cal.curved_ok hp
    cases hc
    have hpos : 0 < aM := hpos
    show exp (log (SI.K_STAR * aM)) = SI.K_STAR * aM
    rw [exp_log (by positivity)]

theorem indepOf_xname {E : Eqs} (hE : E.Shipped) : indepOf (some (.str E.xname)) = some E.indep := by
  cases E with
  | other K p => exact absurd rfl (hE K p)
  | T e => rfl
  | N e => rfl

theorem points {t : List ℝ} {g : ℝ → Pt} {f1 f2 f3 f4 f5 f6 : ℝ → ℝ} (h : ∀ x, g x = ⟨x, f1 x, f2 x, f3 x, f4 x, f5 x, f6 x⟩) :
    ((List.range t.length).map fun i => (⟨t.getD i 0, (t.map f1).getD i 0, (t.map f2).getD i 0, (t.map f3).getD i 0, (t.map f4).getD i 0, (t.map f5).getD i 0, (t.map f6).getD i 0⟩ : Pt)) =
      t.map g := by
  apply List.ext_getElem
  · simp
  · intro i h1 h2
    have hi : i < t.length := by simpa using h2
    have gd : ∀ f : ℝ → ℝ, (t.map f).getD i 0 = f t[i] := fun f => by simp [List.getD, hi]
    simp only [List.getElem_map, List.getElem_range, gd, h, C90.getD_lt _ hi]

section
variable {E : Eqs} {D S S' : Set ℝ} {Y : ℝ → ℕ → ℝ} {δ : ℝ} {t : List ℝ} {osc : Oscode} {b : Bg} {kw : OscKw} {k : ℝ}

theorem run_grid (hT : E.Trajectory D S Y) (htS : ∀ x ∈ t, x ∈ S) (bpts : b.pts = t.map (E.point Y)) (X : ExactNumerics δ E Y S' t osc b kw k) :
    (∀ stop, idxEnd b (idxBeg b kw.fac_beg k) kw.fac_end k = .ok stop → ∀ (i : ℕ) (p : Pt), idxBeg b kw.fac_beg k ≤ i → i ≤ max (idxBeg b kw.fac_beg k) stop →
      b.pts[i]? = some p → ∃ n ∈ S', p = E.point Y n) ∧ ∀ p, b.pts[idxBeg b kw.fac_beg k]? = some p → exp p.logaH ≤ δ * k := by
  have pt : ∀ {i : ℕ} {p : Pt}, b.pts[i]? = some p → ∃ x, t[i]? = some x ∧ p = E.point Y x := fun {i p} hp => by
    rw [bpts, List.getElem?_map] at hp
    obtain ⟨x, hx, rfl⟩ := Option.map_eq_some_iff.1 hp
    exact ⟨x, hx, rfl⟩
  refine ⟨fun stop hst i p h1 h2 hp => ?_, fun p hp => ?_⟩
  · obtain ⟨x, hx, rfl⟩ := pt hp
    exact ⟨x, X.grid stop hst i x h1 h2 hx, rfl⟩
  · obtain ⟨x, hx, rfl⟩ := pt hp
    show exp (log (E.aH Y x)) ≤ _
    rw [exp_log (C92.aH_pos hT (htS x (List.mem_of_getElem? hx)))]
    exact X.inside x hx

/-- an exact run on a slow-roll part of a flat trajectory is one in the sense of C84 -/
theorem slowT {e : InflT} (hT : (Eqs.T e).Trajectory D S Y) (htS : ∀ x ∈ t, x ∈ S) (hK : e.K = 0) (bi : b.indep = .t) (bK : b.K = e.K) (bp : b.pot = e.pot)
    (bpts : b.pts = t.map ((Eqs.T e).point Y)) (bic : b.perturbation_ic = (1, 0, 0, 1)) (X : ExactNumerics δ (.T e) Y S' t osc b kw k) {r : ModeSpectra}
    (hr : solveOscode1 osc b k kw = .ok r) :
    SlowRunT δ S' e.pot (fun t => InflT._N (Y t)) (fun t => InflT.phi (Y t)) (fun t => InflT.dphidt (Y t)) (fun t => e.H (Y t)) osc b kw k r := by
  obtain ⟨K, pot, te⟩ := e
  have hK : K = 0 := hK
  subst hK
  obtain ⟨g1, g2⟩ := run_grid hT htS bpts X
  exact ⟨bi, bK, bp, X.pos, g1, by rw [bic]; exact X.ic, hr, g2, X.exact⟩

theorem slowN {e : InflN} (hT : (Eqs.N e).Trajectory D S Y) (htS : ∀ x ∈ t, x ∈ S) (hK : e.K = 0) (bi : b.indep = .N) (bK : b.K = e.K) (bp : b.pot = e.pot)
    (bpts : b.pts = t.map ((Eqs.N e).point Y)) (bic : b.perturbation_ic = (1, 0, 0, 1)) (X : ExactNumerics δ (.N e) Y S' t osc b kw k) {r : ModeSpectra}
    (hr : solveOscode1 osc b k kw = .ok r) :
    SlowRunN δ S' e.pot (fun n => Y n 0) (fun n => Y n 1) (fun n => e.H n (Y n)) osc b kw k r := by
  obtain ⟨K, pot, tt, te⟩ := e
  have hK : K = 0 := hK
  subst hK
  obtain ⟨g1, g2⟩ := run_grid hT htS bpts X
  exact ⟨bi, bK, bp, X.pos, g1, by rw [bic]; exact X.ic, hr, g2, X.exact⟩

/-- the single call on a slow-roll part of a flat trajectory -/
theorem slow (hT : E.Trajectory D S Y) (htS : ∀ x ∈ t, x ∈ S) (hV : IsDerivOn D E.pot.V E.pot.dV) (hV2 : IsDerivOn D E.pot.dV E.pot.d2V)
    (hK : E.K = 0) (hδ0 : 0 < δ) (hδ : δ ≤ 1 / 20) (hS' : IsOpen S') (hc : IsPreconnected S') (hsub : S' ⊆ S) {e1 e2 d2 : ℝ → ℝ}
    (hsr : IsSlowRoll δ S' (E.rate Y) (E.hubble Y) e1 e2 d2) (bi : b.indep = E.indep) (bK : b.K = E.K) (bp : b.pot = E.pot) (bpts : b.pts = t.map (E.point Y))
    (bic : b.perturbation_ic = (1, 0, 0, 1)) (X : ExactNumerics δ E Y S' t osc b kw k) {r : ModeSpectra} (hr : solveOscode1 osc b k kw = .ok r)
    {vac : String} (hvac : vac ∈ kw.vacuum) {x : ℝ} (hx : x ∈ S') (hk : k = E.aH Y x) : ∃ Ps Pt : ℝ, r.P_s.get? vac = some (some Ps) ∧ r.P_t.get? vac = some (some Pt) ∧
      |Ps - E.hubble Y x ^ 2 / (8 * π ^ 2 * e1 x)| ≤ slowP * δ * (E.hubble Y x ^ 2 / (8 * π ^ 2 * e1 x)) ∧
      |Pt - 2 * E.hubble Y x ^ 2 / π ^ 2| ≤ slowP * δ * (2 * E.hubble Y x ^ 2 / π ^ 2) := by
  cases E with
  | other K p => exact absurd hT (by simp [Eqs.Trajectory])
  | T e =>
    have hK : e.K = 0 := hK
    have u := (InflT.universe hT.1 hT.2.1).mono hsub
    rw [hK] at u
    obtain ⟨Ps, Pt, a1, a2, a3⟩ := (C84_time hδ0 hδ hS' hc u hV hV2 (fun x hx => hT.2.2 x (hsub hx)) hsr (slowT hT htS hK bi bK bp bpts bic X hr)).2 vac hvac
    exact ⟨Ps, Pt, a1, a2, a3 x hx hk⟩
  | N e =>
    have hK : e.K = 0 := hK
    have u := (C19_efolds hS' (C94.sol_mono hT.1 hsub) (fun x hx => hT.2.1 x (hsub hx)) hV fun x hx => hT.2.2 x (hsub hx))
    rw [hK] at u
    obtain ⟨Ps, Pt, a1, a2, a3⟩ := (C84_efolds hδ0 hδ hS' hc u hV hV2 (fun x hx => hT.2.2 x (hsub hx)) hsr (slowN hT htS hK bi bK bp bpts bic X hr)).2 vac hvac
    exact ⟨Ps, Pt, a1, a2, a3 x hx hk⟩

/-- the same against every method that is evaluated at the crossing -/
theorem slow_methods : ∃ C : ℝ, 0 < C ∧ ∀ (E : Eqs) (D S S' : Set ℝ) (Y : ℝ → ℕ → ℝ) (δ : ℝ) (t : List ℝ) (osc : Oscode) (b : Bg) (kw : OscKw) (k : ℝ) (e1 e2 d2 : ℝ → ℝ) (r : ModeSpectra),
    IsOpen S → E.Trajectory D S Y → (∀ x ∈ t, x ∈ S) → IsDerivOn D E.pot.V E.pot.dV → IsDerivOn D E.pot.dV E.pot.d2V → IsDerivOn D E.pot.d2V E.pot.d3V → E.K = 0 → 0 < δ → δ ≤ 1 / 20 →
    IsOpen S' → IsPreconnected S' → S' ⊆ S → IsSlowRoll δ S' (E.rate Y) (E.hubble Y) e1 e2 d2 → b.indep = E.indep → b.K = E.K → b.pot = E.pot → b.pts = t.map (E.point Y) →
    b.perturbation_ic = (1, 0, 0, 1) → ExactNumerics δ E Y S' t osc b kw k → solveOscode1 osc b k kw = .ok r → ∀ vac ∈ kw.vacuum,
    ∃ Ps Pt : ℝ, r.P_s.get? vac = some (some Ps) ∧ r.P_t.get? vac = some (some Pt) ∧ ∀ x ∈ S', k = E.aH Y x → |(C94.along E Y x).d3| ≤ δ →
      ∀ (o : ℕ) (fS fT : SRPoint → ℝ), (o, fS, fT) ∈ crossing → |Ps - Ps0 (C94.along E Y x) * fS (C94.along E Y x)| ≤ C * δ * Ps0 (C94.along E Y x) ∧
        |Pt - Pt0 (C94.along E Y x) * fT (C94.along E Y x)| ≤ C * δ * Pt0 (C94.along E Y x) := by
  obtain ⟨C1, h1, m1⟩ := C84_methods_time
  obtain ⟨C2, h2, m2⟩ := C84_methods_efolds
  refine ⟨max C1 C2, lt_max_of_lt_left h1, ?_⟩
  intro E D S S' Y δ t osc b kw k e1 e2 d2 r hS hT htS hV hV2 hV3 hK hδ0 hδ hS' hc hsub hsr bi bK bp bpts bic X hr vac hvac
  have hH2 := C92.H2_pos hT
  have fl := C94.flow hS hT hV hV2 hV3
  have p0 : ∀ x ∈ S', 0 ≤ Ps0 (C94.along E Y x) ∧ 0 ≤ Pt0 (C94.along E Y x) := fun x hx => by
    have hf := fl x (hsub hx)
    have he : (C94.along E Y x).e1 = e1 x := by
      have := hf.e1.unique (hsr.first x hx)
      have hr := C94.rate_pos hT (hsub hx)
      exact mul_left_cancel₀ hr.ne' (by linarith)
    have := (hsr.small x hx).1
    unfold Ps0 Pt0
    rw [he]
    exact ⟨by positivity, by positivity⟩
  cases E with
  | other K p => exact absurd hT (by simp [Eqs.Trajectory])
  | T e =>
    have hK : e.K = 0 := hK
    have u := (InflT.universe hT.1 hT.2.1).mono hsub
    obtain ⟨-, -, -, -, f5, f6, -⟩ := C14_flat_partial hS hT.1 hT.2.1 hV hV2 hV3 hT.2.2 hK
    rw [hK] at u
    obtain ⟨Ps, Pt, a1, a2, a3⟩ := m1 δ S' D e.pot _ _ _ _ _ _ e1 e2 d2 hδ0 hδ hS' hc u hV hV2 (fun x hx => hT.2.2 x (hsub hx)) hsr (fun x hx => f5 x (hsub hx)) (fun x hx => f6 x (hsub hx))
      osc b kw k r (slowT hT htS hK bi bK bp bpts bic X hr) vac hvac
    refine ⟨Ps, Pt, a1, a2, fun x hx hk hd o fS fT hM => ?_⟩
    have e0 : C94.along (.T e) Y x = T.srPoint (InflT._N (Y x)) (e.H (Y x)) (InflT.dphidt (Y x)) (e.derivs (Y x)).d2phi (e.derivs (Y x)).d3phi (e.derivs (Y x)).d4phi 0 := by
      rw [← hK]; rfl
    obtain ⟨q1, q2⟩ := p0 x hx
    rw [e0] at hd q1 q2 ⊢
    obtain ⟨b1, b2⟩ := a3 x hx hk _ hd o fS fT hM
    exact ⟨b1.trans (mul_le_mul_of_nonneg_right (mul_le_mul_of_nonneg_right (le_max_left _ _) hδ0.le) q1),
      b2.trans (mul_le_mul_of_nonneg_right (mul_le_mul_of_nonneg_right (le_max_left _ _) hδ0.le) q2)⟩
  | N e =>
    have hK : e.K = 0 := hK
    have u := (C19_efolds hS' (C94.sol_mono hT.1 hsub) (fun x hx => hT.2.1 x (hsub hx)) hV fun x hx => hT.2.2 x (hsub hx))
    obtain ⟨-, -, -, -, -, f6, f7, -⟩ := C15_derivatives hS hT.1 hT.2.1 hV hV2 hV3 hT.2.2
    rw [hK] at u
    obtain ⟨Ps, Pt, a1, a2, a3⟩ := m2 δ S' D e.pot _ _ _ _ _ e1 e2 d2 hδ0 hδ hS' hc u hV hV2 (fun x hx => hT.2.2 x (hsub hx)) hsr (fun x hx => f6 x (hsub hx)) (fun x hx => f7 x (hsub hx))
      osc b kw k r (slowN hT htS hK bi bK bp bpts bic X hr) vac hvac
    refine ⟨Ps, Pt, a1, a2, fun x hx hk hd o fS fT hM => ?_⟩
    have e0 : C94.along (.N e) Y x = N.srPoint x (e.H x (Y x)) (Y x 1) (e.derivs x (Y x)).d2phi (e.derivs x (Y x)).d3phi (e.derivs x (Y x)).d4phi 0 := by
      rw [← hK]; rfl
    obtain ⟨q1, q2⟩ := p0 x hx
    rw [e0] at hd q1 q2 ⊢
    obtain ⟨b1, b2⟩ := a3 x hx hk _ hd o fS fT hM
    exact ⟨b1.trans (mul_le_mul_of_nonneg_right (mul_le_mul_of_nonneg_right (le_max_right _ _) hδ0.le) q1),
      b2.trans (mul_le_mul_of_nonneg_right (mul_le_mul_of_nonneg_right (le_max_right _ _) hδ0.le) q2)⟩

end

end C95

/-! ## The claims -/

section
variable {ivp : SolveIvp} {fmtE : ℝ → String} {E : Eqs} {D S : Set ℝ} {ic : ICCall} {kw : SolveKw} {t : List ℝ} {Y : ℝ → ℕ → ℝ} {x0 x1 : ℝ}
  (h : Solved ivp E D S ic kw t Y x0 x1) {o : Dict Attr} {s : InflSol} (hs : solve ivp fmtE E ic [] kw = .ok (o, s)) {cs : CalState}
  (hcs : Shooting.calState E.K s = some cs) (u : SI) {a : CalArgs} {st : CalState} (hcal : Cal.calibrate u cs a = .ok st)
include h hs hcs hcal

/-- **C95, the background.**  After `solve` and a successful `calibrate_scale_factor` (any method, any curvature) `solve_oscode` finds all it reads: the formulation, curvature and potential of
the equations, on every grid point the state of the trajectory, and the wavenumber of the pivot scale. -/
theorem C95_background : ∃ c b, st.cal = some c ∧ bgOf E o s st = some b ∧ b.indep = E.indep ∧ b.K = E.K ∧ b.pot = E.pot ∧ b.pts = t.map (E.point Y) ∧
    b.perturbation_ic = (1, 0, 0, 1) ∧ 0 < c.a0_Mpc ∧ exp b.logaH_star = SI.K_STAR * c.a0_Mpc := by
  obtain ⟨c', y0, q', res, y, te, ye, hic, hq, hivp, sh, hres, hI, hpl⟩ := h.run
  obtain ⟨o', s', hs', sN, sL, -, ⟨sH, sO, ox, oi, oφ, oT, oN⟩, -⟩ :=
    C94.arrays ivp fmtE hic hq hivp sh hres h.isOpen h.convex h.solution h.dV h.start h.inside h.density hI hpl h.clean
  rw [hs] at hs'
  obtain ⟨rfl, rfl⟩ := Prod.mk.inj (Except.ok.inj hs')
  have hE := C91.shipped h.solution
  obtain ⟨c, hc, hpos, hpiv⟩ := C95.pivot (by rw [C94.K_ok hcs]; exact h.curvature) hcal
  have hd : dphiOf o E.indep = some (t.map fun x => Y x 1) := by
    cases E with
    | other K p => exact absurd rfl (hE K p)
    | T e => simp only [dphiOf, Eqs.indep, oT e rfl, arr?]
    | N e => simp only [dphiOf, Eqs.indep, oN e rfl, arr?]
  have hO : (t.map fun x => -E.K * exp (-2 * log (E.aH Y x))) = t.map fun x => -E.K / E.aH Y x ^ 2 := by
    refine List.map_congr_left fun x hx => ?_
    have := C92.aH_pos h.solution (h.inside (hI.inside x hx))
    have e := exp_two_mul_inv (log (E.aH Y x))
    rw [exp_log this] at e
    rw [e, div_inv_eq_mul]
  refine ⟨c, { indep := E.indep, K := E.K, pot := E.pot, pts := t.map (E.point Y), logaH_star := c.logaH_star }, hc, ?_, rfl, rfl, rfl, rfl, rfl, hpos, hpiv⟩
  rw [← C95.points (t := t) (g := E.point Y) (fun x => rfl)]
  unfold bgOf
  rw [hc, oi, C95.indepOf_xname hE, ox, oφ, sN, sH, sO, sL]
  simp only [Option.bind_some, arr?, hd, C92.mapM_some, hO]

/-- **C95, the wavenumbers.**  `solve_oscode` reports the wavenumbers in units of 1/Mpc with the conversion of `calibrate_scale_factor`: `k_iMpc = k/a0_Mpc`. -/
theorem C95_wavenumber {b : Bg} (hb : bgOf E o s st = some b) {osc : Oscode} {kwo : OscKw} {ks : List ℝ} {P : PPS} (hP : solveOscode osc b ks kwo = .ok P) :
    ∃ c, st.cal = some c ∧ P.k = ks ∧ P.k_iMpc = ks.map (· / c.a0_Mpc) := by
  obtain ⟨c, b', hc, hb', -, -, -, -, -, hpos, hpiv⟩ := C95_background h hs hcs u hcal
  rw [hb] at hb'
  cases hb'
  obtain ⟨e1, e2, -⟩ := C53_filled hP
  refine ⟨c, hc, e1, ?_⟩
  rw [e2, hpiv]
  have hKS : 0 < SI.K_STAR := by unfold SI.K_STAR; norm_num
  refine List.map_congr_left fun k _ => ?_
  field_simp

/-- **C95, the equations.**  For every wavenumber of the call the integrator is run on grid points of the trajectory, from number `beg` to number `stop`, at least 10 e-folds and until after the mode has left
the horizon by the factor `fac_end`: twice with the equation of gravitational waves on the background the trajectory describes, and twice with the equation of the curvature perturbation on it
(wherever the field moves, and the kinetic term does not vanish), with one of the two initial conditions each. -/
theorem C95_equations {b : Bg} (hb : bgOf E o s st = some b) {osc : Oscode} {kwo : OscKw} {ks : List ℝ} {P : PPS} (hP : solveOscode osc b ks kwo = .ok P) (hf : 0 < kwo.fac_end)
    {j : ℕ} {k : ℝ} (hk : ks[j]? = some k) (hk0 : 0 < k) : ∃ (beg stop : ℕ) (xb xe : ℝ), (kwo.fac_beg = 0 → beg = 0) ∧ beg < stop ∧ t[beg]? = some xb ∧ t[stop]? = some xe ∧
      10 ≤ E.efolds Y xe - E.efolds Y xb ∧ (∃ (e : ℕ) (x : ℝ), e ≤ stop ∧ t[e]? = some x ∧ kwo.fac_end * k < E.aH Y x) ∧
      ∀ eq ∈ [fun x ω2 γ => E.velocity Y x ≠ 0 → k ^ 2 + k * E.K * (E.K + 1) - 3 * E.K + E.K * E.perEfold Y x ^ 2 / 2 ≠ 0 → ScalarEquation E Y k x ω2 γ, TensorEquation E Y k],
        ∃ A1 A2 r1 r2, osc A1 = .ok r1 ∧ osc A2 = .ok r2 ∧ HandedOver t beg stop eq A1 ∧ HandedOver t beg stop eq A2 ∧
          ((A1.x0, A1.dx0), (A2.x0, A2.dx0)) = (((kwo.y0.getD (1, 0, 0, 1)).1, (kwo.y0.getD (1, 0, 0, 1)).2.1), ((kwo.y0.getD (1, 0, 0, 1)).2.2.1, (kwo.y0.getD (1, 0, 0, 1)).2.2.2)) := by
  obtain ⟨c, b', hc, hb', bi, bK, bp, bpts, bic, hpos, hpiv⟩ := C95_background h hs hcs u hcal
  rw [hb] at hb'
  cases hb'
  obtain ⟨c', y0, q', res, y, te, ye, hic, hq, hivp, sh, hres, hI, hpl⟩ := h.run
  obtain ⟨mN, -, -⟩ := C92.facts h.isOpen h.convex h.solution h.dV
  have tS : ∀ {l : ℕ} {v : ℝ}, t[l]? = some v → v ∈ S := fun hv => h.inside (hI.inside _ (List.mem_of_getElem? hv))
  have pt : ∀ {i : ℕ} {p : Pt}, b.pts[i]? = some p → ∃ x, t[i]? = some x ∧ p = E.point Y x := fun {i p} hp => by
    rw [bpts, List.getElem?_map] at hp
    obtain ⟨x, hx, rfl⟩ := Option.map_eq_some_iff.1 hp
    exact ⟨x, hx, rfl⟩
  have hN : IncreasingN b := fun i l p q hp hq hil => by
    obtain ⟨x, hx, rfl⟩ := pt hp
    obtain ⟨z, hz, rfl⟩ := pt hq
    refine mN (tS hx) (tS hz) ?_
    obtain ⟨h1, rfl⟩ := List.getElem?_eq_some_iff.1 hx
    obtain ⟨h2, rfl⟩ := List.getElem?_eq_some_iff.1 hz
    exact List.pairwise_iff_getElem.1 h.sorted i l h1 h2 hil
  obtain ⟨r, hr⟩ : ∃ r, solveOscode1 osc b k kwo = .ok r := ((C53_errors osc b kwo ks).1.1 ⟨P, hP⟩) k (List.mem_of_getElem? hk)
  obtain ⟨beg, stop, sc, tn, hbeg, hstop, hm, hcalls⟩ := C52_coefficients hk0 hf hN hr
  obtain ⟨hlt, pb, pe, hpb, hpe, h10, e0, p0, he0, hp0, hout, -⟩ := C52_stop hk0 hf hN hstop
  obtain ⟨xb, hxb, rfl⟩ := pt hpb
  obtain ⟨xe, hxe, rfl⟩ := pt hpe
  obtain ⟨x', hx', rfl⟩ := pt hp0
  have hout : kwo.fac_end * k < exp (log (E.aH Y x')) := hout
  rw [exp_log (C92.aH_pos h.solution (tS hx'))] at hout
  refine ⟨beg, stop, xb, xe, fun h0 => by rw [hbeg]; exact if_pos h0, hlt, hxb, hxe, h10, ⟨e0, x', he0, hx', hout⟩, fun eq heq => ?_⟩
  have mk : ∀ (m : Mode) A, (∀ x ∈ S, eq x (m.frequency2 (E.point Y x)) (m.damping (E.point Y x))) → Coefficients b beg stop m A → HandedOver t beg stop eq A := fun m A hmx hA i hi => by
    obtain ⟨p, w, h1, h2, h3, h4, h5, h6⟩ := hA i hi
    obtain ⟨x, hx, rfl⟩ := pt h1
    exact ⟨x, _, _, w, hx, h2, h3, h4, h5, h6, hmx x (tS hx)⟩
  rw [bic] at hcalls
  have all : ∀ x ∈ S, _ := fun x hx => C95.equations h.isOpen h.solution h.dV bi bK bp hm hx
  simp only [List.mem_cons, List.not_mem_nil, or_false] at heq
  rcases heq with rfl | rfl
  · obtain ⟨A1, A2, r1, r2, a1, a2, a3, a4, a5⟩ := hcalls sc (.inl rfl)
    have hq : ∀ x ∈ S, E.velocity Y x ≠ 0 → E.perEfold Y x ≠ 0 := fun x hx hv => div_ne_zero hv (C95.hubble_pos h.solution hx).ne'
    exact ⟨A1, A2, r1, r2, a1, a2, mk sc A1 (fun x hx hv => (all x hx).2 (hq x hx hv)) a3, mk sc A2 (fun x hx hv => (all x hx).2 (hq x hx hv)) a4, a5⟩
  · obtain ⟨A1, A2, r1, r2, a1, a2, a3, a4, a5⟩ := hcalls tn (.inr rfl)
    exact ⟨A1, A2, r1, r2, a1, a2, mk tn A1 (fun x hx => (all x hx).1) a3, mk tn A2 (fun x hx => (all x hx).1) a4, a5⟩

end

/-- the absolute constant of the comparison with the slow-roll methods -/
noncomputable def methodC : ℝ := 2 * (Classical.choose C95.slow_methods + slowP)

theorem methodC_pos : 0 < methodC := by
  have h1 := (Classical.choose_spec C95.slow_methods).1
  have h2 : 0 < slowP := by have := slowC_pos; unfold slowP; positivity
  unfold methodC
  positivity

section
variable {ivp : SolveIvp} {fmtE : ℝ → String} {E : Eqs} {D S : Set ℝ} {ic : ICCall} {kw : SolveKw} {t : List ℝ} {Y : ℝ → ℕ → ℝ} {x0 x1 : ℝ}
  (h : Solved ivp E D S ic kw t Y x0 x1) {o : Dict Attr} {s : InflSol} (hs : solve ivp fmtE E ic [] kw = .ok (o, s)) {sr : SlowRoll} (hsr : slowRoll E o s = some sr)
  {cs : CalState} (hcs : Shooting.calState E.K s = some cs) {κ : Type} (u : SI) {spline : κ → List (ℝ × ℝ) → ℝ → ℝ} (hsp : Interpolates spline) {p q : PSol} {a : CalArgs}
  {kws : κ} (hp : p.st = cs) (hb : a.background = none) {b : Bg} (hbg : bgOf E o s q.st = some b) (hK : E.K = 0)
  {δ : ℝ} (hδ0 : 0 < δ) (hδ : δ ≤ 1 / 20) {S' : Set ℝ} (hS' : IsOpen S') (hc' : IsPreconnected S') (hsub : S' ⊆ S) {e1 e2 d2 : ℝ → ℝ}
  (hroll : IsSlowRoll δ S' (E.rate Y) (E.hubble Y) e1 e2 d2) {osc : Oscode} {kwo : OscKw} {ks : List ℝ} {P : PPS} (hP : solveOscode osc b ks kwo = .ok P)
include h hs hsr hcs hsp hp hb hbg hK hδ0 hδ hS' hc' hsub hroll hP

/-- **C95, numerical and slow-roll spectra.**  Flat universe; `solve`, `calibrate_scale_factor` with `CGS` at order 0, then `solve_oscode` for the wavenumbers `ks`.  Where the trajectory rolls slowly to
accuracy `δ`, and the numerical run for the wavenumber `k` that leaves the horizon at a grid point of the reported phase is accurate to `δ`, every spectrum `solve_oscode` reports for `k` agrees
with what `P_s_approx`, `P_t_approx` of the same object return at the wavenumber that `solve_oscode` reports in units of 1/Mpc, to relative accuracy `slowP δ` with an absolute constant. -/
theorem C95_leading_order (hok : calibrateP u spline sr p a "CGS" kws 0 = .ok q) :
    ∃ xb xe, ReportedPhase E Y x0 x1 s xb xe ∧ ∀ (j : ℕ) k, ks[j]? = some k → ExactNumerics δ E Y S' t osc b kwo k →
      ∀ i x, FreshPoint E Y t xb xe i x → x ∈ S' → k = E.aH Y x → ∀ vac ∈ kwo.vacuum, ∃ k_iMpc Lps Lpt Ps Pt As At, P.k_iMpc[j]? = some k_iMpc ∧
        P.P_s.get? vac = some Lps ∧ Lps[j]? = some (some Ps) ∧ P.P_t.get? vac = some Lpt ∧ Lpt[j]? = some (some Pt) ∧
        ask spline sr q Spectrum.s "CGS" 0 kws k_iMpc = .ok As ∧ ask spline sr q Spectrum.t "CGS" 0 kws k_iMpc = .ok At ∧ 0 < As ∧ 0 < At ∧
        |Ps - As| ≤ slowP * δ * As ∧ |Pt - At| ≤ slowP * δ * At := by
  have hcal := C94.calibrateP_ok hb hok
  rw [hp] at hcal
  obtain ⟨c, b', hc, hb', bi, bK, bp, bpts, bic, -, -⟩ := C95_background h hs hcs u hcal
  rw [hbg] at hb'
  cases hb'
  obtain ⟨c1, hc1, -, hkm⟩ := C95_wavenumber h hs hcs u hcal hbg hP
  obtain ⟨c2, xb, xe, hc2, hph, hall⟩ := C94_leading_order h hs hsr hcs u hsp hp hb hok
  have e1c : c1 = c := by rw [hc] at hc1; exact (Option.some.inj hc1).symm
  have e2c : c2 = c := by rw [hc] at hc2; exact (Option.some.inj hc2).symm
  rw [e1c] at hkm
  rw [e2c] at hall
  obtain ⟨-, -, hfill⟩ := C53_filled hP
  have htS : ∀ x ∈ t, x ∈ S := fun x hx => by
    obtain ⟨_, _, _, _, _, _, _, -, -, -, -, -, hI, -⟩ := h.run
    exact h.inside (hI.inside x hx)
  refine ⟨xb, xe, hph, fun j k hk X i x hf hx hkx vac hvac => ?_⟩
  obtain ⟨Lps, Lpt, f1, f2, -, -, f5⟩ := hfill vac hvac
  obtain ⟨r, vs, vt, hr, g1, g2, g3, g4⟩ := f5 j k hk
  obtain ⟨Ps, Pt, r1, r2, r3, r4⟩ := C95.slow h.solution htS h.dV h.d2V hK hδ0 hδ hS' hc' hsub hroll bi bK bp bpts bic X hr hvac hx hkx
  have hε := (hroll.small x hx).1
  obtain ⟨a1, a2⟩ := hall i x hf (e1 x) hε (hroll.first x hx)
  have hH := C95.hubble_pos h.solution (hsub hx)
  rw [r1] at g1
  rw [r2] at g2
  rw [← Option.some.inj g1] at g3
  rw [← Option.some.inj g2] at g4
  refine ⟨E.aH Y x / c.a0_Mpc, Lps, Lpt, Ps, Pt, _, _, ?_, f1, g3, f2, g4, a1, a2, by positivity, by positivity, r3, r4⟩
  rw [hkm, List.getElem?_map, hk, hkx]
  rfl

omit hsp in
/-- common part of the two theorems below -/
theorem C95.methods {m : String} {n : ℕ} (hok : calibrateP u spline sr p a m kws n = .ok q) {fS fT : SRPoint → ℝ} {w : ℕ} (hM : (w, fS, fT) ∈ crossing) (hC : methodC * δ ≤ 1)
    (hask : ∀ (i : ℕ) kx pt star, Crosses sr q i kx pt star → 0 < pt.H ^ 2 / (8 * π ^ 2 * pt.e1) * fS pt → 0 < 2 * (pt.H / π) ^ 2 * fT pt →
      ask spline sr q Spectrum.s m n kws kx = .ok (pt.H ^ 2 / (8 * π ^ 2 * pt.e1) * fS pt) ∧ ask spline sr q Spectrum.t m n kws kx = .ok (2 * (pt.H / π) ^ 2 * fT pt)) :
    ∃ pt xb xe, (∀ x ∈ S, SlowRollAt ((∃ e, E = .N e) ∨ E.K = 0) (E.rate Y) (E.hubble Y) (E.velocity Y) pt x) ∧ ReportedPhase E Y x0 x1 s xb xe ∧
      ∀ (j : ℕ) k, ks[j]? = some k → ExactNumerics δ E Y S' t osc b kwo k →
      ∀ i x, FreshPoint E Y t xb xe i x → x ∈ S' → k = E.aH Y x → |(pt x).d3| ≤ δ → ∀ vac ∈ kwo.vacuum, ∃ k_iMpc Lps Lpt Ps Pt As At, P.k_iMpc[j]? = some k_iMpc ∧
        P.P_s.get? vac = some Lps ∧ Lps[j]? = some (some Ps) ∧ P.P_t.get? vac = some Lpt ∧ Lpt[j]? = some (some Pt) ∧
        ask spline sr q Spectrum.s m n kws k_iMpc = .ok As ∧ ask spline sr q Spectrum.t m n kws k_iMpc = .ok At ∧ 0 < As ∧ 0 < At ∧
        |Ps - As| ≤ methodC * δ * As ∧ |Pt - At| ≤ methodC * δ * At := by
  have hcal := C94.calibrateP_ok hb hok
  rw [hp] at hcal
  obtain ⟨c, b', hc, hb', bi, bK, bp, bpts, bic, -, -⟩ := C95_background h hs hcs u hcal
  rw [hbg] at hb'
  cases hb'
  obtain ⟨c1, hc1, -, hkm⟩ := C95_wavenumber h hs hcs u hcal hbg hP
  obtain ⟨c2, xb, xe, star, hc2, hph, hall, -⟩ := C94.core h hs hsr hcs hp hb hok
  have e1c : c1 = c := by rw [hc] at hc1; exact (Option.some.inj hc1).symm
  have e2c : c2 = c := by rw [hc] at hc2; exact (Option.some.inj hc2).symm
  rw [e1c] at hkm
  rw [e2c] at hall
  obtain ⟨-, -, hfill⟩ := C53_filled hP
  have htS : ∀ x ∈ t, x ∈ S := fun x hx => by
    obtain ⟨_, _, _, _, _, _, _, -, -, -, -, -, hI, -⟩ := h.run
    exact h.inside (hI.inside x hx)
  have fl := C94.flow h.isOpen h.solution h.dV h.d2V h.d3V
  refine ⟨C94.along E Y, xb, xe, fl, hph, fun j k hk X i x hf hx hkx hd vac hvac => ?_⟩
  obtain ⟨Lps, Lpt, f1, f2, -, -, f5⟩ := hfill vac hvac
  obtain ⟨r, vs, vt, hr, g1, g2, g3, g4⟩ := f5 j k hk
  obtain ⟨Ps, Pt, r1, r2, r3, r4⟩ := C95.slow h.solution htS h.dV h.d2V hK hδ0 hδ hS' hc' hsub hroll bi bK bp bpts bic X hr hvac hx hkx
  obtain ⟨hC0, hCm⟩ := Classical.choose_spec C95.slow_methods
  have hCdef : methodC = 2 * (Classical.choose C95.slow_methods + slowP) := rfl
  generalize Classical.choose C95.slow_methods = C0 at hC0 hCm hCdef
  obtain ⟨Ps', Pt', r1', r2', r3'⟩ := hCm E D S S' Y δ t osc b kwo k e1 e2 d2 r h.isOpen h.solution htS h.dV h.d2V h.d3V hK hδ0 hδ hS' hc' hsub hroll bi bK bp bpts bic X hr vac hvac
  have ePs : Ps' = Ps := by rw [r1] at r1'; exact (Option.some.inj (Option.some.inj r1')).symm
  have ePt : Pt' = Pt := by rw [r2] at r2'; exact (Option.some.inj (Option.some.inj r2')).symm
  rw [ePs, ePt] at r3'
  obtain ⟨m1, m2⟩ := r3' x hx hkx hd w fS fT hM
  have hxS := hsub hx
  have hε := (hroll.small x hx).1
  have hH := C95.hubble_pos h.solution hxS
  have hfx := fl x hxS
  have he : (C94.along E Y x).e1 = e1 x := by
    have := hfx.e1.unique (hroll.first x hx)
    have hr := C94.rate_pos h.solution hxS
    exact mul_left_cancel₀ hr.ne' (by linarith)
  have e1' : E.hubble Y x ^ 2 / (8 * π ^ 2 * e1 x) = Ps0 (C94.along E Y x) := by unfold Ps0; rw [he, hfx.hubble]
  have e2' : 2 * E.hubble Y x ^ 2 / π ^ 2 = Pt0 (C94.along E Y x) := by unfold Pt0; rw [hfx.hubble]; ring
  rw [e1'] at r3
  rw [e2'] at r4
  have q1 : 0 < Ps0 (C94.along E Y x) := by rw [← e1']; positivity
  have q2 : 0 < Pt0 (C94.along E Y x) := by rw [← e2']; positivity
  have hsP : 0 < slowP := by have := slowC_pos; unfold slowP; positivity
  -- the factors are at least one half
  have half : ∀ {A f Q : ℝ}, 0 < A → |Q - A| ≤ slowP * δ * A → |Q - A * f| ≤ C0 * δ * A → 0 < A * f ∧ |Q - A * f| ≤ methodC * δ * (A * f) := fun {A f Q} hA h1 h2 => by
    have h3 : |A - A * f| ≤ (C0 + slowP) * δ * A := by
      have := abs_sub_le A Q (A * f)
      rw [abs_sub_comm A Q] at this
      linarith
    have h4 : (C0 + slowP) * δ ≤ 1 / 2 := by rw [hCdef] at hC; linarith
    have h5 : (C0 + slowP) * δ * A ≤ 1 / 2 * A := mul_le_mul_of_nonneg_right h4 hA.le
    have h6 : A ≤ 2 * (A * f) := by have := (abs_le.1 h3).2; linarith
    have h7 : C0 * δ * A ≤ C0 * δ * (2 * (A * f)) := mul_le_mul_of_nonneg_left h6 (by positivity)
    have h8 : 0 ≤ slowP * δ * (A * f) := by
      have : 0 < A * f := by linarith
      positivity
    refine ⟨by linarith, ?_⟩
    rw [hCdef]
    linarith
  obtain ⟨p1, b1⟩ := half q1 r3 m1
  obtain ⟨p2, b2⟩ := half q2 r4 m2
  obtain ⟨a1, a2⟩ := hask i _ _ star (hall i x hf) p1 p2
  rw [r1] at g1
  rw [r2] at g2
  rw [← Option.some.inj g1] at g3
  rw [← Option.some.inj g2] at g4
  refine ⟨E.aH Y x / c.a0_Mpc, Lps, Lpt, Ps, Pt, _, _, ?_, f1, g3, f2, g4, a1, a2, p1, p2, b1, b2⟩
  rw [hkm, List.getElem?_map, hk, hkx]
  rfl

/-- **C95, numerical and slow-roll spectra, CGS.**  The same for every order of `CGS`, where in addition `|δ₃| ≤ δ` at the crossing (`pt`: the slow-roll parameters of the trajectory) and `δ` is below an
absolute bound. -/
theorem C95_CGS (n : ℕ) (hn : n ≤ 3) (hC : methodC * δ ≤ 1) (hok : calibrateP u spline sr p a "CGS" kws n = .ok q) :
    ∃ pt xb xe, (∀ x ∈ S, SlowRollAt ((∃ e, E = .N e) ∨ E.K = 0) (E.rate Y) (E.hubble Y) (E.velocity Y) pt x) ∧ ReportedPhase E Y x0 x1 s xb xe ∧
      ∀ (j : ℕ) k, ks[j]? = some k → ExactNumerics δ E Y S' t osc b kwo k →
      ∀ i x, FreshPoint E Y t xb xe i x → x ∈ S' → k = E.aH Y x → |(pt x).d3| ≤ δ → ∀ vac ∈ kwo.vacuum, ∃ k_iMpc Lps Lpt Ps Pt As At, P.k_iMpc[j]? = some k_iMpc ∧
        P.P_s.get? vac = some Lps ∧ Lps[j]? = some (some Ps) ∧ P.P_t.get? vac = some Lpt ∧ Lpt[j]? = some (some Pt) ∧
        ask spline sr q Spectrum.s "CGS" n kws k_iMpc = .ok As ∧ ask spline sr q Spectrum.t "CGS" n kws k_iMpc = .ok At ∧ 0 < As ∧ 0 < At ∧
        |Ps - As| ≤ methodC * δ * As ∧ |Pt - At| ≤ methodC * δ * At := by
  have hM : ∃ w, (w, cgsS n, cgsT n) ∈ crossing := by
    rcases (by omega : n = 0 ∨ n = 1 ∨ n = 2 ∨ n = 3) with rfl | rfl | rfl | rfl
    · exact ⟨1, by simp [crossing]⟩
    · exact ⟨2, by simp [crossing]⟩
    · exact ⟨3, by simp [crossing]⟩
    · exact ⟨3, by simp [crossing]⟩
  obtain ⟨w, hM⟩ := hM
  exact C95.methods h hs hsr hcs u hp hb hbg hK hδ0 hδ hS' hc' hsub hroll hP hok hM hC fun i kx pt star hx h1 h2 =>
    C74_CGS u spline sr hsp p q a kws hb (by rw [hp, C94.K_ok hcs]; exact h.curvature) i _ _ star n hn hok hx h1 h2

/-- **C95, numerical and slow-roll spectra, STE.**  The same for Stewart's expressions. -/
theorem C95_STE (n : ℕ) (hC : methodC * δ ≤ 1) (hok : calibrateP u spline sr p a "STE" kws n = .ok q) :
    ∃ pt xb xe, (∀ x ∈ S, SlowRollAt ((∃ e, E = .N e) ∨ E.K = 0) (E.rate Y) (E.hubble Y) (E.velocity Y) pt x) ∧ ReportedPhase E Y x0 x1 s xb xe ∧
      ∀ (j : ℕ) k, ks[j]? = some k → ExactNumerics δ E Y S' t osc b kwo k →
      ∀ i x, FreshPoint E Y t xb xe i x → x ∈ S' → k = E.aH Y x → |(pt x).d3| ≤ δ → ∀ vac ∈ kwo.vacuum, ∃ k_iMpc Lps Lpt Ps Pt As At, P.k_iMpc[j]? = some k_iMpc ∧
        P.P_s.get? vac = some Lps ∧ Lps[j]? = some (some Ps) ∧ P.P_t.get? vac = some Lpt ∧ Lpt[j]? = some (some Pt) ∧
        ask spline sr q Spectrum.s "STE" n kws k_iMpc = .ok As ∧ ask spline sr q Spectrum.t "STE" n kws k_iMpc = .ok At ∧ 0 < As ∧ 0 < At ∧
        |Ps - As| ≤ methodC * δ * As ∧ |Pt - At| ≤ methodC * δ * At :=
  C95.methods h hs hsr hcs u hp hb hbg hK hδ0 hδ hS' hc' hsub hroll hP hok (w := 3) (by simp [crossing]) hC fun i kx pt star hx h1 h2 =>
    C74_STE u spline sr hsp p q a kws hb (by rw [hp, C94.K_ok hcs]; exact h.curvature) i _ _ star n hok hx h1 h2

end

/-! ## The hypotheses are met

The exact solution `φ = -2t`, `N = -t²`, `H = -2t` of C90 on the grid `-(T+4), -(T+2), -T, -1/10`, for every `T ≥ 6`: it rolls slowly to accuracy `1/(T-1)²` around the first three points, and the mode that leaves
the horizon at `-(T+2)` is far inside it at the first and far outside it at the third. -/

namespace C95.Ex

noncomputable def E : Eqs := .T Exact.hjT
noncomputable def grid (T : ℝ) : List ℝ := [-(T + 4), -(T + 2), -T, -1 / 10]
noncomputable def rows (T : ℝ) : List (List ℝ) := [(grid T).map fun t => -2 * t, (grid T).map fun _ => -2, (grid T).map fun t => -t ^ 2]
noncomputable def res (T : ℝ) : Dict Attr := [("t", .arr (grid T)), ("y", .rows (rows T)), ("t_events", .tEvents C90.Ex.te), ("y_events", .yEvents C90.Ex.ye)]
noncomputable def ivp (T : ℝ) : SolveIvp := fun _ _ => .ok (res T)
def events : List Event := [⟨.inflation none, .neg, false, 0⟩]
noncomputable def ic (T : ℝ) : IC := ⟨2 * (T + 4), some (-(T + 4)), none, -1 / 10, 12 * (T + 4) ^ 2 - 2, 12 * (T + 4), some (-(T + 4) ^ 2), some 0, none, some (2 * (T + 4))⟩

theorem shape (T : ℝ) : IvpShape E.idx.length 1 (res T) (grid T) (rows T) C90.Ex.te C90.Ex.ye where
  t_ne := by simp [grid]
  get_t := rfl
  get_y := rfl
  get_te := rfl
  get_ye := rfl
  rows := rfl
  cols := by simp [rows]
  te_len := rfl
  ye_len := rfl
  occ := C90.Ex.shape.occ
  states := C90.Ex.shape.states

theorem accel (x : ℝ) : E.accel Exact.yHjT x = 12 * x ^ 2 - 6 := by
  show Exact.hjT.inflating (Exact.yHjT x) = _
  rw [hj_inflating]

theorem integrated {T : ℝ} (hT : 6 ≤ T) : Integrated (C90.view E) E.idx.length events Exact.yHjT (-(T + 4)) (-1 / 10) (grid T) (rows T) C90.Ex.te C90.Ex.ye where
  start := rfl
  inside := by
    intro x hx
    simp only [grid, List.mem_cons, List.not_mem_nil, or_false] at hx
    rcases hx with rfl | rfl | rfl | rfl <;> constructor <;> linarith
  sampled := fun j x hx i hi => by
    have hi : i < 3 := hi
    match j with
    | 0 => simp only [grid, List.getElem?_cons_zero, Option.some.injEq] at hx; subst hx; interval_cases i <;> simp [rows, grid, Exact.yHjT]
    | 1 => simp only [grid, List.getElem?_cons_succ, List.getElem?_cons_zero, Option.some.injEq] at hx; subst hx; interval_cases i <;> simp [rows, grid, Exact.yHjT]
    | 2 => simp only [grid, List.getElem?_cons_succ, List.getElem?_cons_zero, Option.some.injEq] at hx; subst hx; interval_cases i <;> simp [rows, grid, Exact.yHjT]
    | 3 => simp only [grid, List.getElem?_cons_succ, List.getElem?_cons_zero, Option.some.injEq] at hx; subst hx; interval_cases i <;> simp [rows, grid, Exact.yHjT]
    | j + 4 => simp [grid] at hx
  stated := C90.Ex.integrated.stated
  detected := fun j ev ts h1 h2 _ _ => by
    match j with
    | j + 1 => simp [events] at h1
    | 0 =>
      simp only [events, C90.Ex.te, List.getElem?_cons_zero, Option.some.injEq] at h1 h2
      subst h1 h2
      obtain ⟨h1, h2, h3⟩ := hj_root
      have neg : ∀ x, x < -√(1 / 2) → 0 < 12 * x ^ 2 - 6 := fun x hx => by nlinarith
      have pos : ∀ x, -√(1 / 2) < x → x ≤ -1 / 10 → 12 * x ^ 2 - 6 < 0 := fun x hx hx' => by nlinarith
      have h4 : -√(1 / 2) < -1 / 10 := by nlinarith
      have hg : (fun x => (Event.mk (.inflation none) .neg false 0).call (C90.view E) x (Exact.yHjT x)) = fun x => 12 * x ^ 2 - 6 := funext fun x => by
        rw [C90.call_plain ⟨rfl, rfl⟩]
        exact hj_inflating x
      rw [hg]
      refine ⟨by simp, fun c hc => ?_, fun a b ha hab hb hga hgb => ⟨-√(1 / 2), List.mem_singleton_self _, ?_, ?_⟩⟩
      · rw [List.mem_singleton] at hc
        subst hc
        refine ⟨by linarith, h4.le, ?_, ⟨-3, by linarith, by linarith, fun x hx _ => ?_⟩, fun _ => ⟨-1 / 10, h4, fun x hx => ?_⟩⟩
        · rw [neg_sq, h1]; norm_num
        · have := neg x hx.2; simp only [Direction.val]; push_cast; linarith
        · have := pos x hx.1 hx.2; simp only [Direction.val]; push_cast; linarith
      · simp only [Direction.val] at hga
        push_cast at hga
        by_contra hc
        have := pos a (not_le.1 hc) (by linarith)
        linarith
      · simp only [Direction.val] at hgb
        push_cast at hgb
        by_contra hc
        have := neg b (not_le.1 hc)
        linarith
  stopped := C90.Ex.integrated.stopped

theorem called (T : ℝ) : ∃ y0 q, ICCall.slowRoll E (ic T) (C90.Ex.kw.rtol.getD (1 / 10 ^ 10)) (C90.Ex.kw.atol.getD (1 / 10 ^ 12)) C90.Ex.kw.rest (fun _ => some 0) = .ok (ic T, y0) ∧
    Requested E C90.Ex.kw (ic T) y0 q ∧ q.events = events := by
  obtain ⟨y0, hy0, -, -⟩ := C26_slowroll E (ic T) (by intro h; cases h) fun _ => some 0
  refine ⟨y0, _, ?_, requested E C90.Ex.kw (ic T) y0, rfl⟩
  simp only [ICCall.slowRoll, hy0, bind, Except.bind]

theorem solved {T : ℝ} (hT : 6 ≤ T) : Solved (ivp T) E univ (Iio 0) (ICCall.slowRoll E (ic T)) C90.Ex.kw (grid T) Exact.yHjT (-(T + 4)) (-1 / 10) := by
  obtain ⟨y0, q, hic, hq, he⟩ := called T
  have hs' : IvpShape E.idx.length q.events.length (res T) (grid T) (rows T) C90.Ex.te C90.Ex.ye := by rw [he]; exact shape T
  exact {
    run := ⟨_, y0, q, res T, rows T, C90.Ex.te, C90.Ex.ye, hic, hq, rfl, hs', rfl, by rw [he]; exact integrated hT, by rw [he]; exact C90.Ex.plain⟩
    curvature := .inl rfl
    isOpen := isOpen_Iio
    convex := convex_Iio 0
    solution := C92.Ex.trajectory
    dV := (Exact.hjPot_chain).1
    d2V := (Exact.hjPot_chain).2
    d3V := (Exact.hjPot_chain).3
    start := by show -(T + 4) < 0; linarith
    inside := by intro x hx; have := hx.2; show x < 0; linarith
    density := by
      show 0 < Exact.hjT.H2 (Exact.yHjT (-(T + 4))) + _
      rw [Exact.hjT_H2]
      have : E.K = 0 := rfl
      rw [this]; nlinarith
    sorted := by
      simp only [grid, List.pairwise_cons, List.mem_cons, List.not_mem_nil, or_false]
      refine ⟨?_, ?_, ?_, ?_, List.Pairwise.nil⟩
      · rintro x (rfl | rfl | rfl) <;> linarith
      · rintro x (rfl | rfl) <;> linarith
      · rintro x rfl; linarith
      · simp
    clean := by
      intro h
      rw [accel] at h
      nlinarith }

theorem hubble {x : ℝ} (hx : x < 0) : E.hubble Exact.yHjT x = -2 * x := C94.Ex.hubble hx
theorem aH {x : ℝ} (hx : x < 0) : E.aH Exact.yHjT x = exp (-x ^ 2) * (-2 * x) := C94.Ex.aH hx

theorem order {T : ℝ} (hT : 6 ≤ T) : -(-(T + 4)) ^ 2 < -(-(T + 2)) ^ 2 ∧ -(-(T + 2)) ^ 2 + 4 ≤ -(-T) ^ 2 ∧ -(-T) ^ 2 < -1 / 2 ∧ -(-(T + 2)) ^ 2 ≤ -1 / 2 - (T ^ 2 + 1) ∧
    -1 / 2 - (T ^ 2 + 1) < -(-T) ^ 2 ∧ 0 < 12 * (-(T + 4)) ^ 2 - 6 ∧ -1 / 2 - -(-(T + 4)) ^ 2 > T ^ 2 + 1 := by
  refine ⟨?_, ?_, ?_, ?_, ?_, ?_, ?_⟩ <;> nlinarith

/-- the arrays of the returned object, and its calibration -/
theorem calibrated {T : ℝ} (hT : 6 ≤ T) (u : SI) (fmtE : ℝ → String) {raw : RawSol} (hg : raw.grid = (List.range (grid T).length).map fun j => ((grid T).getD j 0, fun i => ((rows T).getD i []).getD j 0))
    (hev : ∀ k l, raw.events.get? k = some l ↔ ∃ j ts ss, LastAt (events.map (Event.name fmtE)) k j ∧ C90.Ex.te[j]? = some ts ∧ C90.Ex.ye[j]? = some ss ∧
        l = ts.zip (ss.map fun st i => st.getD i 0)) :
    (inflationSol (C90.view E) E.pot.V E.K raw).start.N_beg = some (-(T + 4) ^ 2) ∧ (inflationSol (C90.view E) E.pot.V E.K raw).fin.N_end = some (-1 / 2) ∧
    ∃ cs cs' κ, Shooting.calState E.K (inflationSol (C90.view E) E.pot.V E.K raw) = some cs ∧
      Cal.calibrate u cs { method := "N_star", N_star := some (T ^ 2 + 1) } = .ok cs' ∧ cs'.cal = some κ := by
  obtain ⟨r1, r2, r3⟩ := hj_root
  obtain ⟨d1, d2, d3, d4, d5, d6, d7⟩ := order hT
  have key : ∀ k l, raw.events.get? k = some l → k = "Inflation_dir-1_term0" := fun k l h => by
    obtain ⟨j, ts, ss, hj, -⟩ := (hev k l).1 h
    obtain ⟨ev, -, hm, hn⟩ := C90.lastAt_event hj
    rw [events, List.mem_singleton] at hm
    rw [← hn, hm]
    rfl
  have none_of : ∀ k, k ≠ "Inflation_dir-1_term0" → firstEvent raw.events k = none := fun k hk => by
    unfold firstEvent
    cases h : raw.events.get? k with
    | none => rfl
    | some l => exact absurd (key k l h) hk
  obtain ⟨pe, hpe⟩ : ∃ pe : ℝ × (ℕ → ℝ), pe = (-√(1 / 2), fun i => (C90.Ex.st (-√(1 / 2))).getD i 0) := ⟨_, rfl⟩
  have fe : firstEvent raw.events "Inflation_dir-1_term0" = some pe := by
    have := (hev "Inflation_dir-1_term0" [pe]).2 ⟨0, _, _, ⟨rfl, fun j' hj => by
      rw [List.getElem?_eq_none (by simp [events]; omega)]; simp⟩, rfl, rfl, by rw [hpe]; rfl⟩
    unfold firstEvent
    rw [this]; rfl
  have ee : endEvent raw.events = some pe := by
    unfold endEvent
    rw [none_of _ (by decide), fe]
  have st : ∀ (x a b n : ℝ) (r : ℕ → ℝ), r 0 = a → r 1 = b → r 2 = n → x < 0 → a = -2 * x → b = -2 → n = -x ^ 2 →
      (C90.view E).N x r = -x ^ 2 ∧ (C90.view E).Hnan (x, r) = some (-2 * x) ∧ (C90.view E).inflating x r = 12 * x ^ 2 - 6 := by
    intro x a b n r h0 h1 h2 hx ha hb hn
    have hH : (C90.view E).H2 x r = (-2 * x) ^ 2 := by
      show Exact.hjT.H2 r = _
      simp only [InflT.H2, Primpy.T.get_H2, InflT.V, InflT.phi, InflT.dphidt, InflT._N, Exact.hjT, Exact.hjPot, h0, h1, h2, ha, hb, hn]; ring
    refine ⟨by show r 2 = _; rw [h2, hn], ?_, ?_⟩
    · unfold EqView.Hnan
      rw [hH, nanSqrt, if_pos (sq_nonneg _), sqrt_sq (by linarith)]
    · show Exact.hjT.inflating r = _
      simp only [InflT.inflating, InflT.V, InflT.phi, InflT.dphidt, Exact.hjT, Exact.hjPot, h0, h1, ha, hb]; ring
  have hpe' := st pe.1 _ _ _ pe.2 rfl rfl rfl (by rw [hpe]; simp) (by rw [hpe]; rfl) (by rw [hpe]; rfl) (by rw [hpe]; rfl)
  have pe1 : pe.1 = -√(1 / 2) := by rw [hpe]
  obtain ⟨g0, g1, g2, g3, hgrid, p0, p1, p2, p3⟩ : ∃ g0 g1 g2 g3 : ℕ → ℝ, raw.grid = [(-(T + 4), g0), (-(T + 2), g1), (-T, g2), (-1 / 10, g3)] ∧
      (g0 0 = -2 * -(T + 4) ∧ g0 1 = -2 ∧ g0 2 = -(-(T + 4)) ^ 2) ∧ (g1 0 = -2 * -(T + 2) ∧ g1 1 = -2 ∧ g1 2 = -(-(T + 2)) ^ 2) ∧ (g2 0 = -2 * -T ∧ g2 1 = -2 ∧ g2 2 = -(-T) ^ 2) ∧
      (g3 0 = -2 * (-1 / 10) ∧ g3 1 = -2 ∧ g3 2 = -(-1 / 10) ^ 2) := by
    refine ⟨_, _, _, _, hg, ?_, ?_, ?_, ?_⟩ <;> refine ⟨?_, ?_, ?_⟩ <;> simp [rows, grid]
  have hfirst : raw.first = (-(T + 4), g0) := (List.cons.inj hgrid).1
  have q0 := st (-(T + 4)) _ _ _ g0 p0.1 p0.2.1 p0.2.2 (by linarith) rfl rfl rfl
  have q1 := st (-(T + 2)) _ _ _ g1 p1.1 p1.2.1 p1.2.2 (by linarith) rfl rfl rfl
  have q2 := st (-T) _ _ _ g2 p2.1 p2.2.1 p2.2.2 (by linarith) rfl rfl rfl
  have q3 := st (-1 / 10) _ _ _ g3 p3.1 p3.2.1 p3.2.2 (by norm_num) rfl rfl rfl
  have hst : postStart (C90.view E) raw = ⟨some (-(-(T + 4)) ^ 2), some (-2 * -(T + 4)), some (-(-(T + 4)) ^ 2 + log (-2 * -(T + 4))), none⟩ := by
    unfold postStart
    rw [if_neg (by rw [none_of _ (by decide)]; simp), if_pos (Or.inl (by rw [hfirst, q0.2.2]; exact d6.le)), hfirst, q0.2.1, q0.1]
    dsimp only
    rw [Option.bind_some, Option.bind_some, nanLog, if_pos (by linarith)]
    rfl
  have hen : ∃ f v h l, postEnd (C90.view E) E.pot.V raw = ⟨some (-1 / 2), f, some h, some l, some v, none⟩ := by
    unfold postEnd
    rw [ee]
    dsimp only
    rw [hpe'.1, hpe'.2.1, pe1]
    refine ⟨some ((C90.view E).phi (-√(1 / 2)) pe.2), E.pot.V ((C90.view E).phi (-√(1 / 2)) pe.2), -2 * -√(1 / 2), -1 / 2 + log (-2 * -√(1 / 2)), ?_⟩
    rw [Option.bind_some, nanLog, if_pos (by linarith), Option.map_some, neg_sq, r1, show -(1 / 2 : ℝ) = -1 / 2 by norm_num]
  obtain ⟨f, v, hh, ll, hen⟩ := hen
  obtain ⟨a0, ha0⟩ : ∃ a, a = -(-(T + 4)) ^ 2 := ⟨_, rfl⟩
  obtain ⟨a1, ha1⟩ : ∃ a, a = -(-(T + 2)) ^ 2 := ⟨_, rfl⟩
  obtain ⟨a2, ha2⟩ : ∃ a, a = -(-T) ^ 2 := ⟨_, rfl⟩
  obtain ⟨a3, ha3⟩ : ∃ a : ℝ, a = -(-1 / 10) ^ 2 := ⟨_, rfl⟩
  have n0 : (C90.view E).N (-(T + 4)) g0 = a0 := by rw [q0.1, ha0]
  have n1 : (C90.view E).N (-(T + 2)) g1 = a1 := by rw [q1.1, ha1]
  have n2 : (C90.view E).N (-T) g2 = a2 := by rw [q2.1, ha2]
  have n3 : (C90.view E).N (-1 / 10) g3 = a3 := by rw [q3.1, ha3]
  have o1 : a0 < a1 := by rw [ha0, ha1]; exact d1
  have o2 : a1 + 4 ≤ a2 := by rw [ha1, ha2]; exact d2
  have o3 : a2 < -1 / 2 := by rw [ha2]; exact d3
  have o4 : -1 / 2 < a3 := by rw [ha3]; norm_num
  rw [← ha0] at hst d7
  refine ⟨by rw [show (inflationSol (C90.view E) E.pot.V E.K raw).start = postStart (C90.view E) raw from rfl, hst, ha0, neg_sq],
    by rw [show (inflationSol (C90.view E) E.pot.V E.K raw).fin = postEnd (C90.view E) E.pot.V raw from rfl, hen], ?_⟩
  obtain ⟨cs, hcs, hcK, hcN, hcL, hcI⟩ : ∃ cs, Shooting.calState E.K (inflationSol (C90.view E) E.pot.V E.K raw) = some cs ∧ cs.K = 0 ∧ cs.N = [a0, a1, a2, a3] ∧
      (∃ l0 l1 l2 l3, cs.logaH = [l0, l1, l2, l3]) ∧ cs.infl = some ⟨a0, -1 / 2, -1 / 2 - a0, v, hh, a0 + log (-2 * -(T + 4)), ll, [false, true, true, false]⟩ := by
    have m1 : (decide (a0 < a0) && decide (a0 < -1 / 2)) = false := by simp
    have m2 : (decide (a0 < a1) && decide (a1 < -1 / 2)) = true := by simp; constructor <;> linarith
    have m3 : (decide (a0 < a2) && decide (a2 < -1 / 2)) = true := by simp; constructor <;> linarith
    have m4 : (decide (a0 < a3) && decide (a3 < -1 / 2)) = false := by simp; intro _; linarith
    have lg : ∀ x : ℝ, x < 0 → nanLog (-2 * x) = some (log (-2 * x)) := fun x hx => by rw [nanLog, if_pos (by linarith)]
    refine ⟨⟨0, [a0, a1, a2, a3], [a0 + log (-2 * -(T + 4)), a1 + log (-2 * -(T + 2)), a2 + log (-2 * -T), a3 + log (-2 * (-1 / 10))], [-2 * -(T + 4), -2 * -(T + 2), -2 * -T, -2 * (-1 / 10)],
      some ⟨a0, -1 / 2, -1 / 2 - a0, v, hh, a0 + log (-2 * -(T + 4)), ll, [false, true, true, false]⟩, ⟨none, none, none, none, none, none⟩, none⟩, ?_, rfl, rfl, ⟨_, _, _, _, rfl⟩, rfl⟩
    simp only [inflationSol, hst, hen, hgrid, List.map_cons, List.map_nil, n0, n1, n2, n3, q0.2.1, q1.2.1, q2.2.1, q3.2.1, lg (-(T + 4)) (by linarith), lg (-(T + 2)) (by linarith),
      lg (-T) (by linarith), lg (-1 / 10) (by norm_num), Shooting.calState, Option.bind_some, Option.map_some, List.mapM_cons, List.mapM_nil, id, Option.bind_eq_bind, Option.pure_def, m1, m2, m3, m4]
    rfl
  obtain ⟨l0, l1, l2, l3, hcL⟩ := hcL
  have hc1 : a1 ≤ -1 / 2 - (T ^ 2 + 1) := by rw [ha1]; exact d4
  have hc2 : -1 / 2 - (T ^ 2 + 1) < a2 := by rw [ha2]; exact d5
  obtain ⟨ls, hls⟩ : ∃ ls, interpL [a1, a2] [l1, l2] (-1 / 2 - (T ^ 2 + 1)) = .ok ls := by
    have : ([a1, a2].zip [l1, l2]).insertionSort (fun a b => a.1 ≤ b.1) = [(a1, l1), (a2, l2)] := by
      apply List.Pairwise.insertionSort_eq
      simp
      linarith
    unfold interpL
    rw [this]
    exact interpSorted_total hc1 ⟨_, List.mem_singleton_self _, hc2.le⟩
  have hsel : ∃ ns nc δ nr I st, Cal.flatSel u cs { method := "N_star", N_star := some (T ^ 2 + 1) } = .ok (ns, nc, ls, δ, nr, I, st) := by
    unfold Cal.flatSel
    dsimp only
    rw [if_pos rfl]
    unfold Cal.flatNstar
    dsimp only
    rw [if_neg (by nlinarith), hcI, hcN, hcL]
    dsimp only
    rw [if_neg (by linarith)]
    have e1 : maskSel [a0, a1, a2, a3] [false, true, true, false] = [a1, a2] := rfl
    have e2 : maskSel [l0, l1, l2, l3] [false, true, true, false] = [l1, l2] := rfl
    rw [e1, e2, hls]
    exact ⟨_, _, _, _, _, _, rfl⟩
  obtain ⟨ns, nc, δ, nr, I, sk, hsel⟩ := hsel
  exact ⟨cs, _, _, hcs, Cal.calibrate_flat_intro hcK rfl hsel, rfl⟩


/-- an exact integrator for a given background of four grid points -/
theorem exists_osc {δ : ℝ} {S D : Set ℝ} {pot : PotFns} {e1 e2 d2 N φ q H : ℝ → ℝ} (hδ : δ ≤ 1 / 20) (hS : IsOpen S) (u : IsUniverse S pot.V pot.dV 0 N φ q H)
    (hV : IsDerivOn D pot.V pot.dV) (hV2 : IsDerivOn D pot.dV pot.d2V) (hφ : ∀ n ∈ S, φ n ∈ D) (sr : IsSlowRoll δ S H H e1 e2 d2)
    {c x0 x1 d k : ℝ} (hsub : Icc c d ⊆ S) (hx0 : x0 ∈ Ioo c d) (hx1 : x1 ∈ Ioo c d) (hk : 0 < k) (hout : k ≤ δ * (exp (N x1) * H x1)) (he2 : e2 x0 ≠ 0)
    {b : Bg} (bi : b.indep = .t) (bK : b.K = 0) (bp : b.pot = pot) {p1 p2 p3 : Pt} (bpts : b.pts = [ptT 0 N φ q H x0, p1, p2, p3]) (bic : b.perturbation_ic = (1, 0, 0, 1))
    (hend : idxEnd b 0 100 k = .ok 2) : ∃ osc, (∃ r, solveOscode1 osc b k { vacuum := ["k", "HD", "RST"] } = .ok r) ∧
      ∀ s t, modes b k = some (s, t) → ∀ m ∈ [s, t], ExactRun osc b { vacuum := ["k", "HD", "RST"] } k m (ptT 0 N φ q H) (Ioo c d) {t ∈ Ioo c d | k ≤ δ * (exp (N t) * H t)} := by
  have hI : Ioo c d ⊆ S := Ioo_subset_Icc_self.trans hsub
  have hH : ∀ t ∈ Icc c d, 0 < H t := fun t ht => u.expanding t (hsub ht)
  have j := slow_jetT hS u hV hV2 hφ sr
  have cN : ContinuousOn N (Icc c d) := fun t ht => (u.hubble t (hsub ht)).continuousAt.continuousWithinAt
  have cH : ContinuousOn H (Icc c d) := fun t ht => (j t (hsub ht)).2.2.1.continuousAt.continuousWithinAt
  have c1 : ContinuousOn e1 (Icc c d) := fun t ht => (sr.second t (hsub ht)).continuousAt.continuousWithinAt
  have c2 : ContinuousOn e2 (Icc c d) := fun t ht => (sr.third t (hsub ht)).continuousAt.continuousWithinAt
  have cw : ContinuousOn (fun τ => (H τ * (k / (exp (N τ) * H τ))) ^ 2) (Icc c d) :=
    (cH.mul (continuousOn_const.div (cN.rexp.mul cH) fun t ht => (mul_pos (exp_pos _) (hH t ht)).ne')).pow 2
  have cg1 : ContinuousOn (fun τ => -(e1 τ * H τ ^ 2) / H τ) (Icc c d) := ((c1.mul (cH.pow 2)).neg).div cH fun t ht => (hH t ht).ne'
  have cgs : ContinuousOn (fun τ => ((1 - e1 τ + 2 * (1 + e2 τ / 2)) * H τ - -(e1 τ * H τ ^ 2) / H τ) / 2) (Icc c d) :=
    ((((continuousOn_const.sub c1).add (continuousOn_const.mul (continuousOn_const.add (c2.div_const 2)))).mul cH).sub cg1).div_const 2
  have cgt : ContinuousOn (fun τ => ((1 - e1 τ + 2 * 1) * H τ - -(e1 τ * H τ ^ 2) / H τ) / 2) (Icc c d) :=
    ((((continuousOn_const.sub c1).add continuousOn_const).mul cH).sub cg1).div_const 2
  have hx0' := Ioo_subset_Icc_self hx0
  obtain ⟨F, F1, F2, tF, oF, F0, F10⟩ := exists_mode hx0' cw cgs 1 0
  obtain ⟨G, G1, G2, tG, oG, G0, G10⟩ := exists_mode hx0' cw cgs 0 1
  obtain ⟨F', F1', F2', tF', oF', F0', F10'⟩ := exists_mode hx0' cw cgt 1 0
  obtain ⟨G', G1', G2', tG', oG', G0', G10'⟩ := exists_mode hx0' cw cgt 0 1
  obtain ⟨p0, hp0⟩ : ∃ p, p = ptT 0 N φ q H x0 := ⟨_, rfl⟩
  rw [← hp0] at bpts
  obtain ⟨s, t, hst⟩ : ∃ s t, modes b k = some (s, t) := by
    unfold modes
    rw [bi]
    exact ⟨_, _, rfl⟩
  have hvac : ∀ τ ∈ Ioo c d, _ := fun τ hτ => slow_vacT hδ hS u hV hV2 hφ sr (b := b) bi bK bp hk hst (hI hτ)
  have hne : s.damping p0 ≠ t.damping p0 := by
    obtain ⟨v1, v2, -⟩ := hvac x0 hx0
    rw [hp0, v1.2, v2.2]
    intro h
    have := hH _ hx0'
    have h3 : e2 x0 * H x0 = 0 := by linarith
    rcases mul_eq_zero.1 h3 with h | h
    · exact he2 h
    · exact this.ne' h
  classical
  obtain ⟨sel, hsel⟩ : ∃ sel : List ℝ → (ℝ → ℂ) × (ℝ → ℂ), sel = fun l => if l.head? = some (s.damping p0) then (F, G) else (F', G') := ⟨_, rfl⟩
  have hbeg : idxBeg b 0 k = 0 := if_pos rfl
  have hg : ∀ m pb pe, (args b { vacuum := ["k", "HD", "RST"] } (idxBeg b 0 k) 2 m pb pe 0 0).g.head? = some (m.damping p0) := by
    intro m pb pe
    unfold args slice
    rw [hbeg, bpts]
    simp
  refine ⟨selOsc sel x1, ?_, ?_⟩
  · have hv : ∀ v ∈ ["k", "HD", "RST"], (s.vacuum v).isSome ∧ (t.vacuum v).isSome := by
      have hst' := hst
      unfold modes at hst'
      intro v hv
      simp only [List.mem_cons, List.not_mem_nil, or_false] at hv
      rw [bi] at hst'
      cases hst'
      rcases hv with rfl | rfl | rfl <;> simp [byName]
    obtain ⟨s1, hs1⟩ := Option.isSome_iff_exists.1 (hv "k" (by simp)).1
    obtain ⟨s2, hs2⟩ := Option.isSome_iff_exists.1 (hv "HD" (by simp)).1
    obtain ⟨s3, hs3⟩ := Option.isSome_iff_exists.1 (hv "RST" (by simp)).1
    obtain ⟨t1, ht1⟩ := Option.isSome_iff_exists.1 (hv "k" (by simp)).2
    obtain ⟨t2, ht2⟩ := Option.isSome_iff_exists.1 (hv "HD" (by simp)).2
    obtain ⟨t3, ht3⟩ := Option.isSome_iff_exists.1 (hv "RST" (by simp)).2
    rw [single_eq]
    unfold oneMode
    dsimp only
    rw [hbeg, hend, hst]
    simp [runs, oscCall, bpts, bic, selOsc, lateOsc, pick, combineAll, hs1, hs2, hs3, ht1, ht2, ht3, combine, ab, Bind.bind, Except.bind, Pure.pure, Except.pure]
  · intro s' t' hst' m hm stop pb pe hs hpb hpe
    rw [hst] at hst'
    cases hst'
    have hs : idxEnd b (idxBeg b 0 k) 100 k = .ok stop := hs
    rw [hbeg, hend] at hs
    have hs := Except.ok.inj hs
    subst hs
    have hpb : b.pts[idxBeg b 0 k]? = some pb := hpb
    rw [hbeg, bpts] at hpb
    obtain rfl : p0 = pb := Option.some.inj hpb
    have hx : p0.x = x0 := by rw [hp0]; rfl
    have hW : x1 ∈ {t ∈ Ioo c d | k ≤ δ * (exp (N t) * H t)} := ⟨hx1, hout⟩
    rw [hx]
    simp only [List.mem_cons, List.not_mem_nil, or_false] at hm
    have tr : ∀ (m : Mode) (w g : ℝ → ℝ), (∀ τ ∈ Ioo c d, m.frequency2 (ptT 0 N φ q H τ) = w τ ∧ m.damping (ptT 0 N φ q H τ) = g τ) → ∀ A A1 A2 : ℝ → ℂ,
        (∀ τ ∈ Ioo c d, oscillator w g A A1 A2 τ = 0) →
        ∀ τ ∈ Ioo c d, oscillator (fun τ => m.frequency2 (ptT 0 N φ q H τ)) (fun τ => m.damping (ptT 0 N φ q H τ)) A A1 A2 τ = 0 := fun m w g h A A1 A2 hA τ hτ => by
      have := hA τ hτ
      unfold oscillator at this ⊢
      dsimp only
      rw [(h τ hτ).1, (h τ hτ).2]
      exact this
    rcases hm with rfl | rfl
    · have hm := tr m _ _ (fun τ hτ => (hvac τ hτ).1)
      exact ⟨F, F1, F2, G, G1, G2, tF, tG, hm _ _ _ oF, hm _ _ _ oG, by rw [F0, Complex.ofReal_one], by rw [F10, Complex.ofReal_zero], by rw [G0, Complex.ofReal_zero],
        by rw [G10, Complex.ofReal_one], selOsc_samples sel hW _ (by rw [hsel]; exact if_pos (hg m p0 pe))⟩
    · have hm := tr m _ _ (fun τ hτ => (hvac τ hτ).2.1)
      exact ⟨F', F1', F2', G', G1', G2', tF', tG', hm _ _ _ oF', hm _ _ _ oG', by rw [F0', Complex.ofReal_one], by rw [F10', Complex.ofReal_zero], by rw [G0', Complex.ofReal_zero],
        by rw [G10', Complex.ofReal_one], selOsc_samples sel hW _ (by
          rw [hsel]; refine if_neg ?_
          rw [hg m p0 pe]
          intro h
          exact hne (Option.some.inj h).symm)⟩

theorem slowRoll_hj {T : ℝ} (hT : 6 ≤ T) : IsSlowRoll (1 / (T - 1) ^ 2) (Iio (-(T - 1))) (E.rate Exact.yHjT) (E.hubble Exact.yHjT) (fun t => 1 / (2 * t ^ 2)) (fun t => 1 / t ^ 2) (fun t => 1 / t ^ 4) := by
  have neg : ∀ {x : ℝ}, x ∈ Iio (-(T - 1)) → x < 0 := fun {x} hx => by have : x < -(T - 1) := hx; linarith
  have hr : ∀ {x : ℝ}, x ∈ Iio (-(T - 1)) → E.rate Exact.yHjT x = -2 * x := fun {x} hx => hubble (neg hx)
  have sq : ∀ {x : ℝ}, x ∈ Iio (-(T - 1)) → (T - 1) ^ 2 ≤ x ^ 2 := fun {x} hx => by have : x < -(T - 1) := hx; nlinarith
  have hT1 : 0 < (T - 1) ^ 2 := by nlinarith
  refine ⟨fun x hx => ?_, fun x hx => ?_, fun x hx => ?_, fun x hx => ?_⟩
  · have hx0 := neg hx
    rw [hr hx]
    have h1 : HasDerivAt (fun x : ℝ => -2 * x) (-2) x := by simpa using (hasDerivAt_id x).const_mul (-2)
    have h2 := (h1.log (by linarith : -2 * x ≠ 0)).congr_of_eventuallyEq (f₁ := fun x => log (E.hubble Exact.yHjT x)) (by
      filter_upwards [Iio_mem_nhds hx0] with z hz
      rw [hubble hz])
    refine h2.congr_deriv ?_
    have : x ≠ 0 := hx0.ne
    field_simp
  · have hx0 : x ≠ 0 := (neg hx).ne
    rw [hr hx]
    have h1 := ((hasDerivAt_id x).fun_pow 2).const_mul 2
    have h2 := (hasDerivAt_const x (1 : ℝ)).fun_div h1 (by simpa using hx0)
    refine hderiv (f := fun t : ℝ => 1 / (2 * t ^ 2)) h2 ?_
    simp only [id]
    field_simp
    norm_num
  · have hx0 : x ≠ 0 := (neg hx).ne
    rw [hr hx]
    have h1 := ((hasDerivAt_id x).fun_pow 2)
    have h2 := (hasDerivAt_const x (1 : ℝ)).fun_div h1 (by simpa using hx0)
    refine hderiv (f := fun t : ℝ => 1 / t ^ 2) h2 ?_
    simp only [id]
    field_simp
    norm_num
  · have hs := sq hx
    have hx2 : 0 < x ^ 2 := by linarith
    have h1 : 1 / x ^ 2 ≤ 1 / (T - 1) ^ 2 := one_div_le_one_div_of_le hT1 hs
    refine ⟨by positivity, ?_, ?_, ?_⟩
    · exact one_div_le_one_div_of_le hT1 (by linarith)
    · rw [abs_of_nonneg (by positivity)]; exact h1
    · rw [abs_of_nonneg (by positivity)]
      refine one_div_le_one_div_of_le hT1 ?_
      have : 1 ≤ x ^ 2 := by nlinarith
      nlinarith

theorem scales {T : ℝ} (hT : 6 ≤ T) :
    E.aH Exact.yHjT (-(T + 4)) ≤ 1 / (T - 1) ^ 2 * E.aH Exact.yHjT (-(T + 2)) ∧ E.aH Exact.yHjT (-(T + 2)) ≤ 1 / (T - 1) ^ 2 * E.aH Exact.yHjT (-T) ∧
    100 * E.aH Exact.yHjT (-(T + 2)) < E.aH Exact.yHjT (-T) ∧ E.aH Exact.yHjT (-(T + 4)) < E.aH Exact.yHjT (-(T + 2)) ∧ 0 < E.aH Exact.yHjT (-(T + 4)) := by
  rw [aH (by linarith), aH (by linarith), aH (by linarith)]
  have hT1 : 0 < (T - 1) ^ 2 := by nlinarith
  have e1 : exp (-(-(T + 2)) ^ 2) = exp (-(-(T + 4)) ^ 2) * exp (T + 3) ^ 4 := by rw [← exp_nat_mul, ← exp_add]; congr 1; push_cast; ring
  have e2 : exp (-(-T) ^ 2) = exp (-(-(T + 2)) ^ 2) * exp (T + 1) ^ 4 := by rw [← exp_nat_mul, ← exp_add]; congr 1; push_cast; ring
  have b1 : (T + 4) ^ 4 ≤ exp (T + 3) ^ 4 := pow_le_pow_left₀ (by linarith) (by linarith [add_one_le_exp (T + 3)]) 4
  have b2 : (T + 2) ^ 4 ≤ exp (T + 1) ^ 4 := pow_le_pow_left₀ (by linarith) (by linarith [add_one_le_exp (T + 1)]) 4
  have p0 := exp_pos (-(-(T + 4)) ^ 2)
  have p1 := exp_pos (-(-(T + 2)) ^ 2)
  obtain ⟨A, hA⟩ : ∃ A, A = exp (-(-(T + 4)) ^ 2) := ⟨_, rfl⟩
  obtain ⟨B, hB⟩ : ∃ B, B = exp (-(-(T + 2)) ^ 2) := ⟨_, rfl⟩
  obtain ⟨X, hX⟩ : ∃ X, X = exp (T + 3) ^ 4 := ⟨_, rfl⟩
  obtain ⟨Z, hZ⟩ : ∃ Z, Z = exp (T + 1) ^ 4 := ⟨_, rfl⟩
  rw [e2, ← hZ, ← hB]
  rw [← hX, ← hA, ← hB] at e1
  rw [← hA]
  rw [← hA] at p0
  rw [← hB] at p1
  rw [← hX] at b1
  rw [← hZ] at b2
  clear hA hB hX hZ e2
  have c1 : (T - 1) ^ 2 * (T + 4) ≤ X * (T + 2) := by
    have : (T - 1) ^ 2 * (T + 4) ≤ (T + 4) ^ 4 * (T + 2) := by
      have h1 : (T - 1) ^ 2 ≤ (T + 4) ^ 2 := by nlinarith
      have h2 : T + 4 ≤ (T + 4) ^ 2 * (T + 2) := by nlinarith
      calc (T - 1) ^ 2 * (T + 4) ≤ (T + 4) ^ 2 * ((T + 4) ^ 2 * (T + 2)) := mul_le_mul h1 h2 (by linarith) (by positivity)
        _ = _ := by ring
    exact this.trans (mul_le_mul_of_nonneg_right b1 (by linarith))
  have c2 : (T - 1) ^ 2 * (T + 2) ≤ Z * T := by
    have : (T - 1) ^ 2 * (T + 2) ≤ (T + 2) ^ 4 * T := by
      have h1 : (T - 1) ^ 2 ≤ (T + 2) ^ 2 := by nlinarith
      have h2 : T + 2 ≤ (T + 2) ^ 2 * T := by nlinarith
      calc (T - 1) ^ 2 * (T + 2) ≤ (T + 2) ^ 2 * ((T + 2) ^ 2 * T) := mul_le_mul h1 h2 (by linarith) (by positivity)
        _ = _ := by ring
    exact this.trans (mul_le_mul_of_nonneg_right b2 (by linarith))
  have c3 : 100 * (T + 2) < Z * T := by
    have h1 : (8 : ℝ) ^ 3 ≤ (T + 2) ^ 3 := pow_le_pow_left₀ (by norm_num) (by linarith) 3
    have h2 : 100 * (T + 2) < (T + 2) ^ 4 * T := by
      have : (T + 2) ^ 4 * T = (T + 2) ^ 3 * ((T + 2) * T) := by ring
      rw [this]
      have h3 : (8 : ℝ) ^ 3 * ((T + 2) * T) ≤ (T + 2) ^ 3 * ((T + 2) * T) := mul_le_mul_of_nonneg_right h1 (by nlinarith)
      nlinarith
    exact h2.trans_le (mul_le_mul_of_nonneg_right b2 (by linarith))
  have c4 : T + 4 < X * (T + 2) := by
    have h1 : 1 < (T - 1) ^ 2 := by nlinarith
    nlinarith
  refine ⟨?_, ?_, ?_, ?_, by nlinarith⟩
  · rw [one_div, ← div_eq_inv_mul, le_div_iff₀ hT1, e1]
    have := mul_le_mul_of_nonneg_left c1 p0.le
    linarith
  · rw [one_div, ← div_eq_inv_mul, le_div_iff₀ hT1]
    have := mul_le_mul_of_nonneg_left c2 p1.le
    linarith
  · have := mul_lt_mul_of_pos_left c3 p1
    linarith
  · rw [e1]
    have := mul_lt_mul_of_pos_left c4 p0
    linarith

/-- the whole run: `solve`, `calibrate_scale_factor`, `solve_oscode` -/
theorem run {T : ℝ} (hT : 6 ≤ T) (u : SI) (fmtE : ℝ → String) : ∃ (o : Dict Attr) (s : InflSol) (sr : SlowRoll) (cs : CalState) (sp : Unit → List (ℝ × ℝ) → ℝ → ℝ),
    solve (ivp T) fmtE E (ICCall.slowRoll E (ic T)) [] C90.Ex.kw = .ok (o, s) ∧ slowRoll E o s = some sr ∧ Shooting.calState E.K s = some cs ∧ Interpolates sp ∧
    (∀ xb xe, ReportedPhase E Exact.yHjT (-(T + 4)) (-1 / 10) s xb xe → FreshPoint E Exact.yHjT (grid T) xb xe 1 (-(T + 2))) ∧
    ∀ m n, m = "CGS" ∧ n ≤ 3 ∨ m = "STE" → ∃ q b osc P, calibrateP u sp sr ⟨cs, Caches.empty, none⟩ { method := "N_star", N_star := some (T ^ 2 + 1) } m () n = .ok q ∧ bgOf E o s q.st = some b ∧
      solveOscode osc b [E.aH Exact.yHjT (-(T + 2))] { vacuum := ["k", "HD", "RST"] } = .ok P ∧
      ExactNumerics (1 / (T - 1) ^ 2) E Exact.yHjT (Ioo (-(T + 5)) (-(T - 1 / 2))) (grid T) osc b { vacuum := ["k", "HD", "RST"] } (E.aH Exact.yHjT (-(T + 2))) := by
  obtain ⟨y0, q, hic, hq, he⟩ := called T
  have hE : E.Shipped := by intro K p h; cases h
  have hs' : IvpShape E.idx.length q.events.length (res T) (grid T) (rows T) C90.Ex.te C90.Ex.ye := by rw [he]; exact shape T
  obtain ⟨o', raw, hs1, hg, hev, -⟩ := C90_solve (ivp T) fmtE E hE (ICCall.slowRoll E (ic T)) C90.Ex.kw _ y0 q hic hq (res := res T) rfl hs'
  obtain ⟨hNb, hNe, cs, cs', κ, hcs, hcal, hκ⟩ := calibrated hT u fmtE hg (by rw [he] at hev; exact hev)
  obtain ⟨o, s, sr, hs, hsr, -, -⟩ := C94_data fmtE (solved hT)
  have hse : (o', inflationSol (C90.view E) E.pot.V E.K raw) = (o, s) := Except.ok.inj (hs1.symm.trans hs)
  have hse : inflationSol (C90.view E) E.pot.V E.K raw = s := (Prod.mk.inj hse).2
  rw [hse] at hcs hNb hNe
  obtain ⟨sp, hsp⟩ : ∃ sp : Unit → List (ℝ × ℝ) → ℝ → ℝ, Interpolates sp := ⟨_, interpolates_lookup⟩
  obtain ⟨g, hg'⟩ := gridOf_calibrate u sr hcal
  obtain ⟨sc1, sc2, sc3, sc4, sc5⟩ := scales hT
  refine ⟨o, s, sr, cs, sp, hs, hsr, hcs, hsp, fun xb xe hph => ⟨rfl, ?_, fun l v hl hv => ?_⟩, fun m n hm => ?_⟩
  · have h1 := hph.begins.symm.trans hNb
    have h2 := hph.ends.symm.trans hNe
    have h1 : -xb ^ 2 = -(T + 4) ^ 2 := Option.some.inj h1
    have h2 : -xe ^ 2 = -1 / 2 := Option.some.inj h2
    obtain ⟨o1, o2, o3⟩ := hph.ordered
    constructor
    · by_contra hc
      have hc := not_lt.1 hc
      have : xb ≤ -1 / 10 := by linarith
      nlinarith
    · by_contra hc
      have hc := not_lt.1 hc
      nlinarith
  · have : l = 0 := by omega
    subst this
    have : v = -(T + 4) := (Option.some.inj hv).symm
    rw [this]
    exact sc4.ne
  · obtain ⟨Q, hQ⟩ : ∃ Q, calibrateP u sp sr ⟨cs, Caches.empty, none⟩ { method := "N_star", N_star := some (T ^ 2 + 1) } m () n = .ok Q := by
      rcases hm with ⟨rfl, hn⟩ | rfl
      · refine ⟨⟨cs', deriveCGS sp () n g Caches.empty, some (params (specCGS sp () n g))⟩, ?_⟩
        unfold calibrateP
        rw [hcal]
        simp [deriveP, hg', derive, deriveCGS, hn]
      · refine ⟨⟨cs', deriveSTE sp () g Caches.empty, some (params (specSTE sp () g))⟩, ?_⟩
        unfold calibrateP
        rw [hcal]
        simp [deriveP, hg', derive, deriveSTE]
    have hcalQ := C94.calibrateP_ok rfl hQ
    obtain ⟨c, b, -, hb, bi, bK, bp, bpts, bic, -, -⟩ := C95_background (solved hT) hs hcs u hcalQ
    have hpts : b.pts = [E.point Exact.yHjT (-(T + 4)), E.point Exact.yHjT (-(T + 2)), E.point Exact.yHjT (-T), E.point Exact.yHjT (-1 / 10)] := bpts
    obtain ⟨k, hk⟩ : ∃ k, k = E.aH Exact.yHjT (-(T + 2)) := ⟨_, rfl⟩
    have hk0 : 0 < k := by rw [hk]; linarith
    obtain ⟨p0, hp0⟩ : ∃ p, p = E.point Exact.yHjT (-(T + 4)) := ⟨_, rfl⟩
    obtain ⟨p1, hp1⟩ : ∃ p, p = E.point Exact.yHjT (-(T + 2)) := ⟨_, rfl⟩
    obtain ⟨p2, hp2⟩ : ∃ p, p = E.point Exact.yHjT (-T) := ⟨_, rfl⟩
    obtain ⟨p3, hp3⟩ : ∃ p, p = E.point Exact.yHjT (-1 / 10) := ⟨_, rfl⟩
    rw [← hp1, ← hp2, ← hp3] at hpts
    have hl0 : p0.logaH = log (E.aH Exact.yHjT (-(T + 4))) := by rw [hp0]; rfl
    have hl1 : p1.logaH = log k := by rw [hp1, hk]; rfl
    have hl2 : p2.logaH = log (E.aH Exact.yHjT (-T)) := by rw [hp2]; rfl
    have hN : 10 ≤ p2.N - p0.N := by
      rw [hp2, hp0]
      show 10 ≤ -(-T) ^ 2 - -(-(T + 4)) ^ 2
      nlinarith
    have hend : idxEnd b 0 100 k = .ok 2 := by
      have l100 : 0 < log 100 := log_pos (by norm_num)
      have e0 : ¬ endTest k 100 p0.logaH := by
        rintro ⟨-, -, h | h | h⟩
        · linarith
        · norm_num at h
        · rw [hl0] at h
          have : log (E.aH Exact.yHjT (-(T + 4))) ≤ log k := log_le_log sc5 (by rw [hk]; exact sc4.le)
          linarith
      have e1 : ¬ endTest k 100 p1.logaH := by
        rintro ⟨-, -, h | h | h⟩
        · linarith
        · norm_num at h
        · rw [hl1] at h; linarith
      have e2 : endTest k 100 p2.logaH := ⟨hk0.le, by norm_num, Or.inr (Or.inr (by
        rw [hl2, lt_sub_iff_add_lt, ← log_mul (by norm_num) hk0.ne']
        exact log_lt_log (by positivity) (by rw [hk]; exact sc3)))⟩
      have a : (argwhere (fun p => endTest k 100 p.logaH) b.pts).head? = some 2 := by
        rw [hpts, ← hp0]
        by_cases e3 : endTest k 100 p3.logaH
        · simp [argwhere, e0, e1, e2, e3, List.range, List.range.loop]
        · simp [argwhere, e0, e1, e2, e3, List.range, List.range.loop]
      unfold idxEnd
      rw [a, hpts, ← hp0]
      simp
      intro h
      linarith
    have hsub : Ioo (-(T + 5)) (-(T - 1 / 2)) ⊆ Iio (-(T - 1)) := fun x hx => by have := hx.2; show x < -(T - 1); linarith
    have uni := (InflT.universe Exact.hjT_sol C92.Ex.trajectory.2.1)
    have uni := uni.mono (S' := Iio (-(T - 1))) fun x hx => by have : x < -(T - 1) := hx; show x < 0; linarith
    have hδ : 1 / (T - 1) ^ 2 ≤ 1 / 20 := one_div_le_one_div_of_le (by norm_num) (by nlinarith)
    obtain ⟨osc, ⟨r, hr⟩, hex⟩ := exists_osc hδ isOpen_Iio uni Exact.hjPot_chain.1 Exact.hjPot_chain.2 (fun _ _ => mem_univ _) (slowRoll_hj hT)
      (c := -(T + 5)) (d := -(T - 1 / 2)) (x0 := -(T + 4)) (x1 := -T) (k := k) (fun x hx => by have := hx.2; show x < -(T - 1); linarith) ⟨by linarith, by linarith⟩ ⟨by linarith, by linarith⟩ hk0
      (by rw [hk]; exact sc2) (one_div_ne_zero (pow_ne_zero 2 (by linarith))) bi bK bp hpts bic hend
    obtain ⟨P, hP⟩ := (C53_errors osc b { vacuum := ["k", "HD", "RST"] } [k]).1.2 fun k' hk' => by rw [List.mem_singleton] at hk'; rw [hk']; exact ⟨r, hr⟩
    rw [← hk]
    refine ⟨Q, b, osc, P, hQ, hb, hP, ⟨hk0, rfl, fun stop hst i x h1 h2 hx => ?_, fun x hx => ?_, hex⟩⟩
    · have hbeg : idxBeg b 0 k = 0 := if_pos rfl
      have hst : idxEnd b (idxBeg b 0 k) 100 k = .ok stop := hst
      rw [hbeg, hend] at hst
      have hst := Except.ok.inj hst
      have h2 : i ≤ max (idxBeg b 0 k) stop := h2
      rw [hbeg, ← hst] at h2
      have h2 : i ≤ 2 := h2
      match i with
      | 0 => have : x = -(T + 4) := (Option.some.inj hx).symm; rw [this]; constructor <;> linarith
      | 1 => have : x = -(T + 2) := (Option.some.inj hx).symm; rw [this]; constructor <;> linarith
      | 2 => have : x = -T := (Option.some.inj hx).symm; rw [this]; constructor <;> linarith
      | i + 3 => omega
    · have hbeg : idxBeg b 0 k = 0 := if_pos rfl
      have hx : (grid T)[idxBeg b 0 k]? = some x := hx
      rw [hbeg] at hx
      have : x = -(T + 4) := (Option.some.inj hx).symm
      rw [this, hk]
      exact sc1

/-- `C95_leading_order` applies, with `δ = 1/25`: the numerical and the slow-roll spectra of the mode that leaves the horizon at `t = -8`. -/
example (u : SI) (fmtE : ℝ → String) : ∃ (o : Dict Attr) (s : InflSol) (sr : SlowRoll) (sp : Unit → List (ℝ × ℝ) → ℝ → ℝ) (q : PSol) (b : Bg) (osc : Oscode) (P : PPS) (κ : ℝ) (L : List (Option ℝ)) (Ps As : ℝ),
    solve (ivp 6) fmtE E (ICCall.slowRoll E (ic 6)) [] C90.Ex.kw = .ok (o, s) ∧ bgOf E o s q.st = some b ∧
    solveOscode osc b [E.aH Exact.yHjT (-8)] { vacuum := ["k", "HD", "RST"] } = .ok P ∧ P.k_iMpc[0]? = some κ ∧ P.P_s.get? "RST" = some L ∧ L[0]? = some (some Ps) ∧
    ask sp sr q Spectrum.s "CGS" 0 () κ = .ok As ∧ 0 < As ∧ |Ps - As| ≤ slowP * (1 / 25) * As := by
  have h6 : (6 : ℝ) ≤ 6 := le_rfl
  obtain ⟨o, s, sr, cs, sp, hs, hsr, hcs, hsp, hfr, hrun⟩ := run h6 u fmtE
  obtain ⟨q, b, osc, P, hq, hb, hP, X⟩ := hrun "CGS" 0 (.inl ⟨rfl, by norm_num⟩)
  have hroll := (slowRoll_hj h6).mono (S' := Ioo (-(6 + 5)) (-(6 - 1 / 2))) fun x hx => by have := hx.2; show x < -(6 - 1); linarith
  obtain ⟨xb, xe, hph, hall⟩ := C95_leading_order (solved h6) hs hsr hcs u hsp rfl rfl hb rfl (by norm_num) (by norm_num) isOpen_Ioo isPreconnected_Ioo
    (fun x hx => by have := hx.2; show x < 0; linarith) hroll hP hq
  obtain ⟨κ, L, L', Ps, Pt, As, At, a1, a2, a3, -, -, a6, -, a8, -, a10, -⟩ := hall 0 _ rfl X 1 _ (hfr xb xe hph) ⟨by norm_num, by norm_num⟩ rfl "RST" (by simp)
  have n8 : (-(6 + 2) : ℝ) = -8 := by norm_num
  have n25 : (1 / (6 - 1) ^ 2 : ℝ) = 1 / 25 := by norm_num
  rw [n8] at hP
  rw [n25] at a10
  exact ⟨o, s, sr, sp, q, b, osc, P, κ, L, Ps, As, hs, hb, hP, a1, a2, a3, a6, a8, a10⟩

theorem small {C : ℝ} (hC : 0 < C) : ∃ T : ℝ, 6 ≤ T ∧ 0 < (T - 1) ^ 2 ∧ C * (1 / (T - 1) ^ 2) ≤ 1 ∧ 1 / (T - 1) ^ 2 ≤ 1 / 20 := by
  have h1 : 0 < (6 + C - 1) ^ 2 := pow_pos (by linarith) 2
  refine ⟨6 + C, by linarith, h1, ?_, one_div_le_one_div_of_le (by norm_num) (by nlinarith)⟩
  rw [mul_one_div, div_le_one h1]
  nlinarith

/-- `C95_CGS` and `C95_STE` apply, for all orders. -/
example (u : SI) (fmtE : ℝ → String) (m : String) (n : ℕ) (hm : m = "CGS" ∧ n ≤ 3 ∨ m = "STE") : ∃ (T : ℝ) (o : Dict Attr) (s : InflSol) (sr : SlowRoll) (sp : Unit → List (ℝ × ℝ) → ℝ → ℝ) (q : PSol) (b : Bg)
    (osc : Oscode) (P : PPS) (κ : ℝ) (L : List (Option ℝ)) (Ps As : ℝ), 6 ≤ T ∧
    solve (ivp T) fmtE E (ICCall.slowRoll E (ic T)) [] C90.Ex.kw = .ok (o, s) ∧ bgOf E o s q.st = some b ∧
    solveOscode osc b [E.aH Exact.yHjT (-(T + 2))] { vacuum := ["k", "HD", "RST"] } = .ok P ∧ P.k_iMpc[0]? = some κ ∧ P.P_s.get? "RST" = some L ∧ L[0]? = some (some Ps) ∧
    ask sp sr q Spectrum.s m n () κ = .ok As ∧ 0 < As ∧ |Ps - As| ≤ methodC * (1 / (T - 1) ^ 2) * As := by
  obtain ⟨T, h6, hT1, hC, hδ⟩ := small methodC_pos
  obtain ⟨o, s, sr, cs, sp, hs, hsr, hcs, hsp, hfr, hrun⟩ := run h6 u fmtE
  obtain ⟨q, b, osc, P, hq, hb, hP, X⟩ := hrun m n hm
  have hroll := (slowRoll_hj h6).mono (S' := Ioo (-(T + 5)) (-(T - 1 / 2))) fun x hx => by have := hx.2; show x < -(T - 1); linarith
  have hsub : Ioo (-(T + 5)) (-(T - 1 / 2)) ⊆ Iio 0 := fun x hx => by have := hx.2; show x < 0; linarith
  have hx : -(T + 2) ∈ Ioo (-(T + 5)) (-(T - 1 / 2)) := ⟨by linarith, by linarith⟩
  -- the field moves at constant speed
  have d3 : ∀ (pt : ℝ → SRPoint), (∀ x ∈ Iio (0 : ℝ), SlowRollAt ((∃ e, E = .N e) ∨ E.K = 0) (E.rate Exact.yHjT) (E.hubble Exact.yHjT) (E.velocity Exact.yHjT) pt x) →
      |(pt (-(T + 2))).d3| ≤ 1 / (T - 1) ^ 2 := fun pt hpt => by
    have hv : E.velocity Exact.yHjT = fun _ => (-2 : ℝ) := rfl
    have r0 : ∀ x ∈ Iio (0 : ℝ), 0 < E.rate Exact.yHjT x := fun x hx => C94.rate_pos C92.Ex.trajectory hx
    have H0 : ∀ x ∈ Iio (0 : ℝ), 0 < E.hubble Exact.yHjT x := fun x hx => C95.hubble_pos C92.Ex.trajectory hx
    have ev : ∀ {f : ℝ → ℝ} {x : ℝ}, x ∈ Iio (0 : ℝ) → (∀ z ∈ Iio (0 : ℝ), f z = 0) → HasDerivAt f 0 x := fun {f x} hx hf =>
      (hasDerivAt_const x (0 : ℝ)).congr_of_eventuallyEq (by filter_upwards [Iio_mem_nhds hx] with z hz; exact hf z hz)
    have z1 : ∀ x ∈ Iio (0 : ℝ), (pt x).d1 = 0 := fun x hx => by
      have h := (hpt x hx).d1 (by rw [hv]; norm_num)
      rw [hv] at h
      have h0 := h.unique (hasDerivAt_const x (-2 : ℝ))
      have := r0 x hx
      dsimp only at h0
      have : E.rate Exact.yHjT x * (pt x).d1 = 0 := by linarith
      exact (mul_eq_zero.1 this).resolve_left (r0 x hx).ne'
    have z2 : ∀ x ∈ Iio (0 : ℝ), (pt x).d2 = 0 := fun x hx => by
      have h := (hpt x hx).d2 (.inr rfl) (by rw [hv]; norm_num)
      have h0 := h.unique (ev hx fun z hz => by rw [z1 z hz, mul_zero])
      rw [hv] at h0
      dsimp only at h0
      have : (E.rate Exact.yHjT x * E.hubble Exact.yHjT x) * (pt x).d2 = 0 := by linarith
      exact (mul_eq_zero.1 this).resolve_left (mul_pos (r0 x hx) (H0 x hx)).ne'
    have z3 : (pt (-(T + 2))).d3 = 0 := by
      have hx := hsub hx
      have h := (hpt _ hx).d3 (.inr rfl) (by rw [hv]; norm_num)
      have h0 := h.unique (ev hx fun z hz => by rw [z2 z hz, mul_zero])
      rw [hv] at h0
      dsimp only at h0
      have : (E.rate Exact.yHjT (-(T + 2)) * E.hubble Exact.yHjT (-(T + 2)) ^ 2) * (pt (-(T + 2))).d3 = 0 := by linarith
      exact (mul_eq_zero.1 this).resolve_left (mul_pos (r0 _ hx) (pow_pos (H0 _ hx) 2)).ne'
    rw [z3, abs_zero]
    positivity
  rcases hm with ⟨rfl, hn⟩ | rfl
  · obtain ⟨pt, xb, xe, hpt, hph, hall⟩ := C95_CGS (solved h6) hs hsr hcs u hsp rfl rfl hb rfl (by positivity) hδ isOpen_Ioo isPreconnected_Ioo hsub hroll hP n hn hC hq
    obtain ⟨κ, L, L', Ps, Pt, As, At, a1, a2, a3, -, -, a6, -, a8, -, a10, -⟩ := hall 0 _ rfl X 1 _ (hfr xb xe hph) hx rfl (d3 pt hpt) "RST" (by simp)
    exact ⟨T, o, s, sr, sp, q, b, osc, P, κ, L, Ps, As, h6, hs, hb, hP, a1, a2, a3, a6, a8, a10⟩
  · obtain ⟨pt, xb, xe, hpt, hph, hall⟩ := C95_STE (solved h6) hs hsr hcs u hsp rfl rfl hb rfl (by positivity) hδ isOpen_Ioo isPreconnected_Ioo hsub hroll hP n hC hq
    obtain ⟨κ, L, L', Ps, Pt, As, At, a1, a2, a3, -, -, a6, -, a8, -, a10, -⟩ := hall 0 _ rfl X 1 _ (hfr xb xe hph) hx rfl (d3 pt hpt) "RST" (by simp)
    exact ⟨T, o, s, sr, sp, q, b, osc, P, κ, L, Ps, As, h6, hs, hb, hP, a1, a2, a3, a6, a8, a10⟩

/-- `C95_equations` applies. -/
example (u : SI) (fmtE : ℝ → String) : ∃ (o : Dict Attr) (s : InflSol) (q : PSol) (b : Bg) (osc : Oscode) (P : PPS) (beg stop : ℕ) (A : OscArgs),
    solve (ivp 6) fmtE E (ICCall.slowRoll E (ic 6)) [] C90.Ex.kw = .ok (o, s) ∧ bgOf E o s q.st = some b ∧
    solveOscode osc b [E.aH Exact.yHjT (-(6 + 2))] { vacuum := ["k", "HD", "RST"] } = .ok P ∧ beg < stop ∧
    HandedOver (grid 6) beg stop (TensorEquation E Exact.yHjT (E.aH Exact.yHjT (-(6 + 2)))) A := by
  obtain ⟨o, s, sr, cs, sp, hs, hsr, hcs, hsp, hfr, hrun⟩ := run le_rfl u fmtE
  obtain ⟨q, b, osc, P, hq, hb, hP, X⟩ := hrun "CGS" 0 (.inl ⟨rfl, by norm_num⟩)
  obtain ⟨beg, stop, xb, xe, -, h1, -, -, -, -, h2⟩ := C95_equations (solved le_rfl) hs hcs u (C94.calibrateP_ok rfl hq) hb hP (by norm_num) (j := 0) rfl X.pos
  obtain ⟨A, -, -, -, -, -, h3, -⟩ := h2 (TensorEquation E Exact.yHjT (E.aH Exact.yHjT (-(6 + 2)))) (by simp)
  exact ⟨o, s, q, b, osc, P, beg, stop, A, hs, hb, hP, h1, h3⟩

end C95.Ex
end Primpy
