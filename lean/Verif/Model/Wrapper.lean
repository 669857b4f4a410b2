import Verif.Model.Calibration
import Mathlib.Analysis.SpecialFunctions.Log.Base
import Mathlib.Analysis.SpecialFunctions.Trigonometric.Basic

/-!
# cobaya_wrapper/powerlaw_pps.py, feature_pps.py, slowroll_pps.py

The cobaya classes: `calculate` as a function of the sampled parameters.  `self.ks` is the grid built in `initialize`.
-/

namespace Primpy
open Real

namespace Wrap

/-- powerlaw_pps.py:8-10 -/
noncomputable def scalar_pk (A_s n_s n_run n_runrun k_pivot k : ℝ) : ℝ :=
  let lnk := log (k / k_pivot)
  A_s * exp ((n_s - 1) * lnk + n_run / 2 * lnk ^ 2 + n_runrun / 6 * lnk ^ 3)

/-- powerlaw_pps.py:13-15 -/
noncomputable def tensor_pk (A_t n_t n_t_run k_pivot k : ℝ) : ℝ :=
  let lnk := log (k / k_pivot)
  A_t * exp (n_t * lnk + n_t_run / 2 * lnk ^ 2)

/-- powerlaw_pps.py:25-26 -/
noncomputable def kmin : ℝ := 5 / 10 ^ 7
/-- powerlaw_pps.py:25-26 -/
noncomputable def kmax : ℝ := 50

/-- `np.logspace(a, b, num)` for `num ≥ 2` -/
noncomputable def logspace (a b : ℝ) (num : ℕ) : List ℝ :=
  (List.range num).map fun (i : ℕ) => (10 : ℝ) ^ (a + (b - a) * i / (num - 1 : ℕ))

/-- powerlaw_pps.py:27-30: `int(x)` truncates; `x > 0` here.  (In floating point `x` could come out below 801.) -/
noncomputable def ks : List ℝ :=
  logspace (logb 10 kmin) (logb 10 kmax) ⌊(logb 10 kmax - logb 10 kmin) * 100 + 1⌋₊

/-- The sampled parameters, `none` = not in the dictionary. -/
structure Params where
  A_s : Option ℝ := none
  n_s : Option ℝ := none
  n_run : Option ℝ := none
  n_runrun : Option ℝ := none
  A_t : Option ℝ := none
  n_t : Option ℝ := none
  n_t_run : Option ℝ := none
  r : Option ℝ := none

/-- The numbers the two spectra are built from; `n_t_run` may be Python's `None`. -/
structure Resolved where
  A_s : ℝ
  n_s : ℝ
  n_run : ℝ
  n_runrun : ℝ
  A_t : ℝ
  n_t : ℝ
  n_t_run : Option ℝ

open Classical in
/-- powerlaw_pps.py:42-60 (`n_t_run0 = some 0`) and the three copies feature_pps.py:30-52, 83-105, 136-157 (`n_t_run0 = none`).  The
default `A_t/A_s` of `r` is always evaluated: a missing `A_s` is a `TypeError`, `A_s = 0` a `ZeroDivisionError`. -/
noncomputable def resolve (n_t_run0 : Option ℝ) (p : Params) : Except PyErr Resolved :=
  match p.A_s with
  | none => .error (.typeError "unsupported operand type(s) for /")
  | some A_s =>
    if A_s = 0 then .error (.zeroDivision "A_t/A_s")
    else
      let n_s := p.n_s.getD 1
      let A_t := p.A_t.getD 0
      let n_t_run : Option ℝ := p.n_t_run.or n_t_run0
      let r := p.r.getD (A_t / A_s)
      if p.n_t = none ∧ ∃ x, n_t_run = some x ∧ x ≠ 0 then .error (.exception "n_t_run set but using inflation consistency")
      else
        let n_t := p.n_t.getD (-r / 8 * (2 - n_s - r / 8))
        let n_t_run := if p.n_t = none then some (r / 8 * (r / 8 + n_s - 1)) else n_t_run
        if 0 < A_t ∧ r ≠ A_t / A_s then .error (.exception "mismatch between `r` and `A_t/A_s`")
        else
          .ok { A_s := A_s, n_s := n_s, n_run := p.n_run.getD 0, n_runrun := p.n_runrun.getD 0
                A_t := if 0 < A_t then A_t else if 0 < r then r * A_s else A_t
                n_t := n_t, n_t_run := n_t_run }

/-- What `calculate` stores: the two arrays `Pk`. -/
structure Spectra where
  Pks : List ℝ
  Pkt : List ℝ

/-- The unmodulated spectra: powerlaw_pps.py:62-63, feature_pps.py:54-55, 107-108, 159-160.  `None / 2` raises. -/
noncomputable def baseSpectra (k_pivot : ℝ) (ks : List ℝ) (q : Resolved) : Except PyErr Spectra :=
  match q.n_t_run with
  | none => .error (.typeError "unsupported operand type(s) for /")
  | some n_t_run =>
    .ok ⟨ks.map (scalar_pk q.A_s q.n_s q.n_run q.n_runrun k_pivot), ks.map (tensor_pk q.A_t q.n_t n_t_run k_pivot)⟩

/-- `PowerLawPPS.calculate`: powerlaw_pps.py:41-71 -/
noncomputable def powerLaw (k_pivot : ℝ) (ks : List ℝ) (p : Params) : Except PyErr Spectra :=
  match resolve (some 0) p with
  | .error e => .error e
  | .ok q => baseSpectra k_pivot ks q

/-- `Pks = Pks0 * m`, `Pkt = Pkt0 * m` -/
noncomputable def modulate (ks : List ℝ) (m : ℝ → ℝ) (s : Spectra) : Spectra :=
  ⟨List.zipWith (fun k P => P * m k) ks s.Pks, List.zipWith (fun k P => P * m k) ks s.Pkt⟩

/-- feature_pps.py:12-14 -/
noncomputable def log_oscillations (A_log w_log p_log k_pivot k : ℝ) : ℝ :=
  A_log * cos (w_log * log (k / k_pivot) + 2 * π * p_log)
/-- feature_pps.py:17-19 -/
noncomputable def lin_oscillations (A_lin w_lin p_lin k_pivot k : ℝ) : ℝ :=
  A_lin * cos (w_lin * (k / k_pivot) + 2 * π * p_lin)
/-- feature_pps.py:8-9 -/
noncomputable def cutoff (k_cut s_cut k : ℝ) : ℝ := exp (-(k / k_cut) ^ s_cut)

/-- `LogOscillationPPS.calculate` (feature_pps.py:29-66) and `LinOscillationPPS.calculate` (feature_pps.py:82-119), with
`osc` = `log_oscillations` / `lin_oscillations`; a missing frequency or phase is `None * array`. -/
noncomputable def oscillation (osc : ℝ → ℝ → ℝ → ℝ → ℝ → ℝ) (k_pivot : ℝ) (ks : List ℝ) (p : Params) (A w ph : Option ℝ) :
    Except PyErr Spectra :=
  match resolve none p with
  | .error e => .error e
  | .ok q =>
    match baseSpectra k_pivot ks q with
    | .error e => .error e
    | .ok s =>
      match w, ph with
      | some w, some ph => .ok (modulate ks (fun k => 1 + osc (A.getD 0) w ph k_pivot k) s)
      | _, _ => .error (.typeError "unsupported operand type(s) for *")

/-- `CutoffPPS.calculate`: feature_pps.py:135-171 -/
noncomputable def cutoffPPS (k_pivot : ℝ) (ks : List ℝ) (p : Params) (k_cut s_cut : Option ℝ) : Except PyErr Spectra :=
  match resolve none p with
  | .error e => .error e
  | .ok q =>
    match baseSpectra k_pivot ks q with
    | .error e => .error e
    | .ok s => .ok (modulate ks (fun k => 1 - cutoff (k_cut.getD (1 / 1000)) (s_cut.getD 2) k) s)

/-! ## slowroll_pps.py -/

/-- What the wrapper uses of primpy.  `B` is the type of solution objects, NaN is `none`. -/
structure Backend (B : Type) where
  /-- `solve(...)` for the potential with this `Lambda` (lines 59-65); `none` = NaN -/
  solve : Option ℝ → Except PyErr B
  /-- `b.success` -/
  success : B → Bool
  /-- `b.N_tot`, a number whenever the calibration does not raise -/
  N_tot : B → ℝ
  /-- `dphidt` and `V(phi)` at the last grid point of inflation -/
  dphidt_last : B → ℝ
  V_last : B → ℝ
  /-- `b.calibrate_scale_factor(calibration_method='reheating', rho_reh_GeV=..., w_reh=...)` -/
  calReheating : B → ℝ → ℝ → Except PyErr B
  /-- `b.calibrate_scale_factor(calibration_method='N_star', N_star=..., rho_reh_GeV=...)`; the call without method of line 82 is
  the same for flat universes -/
  calNstar : B → ℝ → Option ℝ → Except PyErr B
  /-- `b.set_ns(n_s=..., rho_reh_GeV=..., N_star_min=20, N_star_max=...)` -/
  setNs : B → ℝ → Option ℝ → ℝ → Except PyErr B
  /-- attributes after calibration -/
  A_s : B → Option ℝ
  w_reh : B → Option ℝ
  DeltaN_reh : B → Option ℝ
  N_reh : B → Option ℝ
  N0 : B → ℝ

/-- The sampled parameters (lines 33-37); `N_star` has the default 75. -/
structure SRParams where
  N_star : ℝ := 75
  A_s : ℝ
  n_s : Option ℝ := none
  rho_reh_GeV : Option ℝ := none
  w_reh : Option ℝ := none

variable {B : Type} (u : SI)

/-- slowroll_pps.py:68-70 -/
noncomputable def rho_end_GeV (d : Backend B) (b : B) : ℝ :=
  (1 / 3 * (1 / 2 * d.dphidt_last b ^ 2 + d.V_last b) * u.mp_GeV / u.lp_iGeV ^ 3) ^ (1 / 4 : ℝ)

/-- slowroll_pps.py:73-83: calibration; also the new value of the local variable `N_star`. -/
noncomputable def calibrateStep (d : Backend B) (p : SRParams) (N_star : ℝ) (b : B) : Except PyErr (B × ℝ) :=
  match p.w_reh, p.rho_reh_GeV, p.n_s with
  | some w, some rho, _ => (d.calReheating b rho w).map fun b => (b, N_star)
  | _, rho, none => (d.calNstar b N_star rho).map fun b => (b, N_star)
  | _, rho, some n_s =>
    let N' := min N_star (d.N_tot b - 0.1)
    match d.calNstar b N' rho with
    | .error e => .error e
    | .ok b => (d.setNs b n_s rho N').map fun b => (b, N')

open Classical in
/-- slowroll_pps.py:59-83: one pass of the loop up to the `A_s` check. -/
noncomputable def pass (d : Backend B) (p : SRParams) (Lambda : Option ℝ) (N_star : ℝ) : Except PyErr (B × ℝ) :=
  match d.solve Lambda with
  | .error e => .error e
  | .ok b =>
    if d.success b = false then .error (.primpyError "StepSizeError")
    else if ∃ rho, p.rho_reh_GeV = some rho ∧ rho_end_GeV u d b < rho then .error (.primpyError "Unrealistic reheating scenario")
    else calibrateStep d p N_star b

/-- slowroll_pps.py:85: `abs(b.A_s - A_s) < atol + rtol * A_s`; false for NaN -/
def met (target : ℝ) (A : Option ℝ) : Prop := ∃ x, A = some x ∧ |x - target| < 1 / 10 ^ 14 + 1 / 10 ^ 6 * target

open Classical in
/-- slowroll_pps.py:90: `(A_s / b.A_s)**(1/4) * Lambda`; `none` = not a finite number -/
noncomputable def rescale (target : ℝ) (A Lambda : Option ℝ) : Option ℝ :=
  match A, Lambda with
  | some x, some L => if x ≠ 0 ∧ 0 ≤ target / x then some ((target / x) ^ (1 / 4 : ℝ) * L) else none
  | _, _ => none

open Classical in
/-- slowroll_pps.py:58-92: the loop, `n` passes left after this one. -/
noncomputable def shoot (d : Backend B) (p : SRParams) : ℕ → Option ℝ → ℝ → Except PyErr B
  | n, Lambda, N_star =>
    match pass u d p Lambda N_star with
    | .error e => .error e
    | .ok (b, N') =>
      if met p.A_s (d.A_s b) then .ok b
      else match n with
        | 0 => .error (.primpyError "`A_s` shooting failed.")
        | n + 1 => shoot d p n (rescale p.A_s (d.A_s b) Lambda) N'

/-- `x <= y` with NaN -/
def nanLe (x y : Option ℝ) : Prop := ∃ a b, x = some a ∧ y = some b ∧ a ≤ b
/-- `x < y` with NaN -/
def nanLt (x y : Option ℝ) : Prop := ∃ a b, x = some a ∧ y = some b ∧ a < b

open Classical in
/-- slowroll_pps.py:58-96: the loop and the final check; `Lambda0` from `sr_As2Lambda` (line 54). -/
noncomputable def slowRoll (d : Backend B) (p : SRParams) (Lambda0 : ℝ) : Except PyErr B :=
  match shoot u d p 10 (some Lambda0) p.N_star with
  | .error e => .error e
  | .ok b =>
    if nanLe (d.w_reh b) (some (-1 / 3)) ∨ nanLe (some 1) (d.w_reh b) ∨ nanLt (d.DeltaN_reh b) (some 0) ∨ nanLt (some (d.N0 b)) (d.N_reh b)
    then .error (.primpyError "Unrealistic reheating scenario")
    else .ok b

end Wrap
end Primpy
