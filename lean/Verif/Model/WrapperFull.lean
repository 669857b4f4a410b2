import Verif.Model.Wrapper
import Verif.Model.PowerSol
import Verif.Model.PotentialInit

/-!
# cobaya_wrapper/slowroll_pps.py 17-115: `SlowRollPPS.calculate` from the sampled parameters to the stored state

`Model/Wrapper.lean` has the loop over an abstract solution object.  Here the object is the one of `Model/PowerSol.lean`, so that the calibrations, `set_ns` and the spectra
are those of primpy/inflation.py.  The integration is the oracle `run`: from `phi_i` and `Lambda`, the integrated solution.
-/

namespace Primpy
open Real
namespace Wrap

/-- What `solve(ic=..., events=..., ...)` returns: slowroll_pps.py:59-65, inflation.py:430-461.  `K = 0` (line 51), so it is not part of the data.  (That an
empty `inflation_mask` raises in line 68 is in `WrapperRun.readOff`.) -/
structure Raw where
  success : Bool
  N : List ℝ
  logaH : List ℝ
  H : List ℝ
  infl : Option Infl
  /-- a number once the end of inflation was found -/
  phi_end : ℝ
  dphidt_last : ℝ
  V_last : ℝ
  sr : Approx.SlowRoll

/-- The solution object during `calculate`. -/
structure Obj where
  raw : Raw
  sol : Approx.PSol

/-- A freshly integrated solution: nothing calibrated, no spectra; `K = 0`: slowroll_pps.py:51, 60-65 -/
def fresh (r : Raw) : Approx.PSol :=
  ⟨⟨0, r.N, r.logaH, r.H, r.infl, ⟨none, none, none, none, none, none⟩, none⟩, Approx.Caches.empty, none⟩

section
variable {κ : Type} (u : SI) (spline : κ → List (ℝ × ℝ) → ℝ → ℝ) (kw : κ) (solver : Approx.PSol → ℝ → ℝ → List ℝ × ℝ)

/-- primpy as the wrapper uses it.  The calibrations leave `**kwargs` empty, so the spectra are derived with the defaults `method='CGS', order=3` (inflation.py:872); `kw` stands for
the default keywords of the spline.  A successful integration without start or end of inflation has no `inflation_mask`: reading it in slowroll_pps.py:68 raises (after the check of
`success`, hence only if successful). -/
noncomputable def backend (run : Option ℝ → Except PyErr Raw) : Backend Obj where
  solve L := match run L with
    | .error e => .error e
    | .ok r => if r.success = true ∧ r.infl.isNone then .error (.attributeError "inflation_mask") else .ok ⟨r, fresh r⟩
  success b := b.raw.success
  N_tot b := b.sol.st.infl.elim 0 Infl.N_tot
  dphidt_last b := b.raw.dphidt_last
  V_last b := b.raw.V_last
  calReheating b rho w :=
    (Approx.calibrateP u spline b.raw.sr b.sol { method := "reheating", rho_reh_GeV := some rho, w_reh := some w } "CGS" kw 3).map fun s => ⟨b.raw, s⟩
  calNstar b N_star rho :=
    (Approx.calibrateP u spline b.raw.sr b.sol { method := "N_star", N_star := some N_star, rho_reh_GeV := rho } "CGS" kw 3).map fun s => ⟨b.raw, s⟩
  setNs b n_s rho N_star_max := (Approx.setNs u spline b.raw.sr kw solver n_s 20 N_star_max rho b.sol).map fun s => ⟨b.raw, s⟩
  A_s b := b.sol.pars.map Approx.PowerParams.A_s
  w_reh b := b.sol.st.sticky.w_reh.join
  DeltaN_reh b := b.sol.st.sticky.DeltaN_reh.join
  N_reh b := b.sol.st.cal.bind Calib.N_reh
  N0 b := b.sol.st.cal.elim 0 Calib.N0

/-- slowroll_pps.py:26-30 `get_can_provide_params` -/
def advertised : List String :=
  ["N_star", "N_end", "phi_end", "V_end", "H_end", "N_reh", "w_reh", "DeltaN_reh", "rho_reh_GeV", "DeltaN_minus1", "A_s", "n_s", "n_run", "n_runrun", "A_t", "n_t", "r"]

/-- `getattr(b, name)`: slowroll_pps.py:108; `some none` is NaN, `none` an attribute that does not exist.  `V_end`, `H_end` are set by inflation.py:430-448, the others by
`calibrate_scale_factor` (inflation.py:536-866) and `derive_approx_power` (inflation.py:883-891). -/
def getattr (b : Obj) : String → Slot
  | "N_star" => b.sol.st.cal.map fun c => some c.N_star
  | "N_end" => b.sol.st.cal.map fun c => some c.N_end
  | "phi_end" => some (b.sol.st.infl.map fun _ => b.raw.phi_end)
  | "V_end" => some (b.sol.st.infl.map Infl.V_end)
  | "H_end" => some (b.sol.st.infl.map Infl.H_end)
  | "N_reh" => b.sol.st.cal.map Calib.N_reh
  | "w_reh" => b.sol.st.sticky.w_reh
  | "DeltaN_reh" => b.sol.st.sticky.DeltaN_reh
  | "rho_reh_GeV" => b.sol.st.sticky.rho_reh_GeV
  | "DeltaN_minus1" => b.sol.st.sticky.DeltaN_minus1
  | "A_s" => b.sol.pars.map fun P => some P.A_s
  | "n_s" => b.sol.pars.map fun P => some P.n_s
  | "n_run" => b.sol.pars.map fun P => some P.n_run
  | "n_runrun" => b.sol.pars.map fun P => some P.n_runrun
  | "A_t" => b.sol.pars.map fun P => some P.A_t
  | "n_t" => b.sol.pars.map fun P => some P.n_t
  | "r" => b.sol.pars.map fun P => some P.r
  | _ => none

/-- One item of the dictionary comprehension in slowroll_pps.py:108-109; a missing attribute raises. -/
def entry (b : Obj) (name : String) : Except PyErr (String × Option ℝ) :=
  match getattr b name with
  | none => .error (.attributeError name)
  | some v => .ok (name, v)

/-- Evaluate `f` at each element, stopping at the first exception. -/
def mapE {α β : Type} (f : α → Except PyErr β) : List α → Except PyErr (List β)
  | [] => .ok []
  | x :: xs => match f x with
    | .error e => .error e
    | .ok y => match mapE f xs with
      | .error e => .error e
      | .ok ys => .ok (y :: ys)

/-- What `calculate` puts into `state`: slowroll_pps.py:99-109 (`kmin`, `kmax` and `log_regular` are constants). -/
structure State where
  Pks : List ℝ
  Pkt : List ℝ
  derived : List (String × Option ℝ)

/-- slowroll_pps.py:97-109: spectra and derived parameters of the final solution. -/
noncomputable def report (ks : List ℝ) (b : Obj) : Except PyErr State :=
  match Approx.gridOf b.raw.sr b.sol.st with
  | none => .error (.attributeError "P_s_approx")
  | some g =>
    match mapE (fun k => (Approx.evalP spline Approx.Spectrum.s "CGS" 3 kw k g b.sol.caches).2) ks with
    | .error e => .error e
    | .ok Pks =>
      match mapE (fun k => (Approx.evalP spline Approx.Spectrum.t "CGS" 3 kw k g b.sol.caches).2) ks with
      | .error e => .error e
      | .ok Pkt =>
        match mapE (entry b) advertised with
        | .error e => .error e
        | .ok d => .ok ⟨Pks, Pkt, d⟩

open Classical in
/-- slowroll_pps.py:56-57 -/
noncomputable def clampPhi (phi0 : Option ℝ) (phi_i : ℝ) : ℝ :=
  match phi0 with
  | some phi0 => if phi0 < phi_i then phi0 else phi_i
  | none => phi_i

/-- `SlowRollPPS.calculate`: slowroll_pps.py:32-109.  `fam Lambda` are the methods of `self.Pot(Lambda=Lambda, **pot_kwargs)`, `phi0` the parameter of that name if sampled
(line 39-41), and `run phi_i Lambda` is the integration of lines 59-65. -/
noncomputable def calculate (fam : ℝ → SRMethods) (phi0 : Option ℝ) (run : ℝ → Option ℝ → Except PyErr Raw) (ks : List ℝ) (p : SRParams) : Except PyErr State :=
  match sr_As2Lambda 1 (fam 1) p.A_s none (some p.N_star) with
  | .error e => .error e
  | .ok (Lambda, _, _) =>
    match (fam 1).sr_N2phi 90 with
    | .error e => .error e
    | .ok phi_i =>
      match slowRoll u (backend u spline kw solver (run (clampPhi phi0 phi_i))) p Lambda with
      | .error e => .error e
      | .ok b => report spline kw ks b

end
end Wrap
end Primpy
