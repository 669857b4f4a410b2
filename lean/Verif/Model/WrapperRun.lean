import Verif.Model.WrapperFull
import Verif.Model.SpectraSol
import Verif.Model.PotentialCtor

/-!
# cobaya_wrapper/slowroll_pps.py 32-109 with the integration of lines 59-70 spelled out

In `Model/WrapperFull.lean` the integration is an oracle.  Here it is the construction of the potential, of the equations, events and initial condition, and the call of `solve`
(`Model/Solver.lean`); the oracles left are scipy's `solve_ivp`, and the `success` attribute of its answer.
-/

namespace Primpy
open Real
namespace Wrap

/-- slowroll_pps.py:52 `t_eval = np.logspace(5, 12, (12 - 5) * 1000 + 1)` -/
noncomputable def tEval : List ℝ := logspace 5 12 7001

/-- slowroll_pps.py:61-62: `InflationEvent(eq, +1, terminal=False)`, `InflationEvent(eq, -1, terminal=True)` -/
def runEvents : List Event := [⟨.inflation none, .pos, false, 0⟩, ⟨.inflation none, .neg, true, 0⟩]

/-- slowroll_pps.py:64-65: the keyword arguments of `solve` -/
noncomputable def runKw : SolveKw := ⟨some runEvents, some "DOP853", some (2.22045 / 10 ^ 14), some (1 / 10 ^ 18), [("t_eval", .arr tEval)]⟩

/-- slowroll_pps.py:59: the keywords of `self.Pot(Lambda=Lambda, **pot_kwargs)`; `pot_kwargs` contains no `Lambda` (lines 38-47) -/
def runPot (L : ℝ) (pot_kwargs : Ctor.Kwargs) : Ctor.Kwargs := ("Lambda", some L) :: pot_kwargs

/-- slowroll_pps.py:51, 60: `InflationEquationsT(K=0, potential=pot, track_eta=False)` -/
noncomputable def runEqs (pot : Pot) : Eqs := .T ⟨0, pot.fns, false⟩

/-- slowroll_pps.py:63 with the default `x_end=1e300` (initialconditions.py:35); `t_i=t_eval[0]` -/
noncomputable def runIC (phi_i : ℝ) : ICArgs := ⟨phi_i, tEval.head?, none, 10 ^ 300, some 0, none⟩

/-- `(b.dphidt[mask][-1], b.phi[mask][-1])`: slowroll_pps.py:68-69; `none`: no grid point in the mask (or an attribute is missing) -/
noncomputable def lastMasked (b : Dict Attr) (mask : List Bool) : Option (ℝ × ℝ) :=
  (Approx.arr? (b.get? "dphidt")).bind fun v => (maskSel v mask).getLast?.bind fun v => (Approx.arr? (b.get? "phi")).bind fun p => (maskSel p mask).getLast?.map fun p => (v, p)

/-- What `calculate` reads off the object `solve` returned.  An empty mask raises in line 68, after the check of `success` in line 66.  The last case (`H` is NaN somewhere on the grid) is
not covered by the model of the calibration. -/
noncomputable def readOff (E : Eqs) (success : Dict Attr → Bool) (b : Dict Attr) (s : InflSol) : Except PyErr Raw :=
  match Shooting.calState E.K s, Approx.slowRoll E b s with
  | some cs, some sr =>
    match cs.infl with
    | none => .ok ⟨success b, cs.N, cs.logaH, cs.H, none, 0, 0, 0, sr⟩
    | some I =>
      match lastMasked b I.mask with
      | some (v, phi) => .ok ⟨success b, cs.N, cs.logaH, cs.H, some I, s.fin.phi_end.getD 0, v, E.pot.V phi, sr⟩
      | none => if success b then .error (.indexError "index -1 is out of bounds") else .ok ⟨false, cs.N, cs.logaH, cs.H, some I, 0, 0, 0, sr⟩
  | _, _ => .error (.exception "NaN on the grid")

/-- slowroll_pps.py:59-65: one integration, for the starting field `phi_i` and the amplitude `Lambda`.  With a `Lambda` that is not a finite number the initial velocity is NaN, which
`solve_ivp` refuses. -/
noncomputable def integrate (o : PotOracles) (ivp : SolveIvp) (fmtE : ℝ → String) (success : Dict Attr → Bool) (c : PotClass) (pot_kwargs : Ctor.Kwargs) (phi_i : ℝ) :
    Option ℝ → Except PyErr Raw
  | none => .error (.valueError "All components of the initial state `y0` must be finite.")
  | some L =>
    match Ctor.construct o c (runPot L pot_kwargs) with
    | .error e => .error e
    | .ok pot =>
      match SlowRollIC.init (runEqs pot) (runIC phi_i) with
      | .error e => .error e
      | .ok ic =>
        match solve ivp fmtE (runEqs pot) (ICCall.slowRoll (runEqs pot) ic) [] runKw with
        | .error e => .error e
        | .ok (b, s) => readOff (runEqs pot) success b s

/-- `SlowRollPPS.calculate` with `self.Pot = c`: slowroll_pps.py:32-109.  `pot_kwargs` is the dictionary of lines 38-47: those of the parameters `phi0`, `p`, `alpha` that are sampled. -/
noncomputable def calculateRun {κ : Type} (u : SI) (spline : κ → List (ℝ × ℝ) → ℝ → ℝ) (kw : κ) (solver : Approx.PSol → ℝ → ℝ → List ℝ × ℝ) (o : PotOracles) (ivp : SolveIvp)
    (fmtE : ℝ → String) (success : Dict Attr → Bool) (c : PotClass) (pot_kwargs : Ctor.Kwargs) (ks : List ℝ) (p : SRParams) : Except PyErr State :=
  match Ctor.construct o c pot_kwargs with
  | .error e => .error e
  | .ok pot => calculate u spline kw solver (c.methods o pot.shape) (pot_kwargs.get? "phi0").join (integrate o ivp fmtE success c pot_kwargs) ks p

end Wrap
end Primpy
