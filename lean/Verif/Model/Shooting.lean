import Verif.Model.InitialConditions
import Verif.Model.Calibration

/-!
# primpy/initialconditions.py 170-326: `ISIC_Nt`, `ISIC_NsOk`

`scipy.integrate.solve_ivp` and `scipy.optimize.root_scalar` are oracles.  The integration is a function
of the starting point, the end of the range, the initial state and the bound of the `UntilN` event; the other three
events are always the same.  (The nested `solve` is called with the keyword arguments of the outer one except
`method`, which solver.py:34-37 does not hand on: the nested run always uses `RK45`.)  A NaN objective is `none`.
-/

namespace Primpy
open Real

namespace Shooting

/-- The methods of the equations object; `other` never gets this far (initialconditions.py:158-160). -/
noncomputable def view : Eqs → EqView
  | .T e => e.view
  | .N e => e.view
  | .other _ _ => ⟨fun _ _ => 0, fun _ _ => 0, fun _ _ => 0, fun _ _ => 0, fun _ _ => 0, fun _ _ => 0⟩

/-- What the classes store: equations, `t_i`, `eta_i`, `x_end`, and `ic_input_param` (one of `N_i`, `Omega_Ki`);
initialconditions.py:174-187, 251-275. -/
structure Setup where
  E : Eqs
  t_i : Option ℝ
  eta_i : Option ℝ
  x_end : ℝ
  N_i : Option ℝ
  Omega_Ki : Option ℝ

/-- The scipy / numpy behaviour the code runs on. -/
structure Oracles where
  /-- `solve_ivp` with the events of initialconditions.py:204-207 / 285-288: `x_ini`, `x_end`, `y0`, the value of
  `UntilNEvent`; returns the solution (as in `RawSol`) and `sol.message`, or raises -/
  integrate : Option ℝ → ℝ → (ℕ → Option ℝ) → Option ℝ → Except PyErr (RawSol × String)
  /-- the truth value of a comparison with an empty array: `False` in older numpy, an exception in numpy ≥ 2.2 -/
  emptyTruth : Except PyErr Bool
  /-- `root_scalar(f, bracket=(lo, hi)).root` -/
  root : (ℝ → Except PyErr (Option ℝ)) → ℝ → ℝ → Except PyErr ℝ
  /-- `'step size' in message` -/
  isStepSize : String → Bool

/-- The constructor call of lines 193-198, 273-278. -/
noncomputable def start (S : Setup) (phi : ℝ) : Except PyErr IC :=
  InflationStartIC.init S.E ⟨phi, S.t_i, S.eta_i, S.x_end, S.N_i, S.Omega_Ki⟩

/-- `y0 = np.zeros(...)`, `ic(y0=y0)`; solver.py:33, 37 -/
noncomputable def startState (S : Setup) (ic : IC) : Except PyErr (ℕ → Option ℝ) :=
  InflationStartIC.call S.E ic fun _ => some 0

/-- `solve(ic, events=[..., UntilNEvent(bound), ...])`: solver.py:11-41 with the post-processing of
inflation.py:407-462. -/
noncomputable def solve (S : Setup) (O : Oracles) (ic : IC) (bound : Option ℝ) :
    Except PyErr (RawSol × String × InflSol) :=
  match startState S ic with
  | .error e => .error e
  | .ok y0 =>
    match O.integrate (ic.x_ini S.E) ic.x_end y0 bound with
    | .error e => .error e
    | .ok (raw, msg) => .ok (raw, msg, inflationSol (view S.E) S.E.pot.V S.E.K raw)

/-- `sol._N[-1]` -/
noncomputable def lastN (S : Setup) (raw : RawSol) : ℝ :=
  let last := raw.grid.getLast (by simp [RawSol.grid])
  (view S.E).N last.1 last.2

open Classical in
/-- `sol._N_events['Inflation_dir-1_term1'] == sol._N[0]` in a boolean context; lines 221, 303, 308. -/
noncomputable def endAtStart (S : Setup) (O : Oracles) (raw : RawSol) : Except PyErr Bool :=
  match raw.events.get? "Inflation_dir-1_term1" with
  | none => .error (.keyError "Inflation_dir-1_term1")
  | some [] => O.emptyTruth
  | some [p] => .ok (decide ((view S.E).N p.1 p.2 = (view S.E).N raw.first.1 raw.first.2))
  | some _ => .error (.valueError "The truth value of an array is ambiguous")

/-- `np.size(sol._N_events[key]) > 0` -/
def seen (raw : RawSol) (key : String) : Prop := (firstEvent raw.events key).isSome = true

open Classical in
/-- initialconditions.py:190-228 `phii2Ntot` -/
noncomputable def phii2Ntot (S : Setup) (O : Oracles) (N_tot : ℝ) (phi : ℝ) : Except PyErr (Option ℝ) :=
  match start S phi with
  | .error (.inflationStart _) => .ok (some (0 - N_tot))
  | .error e => .error e
  | .ok ic =>
    match solve S O ic (ic.N_i.map fun n => n + N_tot + 10) with
    | .error e => .error e
    | .ok (raw, msg, sol) =>
      match sol.N_tot with
      | some n => .ok (some (n - N_tot))
      | none =>
        if seen raw "UntilN" ∨ ∃ n, ic.N_i = some n ∧ N_tot ≤ lastN S raw - n then
          .ok (ic.N_i.map (lastN S raw - ·))
        else if seen raw "Collapse" then .ok (some (0 - N_tot))
        else match endAtStart S O raw with
          | .error e => .error e
          | .ok true => .ok (some (0 - N_tot))
          | .ok false => if O.isStepSize msg then .error (.primpyError "StepSizeError")
            else .error (.primpyError "`solve_ivp` failed")

/-- initialconditions.py:230-245 `ISIC_Nt.__call__`, and the constructor's check of the upper bracket end
(174-181): the root, the initial-condition object, and the state vector handed to the outer integration. -/
noncomputable def isicNt (S : Setup) (O : Oracles) (N_tot lo hi : ℝ) : Except PyErr (ℝ × IC × (ℕ → Option ℝ)) :=
  match start S hi with
  | .error e => .error e
  | .ok _ =>
    match O.root (phii2Ntot S O N_tot) lo hi with
    | .error e => .error e
    | .ok r =>
      match start S r with
      | .error e => .error e
      | .ok ic =>
        match startState S ic with
        | .error e => .error e
        | .ok y => .ok (r, ic, y)

/-- The solution object as `calibrate_scale_factor` sees it (inflation.py:452-461).  `none`: `H²` is negative
somewhere on the grid, which the calibration model does not cover. -/
noncomputable def calState (K : ℝ) (s : InflSol) : Option CalState := do
  let H ← s.H.mapM id
  let logaH ← s.logaH.mapM id
  let infl : Option Infl := do
    let b ← s.start.N_beg
    let e ← s.fin.N_end
    let n ← s.N_tot
    let v ← s.fin.V_end
    let h ← s.fin.H_end
    let lb ← s.start.logaH_beg
    let le ← s.fin.logaH_end
    let m ← s.inflation_mask
    some ⟨b, e, n, v, h, lb, le, m⟩
  some ⟨K, s.N, logaH, H, infl, ⟨none, none, none, none, none, none⟩, none⟩

/-- Keyword arguments of the nested calibration (line 293): the default method depends on the geometry
(inflation.py:464). -/
noncomputable def nestedArgs (K Omega_K0 h : ℝ) : CalArgs :=
  { method := defaultMethod K, Omega_K0 := some Omega_K0, h := some h }

open Classical in
/-- initialconditions.py:271-318 `phii2Nstar` -/
noncomputable def phii2Nstar (u : SI) (S : Setup) (O : Oracles) (N_star Omega_K0 h N0 : ℝ) (phi : ℝ) :
    Except PyErr (Option ℝ) :=
  match start S phi with
  | .error e => .error e
  | .ok ic =>
    match solve S O ic (some N0) with
    | .error e => .error e
    | .ok (raw, msg, sol) =>
      if ∃ n, sol.N_tot = some n ∧ N_star < n then
        match calState S.E.K sol with
        | none => .ok none
        | some c =>
          match Cal.calibrate u c (nestedArgs S.E.K Omega_K0 h) with
          | .error e => .error e
          | .ok c' => .ok (c'.cal.map fun q => q.N_star - N_star)
      else if seen raw "UntilN" ∨ N0 ≤ lastN S raw then .ok (some (lastN S raw))
      else if ∃ n, sol.N_tot = some n ∧ n ≤ N_star then .ok (some (0 - N_star))
      else if seen raw "Collapse" then
        -- lines 305-310: the warning branch evaluates the comparison once more
        match endAtStart S O raw with
        | .error e => .error e
        | .ok _ => .ok (some (0 - N_star))
      else match endAtStart S O raw with
        | .error e => .error e
        | .ok true => .ok (some (0 - N_star))
        | .ok false => if O.isStepSize msg then .error (.primpyError "StepSizeError")
          else .error (.primpyError "`solve_ivp` failed")

/-- initialconditions.py:242-268, 320-337 `ISIC_NsOk.__init__` and `__call__`. -/
noncomputable def isicNsOk (u : SI) (S : Setup) (O : Oracles) (N_star Omega_K0 h lo hi : ℝ) :
    Except PyErr (ℝ × IC × (ℕ → Option ℝ)) :=
  open Classical in
  if Omega_K0 = 0 then .error (.assertion "Curved universes only, here!")
  else match start S hi with
    | .error e => .error e
    | .ok _ =>
      match BB.get_a0 u h Omega_K0 "planck" with
      | .error e => .error e
      | .ok a0 =>
        match O.root (phii2Nstar u S O N_star Omega_K0 h (log a0)) lo hi with
        | .error e => .error e
        | .ok r =>
          match start S r with
          | .error e => .error e
          | .ok ic =>
            match startState S ic with
            | .error e => .error e
            | .ok y => .ok (r, ic, y)

end Shooting
end Primpy
