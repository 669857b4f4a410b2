import Verif.Model.Solver

/-!
# primpy/initialconditions.py `ISIC_Nt`, `ISIC_NsOk`, with their nested calls of `solve`

In contrast to Model/Shooting.lean, where the nested integration is an oracle that returns grid points and events, here the objective calls the model of
`solve` (solver.py) and reads the attributes of the object it returns.
-/

namespace Primpy
open Bunch

namespace ISIC

/-- The external behaviour `ISIC_Nt` and `ISIC_NsOk` run on: scipy's integrator and root finder, `'%e'`, the truth value of a comparison with an empty array (`False` in
older numpy, an exception in numpy ≥ 2.2), and `'step size' in message`. -/
structure Env where
  ivp : SolveIvp
  fmtE : ℝ → String
  root : (ℝ → Except PyErr (Option ℝ)) → ℝ → ℝ → Except PyErr ℝ
  emptyTruth : Except PyErr Bool
  isStepSize : Attr → Bool

/-- initialconditions.py:204-207, 285-288, with the default arguments of events.py:69, 81, 108. -/
def events (bound : ℝ) : List Event :=
  [⟨.inflation none, .pos, false, 0⟩, ⟨.inflation none, .neg, true, 0⟩, ⟨.untilN, .zero, true, bound⟩, ⟨.collapse, .zero, true, 0⟩]

/-- `a == b` for an array `a` and a number `b`, in a boolean context; line 221 -/
noncomputable def eqTruth (V : Env) (a : List ℝ) (b : ℝ) : Except PyErr Bool :=
  open Classical in
  match a with
  | [] => V.emptyTruth
  | [x] => .ok (decide (x = b))
  | _ => .error (.valueError "The truth value of an array with more than one element is ambiguous.")

/-- `sol._N[-1]` -/
def lastOf (l : List ℝ) : Except PyErr ℝ :=
  match l.getLast? with
  | some x => .ok x
  | none => .error (.indexError "index -1 is out of bounds")

open Classical in
/-- initialconditions.py:211-228: the value of the objective, given the returned object `(b, s)`.  `N_i` may be NaN (then `sol._N[-1] - ic.N_i` is). -/
noncomputable def objective (V : Env) (N_tot : ℝ) (N_i : Option ℝ) (b : Dict Attr) (s : InflSol) : Except PyErr (Option ℝ) :=
  match s.N_tot with
  | some n => .ok (some (n - N_tot))
  | none => do
    let NE ← evArr "_N_events" (b.get? "_N_events")
    let u ← key NE "UntilN"
    let N ← Attr.getArr (b.get? "_N")
    let last ← lastOf N
    if u ≠ [] ∨ ∃ n, N_i = some n ∧ N_tot ≤ last - n then .ok (N_i.map (last - ·))
    else do
      let c ← key NE "Collapse"
      if c ≠ [] then .ok (some (0 - N_tot))
      else do
        let e ← key NE "Inflation_dir-1_term1"
        let first ← pyGet N 0
        let z ← eqTruth V e first
        if z then .ok (some (0 - N_tot))
        else match b.get? "message" with
          | none => .error (.attributeError "message")
          | some msg => if V.isStepSize msg then .error (.primpyError "StepSizeError") else .error (.primpyError "`solve_ivp` failed with message")

/-- initialconditions.py:190-228 `phii2Ntot`.  The nested integration gets the keyword arguments the object was called with (`rtol`, `atol` and the rest,
solver.py:37), and the default `method`.  If `N_i` is NaN, so is the bound of `UntilN`; scipy rejects the NaN state, so that its value does not matter. -/
noncomputable def phii2Ntot (V : Env) (S : Shooting.Setup) (N_tot rtol atol : ℝ) (kw : Dict Attr) (phi : ℝ) : Except PyErr (Option ℝ) :=
  match Shooting.start S phi with
  | .error (.inflationStart _) => .ok (some (0 - N_tot))
  | .error e => .error e
  | .ok ic => do
    let bound := ((ic.N_i.map fun n => n + N_tot + 10).getD 0)
    let (b, s) ← solve V.ivp V.fmtE S.E (ICCall.inflationStart S.E ic) [] ⟨some (events bound), none, some rtol, some atol, kw⟩
    objective V N_tot ic.N_i b s

/-- initialconditions.py:173-245: `ISIC_Nt(equations, N_tot, phi_i_bracket, …)` and its call. -/
noncomputable def nt (V : Env) (S : Shooting.Setup) (N_tot lo hi : ℝ) : ICCall := fun rtol atol kw y0 => do
  let _ ← Shooting.start S hi
  let r ← V.root (phii2Ntot V S N_tot rtol atol kw) lo hi
  let ic ← Shooting.start S r
  let y ← InflationStartIC.call S.E ic y0
  .ok (ic, y)

open Classical in
/-- initialconditions.py:291-318: the value of the objective of `ISIC_NsOk`, given the returned object `(b, s)`; NaN is `none`.  The nested calibration (line 293) works on
the attributes of `s` (Model/Calibration.lean; `calState` is `none` if `H²` is negative somewhere on the grid, which that model does not cover). -/
noncomputable def objectiveStar (u : SI) (V : Env) (K N_star Omega_K0 h N0 : ℝ) (b : Dict Attr) (s : InflSol) : Except PyErr (Option ℝ) :=
  if ∃ n, s.N_tot = some n ∧ N_star < n then
    match Shooting.calState K s with
    | none => .ok none
    | some c =>
      match Cal.calibrate u c (Shooting.nestedArgs K Omega_K0 h) with
      | .error e => .error e
      | .ok c' => .ok (c'.cal.map fun q => q.N_star - N_star)
  else do
    let NE ← evArr "_N_events" (b.get? "_N_events")
    let un ← key NE "UntilN"
    let N ← Attr.getArr (b.get? "_N")
    let last ← lastOf N
    if un ≠ [] ∨ N0 ≤ last then .ok (some last)
    else do
      let c ← key NE "Collapse"
      if ∃ n, s.N_tot = some n ∧ n ≤ N_star then .ok (some (0 - N_star))
      else do
        -- lines 303, 308: the comparison is made in the condition, or in the branch for the warning, or in both
        let e ← key NE "Inflation_dir-1_term1"
        let first ← pyGet N 0
        let z ← eqTruth V e first
        if c ≠ [] ∨ z = true then .ok (some (0 - N_star))
        else match b.get? "message" with
          | none => .error (.attributeError "message")
          | some msg => if V.isStepSize msg then .error (.primpyError "StepSizeError") else .error (.primpyError "`solve_ivp` failed with message")

/-- initialconditions.py:272-318 `phii2Nstar` -/
noncomputable def phii2Nstar (u : SI) (V : Env) (S : Shooting.Setup) (N_star Omega_K0 h N0 rtol atol : ℝ) (kw : Dict Attr) (phi : ℝ) : Except PyErr (Option ℝ) := do
  let ic ← Shooting.start S phi
  let (b, s) ← solve V.ivp V.fmtE S.E (ICCall.inflationStart S.E ic) [] ⟨some (events N0), none, some rtol, some atol, kw⟩
  objectiveStar u V S.E.K N_star Omega_K0 h N0 b s

open Classical in
/-- initialconditions.py:248-337: `ISIC_NsOk(equations, N_star, Omega_K0, h, phi_i_bracket, …)` and its call. -/
noncomputable def nsok (u : SI) (V : Env) (S : Shooting.Setup) (N_star Omega_K0 h lo hi : ℝ) : ICCall := fun rtol atol kw y0 =>
  if Omega_K0 = 0 then .error (.assertion "Curved universes only, here!")
  else do
    let _ ← Shooting.start S hi
    let a0 ← BB.get_a0 u h Omega_K0 "planck"
    let r ← V.root (phii2Nstar u V S N_star Omega_K0 h (Real.log a0) rtol atol kw) lo hi
    let ic ← Shooting.start S r
    let y ← InflationStartIC.call S.E ic y0
    .ok (ic, y)

end ISIC
end Primpy
