import Verif.Model.Shooting

/-!
# primpy/solver.py `solve`, and `InflationEquations.sol` on the object scipy returns

`scipy.integrate.solve_ivp` is an oracle: a function of the equations and of everything it is handed.  The attributes
scipy and `Equations.sol` store are a dictionary (`Dict Attr`, Model/Solution.lean); the attributes that
`InflationEquations.sol` adds are returned as the record `InflSol` (they may be NaN).  In contrast to
Model/InflationSol.lean nothing is assumed about how `x_events`, `y_events`, `_N_events`, `phi_events`, `_N` fit
together: each of them is looked up where the code looks it up.
-/

namespace Primpy
open Real

/-! ## Attribute access -/

namespace Bunch
/-- an attribute that is a dictionary of arrays, such as `sol._N_events` -/
def evArr (name : String) : Option Attr → Except PyErr (Dict (List ℝ))
  | some (.evArr d) => .ok d
  | none => .error (.attributeError name)
  | _ => .error (.typeError name)
/-- `d[key]` -/
def key {α : Type} (d : Dict α) (k : String) : Except PyErr α :=
  match d.get? k with
  | some v => .ok v
  | none => .error (.keyError k)
/-- the guard `key in d and d[key].size > 0`, giving `d[key][0]` -/
def firstOf (d : Dict (List ℝ)) (k : String) : Option ℝ := (d.get? k).bind List.head?
/-- one state (a row of `y_events[key]`) as a state vector -/
def state (st : List ℝ) : ℕ → ℝ := fun i => st.getD i 0
/-- `sol.y[:, j]` as a state vector -/
def colAt (y : List (List ℝ)) (j : ℕ) : ℕ → ℝ := fun i => (y.getD i []).getD j 0
/-- `N + np.log(H)` -/
noncomputable def addLog (N H : Option ℝ) : Option ℝ := N.bind fun n => H.bind fun h => (nanLog h).map (n + ·)
/-- an element-wise function of `sol.x`, `sol.y` -/
def onGrid {α : Type} (x : List ℝ) (y : List (List ℝ)) (f : ℝ → (ℕ → ℝ) → α) : List α :=
  (List.range x.length).map fun j => f (x.getD j 0) (colAt y j)
end Bunch
open Bunch

open Classical in
/-- inflation.py:407-426 `postprocessing_inflation_start`; `w` is `sol.w`. -/
noncomputable def startB (Q : EqView) (s : Dict Attr) (w : List ℝ) : Except PyErr StartInfo := do
  let NE ← evArr "_N_events" (s.get? "_N_events")
  match firstOf NE "Collapse" with
  | some _ => .ok ⟨none, none, addLog none none, some .collapse⟩
  | none => do
    let x ← Attr.getArr (s.get? "x")
    let y ← Attr.getRows (s.get? "y")
    let x0 ← pyGet x 0
    let w0 ← pyGet w 0
    if 0 ≤ Q.inflating x0 (colAt y 0) ∨ w0 ≤ -1/3 then do
      let N ← Attr.getArr (s.get? "_N")
      let n ← pyGet N 0
      let H := Q.Hnan (x0, colAt y 0)
      .ok ⟨some n, H, addLog (some n) H, none⟩
    else match firstOf NE "Inflation_dir1_term0" with
      | some n => do
        let XE ← evArr "x_events" (s.get? "x_events")
        let YE ← Attr.getStates (s.get? "y_events")
        let xs ← key XE "Inflation_dir1_term0"
        let ys ← key YE "Inflation_dir1_term0"
        let x1 ← pyGet xs 0
        let y1 ← pyGet ys 0
        let H := Q.Hnan (x1, state y1)
        .ok ⟨some n, H, addLog (some n) H, none⟩
      | none => .ok ⟨none, none, addLog none none, some (.inflationStart (startNotTracked NE))⟩

/-- inflation.py:436-442: the body of the loop over the two keys. -/
noncomputable def endAtB (Q : EqView) (V : ℝ → ℝ) (s : Dict Attr) (k : String) (n : ℝ) : Except PyErr EndInfo := do
  let PE ← evArr "phi_events" (s.get? "phi_events")
  let XE ← evArr "x_events" (s.get? "x_events")
  let YE ← Attr.getStates (s.get? "y_events")
  let ps ← key PE k
  let xs ← key XE k
  let ys ← key YE k
  let phi ← pyGet ps 0
  let x1 ← pyGet xs 0
  let y1 ← pyGet ys 0
  let H := Q.Hnan (x1, state y1)
  .ok ⟨some n, some phi, H, addLog (some n) H, some (V phi), none⟩

/-- inflation.py:428-446 `postprocessing_inflation_end`; `w` is `sol.w`. -/
noncomputable def endB (Q : EqView) (V : ℝ → ℝ) (s : Dict Attr) (w : List ℝ) : Except PyErr EndInfo := do
  let NE ← evArr "_N_events" (s.get? "_N_events")
  match firstOf NE "Inflation_dir-1_term1" with
  | some n => endAtB Q V s "Inflation_dir-1_term1" n
  | none =>
    match firstOf NE "Inflation_dir-1_term0" with
    | some n => endAtB Q V s "Inflation_dir-1_term0" n
    | none =>
      match w.getLast? with
      | none => .error (.indexError "w[-1]")
      | some wl => .ok ⟨none, none, none, none, none, some (.inflationEnd (endKind NE wl))⟩

/-- inflation.py:448-462 `InflationEquations.sol` on the object returned by scipy (with `event_keys`): the dictionary of
attributes after `Equations.sol`, and the attributes added to it. -/
noncomputable def inflationSolB (eqs : Equations) (Q : EqView) (V : ℝ → ℝ) (K : ℝ) (res : Dict Attr) :
    Except PyErr (Dict Attr × InflSol) :=
  open Classical in do
  let s ← eqs.sol res
  let x ← Attr.getArr (s.get? "x")
  let y ← Attr.getRows (s.get? "y")
  let w := onGrid x y Q.w
  let st ← startB Q s w
  let en ← endB Q V s w
  let H := onGrid x y fun a b => Q.Hnan (a, b)
  let N ← Attr.getArr (s.get? "_N")
  let logaH := List.zipWith (fun n h => addLog (some n) h) N H
  .ok (s,
    { start := st
      fin := en
      N := N
      w := w
      H := H
      logaH := logaH
      Omega_K := logaH.map fun l => l.map fun l => -K * exp (-2 * l)
      N_tot := en.N_end.bind fun e => st.N_beg.map (e - ·)
      inflation_mask := st.N_beg.bind fun b => en.N_end.map fun e => N.map fun n => decide (b < n) && decide (n < e) })

/-! ## `solve` -/

/-- The keyword arguments of `solve`: the four that solver.py pops (`none` = not given), and the others. -/
structure SolveKw where
  events : Option (List Event)
  method : Option String
  rtol : Option ℝ
  atol : Option ℝ
  rest : Dict Attr

/-- What `solve_ivp` is handed besides the equations (solver.py:38-39). -/
structure IvpCall where
  x_ini : Option ℝ
  x_end : ℝ
  y0 : List (Option ℝ)
  events : List Event
  method : String
  rtol : ℝ
  atol : ℝ
  rest : Dict Attr

/-- `scipy.integrate.solve_ivp` (external). -/
abbrev SolveIvp := Eqs → IvpCall → Except PyErr (Dict Attr)

/-- `ic(y0=y0, rtol=rtol, atol=atol, **kwargs)`: the attributes of the initial condition after the call (shooting classes
change them) and the state vector it wrote. -/
abbrev ICCall := ℝ → ℝ → Dict Attr → (ℕ → Option ℝ) → Except PyErr (IC × (ℕ → Option ℝ))

namespace ICCall
/-- initialconditions.py:78-97, a constructed `SlowRollIC` -/
noncomputable def slowRoll (E : Eqs) (ic : IC) : ICCall := fun _ _ _ y0 => do
  let y ← SlowRollIC.call E ic y0
  .ok (ic, y)
/-- initialconditions.py:141-166, a constructed `InflationStartIC` -/
noncomputable def inflationStart (E : Eqs) (ic : IC) : ICCall := fun _ _ _ y0 => do
  let y ← InflationStartIC.call E ic y0
  .ok (ic, y)
/-- initialconditions.py:188-245, a constructed `ISIC_Nt` (the oracles `O` depend on the keyword arguments, which the nested
integrations are run with) -/
noncomputable def isicNt (S : Shooting.Setup) (O : ℝ → ℝ → Dict Attr → Shooting.Oracles) (N_tot lo hi : ℝ) : ICCall :=
  fun rtol atol kw _ => do
    let (_, ic, y) ← Shooting.isicNt S (O rtol atol kw) N_tot lo hi
    .ok (ic, y)
/-- initialconditions.py:269-337, a constructed `ISIC_NsOk` -/
noncomputable def isicNsOk (u : SI) (S : Shooting.Setup) (O : ℝ → ℝ → Dict Attr → Shooting.Oracles) (N_star Omega_K0 h lo hi : ℝ) :
    ICCall :=
  fun rtol atol kw _ => do
    let (_, ic, y) ← Shooting.isicNsOk u S (O rtol atol kw) N_star Omega_K0 h lo hi
    .ok (ic, y)
end ICCall

/-- `equations.sol(sol)` for the two shipped classes (time/inflation.py:133-135, efolds/inflation.py:142-144 only call the base
class). -/
noncomputable def Eqs.sol (E : Eqs) (res : Dict Attr) : Except PyErr (Dict Attr × InflSol) :=
  match E with
  | .T e => inflationSolB e.eqs e.view e.pot.V e.K res
  | .N e => inflationSolB e.eqs e.view e.pot.V e.K res
  | .other _ _ => .error (.notImplemented "Equations must define w method.")

/-- solver.py:11-41 `solve(ic, *args, **kwargs)`.  Any extra positional argument ends up in the slot of `method`, which is also
passed by keyword.  `fmtE` is the `'%e'` formatting used in event names. -/
noncomputable def solve (ivp : SolveIvp) (fmtE : ℝ → String) (E : Eqs) (ic : ICCall) (args : List Attr) (kw : SolveKw) :
    Except PyErr (Dict Attr × InflSol) := do
  let events := kw.events.getD []
  let y0 : ℕ → Option ℝ := fun _ => some 0
  let method := kw.method.getD "RK45"
  let rtol := kw.rtol.getD (1 / 10 ^ 10)
  let atol := kw.atol.getD (1 / 10 ^ 12)
  let (c, y) ← ic rtol atol kw.rest y0
  match args with
  | _ :: _ => .error (.typeError "solve_ivp() got multiple values for argument 'method'")
  | [] => do
    let res ← ivp E ⟨c.x_ini E, c.x_end, (List.range E.idx.length).map y, events, method, rtol, atol, kw.rest⟩
    E.sol (res.set "event_keys" (.keys (events.map (Event.name fmtE))))

end Primpy
