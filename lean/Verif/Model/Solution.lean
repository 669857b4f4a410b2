import Verif.Model.Equations

/-!
# primpy/equations.py `Equations.sol` and primpy/solver.py

The scipy result object is a `Bunch` (a `dict` whose keys are attributes): a `Dict Attr`.
-/

namespace Primpy

/-- Values that the attributes of a solution object take. -/
inductive Attr where
  /-- a string -/
  | str (s : String)
  /-- a one-dimensional array -/
  | arr (a : List ℝ)
  /-- the solution matrix `y`: one list per row (variable) -/
  | rows (m : List (List ℝ))
  /-- the list of event names `event_keys` -/
  | keys (l : List String)
  /-- scipy's `t_events`: for each event the list of its times -/
  | tEvents (l : List (List ℝ))
  /-- scipy's `y_events`: for each event the list of states (each a list over variables) -/
  | yEvents (l : List (List (List ℝ)))
  /-- a dictionary from event name to array -/
  | evArr (d : Dict (List ℝ))
  /-- a dictionary from event name to list of states -/
  | evStates (d : Dict (List (List ℝ)))
  /-- anything else scipy stores (`success`, `status`, `nfev`, …) -/
  | other (n : ℕ)

/-- `dict(zip(keys, vals))`. -/
def dictZip {α : Type} (ks : List String) (vs : List α) : Dict α :=
  (ks.zip vs).foldl (fun d p => d.set p.1 p.2) []

namespace Attr
/-- `sol.t` used as an array -/
def getArr : Option Attr → Except PyErr (List ℝ)
  | some (.arr a) => .ok a
  | none => .error (.attributeError "t")
  | _ => .error (.typeError "array expected")
/-- `sol.y` used as a matrix -/
def getRows : Option Attr → Except PyErr (List (List ℝ))
  | some (.rows a) => .ok a
  | none => .error (.attributeError "y")
  | _ => .error (.typeError "matrix expected")
/-- `sol.event_keys` -/
def getKeys : Option Attr → Except PyErr (List String)
  | some (.keys a) => .ok a
  | none => .error (.attributeError "event_keys")
  | _ => .error (.typeError "list expected")
/-- `sol.get('t_events')` used as an iterable -/
def getT : Option Attr → Except PyErr (List (List ℝ))
  | some (.tEvents a) => .ok a
  | _ => .error (.typeError "t_events")
/-- `sol.pop('y_events')` used as an iterable -/
def getY : Option Attr → Except PyErr (List (List (List ℝ)))
  | some (.yEvents a) => .ok a
  | none => .error (.keyError "y_events")
  | _ => .error (.typeError "y_events")
end Attr

/-- Indexing an array: `IndexError` out of range (negative indices never occur: they come from
`idx`). -/
def pyGet {α : Type} (l : List α) (i : ℕ) : Except PyErr α :=
  match l[i]? with
  | some v => .ok v
  | none => .error (.indexError "index out of bounds")

/-- equations.py:50-51: `for name, i in self.idx.items(): setattr(sol, name, sol.y[i])`; `sol.y` is
looked up afresh in each iteration. -/
def setRows : Dict ℕ → Dict Attr → Except PyErr (Dict Attr)
  | [], s => .ok s
  | (name, i) :: rest, s => do
    let y ← Attr.getRows (s.get? "y")
    let r ← pyGet y i
    setRows rest (s.set name (.arr r))

/-- equations.py:59-60, the comprehension: column `i` of every event's states, `np.array([])` for
an event that never happened. -/
def columnOf (i : ℕ) : Dict (List (List ℝ)) → Except PyErr (Dict (List ℝ))
  | [] => .ok []
  | (key, value) :: rest => do
    let col ← value.mapM (fun st => pyGet st i)
    let r ← columnOf i rest
    .ok ((key, col) :: r)

/-- `sol.y_events` used as a dictionary -/
def Attr.getStates : Option Attr → Except PyErr (Dict (List (List ℝ)))
  | some (.evStates d) => .ok d
  | _ => .error (.attributeError "items")

/-- equations.py:58-60; `sol.y_events` is looked up afresh in each iteration. -/
def setEventRows : Dict ℕ → Dict Attr → Except PyErr (Dict Attr)
  | [], s => .ok s
  | (name, i) :: rest, s => do
    let ye ← Attr.getStates (s.get? "y_events")
    let c ← columnOf i ye
    setEventRows rest (s.set (name ++ "_events") (.evArr c))

/-- equations.py:44-61 `Equations.sol`. -/
def Equations.sol (e : Equations) (s : Dict Attr) : Except PyErr (Dict Attr) := do
  let some x_name := e.independent_variable | .error (.attributeError "independent_variable")
  let s := s.set "independent_variable" (.str x_name)
  let t ← Attr.getArr (s.get? "t")
  let s := s.set "x" (.arr t)
  let s := s.del "t"
  let s ← setRows e.idx s
  let x ← Attr.getArr (s.get? "x")
  let s := s.set x_name (.arr x)
  match s.get? "event_keys" with
  | none => .ok s
  | some k => do
    let ks ← Attr.getKeys (some k)
    let te ← Attr.getT (s.get? "t_events")
    let s := s.set "x_events" (.evArr (dictZip ks te))
    let te' ← Attr.getT (s.get? "t_events")
    let s := s.del "t_events"
    let s := s.set (x_name ++ "_events") (.evArr (dictZip ks te'))
    let ye ← Attr.getY (s.get? "y_events")
    let s := s.del "y_events"
    let s := s.set "y_events" (.evStates (dictZip ks ye))
    setEventRows e.idx s

end Primpy
