import Verif.Model.Background

/-!
# primpy/events.py

An event only reads its equations object through the methods `t`, `_N`, `phi`, `inflating`, `w`,
`H2`: an `EqView` collects those methods, with one instance per formulation.
-/

namespace Primpy
open Real

/-- The methods of an equations object that events and the solution post-processing use; each takes
the independent variable and the state vector. -/
structure EqView where
  t : ℝ → (ℕ → ℝ) → ℝ
  N : ℝ → (ℕ → ℝ) → ℝ
  phi : ℝ → (ℕ → ℝ) → ℝ
  inflating : ℝ → (ℕ → ℝ) → ℝ
  w : ℝ → (ℕ → ℝ) → ℝ
  H2 : ℝ → (ℕ → ℝ) → ℝ

/-- `InflationEquationsT` as seen by events (time/inflation.py:25-29, 120-131). -/
noncomputable def InflT.view (e : InflT) : EqView where
  t x _ := x
  N _ y := InflT._N y
  phi _ y := InflT.phi y
  inflating _ y := e.inflating y
  w _ y := e.w y
  H2 _ y := e.H2 y

/-- `InflationEquationsN` as seen by events (efolds/inflation.py:26-34, 129-140).  `t` is row 2
(only meaningful with `track_time=True`). -/
noncomputable def InflN.view (e : InflN) : EqView where
  t _ y := y 2
  N x _ := x
  phi _ y := InflN.phi y
  inflating x y := e.inflating x y
  w x y := e.w x y
  H2 x y := e.H2 x y

/-- The root direction of an event, documented (events.py:17-18) as "one of {-1, 0, +1}". -/
inductive Direction where
  | neg | zero | pos
  deriving DecidableEq, Repr

namespace Direction
/-- the integer handed to scipy -/
def val : Direction → ℤ | neg => -1 | zero => 0 | pos => 1
/-- `'%d' % direction` -/
def fmt : Direction → String | neg => "-1" | zero => "0" | pos => "1"
end Direction

/-- `'%d' % terminal` for a Python `bool`. -/
def fmtBool : Bool → String | true => "1" | false => "0"

/-- events.py: which event class, with the arguments that are specific to it. -/
inductive EventKind where
  | untilT | untilN
  /-- `t_i` as in events.py:84 -/
  | inflation (t_i : Option ℝ)
  | afterInflationEnd | collapse | phi0 | modeExit

/-- An event object (events.py:27-32). -/
structure Event where
  kind : EventKind
  direction : Direction
  terminal : Bool
  value : ℝ

namespace Event

/-- The `name` attribute: events.py:59, 71, 83, 98, 110, 122, 134.  `fmtE` is the `'%e'` formatting
of a float. -/
def name (fmtE : ℝ → String) (ev : Event) : String :=
  match ev.kind with
  | .untilT => "UntilT"
  | .untilN => "UntilN"
  | .inflation _ => "Inflation_dir" ++ ev.direction.fmt ++ "_term" ++ fmtBool ev.terminal
  | .afterInflationEnd =>
      "AfterInflationEnd_dir" ++ ev.direction.fmt ++ "_term" ++ fmtBool ev.terminal
  | .collapse => "Collapse"
  | .phi0 => "Phi0_dir" ++ ev.direction.fmt ++ "_term" ++ fmtBool ev.terminal
  | .modeExit => "ModeExit_dir" ++ ev.direction.fmt ++ "_term" ++ fmtBool ev.terminal ++ "_"
      ++ fmtE ev.value

open Classical in
/-- `event(x, y)`: events.py:61-63, 73-75, 86-90, 100-102, 112-114, 124-126, 136-139.  (`np.log(0)`,
which is `-inf`, is outside the modelled domain: see the hypotheses of the theorems.) -/
noncomputable def call (Q : EqView) (ev : Event) (x : ℝ) (y : ℕ → ℝ) : ℝ :=
  match ev.kind with
  | .untilT => Q.t x y - ev.value
  | .untilN => Q.N x y - ev.value
  | .inflation t_i => if some x = t_i then (ev.direction.val : ℝ) else Q.inflating x y - ev.value
  | .afterInflationEnd => Q.w x y - ev.value
  | .collapse => Q.H2 x y - ev.value
  | .phi0 => Q.phi x y - ev.value
  | .modeExit => log |Q.H2 x y| / 2 + Q.N x y - log ev.value

end Event

/-- scipy's rule for an event being active in a step (`scipy.integrate._ivp.ivp.find_active_events`):
`g` and `gNew` are the event values at the two ends of the step.  External contract, not primpy
code. -/
def scipyActive (d : Direction) (g gNew : ℝ) : Prop :=
  let up := g ≤ 0 ∧ 0 ≤ gNew
  let down := 0 ≤ g ∧ gNew ≤ 0
  match d with
  | .pos => up
  | .neg => down
  | .zero => up ∨ down

end Primpy
