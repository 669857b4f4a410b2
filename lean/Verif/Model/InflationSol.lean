import Verif.Model.Events
import Verif.Model.Solution

/-!
# primpy/inflation.py 407-462: start, end, duration and mask of inflation

NaN is `none`.  `np.sqrt` of a negative number and `np.log` of a non-positive one are `none`
(`np.log(0) = -inf` is also non-finite; the distinction is not modelled).  The base class
post-processing (C22) aligns `x_events[key]`, `y_events[key]`, `_N_events[key]`, `phi_events[key]`,
so the events are one dictionary from key to the list of `(x, y)` at which the event was seen.
-/

namespace Primpy
open Real

/-- `np.sqrt` -/
noncomputable def nanSqrt (x : ℝ) : Option ℝ := if 0 ≤ x then some √x else none
/-- `np.log` -/
noncomputable def nanLog (x : ℝ) : Option ℝ := if 0 < x then some (log x) else none

/-- A solution after `Equations.sol`: grid points with states, and events. -/
structure RawSol where
  /-- `zip(sol.x, sol.y.T)`; scipy always returns the starting point -/
  first : ℝ × (ℕ → ℝ)
  rest : List (ℝ × (ℕ → ℝ))
  events : Dict (List (ℝ × (ℕ → ℝ)))

/-- All grid points. -/
def RawSol.grid (s : RawSol) : List (ℝ × (ℕ → ℝ)) := s.first :: s.rest

/-- Warnings issued through `vwarn`. -/
inductive Warn where
  | collapse | inflationStart (notTracked : Bool) | inflationEnd (kind : ℕ)
  deriving DecidableEq

/-- inflation.py:374-376: `np.sqrt(self.H2(x, y))` -/
noncomputable def EqView.Hnan (Q : EqView) (p : ℝ × (ℕ → ℝ)) : Option ℝ := nanSqrt (Q.H2 p.1 p.2)

/-- exceptionhandling.py:119-131: which of the two texts an `InflationStartWarning` gets (`true` =
"Not tracking `InflationEvent`"). -/
def startNotTracked {α : Type} (events : Dict α) : Bool :=
  !events.contains "Inflation_dir+1_term1" && !events.contains "Inflation_dir+1_term0"

/-- exceptionhandling.py:149-171, the kind of an `InflationEndWarning`: 0 = not tracking, 1 = still
inflating, 2 = plain. -/
noncomputable def endKind {α : Type} (events : Dict α) (wlast : ℝ) : ℕ :=
  open Classical in
  if !events.contains "Inflation_dir-1_term1" && !events.contains "Inflation_dir-1_term0" then 0
  else if wlast < -1/3 then 1 else 2

/-- Attributes set by `postprocessing_inflation_start`. -/
structure StartInfo where
  N_beg : Option ℝ
  H_beg : Option ℝ
  logaH_beg : Option ℝ
  warning : Option Warn

/-- `sol._N_events[key].size > 0`, giving the first entry. -/
def firstEvent (events : Dict (List (ℝ × (ℕ → ℝ)))) (key : String) : Option (ℝ × (ℕ → ℝ)) :=
  (events.get? key).bind List.head?

/-- inflation.py:407-426 -/
noncomputable def postStart (Q : EqView) (s : RawSol) : StartInfo :=
  open Classical in
  let logaH (N H : Option ℝ) : Option ℝ := N.bind fun n => H.bind fun h => (nanLog h).map (n + ·)
  if (firstEvent s.events "Collapse").isSome then
    ⟨none, none, logaH none none, some .collapse⟩
  else if 0 ≤ Q.inflating s.first.1 s.first.2 ∨ Q.w s.first.1 s.first.2 ≤ -1/3 then
    let N := some (Q.N s.first.1 s.first.2)
    let H := Q.Hnan s.first
    ⟨N, H, logaH N H, none⟩
  else match firstEvent s.events "Inflation_dir1_term0" with
    | some p =>
      let N := some (Q.N p.1 p.2)
      let H := Q.Hnan p
      ⟨N, H, logaH N H, none⟩
    | none => ⟨none, none, logaH none none, some (.inflationStart (startNotTracked s.events))⟩

/-- Attributes set by `postprocessing_inflation_end`. -/
structure EndInfo where
  N_end : Option ℝ
  phi_end : Option ℝ
  H_end : Option ℝ
  logaH_end : Option ℝ
  V_end : Option ℝ
  warning : Option Warn

/-- inflation.py:436-442: the loop over the two keys, left at the first non-empty one. -/
def endEvent (events : Dict (List (ℝ × (ℕ → ℝ)))) : Option (ℝ × (ℕ → ℝ)) :=
  match firstEvent events "Inflation_dir-1_term1" with
  | some p => some p
  | none => firstEvent events "Inflation_dir-1_term0"

/-- inflation.py:428-446; `V` is the potential. -/
noncomputable def postEnd (Q : EqView) (V : ℝ → ℝ) (s : RawSol) : EndInfo :=
  match endEvent s.events with
  | some p =>
    let N := Q.N p.1 p.2
    let H := Q.Hnan p
    let phi := Q.phi p.1 p.2
    ⟨some N, some phi, H, H.bind fun h => (nanLog h).map (N + ·), some (V phi), none⟩
  | none =>
    let last := s.grid.getLast (by simp [RawSol.grid])
    ⟨none, none, none, none, none, some (.inflationEnd (endKind s.events (Q.w last.1 last.2)))⟩

/-- Attributes of the solution after inflation.py:448-462. -/
structure InflSol where
  start : StartInfo
  fin : EndInfo
  N : List ℝ
  w : List ℝ
  H : List (Option ℝ)
  logaH : List (Option ℝ)
  Omega_K : List (Option ℝ)
  N_tot : Option ℝ
  /-- `none` = attribute not set -/
  inflation_mask : Option (List Bool)

/-- inflation.py:448-462 -/
noncomputable def inflationSol (Q : EqView) (V : ℝ → ℝ) (K : ℝ) (s : RawSol) : InflSol :=
  open Classical in
  let st := postStart Q s
  let en := postEnd Q V s
  let N := s.grid.map fun p => Q.N p.1 p.2
  let H := s.grid.map Q.Hnan
  let logaH := s.grid.map fun p => (Q.Hnan p).bind fun h => (nanLog h).map (Q.N p.1 p.2 + ·)
  { start := st
    fin := en
    N := N
    w := s.grid.map fun p => Q.w p.1 p.2
    H := H
    logaH := logaH
    Omega_K := logaH.map fun l => l.map fun l => -K * exp (-2 * l)
    N_tot := en.N_end.bind fun e => st.N_beg.map (e - ·)
    inflation_mask := st.N_beg.bind fun b => en.N_end.map fun e =>
      N.map fun n => decide (b < n) && decide (n < e) }

end Primpy
