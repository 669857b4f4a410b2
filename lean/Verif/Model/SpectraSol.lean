import Verif.Model.PowerSol
import Verif.Model.Solver
import Verif.Model.Background

/-!
# primpy/inflation.py 910-940, 968-969, 1084-1117, 1159-1182, 1236-1266: the slow-roll parameters from the arrays of a solution

The code selects the grid points of `inflation_mask` first and then computes elementwise; here the parameters are computed at every grid point and
selected afterwards (`gridOf`, Model/PowerSol.lean), which is the same as all operations are elementwise.
-/

namespace Primpy

/-- The slow-roll point the cosmic-time code builds from `φ̇, φ̈, ...` (inflation.py:926-940, 968-969). -/
noncomputable def T.srPoint (N H dphi d2phi d3phi d4phi K : ℝ) : SRPoint :=
  let dH := T.get_dH N H dphi K
  let d2H := T.get_d2H N H dH dphi d2phi K
  let d3H := T.get_d3H N H dH d2H dphi d2phi d3phi K
  { H := H, e1 := T.get_epsilon_1H H dH, e2 := T.get_epsilon_2H H dH d2H
    e3 := T.get_epsilon_3H H dH d2H d3H, d1 := T.get_delta_1 H dH dphi d2phi
    d2 := T.get_delta_2 H dH d2H dphi d2phi d3phi
    d3 := T.get_delta_3 H dH d2H d3H dphi d2phi d3phi d4phi
    g2 := T.get_epsilon_2H_Gong H dH d2H, g3 := T.get_epsilon_3H_Gong H dH d2H d3H }

/-- The slow-roll point the e-folds code builds from `φ', φ'', ...` (inflation.py:926-940, 968-969). -/
noncomputable def N.srPoint (N H dphi d2phi d3phi d4phi K : ℝ) : SRPoint :=
  let dH := Primpy.N.get_dH N H dphi K
  let d2H := Primpy.N.get_d2H N H dH dphi d2phi K
  let d3H := Primpy.N.get_d3H N H dH d2H dphi d2phi d3phi K
  { H := H, e1 := Primpy.N.get_epsilon_1H H dH, e2 := Primpy.N.get_epsilon_2H H dH d2H
    e3 := Primpy.N.get_epsilon_3H H dH d2H d3H, d1 := Primpy.N.get_delta_1 H dH dphi d2phi
    d2 := Primpy.N.get_delta_2 H dH d2H dphi d2phi d3phi
    d3 := Primpy.N.get_delta_3 H dH d2H d3H dphi d2phi d3phi d4phi
    g2 := Primpy.N.get_epsilon_2H_Gong H dH d2H, g3 := Primpy.N.get_epsilon_3H_Gong H dH d2H d3H }

/-- The slow-roll point the cosmic-time code computes at a grid point (inflation.py:922-940, 968-969). -/
noncomputable def T.srAt (K : ℝ) (pot : PotFns) (N H phi dphi : ℝ) : SRPoint :=
  let d := T.pipeline K pot N H phi dphi
  T.srPoint N H dphi d.d2phi d.d3phi d.d4phi K
/-- The same for e-folds (inflation.py:922-940, 968-969). -/
noncomputable def N.srAt (K : ℝ) (pot : PotFns) (N_ H phi dphi : ℝ) : SRPoint :=
  let d := N.pipeline K pot N_ H phi dphi
  N.srPoint N_ H dphi d.d2phi d.d3phi d.d4phi K

/-- The `get_…` methods of `self` (time/inflation.py, efolds/inflation.py) applied to `_N`, `H`, `phi`, `dphi` of one grid point, with `K = sol.K` and
`sol.potential`, which are the equations' own (inflation.py:454-455). -/
noncomputable def Eqs.srAt : Eqs → Option (ℝ → ℝ → ℝ → ℝ → SRPoint)
  | .T e => some (T.srAt e.K e.pot)
  | .N e => some (N.srAt e.K e.pot)
  | .other _ _ => none

namespace Approx

/-- `sol.name` used as an array of numbers; `none`: missing, or something else -/
def arr? : Option Attr → Option (List ℝ)
  | some (.arr a) => some a
  | _ => none

/-- inflation.py:912-940 (and the copies at 1084-1105, 1159-1180, 1236-1258): the parameters at all grid points.  `dphi` is `sol.dphidt` if the object has that attribute and
`sol.dphidN` otherwise.  `none`: an attribute is missing, or `H` is NaN somewhere (not covered). -/
noncomputable def srArrays (E : Eqs) (b : Dict Attr) (s : InflSol) : Option (List SRPoint) :=
  E.srAt.bind fun f => (s.H.mapM id).bind fun H => (arr? (b.get? "phi")).bind fun phi =>
    (if (b.get? "dphidt").isSome then arr? (b.get? "dphidt") else arr? (b.get? "dphidN")).bind fun dphi =>
      some (List.zipWith (fun p q => f p.1 p.2 q.1 q.2) (s.N.zip H) (phi.zip dphi))

/-- `interp1d(_N[mask], v[mask])(x)`; 0 where scipy raises (the spectra model has no such exception) -/
noncomputable def starValue (N v : List ℝ) (mask : List Bool) (x : ℝ) : ℝ :=
  match interpL (maskSel N mask) (maskSel v mask) x with
  | .ok y => y
  | .error _ => 0

/-- inflation.py:1107-1117, 1260-1268: `H`, `e1`, `e2`, `e3` at `_N_cross`, each interpolated linearly in the e-folds. -/
noncomputable def starPoint (N : List ℝ) (g : List SRPoint) (mask : List Bool) (x : ℝ) : SRPoint :=
  { H := starValue N (g.map (·.H)) mask x, e1 := starValue N (g.map (·.e1)) mask x, e2 := starValue N (g.map (·.e2)) mask x
    e3 := starValue N (g.map (·.e3)) mask x }

/-- The slow-roll data of a solution returned by `solve`: attribute dictionary `b`, derived quantities `s`. -/
noncomputable def slowRoll (E : Eqs) (b : Dict Attr) (s : InflSol) : Option SlowRoll :=
  (srArrays E b s).map fun g => ⟨g, starPoint s.N g⟩

end Approx
end Primpy
