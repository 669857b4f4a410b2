import Verif.Model.Perturbations
import Verif.Model.SpectraSol

/-!
# primpy/oscode_solver.py, perturbations.py, time/perturbations.py, efolds/perturbations.py: what the perturbation code reads from a background

`solve_oscode(background, k, …)` is handed the object that `solve` returned and that `calibrate_scale_factor` completed.  Here the record `Pert.Bg` of
Model/Perturbations.lean is read off that object.
-/

namespace Primpy.Pert
open Approx (arr?)

/-- `b.independent_variable`, as compared in oscode_solver.py:105-112 -/
def indepOf : Option Attr → Option Indep
  | some (.str v) => some (if v = "t" then .t else if v = "_N" then .N else .other)
  | _ => none

/-- `background.dphidt` (time/perturbations.py:55, 77, ...) or `background.dphidN` (efolds/perturbations.py:60, 82, ...); neither is read for another independent variable -/
def dphiOf (o : Dict Attr) : Indep → Option (List ℝ)
  | .t => arr? (o.get? "dphidt")
  | .N => arr? (o.get? "dphidN")
  | .other => some []

/-- The background as the perturbation code sees it: `independent_variable`, `K`, `potential`, `x` (= `t` or `_N`), `_N`, `phi`, `dphidt`/`dphidN`, `H`, `Omega_K`, `_logaH`
and `_logaH_star` (perturbations.py:16; oscode_solver.py:81-125; time/perturbations.py:52-57, 70-76, ..., efolds/perturbations.py:57-63, 75-81, ...).  `o` and `s`: the attributes that
`solve` set; `st`: the state of the calibration.  `potential.perturbation_ic` is `(1, 0, 0, 1)` for every potential (potentials.py:285, 364, ...).  `none`: an attribute is missing -
`_logaH_star` is only set by `calibrate_scale_factor` - or an array contains NaN (not covered). -/
noncomputable def bgOf (E : Eqs) (o : Dict Attr) (s : InflSol) (st : CalState) : Option Bg :=
  st.cal.bind fun c => (indepOf (o.get? "independent_variable")).bind fun iv => (arr? (o.get? "x")).bind fun x => (arr? (o.get? "phi")).bind fun phi =>
    (dphiOf o iv).bind fun dphi => (s.H.mapM id).bind fun H => (s.Omega_K.mapM id).bind fun Ok => (s.logaH.mapM id).bind fun L =>
      some { indep := iv, K := E.K, pot := E.pot, logaH_star := c.logaH_star
             pts := (List.range x.length).map fun i =>
               ⟨x.getD i 0, s.N.getD i 0, phi.getD i 0, dphi.getD i 0, H.getD i 0, Ok.getD i 0, L.getD i 0⟩ }

end Primpy.Pert
