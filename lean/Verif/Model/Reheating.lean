import Verif.Model.Basic

/-! # primpy/reheating.py -/

namespace Primpy
open Classical in
/-- reheating.py:38-58.  `None` is `none`. -/
noncomputable def is_instant_reheating (N_star rho_reh_GeV w_reh DeltaN_reh DeltaN_minus1 : Option ℝ) :
    Except PyErr Bool :=
  if N_star.isSome then .ok false
  else if
      (rho_reh_GeV = none ∧ w_reh = none ∧ DeltaN_reh = none ∧ DeltaN_minus1 = none)
      ∨ (∃ w, w_reh = some w ∧ w = 1 / 3)
      ∨ (∃ d, DeltaN_reh = some d ∧ d = 0)
      ∨ (∃ d, DeltaN_minus1 = some d ∧ d = 0) then
    if (∃ w, w_reh = some w ∧ w ≠ 1 / 3)
      ∨ (∃ d, DeltaN_reh = some d ∧ d ≠ 0)
      ∨ (∃ d, DeltaN_minus1 = some d ∧ d ≠ 0)
      ∨ rho_reh_GeV.isSome then
      .error (.valueError "instant reheating requires all other parameters to match")
    else .ok true
  else .ok false

end Primpy
