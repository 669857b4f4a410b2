import Verif.Model.Basic

/-!
# primpy/potentials.py:180-213: Hubble-flow parameters approximated with potential slow-roll parameters

Methods of the base class; `e1V … e4V` are the methods `get_epsilon_1V … get_epsilon_4V` of the subclass.
-/

namespace Primpy
namespace FlowApprox

/-- potentials.py:180-185 -/
noncomputable def get_epsilon_1 (e1V e2V e3V : ℝ → ℝ) (phi : ℝ) : ℝ :=
  let e1V := e1V phi
  let e2V := e2V phi
  let e3V := e3V phi
  e1V - e1V * e2V / 3 - e1V^2 * e2V / 9 + 5/36 * e1V * e2V^2 + e1V * e2V * e3V / 9

/-- potentials.py:187-194 -/
noncomputable def get_epsilon_2 (e1V e2V e3V e4V : ℝ → ℝ) (phi : ℝ) : ℝ :=
  let e1V := e1V phi
  let e2V := e2V phi
  let e3V := e3V phi
  let e4V := e4V phi
  (e2V - 1/6*e2V^2 - 1/3*e2V*e3V - 1/6*e1V*e2V^2 + 1/18*e2V^3 - 1/9*e1V*e2V*e3V
    + 5/18*e2V^2*e3V + 1/9*e2V*e3V^2 + 1/9*e2V*e3V*e4V)

/-- potentials.py:196-205; `e5V = 0` in the code -/
noncomputable def get_epsilon_3 (e1V e2V e3V e4V : ℝ → ℝ) (phi : ℝ) : ℝ :=
  let e1V := e1V phi
  let e2V := e2V phi
  let e3V := e3V phi
  let e4V := e4V phi
  let e5V := 0
  (e3V - 1/3*e2V*e3V - 1/3*e3V*e4V - 1/6*e1V*e2V^2 - 1/3*e1V*e2V*e3V
    + 1/6*e2V^2*e3V + 5/18*e2V*e3V^2 - 1/9*e1V*e3V*e4V + 5/18*e2V*e3V*e4V
    + 1/9*e3V^2*e4V + 1/9*e3V*e4V^2 + 1/9*e3V*e4V*e5V)

/-- potentials.py:207-213; `e5V = 0` in the code -/
noncomputable def get_epsilon_4 (e2V e3V e4V : ℝ → ℝ) (phi : ℝ) : ℝ :=
  let e2V := e2V phi
  let e3V := e3V phi
  let e4V := e4V phi
  let e5V := 0
  e4V - 1/3*e2V*e3V - 1/6*e2V*e4V - 1/3*e4V*e5V

end FlowApprox
end Primpy
