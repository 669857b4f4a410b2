import Verif.Model.InflationSol

/-!
# primpy/initialconditions.py

NaN (and the non-finite results of `log 0`, of `np.sqrt` of a negative number) are `none`.  Python
numbers given by the caller are finite reals.  `kwargs` are modelled by two optional arguments:
`none` = the keyword was not given.
-/

namespace Primpy
open Real

/-- The equations object handed to an initial condition; `other` is any further subclass of
`InflationEquations`. -/
inductive Eqs where
  | T (e : InflT)
  | N (e : InflN)
  | other (K : ℝ) (pot : PotFns)

namespace Eqs
/-- `equations.K` -/
def K : Eqs → ℝ | T e => e.K | N e => e.K | other K _ => K
/-- `equations.potential` -/
def pot : Eqs → PotFns | T e => e.pot | N e => e.pot | other _ p => p
/-- `equations.idx` -/
def idx : Eqs → Dict ℕ | T e => e.eqs.idx | N e => e.eqs.idx | other _ _ => []
/-- `equations.track_eta` -/
def track_eta : Eqs → Bool | T e => e.track_eta | N e => e.track_eta | other _ _ => false
end Eqs

/-- Constructor arguments: initialconditions.py:35 and 107. -/
structure ICArgs where
  phi_i : ℝ
  t_i : Option ℝ
  eta_i : Option ℝ
  x_end : ℝ
  N_i : Option ℝ
  Omega_Ki : Option ℝ

/-- Attributes of a constructed initial condition. -/
structure IC where
  phi_i : ℝ
  t_i : Option ℝ
  eta_i : Option ℝ
  x_end : ℝ
  V_i : ℝ
  dV_i : ℝ
  N_i : Option ℝ
  Omega_Ki : Option ℝ
  aH_i : Option ℝ
  H_i : Option ℝ

/-- `a * np.exp(-N)` with NaN propagation -/
noncomputable def mulExpNeg (aH N : Option ℝ) : Option ℝ :=
  aH.bind fun a => N.map fun n => a * exp (-n)

open Classical in
/-- float division: inf or NaN (`none`) for a zero denominator -/
noncomputable def nanDiv (a b : ℝ) : Option ℝ := if b = 0 then none else some (a / b)

open Classical in
/-- initialconditions.py:35-66 `SlowRollIC.__init__` (the velocity, lines 67-76, is in `call`).  `V_i = 0` makes the
argument of the logarithm non-finite (or raises `ZeroDivisionError`, if the potential returns a Python float): `N_i` is `none`. -/
noncomputable def SlowRollIC.init (E : Eqs) (a : ICArgs) : Except PyErr IC :=
  let V_i := E.pot.V a.phi_i
  let dV_i := E.pot.dV a.phi_i
  match a.N_i, a.Omega_Ki with
  | some N_i, none =>
    let aH2_i := V_i / 3 * exp (2 * N_i) - E.K
    if aH2_i < 0 then .error (.inflationStart "closed")
    else
      let aH_i := nanSqrt (V_i / 3 * exp (2 * N_i) - E.K)
      let Omega_Ki := nanDiv (-E.K) aH2_i
      .ok ⟨a.phi_i, a.t_i, a.eta_i, a.x_end, V_i, dV_i, some N_i, Omega_Ki, aH_i,
        mulExpNeg aH_i (some N_i)⟩
  | none, some Omega_Ki =>
    if 1 ≤ Omega_Ki then .error (.inflationStart "open")
    else if Omega_Ki = 0 then .error (.zeroDivision "1 / Omega_Ki")
    else
      let N_i := (nanLog (3 * E.K / V_i * (1 - 1 / Omega_Ki))).map (· / 2)
      let aH2_i := -E.K / Omega_Ki
      let aH_i := nanSqrt aH2_i
      .ok ⟨a.phi_i, a.t_i, a.eta_i, a.x_end, V_i, dV_i, N_i, some Omega_Ki, aH_i,
        mulExpNeg aH_i N_i⟩
  | _, _ => .error (.typeError "N_i xor Omega_Ki")

open Classical in
/-- initialconditions.py:107-139 `InflationStartIC.__init__` (`dV_i` is not used by this class). -/
noncomputable def InflationStartIC.init (E : Eqs) (a : ICArgs) : Except PyErr IC :=
  let V_i := E.pot.V a.phi_i
  let H_i (N : Option ℝ) : Option ℝ := N.bind fun n => nanSqrt (V_i / 2 - E.K * exp (-2 * n))
  match a.N_i with
  | some N_i =>
    if a.Omega_Ki.isSome then .error (.assertion "Only either N_i or Omega_Ki")
    else if V_i / 2 * exp (2 * N_i) - E.K < 0 then .error (.inflationStart "closed")
    else
      let aH_i := nanSqrt (V_i / 2 * exp (2 * N_i) - E.K)
      .ok ⟨a.phi_i, a.t_i, a.eta_i, a.x_end, V_i, E.pot.dV a.phi_i, some N_i,
        aH_i.bind fun h => nanDiv (-E.K) (h ^ 2), aH_i, H_i (some N_i)⟩
  | none =>
    match a.Omega_Ki with
    | some Omega_Ki =>
      if 1 ≤ Omega_Ki then .error (.inflationStart "open")
      else if Omega_Ki = 0 then .error (.zeroDivision "1 / Omega_Ki")
      else
        let N_i := (nanLog (2 * E.K / V_i * (1 - 1 / Omega_Ki))).map (· / 2)
        .ok ⟨a.phi_i, a.t_i, a.eta_i, a.x_end, V_i, E.pot.dV a.phi_i, N_i, some Omega_Ki,
          nanSqrt (-E.K / Omega_Ki), H_i N_i⟩
    | none => .error (.typeError "N_i or Omega_Ki")

/-- `y0[self.equations.idx[name]] = v` -/
def writeRow (idx : Dict ℕ) (name : String) (v : Option ℝ) (y : ℕ → Option ℝ) :
    Except PyErr (ℕ → Option ℝ) :=
  match idx.get? name with
  | some i => .ok (Function.update y i v)
  | none => .error (.keyError name)

/-- initialconditions.py:78-97 and 141-166: the part of `__call__` both classes share, with the
velocities they assign to `dphidt` / `dphidN`. -/
def writeY0 (E : Eqs) (ic : IC) (dphidt dphidN : Option ℝ) (y0 : ℕ → Option ℝ) :
    Except PyErr (ℕ → Option ℝ) := do
  let y ← match E with
    | .T _ => do
      let y ← writeRow E.idx "dphidt" dphidt y0
      writeRow E.idx "_N" ic.N_i y
    | .N e => do
      let y ← writeRow E.idx "dphidN" dphidN y0
      if e.track_time then
        if ic.t_i.isNone then .error (.assertion "t_i")
        else writeRow E.idx "t" ic.t_i y
      else .ok y
    | .other _ _ => .error (.notImplemented "type of equations")
  let y ← writeRow E.idx "phi" (some ic.phi_i) y
  if E.track_eta then
    if ic.eta_i.isNone then .error (.assertion "eta_i")
    else writeRow E.idx "eta" ic.eta_i y
  else .ok y

/-- initialconditions.py:70 -/
noncomputable def SlowRollIC.dphidt_i (ic : IC) : Option ℝ := ic.H_i.bind fun h => nanDiv (-ic.dV_i) (3 * h)
/-- initialconditions.py:76 -/
noncomputable def SlowRollIC.dphidN_i (ic : IC) : Option ℝ :=
  ic.H_i.bind fun h => nanDiv (-ic.dV_i) (3 * h ^ 2)
/-- initialconditions.py:78-97 `SlowRollIC.__call__` -/
noncomputable def SlowRollIC.call (E : Eqs) (ic : IC) (y0 : ℕ → Option ℝ) :
    Except PyErr (ℕ → Option ℝ) :=
  writeY0 E ic (dphidt_i ic) (dphidN_i ic) y0

/-- initialconditions.py:146 -/
noncomputable def InflationStartIC.dphidt_i (ic : IC) : Option ℝ := (nanSqrt ic.V_i).map (- ·)
/-- initialconditions.py:152 -/
noncomputable def InflationStartIC.dphidN_i (ic : IC) : Option ℝ :=
  (nanSqrt ic.V_i).bind fun s => ic.H_i.bind fun h => nanDiv (-s) h
/-- initialconditions.py:141-166 `InflationStartIC.__call__` -/
noncomputable def InflationStartIC.call (E : Eqs) (ic : IC) (y0 : ℕ → Option ℝ) :
    Except PyErr (ℕ → Option ℝ) :=
  writeY0 E ic (dphidt_i ic) (dphidN_i ic) y0

/-- `ic.x_ini`: initialconditions.py:68, 74 (`SlowRollIC.__init__`) and 144, 150
(`InflationStartIC.__call__`). -/
def IC.x_ini (E : Eqs) (ic : IC) : Option ℝ :=
  match E with
  | .T _ => ic.t_i
  | .N _ => ic.N_i
  | .other _ _ => none

end Primpy
