import Verif.Model.Basic
import Mathlib.Analysis.SpecialFunctions.Trigonometric.Inverse
import Mathlib.Analysis.SpecialFunctions.Trigonometric.Arctan
import Mathlib.Analysis.SpecialFunctions.Arsinh
import Mathlib.Analysis.SpecialFunctions.Arcosh
import Mathlib.Analysis.SpecialFunctions.Artanh
import Mathlib.Data.Sign.Basic

/-!
# Inflationary potentials — primpy/potentials.py

Every class is a record of its constructor parameters; every method is a function of that record.
Python attributes set once in `__init__` are record fields, `cached_property`s are plain functions
(primpy caches the first value; the functions do not depend on mutable state other than `Lambda`,
which is dealt with explicitly in the constructor model, `Verif/Model/PotentialInit.lean`).
-/

namespace Primpy
open Real

/-! ## Monomial -/

/-- `MonomialPotential` (potentials.py:279-289). -/
structure Monomial where
  Lambda : ℝ
  p : ℝ

namespace Monomial
/-- potentials.py:291-292 -/
noncomputable def V (m : Monomial) (phi : ℝ) : ℝ := m.Lambda^4 * |phi| ^ m.p
/-- potentials.py:294-295; `np.sign` is `SignType.sign` cast to the reals. -/
noncomputable def dV (m : Monomial) (phi : ℝ) : ℝ :=
  m.Lambda^4 * m.p * |phi| ^ (m.p - 1) * (SignType.sign phi : ℝ)
/-- potentials.py:297-298 -/
noncomputable def d2V (m : Monomial) (phi : ℝ) : ℝ :=
  m.Lambda^4 * m.p * (m.p - 1) * |phi| ^ m.p / phi^2
/-- potentials.py:300-302 -/
noncomputable def d3V (m : Monomial) (phi : ℝ) : ℝ :=
  m.Lambda^4 * m.p * (m.p^2 - 3*m.p + 2) * |phi| ^ (m.p - 3) * (SignType.sign phi : ℝ)
/-- potentials.py:304-306 -/
noncomputable def d4V (m : Monomial) (phi : ℝ) : ℝ :=
  m.Lambda^4 * m.p * (m.p^3 - 6*m.p^2 + 11*m.p - 6) * |phi| ^ (m.p - 4)
/-- potentials.py:308-309 -/
noncomputable def inv_V (m : Monomial) (V : ℝ) : ℝ := (V / m.Lambda^4) ^ (1 / m.p)
/-- potentials.py:311-312 -/
noncomputable def get_epsilon_1V (m : Monomial) (phi : ℝ) : ℝ := m.p^2 / (2 * phi^2)
/-- potentials.py:314-315 -/
noncomputable def get_epsilon_2V (m : Monomial) (phi : ℝ) : ℝ := 2 * m.p / phi^2
/-- potentials.py:317-318 -/
noncomputable def get_epsilon_3V (m : Monomial) (phi : ℝ) : ℝ := 2 * m.p / phi^2
/-- potentials.py:320-321 -/
noncomputable def get_epsilon_4V (m : Monomial) (phi : ℝ) : ℝ := 2 * m.p / phi^2
/-- potentials.py:323-325 -/
noncomputable def phi_end (m : Monomial) : ℝ := √2 * m.p / 2
/-- potentials.py:327-328 -/
noncomputable def sr_phi2N (m : Monomial) (phi : ℝ) : ℝ := -m.p / 4 + phi^2 / (2 * m.p)
/-- potentials.py:330-331 -/
noncomputable def sr_N2phi (m : Monomial) (N : ℝ) : ℝ := √(2 * m.p) * √(4 * N + m.p) / 2
/-- potentials.py:333-337 (static, `p` from the keyword arguments) -/
noncomputable def sr_Nstar2ns (p N_star : ℝ) : ℝ := 1 - p / (2 * N_star) - 1 / N_star
/-- potentials.py:339-343 -/
noncomputable def sr_ns2Nstar (p n_s : ℝ) : ℝ := (2 + p) / (2 * (1 - n_s))
/-- potentials.py:345-349 -/
noncomputable def sr_Nstar2r (p N_star : ℝ) : ℝ := 16 * p / (4 * N_star + p)
/-- potentials.py:351-355 -/
noncomputable def sr_r2Nstar (p r : ℝ) : ℝ := p * (16 - r) / (4 * r)
end Monomial

/-- `LinearPotential` (potentials.py:358-383): a monomial with `p=1`, no method overridden except
the static slow-roll relations, which forward with `p=1`. -/
def Linear (Lambda : ℝ) : Monomial := ⟨Lambda, 1⟩
/-- `CubicPotential` (potentials.py:434-459). -/
def Cubic (Lambda : ℝ) : Monomial := ⟨Lambda, 3⟩
/-- `QuarticPotential` (potentials.py:462-487). -/
def Quartic (Lambda : ℝ) : Monomial := ⟨Lambda, 4⟩

/-- `LinearPotential.sr_*` static forwards, potentials.py:369-383. -/
noncomputable def Linear.sr_Nstar2ns (N : ℝ) : ℝ := Monomial.sr_Nstar2ns 1 N
noncomputable def Linear.sr_ns2Nstar (n : ℝ) : ℝ := Monomial.sr_ns2Nstar 1 n
noncomputable def Linear.sr_Nstar2r (N : ℝ) : ℝ := Monomial.sr_Nstar2r 1 N
noncomputable def Linear.sr_r2Nstar (r : ℝ) : ℝ := Monomial.sr_r2Nstar 1 r
/-- `CubicPotential.sr_*` static forwards, potentials.py:445-459. -/
noncomputable def Cubic.sr_Nstar2ns (N : ℝ) : ℝ := Monomial.sr_Nstar2ns 3 N
noncomputable def Cubic.sr_ns2Nstar (n : ℝ) : ℝ := Monomial.sr_ns2Nstar 3 n
noncomputable def Cubic.sr_Nstar2r (N : ℝ) : ℝ := Monomial.sr_Nstar2r 3 N
noncomputable def Cubic.sr_r2Nstar (r : ℝ) : ℝ := Monomial.sr_r2Nstar 3 r
/-- `QuarticPotential.sr_*` static forwards, potentials.py:473-487. -/
noncomputable def Quartic.sr_Nstar2ns (N : ℝ) : ℝ := Monomial.sr_Nstar2ns 4 N
noncomputable def Quartic.sr_ns2Nstar (n : ℝ) : ℝ := Monomial.sr_ns2Nstar 4 n
noncomputable def Quartic.sr_Nstar2r (N : ℝ) : ℝ := Monomial.sr_Nstar2r 4 N
noncomputable def Quartic.sr_r2Nstar (r : ℝ) : ℝ := Monomial.sr_r2Nstar 4 r

/-- `QuadraticPotential` (potentials.py:386-431): a monomial with `p=2` that overrides `V`, `dV`,
`d2V`, `d3V`, `d4V`, `inv_V` and inherits everything else. -/
structure Quadratic where
  Lambda : ℝ

namespace Quadratic
/-- The inherited part: `super().__init__(p=2, ...)`, potentials.py:397. -/
def toMonomial (q : Quadratic) : Monomial := ⟨q.Lambda, 2⟩
/-- potentials.py:399-400 -/
def V (q : Quadratic) (phi : ℝ) : ℝ := q.Lambda^4 * phi^2
/-- potentials.py:402-403 -/
def dV (q : Quadratic) (phi : ℝ) : ℝ := 2 * q.Lambda^4 * phi
/-- potentials.py:405-406 -/
def d2V (q : Quadratic) (_phi : ℝ) : ℝ := 2 * q.Lambda^4
/-- potentials.py:408-409 -/
def d3V (_q : Quadratic) (_phi : ℝ) : ℝ := 0
/-- potentials.py:411-412 -/
def d4V (_q : Quadratic) (_phi : ℝ) : ℝ := 0
/-- potentials.py:414-415 -/
noncomputable def inv_V (q : Quadratic) (V : ℝ) : ℝ := √V / q.Lambda^2
/-- inherited, potentials.py:311-331 -/
noncomputable def get_epsilon_1V (q : Quadratic) := q.toMonomial.get_epsilon_1V
noncomputable def get_epsilon_2V (q : Quadratic) := q.toMonomial.get_epsilon_2V
noncomputable def get_epsilon_3V (q : Quadratic) := q.toMonomial.get_epsilon_3V
noncomputable def get_epsilon_4V (q : Quadratic) := q.toMonomial.get_epsilon_4V
noncomputable def phi_end (q : Quadratic) := q.toMonomial.phi_end
noncomputable def sr_phi2N (q : Quadratic) := q.toMonomial.sr_phi2N
noncomputable def sr_N2phi (q : Quadratic) := q.toMonomial.sr_N2phi
/-- static forwards, potentials.py:417-431 -/
noncomputable def sr_Nstar2ns (N : ℝ) : ℝ := Monomial.sr_Nstar2ns 2 N
noncomputable def sr_ns2Nstar (n : ℝ) : ℝ := Monomial.sr_ns2Nstar 2 n
noncomputable def sr_Nstar2r (N : ℝ) : ℝ := Monomial.sr_Nstar2r 2 N
noncomputable def sr_r2Nstar (r : ℝ) : ℝ := Monomial.sr_r2Nstar 2 r
end Quadratic

/-! ## Starobinsky -/

/-- `StarobinskyPotential` (potentials.py:490-500). -/
structure Starobinsky where
  Lambda : ℝ

namespace Starobinsky
/-- potentials.py:496 -/
noncomputable def gamma : ℝ := √(2 / 3)
/-- potentials.py:502-503 -/
noncomputable def V (s : Starobinsky) (phi : ℝ) : ℝ := s.Lambda^4 * (1 - exp (-gamma * phi))^2
/-- potentials.py:505-507 -/
noncomputable def dV (s : Starobinsky) (phi : ℝ) : ℝ :=
  s.Lambda^4 * 2 * gamma * exp (-2 * gamma * phi) * (exp (gamma * phi) - 1)
/-- potentials.py:509-511 -/
noncomputable def d2V (s : Starobinsky) (phi : ℝ) : ℝ :=
  s.Lambda^4 * 2 * gamma^2 * exp (-2 * gamma * phi) * (2 - exp (gamma * phi))
/-- potentials.py:513-515 -/
noncomputable def d3V (s : Starobinsky) (phi : ℝ) : ℝ :=
  s.Lambda^4 * 2 * gamma^3 * exp (-2 * gamma * phi) * (exp (gamma * phi) - 4)
/-- potentials.py:517-519 -/
noncomputable def d4V (s : Starobinsky) (phi : ℝ) : ℝ :=
  2 * s.Lambda^4 * gamma^4 * (8 - exp (gamma * phi)) * exp (-2 * gamma * phi)
/-- potentials.py:521-522 -/
noncomputable def inv_V (s : Starobinsky) (V : ℝ) : ℝ := -log (1 - √V / s.Lambda^2) / gamma
/-- potentials.py:524-526 -/
noncomputable def get_epsilon_1V (_s : Starobinsky) (phi : ℝ) : ℝ :=
  2 * gamma^2 / (1 - exp (gamma * phi))^2
/-- potentials.py:528-530 -/
noncomputable def get_epsilon_2V (_s : Starobinsky) (phi : ℝ) : ℝ :=
  gamma^2 / sinh (gamma * phi / 2)^2
/-- potentials.py:532-534 -/
noncomputable def get_epsilon_3V (_s : Starobinsky) (phi : ℝ) : ℝ :=
  2 * gamma^2 * (exp (gamma * phi) + 1) / (exp (gamma * phi) - 1)^2
/-- potentials.py:536-538 -/
noncomputable def get_epsilon_4V (_s : Starobinsky) (phi : ℝ) : ℝ :=
  gamma^2 * (exp (gamma*phi) + 3) / (2 * (exp (gamma*phi) + 1) * sinh (gamma*phi/2)^2)
/-- potentials.py:540-543 -/
noncomputable def phi_end (_s : Starobinsky) : ℝ := log (√2 * gamma + 1) / gamma
/-- potentials.py:545-548 -/
noncomputable def sr_phi2N (s : Starobinsky) (phi : ℝ) : ℝ :=
  (-phi + s.phi_end) / (2*gamma) + (exp (gamma * phi) - exp (gamma * s.phi_end)) / (2*gamma^2)
/-- potentials.py:550-556.  `W` stands for the branch `k=-1` of `scipy.special.lambertw`; its
argument is real and in `[-1/e, 0)`, where that branch is real, so `np.real_if_close` returns the
real number itself. -/
noncomputable def sr_N2phi (W : ℝ → ℝ) (s : Starobinsky) (N : ℝ) : ℝ :=
  -2*N*gamma + s.phi_end - exp (gamma*s.phi_end)/gamma
    - W (-exp (-2*N*gamma^2) * exp (gamma*s.phi_end) * exp (-exp (gamma*s.phi_end))) / gamma
/-- potentials.py:558-564 -/
noncomputable def sr_Nstar2ns (N_star : ℝ) : ℝ :=
  1 - (2 * N_star * gamma^2 + √2 * gamma + 2) / (N_star * gamma * (N_star * gamma + √2))
/-- potentials.py:566-572 -/
noncomputable def sr_ns2Nstar (n_s : ℝ) : ℝ :=
  (2*gamma - √2 * (1-n_s) + √(2*(1-n_s)^2 + 8*(1-n_s) + 4*gamma^2)) / (2 * gamma * (1-n_s))
/-- potentials.py:574-578 -/
noncomputable def sr_Nstar2r (N_star : ℝ) : ℝ := 32 / (2*N_star*gamma + √2)^2
/-- potentials.py:580-584 -/
noncomputable def sr_r2Nstar (r : ℝ) : ℝ := √2 * (4 - √r) / (2 * gamma * √r)
/-- deprecated `phi2efolds`, potentials.py:586-609 -/
noncomputable def phi2efolds (phi : ℝ) : ℝ :=
  let phi_end := log (1 + √2 * gamma) / gamma
  (exp (gamma * phi) - exp (gamma * phi_end) - gamma * (phi - phi_end)) / (2 * gamma^2)
end Starobinsky

/-! ## Natural -/

/-- `NaturalPotential` (potentials.py:612-628). -/
structure Natural where
  Lambda : ℝ
  phi0 : ℝ

namespace Natural
/-- potentials.py:630-631 -/
noncomputable def V (n : Natural) (phi : ℝ) : ℝ := n.Lambda^4 / 2 * (1 - cos (π * phi / n.phi0))
/-- potentials.py:633-634 -/
noncomputable def dV (n : Natural) (phi : ℝ) : ℝ :=
  n.Lambda^4 / 2 * sin (π * phi / n.phi0) * π / n.phi0
/-- potentials.py:636-637 -/
noncomputable def d2V (n : Natural) (phi : ℝ) : ℝ :=
  n.Lambda^4 / 2 * cos (π * phi / n.phi0) * (π / n.phi0)^2
/-- potentials.py:639-640 -/
noncomputable def d3V (n : Natural) (phi : ℝ) : ℝ :=
  -n.Lambda^4 / 2 * sin (π * phi / n.phi0) * (π / n.phi0)^3
/-- potentials.py:642-643 -/
noncomputable def d4V (n : Natural) (phi : ℝ) : ℝ :=
  -n.Lambda^4 / 2 * cos (π * phi / n.phi0) * (π / n.phi0)^4
/-- potentials.py:645-646 -/
noncomputable def inv_V (n : Natural) (V : ℝ) : ℝ :=
  arccos (1 - 2 * V / n.Lambda^4) * n.phi0 / π
/-- potentials.py:648-650 -/
noncomputable def get_epsilon_1V (n : Natural) (phi : ℝ) : ℝ :=
  π^2 * sin (π*phi/n.phi0)^2 / (2 * n.phi0^2 * (cos (π*phi/n.phi0) - 1)^2)
/-- potentials.py:652-654 -/
noncomputable def get_epsilon_2V (n : Natural) (phi : ℝ) : ℝ :=
  -2 * π^2 / (n.phi0^2 * (cos (π*phi/n.phi0) - 1))
/-- potentials.py:656-658 -/
noncomputable def get_epsilon_3V (n : Natural) (phi : ℝ) : ℝ :=
  π^2 * sin (π*phi/n.phi0)^2 / (n.phi0^2 * (cos (π*phi/n.phi0) - 1)^2)
/-- potentials.py:660-662 -/
noncomputable def get_epsilon_4V (n : Natural) (phi : ℝ) : ℝ :=
  -2 * π^2 / (n.phi0^2 * (cos (π*phi/n.phi0) - 1))
/-- potentials.py:664-666 -/
noncomputable def phi_end (n : Natural) : ℝ := 2 * n.phi0 * arctan (√2 * π / (2 * n.phi0)) / π
/-- potentials.py:668-672 -/
noncomputable def sr_phi2N (n : Natural) (phi : ℝ) : ℝ :=
  n.phi0^2/π^2 * (log (tan (π*phi/(2*n.phi0))^2 + 1) - log (tan (π*n.phi_end/(2*n.phi0))^2 + 1))
/-- potentials.py:674-678 -/
noncomputable def sr_N2phi (n : Natural) (N : ℝ) : ℝ :=
  2*n.phi0/π * arctan (√((2*exp (π^2*N/n.phi0^2) - cos (π*n.phi_end/n.phi0) - 1)
                          / (cos (π*n.phi_end/n.phi0) + 1)))
/-- potentials.py:680-687 -/
noncomputable def sr_Nstar2ns (phi0 N_star : ℝ) : ℝ :=
  let f := phi0 / π
  1 - (2 * f^2 + (2 * f^2 + 1) * exp (N_star / f^2)) /
        (f^2 * (2 * f^2 + 1) * (exp (N_star / f^2) - 1))
open Classical in
/-- potentials.py:689-697 -/
noncomputable def sr_ns2Nstar (phi0 n_s : ℝ) : Except PyErr ℝ :=
  if phi0 < π / √(1 - n_s) then .error (.primpyError "Need phi0 > pi / np.sqrt(1-n_s)")
  else
    let f := phi0 / π
    .ok (f^2 * log (f^2 * (2*f^2*(1-n_s) + (1-n_s) + 2) / ((2*f^2+1) * (f^2*(1-n_s) - 1))))
/-- potentials.py:699-704 -/
noncomputable def sr_Nstar2r (phi0 N_star : ℝ) : ℝ :=
  let f := phi0 / π
  16 / (-2 * f^2 + (2 * f^2 + 1) * exp (N_star / f^2))
/-- potentials.py:706-711 -/
noncomputable def sr_r2Nstar (phi0 r : ℝ) : ℝ :=
  let f := phi0 / π
  f^2 * log ((2 * f^2 * r + 16) / (r * (2 * f^2 + 1)))
open Classical in
/-- deprecated `phi2efolds`, potentials.py:713-737 -/
noncomputable def phi2efolds (phi phi0 : ℝ) : Except PyErr ℝ :=
  if phi < phi0 then
    let f := phi0 / π
    .ok (-f^2 * (log (1 + 1 / (2 * f^2)) + 2 * log (cos (phi / (2 * f)))))
  else .error (.assertion "phi < phi0")
end Natural

/-! ## Double well -/

/-- `DoubleWellPotential` (potentials.py:740-754). -/
structure DoubleWell where
  Lambda : ℝ
  phi0 : ℝ
  p : ℝ

namespace DoubleWell
/-- the local `phi_0_phi = 1 - phi / self.phi0` of every method -/
noncomputable def x (d : DoubleWell) (phi : ℝ) : ℝ := 1 - phi / d.phi0
/-- potentials.py:756-758 -/
noncomputable def V (d : DoubleWell) (phi : ℝ) : ℝ := d.Lambda^4 * (1 - d.x phi ^ d.p)^2
/-- potentials.py:760-764 -/
noncomputable def dV (d : DoubleWell) (phi : ℝ) : ℝ :=
  d.Lambda^4 * 2 * d.p * d.x phi ^ (d.p - 1) / d.phi0 * (1 - d.x phi ^ d.p)
/-- potentials.py:766-770 -/
noncomputable def d2V (d : DoubleWell) (phi : ℝ) : ℝ :=
  d.Lambda^4 * 2 * d.p * d.x phi ^ (d.p - 2) / d.phi0^2 *
    (-d.p + d.x phi ^ d.p * (2*d.p - 1) + 1)
/-- potentials.py:772-776 -/
noncomputable def d3V (d : DoubleWell) (phi : ℝ) : ℝ :=
  d.Lambda^4 * 2 * d.p * d.x phi ^ (d.p - 3) / d.phi0^3 *
    (d.p^2 - 3*d.p + d.x phi ^ d.p * (-4*d.p^2 + 6*d.p - 2) + 2)
/-- potentials.py:778-782 -/
noncomputable def d4V (d : DoubleWell) (phi : ℝ) : ℝ :=
  d.Lambda^4 * 2 * d.p * d.x phi ^ (d.p - 4) / d.phi0^4 *
    (-d.p^3 + 6*d.p^2 - 11*d.p + d.x phi ^ d.p * (8*d.p^3 - 24*d.p^2 + 22*d.p - 6) + 6)
/-- potentials.py:784-785 -/
noncomputable def inv_V (d : DoubleWell) (V : ℝ) : ℝ :=
  d.phi0 - d.phi0 * (1 - √V / d.Lambda^2) ^ (1 / d.p)
/-- potentials.py:787-790 -/
noncomputable def get_epsilon_1V (d : DoubleWell) (phi : ℝ) : ℝ :=
  2 * d.p^2 * d.x phi ^ (2*d.p - 2) / (d.phi0^2 * (d.x phi ^ d.p - 1)^2)
/-- potentials.py:792-796 -/
noncomputable def get_epsilon_2V (d : DoubleWell) (phi : ℝ) : ℝ :=
  4 * d.p * d.x phi ^ (d.p - 2) * (d.p + d.x phi ^ d.p - 1)
    / (d.phi0^2 * (d.x phi ^ d.p - 1)^2)
/-- potentials.py:798-802 -/
noncomputable def get_epsilon_3V (d : DoubleWell) (phi : ℝ) : ℝ :=
  2*d.p*d.x phi ^ (d.p-2) * (d.p^2 - 3*d.p + 2*d.x phi ^ (2*d.p)
      + d.x phi ^ d.p * (d.p^2 + 3*d.p - 4) + 2)
    / (d.phi0^2 * (d.x phi ^ d.p - 1)^2 * (d.p + d.x phi ^ d.p - 1))
/-- potentials.py:804-818 -/
noncomputable def get_epsilon_4V (d : DoubleWell) (phi : ℝ) : ℝ :=
  let p := d.p
  let y := d.x phi
  2 * p * y ^ (p-2) * (p^4 - 6*p^3 + 13*p^2 - 12*p
      + 4 * y ^ (4*p)
      + y ^ (3*p) * (p^3 + 3*p^2 + 12*p - 16)
      + y ^ (2*p) * (5*p^3 + 7*p^2 - 36*p + 24)
      + y ^ p * (3*p^4 - 23*p^2 + 36*p - 16) + 4)
  / (d.phi0^2 * (p^3 - 4*p^2 + 5*p
      + 2 * y ^ (5*p)
      + y ^ (4*p) * (p^2 + 5*p - 10)
      + y ^ (3*p) * (p^3 + p^2 - 20*p + 20)
      + y ^ (2*p) * (-p^3 - 9*p^2 + 30*p - 20)
      + y ^ p * (-p^3 + 11*p^2 - 20*p + 10) - 2))
/-- potentials.py:820-825 -/
noncomputable def phi_end (root : RootScalar) (d : DoubleWell) : Except PyErr ℝ :=
  root (fun phi => d.get_epsilon_1V phi - 1) (EPS * d.phi0) d.phi0
open Classical in
/-- potentials.py:827-838; `phi_e` is the value of `self.phi_end` (which differs between the
subclasses). -/
noncomputable def sr_phi2N (d : DoubleWell) (phi_e : ℝ) (phi : ℝ) : ℝ :=
  if d.p = 2 then
    d.phi0^2 * (-log (d.phi0 - phi) + log (d.phi0 - phi_e)) / 4
      + (d.phi0 - phi)^2 / 8 - (d.phi0 - phi_e)^2 / 8
  else
    (d.phi0 ^ d.p * (d.phi0 - phi) ^ (2 - d.p) / (2 * (d.p - 2))
      - d.phi0 ^ d.p * (d.phi0 - phi_e) ^ (2 - d.p) / (2 * (d.p - 2))
      + (d.phi0 - phi)^2 / 4
      - (d.phi0 - phi_e)^2 / 4) / d.p
/-- `np.linspace(0, phi0, 100001)[1:-1]`, potentials.py:842: entry `i` for `i = 0..99998`. -/
noncomputable def phis (d : DoubleWell) (i : ℕ) : ℝ := ((i : ℝ) + 1) * d.phi0 / 100000
end DoubleWell

open Classical in
/-- `scipy.interpolate.interp1d(x, y)` (kind='linear', bounds_error=True) at one point for already
sorted knots `xs 0 < xs 1 < ... < xs n` (external; transcribed from scipy's documented behaviour:
out of range raises `ValueError`; otherwise the segment is the one whose right knot is the first knot
`≥ x`, clipped to the table, and the value is the chord). `searchsorted` is the number of knots `< x`. -/
noncomputable def interp1d (n : ℕ) (xs ys : ℕ → ℝ) (x : ℝ) : Except PyErr ℝ :=
  if x < xs 0 ∨ xs n < x then .error (.valueError "interp1d: outside interpolation range")
  else
    let hi := max 1 (min n ((Finset.range (n+1)).filter (fun i => xs i < x)).card)
    let lo := hi - 1
    .ok ((ys hi - ys lo) / (xs hi - xs lo) * (x - xs lo) + ys lo)

/-- `DoubleWellPotential.sr_N2phi`, potentials.py:840-845; `phi_e` is the value of `self.phi_end`. The
knots `Ns` are increasing (proved in C07), so `interp1d`'s internal sort is the identity. -/
noncomputable def DoubleWell.sr_N2phi (d : DoubleWell) (phi_e N : ℝ) : Except PyErr ℝ :=
  interp1d 99998 (fun i => d.sr_phi2N phi_e (d.phis i)) d.phis N

/-- `DoubleWell2Potential` (potentials.py:848-860): `p=2`. -/
def DoubleWell2 (Lambda phi0 : ℝ) : DoubleWell := ⟨Lambda, phi0, 2⟩
/-- potentials.py:862-866 (overrides `phi_end`) -/
noncomputable def DoubleWell2.phi_end (phi0 : ℝ) : ℝ :=
  phi0 * (1 - √(phi0^2 - 2 * √2 * √(phi0^2 + 2) + 4) / phi0)
open Classical in
/-- deprecated `phi2efolds`, potentials.py:868-894 -/
noncomputable def DoubleWell2.phi2efolds (phi_shifted phi0 : ℝ) : Except PyErr ℝ :=
  if phi_shifted < phi0 then
    let phi2 := (phi_shifted - phi0)^2
    let phi_end2 := 4 + phi0^2 - 2 * √(4 + 2 * phi0^2)
    .ok ((phi2 - phi_end2 - phi0^2 * log (phi2 / phi_end2)) / 8)
  else .error (.assertion "phi_shifted < phi0")

/-- `DoubleWell4Potential` (potentials.py:897-909): `p=4`; `phi_end` is inherited (root finding). -/
def DoubleWell4 (Lambda phi0 : ℝ) : DoubleWell := ⟨Lambda, phi0, 4⟩
/-- local `a` of potentials.py:925 -/
noncomputable def DoubleWell4.auxA (phi0 : ℝ) : ℝ :=
  (216 * phi0^8 + phi0^12 - 12 * √(3 * phi0^16 * (108 + phi0^4))) ^ (1/3 : ℝ)
/-- local `b` of potentials.py:926 -/
noncomputable def DoubleWell4.auxB (phi0 : ℝ) : ℝ :=
  192 + phi0^4 + phi0^8 / auxA phi0 + auxA phi0
/-- potentials.py:911-929 -/
noncomputable def DoubleWell4.phi_end_squared (phi0 : ℝ) : ℝ :=
  8 + √(auxB phi0) / √3 - √(128 - (auxA phi0 - phi0^4)^2 / (3 * auxA phi0)
      + (8 * √3 * (128 + phi0^4)) / √(auxB phi0))
open Classical in
/-- deprecated `phi2efolds`, potentials.py:931-957 -/
noncomputable def DoubleWell4.phi2efolds (phi_shifted phi0 : ℝ) : Except PyErr ℝ :=
  if phi_shifted < phi0 then
    let phi2 := (phi_shifted - phi0)^2
    let phi_end2 := phi_end_squared phi0
    .ok ((phi2 - phi_end2 + phi0^4 * (1/phi2 - 1/phi_end2)) / 16)
  else .error (.assertion "phi_shifted < phi0")

/-! ## T-model -/

/-- `TmodelPotential` (potentials.py:960-972). -/
structure Tmodel where
  Lambda : ℝ
  p : ℝ
  alpha : ℝ

namespace Tmodel
/-- potentials.py:971 -/
noncomputable def s_6_a (t : Tmodel) : ℝ := √(6 * t.alpha)
/-- the local `C = np.tanh(phi / self.s_6_a)` of every method -/
noncomputable def C (t : Tmodel) (phi : ℝ) : ℝ := tanh (phi / t.s_6_a)
/-- potentials.py:974-976 -/
noncomputable def V (t : Tmodel) (phi : ℝ) : ℝ := t.Lambda^4 * t.C phi ^ (2 * t.p)
/-- potentials.py:978-982 -/
noncomputable def dV (t : Tmodel) (phi : ℝ) : ℝ :=
  2 * (t.p * t.Lambda^4 / t.s_6_a) * (t.C phi ^ (2*t.p - 1) - t.C phi ^ (2*t.p + 1))
/-- potentials.py:984-990 -/
noncomputable def d2V (t : Tmodel) (phi : ℝ) : ℝ :=
  (2 * t.p * t.Lambda^4 / t.s_6_a^2) *
    (t.C phi ^ (2*t.p - 2) * (2*t.p - 1)
      - t.C phi ^ (2*t.p + 0) * 4 * t.p
      + t.C phi ^ (2*t.p + 2) * (2*t.p + 1))
/-- potentials.py:992-999 -/
noncomputable def d3V (t : Tmodel) (phi : ℝ) : ℝ :=
  (4 * t.p * t.Lambda^4 / t.s_6_a^3) *
    (t.C phi ^ (2*t.p - 3) * (2*t.p^2 - 3*t.p + 1)
      + t.C phi ^ (2*t.p - 1) * (-6*t.p^2 + 3*t.p - 1)
      + t.C phi ^ (2*t.p + 1) * (6*t.p^2 + 3*t.p + 1)
      + t.C phi ^ (2*t.p + 3) * (-2*t.p^2 - 3*t.p - 1))
/-- potentials.py:1001-1009 -/
noncomputable def d4V (t : Tmodel) (phi : ℝ) : ℝ :=
  (4 * t.p * t.Lambda^4 / t.s_6_a^4) *
    (t.C phi ^ (2*t.p - 4) * (4*t.p^3 - 12*t.p^2 + 11*t.p - 3)
      + t.C phi ^ (2*t.p - 2) * (-16*t.p^3 + 24*t.p^2 - 16*t.p + 4)
      + t.C phi ^ (2*t.p + 0) * (24*t.p^3 + 10*t.p)
      + t.C phi ^ (2*t.p + 2) * (-16*t.p^3 - 24*t.p^2 - 16*t.p - 4)
      + t.C phi ^ (2*t.p + 4) * (4*t.p^3 + 12*t.p^2 + 11*t.p + 3))
/-- potentials.py:1011-1013 -/
noncomputable def inv_V (t : Tmodel) (V : ℝ) : ℝ :=
  t.s_6_a * artanh (V ^ (1/(2*t.p)) / t.Lambda ^ (2/t.p))
/-- potentials.py:1015-1016 -/
noncomputable def get_epsilon_1V (t : Tmodel) (phi : ℝ) : ℝ :=
  8 * t.p^2 / (t.s_6_a^2 * sinh (2 * phi / t.s_6_a)^2)
/-- potentials.py:1018-1020 -/
noncomputable def get_epsilon_2V (t : Tmodel) (phi : ℝ) : ℝ :=
  4 * t.p * (1 - t.C phi^4) / (t.C phi^2 * t.s_6_a^2)
/-- potentials.py:1022-1024 -/
noncomputable def get_epsilon_3V (t : Tmodel) (phi : ℝ) : ℝ :=
  4 * t.p * (-t.C phi^6 + t.C phi^4 - t.C phi^2 + 1) / (t.C phi^2 * t.s_6_a^2 * (t.C phi^2 + 1))
/-- potentials.py:1026-1029 -/
noncomputable def get_epsilon_4V (t : Tmodel) (phi : ℝ) : ℝ :=
  4 * t.p * (-t.C phi^10 - t.C phi^8 + 4*t.C phi^6 - 4*t.C phi^4 + t.C phi^2 + 1)
    / (t.C phi^2 * t.s_6_a^2 * (t.C phi^6 + t.C phi^4 + t.C phi^2 + 1))
/-- potentials.py:1031-1033 -/
noncomputable def phi_end (t : Tmodel) : ℝ := t.s_6_a/2 * arsinh (2 * √2 * t.p / t.s_6_a)
/-- potentials.py:1035-1038 -/
noncomputable def sr_phi2N (t : Tmodel) (phi : ℝ) : ℝ :=
  t.s_6_a/(8*t.p) * (t.s_6_a * cosh (2*phi/t.s_6_a) - √(8*t.p^2 + t.s_6_a^2))
/-- potentials.py:1040-1043 -/
noncomputable def sr_N2phi (t : Tmodel) (N : ℝ) : ℝ :=
  t.s_6_a / 2 * arcosh (8*t.p/t.s_6_a^2 * N + √(8*t.p^2 + t.s_6_a^2)/t.s_6_a)
end Tmodel

/-! ## Radion gauge -/

/-- `RadionGaugePotential` (potentials.py:1046-1079). -/
structure RadionGauge where
  Lambda : ℝ
  p : ℝ
  alpha : ℝ

namespace RadionGauge
/-- potentials.py:1078 -/
noncomputable def mu (g : RadionGauge) : ℝ := g.alpha ^ (1 / g.p)
/-- potentials.py:1081-1082 -/
noncomputable def V (g : RadionGauge) (phi : ℝ) : ℝ :=
  g.Lambda^4 * phi ^ g.p / (g.alpha + phi ^ g.p)
/-- potentials.py:1084-1088 -/
noncomputable def dV (g : RadionGauge) (phi : ℝ) : ℝ :=
  g.Lambda^4 * g.alpha * g.p * phi ^ (g.p - 1) / (g.alpha + phi ^ g.p)^2
/-- potentials.py:1090-1094 -/
noncomputable def d2V (g : RadionGauge) (phi : ℝ) : ℝ :=
  g.Lambda^4 * g.alpha * g.p * phi ^ (g.p - 2) *
    (g.alpha * g.p - g.alpha - g.p * phi ^ g.p - phi ^ g.p) / (g.alpha + phi ^ g.p)^3
/-- potentials.py:1096-1102 -/
noncomputable def d3V (g : RadionGauge) (phi : ℝ) : ℝ :=
  g.Lambda^4 * g.alpha * g.p * phi ^ (g.p - 3) *
    (g.p^2 * (g.alpha^2 - 4*g.alpha*phi ^ g.p + phi ^ (2*g.p))
      - 3 * g.p * (g.alpha - phi ^ g.p) * (g.alpha + phi ^ g.p)
      + 2 * (g.alpha + phi ^ g.p)^2) / (g.alpha + phi ^ g.p)^4
/-- potentials.py:1104-1111 -/
noncomputable def d4V (g : RadionGauge) (phi : ℝ) : ℝ :=
  g.Lambda^4 * g.alpha * g.p * phi ^ (g.p - 4) *
    (g.p^3 * (g.alpha - phi ^ g.p) * (g.alpha^2 - 10*g.alpha*phi ^ g.p + phi ^ (2*g.p))
      - 6 * g.p^2 * (g.alpha + phi ^ g.p) * (g.alpha^2 - 4*g.alpha*phi ^ g.p + phi ^ (2*g.p))
      + 11 * g.p * (g.alpha - phi ^ g.p) * (g.alpha + phi ^ g.p)^2
      - 6 * (g.alpha + phi ^ g.p)^3) / (g.alpha + phi ^ g.p)^5
/-- potentials.py:1113-1114 -/
noncomputable def inv_V (g : RadionGauge) (V : ℝ) : ℝ :=
  (g.alpha / (g.Lambda^4/V - 1)) ^ (1 / g.p)
/-- potentials.py:1116-1117 -/
noncomputable def get_epsilon_1V (g : RadionGauge) (phi : ℝ) : ℝ :=
  g.alpha^2 * g.p^2 / (2 * phi^2 * (g.alpha + phi ^ g.p)^2)
/-- potentials.py:1119-1122 -/
noncomputable def get_epsilon_2V (g : RadionGauge) (phi : ℝ) : ℝ :=
  2 * g.alpha * g.p * (g.alpha + phi ^ g.p * (g.p + 1)) / (phi^2 * (g.alpha + phi ^ g.p)^2)
/-- potentials.py:1124-1130 -/
noncomputable def get_epsilon_3V (g : RadionGauge) (phi : ℝ) : ℝ :=
  let p := g.p
  let alpha := g.alpha
  alpha * p * (p^2*(alpha - phi ^ p) * (3*alpha - phi ^ p)
               - 3 * p * (alpha^2*p - alpha*p*phi ^ p - alpha*phi ^ p - phi ^ (2*p))
               + 2 * (alpha + phi ^ p)^2) /
    (phi^2 * (alpha + phi ^ p)^2 * (alpha + p*phi ^ p + phi ^ p))
/-- potentials.py:1132-1143 -/
noncomputable def get_epsilon_4V (g : RadionGauge) (phi : ℝ) : ℝ :=
  let p := g.p
  let alpha := g.alpha
  alpha * p * (p^4 * phi ^ (3*p) * (3*alpha - phi ^ p)
               - p^3*phi ^ p*(alpha + phi ^ p) * (alpha^2 - 6*alpha*phi ^ p + 6*phi ^ (2*p))
               + p^2*phi ^ p*(alpha + phi ^ p)^2*(3*alpha - 13*phi ^ p)
               - 12*p*phi ^ p*(alpha + phi ^ p)^3
               - 4*(alpha + phi ^ p)^4) /
    (phi^2 * (p^3 * phi ^ (2*p) * (alpha - phi ^ p) * (alpha + phi ^ p)^2
              + p^2 * phi ^ p * (alpha - 4*phi ^ p) * (alpha + phi ^ p)^3
              - 5 * p * phi ^ p * (alpha + phi ^ p)^4
              - 2 * (alpha + phi ^ p)^5))
/-- potentials.py:1145-1150 -/
noncomputable def phi_end (root : RootScalar) (g : RadionGauge) : Except PyErr ℝ :=
  root (fun phi => g.get_epsilon_1V phi - 1) (1 / 10^30) (g.inv_V (g.Lambda^4 * (1 - EPS)))
/-- potentials.py:1152-1157; `phi_end` is the value of `self.phi_end`. -/
noncomputable def sr_phi2N (g : RadionGauge) (phi_end : ℝ) (phi : ℝ) : ℝ :=
  (phi ^ (g.p + 2) - phi_end ^ (g.p + 2) + (phi^2 - phi_end^2) * (g.alpha*g.p/2 + g.alpha)) /
    (g.alpha * g.p * (g.p + 2))
/-- potentials.py:1159-1164 -/
noncomputable def sr_N2phi (root : RootScalar) (g : RadionGauge) (phi_end : ℝ) (N : ℝ) :
    Except PyErr ℝ :=
  root (fun phi => g.sr_phi2N phi_end phi - N) phi_end (g.inv_V (g.Lambda^4 * (1 - 1 / 10^15)))
end RadionGauge

/-- `RadionGauge2Potential` (potentials.py:1167-1195): `p=2`. -/
def RadionGauge2 (Lambda alpha : ℝ) : RadionGauge := ⟨Lambda, 2, alpha⟩
/-- The bracket `np.sqrt(3)*a + 9*np.sqrt(2*a+27) + 27*np.sqrt(3)`, potentials.py:1202-1205. -/
noncomputable def RadionGauge2.auxR (a : ℝ) : ℝ := √3*a + 9*√(2*a + 27) + 27*√3
/-- potentials.py:1197-1207 (overrides `phi_end`) -/
noncomputable def RadionGauge2.phi_end (a : ℝ) : ℝ :=
  (3:ℝ) ^ (1/12 : ℝ) * √(3 * a ^ (4/3 : ℝ)
      + (3:ℝ) ^ (2/3 : ℝ) * a ^ (2/3 : ℝ) * (auxR a) ^ (2/3 : ℝ)
      - 2 * (3:ℝ) ^ (5/6 : ℝ) * a * (auxR a) ^ (1/3 : ℝ))
    / (3 * (auxR a) ^ (1/6 : ℝ))
/-- potentials.py:1209-1212 (overrides `sr_N2phi`) -/
noncomputable def RadionGauge2.sr_N2phi (alpha N : ℝ) : ℝ :=
  √(-alpha + √(8*N*alpha + alpha^2 + 2*alpha*(phi_end alpha)^2 + (phi_end alpha)^4))

/-! ## Features -/

/-- `GaussianDip.F/dF/d2F/d3F`, potentials.py:1302-1323. -/
noncomputable def GaussianDip.F (x x0 a b : ℝ) : ℝ := -a * exp (-(x - x0)^2 / (2 * b^2))
/-- potentials.py:1310-1313 -/
noncomputable def GaussianDip.dF (x x0 a b : ℝ) : ℝ :=
  a / b^2 * (x - x0) * exp (-(x - x0)^2 / (2 * b^2))
/-- potentials.py:1315-1318 -/
noncomputable def GaussianDip.d2F (x x0 a b : ℝ) : ℝ :=
  a / b^4 * (b^2 - (x - x0)^2) * exp (-(x - x0)^2 / (2 * b^2))
/-- potentials.py:1320-1323 -/
noncomputable def GaussianDip.d3F (x x0 a b : ℝ) : ℝ :=
  a / b^6 * (x - x0) * ((x - x0)^2 - 3 * b^2) * exp (-(x - x0)^2 / (2 * b^2))

/-- `TanhStep.F/dF/d2F/d3F`, potentials.py:1326-1350. -/
noncomputable def TanhStep.F (x x0 a b : ℝ) : ℝ := a * tanh ((x - x0) / b)
/-- potentials.py:1334-1338 -/
noncomputable def TanhStep.dF (x x0 a b : ℝ) : ℝ := a / b * (1 - tanh ((x - x0) / b)^2)
/-- potentials.py:1340-1344 -/
noncomputable def TanhStep.d2F (x x0 a b : ℝ) : ℝ :=
  -2 * a / b^2 * tanh ((x - x0) / b) * (1 - tanh ((x - x0) / b)^2)
/-- potentials.py:1346-1350 -/
noncomputable def TanhStep.d3F (x x0 a b : ℝ) : ℝ :=
  -2 * a / b^3 * (1 - 4 * tanh ((x - x0) / b)^2 + 3 * tanh ((x - x0) / b)^4)

/-- The methods of a potential the rest of the code calls. Used both for the base class behind
`super()` of a feature potential and for `equations.potential`. -/
structure PotFns where
  V : ℝ → ℝ
  dV : ℝ → ℝ
  d2V : ℝ → ℝ
  d3V : ℝ → ℝ
  d4V : ℝ → ℝ

/-- Values of a feature function and its derivatives as functions of the field
(`phi_feature`, `a_feature`, `b_feature` are fixed by the constructor, potentials.py:1356-1360). -/
structure FeatureFns where
  F : ℝ → ℝ
  dF : ℝ → ℝ
  d2F : ℝ → ℝ
  d3F : ℝ → ℝ

/-- `FeaturePotential` (potentials.py:1353-1412): `V`, `dV`, `d2V`, `d3V` are overridden; `d4V`
(and `get_epsilon_*V`, `phi_end`, `inv_V`, ...) are *not*, so they resolve to the base class. -/
def FeaturePotential (base : PotFns) (f : FeatureFns) : PotFns where
  V phi := base.V phi * (1 + f.F phi)                                       -- 1362-1369
  dV phi := base.dV phi * (1 + f.F phi) + base.V phi * f.dF phi             -- 1371-1380
  d2V phi := base.d2V phi * (1 + f.F phi) + 2 * base.dV phi * f.dF phi      -- 1382-1393
    + base.V phi * f.d2F phi
  d3V phi := base.d3V phi * (1 + f.F phi) + 3 * base.d2V phi * f.dF phi     -- 1395-1412
    + 3 * base.dV phi * f.d2F phi + base.V phi * f.d3F phi
  d4V phi := base.d4V phi                                                   -- inherited

/-- The five field functions of `StarobinskyPotential`. -/
noncomputable def Starobinsky.fns (s : Starobinsky) : PotFns :=
  ⟨s.V, s.dV, s.d2V, s.d3V, s.d4V⟩
noncomputable def Monomial.fns (m : Monomial) : PotFns := ⟨m.V, m.dV, m.d2V, m.d3V, m.d4V⟩
def Quadratic.fns (q : Quadratic) : PotFns := ⟨q.V, q.dV, q.d2V, q.d3V, q.d4V⟩
noncomputable def Natural.fns (n : Natural) : PotFns := ⟨n.V, n.dV, n.d2V, n.d3V, n.d4V⟩
noncomputable def DoubleWell.fns (d : DoubleWell) : PotFns := ⟨d.V, d.dV, d.d2V, d.d3V, d.d4V⟩
noncomputable def Tmodel.fns (t : Tmodel) : PotFns := ⟨t.V, t.dV, t.d2V, t.d3V, t.d4V⟩
noncomputable def RadionGauge.fns (g : RadionGauge) : PotFns := ⟨g.V, g.dV, g.d2V, g.d3V, g.d4V⟩

/-- `GaussianDip` with fixed feature parameters. -/
noncomputable def GaussianDip.fns (x0 a b : ℝ) : FeatureFns :=
  ⟨fun x => F x x0 a b, fun x => dF x x0 a b, fun x => d2F x x0 a b, fun x => d3F x x0 a b⟩
/-- `TanhStep` with fixed feature parameters. -/
noncomputable def TanhStep.fns (x0 a b : ℝ) : FeatureFns :=
  ⟨fun x => F x x0 a b, fun x => dF x x0 a b, fun x => d2F x x0 a b, fun x => d3F x x0 a b⟩

/-- `StarobinskyGaussianDipPotential` (potentials.py:1415-1420). -/
noncomputable def StarobinskyGaussianDip (Lambda phi_feature a_feature b_feature : ℝ) : PotFns :=
  FeaturePotential (Starobinsky.mk Lambda).fns (GaussianDip.fns phi_feature a_feature b_feature)
/-- `StarobinskyTanhStepPotential` (potentials.py:1423-1428). -/
noncomputable def StarobinskyTanhStep (Lambda phi_feature a_feature b_feature : ℝ) : PotFns :=
  FeaturePotential (Starobinsky.mk Lambda).fns (TanhStep.fns phi_feature a_feature b_feature)

end Primpy
