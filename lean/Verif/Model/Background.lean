import Verif.Model.Potentials
import Verif.Model.Equations

/-!
# Background equations — primpy/inflation.py, primpy/time/inflation.py, primpy/efolds/inflation.py

A state `y` is a function from row numbers to values; the row numbers are the ones `add_variable`
assigns (proved in `Props/C21.lean`).  `K` is any real (the code documents −1, 0, +1).
-/

namespace Primpy
open Real

/-! ## Static formulas, cosmic time (time/inflation.py) -/
namespace T
/-- time/inflation.py:47-49 -/
noncomputable def get_H2 (N dphi V K : ℝ) : ℝ := (dphi^2 / 2 + V) / 3 - K * exp (-2 * N)
/-- time/inflation.py:51-54 -/
noncomputable def get_dH (N _H dphi K : ℝ) : ℝ := -dphi^2 / 2 + K * exp (-2 * N)
/-- time/inflation.py:56-60 -/
noncomputable def get_dH_H (N H2 dphi K : ℝ) : ℝ :=
  let H := √H2;
  -dphi^2 / (2 * H) + K * exp (-2 * N) / H
/-- time/inflation.py:62-65 -/
noncomputable def get_d2H (N H _dH dphi d2phi K : ℝ) : ℝ := -d2phi * dphi - 2 * K * H * exp (-2 * N)
/-- time/inflation.py:67-70 -/
noncomputable def get_d3H (N H dH _d2H dphi d2phi d3phi K : ℝ) : ℝ :=
  - d3phi * dphi - d2phi^2 + 2 * K * (2 * H^2 - dH) * exp (-2 * N)
/-- time/inflation.py:72-75 (`dH_H` is ignored, `__call__` passes `None`) -/
noncomputable def get_d2phi (H2 dphi dV : ℝ) : ℝ := -3 * √H2 * dphi - dV
/-- time/inflation.py:77-80 (`dH`, `d2H`, `dV` are ignored) -/
noncomputable def get_d3phi (H _dH _d2H dphi d2phi _dV d2V : ℝ) : ℝ :=
  -3 * H * d2phi - d2V * dphi + 3 * dphi^3 / 2
/-- time/inflation.py:82-84 -/
noncomputable def get_d4phi (H dH d2H _d3H dphi d2phi d3phi _dV d2V d3V : ℝ) : ℝ :=
  -3 * H * d3phi - d2V * d2phi - d3V * dphi^2 - 3 * d2H * dphi - 6 * d2phi * dH
/-- time/inflation.py:86-89 -/
noncomputable def get_epsilon_1H (H dH : ℝ) : ℝ := -dH / H^2
/-- time/inflation.py:91-97, default `kind` -/
noncomputable def get_epsilon_2H (H dH d2H : ℝ) : ℝ := d2H / (H * dH) - 2 * dH / H^2
/-- time/inflation.py:91-94, `kind='Gong'` -/
noncomputable def get_epsilon_2H_Gong (H dH d2H : ℝ) : ℝ := -d2H / H^3 + 2 * dH^2 / H^4
/-- time/inflation.py:99-106, default `kind` -/
noncomputable def get_epsilon_3H (H dH d2H d3H : ℝ) : ℝ :=
  ((-3*H*d2H + 4*dH^2)*dH^2 + (dH*d3H - d2H^2)*H^2) * (H*d2H - 2*dH^2)
    / (H^2 * (H*d2H - 2*dH^2)^2 * dH)
/-- time/inflation.py:99-103, `kind='Gong'` -/
noncomputable def get_epsilon_3H_Gong (H dH d2H d3H : ℝ) : ℝ :=
  -d3H / H^4 + 6 * dH * d2H / H^5 - 6 * dH^3 / H^6
/-- time/inflation.py:108-110 -/
noncomputable def get_delta_1 (H _dH dphi d2phi : ℝ) : ℝ := d2phi / (H * dphi)
/-- time/inflation.py:112-114 -/
noncomputable def get_delta_2 (H _dH _d2H dphi _d2phi d3phi : ℝ) : ℝ := d3phi / (H^2 * dphi)
/-- time/inflation.py:116-118 -/
noncomputable def get_delta_3 (H _dH _d2H _d3H dphi _d2phi _d3phi d4phi : ℝ) : ℝ :=
  d4phi / (H^3 * dphi)
end T

/-! ## Static formulas, e-folds (efolds/inflation.py) -/
namespace N
/-- efolds/inflation.py:52-54 -/
noncomputable def get_H2 (N dphi V K : ℝ) : ℝ := (2 * V - 6 * K * exp (-2 * N)) / (6 - dphi^2)
/-- efolds/inflation.py:56-59 -/
noncomputable def get_dH (N H dphi K : ℝ) : ℝ := -dphi^2 * H / 2 + K * exp (-2 * N) / H
/-- efolds/inflation.py:61-64 -/
noncomputable def get_dH_H (N H2 dphi K : ℝ) : ℝ := -dphi^2 / 2 + K * exp (-2 * N) / H2
/-- efolds/inflation.py:66-69 -/
noncomputable def get_d2H (N H dH dphi d2phi K : ℝ) : ℝ :=
  -d2phi * dphi * H - dphi^2 * dH / 2 - K * exp (-2 * N) * (2 * H + dH) / H^2
/-- efolds/inflation.py:71-75 -/
noncomputable def get_d3H (N H dH d2H dphi d2phi d3phi K : ℝ) : ℝ :=
  -d3phi*dphi*H - d2phi^2*H - dphi^2*d2H/2 - 2*d2phi*dphi*dH
    + K*exp (-2*N) * (4*H - d2H + 4*dH + 2*dH^2/H) / H^2
/-- efolds/inflation.py:77-80 -/
noncomputable def get_d2phi (H2 dH_H dphi dV : ℝ) : ℝ := -(dH_H + 3) * dphi - dV / H2
/-- efolds/inflation.py:82-85 -/
noncomputable def get_d3phi (H dH d2H dphi d2phi dV d2V : ℝ) : ℝ :=
  (-3-dH/H) * d2phi + (-d2H/H - d2V/H^2 + dH^2/H^2) * dphi + 2*dV*dH/H^3
/-- efolds/inflation.py:87-92 -/
noncomputable def get_d4phi (H dH d2H d3H dphi d2phi d3phi dV d2V d3V : ℝ) : ℝ :=
  (-3 - dH/H)*d3phi
    + (-2*d2H/H - d2V/H^2 + 2*dH^2/H^2)*d2phi
    + (-d3H/H - d3V*dphi/H^2 + 3*d2H*dH/H^2 + 4*d2V*dH/H^3 - 2*dH^3/H^3)*dphi
    + 2*(d2H/H - 3*dH^2/H^2)*dV/H^2
/-- efolds/inflation.py:94-97 -/
noncomputable def get_epsilon_1H (H dH : ℝ) : ℝ := -dH / H
/-- efolds/inflation.py:99-105, default `kind` -/
noncomputable def get_epsilon_2H (H dH d2H : ℝ) : ℝ := d2H / dH - dH / H
/-- efolds/inflation.py:99-103, `kind='Gong'` -/
noncomputable def get_epsilon_2H_Gong (H dH d2H : ℝ) : ℝ := -d2H/H + dH^2/H^2
/-- efolds/inflation.py:107-114, default `kind` -/
noncomputable def get_epsilon_3H (H dH d2H d3H : ℝ) : ℝ :=
  ((H^2*d2H*d3H - H*dH^2*d3H + 2*dH^3*d2H)*H*dH - H^3*d2H^3 - dH^6)
    / (H * |H^2*d2H^2 - 2*H*dH^2*d2H + dH^4| * dH)
/-- efolds/inflation.py:107-111, `kind='Gong'` -/
noncomputable def get_epsilon_3H_Gong (H dH d2H d3H : ℝ) : ℝ :=
  -d3H/H + 2*dH*d2H/H^2 - dH^3/H^3
/-- efolds/inflation.py:116-118 -/
noncomputable def get_delta_1 (H dH dphi d2phi : ℝ) : ℝ := d2phi/dphi + dH/H
/-- efolds/inflation.py:120-122 -/
noncomputable def get_delta_2 (H dH d2H dphi d2phi d3phi : ℝ) : ℝ :=
  d3phi/dphi + 3 * d2phi/dphi * dH/H + d2H/H + dH^2 / H^2
/-- efolds/inflation.py:124-127 -/
noncomputable def get_delta_3 (H dH d2H d3H dphi d2phi d3phi d4phi : ℝ) : ℝ :=
  d4phi/dphi + 6*dH/H*d3phi/dphi + (4*d2H/H + 7*dH^2/H^2) * d2phi/dphi
    + d3H/H + 4*dH*d2H/H^2 + dH^3/H^3
end N

/-! ## The equation objects -/

/-- `InflationEquationsT(K, potential, track_eta)` (time/inflation.py:23-29, inflation.py:20-24). -/
structure InflT where
  K : ℝ
  pot : PotFns
  track_eta : Bool

/-- `InflationEquationsN(K, potential, track_time, track_eta)` (efolds/inflation.py:24-34). -/
structure InflN where
  K : ℝ
  pot : PotFns
  track_time : Bool
  track_eta : Bool

namespace InflT
/-- The registration calls of the constructor, time/inflation.py:25-29. -/
def eqs (e : InflT) : Equations :=
  let s := (Equations.new.set_independent_variable "t").add_variable ["phi", "dphidt", "_N"]
  if e.track_eta then s.add_variable ["eta"] else s
/-- row of `phi` -/
def phi (y : ℕ → ℝ) : ℝ := y 0
/-- row of `dphidt` -/
def dphidt (y : ℕ → ℝ) : ℝ := y 1
/-- row of `_N` -/
def _N (y : ℕ → ℝ) : ℝ := y 2
/-- inflation.py:382-384 -/
def V (e : InflT) (y : ℕ → ℝ) : ℝ := e.pot.V (phi y)
/-- inflation.py:386-388 -/
def dVdphi (e : InflT) (y : ℕ → ℝ) : ℝ := e.pot.dV (phi y)
/-- inflation.py:390-392 -/
def d2Vdphi2 (e : InflT) (y : ℕ → ℝ) : ℝ := e.pot.d2V (phi y)
/-- time/inflation.py:120-121 -/
noncomputable def H2 (e : InflT) (y : ℕ → ℝ) : ℝ := T.get_H2 (_N y) (dphidt y) (e.V y) e.K
/-- inflation.py:374-376 -/
noncomputable def H (e : InflT) (y : ℕ → ℝ) : ℝ := √(e.H2 y)
/-- time/inflation.py:123-128 -/
noncomputable def w (e : InflT) (y : ℕ → ℝ) : ℝ :=
  let V := e.V y
  let dphidt_2 := dphidt y ^ 2
  let p := dphidt_2 / 2 - V
  let rho := dphidt_2 / 2 + V
  p / rho
/-- time/inflation.py:130-131 -/
def inflating (e : InflT) (y : ℕ → ℝ) : ℝ := e.V y - dphidt y ^ 2
/-- time/inflation.py:31-45.  `dy = np.zeros_like(y)`, then one assignment per registered row. -/
noncomputable def call (e : InflT) (_x : ℝ) (y : ℕ → ℝ) : ℕ → ℝ :=
  let H2 := e.H2 y
  let H := √H2
  let dy : ℕ → ℝ := fun _ => 0
  let dy := Function.update dy 0 (dphidt y)
  let dy := Function.update dy 1 (T.get_d2phi H2 (dphidt y) (e.dVdphi y))
  let dy := Function.update dy 2 H
  if e.track_eta then Function.update dy 3 (exp (-_N y)) else dy
end InflT

namespace InflN
/-- The registration calls of the constructor, efolds/inflation.py:26-34. -/
def eqs (e : InflN) : Equations :=
  let s := (Equations.new.set_independent_variable "_N").add_variable ["phi", "dphidN"]
  let s := if e.track_time then s.add_variable ["t"] else s
  if e.track_eta then s.add_variable ["eta"] else s
/-- row of `phi` -/
def phi (y : ℕ → ℝ) : ℝ := y 0
/-- row of `dphidN` -/
def dphidN (y : ℕ → ℝ) : ℝ := y 1
/-- row number of `eta` -/
def etaRow (e : InflN) : ℕ := if e.track_time then 3 else 2
/-- inflation.py:382-384 -/
def V (e : InflN) (y : ℕ → ℝ) : ℝ := e.pot.V (phi y)
/-- inflation.py:386-388 -/
def dVdphi (e : InflN) (y : ℕ → ℝ) : ℝ := e.pot.dV (phi y)
/-- inflation.py:390-392 -/
def d2Vdphi2 (e : InflN) (y : ℕ → ℝ) : ℝ := e.pot.d2V (phi y)
/-- efolds/inflation.py:129-130 -/
noncomputable def H2 (e : InflN) (x : ℝ) (y : ℕ → ℝ) : ℝ := N.get_H2 x (dphidN y) (e.V y) e.K
/-- inflation.py:374-376 -/
noncomputable def H (e : InflN) (x : ℝ) (y : ℕ → ℝ) : ℝ := √(e.H2 x y)
/-- efolds/inflation.py:132-137 -/
noncomputable def w (e : InflN) (x : ℝ) (y : ℕ → ℝ) : ℝ :=
  let V := e.V y
  let dphidt_2 := e.H2 x y * dphidN y ^ 2
  let p := dphidt_2 / 2 - V
  let rho := dphidt_2 / 2 + V
  p / rho
/-- efolds/inflation.py:139-140 -/
noncomputable def inflating (e : InflN) (x : ℝ) (y : ℕ → ℝ) : ℝ := e.V y - e.H2 x y * dphidN y ^ 2
/-- efolds/inflation.py:36-50 -/
noncomputable def call (e : InflN) (x : ℝ) (y : ℕ → ℝ) : ℕ → ℝ :=
  let H2 := e.H2 x y
  let dH_H := N.get_dH_H x H2 (dphidN y) e.K
  let dy : ℕ → ℝ := fun _ => 0
  let dy := Function.update dy 0 (dphidN y)
  let dy := Function.update dy 1 (N.get_d2phi H2 dH_H (dphidN y) (e.dVdphi y))
  let dy := if e.track_time then Function.update dy 2 (1 / √H2) else dy
  if e.track_eta then Function.update dy e.etaRow (exp (-x) / √H2) else dy
end InflN

/-! ## The derivative pipeline of `derive_approx_power_*` (inflation.py:922-930, repeated verbatim at
1094-1099, 1171-1176, 1248-1253): each quantity is fed into the next. -/

/-- All derivatives computed at one grid point. -/
structure BgDerivs where
  dH : ℝ
  dH_H : ℝ
  d2phi : ℝ
  d2H : ℝ
  d3phi : ℝ
  d3H : ℝ
  d4phi : ℝ

/-- inflation.py:922-930 with `self` an `InflationEquationsT`, at a grid point with stored `_N`, `H`,
`phi`, `dphidt`. -/
noncomputable def T.pipeline (K : ℝ) (pot : PotFns) (N H phi dphi : ℝ) : BgDerivs :=
  let dV := pot.dV phi
  let d2V := pot.d2V phi
  let d3V := pot.d3V phi
  let dH := T.get_dH N H dphi K
  let dH_H := T.get_dH_H N (H^2) dphi K
  let d2phi := T.get_d2phi (H^2) dphi dV
  let d2H := T.get_d2H N H dH dphi d2phi K
  let d3phi := T.get_d3phi H dH d2H dphi d2phi dV d2V
  let d3H := T.get_d3H N H dH d2H dphi d2phi d3phi K
  let d4phi := T.get_d4phi H dH d2H d3H dphi d2phi d3phi dV d2V d3V
  ⟨dH, dH_H, d2phi, d2H, d3phi, d3H, d4phi⟩

/-- inflation.py:922-930 with `self` an `InflationEquationsN`. -/
noncomputable def N.pipeline (K : ℝ) (pot : PotFns) (N_ H phi dphi : ℝ) : BgDerivs :=
  let dV := pot.dV phi
  let d2V := pot.d2V phi
  let d3V := pot.d3V phi
  let dH := N.get_dH N_ H dphi K
  let dH_H := N.get_dH_H N_ (H^2) dphi K
  let d2phi := N.get_d2phi (H^2) dH_H dphi dV
  let d2H := N.get_d2H N_ H dH dphi d2phi K
  let d3phi := N.get_d3phi H dH d2H dphi d2phi dV d2V
  let d3H := N.get_d3H N_ H dH d2H dphi d2phi d3phi K
  let d4phi := N.get_d4phi H dH d2H d3H dphi d2phi d3phi dV d2V d3V
  ⟨dH, dH_H, d2phi, d2H, d3phi, d3H, d4phi⟩

end Primpy
