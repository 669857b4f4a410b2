import Verif.Model.Background
import Verif.Model.Units
import Verif.Model.InflationSol
import Mathlib.Analysis.Complex.Basic
import Mathlib.Analysis.SpecialFunctions.Log.Base

/-!
# primpy/perturbations.py, time/perturbations.py, efolds/perturbations.py, oscode_solver.py

`pyoscode.solve` is an oracle.  A background is the list of its grid points: all arrays of a solution have the
same length (C22), so `background.phi[i]`, `background.H[i]`, ... are the fields of one point.  Division by zero in the
frequency / damping arrays (`phi' = 0`, `H = 0`) is Lean's division; the theorems assume the denominators non-zero.  NaN
is `none` in the vacuum states, the mode amplitudes and the spectra.
-/

namespace Primpy
open Real

namespace Pert

/-- One grid point of the background solution: `x`, `_N`, `phi`, `dphidt` (or `dphidN`), `H`, `Omega_K`, `_logaH`. -/
structure Pt where
  x : ℝ
  N : ℝ
  phi : ℝ
  dphi : ℝ
  H : ℝ
  Omega_K : ℝ
  logaH : ℝ

/-- `independent_variable` -/
inductive Indep where
  | t | N | other
  deriving DecidableEq

/-- The background solution. -/
structure Bg where
  indep : Indep
  K : ℝ
  pot : PotFns
  pts : List Pt
  logaH_star : ℝ
  /-- `potential.perturbation_ic`; `(1, 0, 0, 1)` for every potential of potentials.py (lines 285, 364, 392, ...) -/
  perturbation_ic : ℝ × ℝ × ℝ × ℝ := (1, 0, 0, 1)

/-- The scalar Laplacian eigenvalue: time/perturbations.py:59, efolds/perturbations.py:64. -/
noncomputable def kappa2 (k K : ℝ) : ℝ := k ^ 2 + k * K * (K + 1) - 3 * K

/-- A vacuum state: `(u_i, du_i)`, each possibly NaN. -/
abbrev Vacuum := Option (ℂ × ℂ)

/-- `wk = A * np.sqrt(r)` followed by a division by `np.sqrt(2 * wk)`; `none` = NaN or inf. -/
noncomputable def wk (A r : ℝ) : Option ℝ := if 0 < A * √r ∧ 0 ≤ r then some (A * √r) else none

/-! ## Scalar modes, cosmic time -/
namespace ScalarT
/-- time/perturbations.py:60 `shared` -/
noncomputable def shared (K k : ℝ) (p : Pt) : ℝ :=
  2 * kappa2 k K / (kappa2 k K + K * p.dphi ^ 2 / (2 * p.H ^ 2))
/-- time/perturbations.py:61 `terms` -/
noncomputable def terms (pot : PotFns) (K : ℝ) (p : Pt) : ℝ :=
  p.dphi ^ 2 / (2 * p.H ^ 2) - 3 - pot.dV p.phi / (p.H * p.dphi) - K * exp (-2 * p.N) / p.H ^ 2
/-- time/perturbations.py:63 -/
noncomputable def frequency2 (pot : PotFns) (K k : ℝ) (p : Pt) : ℝ :=
  kappa2 k K * exp (-2 * p.N) - K * exp (-2 * p.N) * (1 + shared K k p * terms pot K p)
/-- time/perturbations.py:64 -/
noncomputable def damping (pot : PotFns) (K k : ℝ) (p : Pt) : ℝ :=
  (3 * p.H + shared K k p * terms pot K p * p.H) / 2

/-- time/perturbations.py:70-86; `np.sqrt(2 * k)` is NaN for negative `k`, and 0 for `k = 0`. -/
noncomputable def vacK (pot : PotFns) (K k : ℝ) (p : Pt) : Vacuum :=
  let a := exp p.N
  let dH_H := T.get_dH_H p.N (p.H ^ 2) p.dphi K
  let d2phi := T.get_d2phi (p.H ^ 2) p.dphi (pot.dV p.phi)
  let z := a * p.dphi / p.H
  let dz_z := p.H + d2phi / p.dphi - dH_H
  if 0 < k then
    let R : ℂ := 1 / (√(2 * k) : ℝ) / (z : ℝ)
    some (R, (-Complex.I * k / a - (dz_z : ℝ)) * R)
  else none

/-- time/perturbations.py:88-108: the radicand of `wk` -/
noncomputable def radicand (pot : PotFns) (K k : ℝ) (p : Pt) : ℝ :=
  let a := exp p.N
  let dH := T.get_dH p.N p.H p.dphi K
  let dH_H := T.get_dH_H p.N (p.H ^ 2) p.dphi K
  let d2phi := T.get_d2phi (p.H ^ 2) p.dphi (pot.dV p.phi)
  let d2H := T.get_d2H p.N p.H dH p.dphi d2phi K
  let d3phi := T.get_d3phi p.H dH d2H p.dphi d2phi (pot.dV p.phi) (pot.d2V p.phi)
  let dz_z := p.H + d2phi / p.dphi - dH_H
  let d2z_z := p.H ^ 2 + 2 * p.H * d2phi / p.dphi + d3phi / p.dphi - dH
    - d2H / p.H - 2 * d2phi * dH_H / p.dphi + 2 * dH_H ^ 2
  k ^ 2 / a ^ 2 - p.H * dz_z - d2z_z

/-- time/perturbations.py:88-112 -/
noncomputable def vacHD (pot : PotFns) (K k : ℝ) (p : Pt) : Vacuum :=
  let a := exp p.N
  let dH_H := T.get_dH_H p.N (p.H ^ 2) p.dphi K
  let d2phi := T.get_d2phi (p.H ^ 2) p.dphi (pot.dV p.phi)
  let z := a * p.dphi / p.H
  let dz_z := p.H + d2phi / p.dphi - dH_H
  (wk a (radicand pot K k p)).map fun w =>
    let R : ℂ := 1 / (√(2 * w) : ℝ) / (z : ℝ)
    (R, (-Complex.I * w / a - (dz_z : ℝ)) * R)

/-- time/perturbations.py:114-122 -/
noncomputable def vacRST (k : ℝ) (p : Pt) : Vacuum :=
  let a := exp p.N
  let z := a * p.dphi / p.H
  if 0 < k then
    let R : ℂ := 1 / (√(2 * k) : ℝ) / (z : ℝ)
    some (R, -Complex.I * k / a * R)
  else none
end ScalarT

/-! ## Tensor modes, cosmic time -/
namespace TensorT
/-- time/perturbations.py:153 -/
noncomputable def frequency2 (K k : ℝ) (p : Pt) : ℝ := (k ^ 2 + k * K * (K + 1) + 2 * K) * exp (-2 * p.N)
/-- time/perturbations.py:154-158 -/
noncomputable def damping (p : Pt) : ℝ := 3 * p.H / 2
/-- time/perturbations.py:160-166 -/
noncomputable def vacK (k : ℝ) (p : Pt) : Vacuum :=
  let a := exp p.N
  if 0 < k then
    let h : ℂ := 2 / (√(2 * k) : ℝ) / a
    some (h, (-Complex.I * k / a - (p.H : ℝ)) * h)
  else none
/-- time/perturbations.py:168-178 -/
noncomputable def vacHD (K k : ℝ) (p : Pt) : Vacuum :=
  let a := exp p.N
  let dH := T.get_dH p.N p.H p.dphi K
  (wk a (k ^ 2 / a ^ 2 - 2 * p.H ^ 2 - dH)).map fun w =>
    let h : ℂ := 2 / (√(2 * w) : ℝ) / a
    (h, (-Complex.I * w / a - (p.H : ℝ)) * h)
/-- time/perturbations.py:180-185 -/
noncomputable def vacRST (k : ℝ) (p : Pt) : Vacuum :=
  let a := exp p.N
  if 0 < k then
    let h : ℂ := 2 / (√(2 * k) : ℝ) / a
    some (h, -Complex.I * k / a * h)
  else none
end TensorT

/-! ## Scalar modes, e-folds -/
namespace ScalarN
/-- efolds/perturbations.py:66 -/
noncomputable def xi (p : Pt) : ℝ := p.Omega_K + p.dphi ^ 2 / 2 - 3
/-- efolds/perturbations.py:68 -/
noncomputable def damping2 (pot : PotFns) (K k : ℝ) (p : Pt) : ℝ :=
  2 * kappa2 k K / (kappa2 k K + K * (p.dphi ^ 2 / 2)) * (xi p - pot.dV p.phi / (p.H ^ 2 * p.dphi)) - xi p
/-- efolds/perturbations.py:69 -/
noncomputable def frequency2 (pot : PotFns) (K k : ℝ) (p : Pt) : ℝ :=
  kappa2 k K / (exp (2 * p.N) * p.H ^ 2) + (damping2 pot K k p + xi p + 1) * p.Omega_K
/-- efolds/perturbations.py:71-73 -/
noncomputable def damping (pot : PotFns) (K k : ℝ) (p : Pt) : ℝ := damping2 pot K k p / 2

/-- efolds/perturbations.py:75-91 -/
noncomputable def vacK (pot : PotFns) (K k : ℝ) (p : Pt) : Vacuum :=
  let a := exp p.N
  let dH_H := N.get_dH_H p.N (p.H ^ 2) p.dphi K
  let d2phi := N.get_d2phi (p.H ^ 2) dH_H p.dphi (pot.dV p.phi)
  let z := a * p.dphi
  let dz_z := d2phi / p.dphi + 1
  if 0 < k then
    let R : ℂ := 1 / (√(2 * k) : ℝ) / (z : ℝ)
    some (R, (-Complex.I * k / (a * p.H : ℝ) - (dz_z : ℝ)) * R)
  else none

/-- efolds/perturbations.py:93-113: the radicand of `wk` -/
noncomputable def radicand (pot : PotFns) (K k : ℝ) (p : Pt) : ℝ :=
  let a := exp p.N
  let dH := N.get_dH p.N p.H p.dphi K
  let dH_H := N.get_dH_H p.N (p.H ^ 2) p.dphi K
  let d2phi := N.get_d2phi (p.H ^ 2) dH_H p.dphi (pot.dV p.phi)
  let d2H := N.get_d2H p.N p.H dH p.dphi d2phi K
  let d3phi := N.get_d3phi p.H dH d2H p.dphi d2phi (pot.dV p.phi) (pot.d2V p.phi)
  let dz_z := d2phi / p.dphi + 1
  let d2z_z := d3phi / p.dphi + 2 * d2phi / p.dphi + 1
  k ^ 2 / (a * p.H) ^ 2 - (1 + dH / p.H) * dz_z - d2z_z

/-- efolds/perturbations.py:93-117 -/
noncomputable def vacHD (pot : PotFns) (K k : ℝ) (p : Pt) : Vacuum :=
  let a := exp p.N
  let dH_H := N.get_dH_H p.N (p.H ^ 2) p.dphi K
  let d2phi := N.get_d2phi (p.H ^ 2) dH_H p.dphi (pot.dV p.phi)
  let z := a * p.dphi
  let dz_z := d2phi / p.dphi + 1
  (wk (a * p.H) (radicand pot K k p)).map fun w =>
    let R : ℂ := 1 / (√(2 * w) : ℝ) / (z : ℝ)
    (R, (-Complex.I * w / (a * p.H : ℝ) - (dz_z : ℝ)) * R)

/-- efolds/perturbations.py:119-127 -/
noncomputable def vacRST (k : ℝ) (p : Pt) : Vacuum :=
  let a := exp p.N
  let z := a * p.dphi
  if 0 < k then
    let R : ℂ := 1 / (√(2 * k) : ℝ) / (z : ℝ)
    some (R, -Complex.I * k / (a * p.H : ℝ) * R)
  else none
end ScalarN

/-! ## Tensor modes, e-folds -/
namespace TensorN
/-- efolds/perturbations.py:163 -/
noncomputable def frequency2 (K k : ℝ) (p : Pt) : ℝ :=
  (k ^ 2 + k * K * (K + 1) + 2 * K) * exp (-2 * p.N) / p.H ^ 2
/-- efolds/perturbations.py:164-168 -/
noncomputable def damping (K : ℝ) (p : Pt) : ℝ :=
  (3 - p.dphi ^ 2 / 2 + K * exp (-2 * p.N) / p.H ^ 2) / 2
/-- efolds/perturbations.py:170-176 -/
noncomputable def vacK (k : ℝ) (p : Pt) : Vacuum :=
  let a := exp p.N
  if 0 < k then
    let h : ℂ := 2 / (√(2 * k) : ℝ) / a
    some (h, (-Complex.I * k / (a * p.H : ℝ) - 1) * h)
  else none
/-- efolds/perturbations.py:178-188 -/
noncomputable def vacHD (K k : ℝ) (p : Pt) : Vacuum :=
  let a := exp p.N
  let dH := N.get_dH p.N p.H p.dphi K
  (wk (a * p.H) (k ^ 2 / (a * p.H) ^ 2 - 2 - dH / p.H)).map fun w =>
    let h : ℂ := 2 / (√(2 * w) : ℝ) / a
    (h, (-Complex.I * w / (a * p.H : ℝ) - 1) * h)
/-- efolds/perturbations.py:190-196 -/
noncomputable def vacRST (k : ℝ) (p : Pt) : Vacuum :=
  let a := exp p.N
  if 0 < k then
    let h : ℂ := 2 / (√(2 * k) : ℝ) / a
    some (h, -Complex.I * k / (a * p.H : ℝ) * h)
  else none
end TensorN

/-! ## Modes -/

/-- A constructed mode (perturbations.py:86-97, 118-140): frequency squared and damping as functions of the grid point,
the vacua by name, and the normalisation of the spectrum. -/
structure Mode where
  frequency2 : Pt → ℝ
  damping : Pt → ℝ
  /-- `getattr(mode, 'get_vacuum_ic_%s' % vac)()` at the first point; `none` = no such method -/
  vacuum : String → Option (Pt → Vacuum)
  pps_norm : ℝ

/-- `get_vacuum_ic_*` by name -/
def byName (k HD RST : Pt → Vacuum) (vac : String) : Option (Pt → Vacuum) :=
  if vac = "k" then some k else if vac = "HD" then some HD else if vac = "RST" then some RST else none

/-- `PerturbationT.__init__` / `PerturbationN.__init__`: time/perturbations.py:21-24, efolds/perturbations.py:22-25; norms:
perturbations.py:122, 136.  `none` = `NotImplementedError` (oscode_solver.py:112). -/
noncomputable def modes (b : Bg) (k : ℝ) : Option (Mode × Mode) :=
  match b.indep with
  | .t => some (
      ⟨ScalarT.frequency2 b.pot b.K k, ScalarT.damping b.pot b.K k,
        byName (ScalarT.vacK b.pot b.K k) (ScalarT.vacHD b.pot b.K k) (ScalarT.vacRST k), k ^ 3 / (2 * π ^ 2)⟩,
      ⟨TensorT.frequency2 b.K k, TensorT.damping,
        byName (TensorT.vacK k) (TensorT.vacHD b.K k) (TensorT.vacRST k), k ^ 3 / (2 * π ^ 2) * 2⟩)
  | .N => some (
      ⟨ScalarN.frequency2 b.pot b.K k, ScalarN.damping b.pot b.K k,
        byName (ScalarN.vacK b.pot b.K k) (ScalarN.vacHD b.pot b.K k) (ScalarN.vacRST k), k ^ 3 / (2 * π ^ 2)⟩,
      ⟨TensorN.frequency2 b.K k, TensorN.damping b.K,
        byName (TensorN.vacK k) (TensorN.vacHD b.K k) (TensorN.vacRST k), k ^ 3 / (2 * π ^ 2) * 2⟩)
  | .other => none

/-- `np.sqrt(f)` if all entries are positive, else `np.sqrt(f + 0j)`: the same values as complex numbers
(time/perturbations.py:65-68 and the three copies). -/
noncomputable def csqrt (x : ℝ) : ℂ := if 0 ≤ x then (√x : ℝ) else Complex.I * (√(-x) : ℝ)

/-- numpy slice `l[beg:stop+1]` for non-negative bounds -/
def slice (l : List α) (beg stop : ℕ) : List α := (l.drop beg).take (stop + 1 - beg)

/-! ## oscode -/

/-- Arguments of one `pyoscode.solve` call (oscode_solver.py:116-125).  `w` is the frequency, not its logarithm (`logw=True`);
`rtol` and `even_grid` are fixed for one call of `solve_oscode` and belong to the oracle. -/
structure OscArgs where
  ts : List ℝ
  ti : ℝ
  tf : ℝ
  w : List ℂ
  g : List ℝ
  x0 : ℝ
  dx0 : ℝ
  t_eval : Option (List ℝ)

/-- What is used of the returned dictionary: `sol`, `dsol`, `x_eval`. -/
structure OscSol where
  sol : List (Option ℂ)
  dsol : List (Option ℂ)
  x_eval : Option (List (Option ℂ))

/-- `pyoscode.solve` -/
abbrev Oscode := OscArgs → Except PyErr OscSol

/-- numpy's complex order: real part first, then imaginary part -/
def lexLe (a b : ℂ) : Prop := a.re < b.re ∨ (a.re = b.re ∧ a.im ≤ b.im)

open Classical in
/-- `np.nanmedian` of a complex array: NaN entries are dropped, the rest is sorted; the middle entry, or the mean of the two
middle entries; NaN if nothing is left. -/
noncomputable def nanmedian (l : List (Option ℂ)) : Option ℂ :=
  let s := (l.filterMap id).insertionSort lexLe
  if s.length = 0 then none
  else if s.length % 2 = 1 then s[s.length / 2]?
  else (s[s.length / 2 - 1]?).bind fun x => (s[s.length / 2]?).map fun y => (x + y) / 2

/-- `y[-5:]` -/
def last5 (l : List α) : List α := l.drop (l.length - 5)

/-- complex division; a zero denominator gives inf or NaN -/
noncomputable def cdiv (a b : ℂ) : Option ℂ := open Classical in if b = 0 then none else some (a / b)

/-- perturbations.py:75-80 `_get_coefficients_a_b` -/
noncomputable def coefficients (uk duk y1 dy1 y2 dy2 : ℂ) : Option ℂ × Option ℂ :=
  (cdiv (uk * dy2 - duk * y2) (y1 * dy2 - dy1 * y2), cdiv (uk * dy1 - duk * y1) (y2 * dy1 - dy2 * y1))

/-- `np.abs(u)**2 * norm` -/
noncomputable def power (norm : ℝ) (u : ℂ) : ℝ := ‖u‖ ^ 2 * norm

/-- `a * x + b * y`, NaN if anything is NaN -/
noncomputable def lincomb (a b x y : Option ℂ) : Option ℂ :=
  a.bind fun a => b.bind fun b => x.bind fun x => y.map fun y => a * x + b * y

/-- `a`, `b` from the vacuum and the first entries of the solutions (perturbations.py:60-68). -/
noncomputable def ab (v : Vacuum) (one two : OscSol) : Except PyErr (Option ℂ × Option ℂ) :=
  match one.sol.head?, one.dsol.head?, two.sol.head?, two.dsol.head? with
  | some y1, some dy1, some y2, some dy2 =>
    .ok (match v, y1, dy1, y2, dy2 with
      | some (u, du), some y1, some dy1, some y2, some dy2 => coefficients u du y1 dy1 y2 dy2
      | _, _, _, _, _ => (none, none))
  | _, _, _, _ => .error (.indexError "index 0 is out of bounds")

/-- perturbations.py:60-73, one mode and one vacuum: `P_*_vac` and `P_*_vac_eval`. -/
noncomputable def combine (m : Mode) (v : Vacuum) (one two : OscSol) :
    Except PyErr (Option ℝ × Option (List (Option ℝ))) :=
  match ab v one two with
  | .error e => .error e
  | .ok (a, b) =>
    .ok ((lincomb a b (nanmedian (last5 one.sol)) (nanmedian (last5 two.sol))).map (power m.pps_norm),
      one.x_eval.bind fun e1 => two.x_eval.map fun e2 =>
        List.zipWith (fun x y => (lincomb a b x y).map (power m.pps_norm)) e1 e2)

/-! ## oscode_solver.py -/

/-- Keyword arguments of `solve_oscode`. -/
structure OscKw where
  vacuum : List String := ["RST"]
  drop_closed_large_scales : Bool := true
  fac_beg : ℝ := 0
  fac_end : ℝ := 100
  /-- number of points of the dense output, 0 = no dense output -/
  num_eval : ℕ := 0
  y0 : Option (ℝ × ℝ × ℝ × ℝ) := none

/-- `np.linspace(a, b, num)` -/
noncomputable def linspace (a b : ℝ) (num : ℕ) : List ℝ :=
  (List.range num).map fun (i : ℕ) => a + (b - a) * i / (num - 1 : ℕ)

/-- `mode.x_eval` (`none` = `None`), the same for scalar and tensor modes: time/perturbations.py:33-39, 133-139 (`np.logspace` in
the time `t = x`, for positive times; otherwise numpy gives NaN, which is not modelled), efolds/perturbations.py:34-43,
138-147 (`np.linspace`). -/
noncomputable def xEval (b : Bg) (num_eval beg stop : ℕ) : Option (List ℝ) :=
  if 0 < num_eval then
    match b.pts[beg]?, b.pts[stop]? with
    | some pb, some pe =>
      match b.indep with
      | .t => some ((linspace (logb 10 pb.x) (logb 10 pe.x) num_eval).map fun e => (10 : ℝ) ^ e)
      | _ => some (linspace pb.N pe.N num_eval)
    | _, _ => none
  else none

/-- `np.log(k) - logaH > np.log(fac)` with numpy's `log 0 = -inf`, `log` of a negative number NaN (`fac ≠ 0`). -/
def begTest (k fac logaH : ℝ) : Prop := 0 < k ∧ 0 < fac ∧ log fac < log k - logaH

/-- `logaH - np.log(k) > np.log(fac)` -/
def endTest (k fac logaH : ℝ) : Prop := 0 ≤ k ∧ 0 ≤ fac ∧ (k = 0 ∨ fac = 0 ∨ log fac < logaH - log k)

open Classical in
/-- `np.argwhere(test).ravel()` -/
noncomputable def argwhere (P : Pt → Prop) (l : List Pt) : List ℕ :=
  (List.range l.length).filter fun i => decide (∃ p, l[i]? = some p ∧ P p)

open Classical in
/-- oscode_solver.py:92-97 -/
noncomputable def idxBeg (b : Bg) (fac_beg k : ℝ) : ℕ :=
  if fac_beg = 0 then 0 else ((argwhere (fun p => begTest k fac_beg p.logaH) b.pts).getLast?).getD 0

open Classical in
/-- oscode_solver.py:98-104 -/
noncomputable def idxEnd (b : Bg) (beg : ℕ) (fac_end k : ℝ) : Except PyErr ℕ :=
  match (argwhere (fun p => endTest k fac_end p.logaH) b.pts).head? with
  | none => .error (.indexError "mode never leaves the horizon")
  | some e =>
    match b.pts[e]?, b.pts[beg]? with
    | some pe, some pb =>
      if pe.N - pb.N < 10 then
        match (argwhere (fun p => 10 < p.N - pb.N) b.pts).head? with
        | none => .error (.indexError "fewer than 10 e-folds")
        | some e => .ok e
      else .ok e
    | _, _ => .error (.indexError "index out of bounds")

/-- One integration of a mode (oscode_solver.py:116-125): solution number `num` of the mode. -/
noncomputable def oscCall (osc : Oscode) (b : Bg) (kw : OscKw) (beg stop : ℕ) (m : Mode) (x0 dx0 : ℝ) :
    Except PyErr OscSol :=
  match b.pts[beg]?, b.pts[stop]? with
  | some pb, some pe =>
    osc { ts := (slice b.pts beg stop).map (·.x), ti := pb.x, tf := pe.x
          w := (slice b.pts beg stop).map fun p => csqrt (m.frequency2 p)
          g := (slice b.pts beg stop).map m.damping
          x0 := x0, dx0 := dx0, t_eval := xEval b kw.num_eval beg stop }
  | _, _ => .error (.indexError "index out of bounds")

/-- What one wavenumber contributes: attributes `P_s_<vac>`, `P_t_<vac>` (and `_eval`) of `p.scalar`, `p.tensor`. -/
structure ModeSpectra where
  P_s : Dict (Option ℝ)
  P_t : Dict (Option ℝ)
  P_s_eval : Dict (Option (List (Option ℝ)))
  P_t_eval : Dict (Option (List (Option ℝ)))

/-- perturbations.py:58-73: the loop over vacua for one mode, starting from the attributes of the constructor (NaN,
perturbations.py:126, 140).  `getattr` of an unknown vacuum raises. -/
noncomputable def combineAll (m : Mode) (p0 : Pt) (one two : OscSol) :
    List String → Except PyErr (Dict (Option ℝ) × Dict (Option (List (Option ℝ))))
  | [] => .ok ([], [])
  | vac :: rest =>
    match m.vacuum vac with
    | none => .error (.attributeError ("get_vacuum_ic_" ++ vac))
    | some v =>
      match combine m (v p0) one two with
      | .error e => .error e
      | .ok (P, Pe) =>
        match combineAll m p0 one two rest with
        | .error e => .error e
        | .ok (d, de) => .ok (d.set vac P, de.set vac Pe)

/-- The four runs of oscode_solver.py:113-125, in order, with the initial data `y0[2*num]`, `y0[2*num+1]`. -/
noncomputable def runs (osc : Oscode) (b : Bg) (kw : OscKw) (beg stop : ℕ) (y0 : ℝ × ℝ × ℝ × ℝ) (s t : Mode) :
    Except PyErr (List OscSol) := do
  let r0 ← oscCall osc b kw beg stop s y0.1 y0.2.1
  let r1 ← oscCall osc b kw beg stop s y0.2.2.1 y0.2.2.2
  let r2 ← oscCall osc b kw beg stop t y0.1 y0.2.1
  let r3 ← oscCall osc b kw beg stop t y0.2.2.1 y0.2.2.2
  return [r0, r1, r2, r3]

/-- perturbations.py:47-52: mode `m`, solution `i` is entry `2 * m + i` of the list. -/
def pick (l : List OscSol) (m i : ℕ) : Except PyErr OscSol :=
  match l[2 * m + i]? with
  | some s => .ok s
  | none => .error (.indexError "list index out of range")

open Classical in
/-- oscode_solver.py:92-128: one pass of the loop. -/
noncomputable def oneMode (osc : Oscode) (b : Bg) (kw : OscKw) (k : ℝ) : Except PyErr ModeSpectra :=
  let beg := idxBeg b kw.fac_beg k
  match idxEnd b beg kw.fac_end k with
  | .error e => .error e
  | .ok stop =>
    match modes b k with
    | none => .error (.notImplemented "independent variable")
    | some (s, t) =>
      match runs osc b kw beg stop (kw.y0.getD b.perturbation_ic) s t with
      | .error e => .error e
      | .ok rs =>
        match b.pts[beg]? with
        | none => .error (.indexError "index out of bounds")
        | some p0 =>
          match pick rs 0 0, pick rs 0 1, pick rs 1 0, pick rs 1 1 with
          | .ok s1, .ok s2, .ok t1, .ok t2 =>
            match combineAll s p0 s1 s2 kw.vacuum, combineAll t p0 t1 t2 kw.vacuum with
            | .ok (Ps, Pse), .ok (Pt, Pte) =>
              .ok ⟨if k < 1 ∧ b.K = 1 ∧ kw.drop_closed_large_scales = true then Ps.set "RST" (some (1 / 10 ^ 30)) else Ps,
                Pt, Pse, Pte⟩
            | .error e, _ => .error e
            | _, .error e => .error e
          | _, _, _, _ => .error (.indexError "list index out of range")

/-- `PrimordialPowerSpectrum`: the arrays `k`, `k_iMpc`, `P_s_<vac>`, `P_t_<vac>`. -/
structure PPS where
  k : List ℝ
  k_iMpc : List ℝ
  P_s : Dict (List (Option ℝ))
  P_t : Dict (List (Option ℝ))

/-- perturbations.py:13-20 -/
noncomputable def PPS.init (b : Bg) (k : List ℝ) (vacuum : List String) : PPS where
  k := k
  k_iMpc := k.map fun k => k * SI.K_STAR / exp b.logaH_star
  P_s := vacuum.foldl (fun d vac => d.set vac (k.map fun _ => none)) []
  P_t := vacuum.foldl (fun d vac => d.set vac (k.map fun _ => none)) []

/-- `getattr(PPS, name)[i] = v`, where `v = getattr(mode, name)` -/
def store (d : Dict (List (Option ℝ))) (i : ℕ) (src : Dict (Option ℝ)) (vac : String) : Except PyErr (Dict (List (Option ℝ))) :=
  match d.get? vac, src.get? vac with
  | some arr, some v => .ok (d.set vac (arr.set i v))
  | _, _ => .error (.attributeError vac)

/-- oscode_solver.py:129-131 -/
def storeAll (i : ℕ) (m : ModeSpectra) : List String → PPS → Except PyErr PPS
  | [], P => .ok P
  | vac :: rest, P =>
    match store P.P_s i m.P_s vac, store P.P_t i m.P_t vac with
    | .ok s, .ok t => storeAll i m rest { P with P_s := s, P_t := t }
    | .error e, _ => .error e
    | _, .error e => .error e

/-- oscode_solver.py:91-131: `for i, ki in enumerate(k)`, from index `i` on. -/
noncomputable def loop (osc : Oscode) (b : Bg) (kw : OscKw) : ℕ → List ℝ → PPS → Except PyErr PPS
  | _, [], P => .ok P
  | i, k :: ks, P =>
    match oneMode osc b kw k with
    | .error e => .error e
    | .ok m =>
      match storeAll i m kw.vacuum P with
      | .error e => .error e
      | .ok P' => loop osc b kw (i + 1) ks P'

/-- `solve_oscode` with an array of wavenumbers (oscode_solver.py:80-133). -/
noncomputable def solveOscode (osc : Oscode) (b : Bg) (k : List ℝ) (kw : OscKw) : Except PyErr PPS :=
  loop osc b kw 0 k (PPS.init b k kw.vacuum)

/-- `solve_oscode` with a single wavenumber: the last `Perturbation` object is returned (oscode_solver.py:84-86, 134-135). -/
noncomputable def solveOscode1 (osc : Oscode) (b : Bg) (k : ℝ) (kw : OscKw) : Except PyErr ModeSpectra :=
  match oneMode osc b kw k with
  | .error e => .error e
  | .ok m =>
    match storeAll 0 m kw.vacuum (PPS.init b [k] kw.vacuum) with
    | .error e => .error e
    | .ok _ => .ok m

end Pert
end Primpy
