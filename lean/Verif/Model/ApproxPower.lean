import Verif.Model.Calibration
import Mathlib.NumberTheory.Harmonic.EulerMascheroni

/-!
# primpy/inflation.py 872-1591: slow-roll spectra, their caches, and `set_ns`

`InterpolatedUnivariateSpline(x, y, k, ext, ...)` is an oracle: a function of its data and keyword
arguments.  `derivatives(x)` is the list of its derivatives at `x`.  Both constructors and evaluations are
total here (scipy may raise for too few points).  The slow-roll parameters at the grid points are what
the functions of `Model/Background.lean` return (inflation.py:913-940, 1098-1117, ...); `interp1d` values
at `_N_cross` are given as one more point.
-/

namespace Primpy
open Real

/-- The slow-roll parameters at one grid point: `H`, `get_epsilon_1H`, `get_epsilon_2H`,
`get_epsilon_3H`, `get_delta_1..3` and the `kind='Gong'` variants of `epsilon_2H`, `epsilon_3H`
(inflation.py:933-940, 968-969). -/
structure SRPoint where
  H : ℝ
  e1 : ℝ
  e2 : ℝ := 0
  e3 : ℝ := 0
  d1 : ℝ := 0
  d2 : ℝ := 0
  d3 : ℝ := 0
  g2 : ℝ := 0
  g3 : ℝ := 0

namespace Approx

/-- `alpha = 2 - np.log(2) - np.euler_gamma`; inflation.py:945, 1267 -/
noncomputable def alpha : ℝ := 2 - log 2 - eulerMascheroniConstant
/-- `C = np.euler_gamma + np.log(2) - 2`; inflation.py:1124, 1190 -/
noncomputable def C : ℝ := eulerMascheroniConstant + log 2 - 2
/-- `scipy.special.zeta(3)` -/
noncomputable def zeta3 : ℝ := ∑' n : ℕ, 1 / ((n : ℝ) + 1) ^ 3

/-- `H**2 / (8 * pi**2 * e1)`; inflation.py:944, 1120, 1186, 1272 -/
noncomputable def Ps0 (p : SRPoint) : ℝ := p.H ^ 2 / (8 * π ^ 2 * p.e1)
/-- `2 * (H / pi)**2`; inflation.py:972, 1121, 1187, 1273 -/
noncomputable def Pt0 (p : SRPoint) : ℝ := 2 * (p.H / π) ^ 2

/-! ### Choe, Gong & Stewart -/

/-- inflation.py:945-948 -/
noncomputable def cgsS1 (p : SRPoint) : ℝ :=
  let a := alpha - p.e1
  1 + (4 * a - 2) * p.e1 + 2 * a * p.d1 + (-a ^ 2 + π ^ 2 / 12) * p.d2
    + (1 / 3 * a ^ 3 - π ^ 2 / 12 * a + 4 / 3 - 2 / 3 * zeta3) * p.d3
/-- inflation.py:950-959 -/
noncomputable def cgsS2 (p : SRPoint) : ℝ :=
  let a := alpha - p.e1
  (4 * a ^ 2 - 19 + 7 * π ^ 2 / 3) * p.e1 ^ 2
    + (3 * a ^ 2 + 2 * a - 20 + 29 * π ^ 2 / 12) * p.e1 * p.d1
    + (3 * a ^ 2 - 4 + 5 * π ^ 2 / 12) * p.d1 ^ 2
    + (-5 / 3 * a ^ 3 - 2 * a ^ 2 + 20 * a - 9 / 4 * π ^ 2 * a + 16 / 3 + π ^ 2 / 6
        - 14 / 3 * zeta3) * p.e1 * p.d2
    + (-3 * a ^ 3 + 8 * a - 7 / 12 * π ^ 2 * a - 4 + 2 * zeta3) * p.d1 * p.d2
/-- inflation.py:960-967 -/
noncomputable def cgsS3 (p : SRPoint) : ℝ :=
  let a := alpha - p.e1
  (4 * a ^ 2 + 8 * a + 16 + 5 * π ^ 2 - 48 * zeta3) * p.e1 ^ 3
    + (-5 / 3 * a ^ 3 + 4 * a ^ 2 + 32 * a - 9 / 4 * π ^ 2 * a + 88 / 3 + 23 / 3 * π ^ 2
        - 230 / 3 * zeta3) * p.e1 ^ 2 * p.d1
    + (3 * a ^ 3 + 4 * a ^ 2 - 24 * a + 13 / 4 * π ^ 2 * a + 16 + 7 / 3 * π ^ 2
        - 30 * zeta3) * p.e1 * p.d1 ^ 2
    + (4 * a ^ 3 - 16 * a + 5 / 3 * π ^ 2 * a + 8 - 6 * zeta3) * p.d1 ^ 3
/-- inflation.py:974-978 -/
noncomputable def cgsT1 (p : SRPoint) : ℝ :=
  let a := alpha - p.e1
  1 + 2 * (a - 1) * p.e1 + (-a ^ 2 + 2 * a - 2 + π ^ 2 / 12) * p.g2
    + (a ^ 3 / 3 - a ^ 2 + (2 - π ^ 2 / 12) * a + π ^ 2 / 12 - 2 / 3 - 2 / 3 * zeta3) * p.g3
/-- inflation.py:979-983 -/
noncomputable def cgsT2 (p : SRPoint) : ℝ :=
  let a := alpha - p.e1
  (2 * a ^ 2 - 2 * a - 3 + π ^ 2 / 2) * p.e1 ^ 2
    + (-5 / 3 * a ^ 3 + 2 * a ^ 2 + (8 - 11 / 12 * π ^ 2) * a + 7 / 6 * π ^ 2 - 26 / 3
        - 2 / 3 * zeta3) * p.e1 * p.g2
/-- inflation.py:984 -/
noncomputable def cgsT3 (p : SRPoint) : ℝ :=
  let a := alpha - p.e1
  (4 / 3 * a ^ 3 - 8 * a + π ^ 2 * a + 16 / 3 - 14 / 3 * zeta3) * p.e1 ^ 3

/-- The correction factor of order 0, 1, 2, 3; inflation.py:986-1056 -/
noncomputable def cgsS : ℕ → SRPoint → ℝ
  | 0, _ => 1
  | 1, p => cgsS1 p
  | 2, p => cgsS1 p + cgsS2 p
  | _, p => cgsS1 p + cgsS2 p + cgsS3 p
noncomputable def cgsT : ℕ → SRPoint → ℝ
  | 0, _ => 1
  | 1, p => cgsT1 p
  | 2, p => cgsT1 p + cgsT2 p
  | _, p => cgsT1 p + cgsT2 p + cgsT3 p

/-! ### Leach, Liddle, Martin & Schwarz -/

/-- inflation.py:1125-1129 -/
noncomputable def bs0 (p : SRPoint) : ℝ :=
  -2 * (C + 1) * p.e1 - C * p.e2 + (-2 * C + π ^ 2 / 2 - 7) * p.e1 ^ 2
    + (-C ^ 2 - 3 * C + 7 * π ^ 2 / 12 - 7) * p.e1 * p.e2 + (π ^ 2 / 8 - 1) * p.e2 ^ 2
    + (-C ^ 2 / 2 + π ^ 2 / 24) * p.e2 * p.e3
/-- inflation.py:1130 -/
noncomputable def llms_ns (p : SRPoint) : ℝ :=
  1 - 2 * p.e1 - p.e2 - 2 * p.e1 ^ 2 - (2 * C + 3) * p.e1 * p.e2 - C * p.e2 * p.e3
/-- inflation.py:1131 -/
noncomputable def llms_nsrun (p : SRPoint) : ℝ := -2 * p.e1 * p.e2 - p.e2 * p.e3
/-- inflation.py:1132-1134 -/
noncomputable def bt0 (p : SRPoint) : ℝ :=
  -2 * (C + 1) * p.e1 + (-2 * C + π ^ 2 / 2 - 7) * p.e1 ^ 2
    + (-C ^ 2 - 2 * C + π ^ 2 / 12 - 2) * p.e1 * p.e2
/-- inflation.py:1135 -/
noncomputable def llms_nt (p : SRPoint) : ℝ :=
  -2 * p.e1 - 2 * p.e1 ^ 2 - 2 * (C + 1) * p.e1 * p.e2
/-- inflation.py:1136 -/
noncomputable def llms_ntrun (p : SRPoint) : ℝ := -2 * p.e1 * p.e2
/-- inflation.py:1138-1140: `logP_s` at `log(k/k_*) = L`, from the values `p` at horizon crossing of the
pivot scale -/
noncomputable def llmsS (p : SRPoint) (L : ℝ) : ℝ :=
  log (Ps0 p) + bs0 p + (llms_ns p - 1) * L + llms_nsrun p / 2 * L ^ 2
/-- inflation.py:1138, 1141 -/
noncomputable def llmsT (p : SRPoint) (L : ℝ) : ℝ :=
  log (Pt0 p) + bt0 p + llms_nt p * L + llms_ntrun p / 2 * L ^ 2

/-! ### Schwarz & Terrero-Escalante -/

/-- inflation.py:1191-1197 -/
noncomputable def steS (p : SRPoint) : ℝ :=
  1 - 2 * (C + 1) * p.e1 - C * p.e2 + (2 * C ^ 2 + 2 * C + π ^ 2 / 2 - 5) * p.e1 ^ 2
    + (C ^ 2 / 2 + π ^ 2 / 8 - 1) * p.e2 ^ 2 + (C ^ 2 - C + 7 / 12 * π ^ 2 - 7) * p.e1 * p.e2
    + (-C ^ 2 / 2 + π ^ 2 / 24) * p.e2 * p.e3
/-- inflation.py:1198-1202 -/
noncomputable def steT (p : SRPoint) : ℝ :=
  1 - 2 * (C + 1) * p.e1 + (2 * C ^ 2 + 2 * C + π ^ 2 / 2 - 5) * p.e1 ^ 2
    + (-C ^ 2 - 2 * C + π ^ 2 / 12 - 2) * p.e1 * p.e2

/-! ### Auclair & Ringeval / Ballardini, Davoli & Sirletti (`e4 = 0`, inflation.py:1257) -/

/-- inflation.py:1268 -/
noncomputable def Z : ℝ := zeta3 / 3 * 7
/-- inflation.py:1277-1279 -/
noncomputable def as0_1 (p : SRPoint) : ℝ := 1 - 2 * (1 - alpha) * p.e1 + alpha * p.e2
/-- inflation.py:1280-1285 -/
noncomputable def as0_2 (p : SRPoint) : ℝ :=
  (-3 - 2 * alpha + 2 * alpha ^ 2 + π ^ 2 / 2) * p.e1 ^ 2
    + (-6 + alpha + alpha ^ 2 + 7 * π ^ 2 / 12) * p.e1 * p.e2
    + (-8 + 4 * alpha ^ 2 + π ^ 2) / 8 * p.e2 ^ 2 + (-12 * alpha ^ 2 + π ^ 2) / 24 * p.e2 * p.e3
/-- inflation.py:1286-1293 with `e4 = 0` -/
noncomputable def as0_3 (p : SRPoint) : ℝ :=
  -(-16 + 24 * alpha - 4 * alpha ^ 3 - 3 * alpha * π ^ 2 + 6 * Z) / 24 * (8 * p.e1 ^ 3 + p.e2 ^ 3)
    + (-72 * alpha + 36 * alpha ^ 2 + 13 * π ^ 2 + 8 * alpha * π ^ 2 - 36 * Z) / 12 * p.e1 ^ 2 * p.e2
    - (16 + 24 * alpha - 12 * alpha ^ 2 - 8 * alpha ^ 3 - 15 * π ^ 2 - 6 * alpha * π ^ 2 + 84 * Z) / 24
        * p.e1 * p.e2 ^ 2
    + (16 + 4 * alpha ^ 3 - alpha * π ^ 2 - 24 * Z) / 24 * (p.e2 * p.e3 ^ 2)
    + (48 * alpha - 12 * alpha ^ 3 - 5 * alpha * π ^ 2) / 24 * p.e2 ^ 2 * p.e3
    + (-8 + 72 * alpha - 12 * alpha ^ 2 - 8 * alpha ^ 3 + π ^ 2 - 6 * alpha * π ^ 2 - 24 * Z) / 12
        * p.e1 * p.e2 * p.e3
/-- inflation.py:1294-1296 -/
def as1_1 (p : SRPoint) : ℝ := -2 * p.e1 - p.e2
/-- inflation.py:1297-1302 -/
noncomputable def as1_2 (p : SRPoint) : ℝ :=
  2 * (-2 * alpha + 1) * p.e1 ^ 2 + (-2 * alpha - 1) * p.e1 * p.e2 - alpha * p.e2 ^ 2
    + alpha * p.e2 * p.e3
/-- inflation.py:1303-1310 with `e4 = 0` -/
noncomputable def as1_3 (p : SRPoint) : ℝ :=
  -(-8 + 4 * alpha ^ 2 + π ^ 2) / 8 * (8 * p.e1 ^ 3 + p.e2 ^ 3)
    - 2 / 3 * (-9 + 9 * alpha + π ^ 2) * p.e1 ^ 2 * p.e2
    - (-4 + 4 * alpha + 4 * alpha ^ 2 + π ^ 2) / 4 * p.e1 * p.e2 ^ 2
    + (-12 + 4 * alpha + 4 * alpha ^ 2 + π ^ 2) / 2 * p.e1 * p.e2 * p.e3
    + (-12 * alpha ^ 2 + π ^ 2) / 24 * (p.e2 * p.e3 ^ 2)
    + (-48 + 36 * alpha ^ 2 + 5 * π ^ 2) / 24 * p.e2 ^ 2 * p.e3
/-- inflation.py:1311-1313 -/
noncomputable def as2_2 (p : SRPoint) : ℝ :=
  1 / 2 * (4 * p.e1 ^ 2 + 2 * p.e1 * p.e2 + p.e2 ^ 2 - p.e2 * p.e3)
/-- inflation.py:1314-1317 with `e4 = 0` -/
noncomputable def as2_3 (p : SRPoint) : ℝ :=
  1 / 2 * (6 * p.e1 ^ 2 * p.e2 + (1 + 2 * alpha) * (p.e1 * p.e2 ^ 2 - 2 * p.e1 * p.e2 * p.e3)
    + alpha * (8 * p.e1 ^ 3 + p.e2 ^ 3 - 3 * p.e2 ^ 2 * p.e3 + p.e2 * p.e3 ^ 2))
/-- inflation.py:1318-1321 with `e4 = 0` -/
noncomputable def as3_3 (p : SRPoint) : ℝ :=
  1 / 6 * (-8 * p.e1 ^ 3 - 2 * p.e1 * p.e2 ^ 2 - p.e2 ^ 3 + 4 * p.e1 * p.e2 * p.e3
    + 3 * p.e2 ^ 2 * p.e3 - p.e2 * p.e3 ^ 2)
/-- inflation.py:1325 -/
noncomputable def at0_1 (p : SRPoint) : ℝ := 1 + 2 * (-1 + alpha) * p.e1
/-- inflation.py:1326-1329 -/
noncomputable def at0_2 (p : SRPoint) : ℝ :=
  (-3 - 2 * alpha + 2 * alpha ^ 2 + π ^ 2 / 2) * p.e1 ^ 2
    + (-2 + 2 * alpha - alpha ^ 2 + π ^ 2 / 12) * p.e1 * p.e2
/-- inflation.py:1330-1336 -/
noncomputable def at0_3 (p : SRPoint) : ℝ :=
  -(1 / 3) * (-16 + 24 * alpha - 4 * alpha ^ 3 - 3 * alpha * π ^ 2 + 6 * Z) * p.e1 ^ 3
    + 1 / 12 * (-96 + 72 * alpha + 36 * alpha ^ 2 - 24 * alpha ^ 3 + 13 * π ^ 2 - 10 * alpha * π ^ 2)
        * p.e1 ^ 2 * p.e2
    - 1 / 12 * (8 - 24 * alpha + 12 * alpha ^ 2 - 4 * alpha ^ 3 - π ^ 2 + alpha * π ^ 2 + 24 * Z)
        * (p.e1 * p.e2 ^ 2 + p.e1 * p.e2 * p.e3)
/-- inflation.py:1337 -/
def at1_1 (p : SRPoint) : ℝ := -2 * p.e1
/-- inflation.py:1338 -/
noncomputable def at1_2 (p : SRPoint) : ℝ :=
  2 * (-2 * alpha + 1) * p.e1 ^ 2 + (-2 + 2 * alpha) * p.e1 * p.e2
/-- inflation.py:1339-1343 -/
noncomputable def at1_3 (p : SRPoint) : ℝ :=
  -(-8 + 4 * alpha ^ 2 + π ^ 2) * p.e1 ^ 3
    + 6 * (-1 - alpha + alpha ^ 2 + 5 * π ^ 2 / 36) * p.e1 ^ 2 * p.e2
    + (-2 + 2 * alpha - alpha ^ 2 + π ^ 2 / 12) * (p.e1 * p.e2 ^ 2 + p.e1 * p.e2 * p.e3)
/-- inflation.py:1344 -/
noncomputable def at2_2 (p : SRPoint) : ℝ := 1 / 2 * (4 * p.e1 ^ 2 - 2 * p.e1 * p.e2)
/-- inflation.py:1345-1349 -/
noncomputable def at2_3 (p : SRPoint) : ℝ :=
  1 / 2 * (8 * alpha * p.e1 ^ 3 + 2 * (3 - 6 * alpha) * p.e1 ^ 2 * p.e2
    - 2 * (1 - alpha) * (p.e1 * p.e2 ^ 2 + p.e1 * p.e2 * p.e3))
/-- inflation.py:1350 -/
noncomputable def at3_3 (p : SRPoint) : ℝ :=
  1 / 6 * (-8 * p.e1 ^ 3 + 12 * p.e1 ^ 2 * p.e2 - 2 * p.e1 * p.e2 ^ 2 - 2 * p.e1 * p.e2 * p.e3)

/-- The correction factor at `log(k/k_*) = L`, orders 1, 2, 3; inflation.py:1352-1414.  (Other orders
select nothing in the code; here they give the order-3 value, see `deriveARBDS`.) -/
noncomputable def arbdsS : ℕ → SRPoint → ℝ → ℝ
  | 1, p, L => as0_1 p + as1_1 p * L
  | 2, p, L => as0_1 p + as0_2 p + (as1_1 p + as1_2 p) * L + as2_2 p * L ^ 2
  | _, p, L => as0_1 p + as0_2 p + as0_3 p + (as1_1 p + as1_2 p + as1_3 p) * L
      + (as2_2 p + as2_3 p) * L ^ 2 + as3_3 p * L ^ 3
noncomputable def arbdsT : ℕ → SRPoint → ℝ → ℝ
  | 1, p, L => at0_1 p + at1_1 p * L
  | 2, p, L => at0_1 p + at0_2 p + (at1_1 p + at1_2 p) * L + at2_2 p * L ^ 2
  | _, p, L => at0_1 p + at0_2 p + at0_3 p + (at1_1 p + at1_2 p + at1_3 p) * L
      + (at2_2 p + at2_3 p) * L ^ 2 + at3_3 p * L ^ 3

/-! ### The interpolated spectra -/

/-- A pair of log-spectra as functions of `log k`: (`logk2logP_s`, `logk2logP_t`). -/
structure Spectrum where
  s : ℝ → ℝ
  t : ℝ → ℝ

/-- What a spectrum is computed from: `sol.logk` with the slow-roll parameters at those grid points, and the
values interpolated to `_N_cross`. -/
structure Grid where
  pts : List (ℝ × SRPoint)
  star : SRPoint

open Classical in
/-- `mask = (P_s > 0) & (P_t > 0)` and the logarithms; e.g. inflation.py:987-989 -/
noncomputable def logTable (Ps Pt : ℝ → SRPoint → ℝ) (g : Grid) : List (ℝ × ℝ × ℝ) :=
  g.pts.filterMap fun q =>
    if 0 < Ps q.1 q.2 ∧ 0 < Pt q.1 q.2 then some (q.1, log (Ps q.1 q.2), log (Pt q.1 q.2)) else none

section
variable {κ : Type} (spline : κ → List (ℝ × ℝ) → ℝ → ℝ)

/-- e.g. inflation.py:993-1000 -/
noncomputable def fit (kw : κ) (tab : List (ℝ × ℝ × ℝ)) : Spectrum :=
  ⟨spline kw (tab.map fun q => (q.1, q.2.1)), spline kw (tab.map fun q => (q.1, q.2.2))⟩

/-- inflation.py:985-1057 -/
noncomputable def specCGS (kw : κ) (order : ℕ) (g : Grid) : Spectrum :=
  fit spline kw (logTable (fun _ p => Ps0 p * cgsS order p) (fun _ p => Pt0 p * cgsT order p) g)
/-- inflation.py:1138-1149 -/
noncomputable def specLLMS (kw : κ) (g : Grid) : Spectrum :=
  fit spline kw (g.pts.map fun q =>
    (q.1, llmsS g.star (q.1 - log SI.K_STAR), llmsT g.star (q.1 - log SI.K_STAR)))
/-- inflation.py:1204-1216 -/
noncomputable def specSTE (kw : κ) (g : Grid) : Spectrum :=
  fit spline kw (logTable (fun _ p => Ps0 p * steS p) (fun _ p => Pt0 p * steT p) g)
/-- inflation.py:1352-1416 -/
noncomputable def specARBDS (kw : κ) (order : ℕ) (g : Grid) : Spectrum :=
  fit spline kw (logTable (fun lk _ => Ps0 g.star * arbdsS order g.star (lk - log SI.K_STAR))
    (fun lk _ => Pt0 g.star * arbdsT order g.star (lk - log SI.K_STAR)) g)

/-! ### Attributes and caches -/

/-- The spectrum attributes of the solution object.  `cgs n`, `arbds n` stand for `P_s_approx_CGSn`,
`P_t_approx_CGSn` etc. -/
structure Caches where
  cgs : ℕ → Option Spectrum
  llms : Option Spectrum
  ste : Option Spectrum
  arbds : ℕ → Option Spectrum
  /-- `logk2logP_s`, `logk2logP_t` -/
  current : Option Spectrum

/-- A freshly integrated solution has none of them. -/
def Caches.empty : Caches := ⟨fun _ => none, none, none, fun _ => none, none⟩

/-- inflation.py:893-1073; `logk2logP_*` is only set for orders 0..3 -/
noncomputable def deriveCGS (kw : κ) (order : ℕ) (g : Grid) (c : Caches) : Caches :=
  { c with
    cgs := fun n => if n ≤ 3 then some (specCGS spline kw n g) else c.cgs n
    current := if order ≤ 3 then some (specCGS spline kw order g) else c.current }
/-- inflation.py:1075-1150 -/
noncomputable def deriveLLMS (kw : κ) (g : Grid) (c : Caches) : Caches :=
  { c with llms := some (specLLMS spline kw g), current := some (specLLMS spline kw g) }
/-- inflation.py:1152-1220 -/
noncomputable def deriveSTE (kw : κ) (g : Grid) (c : Caches) : Caches :=
  { c with ste := some (specSTE spline kw g), current := some (specSTE spline kw g) }
/-- inflation.py:1222-1430; `logk2logP_*` is only set for orders 1..3 -/
noncomputable def deriveARBDS (kw : κ) (order : ℕ) (g : Grid) (c : Caches) : Caches :=
  { c with
    arbds := fun n => if 1 ≤ n ∧ n ≤ 3 then some (specARBDS spline kw n g) else c.arbds n
    current := if 1 ≤ order ∧ order ≤ 3 then some (specARBDS spline kw order g) else c.current }

/-- inflation.py:872-881, the dispatch of `derive_approx_power`; an unknown method derives nothing. -/
noncomputable def derive (method : String) (kw : κ) (order : ℕ) (g : Grid) (c : Caches) : Caches :=
  if method = "CGS" then deriveCGS spline kw order g c
  else if method = "LLMS" then deriveLLMS spline kw g c
  else if method = "STE" then deriveSTE spline kw g c
  else if method = "ARBDS" then deriveARBDS spline kw order g c
  else c

/-- A scalar or tensor evaluation `exp(logP(log k))` of an attribute that may be missing. -/
noncomputable def evalAttr (name : String) (pick : Spectrum → ℝ → ℝ) (k : ℝ) :
    Option Spectrum → Except PyErr ℝ
  | none => .error (.attributeError name)
  | some S => .ok (exp (pick S (log k)))

/-- inflation.py:1434-1486 `P_s_approx` (with `pick = Spectrum.s`) and 1488-1540 `P_t_approx`
(`pick = Spectrum.t`), integer `order`: the new caches and the value.  `hasattr(sol, "P_s_approx_ARBDS")` is
asked about a name that is never assigned, so it is always false. -/
noncomputable def evalP (pick : Spectrum → ℝ → ℝ) (method : String) (order : ℕ) (kw : κ) (k : ℝ) (g : Grid)
    (c : Caches) : Caches × Except PyErr ℝ :=
  if method = "CGS" then
    if order ≤ 3 then (c, evalAttr "P_approx_CGS" pick k (c.cgs order))
    else (c, evalAttr "logk2logP" pick k c.current)
  else if method = "LLMS" then
    let c' := if c.llms.isSome then c else deriveLLMS spline kw g c
    (c', evalAttr "P_approx_LLMS" pick k c'.llms)
  else if method = "STE" then
    let c' := if c.ste.isSome then c else deriveSTE spline kw g c
    (c', evalAttr "P_approx_STE" pick k c'.ste)
  else if method = "ARBDS" then
    let c' := deriveARBDS spline kw order g c
    if 1 ≤ order ∧ order ≤ 3 then (c', evalAttr "P_approx_ARBDS" pick k (c'.arbds order))
    else (c', evalAttr "logk2logP" pick k c'.current)
  else (c, evalAttr "logk2logP" pick k c.current)

end

/-- inflation.py:883-891: the parameters derived at the pivot scale; `derivatives(x)[n]` is the `n`-th
derivative of the spline. -/
structure PowerParams where
  A_s : ℝ
  n_s : ℝ
  n_run : ℝ
  n_runrun : ℝ
  A_t : ℝ
  n_t : ℝ
  r : ℝ

noncomputable def params (S : Spectrum) : PowerParams where
  A_s := exp (S.s (log SI.K_STAR))
  n_s := 1 + iteratedDeriv 1 S.s (log SI.K_STAR)
  n_run := iteratedDeriv 2 S.s (log SI.K_STAR)
  n_runrun := iteratedDeriv 3 S.s (log SI.K_STAR)
  A_t := exp (S.t (log SI.K_STAR))
  n_t := iteratedDeriv 1 S.t (log SI.K_STAR)
  r := exp (S.t (log SI.K_STAR)) / exp (S.s (log SI.K_STAR))

end Approx
end Primpy
