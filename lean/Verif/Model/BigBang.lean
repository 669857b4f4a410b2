import Verif.Model.Units
import Verif.Model.InflationSol
import Mathlib.Analysis.SpecialFunctions.Trigonometric.Inverse
import Mathlib.Analysis.SpecialFunctions.Arcosh
import Mathlib.MeasureTheory.Integral.IntervalIntegral.Basic

/-!
# primpy/bigbang.py

Functions that depend on the physical constants take the constants `u : SI`.
`scipy.integrate.quad` is modelled by the exact integral together with an arbitrary error estimate.
-/

namespace Primpy
open Real
namespace BB

/-- bigbang.py:10-21 -/
noncomputable def get_H0 (u : SI) (h : ℝ) (units : String) : Except PyErr ℝ :=
  if units = "planck" then .ok (h * 100000 / u.Mpc_m * u.tp_s)
  else if units = "H0" then .ok (h * 100)
  else if units = "SI" then .ok (h * 100000 / u.Mpc_m)
  else .error (.notImplemented "H0 units")

/-- bigbang.py:23-38; `np.sign` is `SignType.sign`; `K = -sign(Omega_K0)` is substituted. -/
noncomputable def get_a0 (u : SI) (h Omega_K0 : ℝ) (units : String) : Except PyErr ℝ :=
  open Classical in
  if Omega_K0 = 0 then .ok 1
  else do
    let H0 ← get_H0 u h "planck"
    let a0 := √(-(-(SignType.sign Omega_K0 : ℝ)) / Omega_K0) / H0
    if units = "planck" then .ok a0
    else if units = "Mpc" then .ok (a0 * u.lp_m / u.Mpc_m)
    else if units = "SI" then .ok (a0 * u.lp_m)
    else .error (.notImplemented "a0 units")

/-- bigbang.py:41-43 -/
noncomputable def get_N_BBN (u : SI) (h Omega_K0 : ℝ) : Except PyErr (Option ℝ) :=
  (get_a0 u h Omega_K0 "planck").map fun a0 => nanLog (a0 / (1 + SI.z_BBN))

/-- bigbang.py:46-51; `none` = division by zero (inf/NaN). -/
noncomputable def get_w_delta_reh (N_end N_reh log_cHH_end log_cHH_reh : ℝ) : Option ℝ × ℝ :=
  open Classical in
  let delta_reh := N_reh - N_end
  let delta_cHH := log_cHH_reh - log_cHH_end
  (if delta_reh = 0 then none else some ((2 * delta_cHH / delta_reh - 1) / 3), delta_reh)

/-- bigbang.py:54-58 -/
noncomputable def get_rho_crit_kg_im3 (u : SI) (h : ℝ) : Except PyErr ℝ :=
  (get_H0 u h "SI").map fun H0_is => 3 * H0_is ^ 2 / (8 * π * u.G)

/-- bigbang.py:61-65 -/
noncomputable def get_Omega_r0 (u : SI) (h : ℝ) : Except PyErr ℝ :=
  (get_rho_crit_kg_im3 u h).map fun rho => u.rho_r0_kg_im3 / rho

/-- bigbang.py:116-139 -/
noncomputable def no_Big_Bang_line (Omega_m0 : ℝ) : Except PyErr ℝ :=
  open Classical in
  if Omega_m0 = 0 then .ok 1
  else if 0 < Omega_m0 ∧ Omega_m0 ≤ 0.5 then
    .ok (4 * Omega_m0 * cosh (arcosh ((1 - Omega_m0) / Omega_m0) / 3) ^ 3)
  else if 0.5 ≤ Omega_m0 then
    .ok (4 * Omega_m0 * cos (arccos ((1 - Omega_m0) / Omega_m0) / 3) ^ 3)
  else .error (.valueError "Matter density can't be negative")

/-- bigbang.py:142-163 -/
noncomputable def expand_recollapse_line (Omega_m0 : ℝ) : Except PyErr ℝ :=
  open Classical in
  if 0 ≤ Omega_m0 ∧ Omega_m0 < 1 then .ok 0
  else if 1 ≤ Omega_m0 then
    .ok (4 * Omega_m0 * cos (arccos ((1 - Omega_m0) / Omega_m0) / 3 + 4 * π / 3) ^ 3)
  else .error (.valueError "Matter density can't be negative")

/-- bigbang.py:109-112: what stands under the root, as a function of the four density parameters and
`x = exp(N0 - N)`. -/
noncomputable def radicand (Omega_r0 Omega_m0 Omega_K0 Omega_L0 x : ℝ) : ℝ :=
  Omega_r0 * x ^ 4 + Omega_m0 * x ^ 3 + Omega_K0 * x ^ 2 + Omega_L0

open Classical in
/-- bigbang.py:98-113; the value is NaN (`none`) where the radicand is negative, and the flag says
whether a `BigBangWarning` was issued. -/
noncomputable def Hubble_parameter (u : SI) (N Omega_m0 Omega_K0 h : ℝ) (units : String) :
    Except PyErr (Option ℝ × Bool) := do
  let H0 ← get_H0 u h units
  let Omega_r0 ← get_Omega_r0 u h
  let nbb ← no_Big_Bang_line Omega_m0
  if nbb < 1 - Omega_r0 - Omega_m0 - Omega_K0 then .error (.primpyError "BigBangError: no Big Bang")
  else do
    let erl ← expand_recollapse_line Omega_m0
    let a0 ← get_a0 u h Omega_K0 "planck"
    .ok ((nanSqrt (radicand Omega_r0 Omega_m0 Omega_K0 (1 - Omega_r0 - Omega_m0 - Omega_K0)
        (exp (log a0 - N)))).map (H0 * ·),
      decide (1 - Omega_r0 - Omega_m0 - Omega_K0 < erl))

open Classical in
/-- float division; by zero it is inf/NaN: `none` -/
noncomputable def fdiv (a b : ℝ) : Option ℝ := if b = 0 then none else some (a / b)

/-- bigbang.py:196-205.  `units='Mpc'` is renamed to `'H0'`, so `'H0'` is accepted as a synonym. -/
noncomputable def comoving_Hubble_horizon (u : SI) (N Omega_m0 Omega_K0 h : ℝ) (units : String) :
    Except PyErr (Option ℝ) := do
  let a0 ← get_a0 u h Omega_K0 "planck"
  let un := if units = "Mpc" then "H0" else units
  let H ← Hubble_parameter u N Omega_m0 Omega_K0 h un
  if un = "planck" then .ok (H.1.bind fun H => fdiv a0 (exp N * H))
  else if un = "H0" then .ok (H.1.bind fun H => fdiv (a0 * u.c) (exp N * H * 1000))
  else .ok (H.1.bind fun H => fdiv (a0 * u.c) (exp N * H))

/-- bigbang.py:247-248, the integrand: raises what `Hubble_parameter` raises; NaN is `none`. -/
noncomputable def integrand (u : SI) (Omega_m0 Omega_K0 h n : ℝ) : Except PyErr (Option ℝ) :=
  (Hubble_parameter u n Omega_m0 Omega_K0 h "planck").map fun r =>
    r.1.bind fun H => fdiv (exp (-n)) H

/-- The integrand as a function handed to `quad` (0 where it is NaN or raises; theorems assume it
is a number on the range of integration). -/
noncomputable def integrandFn (u : SI) (Omega_m0 Omega_K0 h n : ℝ) : ℝ :=
  match integrand u Omega_m0 Omega_K0 h n with
  | .ok (some v) => v
  | _ => 0

/-- What the caller passes for `N`. -/
inductive NArg where
  | scalar (n : ℝ)
  | array (ns : List ℝ)
  | otherType

/-- The two kinds of return value of `conformal_time`: `quad`'s pair, or an array. -/
inductive ConfTime where
  | pair (value err : ℝ)
  | array (values : List ℝ)

/-- `integrate.quad(func, a, b)[0]`, exactly; errors raised by the integrand propagate. -/
noncomputable def quadValue (u : SI) (Omega_m0 Omega_K0 h a b : ℝ) : Except PyErr ℝ :=
  match integrand u Omega_m0 Omega_K0 h a with
  | .error e => .error e
  | .ok _ => .ok (∫ n in a..b, integrandFn u Omega_m0 Omega_K0 h n)

/-- `[f n for n in ns]` where `f` may raise -/
def mapExcept {α β : Type} (f : α → Except PyErr β) : List α → Except PyErr (List β)
  | [] => .ok []
  | a :: l =>
    match f a with
    | .error e => .error e
    | .ok b => match mapExcept f l with
      | .error e => .error e
      | .ok bs => .ok (b :: bs)

/-- bigbang.py:243-253; `err` is the error estimate of `quad`. -/
noncomputable def conformal_time (u : SI) (err : ℝ) (N_start : ℝ) (N : NArg)
    (Omega_m0 Omega_K0 h : ℝ) : Except PyErr ConfTime :=
  match N with
  | .array ns => (mapExcept (fun n => quadValue u Omega_m0 Omega_K0 h N_start n) ns).map .array
  | .scalar n => (quadValue u Omega_m0 Omega_K0 h N_start n).map fun v => .pair v err
  | .otherType => .error (.typeError "N")

/-- bigbang.py:284-298 `conformal_time_ratio`; `forward` and `backward` are the `eta` arrays (first
element and the rest; the backward solution may be absent), `N_end` and `a0` attributes of the
forward solution. -/
noncomputable def conformal_time_ratio (u : SI) (Omega_m0 Omega_K0 h : ℝ) (fwd_first : ℝ)
    (fwd_rest : List ℝ) (bwd : Option (ℝ × List ℝ)) (N_end a0 : ℝ) : Except PyErr ℝ :=
  let eta_beg := match bwd with
    | none => fwd_first
    | some (b, bs) => (b :: bs).getLast (by simp)
  let eta_end := (fwd_first :: fwd_rest).getLast (by simp)
  (quadValue u Omega_m0 Omega_K0 h N_end (log a0)).map fun after => (eta_end - eta_beg) / after

end BB
end Primpy
