import Verif.Model.ApproxPower

/-!
# primpy/inflation.py 463-1591: the solution object with its spectra, and `sol.set_ns`

`calibrateP` is `calibrate_scale_factor` including its last statement, the call of `derive_approx_power`.
The slow-roll parameters on the integration grid are fixed data of the solution (`SlowRoll.grid`); their
`interp1d` values at `_N_cross` are `SlowRoll.star mask _N_cross` (total here; scipy raises outside the
range of the grid).
-/

namespace Primpy
open Real
namespace Approx

/-- The slow-roll parameters along an integrated solution. -/
structure SlowRoll where
  /-- one entry per grid point of `_N`; the code computes them on the masked grid (inflation.py:913-940) -/
  grid : List SRPoint
  /-- `interp1d(_N, .)(sol._N_cross)` on the masked grid; inflation.py:1108-1117, 1246-1256 -/
  star : List Bool → ℝ → SRPoint

/-- The data of the spectra after a calibration: `sol.logk`, the parameters under `inflation_mask`, and
the values at `_N_cross`; inflation.py:910-940, 1085-1117. -/
def gridOf (sr : SlowRoll) (s : CalState) : Option Grid :=
  match s.infl, s.cal with
  | some I, some c => some ⟨c.logk.zip (maskSel sr.grid I.mask), sr.star I.mask c.N_cross_⟩
  | _, _ => none

/-- The solution object: calibration, spectra, and the derived `A_s`, `n_s`, ... -/
structure PSol where
  st : CalState
  caches : Caches
  pars : Option PowerParams

section
variable {κ : Type} (u : SI) (spline : κ → List (ℝ × ℝ) → ℝ → ℝ) (sr : SlowRoll)

/-- inflation.py:872-891 `derive_approx_power(method, order, **kw)`: derive, then read the pivot
parameters off the current splines. -/
noncomputable def deriveP (method : String) (kw : κ) (order : ℕ) (s : CalState) (c : Caches) :
    Except PyErr PSol :=
  match gridOf sr s with
  | none => .error (.attributeError "logk")
  | some g =>
    let c' := derive spline method kw order g c
    match c'.current with
    | none => .error (.attributeError "logk2logP_s")
    | some S => .ok ⟨s, c', some (params S)⟩

/-- inflation.py:463-870 `calibrate_scale_factor(..., **kwargs)` with its last two lines: the spectra are
derived unless a background is copied. -/
noncomputable def calibrateP (p : PSol) (a : CalArgs) (method : String) (kw : κ) (order : ℕ) :
    Except PyErr PSol :=
  match Cal.calibrate u p.st a with
  | .error e => .error e
  | .ok s => if a.background.isSome then .ok { p with st := s }
    else deriveP spline sr method kw order s p.caches

/-- inflation.py:1566-1568 `Nstar2ns_minus_ns`: re-calibrate with the default method and order, return the
deviation from the target (and the modified solution). -/
noncomputable def nsObjective (kw : κ) (n_s : ℝ) (p : PSol) (N_star : ℝ) : Except PyErr (PSol × ℝ) :=
  match calibrateP u spline sr p { method := "N_star", N_star := some N_star } "CGS" kw 3 with
  | .error e => .error e
  | .ok q => match q.pars with
    | none => .error (.attributeError "n_s")
    | some P => .ok (q, P.n_s - n_s)

/-- The objective evaluated at a sequence of points, as `root_scalar` does. -/
noncomputable def nsProbe (kw : κ) (n_s : ℝ) : PSol → List ℝ → Except PyErr PSol
  | p, [] => .ok p
  | p, x :: xs => match nsObjective u spline sr kw n_s p x with
    | .error e => .error e
    | .ok q => nsProbe kw n_s q.1 xs

open Classical in
/-- inflation.py:1545-1589 `sol.set_ns(n_s, N_star_min, N_star_max, rho_reh_GeV)`.  `root_scalar` is the
oracle `solver`: from the solution and the bracket, the points it evaluates and the root it returns. -/
noncomputable def setNs (kw : κ) (solver : PSol → ℝ → ℝ → List ℝ × ℝ) (n_s lo hi : ℝ)
    (rho_reh_GeV : Option ℝ) (p : PSol) : Except PyErr PSol :=
  if p.st.K ≠ 0 then .error (.primpyError "Setting n_s in post-processing works only for flat universes.")
  else match nsObjective u spline sr kw n_s p lo with
    | .error e => .error e
    | .ok (q, d1) =>
      let ns_min := d1 + n_s
      match nsObjective u spline sr kw n_s q hi with
      | .error e => .error e
      | .ok (q', d2) =>
        let ns_max := d2 + n_s
        if ns_min > n_s ∧ ns_max > n_s then .error (.primpyError "N_star probably too small")
        else if ns_min < n_s ∧ ns_max < n_s then .error (.primpyError "potentially higher N_star required")
        else
          let r := solver q' lo hi
          match nsProbe u spline sr kw n_s q' r.1 with
          | .error e => .error e
          | .ok q'' => calibrateP u spline sr q''
              { method := "N_star", N_star := some r.2, rho_reh_GeV := rho_reh_GeV } "CGS" kw 3

end
end Approx
end Primpy
