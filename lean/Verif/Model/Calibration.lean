import Verif.Model.BigBang
import Verif.Model.Reheating
import Mathlib.Data.List.Sort

/-!
# primpy/inflation.py 463-870: `sol.calibrate_scale_factor`

The solution object is a state; a call either raises or returns the new state.  (An exception may
leave some attributes already overwritten: that is modelled relationally in C39.)  The final call of
`derive_approx_power` is modelled elsewhere (C40, C41, C55).

Simplifications.  `_logaH` and `_H` are real at every grid point (`H² > 0` along the whole
integration).  `np.log` of a non-positive argument is not distinguished from `Real.log` in this file:
theorems assume the physical positivity of `V_end`, `g_th`, `rho_reh_GeV`, `h`.  Float division by an
expression that can vanish is `BB.fdiv` (NaN = `none`).
-/

namespace Primpy
open Real

/-! ### numpy / scipy helpers -/

/-- `xs[mask]` for a boolean mask of the same length -/
def maskSel {α : Type} (xs : List α) (mask : List Bool) : List α :=
  (xs.zip mask).filterMap fun p => if p.2 then some p.1 else none

open Classical in
/-- `np.isin(np.arange(l.size), np.unique(l, return_index=True)[1])`: which positions hold the first
occurrence of their value. -/
noncomputable def firstOccurrence (l : List ℝ) : List Bool :=
  (List.range l.length).map fun i => decide (∀ j < i, l[j]? ≠ l[i]?)

/-- `mask & mask'` -/
def andMask (m m' : List Bool) : List Bool := List.zipWith (· && ·) m m'

open Classical in
/-- Piecewise linear interpolation through points sorted by abscissa, as `interp1d` evaluates it (the
interval is found by `searchsorted`, a node belongs to the interval on its left); a point outside the
range raises `ValueError` (`bounds_error`). -/
noncomputable def interpSorted : List (ℝ × ℝ) → ℝ → Except PyErr ℝ
  | p :: q :: l, x =>
    if x < p.1 then .error (.valueError "below the interpolation range")
    else if x ≤ q.1 then .ok ((q.2 - p.2) / (q.1 - p.1) * (x - p.1) + p.2)
    else interpSorted (q :: l) x
  | _, _ => .error (.valueError "above the interpolation range")

open Classical in
/-- `scipy.interpolate.interp1d(xs, ys)(x)`: sorts by abscissa (stable) and interpolates linearly. -/
noncomputable def interpL (xs ys : List ℝ) (x : ℝ) : Except PyErr ℝ :=
  interpSorted ((xs.zip ys).insertionSort fun a b => a.1 ≤ b.1) x

/-! ### the solution object -/

/-- Attributes that exist once start and end of inflation were found (inflation.py:452-461). -/
structure Infl where
  N_beg : ℝ
  /-- `_N_end`; overwritten by a calibration that copies a background -/
  N_end : ℝ
  N_tot : ℝ
  V_end : ℝ
  H_end : ℝ
  logaH_beg : ℝ
  logaH_end : ℝ
  /-- `inflation_mask` -/
  mask : List Bool

/-- An attribute that may not exist yet (`none`), or be NaN (`some none`). -/
abbrev Slot := Option (Option ℝ)

/-- Attributes that only some of the branches write. -/
structure Sticky where
  H_star : Slot
  rho_reh_GeV : Slot
  rho_reh_mp4 : Slot
  w_reh : Slot
  DeltaN_reh : Slot
  DeltaN_minus1 : Slot

/-- Attributes every successful calibration writes. -/
structure Calib where
  a0 : ℝ
  N0 : ℝ
  Omega_K0 : ℝ
  a0_Mpc : ℝ
  N_star : ℝ
  /-- `_N_cross` -/
  N_cross_ : ℝ
  /-- `_logaH_star` -/
  logaH_star : ℝ
  delta_N_calib : ℝ
  /-- `_N_reh`, may be NaN -/
  N_reh_ : Option ℝ
  logk : List ℝ
  N : List ℝ
  N_beg : ℝ
  N_end : ℝ
  N_reh : Option ℝ
  N_cross : ℝ
  N_dagg : ℝ
  k_iMpc : List ℝ
  /-- `_k` -/
  k : List ℝ
  cHH_Mpc : List ℝ
  cHH_end_Mpc : ℝ
  /-- 0 = none, 1 = negative reheating duration, 2 = reheating ends after today -/
  warning : ℕ

/-- The solution object. -/
structure CalState where
  K : ℝ
  /-- `_N` -/
  N : List ℝ
  /-- `_logaH` -/
  logaH : List ℝ
  H : List ℝ
  infl : Option Infl
  sticky : Sticky
  cal : Option Calib

/-- The attributes of the `background` argument that are read. -/
structure Background where
  N_star : ℝ
  delta_N_calib : ℝ
  logaH_star : ℝ
  N_cross_ : ℝ
  N_reh_ : Option ℝ
  N_end : ℝ

/-- Keyword arguments; inflation.py:464-471. -/
structure CalArgs where
  method : String
  Omega_K0 : Option ℝ := none
  h : Option ℝ := none
  N_star : Option ℝ := none
  background : Option Background := none
  DeltaN_reh : Option ℝ := none
  w_reh : Option ℝ := none
  rho_reh_GeV : Option ℝ := none
  g_th : ℝ := 100
  DeltaN_minus1 : Option ℝ := none

open Classical in
/-- inflation.py:465, the default of `calibration_method` -/
noncomputable def defaultMethod (K : ℝ) : String := if K = 0 then "N_star" else "Omega_K0"

/-- What the method-specific part computes. -/
structure Part where
  a0 : ℝ
  N0 : ℝ
  Omega_K0 : ℝ
  a0_Mpc : ℝ
  N_star : ℝ
  N_cross_ : ℝ
  logaH_star : ℝ
  delta_N_calib : ℝ
  N_reh_ : Option ℝ
  infl : Infl
  logk : List ℝ
  sticky : Sticky

namespace Cal
variable (u : SI)

/-- `np.log((45/pi**2)**(1/4) * g0**(-1/3)) + np.log(g_th)/12`, which appears in
inflation.py:567-568, 597-598, 622-623, 648-649, 766-767, 789-790. -/
noncomputable def logg (g_th : ℝ) : ℝ :=
  log ((45 / π ^ 2) ^ (1 / 4 : ℝ) * SI.g0 ^ (-1 / 3 : ℝ)) + log g_th / 12

/-- `rho_reh_GeV**4 / mp_GeV * lp_iGeV**3`; inflation.py:595, 646, 675, 763, 814 -/
noncomputable def toPlanck (rho_GeV : ℝ) : ℝ := rho_GeV ^ 4 / u.mp_GeV * u.lp_iGeV ^ 3
/-- `(rho_reh_mp4 * mp_GeV / lp_iGeV**3)**(1/4)`; inflation.py:592, 631, 670, 798, 808 -/
noncomputable def toGeV (rho_mp4 : ℝ) : ℝ := (rho_mp4 * u.mp_GeV / u.lp_iGeV ^ 3) ^ (1 / 4 : ℝ)

open Classical in
/-- inflation.py:573-611: the reheating attributes derived from a given `N_star`. -/
noncomputable def flatNstarReh (I : Infl) (delta DeltaN_minus1 : ℝ) (a : CalArgs) (st : Sticky) :
    Except PyErr (Option ℝ × Sticky) :=
  match a.rho_reh_GeV, a.w_reh, a.DeltaN_reh with
  | none, none, none =>
    .ok (none, { st with rho_reh_GeV := some none, rho_reh_mp4 := some none, w_reh := some none,
                         DeltaN_reh := some none })
  | none, some w, none =>
    if w = 1 / 3 then .error (.valueError "N_star and w_reh=1/3")
    else
      let dN := 4 * DeltaN_minus1 / (1 - 3 * w)
      if dN < 0 ∨ w < -1 / 3 then .error (.valueError "DeltaN_reh must be positive")
      else
        let rho := 3 / 2 * I.V_end * exp (-3 * (1 + w) * dN)
        .ok (some (I.N_end + dN),
          { st with w_reh := some (some w), DeltaN_reh := some (some dN),
                    rho_reh_mp4 := some (some rho), rho_reh_GeV := some (some (toGeV u rho)) })
  | some rho, none, none =>
    let N_reh := 0 - logg a.g_th + log (3 / 2 * u.T_CMB_Tp ^ 4 / toPlanck u rho) / 4
    let N_reh_ := N_reh - delta
    let dN := N_reh_ - I.N_end
    .ok (some N_reh_,
      { st with rho_reh_GeV := some (some rho), rho_reh_mp4 := some (some (toPlanck u rho)),
                DeltaN_reh := some (some dN),
                w_reh := some ((BB.fdiv (log (3 / 2 * I.V_end / toPlanck u rho)) (3 * dN)).map (· - 1)) })
  | _, _, _ => .error (.valueError "rho_reh_GeV xor w_reh")

open Classical in
/-- inflation.py:545-611, flat universe, `calibration_method='N_star'`; `N0 = 0`. -/
noncomputable def flatNstar (s : CalState) (a : CalArgs) :
    Except PyErr (ℝ × ℝ × ℝ × ℝ × Option ℝ × Infl × Sticky) :=
  match a.N_star with
  | none => .error (.valueError "N_star>0 must be given")
  | some N_star =>
    if N_star ≤ 0 then .error (.valueError "N_star>0 must be given")
    else match s.infl with
      | none => .error (.attributeError "inflation_mask")
      | some I =>
        if I.N_tot < N_star then .error (.insufficientInflation "N_tot < N_star")
        else
          let N_cross := I.N_end - N_star
          match interpL (maskSel s.N I.mask) (maskSel s.logaH I.mask) N_cross with
          | .error e => .error e
          | .ok logaH_star =>
            let H_star := exp (logaH_star - N_cross)
            let delta := 0 - logaH_star + log u.K_STAR_lp
            let dm1 := 0 - N_star - log (u.K_STAR_lp / H_star) - logg a.g_th
              - log (I.V_end / u.T_CMB_Tp ^ 4) / 4
            match flatNstarReh u I delta dm1 a
                { s.sticky with H_star := some (some H_star), DeltaN_minus1 := some (some dm1) } with
            | .error e => .error e
            | .ok (N_reh_, st) => .ok (N_star, N_cross, logaH_star, delta, N_reh_, I, st)

open Classical in
/-- inflation.py:614-622 and 784-792: the early check of the reheating branches. -/
noncomputable def badReheating (a : CalArgs) : Bool :=
  decide ((∃ d, a.DeltaN_reh = some d ∧ d < 0) ∨ ∃ w, a.w_reh = some w ∧ w < -1 / 3)

/-- inflation.py:627-691, the value of `DeltaN_minus1` subtracted from `N_end` (0 for instant
reheating), the new `DeltaN_reh`, and the attributes. -/
noncomputable def flatReh (I : Infl) (N_end0 : ℝ) (a : CalArgs) (st : Sticky) :
    Except PyErr (ℝ × Option ℝ × Sticky) :=
  match is_instant_reheating a.N_star a.rho_reh_GeV a.w_reh a.DeltaN_reh a.DeltaN_minus1 with
  | .error e => .error e
  | .ok true =>
    let rho := 3 / 2 * I.V_end
    .ok (N_end0, some 0,
      { st with DeltaN_reh := some (some 0), w_reh := some (some (1 / 3)),
                DeltaN_minus1 := some (some 0), rho_reh_mp4 := some (some rho),
                rho_reh_GeV := some (some (toGeV u rho)) })
  | .ok false =>
    match a.DeltaN_minus1 with
    | some dm1 =>
      if a.w_reh.isSome || a.DeltaN_reh.isSome then .error (.notImplemented "DeltaN_minus1 with w_reh")
      else match a.rho_reh_GeV with
        | some rho =>
          let N_reh := 0 - logg a.g_th + log (3 / 2 * u.T_CMB_Tp ^ 4 / toPlanck u rho) / 4
          let dN := N_reh - (N_end0 - dm1)
          .ok (N_end0 - dm1, some dN,
            { st with DeltaN_minus1 := some (some dm1), rho_reh_GeV := some (some rho),
                      rho_reh_mp4 := some (some (toPlanck u rho)), DeltaN_reh := some (some dN),
                      w_reh := some ((BB.fdiv (log (3 / 2 * I.V_end / toPlanck u rho))
                        (3 * dN)).map (· - 1)) })
        | none =>
          .ok (N_end0 - dm1, none,
            { st with DeltaN_minus1 := some (some dm1), rho_reh_GeV := some none,
                      rho_reh_mp4 := some none, w_reh := some none, DeltaN_reh := some none })
    | none =>
      match a.w_reh, a.DeltaN_reh, a.rho_reh_GeV with
      | some w, some dN, none =>
        let dm1 := dN / 4 * (1 - 3 * w)
        let rho := 3 / 2 * I.V_end * exp (-3 * (1 + w) * dN)
        .ok (N_end0 - dm1, some dN,
          { st with w_reh := some (some w), DeltaN_reh := some (some dN),
                    DeltaN_minus1 := some (some dm1), rho_reh_mp4 := some (some rho),
                    rho_reh_GeV := some (some (toGeV u rho)) })
      | some w, none, some rho =>
        let dN := log (3 / 2 * I.V_end / toPlanck u rho) / (3 * (1 + w))
        let dm1 := dN / 4 * (1 - 3 * w)
        .ok (N_end0 - dm1, some dN,
          { st with w_reh := some (some w), rho_reh_GeV := some (some rho),
                    rho_reh_mp4 := some (some (toPlanck u rho)), DeltaN_reh := some (some dN),
                    DeltaN_minus1 := some (some dm1) })
      | _, _, _ => .error (.valueError "Something in the reheating setup went wrong")

open Classical in
/-- inflation.py:613-703, flat universe, `calibration_method='reheating'`; `N0 = 0`.  Without start and
end of inflation everything is NaN (the raise statements of the same branch still apply) until the
missing `inflation_mask` is read. -/
noncomputable def flatReheating (s : CalState) (a : CalArgs) :
    Except PyErr (ℝ × ℝ × ℝ × ℝ × Option ℝ × Infl × Sticky) :=
  if badReheating a then .error (.valueError "DeltaN_reh must be positive")
  else match s.infl with
    | none =>
      match flatReh u ⟨0, 0, 0, 0, 0, 0, 0, []⟩ 0 a s.sticky with
      | .error e => .error e
      | .ok _ => .error (.attributeError "inflation_mask")
    | some I =>
      let N_end0 := 0 - logg a.g_th - log (I.V_end / u.T_CMB_Tp ^ 4) / 4
      match flatReh u I N_end0 a s.sticky with
      | .error e => .error e
      | .ok (N_end, dN, st) =>
        let delta := N_end - I.N_end
        let logaH_star := 0 + log u.K_STAR_lp - delta
        if logaH_star < I.logaH_beg ∨ I.logaH_end < logaH_star then
          .error (.insufficientInflation "Pivot scale not within range")
        else match interpL (maskSel s.logaH I.mask) (maskSel s.N I.mask) logaH_star with
          | .error e => .error e
          | .ok N_cross =>
            .ok (I.N_end - N_cross, N_cross, logaH_star, delta, dN.map (I.N_end + ·), I, st)

open Classical in
/-- inflation.py:711-723: copying the calibration of a given background. -/
noncomputable def flatBackground (s : CalState) (a : CalArgs) (b : Background) :
    Except PyErr (ℝ × ℝ × ℝ × ℝ × Option ℝ × Infl × Sticky) :=
  match a.N_star with
  | none => .error (.valueError "matching N_star>0")
  | some N_star =>
    if N_star ≤ 0 ∨ N_star ≠ b.N_star then .error (.valueError "matching N_star>0")
    else match s.infl with
      | none => .error (.attributeError "inflation_mask")
      | some I =>
        .ok (b.N_star, b.N_cross_, b.logaH_star, b.delta_N_calib, b.N_reh_,
          { I with N_end := b.N_end }, s.sticky)

/-- inflation.py:544-723: dispatch on background and method for flat universes. -/
noncomputable def flatSel (s : CalState) (a : CalArgs) :
    Except PyErr (ℝ × ℝ × ℝ × ℝ × Option ℝ × Infl × Sticky) :=
  match a.background with
  | some b => flatBackground s a b
  | none =>
    if a.method = "N_star" then flatNstar u s a
    else if a.method = "reheating" then flatReheating u s a
    else .error (.notImplemented "Unknown calibration_method")

open Classical in
/-- inflation.py:536-729, flat universes. -/
noncomputable def flat (s : CalState) (a : CalArgs) : Except PyErr Part :=
  if ∃ Ω, a.Omega_K0 = some Ω ∧ Ω ≠ 0 then .error (.valueError "For flat universes Omega_K0 must be 0")
  else
    match flatSel u s a with
    | .error e => .error e
    | .ok (N_star, N_cross_, logaH_star, delta, N_reh_, I, st) =>
      let logk := s.logaH.map fun l => l + log SI.K_STAR - logaH_star
      let mask := andMask I.mask (firstOccurrence logk)
      .ok { a0 := 1, N0 := 0, Omega_K0 := 0, a0_Mpc := exp logaH_star / SI.K_STAR, N_star := N_star,
            N_cross_ := N_cross_, logaH_star := logaH_star, delta_N_calib := delta,
            N_reh_ := N_reh_, infl := { I with mask := mask }, logk := maskSel logk mask,
            sticky := st }

open Classical in
/-- inflation.py:742-778, curved, `calibration_method='Omega_K0'`: `Omega_K0`, `a0_Mpc`, `a0`, `N0`,
`_N_reh` and attributes. -/
noncomputable def curvedOmega (s : CalState) (a : CalArgs) (h : ℝ) :
    Except PyErr (ℝ × ℝ × ℝ × ℝ × Option ℝ × Sticky) :=
  match a.Omega_K0 with
  | none => .error (.valueError "Omega_K0!=0 must be given")
  | some Ω =>
    if Ω = 0 then .error (.valueError "Omega_K0!=0 must be given")
    else if (SignType.sign Ω : ℝ) ≠ -s.K then .error (.valueError "The global geometry needs to match")
    else
      let a0_Mpc := u.c / (h * 100 * 1000) * √(-s.K / Ω)
      let a0 := a0_Mpc * u.Mpc_m / u.lp_m
      let N0 := log a0
      match a.rho_reh_GeV with
      | none =>
        .ok (Ω, a0_Mpc, a0, N0, none,
          { s.sticky with rho_reh_GeV := some none, w_reh := some none, DeltaN_reh := some none,
                          DeltaN_minus1 := some none })
      | some rho =>
        let N_reh_ := N0 - logg a.g_th + log (3 / 2 * u.T_CMB_Tp ^ 4 / toPlanck u rho) / 4
        let dN : Option ℝ := s.infl.map fun I => N_reh_ - I.N_end
        let w : Option ℝ := s.infl.bind fun I => dN.bind fun d =>
          (BB.fdiv (log (3 / 2 * I.V_end / toPlanck u rho)) (3 * d)).map (· - 1)
        .ok (Ω, a0_Mpc, a0, N0, some N_reh_,
          { s.sticky with rho_reh_GeV := some (some rho), rho_reh_mp4 := some (some (toPlanck u rho)),
                          DeltaN_reh := some dN, w_reh := some w,
                          DeltaN_minus1 := some (dN.bind fun d => w.map fun w => d / 4 * (1 - 3 * w)) })

/-- inflation.py:794-831, curved: the new `N0`, `_N_reh` and attributes. -/
noncomputable def curvedReh (I : Infl) (N00 : ℝ) (a : CalArgs) (st : Sticky) :
    Except PyErr (ℝ × ℝ × Sticky) :=
  match is_instant_reheating a.N_star a.rho_reh_GeV a.w_reh a.DeltaN_reh a.DeltaN_minus1 with
  | .error e => .error e
  | .ok true =>
    let rho := 3 / 2 * I.V_end
    .ok (N00, I.N_end,
      { st with DeltaN_reh := some (some 0), w_reh := some (some (1 / 3)),
                DeltaN_minus1 := some (some 0), rho_reh_mp4 := some (some rho),
                rho_reh_GeV := some (some (toGeV u rho)) })
  | .ok false =>
    match a.w_reh, a.DeltaN_reh, a.rho_reh_GeV with
    | some w, some dN, none =>
      let dm1 := dN / 4 * (1 - 3 * w)
      let rho := 3 / 2 * I.V_end * exp (-3 * (1 + w) * dN)
      .ok (N00 + dm1, I.N_end + dN,
        { st with w_reh := some (some w), DeltaN_reh := some (some dN),
                  DeltaN_minus1 := some (some dm1), rho_reh_mp4 := some (some rho),
                  rho_reh_GeV := some (some (toGeV u rho)) })
    | some w, none, some rho =>
      let dN := -(1 + w) / 3 * log (2 / 3 * toPlanck u rho / I.V_end)
      let dm1 := dN / 4 * (1 - 3 * w)
      .ok (N00 + dm1, I.N_end + dN,
        { st with w_reh := some (some w), rho_reh_GeV := some (some rho),
                  rho_reh_mp4 := some (some (toPlanck u rho)), DeltaN_reh := some (some dN),
                  DeltaN_minus1 := some (some dm1) })
    | _, _, _ => .error (.valueError "Something in the reheating setup went wrong")

open Classical in
/-- inflation.py:780-835, curved, `calibration_method='reheating'`. -/
noncomputable def curvedReheating (s : CalState) (a : CalArgs) (h : ℝ) :
    Except PyErr (ℝ × ℝ × ℝ × ℝ × Option ℝ × Sticky) :=
  if a.Omega_K0.isSome then .error (.valueError "Omega_K0 must be None")
  else if badReheating a then .error (.valueError "DeltaN_reh must be positive")
  else match s.infl with
    | none =>
      match curvedReh u ⟨0, 0, 0, 0, 0, 0, 0, []⟩ 0 a s.sticky with
      | .error e => .error e
      | .ok _ => .error (.attributeError "inflation_mask")
    | some I =>
      let N00 := I.N_end + logg a.g_th + log (I.V_end / u.T_CMB_Tp ^ 4) / 4
      match curvedReh u I N00 a s.sticky with
      | .error e => .error e
      | .ok (N0, N_reh_, st) =>
        let a0 := exp N0
        let a0_Mpc := a0 * u.lp_m / u.Mpc_m
        .ok (-s.K * u.c ^ 2 / (a0_Mpc * h * 100 * 1000) ^ 2, a0_Mpc, a0, N0, some N_reh_, st)

/-- inflation.py:742-842: dispatch on the method for curved universes. -/
noncomputable def curvedSel (s : CalState) (a : CalArgs) (h : ℝ) :
    Except PyErr (ℝ × ℝ × ℝ × ℝ × Option ℝ × Sticky) :=
  if a.method = "Omega_K0" then curvedOmega u s a h
  else if a.method = "reheating" then curvedReheating u s a h
  else .error (.notImplemented "Unknown calibration_method")

open Classical in
/-- inflation.py:731-859, curved universes. -/
noncomputable def curved (s : CalState) (a : CalArgs) : Except PyErr Part :=
  if a.N_star.isSome then .error (.valueError "N_star should be a derived parameter")
  else match a.h with
    | none => .error (.valueError "little h>0 must be provided")
    | some h =>
      if h ≤ 0 then .error (.valueError "little h>0 must be provided")
      else
        match curvedSel u s a h with
        | .error e => .error e
        | .ok (Ω, a0_Mpc, a0, N0, N_reh_, st) =>
          match s.infl with
          | none => .error (.attributeError "inflation_mask")
          | some I =>
            let logk := s.logaH.map fun l => l - log a0_Mpc
            let mask := andMask I.mask (firstOccurrence logk)
            let lk := maskSel logk mask
            if lk = [] then .error (.valueError "zero-size array")
            else if (∀ x ∈ lk, log SI.K_STAR < x) ∨ ∀ x ∈ lk, x < log SI.K_STAR then
              .error (.insufficientInflation "Pivot scale not within range")
            else match interpL lk (maskSel s.N mask) (log SI.K_STAR) with
              | .error e => .error e
              | .ok N_cross =>
                .ok { a0 := a0, N0 := N0, Omega_K0 := Ω, a0_Mpc := a0_Mpc,
                      N_star := I.N_end - N_cross, N_cross_ := N_cross,
                      logaH_star := log (SI.K_STAR * a0_Mpc), delta_N_calib := 0,
                      N_reh_ := N_reh_, infl := { I with mask := mask }, logk := lk, sticky := st }

open Classical in
/-- inflation.py:846-866, both geometries. -/
noncomputable def finish (s : CalState) (copied : Bool) (p : Part) : CalState :=
  let N := s.N.map (· + p.delta_N_calib)
  let N_end := p.infl.N_end + p.delta_N_calib
  let N_beg := p.infl.N_beg + p.delta_N_calib
  let N_cross := p.N_cross_ + p.delta_N_calib
  let N_reh := p.N_reh_.map (· + p.delta_N_calib)
  { s with
    infl := some p.infl
    sticky := p.sticky
    cal := some
      { a0 := p.a0, N0 := p.N0, Omega_K0 := p.Omega_K0, a0_Mpc := p.a0_Mpc, N_star := p.N_star,
        N_cross_ := p.N_cross_, logaH_star := p.logaH_star, delta_N_calib := p.delta_N_calib,
        N_reh_ := p.N_reh_, logk := p.logk, N := N, N_beg := N_beg, N_end := N_end, N_reh := N_reh,
        N_cross := N_cross, N_dagg := N_cross - N_beg, k_iMpc := p.logk.map exp,
        k := (maskSel s.logaH p.infl.mask).map exp,
        cHH_Mpc := List.zipWith (fun n h => p.a0 / (exp n * h) * u.lp_m / u.Mpc_m) N s.H,
        cHH_end_Mpc := p.a0 / (exp N_end * p.infl.H_end) * u.lp_m / u.Mpc_m,
        warning :=
          if copied then 0
          else if ∃ d, p.sticky.DeltaN_reh = some (some d) ∧ d < 0 then 1
          else if ∃ n, N_reh = some n ∧ p.N0 < n then 2 else 0 } }

open Classical in
/-- inflation.py:464-866 `calibrate_scale_factor`. -/
noncomputable def calibrate (s : CalState) (a : CalArgs) : Except PyErr CalState :=
  if s.K = 0 then
    match flat u s a with
    | .error e => .error e
    | .ok p => .ok (finish u s a.background.isSome p)
  else
    match curved u s a with
    | .error e => .error e
    | .ok p => .ok (finish u s a.background.isSome p)

end Cal
end Primpy
