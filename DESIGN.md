# DESIGN

Formal model of lukashergt/primpy in Lean 4 (`/verif/lean`), Mathlib imported one module at a time.

## Conventions

* `Verif/Model/*` transcribes the Python, each definition citing file and lines.
* `Verif/Spec/*` holds the small independent specifications.
* `Verif/Props/*` holds the property theorems (name starts with the property id), each with `example`s showing the hypotheses are met by a concrete non-trivial case.
* Floats are modelled by exact reals; NaN by `none`; exceptions by `Except`.

## Trusted base

1. **Lean 4.33.0's kernel** accepts every theorem. No `native_decide`, `bv_decide`, no axioms of our own. `#print axioms` of every theorem of the manifest is a subset of `propext`, `Classical.choice`, `Quot.sound` (vcheck audits this).
2. **The transcription** `Verif/Model/*` ↔ `/repo`. It was made by reading; each definition cites file and lines so that it can be compared side by side. Nothing was executed.
3. **Reals for floats.** All arithmetic is exact. Overflow, underflow, rounding, cancellation, signed zero and the difference between `inf` and `nan` are not modelled (both non-finite results are `none` where the code can produce them, `Option ℝ`). A statement "equal" therefore means equal up to rounding of the Python code.
4. **External routines** enter as parameters of the model with the contract written as a hypothesis of the theorem that needs it (and an example showing that the contract is satisfiable):

| routine | model | contract used |
|---|---|---|
| `scipy.optimize.root_scalar(bracket)` | `RootScalar`, `Shooting.Oracles.root`, `solver` of `setNs` | `RootContract`: returns a root for a sign change of a continuous function, raises for equal strict signs (Brent's method to tolerance is idealised to an exact root); `setNs`: any points evaluated, any root |
| `scipy.integrate.solve_ivp` | trajectories `y : ℝ → ℕ → ℝ` with `HasDerivAt` equal to `__call__` (C14–C20, C49); or an arbitrary grid with arbitrary states (C22, C25, C31, calibration) | exact solution in the first case, nothing in the second; C96 drops exactness and assumes only that the errors of all steps add up to `δ` |
| event location of scipy | `scipyActive`: the documented sign rule | — |
| `scipy.interpolate.interp1d` | transcribed (`interp1d`, `interpL`): sort, locate, chord, `ValueError` outside | — |
| `InterpolatedUnivariateSpline` | arbitrary function of data and keyword arguments | nothing (C40); `iteratedDeriv` for `.derivatives` (C41) |
| `scipy.integrate.quad` | exact interval integral | — |
| `scipy.special.lambertw(k=-1)` | `W` | `W x * exp (W x) = x`, `W x ≤ -1` |
| `pyoscode.solve` | arbitrary `Oscode` | linear in the initial data where C48 needs it; nothing elsewhere |
| `np.unique`, `np.nanmedian`, `np.argwhere`, boolean masks | transcribed on lists | — |
| `packaging.version.parse` | `Parser` | `Faithful` (round trip on release numbers) |
| CODATA constants | `SI` | positive |
| cobaya | the dictionary of sampled parameters; `Backend` for the primpy calls of the wrapper | nothing |

5. **Not modelled**: plotting/`__repr__`/docstrings, `vwarn` text, warnings filters, what `scipy` does with its options (that `solve` hands `rtol`, `atol`, `method`, … over is modelled, C90), packaging metadata, CLASS/CAMB interface of the cobaya wrapper beyond `calculate`'s arrays, aliasing of numpy arrays (each attribute is a value), and threads.

## Which files are modelled

| /repo | model |
|---|---|
| primpy/potentials.py | Potentials, PotentialInit, PotentialCtor, PotentialFlow (all classes and all numerical methods; deprecated `phi2efolds`; `get_potential_name`-style strings are not) |
| primpy/equations.py, solver.py | Equations, Solution, Solver |
| primpy/inflation.py | InflationSol (407-462), Calibration (463-866), ApproxPower (872-1540), PowerSol (set_ns, derive_approx_power), SpectraSol (slow-roll parameters from the arrays) |
| primpy/time/inflation.py, efolds/inflation.py | Background |
| primpy/events.py | Events |
| primpy/initialconditions.py | InitialConditions, Shooting, ShootingSolve |
| primpy/bigbang.py, reheating.py, units.py, parameters.py | BigBang, Reheating, Units |
| primpy/perturbations.py, time/perturbations.py, efolds/perturbations.py, oscode_solver.py | Perturbations, PertSol (what is read from the object returned by `solve` and calibrated) |
| primpy/exceptionhandling.py | error constructors `PyErr`; texts of the two warnings that are selected by event keys (InflationSol) |
| cobaya_wrapper/*.py | Wrapper, WrapperFull, WrapperRun |
| bin/*.py, .github/workflows/check_version.py | Version |

## Findings (each is a theorem, not only a remark, where a name is given)

1. Cosmic time `get_d3phi` omits `-3 K e^{-2N} φ'`: C14, C16, C51 (`HD` frequency).
2. Curved `calibration_method='reheating'` with `w_reh` + `rho_reh_GeV`: wrong `DeltaN_reh` (`C35_curved_w_rho_iff`, `C35_curved_w_rho_false`).
3. The start-of-inflation warning looks for keys `Inflation_dir+1_…` that are never produced; terminal start events are not used (C24).
4. Feature potentials inherit `d4V`, `get_epsilon_*V`, `phi_end` from the featureless base (C02).
5. Spectrum caches are not invalidated by a new calibration (`C40_stale`), unknown methods answer with the last spectrum (`C40_unknown_history`).
6. `drop_closed_large_scales` only touches `P_s_RST` (C54).
7. Wrapper: spurious factor 1/3 in the end-of-inflation density (`C59_instant_rejected`); `w_reh` ignored without `rho_reh_GeV`, `N_star` drifts over passes (C58); feature classes crash without `n_t`… (`C57_feature_crash`).
8. Registering a variable name twice destroys uniqueness of row numbers (C21).
9. Flat `calibrate_scale_factor` is not idempotent (`C38_not_idempotent`), stale attributes after recalibration (C39).
10. `N_star ≤ N_tot` may still end in `ValueError` (C34).
11. The no-Big-Bang error is conservative and a recollapse can go unnoticed (C43, C44).
12. `np.nanmedian` makes the spectrum basis-dependent unless the mode is frozen (`C48_not_frozen`).
13. Version numbers are compared as strings for pre-releases (C60).
14. `get_epsilon_3`, `get_epsilon_4` are one and two orders less accurate than `get_epsilon_1`, `get_epsilon_2` (`C13_epsilon_3_not_third_order`, `C13_epsilon_4_not_second_order`).
15. `DoubleWellPotential.sr_N2phi` is exact only at the nodes of its table (`C07_doublewell_partial` bounds the error).
16. ARBDS's coefficients are pivot-consistent for `k_* = -1/η` only; the code evaluates them with `k_* = aH`, so order 3 drifts at third order (`C71_third_order_drift`); the second-order mismatch with STE/CGS (C55) is entirely this (`C72_second_order`).
17. The third-order versions of CGS and ARBDS disagree at third order (`C72_third_order_gap`): CGS replaces `ln(aH|η|)` by `ε₁`, ARBDS uses `7ζ(3)/3` uniformly.
18. CGS of order 3 exceeds the exact power-law spectrum by `ε³` (`C73_CGS3_powerLaw`), so it is no better than order 2 there.
19. A backward integration never marks a point as inflating (event directions follow the integration), `N_tot < 0`, and the documented `background=` calibration of such a run yields empty `logk`, `k_iMpc`, `_k` (`C78_backward_time`, `C78_backward_efolds`, `C78_no_modes`).
20. `conformal_time_ratio` mixes the uncalibrated `_N_end` and `eta` with the calibrated `a0 = 1` in flat universes, so that the result depends on the arbitrary `N_i` and can take arbitrarily large values (`C81_flat_arbitrary`); it also takes the last grid point, not the end of inflation, as upper limit if the run goes on after inflation.
21. `solve(ic, *args)` documents that positional arguments are handed to `solve_ivp`, but any of them is a TypeError, since `method` is also passed by keyword (`C90_errors`).

## Plan per property

* **C01 Potential derivative chain** — `Model/Potentials*.lean` transcribes each class; per class four `HasDerivAt` theorems on the exact domain of the formula; rpow/zpow semantics of numpy `**` via `Real.rpow` with a domain predicate.
* **C02 Feature potentials: derivative chain** — Generic product-rule theorem for `FeaturePotential` over any base chain and any feature chain, instantiated for both shipped classes; the d4V part is disproved by a witness.
* **C03 Potential slow-roll hierarchy** — Independent spec: `IsSlowRollHierarchy V dV e1 e2 e3 e4`; proved per class with `HasDerivAt` of each e_n.
* **C04 inv_V inverts V** — Two round-trip equations per class.
* **C05 phi_end is the end of slow-roll** — Closed forms by algebra; root finder as an oracle: IVT gives existence of the sign change, strict monotonicity gives uniqueness.
* **C06 Slow-roll e-fold count** — `HasDerivAt sr_phi2N (V/dV)` and value 0 at phi_end.
* **C07 sr_N2phi inverts sr_phi2N** — Round trips per class; Lambert-W branch as an oracle satisfying `w*exp w = x, w <= -1`; DoubleWell interpolation: exact at grid nodes (partial).
* **C08 n_s / r / N_star slow-roll relations are mutually inverse** — Algebraic round trips with explicit ranges.
* **C09 Amplitude normalisation of the potential** — Algebra over an abstract potential with V proportional to Lambda^4; plus per class scaling lemma.
* **C10 Constructor decision table of a potential** — Keyword dictionary as an association list; decision table as a function to `Except`.
* **C11 sr_Nstar2r is 16 epsilon_1V** — Algebra.
* **C12 Monomial subclasses are the monomial with fixed exponent** — Equality of functions, with the exact points where it fails.
* **C13 Hubble-flow from potential slow-roll expansion** — Trajectory with an infinite Hubble-flow hierarchy; exact rational relations between ε_iV and ε_i; uniform `O(δ⁴)` bounds from polynomial identities generated by `tools/c13`; the missing ε₅V terms are exhibited by negative theorems.
* **C14 Cosmic-time background derivatives** — Trajectory = functions with `HasDerivAt` given by `__call__`; chain rule; counterexample for K != 0.
* **C15 E-fold background derivatives** — Same for e-folds.
* **C16 Time and e-fold formulations agree** — Algebra on states.
* **C17 Inflating criterion** — Algebra on states + derivative of exp N twice along a trajectory.
* **C18 Hubble-flow parameters** — Chain rule on trajectories.
* **C19 Right-hand sides describe the same flow** — Composition of trajectories with `HasDerivAt` of inverse reparametrisation; Friedmann constraint preserved.
* **C20 Monotonicity of the background** — Mean value theorem (`strictMonoOn_of_deriv_pos`, `antitoneOn`).
* **C21 Variable registration** — `idx` as association list with Python dict semantics; induction on call histories.
* **C22 Solution post-processing** — `sol` as finite map; induction on the idx list.
* **C23 Event functions vanish exactly at their event** — Direct sign/zero characterisations.
* **C24 Event keys are found again** — Model of the `%d` formatting; keys as strings; negative theorems for the broken lookups.
* **C25 Start/end of inflation bookkeeping** — NaN as `none`; case analysis on event lists; masks as list filters.
* **C26 Initial conditions fill the state** — y0 as a partial array; every registered index written.
* **C27 N_i and Omega_Ki are interchangeable** — Algebra with exp/log.
* **C28 InflationStartIC starts at the start of inflation** — Algebra.
* **C29 SlowRollIC velocity** — Algebra.
* **C30 Initial-condition error table** — Decision table over `Except`.
* **C31 Shooting objectives** — Shooting as `root_scalar` oracle contract + deterministic inner solve.
* **C32 is_instant_reheating decision table** — Decision table.
* **C33 Calibration error table** — Decision table.
* **C34 Flat N_star calibration** — Algebra on the calibration function.
* **C35 Reheating calibration** — Algebra + entropy bookkeeping; curved violation with witness.
* **C36 N_star and reheating calibration are inverse to each other** — Round trip; interpolation oracle as strictly monotone bijection, and piecewise-linear model.
* **C37 Omega_K0 and a0 are interchangeable** — Algebra.
* **C38 Mode grid after calibration** — Lists; np.unique modelled on lists; idempotence as equality of states.
* **C39 Calibration history independence** — State machine of attributes; non-interference theorem, negation by witness.
* **C40 Spectrum caches** — State machine with caches; negation by witness, positive for fresh objects.
* **C41 set_ns consistency** — Derivative operators of a spline oracle.
* **C42 Standard-model Hubble function** — Algebra.
* **C43 No-Big-Bang criterion** — Cubic polynomial analysis.
* **C44 Recollapse criterion** — Cubic polynomial analysis.
* **C45 Comoving horizon and conformal time** — Interval-integral additivity and positivity.
* **C46 Reheating effective equation of state** — Algebra with exp/log.
* **C47 Vacuum matching coefficients** — 2x2 linear algebra over the complex numbers.
* **C48 Basis independence of the power spectrum** — Linear algebra.
* **C49 Mukhanov-Sasaki in t and N agree** — Algebra + chain rule.
* **C50 Flat Mukhanov-Sasaki is the standard equation** — Chain rule.
* **C51 Vacuum normalisation** — Complex algebra.
* **C52 Oscode integration range selection** — List search functions.
* **C53 Spectrum completely filled** — Loop as a fold over indices; invariant.
* **C54 Dropping closed large scales** — List map; negative theorem for the untouched arrays.
* **C55 Analytic spectra: leading order** — Exact polynomial identities and order bounds.
* **C56 Unit system** — Real algebra over abstract positive constants.
* **C57 Power-law primordial spectrum wrapper** — Algebra with exp/log.
* **C58 Amplitude shooting loop** — Loop with fuel = iteration budget; invariant.
* **C59 Reheating density threshold in the wrapper** — Algebra; negation.
* **C60 Version bumping** — Nat triples; case analysis.
* **C61 Deprecated phi2efolds agrees with sr_phi2N** — Equality of functions on the documented domain; assertion outside.
* **C62 Points of the dense output** — `linspace`/`logspace` modelled with real arithmetic; list predicate `IsGrid`; length of the dense spectra from a contract "one value per requested point" on the integrator.
* **C63 Matched mode unique** — Abel's identity with an integrating-factor weight (interval integral), giving constancy of the code's coefficients; uniqueness through two independent solutions; conserved commutators from the kinetic weights of C50/C51.
* **C64 Mode spectra scale with the potential** — two runs of the modelled mode pipeline, on a background and on its rescaling (`Bg.rescaled`); the integrator enters through a covariance contract (its answer in new units is the old answer in new units), shown satisfiable; scaling lemmas for every frequency, damping, vacuum and amplitude; then induction over the array of wavenumbers.
* **C65 Background solutions scale** — the mapped trajectory is shown to satisfy the modelled `__call__` of the rescaled equations (chain rule), event functions by cases, attributes by unfolding `sol`.
* **C66 Slow-roll spectra scale** — homogeneity of the derivative pipeline and of each slow-roll parameter; the spline enters through a shift-equivariance contract (met by linear interpolation), non-empty tables only.
* **C67 Initial conditions determine the background** — both right-hand sides are C¹ in the state where H²>0 (potential C² on an open field range); uniqueness on open connected sets by Mathlib's ODE uniqueness (Grönwall) plus a connectedness argument, local existence by Picard–Lindelöf, equivalence of the two formulations by re-parametrising the time run with the inverse of N(t) (C16) and applying e-fold uniqueness.
* **C68 Energy conditions and curvature** — algebra on the Friedmann constraint for w, ε₁, Ω_K at every state; energy conservation by differentiating along solutions; dilution of |Ω_K| from strict growth of log(aH) (C20); the stored attribute is tied to the density by C25.
* **C69 Shape of the potentials** — real analysis of each V (rpow, exp, cos, tanh) on the branch used by the code (`RisesFrom`), limits at infinity, symmetry; multiplicative bounds for features with an arbitrary base potential.
* **C70 Slow-roll wrapper end to end** — `calculate` composed from the loop of C58, the calibrations of C33–C39 and the spectra of C40–C41 (only the integration, the spline and the root finder stay oracles); the final solution is traced to its last calibration (`LastArgs`), then C35, C41 and C58 apply.
* **C71 Pivot independence** — a slow-roll history as functions of the e-fold number obeying `ε_n' = ε_n ε_{n+1}`; the prediction at fixed `ln k` is differentiated along it (chain rule, identities expanded by script and checked by `ring`), the derivative is `O(t^{n+1})`; exact third-order drift for `k_* = aH`.
* **C72 CGS against ARBDS** — order comparison (`IsBigO`) at `ln(k/k_*) = ln(aH|η|)`; explicit third-order gap; the relations hold for the code's parameters.
* **C73 Exactly solvable inflation** — independent specification `Spec/PowerLaw` (Gamma functions); expansion of `ln Γ(3/2+x)` to third order proved from Euler's product (`Lemmas/GammaExpansion`), third-order jets, comparison with each method's polynomial.
* **C74 Grid wavenumbers** — compose `calibrateP` (calibration, mask, `gridOf`, derive, caches) with the request: membership of `(log(aH/a0), params)` in the masked table at the same index, distinct abscissae from `np.unique`, interpolation contract of the spline.
* **C75 Freezing** — generic lemma: for `f'' + 2γf' + κ²w f = 0` the energy `|f'|²/w + κ²|f|²` has derivative `-(4γ + w'/w)|f'|²/w`; comparison theorem (`image_norm_le_of_norm_deriv_right_le_deriv_boundary'`) for the drift; instantiate with the model's frequency and damping in both formulations; the median of values in a ball lies in the ball, which carries the drift to the returned spectra. Flat only for curvature perturbations: with curvature the scalar frequency is not `κ²/a²` (it contains the damping term).
* **C76 Global existence** — `Lemmas/GlobalODE`: a `C¹` field on an open set whose solutions started at `v0` stay, up to any finite time `T`, in a compact subset depending on `T` has a solution for all later times (gluing by uniqueness, supremum of existence times, a compact set has a uniform step). The compact sets come from `Ḣ ≤ 0` (energy never grows) in cosmic time, and from `φ'² < 6` plus a positive lower bound of `V` on the reachable field range in e-folds. Counterexamples for the dropped hypotheses: `(a ȧ)' ≤ -2K` for closed universes with `V ≤ 0`; barrier arguments for the e-fold form of the quadratic potential.
* **C77 Reported phase = accelerating phase** — `Spec/Events`: faithful detection of sign changes of a function (sorted, sound, complete between points of opposite sign) as the contract of `solve_ivp`'s event handling; order arguments locate the first up- and down-crossings; C17 turns the sign of `inflating` into the sign of `ä`, C20 turns e-folds into time order, C25 connects the reported attributes with the events. Shown satisfiable by an exact solution that leaves inflation.
* **C78 Copied calibrations and backward integrations** — inversion of the successful copied calibration gives equality of the attributes and of entries with equal inputs; backward runs: the event contract of C77 in the reflected variable, so the first reported end precedes the reported beginning and the mask is identically false; then the model's calibration is evaluated on such a state.  Example: kinetic domination before a cosmological constant, `a³ = sinh 3t`, integrated backwards.
* **C79 Field excursion (Lyth bound)** — Cauchy's mean value theorem for `(N, φ)` along a solution; `2H²ε₁ = φ̇² − 2K/a²` from the code's `get_epsilon_1H(get_dH)`, `Pt0/Ps0 = 16 ε₁` (C55), and the Friedmann constraint for the potential-independent bounds.
* **C80 Attractor** — two solutions of the modelled background right-hand sides (`InflT.call`, `InflN.call`, K=0) are matched by field value (inverse function theorem for monotone functions); the difference of their Hubble rates obeys a linear equation whose coefficient is bounded below by 3H, giving sign preservation, the e^{-3ΔN} decay and the comparison of e-folds. `Lemmas/Attractor.lean` (bare functions, any time variable), `Props/C80.lean`. Non-vacuity: two exact kinetically dominated solutions in a constant potential.
* **C81 Horizon problem** — `conformal_time_ratio` (BigBang model) applied to the `eta` rows of solutions of `InflT.call`/`InflN.call`; fundamental theorem of calculus for the tracked row, C45 for the time after inflation; flat case: shift symmetry of the equations (C65 with s = 1) and continuity of the standard-model integrand near today.
* **C82 Exact power-law spectra** — mode functions of the Hankel type as Laplace integrals (Lemmas/Hankel: equation, late-time constant `Γ(2m+1)/(2^m Γ(m+1))`, vacuum limit); on a constant-slope trajectory the code's frequency and damping give this equation; the vacua k, HD, RST converge to the positive-frequency solution; `solveOscode1` (Perturbations model) with an integrator whose samples are exact; Legendre duplication gives the closed form of `Spec/PowerLaw`. Examples: for every slope an actual run meets the hypotheses.
* **C83 Numerical against slow-roll spectra** — C82 combined with the expansions of C73 (uniform constants over the list of methods); ratio and tilt from C82 at two wavenumbers.
* **C84 Slow-roll spectra on every slow-roll background** — write the rescaled mode `z R` and its derivative against the de Sitter mode function in the clock `x = k/aH`; energy estimates before and after crossing bound the difference by a constant times `δ` (no special functions); frequency, damping and the six vacua of the code are computed from `IsSlowRoll` alone (Spec/SlowRoll.lean). Constants are explicit but large (`slowP ≈ 5·10⁷`): the content is the linear dependence on `δ`.
* **C85 Flat potentials give slow-roll backgrounds** — the ratio of the velocity to its slow-roll value `-V'/V` obeys a first-order equation with a restoring term `-3(w)`; a barrier argument (first time the deviation leaves the band, forwards; continuity, slightly backwards) bounds it by `δ/32` on every interval on which the field stays in the flat region; the flow parameters are algebraic in it. `IsSlowRollPotential` is a separate spec; `SlowRollIC` is shown to start inside the band.
* **C86 E-fold count** — `d/dN sr_phi2N(φ(N))` is `-(3-ε₁)/(3-ε₁+ε₂/2)` within `δ/5` of `-1`, mean-value comparison; that the target is reached comes from a lower bound on the slope on a compact interval and a first-exit argument; for Quadratic and Starobinsky combined with global existence (C76).
* **C87 Amplitudes from the potential** — C84 plus exact algebra `V = H²(3-ε₁)`, `ε₁V = ε₁((3-ε₁+ε₂/2)/(3-ε₁))²`; `sr_As2Lambda` through C09.
* **C88 End to end** — composition of C09, C76, C85-C87 plus existence of exact mode integrations: linear second-order equations with continuous coefficients have solutions on a whole interval (`Lemmas/LinearODE.lean`: Picard-Lindelöf for the cut-off field, energy bound removes the cut-off); `ln aH` grows by at least `(1-δ)` per e-fold, so `30 + 2 ln(1/δ)` e-folds suffice on either side of the crossing.
* **C89 Constructors** — `Model/PotentialCtor.lean`: `__init__` of all fifteen classes as functions of a keyword dictionary (pops, `p=` forwarding, method resolution of the feature classes); one characterisation of success (`construct_iff`), from which acceptance, round trip and amplitude follow; order independence by congruence.
* **C90 solve** — `Model/Solver.lean`: `solve` itself, with `solve_ivp` an oracle from a record of what it is handed, and `InflationEquations.sol` on the attribute dictionary (each attribute looked up where the code looks it up, lookups may fail). Lemma `inflationSolB_eq`: on every answer of scipy's shape this equals the earlier model `inflationSol` on one list of grid points and events; composition with C22, C25, C26, C77.
* **C91 independence; ISIC_Nt through solve** — `Model/ShootingSolve.lean`: `ISIC_Nt` with its objective calling the model of `solve` and reading the attributes of the returned object. `Run` (spec): a scipy answer that samples a solution of the equations from the requested state and records events faithfully. Uniqueness of trajectories (C67) makes the first recorded sign changes of two runs coincide; the objective vanishes only through its first branch. Non-vacuity: an exact solution `H = φ exp(φ²/18)` that starts on the boundary of inflation (`Lemmas/ExactStart.lean`), shot for `N_tot = (9/4) log 2` through nested `solve`.
* **C92 the pivot scale after solve and calibration** — `C92_pivot` combines C90 (the object `solve` returns), C77 (its phase of inflation) and `Model/Calibration.lean` (every method except `background=`). Spec: `Eqs.efolds`, `Eqs.aH`, `Eqs.accel` of the trajectory. Strict growth of `N` (expansion) and of `aH` (acceleration) along the phase turn the two interpolations into brackets of the same grid cell (intermediate value theorem); the interpolation itself is proved from the sorted pairs scipy sees. Non-vacuity: the exact solution `φ = -2t` of `V = 3φ² - 2` on a four-point grid, calibrated with `N_star = 1`.
* **C93 ISIC_NsOk through solve** — `Model/ShootingSolve.lean`: `ISIC_NsOk` with its objective calling the models of `solve` and of `calibrate_scale_factor`. `C93_N_star` combines: a zero of the objective belongs to its calibration branch (`C93.inner`: the other branches return `N` at the `UntilN` bound, or `-N_star`, or raise); uniqueness of trajectories (C91) identifies nested and outer run; `C92_pivot` on both. Spec: `SameCell`. Non-vacuity: an open universe with scale factor `a(t) = 1 + 10 t - sin t`, whose potential is reconstructed from the expansion history (`Lemmas/Reconstruct.lean`: every smooth history with `K/a² - dH/dt > 0` solves the equations for some potential), inflating exactly on `[0, π]`; the shooting, both runs, and both calibrations are computed.
* **C94 slow-roll spectra of an integrated background** — `Model/SpectraSol.lean`: how inflation.py:910-940 (and its copies) builds the slow-roll parameters from the arrays of the solution. `C94_data` (the arrays are those of the trajectory, through `C90_solve`/`C90_others`), `C94.flow` (they are the derivatives they stand for: C14, C15, C18), then `C94_leading_order`, `C94_CGS`, `C94_STE`, `C94_LLMS`, `C94_ARBDS` through C74. Spec: `SlowRollAt` (derivatives), `ReportedPhase`, `FreshPoint`, `PivotParameters`. Not covered: in cosmic time with curvature, third-order parameters (get_d3phi defect, C14). Where scipy's `interp1d` at `_N_cross` would raise, the model has the value 0; `PivotParameters` shows this does not happen when the phase accelerates and `aH` takes no value twice.
* **C95 numerical spectra of an integrated background** — `Model/PertSol.lean` reads the background record of Model/Perturbations off the object returned by `solve` and completed by `calibrate_scale_factor`. `C95_background` (all attributes found, grid points are states of the trajectory, pivot), `C95_wavenumber` (1/Mpc), `C95_equations` (the integrator is handed the coefficients of the equation of gravitational waves and of the curvature perturbation, both specified by a weight `M` and a frequency in terms of the trajectory alone; any curvature, both formulations), `C95_leading_order`, `C95_CGS`, `C95_STE` (flat, slow roll: the numerical spectra agree with `P_s_approx`, `P_t_approx` of the same object; through C84 and C94; integrator exact on a window, as in C84). Not claimed: accuracy of an inexact integrator. Non-vacuity: exact solution H = -2t on a four-point grid for every T ≥ 6, with an exact integrator.
* **C96 inexact integrator** — `StepLog`/`InexactRun`: in each step the integrator follows a curve with residual `defect` and stores a state `jump j` away from its end; the total of all errors is `δ`. `Lemmas/Stable.lean`: a tube around a compact piece of trajectory on which the right-hand side is Lipschitz (C¹ by `C96.smooth`), Grönwall step by step without leaving the tube, so all stored states and event states are within `C δ`; the quantities are C¹ in the state, hence Lipschitz on the tube. The end of inflation: `EndsOnce` (simple zero of the acceleration), `|accel| ≥ m |x - xs|` bounds the distance of any recorded event. `C96_solve`, `C96_w`, `C96_end`, `C96_found`. Contract: detection of events by sign change on stored states (`scipyActive`), recorded events within `δ`. Nothing is assumed about the numerical method. Non-vacuity: a run with error exactly `δ` in its last step.
* **C97 constructed potentials** — C89 (`TakenFrom`) identifies the attributes with the keywords, `PotClass.formula` is an independent table of the fifteen documented formulas (natural-number powers where the class fixes the exponent); C01, C02 give the derivative chains on `PotClass.domain`; the amplitude combines C89_amplitude with the first slow-roll parameter of each class. Missing by nature: d4V and the slow-roll parameters of the feature classes (finding; refuted in C02, C03).
* **C98 textbook universe** — `Textbook` states the Friedmann and Klein-Gordon equations with `deriv V`, no code; uniqueness by Gronwall on the state `(φ, v, N)` (`ODE_solution_unique`, the right-hand side is C¹ for `H > 0`); the trajectories of both equations objects satisfy it (C05, C97), hence what `solve` returns (C90, C91) and the leading-order spectra (C94) are those of *the* textbook solution. Existence of the solution is an assumption (`Launched`), met by an explicitly constructed local solution in the examples (Picard-Lindelöf).
* **C99 when the chain succeeds** — exact characterisation of the success of `interp1d` on an increasing list (`interp_iff`), of the masks (`interpL_iff`), and of every other branch of `calibrate_scale_factor`, on top of `C99.state` (what the calibration reads of a solved run, from C94); `C99_delivers` gets the mask from C90_found. `C99_pipeline` assumes no intermediate object. Assumed: fitting the spline itself does not raise (the spline oracle is total; scipy needs at least `k+1` points).
* **C100 inflation ends** — `Caught` says, without code, that a field of energy density at most `E0` sits between two walls (fields where the potential is undefined, not positive or above `E0`) between which its logarithmic slope is at least `c`; `C100.bound`: in a flat textbook universe (C98) acceleration then lasts at most `2/3 + (4 + 6(b-a))/c` e-folds, by two barrier arguments on `w = v/√V` (it falls below `-c/6` within `2/3 + 4/c` e-folds and stays there) and the distance the field can travel; `C100_exit`, `C100_time` (cosmic time, `aH` does not fall), `C100_forever`; `C100_found`: `solve` finds that end, on C98 (`Launched`), C99 (`Watched`) and C77/C90, also if the recorded end stopped the run (`EndSeen`); `C100_global`: with C76, from the initial state to the end; `Caught` is proved, with explicit `c`, for the monomials, Starobinsky, natural, T-model, radion-gauge and double-well potentials (not for the two with features). Witness: `φ²` from rest at `φ = 20`, the run stopped by the terminal event.
* **C101 the Cobaya wrapper reports a textbook universe** — `Model/WrapperRun.lean` replaces the integration oracle of `Model/WrapperFull.lean` by the construction of the potential (C89), the equations, the two events, the initial condition and the modelled `solve`; left are scipy's `solve_ivp`, its `success` flag, the spline and the mode solver used by `set_ns`. `SlowRollUniverse` is the specification (textbook equations and slow-roll initial velocity, no code), `FaithfulRuns` the hypothesis on `solve_ivp` (what it returns as a success is `Launched`, C98). `C101_universe`: every stored result comes from one such universe; the stored `phi_end`, `V_end`, `H_end` are its values at the end of the acceleration, the stored spectra at the wavenumbers of grid points are the third-order slow-roll formula in its own parameters (with an interpolating spline), and the grid brackets the pivot crossing, `N_star` e-folds before the end; a sampled reheating density is at most `H²` (a third of the density, finding 7) at the last grid point of the phase. Proof: the wrapper loop leaves the solution of the last integration in a calibrated state (C70), that state is `solve`'s (C92–C94), and the run is the textbook universe (C98). Witness: `φ²` with `A_s`, `N_star` such that the first pass succeeds; the universe exists by C76, ends by C100, and `calculate` returns for all wavenumbers.
* **C102 reheating calibration of a flat universe from `solve`** — `Recipe` (the three ways to fix a history), `Recipe.History` (dilution law from 3V/2), `Thermalised` (entropy conservation, C35) and `Eqs.aHToday` are the specification; the state of `solve`'s object comes from C99, the branch of `calibrate_scale_factor` from C35, and `interp1d`'s demands from the strict growth of `aH` in the phase; `Bracketed` as in C99. Witness: the flat run of C99 with each kind of history.
* **C103 reheating calibration of a curved universe from `solve`** — as C102, but `N0` is solved for, the mask keeps first occurrences of `aH` (`FreshlyBracketed`, C99), and `Omega_K0` follows. `Recipe.Sound` excludes the histories for which the code is wrong (finding 2). Witness: the open universe of C99 with plasmas that make it succeed, and others that make it too short.
* **C104 one reheating history, one calibration** — `C104.Data` relates `w_reh`, `DeltaN_reh` and `rho_reh_GeV` of one history by the dilution law; the four ways of passing it are four `CalArgs`. The reheating branch is shown equal on them (including all attributes), hence `calibrateP` is. Witness: the universe of C102, five e-folds of matter.
