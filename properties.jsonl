{"id": "C01", "title": "Potential derivative chain", "statement": "For every potential class without features (Monomial, Linear, Quadratic, Cubic, Quartic, Starobinsky, Natural, DoubleWell, DoubleWell2, DoubleWell4, Tmodel, RadionGauge, RadionGauge2), dV, d2V, d3V and d4V are the first to fourth derivatives of V with respect to phi at every field value in the domain of the formula.", "quantifier": "all potential parameters, all Lambda, all field values in the (explicitly stated) domain of the formulas", "why_tests_cant": "tests compare with finite differences on a few sampled fields; a wrong coefficient that vanishes or is small at the samples survives", "anchors": ["primpy/potentials.py: *.V, *.dV, *.d2V, *.d3V, *.d4V"]}
{"id": "C02", "title": "Feature potentials: derivative chain", "statement": "For every potential with a Gaussian or tanh feature, dV, d2V and d3V are the successive derivatives of the featured V. (d4V is documented as the fourth derivative too, but the feature classes inherit the featureless d4V: that part of the claim is false whenever the feature has non-vanishing amplitude.)", "quantifier": "all base potentials, feature amplitudes, widths and positions, all fields", "why_tests_cant": "finite-difference tests sample a handful of fields; no test evaluates d4V of a feature potential", "anchors": ["primpy/potentials.py: FeatureFunction, GaussianFeature/TanhFeature mixins"]}
{"id": "C03", "title": "Potential slow-roll hierarchy", "statement": "get_epsilon_1V(phi) = (V'/V)^2/2 and get_epsilon_{n+1}V(phi) = -(V'/V) * d ln|epsilon_nV|/dphi for n = 1, 2, 3, for every featureless potential, i.e. the four returned numbers are consecutive members of one Hubble-flow-like hierarchy generated by V.", "quantifier": "all parameters, all fields where V, V' and the previous parameters do not vanish", "why_tests_cant": "closed forms are compared at a few points only; division of nearly vanishing terms hides wrong coefficients", "anchors": ["primpy/potentials.py: get_epsilon_1V, get_epsilon_2V, get_epsilon_3V, get_epsilon_4V"]}
{"id": "C04", "title": "inv_V inverts V", "statement": "On the branch of field values a model inflates on, V(inv_V(v)) = v and inv_V(V(phi)) = phi.", "quantifier": "all parameters, all potential values in the range of the branch, all fields on the branch", "why_tests_cant": "round-trip on sample points does not cover branch choices near the extrema", "anchors": ["primpy/potentials.py: *.inv_V"]}
{"id": "C05", "title": "phi_end is the end of slow-roll", "statement": "epsilon_1V equals 1 at phi_end, in every class with a closed form; for the classes that obtain phi_end by root finding, the bracket handed to the root finder always contains a sign change (so no exception), and the root in the bracket is unique.", "quantifier": "all parameters for which the class is defined", "why_tests_cant": "parameters are continuous; tests evaluate single values", "anchors": ["primpy/potentials.py: *.get_phi_end / phi_end, DoubleWell*.phi_end_squared"]}
{"id": "C06", "title": "Slow-roll e-fold count", "statement": "sr_phi2N(phi_end) = 0 and d sr_phi2N/dphi = V/V' with the sign that makes the count positive on the inflating side: sr_phi2N(phi) is the integral of V/V' from phi_end to phi.", "quantifier": "all parameters and fields on the inflating branch", "why_tests_cant": "numerical quadrature comparison in a unit test covers a single phi_end", "anchors": ["primpy/potentials.py: *.sr_phi2N"]}
{"id": "C07", "title": "sr_N2phi inverts sr_phi2N", "statement": "sr_N2phi(sr_phi2N(phi)) = phi for fields on the inflating branch and sr_phi2N(sr_N2phi(N)) = N for every admissible N >= 0.", "quantifier": "all parameters, all fields on the branch, all N >= 0 (for Lambert-W / root-finding based classes: for every oracle meeting its contract)", "why_tests_cant": "round trip at a few N does not exercise the branch choice of the inverse functions", "anchors": ["primpy/potentials.py: *.sr_N2phi"]}
{"id": "C08", "title": "n_s / r / N_star slow-roll relations are mutually inverse", "statement": "sr_Nstar2ns and sr_ns2Nstar, and sr_Nstar2r and sr_r2Nstar, are mutually inverse on the physical range.", "quantifier": "all parameters, all N_star > 0 and the corresponding n_s, r", "why_tests_cant": "tests use N_star in {50, 60}", "anchors": ["primpy/potentials.py: sr_Nstar2ns, sr_ns2Nstar, sr_Nstar2r, sr_r2Nstar"]}
{"id": "C09", "title": "Amplitude normalisation of the potential", "statement": "sr_As2Lambda returns (Lambda, phi_star, N_star) such that the leading slow-roll amplitude V/(24 pi^2 epsilon_1V) at phi_star equals A_s exactly, and phi_star, N_star, n_s, r do not depend on Lambda (everything slow-roll is scale-free in Lambda).", "quantifier": "all potentials, all A_s > 0, all N_star / phi_star / n_s specifications", "why_tests_cant": "amplitudes are compared with a tolerance at a few parameter points", "anchors": ["primpy/potentials.py: InflationaryPotential.sr_As2Lambda"]}
{"id": "C10", "title": "Constructor decision table of a potential", "statement": "Constructing a potential with Lambda stores it unchanged; with A_s and N_star (or phi_star) computes Lambda; missing required information leads to the documented error/behaviour; after construction with A_s the amplitude at phi_star is A_s.", "quantifier": "all subsets of keyword arguments and all values", "why_tests_cant": "combinatorial argument presence", "anchors": ["primpy/potentials.py: InflationaryPotential.__init__"]}
{"id": "C11", "title": "sr_Nstar2r is 16 epsilon_1V", "statement": "For the classes with an exact slow-roll trajectory (Monomial family, Natural) sr_Nstar2r(N) equals 16*epsilon_1V(sr_N2phi(N)).", "quantifier": "all parameters, all N > 0", "why_tests_cant": "tests use a tolerance at two values", "anchors": ["primpy/potentials.py: MonomialPotential.sr_Nstar2r, NaturalPotential.sr_Nstar2r"]}
{"id": "C12", "title": "Monomial subclasses are the monomial with fixed exponent", "statement": "LinearPotential, QuadraticPotential, CubicPotential and QuarticPotential give the same V, derivatives, inverse and slow-roll parameters as MonomialPotential(p=1,2,3,4).", "quantifier": "all fields (including zero and negative where defined), all Lambda", "why_tests_cant": "tests compare at a few fields, never at 0 or at negative fields for non-even exponents", "anchors": ["primpy/potentials.py: LinearPotential, QuadraticPotential, CubicPotential, QuarticPotential"]}
{"id": "C13", "title": "Hubble-flow from potential slow-roll expansion", "statement": "For every potential and every solution of the flat background equations, get_epsilon_1(phi) ... get_epsilon_4(phi) reproduce the true Hubble-flow parameters of that solution at the same instant with an error of higher order than the terms kept: if all flow parameters are at most delta (small), |get_epsilon_1 - epsilon_1| <= C delta^4 and |get_epsilon_2 - epsilon_2| <= C delta^4 with C independent of the potential, the solution and the time; get_epsilon_3 and get_epsilon_4 are expected to third and second order likewise, but the code replaces the fifth potential slow-roll parameter by zero and loses exactly that term.", "quantifier": "all potentials with a slow-roll hierarchy, all solutions of the flat background equations with a moving field, all times, all delta below a universal threshold", "why_tests_cant": "order-of-approximation claims are asymptotic and uniform over all potentials; a test only sees one number at one point", "anchors": ["primpy/potentials.py: get_epsilon_1, get_epsilon_2, get_epsilon_3, get_epsilon_4"]}
{"id": "C14", "title": "Cosmic-time background derivatives", "statement": "Along every solution of the cosmic-time equations of motion that satisfies the Friedmann constraint, get_dH, get_d2H, get_d3H, get_d2phi, get_d3phi, get_d4phi return the true time derivatives of H and phi. (For K != 0 get_d3phi and everything derived from it is wrong: it lacks the curvature contribution of dH/dt.)", "quantifier": "all potentials (smooth), all curvatures K, all trajectories, all times", "why_tests_cant": "tests compare T against N on a single flat trajectory", "anchors": ["primpy/time/inflation.py: InflationEquationsT.get_d2phi, get_d3phi, get_d4phi, get_dH, get_d2H, get_d3H"]}
{"id": "C15", "title": "E-fold background derivatives", "statement": "Along every solution of the e-fold equations of motion that satisfies the Friedmann constraint, get_dH, get_d2H, get_d3H, get_d2phi, get_d3phi, get_d4phi return the true N-derivatives of H and phi, for every curvature.", "quantifier": "all potentials, all K, all trajectories", "why_tests_cant": "same as above", "anchors": ["primpy/efolds/inflation.py: InflationEquationsN.get_*"]}
{"id": "C16", "title": "Time and e-fold formulations agree", "statement": "H2, dH (after conversion), epsilon_1..3/delta_1..3, w and the inflating criterion computed by InflationEquationsT at (phi, dphi/dt) and by InflationEquationsN at (phi, dphi/dN = dphi/dt / H) are equal.", "quantifier": "all states with H > 0, all K, all potentials", "why_tests_cant": "tests compare one numerical integration with a tolerance", "anchors": ["primpy/time/inflation.py: InflationEquationsT", "primpy/efolds/inflation.py: InflationEquationsN"]}
{"id": "C17", "title": "Inflating criterion", "statement": "The quantity `inflating` is positive exactly if w < -1/3, exactly if epsilon_1 < 1 corrected for curvature, i.e. exactly if the second time derivative of the scale factor is positive; in both formulations.", "quantifier": "all states, all K, all potentials", "why_tests_cant": "equivalence over a continuum", "anchors": ["primpy/time/inflation.py: inflating, w", "primpy/efolds/inflation.py: inflating, w"]}
{"id": "C18", "title": "Hubble-flow parameters", "statement": "get_epsilon_1H, get_epsilon_2H, get_epsilon_3H satisfy epsilon_1 = -dlnH/dN, epsilon_{n+1} = dln|epsilon_n|/dN along every trajectory; likewise the delta parameters relate to derivatives of phi as documented.", "quantifier": "all trajectories, potentials and curvatures for which the derivatives are right", "why_tests_cant": "asymptotic/continuous property", "anchors": ["primpy/time/inflation.py: get_epsilon_*H, get_delta_*", "primpy/efolds/inflation.py: get_epsilon_*H, get_delta_*"]}
{"id": "C19", "title": "Right-hand sides describe the same flow", "statement": "Reparametrising a solution of the cosmic-time right-hand side by N = ln a solves the e-fold right-hand side, including the tracked t and eta columns; the Friedmann constraint with the documented H2 is preserved; and both are the Klein-Gordon/Friedmann/Raychaudhuri equations.", "quantifier": "all trajectories, all K, all potentials, with and without tracking t and eta", "why_tests_cant": "tests run one numerical trajectory", "anchors": ["primpy/time/inflation.py: __call__", "primpy/efolds/inflation.py: __call__"]}
{"id": "C20", "title": "Monotonicity of the background", "statement": "While inflating, ln(aH) is strictly increasing along every trajectory (so horizon crossing is unique); H is non-increasing for K <= 0; N is strictly increasing with t while H > 0.", "quantifier": "all trajectories", "why_tests_cant": "trajectories are infinite objects", "anchors": ["primpy/time/inflation.py: __call__, inflating", "primpy/inflation.py: calibrate_scale_factor"]}
{"id": "C21", "title": "Variable registration", "statement": "After any sequence of add_variable calls with distinct names, idx is a bijection onto 0..n-1 in call order, and every accessor reads exactly its own row; re-adding a used name breaks that (two names share a row or a row becomes unreachable).", "quantifier": "all histories of add_variable calls, all y vectors", "why_tests_cant": "history-dependent", "anchors": ["primpy/equations.py: add_variable, _set_independent_variable, _add_variable, idx"]}
{"id": "C22", "title": "Solution post-processing", "statement": "Equations.sol renames the independent variable, exposes each row of y under its name, and maps every terminated/non-terminated event to its <name>_events arrays, for any set of registered variables and events.", "quantifier": "all registration histories, event lists, solutions", "why_tests_cant": "arbitrary histories", "anchors": ["primpy/equations.py: sol", "primpy/inflation.py: sol"]}
{"id": "C23", "title": "Event functions vanish exactly at their event", "statement": "UntilTEvent, UntilNEvent, Phi0Event, InflationEvent, AfterInflationEndEvent, CollapseEvent and ModeExitEvent return zero exactly at the state they are named after, and have the sign on either side required by their direction.", "quantifier": "all states and parameters", "why_tests_cant": "continuum of states", "anchors": ["primpy/events.py"]}
{"id": "C24", "title": "Event keys are found again", "statement": "The keys under which events are stored in the solution are the keys looked up afterwards by the warning and post-processing code. (False for InflationStartWarning, which looks for 'Inflation_dir+1_term*' while the stored key is 'Inflation_dir1_term*', and for start events with terminal=True in the start post-processing.)", "quantifier": "all event configurations (direction, terminal)", "why_tests_cant": "string formats are only exercised on one configuration", "anchors": ["primpy/events.py: InflationEvent.__init__", "primpy/exceptionhandling.py", "primpy/inflation.py: postprocessing_inflation_start"]}
{"id": "C25", "title": "Start/end of inflation bookkeeping", "statement": "After post-processing, N_beg, N_end, N_tot and the inflation mask are NaN/absent exactly if the corresponding event was not observed, otherwise N_tot = N_end - N_beg is what the event rows say, the mask selects exactly the grid points between start and end.", "quantifier": "all solutions (with zero, one or several start and end events)", "why_tests_cant": "requires all event histories", "anchors": ["primpy/inflation.py: postprocessing_inflation_start, postprocessing_inflation_end"]}
{"id": "C26", "title": "Initial conditions fill the state", "statement": "Calling any initial condition writes every row of y0 that the equations registered (none is left uninitialised), consistent with the attributes stored on the initial-condition object.", "quantifier": "all equations (T/N, with/without tracking), all IC classes, all parameters", "why_tests_cant": "np.empty hides unwritten rows", "anchors": ["primpy/initialconditions.py: __call__"]}
{"id": "C27", "title": "N_i and Omega_Ki are interchangeable", "statement": "For K != 0, giving N_i or giving Omega_Ki to an initial condition yields the same initial state (round trip), with H_i satisfying the Friedmann equation H^2 = (phidot^2/2+V)/3 - K e^{-2N}.", "quantifier": "all states, K = +1, -1", "why_tests_cant": "continuum", "anchors": ["primpy/initialconditions.py: SlowRollIC, InflationStartIC"]}
{"id": "C28", "title": "InflationStartIC starts at the start of inflation", "statement": "At the initial state of InflationStartIC the inflating criterion is exactly zero and H^2 equals the value that the equations report, in both formulations.", "quantifier": "all potentials, phi_i, N_i, K", "why_tests_cant": "exact equality over a continuum", "anchors": ["primpy/initialconditions.py: InflationStartIC"]}
{"id": "C29", "title": "SlowRollIC velocity", "statement": "SlowRollIC sets the velocity to the slow-roll value, i.e. 3 H phidot = -V' with the H used by the equations up to the documented neglect of kinetic energy; sign opposite to V'.", "quantifier": "all potentials, fields, K", "why_tests_cant": "continuum", "anchors": ["primpy/initialconditions.py: SlowRollIC"]}
{"id": "C30", "title": "Initial-condition error table", "statement": "Initial conditions raise the documented exceptions exactly for the documented inputs (over/under-specification, Omega_Ki with flat, Hubble radicand negative); the boundary radicand = 0 is not rejected.", "quantifier": "all argument combinations", "why_tests_cant": "combinatorial x continuum", "anchors": ["primpy/initialconditions.py"]}
{"id": "C31", "title": "Shooting objectives", "statement": "When the shooting initial conditions ISIC_Nt / ISIC_NsOk return, the produced initial state has N_tot (resp. N_star and Omega_K0) equal to the requested ones, for every root finder that returns a root of the objective it was given.", "quantifier": "all targets, all oracles satisfying the root contract", "why_tests_cant": "depends on external solver", "anchors": ["primpy/initialconditions.py: ISIC_Nt, ISIC_NsOk"]}
{"id": "C32", "title": "is_instant_reheating decision table", "statement": "is_instant_reheating returns True exactly for the reheating parameter combinations describing instantaneous reheating, False for complete extended specifications and raises for contradictory ones.", "quantifier": "all subsets of keyword arguments and all values", "why_tests_cant": "combinatorial", "anchors": ["primpy/reheating.py: is_instant_reheating"]}
{"id": "C33", "title": "Calibration error table", "statement": "calibrate_scale_factor raises the documented exception on every documented misuse (curved Omega_K0 for a flat universe, unknown calibration_method, missing or non-positive N_star, N_star > N_tot, missing h, N_star or wrong-sign Omega_K0 for a curved universe, Omega_K0 together with reheating, negative DeltaN_reh or w_reh<-1/3, a pivot scale outside the inflating range) and only in those situations; a call that succeeds was given consistent arguments and a solution in which inflation both started and ended. (Some superfluous arguments are silently ignored.)", "quantifier": "all argument combinations, K, N_tot including NaN", "why_tests_cant": "combinatorial", "anchors": ["primpy/inflation.py: calibrate_scale_factor"]}
{"id": "C34", "title": "Flat N_star calibration", "statement": "After a flat calibration with N_star: N_dagg + N_star = N_tot, and the comoving Hubble scale at the crossing point N_cross = N_beg + N_dagg, converted with the calibrated a0, equals K_STAR: the pivot scale leaves the horizon exactly N_star e-folds before the end of inflation.", "quantifier": "all solutions, N_star in (0, N_tot]", "why_tests_cant": "needs all trajectories", "anchors": ["primpy/inflation.py: calibrate_scale_factor"]}
{"id": "C35", "title": "Reheating calibration", "statement": "With calibration_method='reheating' the e-folds of reheating, w_reh, rho_reh and DeltaN_reh satisfy rho_reh = 3/2 V_end exp(-3(1+w) DeltaN_reh), and the calibrated scale factor conserves entropy from the end of reheating until today; any two of (w_reh, rho_reh, DeltaN_reh) determine the third identically. (False in the curved w_reh+rho_reh branch.)", "quantifier": "all parameter values, flat and curved", "why_tests_cant": "continuum x parameter combinations", "anchors": ["primpy/inflation.py: calibrate_scale_factor 613-703, 780-844"]}
{"id": "C36", "title": "N_star and reheating calibration are inverse to each other", "statement": "Calibrating with N_star and then with the reheating parameters that this produced (or vice versa) gives the same a0, N_star and N_dagg.", "quantifier": "all solutions, all N_star, all reheating parameters", "why_tests_cant": "round trip over a continuum, through interpolation", "anchors": ["primpy/inflation.py: calibrate_scale_factor"]}
{"id": "C37", "title": "Omega_K0 and a0 are interchangeable", "statement": "For curved universes the calibrated Omega_K0 and a0 satisfy Omega_K0 = -K c^2/(a0 H0)^2 in the unit system used, and agree with bigbang.get_a0.", "quantifier": "all Omega_K0, h, K", "why_tests_cant": "continuum", "anchors": ["primpy/inflation.py: calibrate_scale_factor", "primpy/bigbang.py: get_a0"]}
{"id": "C38", "title": "Mode grid after calibration", "statement": "After calibration the stored k grid and logk grid correspond to the in-inflation grid points, are strictly increasing/distinct, and repeating the same calibration reproduces the same result (idempotence).", "quantifier": "all solutions, repeated calls", "why_tests_cant": "histories", "anchors": ["primpy/inflation.py: calibrate_scale_factor"]}
{"id": "C39", "title": "Calibration history independence", "statement": "The calibrated attributes depend only on the last calibration call and the integrated solution, not on previous calibrations. (False for H_star after switching method, and for cached approximate spectra.)", "quantifier": "all histories of calibration calls", "why_tests_cant": "histories", "anchors": ["primpy/inflation.py: calibrate_scale_factor, P_s_approx, P_t_approx"]}
{"id": "C40", "title": "Spectrum caches", "statement": "P_s_approx / P_t_approx return the requested spectrum of the current calibration. Holds for ARBDS always, for the method used by the last calibration, and for LLMS/STE when not requested or derived before that calibration; false otherwise: the first LLMS/STE request (or the last CGS calibration) keeps answering after re-calibration, and an unknown method or order silently returns whatever spectrum was derived last.", "quantifier": "all histories (any length and order) of calibrate_scale_factor / P_s_approx / P_t_approx calls, all grids, all interpolating splines", "why_tests_cant": "histories", "anchors": ["primpy/inflation.py: P_s_approx, P_t_approx"]}
{"id": "C41", "title": "Pivot parameters and set_ns", "statement": "After a calibration A_s, A_t, r, n_s, n_run, n_runrun, n_t are the pivot amplitude and ln k-derivatives of ln P of the spectrum just derived (for LLMS: exactly the slow-roll expressions). set_ns on a flat solution, whatever was calibrated before, returns with the requested n_s and an N_star inside the bracket whenever the bracket ends are not strictly on one side, and otherwise raises; on curved solutions it raises.", "quantifier": "all flat and curved solutions, calibration histories, brackets, targets, reheating densities, root finders meeting the bracketing contract", "why_tests_cant": "continuum", "anchors": ["primpy/inflation.py: derive_approx_power, sol.set_ns, calibrate_scale_factor"]}
{"id": "C42", "title": "Standard-model Hubble function", "statement": "get_H(N) at N0 = ln a0 returns H0 and the density parameters sum to one; units are interchangeable: Mpc and tp/lp results differ by the unit conversion only.", "quantifier": "all cosmological parameters, all N, all units", "why_tests_cant": "continuum", "anchors": ["primpy/bigbang.py: get_H0, get_N0, get_a0, Hubble_parameter"]}
{"id": "C43", "title": "No-Big-Bang criterion", "statement": "no_Big_Bang_line separates parameter space: below the line the Hubble radicand is positive for all N <= N0; above the line there is a bounce (matter-only radicand negative somewhere in the past).", "quantifier": "all Omega_m, Omega_L above/below the line", "why_tests_cant": "universally quantified over N", "anchors": ["primpy/bigbang.py: no_Big_Bang_line, Hubble_parameter"]}
{"id": "C44", "title": "Recollapse criterion", "statement": "expand_recollapse_line separates parameters of ever-expanding from recollapsing universes. (Only for the radiation-free radicand.)", "quantifier": "all Omega_m, Omega_L", "why_tests_cant": "universally quantified over N", "anchors": ["primpy/bigbang.py: expand_recollapse_line"]}
{"id": "C45", "title": "Comoving horizon and conformal time", "statement": "comoving_Hubble_horizon is 1/(aH) in the requested units; conformal_time is additive over adjacent intervals and positive.", "quantifier": "all N ranges, all parameters", "why_tests_cant": "continuum", "anchors": ["primpy/bigbang.py: comoving_Hubble_horizon, conformal_time"]}
{"id": "C46", "title": "Reheating effective equation of state", "statement": "get_w_delta_reh returns (w_reh, DeltaN_reh) that reproduce the scale-factor and Hubble ratio from which they were computed.", "quantifier": "all arguments", "why_tests_cant": "continuum", "anchors": ["primpy/bigbang.py: get_w_delta_reh"]}
{"id": "C47", "title": "Vacuum matching coefficients", "statement": "The linear-combination coefficients solve the 2x2 system: the combined mode takes the prescribed initial value and derivative for every vacuum, whenever the two basis solutions are linearly independent.", "quantifier": "all basis solutions and vacua", "why_tests_cant": "continuum", "anchors": ["primpy/perturbations.py: Mode"]}
{"id": "C48", "title": "Basis independence of the power spectrum", "statement": "The power spectrum obtained does not depend on the choice of the two independent basis solutions as long as the mode is frozen over the averaging window.", "quantifier": "all invertible basis changes", "why_tests_cant": "continuum", "anchors": ["primpy/perturbations.py: Mode"]}
{"id": "C49", "title": "Mukhanov-Sasaki in t and N agree", "statement": "The frequency/damping functions of the time and e-fold formulations transform into each other under dt = dN/H, for scalar and tensor modes and every curvature.", "quantifier": "all backgrounds, k, K", "why_tests_cant": "continuum", "anchors": ["primpy/time/perturbations.py: mukhanov_sasaki_frequency_damping", "primpy/efolds/perturbations.py: mukhanov_sasaki_frequency_damping"]}
{"id": "C50", "title": "Flat Mukhanov-Sasaki is the standard equation", "statement": "For K = 0 the scalar equation reduces to R'' + (3H + ...)R' + k^2/a^2 R = 0 i.e. damping = (1/2) d ln(a z^2)/dt with z = a phidot/H, frequency = k/a; the tensor one to 3H/2 and k/a.", "quantifier": "all backgrounds, k", "why_tests_cant": "continuum", "anchors": ["primpy/time/perturbations.py: *", "primpy/efolds/perturbations.py: *"]}
{"id": "C51", "title": "Vacuum normalisation", "statement": "Every initial vacuum (BD, HD, RST, RSET...) is Wronskian normalised, and the time and e-fold versions describe the same initial state.", "quantifier": "all backgrounds, k, K (except where the background derivatives are wrong)", "why_tests_cant": "continuum", "anchors": ["primpy/time/perturbations.py: get_vacuum_ic_*", "primpy/efolds/perturbations.py: get_vacuum_ic_*"]}
{"id": "C52", "title": "Oscode integration range selection", "statement": "solve_oscode starts each mode at the first grid point (fac_beg=0) or at the latest grid point where k > fac_beg*aH (the first one if there is none), and stops at the first grid point where aH > fac_end*k, or, if fewer than 10 e-folds would be covered, at the first point more than 10 e-folds after the start. Start < stop, both in bounds; the arrays handed to the integrator have equal lengths and begin and end at the integration limits; IndexError is raised exactly if no such stop point exists.", "quantifier": "all grids with increasing e-folds, all k > 0, all factors", "why_tests_cant": "all array sizes and contents, including non-monotonic aH", "anchors": ["primpy/oscode_solver.py: solve_oscode"]}
{"id": "C53", "title": "Spectrum completely filled", "statement": "For every list of wavenumbers the returned arrays P_s_<vac>, P_t_<vac> have one entry per wavenumber and entry i is exactly what the single-wavenumber call returns for k[i]; no entry is missed, swapped or overwritten; the array call raises exactly the error of the first wavenumber whose single call raises; a vacuum's entries do not depend on which other vacua are requested.", "quantifier": "all lists of k, all vacua, all backgrounds and integrators", "why_tests_cant": "all lengths and contents", "anchors": ["primpy/oscode_solver.py: solve_oscode", "primpy/perturbations.py: PrimordialPowerSpectrum"]}
{"id": "C54", "title": "Dropping closed large scales", "statement": "With drop_closed_large_scales=True the power spectra of closed universes at k < 1 are set to 1e-30, everything else is unchanged. (Only P_s_RST is dropped: the tensor spectra and the other vacua are not.)", "quantifier": "all lists of k, all backgrounds and integrators", "why_tests_cant": "all lengths", "anchors": ["primpy/oscode_solver.py: solve_oscode"]}
{"id": "C55", "title": "Analytic spectra: leading order", "statement": "All four approximations (CGS, LLMS, STE, ARBDS) have the same leading-order amplitude H^2/(8 pi^2 epsilon_1) resp. 2H^2/pi^2, their tensor-to-scalar ratio is 16 epsilon_1 at leading order and tilt -2 eps1 - eps2 resp. -2 eps1.", "quantifier": "all slow-roll values", "why_tests_cant": "asymptotic orders", "anchors": ["primpy/inflation.py: derive_approx_power, P_s_approx_*"]}
{"id": "C56", "title": "Unit system", "statement": "The unit constants are mutually consistent (c tp = lp, mp c^2 tp = hbar, Mpc conversions, reduced Planck mass vs GeV).", "quantifier": "exact real arithmetic over the constants", "why_tests_cant": "rounding hides inconsistent definitions", "anchors": ["primpy/units.py"]}
{"id": "C57", "title": "Power-law primordial spectrum wrapper", "statement": "The cobaya power-law wrapper returns A_s at the pivot, tilt n_s - 1, running n_run; tensor amplitude r*A_s and single-field consistency when n_t is absent.", "quantifier": "all parameter values, k > 0", "why_tests_cant": "continuum", "anchors": ["cobaya_wrapper/powerlaw_pps.py", "cobaya_wrapper/feature_pps.py"]}
{"id": "C58", "title": "Amplitude shooting loop", "statement": "The slow-roll wrapper amplitude iteration ends only when the requested A_s is met within the tolerance or iteration budget exhausted, and rescales Lambda^4 proportionally.", "quantifier": "all iteration histories", "why_tests_cant": "loop", "anchors": ["cobaya_wrapper/slowroll_pps.py"]}
{"id": "C59", "title": "Reheating density threshold in the slow-roll wrapper", "statement": "SlowRollPPS.calculate rejects a sampled rho_reh_GeV exactly if it is above the energy density at the end of inflation, so instant reheating (rho_reh = rho_end) is accepted. The first half (densities above rho_end are rejected) holds; the second is FALSE: the threshold is rho_end/3, every density between rho_end/3 and rho_end is rejected with PrimpyError, and in particular the rho_reh_GeV that calibrate_scale_factor reports for instant reheating cannot be sampled.", "quantifier": "all end-of-inflation states, all reheating densities", "why_tests_cant": "continuum of densities; the tests of the wrapper sample one point", "anchors": ["cobaya_wrapper/slowroll_pps.py: SlowRollPPS.calculate", "primpy/inflation.py: calibrate_scale_factor"]}
{"id": "C60", "title": "Version bumping", "statement": "From a version file and a README stating the same final release, bump_version.py (no argument, micro, minor, major) writes the named unit increment into both files and check_version.py then exits with 0; unit_incremented accepts nothing but the three unit increments between final releases, rejects unchanged versions and mistyped bump types. Bumping from a pre-release is always rejected; base versions are compared as strings, so M.10.0rc0 after M.9.0 is rejected while 9.0.0rc0 after 1.0.0 is accepted.", "quantifier": "all version triples, all file contents of the given shape", "why_tests_cant": "unbounded integers and arbitrary file contents", "anchors": ["bin/bump_version.py", "bin/utils.py: unit_incremented", ".github/workflows/check_version.py"]}
{"id": "C61", "title": "Deprecated phi2efolds agrees with sr_phi2N", "statement": "For the potentials that still expose the deprecated method phi2efolds (Starobinsky, Natural, the double wells), it returns the same slow-roll number of e-folds as sr_phi2N for every field value where both are defined, and raises/declines otherwise.", "quantifier": "every parameter value of the potential and every field value in the domain", "why_tests_cant": "Agreement of two closed forms over a continuum of field values and parameters.", "anchors": ["primpy/potentials.py: InflationaryPotential.phi2efolds, sr_phi2N"]}
{"id": "C62", "title": "Points of the dense output", "statement": "With num_eval = n > 0, solve_oscode evaluates each mode at exactly n points, strictly increasing, beginning at the start and ending at the end of the integration range, equally spaced in ln t (cosmic-time backgrounds) or in N (e-fold backgrounds), and each vacuum's dense scalar and tensor spectra have exactly n entries; with num_eval = 0 there are none.", "quantifier": "every background, formulation, index range, wavenumber, vacuum and n", "why_tests_cant": "Ranges over all integration ranges, all n and all backgrounds.", "anchors": ["primpy/oscode_solver.py: solve_oscode", "primpy/perturbations.py: Perturbation.oscode_postprocessing"]}
{"id": "C63", "title": "The matched mode is unique and independent of the matching point", "statement": "The coefficients that match two auxiliary mode solutions to the vacuum state are the same at whichever time they are computed, so the reported spectrum is that of the one and only solution of the mode equation in the vacuum state at the first point, whatever independent initial data the auxiliary solutions had; the normalised mode keeps its canonical commutator (Wronskian times kinetic weight) at all later times, for tensors in any curvature and for scalars with the curvature-dependent weight.", "quantifier": "every mode equation with continuous damping, every pair of independent auxiliary solutions, every vacuum state and time", "why_tests_cant": "Uniqueness and conservation along all solutions of a family of differential equations.", "anchors": ["primpy/perturbations.py: Perturbation._get_coefficients_a_b, oscode_postprocessing", "primpy/time/perturbations.py: CurvaturePerturbationT, TensorPerturbationT", "primpy/efolds/perturbations.py"]}
{"id": "C64", "title": "Mode spectra scale with the potential", "statement": "If the potential is multiplied by s^2 and the background rescaled accordingly (H times s, scale factor times any constant; in a curved universe with the comoving curvature scale unchanged), the primordial spectra computed mode by mode at the corresponding wavenumbers are exactly s^2 times the original ones, in the same order, with the same NaNs, errors and k in Mpc^-1, for scalars and tensors, all vacua, both time variables, single modes and arrays.", "quantifier": "every background, scale factor s > 0, wavenumber or array of wavenumbers, vacuum, option, and integrator that respects the change of units", "why_tests_cant": "An exact symmetry over all backgrounds, wavenumbers and scale factors.", "anchors": ["primpy/oscode_solver.py: solve_oscode", "primpy/perturbations.py", "primpy/time/perturbations.py", "primpy/efolds/perturbations.py"]}
{"id": "C65", "title": "Background solutions scale with the potential", "statement": "Multiplying the potential by s^2 maps every background solution to a solution: same field values, H and cosmic-time field velocity times s, cosmic time divided by s, e-folds shifted by a constant (in a curved universe chosen to keep the comoving curvature scale). All event functions keep their signs and zeros (thresholds expressed in the new units) and every attribute derived from the solution (start and end of inflation, N_tot, H, logaH, potential at the end, messages) is the correspondingly rescaled one.", "quantifier": "every potential, curvature, scale factor s > 0, shift, solution, event and recorded grid", "why_tests_cant": "A symmetry over all trajectories of a differential equation.", "anchors": ["primpy/time/inflation.py: InflationEquationsT", "primpy/efolds/inflation.py: InflationEquationsN", "primpy/events.py", "primpy/inflation.py: InflationEquations.sol"]}
{"id": "C66", "title": "Slow-roll spectra scale with the potential", "statement": "Under the same rescaling all Hubble slow-roll parameters stay the same at every point, every approximate spectrum (CGS, LLMS, STE, ARBDS, every order, whatever was derived before) is s^2 times the original one at every wavenumber (or fails in the same way), and of the pivot parameters A_s and A_t are multiplied by s^2 while the tilts, the runnings and r do not change.", "quantifier": "every point, potential, curvature, grid, method, order, wavenumber, cache history and spline that maps shifted data to shifted curves", "why_tests_cant": "Exact identity between two runs over all grids and potentials.", "anchors": ["primpy/inflation.py: derive_approx_power, derive_slow_roll_parameters, P_s_approx, P_t_approx, set_ns", "primpy/time/inflation.py", "primpy/efolds/inflation.py"]}
{"id": "C67", "title": "Initial conditions determine the background", "statement": "For a smooth potential, two background solutions of the same equations whose full states agree at one point agree everywhere on the common interval, including tracked time and conformal time; from any expanding state a solution exists for a while; and the cosmic-time and the e-fold equations started from the same state describe one and the same universe: at equal e-folds they give the same field value, velocity, Hubble parameter, cosmic time and conformal time.", "quantifier": "all twice continuously differentiable potentials on an open field range, all curvatures, all initial states with H^2>0, all trajectories and all intervals", "why_tests_cant": "a test compares two numerical runs at sampled points up to tolerance; uniqueness and equivalence of the two formulations is a statement about every initial state and the whole trajectory", "anchors": ["primpy/time/inflation.py:InflationEquationsT.__call__", "primpy/efolds/inflation.py:InflationEquationsN.__call__", "primpy/inflation.py:InflationEquations"]}
{"id": "C68", "title": "Energy conditions and curvature of the background", "statement": "With a non-negative potential the reported equation of state w lies in [-1,1], is -1 exactly for a field at rest and +1 exactly for vanishing potential; the first slow-roll parameter equals 3/2(1+w)(1-Omega_K)+Omega_K, so 0<=eps1<=3 in flat universes; flat and open universes with positive potential expand; the field moves less than sqrt(6) per e-fold wherever the potential dominates the curvature; energy is conserved along every solution; and during inflation the reported |Omega_K| of a curved universe strictly decreases with sign opposite to K.", "quantifier": "all potentials, curvatures, states with H^2>0, and all solutions of either formulation", "why_tests_cant": "tests evaluate these quantities on a few runs; the inequalities and identities must hold at every state of every trajectory", "anchors": ["primpy/time/inflation.py:InflationEquationsT.w", "primpy/efolds/inflation.py:InflationEquationsN.w", "primpy/inflation.py:InflationEquations.sol (Omega_K)", "primpy/inflation.py:InflationEquations.H"]}
{"id": "C69", "title": "Shape of the potentials", "statement": "Each potential class is non-negative, vanishes exactly at its minimum and rises strictly along the branch on which the field rolls; Starobinsky, T-model and radion-gauge potentials have a plateau at Lambda^4 that is never exceeded, natural inflation is even, periodic with period 2 phi0 and lies in [0, Lambda^4] with its hilltop at phi0, the double well has a hilltop of height Lambda^4 at phi0; feature potentials differ from the base potential by at most the feature amplitude (so they stay positive), are asymptotically the base (dip) or rescaled by 1+a (step), and equal the base with all derivatives when the amplitude is zero.", "quantifier": "all parameter values and field values of each potential class and all base potentials and feature parameters", "why_tests_cant": "tests evaluate potentials at a few field values; sign, monotonicity and asymptotics quantify over the whole field range and parameter space", "anchors": ["primpy/potentials.py: MonomialPotential.V", "primpy/potentials.py: StarobinskyPotential.V", "primpy/potentials.py: NaturalPotential.V", "primpy/potentials.py: DoubleWellPotential.V", "primpy/potentials.py: TmodelPotential.V", "primpy/potentials.py: RadionGaugePotential.V", "primpy/potentials.py: FeaturePotential.V"]}
{"id": "C70", "title": "Slow-roll wrapper end to end", "statement": "SlowRollPPS.calculate, from the sampled parameters to the stored state: once the amplitude loop has returned nothing can fail any more; the stored arrays are the values of two everywhere positive spectra at the sampled wavenumbers, and the derived parameters are exactly the advertised ones, with A_s, n_s, runnings, A_t, n_t and r the amplitudes and log-derivatives of those same spectra at the pivot scale; the amplitude is within 1e-14+1e-6*A_s of the requested one; a requested n_s (without complete reheating scenario) is the reported one with N_star in [20, N_star_requested]; requested rho_reh_GeV, w_reh (with rho_reh_GeV) and N_star are reported unchanged, and without a density the reheating parameters are NaN; reported reheating numbers describe one consistent expansion history between the reported end of inflation and today; natural inflation and the double well start strictly between minimum and hilltop.", "quantifier": "all parameter dictionaries, all outcomes of the integration, all splines and root finders (root finder correct for the tilt statement), all wavenumber grids, any number of passes of the loop", "why_tests_cant": "The outcome is a composition of a shooting loop, one of three calibrations (one of them with its own root search that re-calibrates the object repeatedly) and lazily cached spectra; a test fixes one potential and one parameter point, while the statement is about every point a sampler can visit and every number of passes.", "anchors": ["cobaya_wrapper/slowroll_pps.py:SlowRollPPS.calculate", "cobaya_wrapper/slowroll_pps.py:SlowRollPPS.get_can_provide_params", "primpy/inflation.py:InflationEquations.sol", "primpy/potentials.py:InflationaryPotential.sr_As2Lambda"]}
{"id": "C71", "title": "Analytic spectra do not depend on the pivot", "statement": "The amplitude at a fixed wavenumber that the slow-roll methods predict must not depend on which moment (pivot) the slow-roll parameters are taken from. Along every slow-roll history the ARBDS prediction of order n (1,2,3; scalar and tensor) drifts with the pivot only at order n+1 when the pivot wavenumber is -1/eta; with the pivot wavenumber aH that the code uses this holds for orders 1 and 2, and at order 3 the prediction drifts at third order by exactly eps1*eps2*(2 eps1+eps2) (scalar) and 2 eps1^2*eps2 (tensor). The LLMS prediction drifts only at third order.", "quantifier": "all slow-roll histories (functions H, eps1..eps3 of the e-fold number with eps_n' = eps_n eps_{n+1}), all wavenumbers, all orders of the methods, all small slow-roll amplitudes", "why_tests_cant": "an asymptotic statement about a continuum of histories and wavenumbers; tests compare a few potentials within percent tolerances and cannot see the order of the error", "anchors": ["primpy/inflation.py:InflationEquations.sol (derive_approx_power_ARBDS, 1222-1404)", "primpy/inflation.py:InflationEquations.sol (derive_approx_power_CGS, derive_approx_power_STE, derive_approx_power_LLMS)"]}
{"id": "C72", "title": "CGS and ARBDS at second and third order", "statement": "Read at the wavenumber that crosses the horizon (k=aH) when the parameters are evaluated, ARBDS of order 2 and 3 agrees with STE (hence CGS, LLMS) through second order, so the second-order mismatch at ln(k/k*)=0 is entirely the choice of pivot; at third order CGS and ARBDS differ by an explicit non-zero polynomial in eps1, eps2, eps3 and zeta(3), so at most one of them is a third-order approximation.", "quantifier": "all slow-roll points satisfying the exact flat-universe relations, all small slow-roll amplitudes; for all phi derivatives in both time formulations", "why_tests_cant": "order of agreement is an asymptotic statement over all slow-roll points; numerical comparisons have tolerances far above third order", "anchors": ["primpy/inflation.py:InflationEquations.sol (derive_approx_power_ARBDS, 1222-1404)", "primpy/inflation.py:InflationEquations.sol (derive_approx_power_CGS, derive_approx_power_STE, derive_approx_power_LLMS)"]}
{"id": "C73", "title": "Analytic spectra against exactly solvable inflation", "statement": "On power-law inflation (all slow-roll parameters constant; the exact spectrum is a Gamma-function expression) and on constant roll in the de Sitter limit, the slow-roll methods reproduce the exact spectrum to their nominal order: ARBDS of order n up to order n+1 at every wavenumber (scalar and tensor) when its pivot is -1/eta, STE and LLMS up to third order (LLMS at every wavenumber), CGS of order 1 and 2 up to order n+1. CGS of order 3 exceeds the exact power-law spectrum by eps^3, i.e. it is not third-order accurate.", "quantifier": "all wavenumbers, all orders of the methods, all small slow-roll parameters eps (power law) and delta (constant roll)", "why_tests_cant": "an asymptotic order statement for a continuum of parameters and wavenumbers; the third-order discrepancy of CGS is far below any test tolerance", "anchors": ["primpy/inflation.py:InflationEquations.sol (derive_approx_power_CGS, derive_approx_power_STE, derive_approx_power_LLMS, derive_approx_power_ARBDS)", "primpy/time/inflation.py:InflationEquationsT.get_delta_1", "primpy/efolds/inflation.py:InflationEquationsN.get_delta_1"]}
{"id": "C74", "title": "The slow-roll spectra pass through their defining expressions at every grid wavenumber", "statement": "After calibrate_scale_factor(...) without a copied background, for every grid point inside inflation that is not a repetition of an earlier aH, a request P_s_approx / P_t_approx at k = aH/a0_Mpc with the method and order of the calibration returns exactly the analytic expression: for CGS and STE the leading-order spectra H^2/(8 pi^2 eps1), 2H^2/pi^2 of that grid point times the correction of that grid point (at order 0 without correction); for LLMS and ARBDS the expression in ln(k/k_*) of the slow-roll parameters at pivot-scale crossing. Flat, open and closed universes alike.", "quantifier": "for all calibrated solutions, calibration methods and arguments, all grid points inside inflation, all methods and orders, and every spline that interpolates its data", "why_tests_cant": "tests compare the spectra at a handful of wavenumbers with loose tolerances; a misaligned mask or a shift of logk by one grid point changes each value only slightly", "anchors": ["primpy/inflation.py: calibrate_scale_factor, derive_approx_power, P_s_approx, P_t_approx"]}
{"id": "C75", "title": "Modes freeze outside the horizon, and the reported spectrum is the late-time one", "statement": "For every solution of the perturbation equation handed to oscode (tensor modes of any curvature with non-negative Laplacian eigenvalue kappa^2; flat curvature perturbations while eps_2 >= -2), in cosmic time and in e-folds: the energy a^2|f'|^2 + kappa^2|f|^2 never grows in an expanding universe; between two times f changes by at most the root of that energy times the elapsed conformal time; and while the Hubble radius shrinks (-dH/dt/H^2 <= e < 1) by at most sqrt(|f'|^2/H^2 + (kappa/aH)^2|f|^2)/(1-e) at the earlier time, which at the point where solve_oscode stops (aH > fac_end k) is sqrt(|f'|^2/H^2 + |f|^2/fac_end^2)/(1-e). Consequently, if the integrator samples exact solutions, the returned P_s / P_t equal |u_k(T)|^2 times the normalisation at any later time T, up to the drift of the two basis solutions between the last five steps and T.", "quantifier": "all universes (potential, curvature, trajectory), wavenumbers, solutions, pairs of times, fac_end, initial bases, vacua", "why_tests_cant": "an inequality for all solutions of an ODE with arbitrary coefficients and for all later times; a run integrates a single mode over a single background and stops at fac_end", "anchors": ["primpy/time/perturbations.py:ScalarModeT.mukhanov_sasaki_frequency_damping", "primpy/time/perturbations.py:TensorModeT.mukhanov_sasaki_frequency_damping", "primpy/efolds/perturbations.py:ScalarModeN.mukhanov_sasaki_frequency_damping", "primpy/efolds/perturbations.py:TensorModeN.mukhanov_sasaki_frequency_damping", "primpy/oscode_solver.py:solve_oscode", "primpy/perturbations.py:Perturbation._combine_solutions"]}
{"id": "C76", "title": "Backgrounds can be integrated for ever in flat and open universes", "statement": "In a flat or open universe with a potential that is nowhere negative, the cosmic-time background equations have a solution for all later times from every expanding initial state, and H stays positive: no final time is out of reach and no run can blow up. The same holds in e-folds for a strictly positive potential. This covers quadratic, Starobinsky and natural inflation and Starobinsky with dips or steps of amplitude at most one. The conditions are needed: a closed universe whose potential is nowhere positive always recollapses, and for the quadratic potential in a flat universe the e-fold equations always break down after finitely many e-folds (at V = 0), although the cosmic-time background of the same universe goes on.", "quantifier": "all initial states with H^2 > 0, all flat and open curvatures, all three-times differentiable non-negative potentials, all later times", "why_tests_cant": "A test integrates a few initial states up to a finite time; that no initial state and no final time leads to a blow-up is a global existence statement.", "anchors": ["primpy/time/inflation.py:InflationEquationsT.__call__", "primpy/efolds/inflation.py:InflationEquationsN.__call__", "primpy/solver.py:solve", "primpy/potentials.py"]}
{"id": "C77", "title": "The reported inflationary phase is the phase of accelerated expansion", "statement": "If the integrator samples a solution of the background equations and records the sign changes of the tracked inflation events faithfully, then whenever an inflation_mask is reported there is one interval of accelerated expansion (second derivative of the scale factor >= 0 throughout, <= 0 before it, = 0 at its end) such that _N_beg and _N_end are the e-folds at its ends, N_tot > 0 is their difference, the mask selects exactly the grid points strictly inside it, and the comoving Hubble radius never grows in it; with a terminal end event every grid point left out (except possibly the first) is not accelerating. Conversely a run that starts accelerating (or tracks the start event) and later decelerates does report a mask.", "quantifier": "all backgrounds (potential, curvature, initial state), both time variables, all sampling grids and faithful event records, terminal and non-terminal end events", "why_tests_cant": "the link between recorded events and the sign of the acceleration at every grid point and in between is a statement about all trajectories and all grids (intermediate values), not about a few runs", "anchors": ["primpy/inflation.py:InflationEquations.postprocessing_inflation_start", "primpy/inflation.py:InflationEquations.postprocessing_inflation_end", "primpy/inflation.py:InflationEquations.sol", "primpy/events.py:InflationEvent"]}
{"id": "C78", "title": "Copied calibrations and backward integrations", "statement": "If a flat solution copies the calibration of an already calibrated flat solution (background=..., matching N_star > 0), both report the same a0, N0, a0_Mpc, N_star, N_cross, N_end, N_reh and offset, points of the two integrations with equal _N have equal calibrated N, and with equal H equal comoving Hubble horizon; nothing else of the copying solution's reheating attributes changes. But a backward integration whose events are recorded faithfully never marks a point as inflating: any reported duration N_tot is negative, and copying a calibration then yields empty lists of modes logk, k_iMpc, _k (or raises AttributeError if no end was found).", "quantifier": "all forward calibrations (any method), all copying solutions; all backward trajectories in either time variable, all grids, all faithful event records", "why_tests_cant": "the sign of the duration and the emptiness of the mask must hold for every backward trajectory and every grid; agreement of the two halves for every pair of solutions", "anchors": ["primpy/inflation.py:InflationEquations.sol (calibrate_scale_factor, background)", "primpy/inflation.py:InflationEquations.postprocessing_inflation_start", "primpy/inflation.py:InflationEquations.postprocessing_inflation_end"]}
{"id": "C79", "title": "Field excursion and tensor-to-scalar ratio (Lyth bound)", "statement": "Along an integrated background, if the leading-order tensor-to-scalar ratio P_tensor_approx/P_scalar_approx primpy computes is at least r0 > 0 between two points of a flat or closed universe, the field moves by at least sqrt(r0/8) per e-fold between them; if it is at most r1 in a flat or open universe, by at most sqrt(r1/8). Whatever the potential, in a flat or open universe the field moves by at most sqrt(2) per e-fold while the inflating criterion is non-negative, and by at most sqrt(6) as long as the potential is non-negative.", "quantifier": "all potentials, all solutions of the background equations in either time variable, all pairs of points", "why_tests_cant": "a bound on every trajectory of every potential between every two points; tests check a few runs", "anchors": ["primpy/inflation.py:derive_approx_power_CGS", "primpy/time/inflation.py:InflationEquationsT", "primpy/efolds/inflation.py:InflationEquationsN"]}
{"id": "C80", "title": "Integrated backgrounds approach a common attractor", "statement": "Take two integrations of a flat background in the same potential (both in cosmic time, both in e-folds, or one of each) that roll in the same direction and both pass through two common field values, with the potential non-negative in between. If the first has the larger Hubble rate at the first field value, it still has the larger Hubble rate and the larger speed |dphi/dt| at the second, the difference of the Hubble rates has shrunk at least by the factor exp(-3 dN) for the dN e-folds it took, and it took at most as many e-folds as the second one. In particular initial data with the same field value forget their initial velocity exponentially.", "quantifier": "every potential (non-negative on the range traversed, differentiable), every pair of solutions of the background equations, in either time variable, every pair of common field values", "why_tests_cant": "it compares two arbitrary trajectories of a non-linear ODE over an arbitrary stretch; tests integrate a few initial conditions in a few potentials with a finite tolerance", "anchors": ["primpy/time/inflation.py:InflationEquationsT.__call__", "primpy/efolds/inflation.py:InflationEquationsN.__call__", "primpy/equations.py"]}
{"id": "C81", "title": "Conformal time ratio of the horizon problem", "statement": "For a forward run of the background equations with track_eta=True, conformal_time_ratio is the comoving distance light travels during the run (the integral of dt/a over cosmic time, equally of dN/(aH) over e-folds) divided by the conformal time from the end of inflation until today; with a backward run started from the same initial state it is the same for the joined history, and strictly larger than without it. In a flat universe, where the calibration sets a0=1 but _N_end and eta keep the arbitrary normalisation of the scale factor at the start, the reported ratio is meaningless: by shifting the initial e-folds, which changes neither field nor velocity nor Hubble rate at any time, any run can be made to report a ratio larger than any given number.", "quantifier": "every potential and curvature, every forward and backward solution of the equations in either time variable on any grid, all accepted present-day density parameters; for the flat statement every run of positive duration and every bound", "why_tests_cant": "integrals along arbitrary trajectories; the tests compare a few quadratic-potential runs in curved universes with 1 and never call the function for a flat one", "anchors": ["primpy/bigbang.py:conformal_time_ratio", "primpy/bigbang.py:conformal_time", "primpy/time/inflation.py:InflationEquationsT.__call__", "primpy/efolds/inflation.py:InflationEquationsN.__call__", "primpy/inflation.py:calibrate_scale_factor"]}
{"id": "C82", "title": "Numerical spectra of power-law inflation are the exact ones", "statement": "For every exponential potential on its scaling solution (dphi/dN = q constant, 0 < q^2 < 2, hence epsilon_1 = q^2/2 constant), the scalar and tensor power spectra that solve_oscode reports agree with the closed-form power-law spectrum H^2/(8 pi^2 eps) 2^(2nu-3) (Gamma(nu)/Gamma(3/2))^2 (1-eps)^(2nu-1) (k/aH)^(3-2nu) (2H^2/pi^2 times the same for tensors), nu = 3/2 + eps/(1-eps), to any required relative accuracy, for each of the vacua k, HD, RST, provided the mode starts deep enough inside the horizon, is integrated exactly and is sampled far enough outside it; how deep and how far depends on q and the accuracy only, not on the wavenumber, the grid, the amplitude or the vacuum.", "quantifier": "every slope q, every accuracy, every open interval, potential, field and Hubble function that satisfies the background equations, every wavenumber, grid, start and stop factor, initial vacuum and exact integrator, both time variables", "why_tests_cant": "the tests compare with stored numbers or with slow-roll approximations at a few wavenumbers; agreement with the analytic Hankel-function solution for all slopes and wavenumbers is a limit statement", "anchors": ["primpy/oscode_solver.py:solve_oscode", "primpy/perturbations.py:CurvaturePerturbation", "primpy/perturbations.py:ScalarMode", "primpy/perturbations.py:TensorMode", "primpy/time/perturbations.py", "primpy/efolds/perturbations.py"]}
{"id": "C83", "title": "Numerical and slow-roll spectra agree on power-law inflation", "statement": "On every exponential-potential scaling solution with small enough epsilon_1 the numerically integrated spectra and the slow-roll spectra CGS (orders 0 to 3) and STE, evaluated where the mode crosses the horizon, agree: the relative difference is at most a universal constant times epsilon_1 to the power 1 (order 0), 2 (CGS order 1) or 3 (CGS orders 2, 3 and STE), up to an arbitrarily small integration error. The numerical tensor-to-scalar ratio is 16 epsilon_1 and the numerical scalar and tensor spectra are power laws with n_s - 1 = n_t = -2 epsilon_1/(1 - epsilon_1), for any pair of wavenumbers and vacua.", "quantifier": "every slope, accuracy, universe, pair of wavenumbers, grid, vacuum and exact integrator, both time variables, all five approximations", "why_tests_cant": "the tests compare numerical and approximate spectra for a few potentials with loose tolerances; the order of the error is an asymptotic statement about all small slopes", "anchors": ["primpy/oscode_solver.py:solve_oscode", "primpy/inflation.py:derive_approx_power_CGS", "primpy/inflation.py:derive_approx_power_STE", "primpy/perturbations.py"]}
{"id": "C84", "title": "Numerical spectra are the slow-roll spectra on every slow-roll background", "statement": "On every flat background - any potential - whose Hubble-flow parameters satisfy 0 < epsilon_1 <= delta, |epsilon_2| <= delta and |epsilon_2 epsilon_3| <= delta (delta <= 1/20) throughout, a numerical run that starts with aH <= delta k, integrates the mode equations exactly and ends with k <= delta aH crosses the horizon, and every reported scalar and tensor spectrum (all vacua, both time variables) equals H^2/(8 pi^2 epsilon_1) and 2 H^2/pi^2 at the crossing up to a relative error of an absolute constant times delta. The same holds with the code's own CGS (orders 0 to 3) and STE spectra at the crossing in place of the leading-order ones.", "quantifier": "every potential, slow-roll background, accuracy delta, wavenumber, grid, vacuum and exact integrator, both time variables", "why_tests_cant": "the tests compare spectra for a handful of potentials at a few wavenumbers; that the agreement holds, with one constant, for every slowly rolling background is a statement about all of them", "anchors": ["primpy/oscode_solver.py:solve_oscode", "primpy/time/perturbations.py", "primpy/efolds/perturbations.py", "primpy/inflation.py:derive_approx_power_CGS", "primpy/inflation.py:derive_approx_power_STE"]}
{"id": "C85", "title": "Slow-roll conditions on the potential make the integrated background roll slowly", "statement": "In a flat universe, wherever the potential's own slow-roll parameters satisfy epsilon_1V <= delta/16 and |epsilon_2V| <= delta/16 (delta <= 1/20), a background started with the slow-roll velocity up to a relative error delta/32 - as SlowRollIC does - rolls slowly from slightly before the start for as long as the field stays there: 0 < epsilon_1 <= delta, |epsilon_2| <= delta, |epsilon_2 epsilon_3| <= delta, and its epsilon_1 is epsilon_1V of the potential up to a relative error delta/10.", "quantifier": "every potential, field domain, accuracy, start, duration, both time variables", "why_tests_cant": "the tests start a handful of models at a few field values and compare a few numbers; that no flat potential lets the integrated background leave slow roll is a statement about all potentials and all times", "anchors": ["primpy/initialconditions.py:SlowRollIC", "primpy/potentials.py:get_epsilon_1V", "primpy/potentials.py:get_epsilon_2V", "primpy/time/inflation.py:__call__", "primpy/efolds/inflation.py:__call__"]}
{"id": "C86", "title": "The slow-roll e-fold count is the number of e-folds of the integrated background", "statement": "In a flat universe, on a potential whose slow-roll parameters are at most delta/16 between phi_i and Phi (further down the potential), a background started by SlowRollIC at phi_i reaches Phi, and takes sr_phi2N(phi_i) - sr_phi2N(Phi) e-folds for it up to a relative error delta/5. For QuadraticPotential and StarobinskyPotential with phi_i > Phi large enough the background exists for all later times and does so.", "quantifier": "every potential, slow-roll count of it, accuracy, start and target field values, both time variables", "why_tests_cant": "the tests check sr_phi2N against the numerical e-folds at a few field values with a loose tolerance; reaching the target and the error bound hold for every pair of field values and every potential", "anchors": ["primpy/potentials.py:sr_phi2N", "primpy/initialconditions.py:SlowRollIC", "primpy/time/inflation.py:__call__", "primpy/efolds/inflation.py:__call__"]}
{"id": "C87", "title": "The amplitude promised by the potential is the amplitude of the numerical spectrum", "statement": "On every flat slow-roll background an exact numerical run reports, for the mode that crosses the horizon at the field value phi, the scalar spectrum V/(24 pi^2 epsilon_1V) and the tensor spectrum 2V/(3 pi^2) of the potential at phi, up to a relative error of an absolute constant times delta; so a potential whose Lambda was set with sr_As2Lambda(A_s, N_star) or sr_As2Lambda(A_s, phi_star) yields the requested A_s for the mode that crosses at phi_star.", "quantifier": "every potential, slow-roll background, accuracy, wavenumber, vacuum, requested A_s and N_star or phi_star, exact integrator, both time variables", "why_tests_cant": "the tests compare A_s with the numerical spectrum for a few models at one pivot scale; the normalisation must be right for every model and pivot", "anchors": ["primpy/potentials.py:sr_As2Lambda", "primpy/oscode_solver.py:solve_oscode", "primpy/time/perturbations.py", "primpy/efolds/perturbations.py"]}
{"id": "C88", "title": "From the requested amplitude to the numerical spectrum, end to end", "statement": "Quadratic and Starobinsky inflation in a flat universe, cosmic time: ask sr_As2Lambda for A_s at N_star (or phi_star), build the potential with that Lambda, start with SlowRollIC at least 30 + 2 ln(1/delta) slow-roll e-folds before phi_star, with phi_star at least as many slow-roll e-folds above the end of the region in which the slow-roll parameters are below delta/16. Then the background exists for all later times and passes phi_star; exact mode integrations that start with the background, for the wavenumber crossing the horizon at phi_star, exist; and every such run of solve_oscode reports a scalar spectrum A_s up to a relative error of an absolute constant times delta. For any potential: V/(24 pi^2 epsilon_1V) and 2V/(3 pi^2) at phi_star.", "quantifier": "every accuracy, A_s, N_star or phi_star, phi_i, N_i, start time, trajectory, exact integrator, grid and vacuum", "why_tests_cant": "the tests run a few models once and compare with loose tolerances; that every stage meets the next one's needs for all parameters is a composition statement over all of them", "anchors": ["primpy/potentials.py:sr_As2Lambda", "primpy/initialconditions.py:SlowRollIC", "primpy/time/inflation.py:__call__", "primpy/oscode_solver.py:solve_oscode", "primpy/time/perturbations.py"]}
{"id": "C89", "title": "Potentials are built from their documented keywords and from nothing else", "statement": "For each of the fifteen concrete potential classes and every keyword dictionary: if cls(**kwargs) returns, the object takes each shape parameter of its class (p, phi0, alpha, phi_feature, a_feature, b_feature) from the keyword of that name, has the exponent its name promises, and no keyword was ignored (each one is a shape parameter, Lambda, or, together with A_s, one of A_s, N_star, phi_star); without A_s, Lambda is the one passed (default 1) and there is no warning; with A_s the potential has that slow-roll amplitude at phi_star or at sr_N2phi(N_star), exactly one of which was passed, and the constructor warns exactly if a Lambda other than 1 was passed too. The documented keywords always suffice. The order of keywords changes neither result nor error. A potential is rebuilt exactly from its attributes. A missing parameter is a KeyError with its name, a second exponent a TypeError, the retired mass a ValueError.", "quantifier": "every class, keyword dictionary, parameter values, order of keywords", "why_tests_cant": "tests build each class with a few keyword sets; that no keyword is ever ignored or taken for another is a statement over all dictionaries", "anchors": ["primpy/potentials.py:InflationaryPotential.__init__", "primpy/potentials.py:MonomialPotential.__init__", "primpy/potentials.py:QuadraticPotential.__init__", "primpy/potentials.py:RadionGaugePotential.__init__", "primpy/potentials.py:FeaturePotential.__init__"]}
{"id": "C90", "title": "solve: from initial conditions and keywords to the post-processed solution", "statement": "For both formulations, every initial condition and every set of keyword arguments: solve(ic, **kwargs) asks scipy for exactly what the user requested (start x_ini in the right variable, x_end, one number per tracked variable, the user's events or none, method/rtol/atol as given or RK45/1e-10/1e-12, all other keywords unchanged). Whatever scipy answers in its documented shape, solve returns an object on which x and the named independent variable are the grid, each variable name is its own row, x_events/<variable>_events give for each event name the places and values of that very event, scipy's remaining attributes are untouched, and start, end, duration, mask, H, w, logaH, Omega_K are computed from exactly these grid points and events. The arrays begin with the values of the initial condition. If scipy sampled a solution and recorded events faithfully, N_beg, N_end, N_tot and inflation_mask describe exactly the accelerating phase, and are found whenever inflation starts and ends within the run. Errors of the initial condition and of scipy propagate; additional positional arguments are always rejected.", "quantifier": "every equation object, initial condition (slow roll, inflation start, shooting), keyword arguments, event list and scipy answer of the documented shape", "why_tests_cant": "tests run a few integrations and compare numbers; which array ends up under which name for every event list, and that nothing is dropped or mixed up, is a statement over all requests and answers", "anchors": ["primpy/solver.py:solve", "primpy/equations.py:Equations.sol", "primpy/inflation.py:InflationEquations.sol", "primpy/inflation.py:InflationEquations.postprocessing_inflation_start", "primpy/inflation.py:InflationEquations.postprocessing_inflation_end", "primpy/initialconditions.py:SlowRollIC.__call__"]}
{"id": "C91", "title": "What is reported about inflation depends on the initial state only; ISIC_Nt delivers N_tot through solve", "statement": "Two calls of solve on the same equations that hand scipy the same starting point and state report the same start (N_beg, H_beg, \u2026), the same end (N_end, phi_end, H_end, V_end, logaH_end) and the same N_tot whenever both report one \u2014 whatever events, end point, method, tolerances and other keywords they were given. Consequently solve(ISIC_Nt(equations, N_tot, phi_i_bracket, N_i or Omega_Ki), **kwargs), whose nested integrations use their own events and method, starts from InflationStartIC conditions with the requested N_i or Omega_Ki, and if the object it returns reports N_tot, this deviates from the requested one by no more than the residual the root finder left in its objective (nothing for an exact zero); it does report it whenever the end of inflation is tracked, no collapse is recorded and inflation happens and ends within the integrated range.", "quantifier": "both formulations, every potential with three derivatives, curvature, bracket, N_tot > 0, N_i or Omega_Ki, event list with plain inflation events, solver settings, and every faithful scipy run", "why_tests_cant": "tests compare N_tot for a handful of models at one tolerance; independence of events and settings, and that the objective vanishes at no other state, concerns every trajectory and every branch of the objective", "anchors": ["primpy/initialconditions.py: ISIC_Nt.__init__, ISIC_Nt.__call__, phii2Ntot", "primpy/solver.py: solve", "primpy/inflation.py: InflationEquations.sol, postprocessing_inflation_start, postprocessing_inflation_end"]}
{"id": "C92", "title": "After solve and calibrate_scale_factor, the pivot scale crosses the horizon where the trajectory says it does, to within one grid cell", "statement": "Call solve with any initial conditions, events and settings, and then calibrate_scale_factor on the returned object with any method and arguments except a copied background. If the calibration succeeds and the expansion accelerates throughout the interior of the reported phase of inflation, then there is exactly one point of that phase at which aH of the trajectory equals the pivot scale (K_STAR times a0_Mpc, and, after the shift delta_N_calib, K_STAR_lp times a0); N_cross is the number of e-folds of the trajectory at a point in the same cell of the returned grid and N_star the number of e-folds from there to the end of inflation; the cell lies in the phase of inflation; inside the cell N_cross is the linear interpolation in ln(aH); with calibration_method='N_star' the reported N_star is the requested one. A grid point in the cell's interior is skipped only if a grid point before inflation has the same aH.", "quantifier": "both formulations, flat, open and closed universes, every differentiable potential, every trajectory sampled by scipy on an increasing grid with faithfully recorded events, and every successful calibration (N_star, Omega_K0, reheating methods)", "why_tests_cant": "tests compare N_star and logaH_star of the object with one another, on a few models; that they describe the trajectory, and that the first-occurrence mask and the two inverse interpolations pick the right cell, has to hold for every trajectory, grid and curvature", "anchors": ["primpy/inflation.py: InflationEquations.sol, calibrate_scale_factor", "primpy/solver.py: solve"]}
{"id": "C93", "title": "ISIC_NsOk, used in solve, starts a universe whose pivot scale crosses the horizon N_star e-folds before the end of inflation for the requested curvature today, to within one grid cell", "statement": "Call solve on ISIC_NsOk(equations, N_star, Omega_K0, h, phi_i_bracket, ...) with N_star > 0 and a scale factor today above one Planck length, for any events and settings. If the shooting returns and scipy's runs from the initial conditions it found are faithful, then the object starts from the boundary-of-inflation conditions with the requested N_i or Omega_Ki; and if it reports N_tot, this exceeds N_star, the reported phase of inflation is one of the trajectory, and, if the expansion accelerates in its interior, aH of the trajectory passes the pivot scale K_STAR * a0_Mpc of the universe with the given Omega_K0 and h exactly once, in the same cell of the nested run's grid as the point N_star (up to the residual the root finder left in its objective) e-folds before the end. A calibration of the returned object with the same Omega_K0 and h reports an N_star that is that of a point in the same cell of its own grid.", "quantifier": "both formulations, all admissible (N_star, Omega_K0, h), every bracket, every curvature sign, every differentiable potential, every event list and solver setting of the outer call, every root finder, with any residual below N_star and the number of e-folds since the Planck length, and every integrator whose runs from the found state are faithful", "why_tests_cant": "tests run a handful of models and compare the calibrated N_star to a tolerance; they cannot show that every zero of the nested objective belongs to its calibration branch, that the outer run describes the same universe as the nested one, or bound the difference for all models by the grid cell", "anchors": ["primpy/initialconditions.py:ISIC_NsOk", "primpy/solver.py:solve", "primpy/inflation.py:calibrate_scale_factor", "primpy/bigbang.py:get_a0"]}
{"id": "C94", "title": "The slow-roll spectra of an integrated and calibrated background are those of the trajectory", "statement": "Call solve(ic, **kw), then calibrate_scale_factor(...) with one of the slow-roll methods for the spectra. If scipy's run is faithful, then at the wavenumber k = aH/a0 (1/Mpc) that leaves the horizon at a grid point of the reported inflationary phase (one whose aH occurs at no earlier grid point), P_s_approx and P_t_approx return: for CGS at order 0, H^2/(8 pi^2 eps_1) and 2 H^2/pi^2 of the integrated trajectory there, with eps_1 = -dlnH/dN; for CGS up to order 3 and STE, that times the published correction in the slow-roll parameters of the trajectory there; for LLMS and ARBDS, the published polynomials in ln(k/k_star) with the slow-roll parameters at pivot-scale crossing, which are interpolated linearly between two neighbouring grid points at the reported _N_cross. The parameters are true derivatives along the trajectory: eps_1, eps_2, dotted eps_1, delta_1 always, the higher ones in e-folds for every curvature and in cosmic time for flat universes.", "quantifier": "both formulations, every curvature, every potential with correct derivatives, every initial condition and setting of solve, every calibration, every interpolating spline, all grid points of the inflationary phase", "why_tests_cant": "tests compare spectra of a few models to tolerances; that the arrays, names, masks and units are combined without error for all runs, and that the numbers are the derivatives they stand for, quantifies over all trajectories and calibrations", "anchors": ["primpy/inflation.py:InflationEquations.sol", "primpy/inflation.py:P_s_approx", "primpy/inflation.py:P_t_approx", "primpy/inflation.py:derive_approx_power", "primpy/inflation.py:calibrate_scale_factor", "primpy/time/inflation.py", "primpy/efolds/inflation.py"]}
{"id": "C95", "title": "The numerical spectra of an integrated and calibrated background belong to the trajectory", "statement": "Call solve(ic, **kw), then calibrate_scale_factor(...), then solve_oscode(b, k, ...) with the resulting object. If scipy's run is faithful, solve_oscode finds every attribute it reads; the wavenumbers are reported in 1/Mpc with the conversion factor a0_Mpc of the calibration; and for every wavenumber the integrator is run on grid points of the trajectory, over at least 10 e-folds and until the mode is outside the horizon by fac_end, with the frequencies and damping terms of the equations of gravitational waves and of the curvature perturbation on the universe the trajectory describes (any curvature, both formulations): (M h')' + M omega^2 h = 0 with M = a^3 dx/dt for tensors, and with the additional factor q^2/(kappa^2 + K q^2/2), q = dphi/dN, for scalars. For a flat universe that rolls slowly to accuracy delta and a numerical run that is accurate to delta, the reported spectra agree to relative accuracy C delta, C an absolute constant, with what P_s_approx and P_t_approx of the same object return at the reported wavenumber, for CGS at every order and STE.", "quantifier": "both formulations, every curvature, every potential with correct derivatives, every initial condition and setting of solve, every calibration, every list of wavenumbers, every vacuum, every grid", "why_tests_cant": "tests compare a few models with loose tolerances; that arrays, names, grids and units of four modules fit together for all runs, and that the numbers passed to the integrator are the coefficients of the right differential equation, quantifies over all trajectories", "anchors": ["primpy/oscode_solver.py:solve_oscode", "primpy/perturbations.py:PrimordialPowerSpectrum", "primpy/time/perturbations.py", "primpy/efolds/perturbations.py", "primpy/inflation.py:calibrate_scale_factor", "primpy/inflation.py:P_s_approx", "primpy/solver.py:solve"]}
{"id": "C96", "title": "With an inexact integrator, what solve reports converges linearly in the integration error", "statement": "Let an expanding solution of the background equations over a range of the independent variable be given (any curvature, either formulation, any three times differentiable potential). There are a constant C and a threshold d0, depending only on that solution, such that for every integrator, grid, options and list of tracked events: if the integrator's initial error, the errors of its steps and its accumulated residual add up to d <= d0, then solve(...) succeeds; every returned variable, N, H, logaH, Omega_K (and w where the density is positive) is within C*d of the exact solution at every returned grid point; and if inflation ends once along the solution and its end is tracked, an end is reported, and N_beg, N_end, N_tot and phi, H, logaH, V at the end are those of the exact solution up to C*d, and inflation_mask is right at every grid point farther than C*d e-folds from start and end.", "quantifier": "every solution, potential, curvature, formulation; every integrator error up to the threshold, every grid and number of steps, every list of plain inflation events", "why_tests_cant": "tests compare runs at one tolerance; that errors cannot accumulate or be amplified beyond a constant on any grid, and that the reported end of inflation moves only in proportion to them, is a statement about all error histories", "anchors": ["primpy/solver.py:solve", "primpy/inflation.py:InflationEquations.sol", "primpy/time/inflation.py:InflationEquationsT.__call__", "primpy/efolds/inflation.py:InflationEquationsN.__call__", "primpy/events.py:InflationEvent"]}
{"id": "C97", "title": "A potential built from keywords evaluates its documented formula and that formula's derivatives", "statement": "For each of the fifteen potential classes: if cls(**kwargs) returns an object, then at every field phi, pot.V(phi) is the documented formula of the class with the parameters that were passed under their names and pot.Lambda; for sensible parameters dV, d2V, d3V are its first three derivatives wherever it is smooth, and d4V the fourth, except for the classes with a feature. Built with A_s and phi_star or N_star, the formula satisfies A_s = V^3/(12 pi^2 V'^2) at phi_star, or at sr_N2phi(N_star), for the classes without a feature. Through either equation object, V, dVdphi, d2Vdphi2 on a history of states are the potential and its derivatives along the field.", "quantifier": "every class, keyword dictionary and parameter values, every field, every history", "why_tests_cant": "tests evaluate a few parameter sets at a few fields with finite differences; equality with the formula and its derivatives for all parameters that can be passed quantifies over the reals", "anchors": ["primpy/potentials.py:InflationaryPotential", "primpy/potentials.py:FeaturePotential", "primpy/inflation.py:InflationEquations.d2Vdphi2"]}
{"id": "C98", "title": "From the keywords of the potential to the textbook universe and its spectra", "statement": "Friedmann and Klein-Gordon equations of one field have at most one expanding solution with given initial data. For each of the fifteen potential classes built from keywords with sensible parameters, in cosmic time or e-folds, flat or curved, with or without conformal time: every trajectory of the equations object is a solution of the textbook equations with the documented formula; solve(ic, **kw) returns phi, N, H and the velocity as the samples of the textbook solution with the requested initial data on the solver's grid; after calibrate_scale_factor the leading-order spectra at the wavenumber of a grid point of the phase are H^4/(8 pi^2 (v^2/2 - K/a^2)) and 2H^2/pi^2 of that solution. SlowRollIC requests the slow-roll velocity -V'/(3h), InflationStartIC the solution with v = -sqrt(V).", "quantifier": "every class, keyword dictionary, sensible parameters, equations object, initial condition, grid and textbook solution", "why_tests_cant": "tests compare a few runs with finite differences; existence of a unique solution and agreement with it for all potentials, parameters and initial data quantify over the reals and all trajectories", "anchors": ["primpy/potentials.py:InflationaryPotential", "primpy/time/inflation.py:InflationEquationsT", "primpy/efolds/inflation.py:InflationEquationsN", "primpy/solver.py:solve", "primpy/initialconditions.py:SlowRollIC", "primpy/initialconditions.py:InflationStartIC"]}
{"id": "C99", "title": "When the chain from solve to the spectra succeeds, and how it fails", "statement": "If solve's events are watched (InflationEvent(direction=-1) tracked, no collapse recorded, and the run starts in acceleration or InflationEvent(direction=+1) is tracked) and the trajectory accelerates somewhere and decelerates later, solve succeeds and returns an inflation_mask. For that object: in a flat universe calibrate_scale_factor(N_star=n) followed by the derivation of the approximate spectra succeeds exactly if n > 0 and two grid points of the reported phase bracket n e-folds before its end; InsufficientInflationError is raised when more e-folds are asked for than there are, a ValueError in every other failing case. In a curved universe calibrate_scale_factor(Omega_K0=O, h=h) succeeds exactly if h > 0, O has the sign opposite to the curvature, and two grid points with new values of aH bracket aH = K_STAR a0.", "quantifier": "every equations object, run, grid, calibration argument, spectrum method and order, every deterministic spline", "why_tests_cant": "tests calibrate a handful of well-behaved runs; exact success conditions and error kinds for every run and argument quantify over all trajectories and grids", "anchors": ["primpy/inflation.py:InflationEquations.sol", "primpy/inflation.py:calibrate_scale_factor", "primpy/inflation.py:derive_approx_power", "primpy/solver.py:solve"]}
{"id": "C100", "title": "Inflation ends, and solve finds the end", "statement": "In a flat universe whose field is caught between two walls (fields at which the potential is undefined, not positive or above the energy density) between which its logarithmic slope |V'/V| is at least c > 0, the accelerated expansion lasts at most 2/3 + (4 + 6 (b - a))/c e-folds and, in cosmic time, at most (e^B - 1)/H: there is no eternal inflation. A call of solve that starts accelerating, tracks the end of inflation and runs long enough, or is stopped by the end event, succeeds; the returned object has an inflation_mask, its phase begins at the start of the run, and N_tot is positive and within that bound. The fields of the monomial, Starobinsky, natural, T-model, radion-gauge and double-well potentials are caught whenever the energy density lies below the potential somewhere uphill, with an explicit c.", "quantifier": "all potentials with two derivatives, walls and slopes; all solutions of the background equations in either independent variable; all keyword dictionaries of the listed potential classes; all faithful runs", "why_tests_cant": "A test integrates finitely many potentials from finitely many states and sees that inflation ended there; that it ends for every initial state and parameter, and within a bound known beforehand, and that the run then always reports it, are statements about all solutions of the differential equation.", "anchors": ["primpy/solver.py:solve", "primpy/inflation.py:InflationEquations.sol", "primpy/events.py:InflationEvent", "primpy/time/inflation.py:InflationEquationsT.__call__", "primpy/efolds/inflation.py:InflationEquationsN.__call__", "primpy/potentials.py"]}
{"id": "C101", "title": "The Cobaya wrapper reports a textbook universe", "statement": "Whenever SlowRollPPS.calculate returns, what it stores describes one solution of the textbook equations of a flat universe: that of the chosen potential with the sampled parameters and some amplitude, whose field starts on the slow-roll trajectory (at most at the parameter phi0, if that is sampled). The stored phi_end, V_end, H_end are that universe's values at the moment its accelerated expansion ends; at the wavenumber k = aH/a0 of each grid point of that phase the stored scalar and tensor spectra are the third-order slow-roll expressions in that universe's own slow-roll parameters at that moment; and two points of the integration grid enclose both the horizon crossing of the pivot scale and the moment N_star e-folds before the end. A sampled reheating density never exceeds the wrapper's bound, one third of that universe's energy density at the last grid point of the phase.", "quantifier": "all potential classes with admissible parameters, sampled parameter combinations (N_star, n_s, A_s, reheating), numbers of passes of the amplitude loop, wavenumber lists and faithful integrations", "why_tests_cant": "The wrapper is called by a sampler with arbitrary parameter values, integrates several times and mutates the solution through calibrations; that whatever it finally stores belongs to a single true universe is a statement about all parameters and all such histories.", "anchors": ["cobaya_wrapper/slowroll_pps.py:SlowRollPPS.calculate", "primpy/solver.py:solve", "primpy/initialconditions.py:SlowRollIC", "primpy/inflation.py:InflationEquations.sol", "primpy/inflation.py:calibrate_scale_factor", "primpy/inflation.py:derive_approx_power"]}
{"id": "C102", "title": "Calibrating a flat universe by its reheating history", "statement": "For the object that solve returns for a flat universe once it has found inflation, calibrate_scale_factor(calibration_method='reheating') with any admissible history (instant; equation of state w_reh and duration DeltaN_reh; or w_reh and rho_reh_GeV) puts the end of inflation at the one scale factor for which the plasma at the end of reheating, whose density follows from 3V/2 at the end of inflation by the dilution law, cools at conserved entropy to the CMB temperature today. It succeeds, and the spectra can be derived, exactly if two grid points of the inflationary phase then enclose the pivot scale. If the pivot scale lies outside the range of aH over the phase the error is InsufficientInflationError, otherwise ValueError; inadmissible histories raise ValueError. After success N0 = 0, N_end and N_reh are that scale factor and the end of reheating.", "quantifier": "all flat universes, potentials, grids, faithful integrations and starting points for which solve reports inflation (strictly accelerating inside the phase for the success criterion), all reheating histories and degrees of freedom", "why_tests_cant": "Whether a given history puts the pivot scale on the grid depends on the whole solution; a test compares the calibrated numbers of one run with those of another branch of the same code.", "anchors": ["primpy/inflation.py:calibrate_scale_factor", "primpy/reheating.py:is_instant_reheating", "primpy/solver.py:solve", "primpy/inflation.py:derive_approx_power"]}
{"id": "C103", "title": "Calibrating a curved universe by its reheating history", "statement": "For the object that solve returns for a closed or open universe once it has found inflation, calibrate_scale_factor(calibration_method='reheating', h=h) with an admissible history (instant; w_reh and DeltaN_reh; or pressureless w_reh = 0 and rho_reh_GeV; for other w_reh with rho_reh_GeV the code is wrong, C35) puts today at the one scale factor for which the plasma at the end of reheating cools at conserved entropy to the CMB temperature. That scale factor is N0 and a0_Mpc of the result, Omega_K0 is the density parameter that this curvature radius and h mean, N_end is unchanged and N_reh is the end of reheating. It succeeds, with the spectra, exactly if two grid points of the phase with new values of aH enclose the pivot scale; if all such points lie on one side of it the error is InsufficientInflationError; h <= 0 and inadmissible histories raise ValueError.", "quantifier": "all curved universes, potentials, grids, faithful integrations and starting points for which solve reports inflation, all reheating histories, h and degrees of freedom", "why_tests_cant": "In a curved universe the scale factor is not free, so a history either fits the integrated solution or it does not; this must be decided correctly for every solution and history.", "anchors": ["primpy/inflation.py:calibrate_scale_factor", "primpy/reheating.py:is_instant_reheating", "primpy/solver.py:solve", "primpy/inflation.py:derive_approx_power"]}
{"id": "C104", "title": "One reheating history, one calibration, however it is described", "statement": "calibrate_scale_factor(calibration_method='reheating') depends on the reheating history only, not on which parameters describe it. All ways to ask for instant reheating (no parameter, w_reh=1/3, DeltaN_reh=0, DeltaN_minus1=0, or any combination of them) give the same calibrated object and spectra, or the same error, in flat and curved universes. In a flat universe a phase of DeltaN_reh>0 e-folds with equation of state w_reh, at the end of which the density is rho, gives the same calibrated object and spectra (or error) through (w_reh, DeltaN_reh), (w_reh, rho_reh_GeV) or (DeltaN_minus1, rho_reh_GeV); given DeltaN_minus1 alone, the error is the same, or the spectra and the calibration are the same up to the end of reheating, which is then unknown. In a curved universe the first two agree for pressureless reheating (for other w_reh they do not, C35).", "quantifier": "all solution objects that have found inflation, all histories with -1/3 <= w_reh != 1/3 and positive duration, potential energies, degrees of freedom, spectrum methods and orders", "why_tests_cant": "The branches compute the same quantities by different formulas; that they agree on every history and every solution, including the error paths and every attribute, is an identity over real parameters and arbitrary arrays.", "anchors": ["primpy/inflation.py:calibrate_scale_factor", "primpy/reheating.py:is_instant_reheating", "primpy/inflation.py:derive_approx_power"]}
