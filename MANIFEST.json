{
 "claims": [
  {
   "property": "C01",
   "status": "proved",
   "theorems": [
    "Primpy.C01_monomial",
    "Primpy.C01_monomial_at_zero",
    "Primpy.C01_linear_cubic_quartic",
    "Primpy.C01_quadratic",
    "Primpy.C01_starobinsky",
    "Primpy.C01_natural",
    "Primpy.C01_doublewell",
    "Primpy.C01_doublewell2_4",
    "Primpy.C01_tmodel",
    "Primpy.C01_radiongauge",
    "Primpy.C01_radiongauge2"
   ],
   "note": ""
  },
  {
   "property": "C02",
   "status": "partial",
   "theorems": [
    "Primpy.C02_feature_chain_partial",
    "Primpy.C02_gaussian_feature",
    "Primpy.C02_tanh_feature",
    "Primpy.C02_starobinsky_gaussian_partial",
    "Primpy.C02_starobinsky_tanh_partial",
    "Primpy.C02_gaussian_d4V_wrong",
    "Primpy.C02_tanh_d4V_wrong"
   ],
   "note": "V..d3V proved for every base chain and every feature, and for both shipped classes. d4V (inherited from the featureless base) is proved wrong (C02_*_d4V_wrong), so the full chain is false."
  },
  {
   "property": "C03",
   "status": "proved",
   "theorems": [
    "Primpy.C03_monomial",
    "Primpy.C03_quadratic",
    "Primpy.C03_starobinsky",
    "Primpy.C03_natural",
    "Primpy.C03_doublewell",
    "Primpy.C03_tmodel",
    "Primpy.C03_radiongauge",
    "Primpy.C03_linear_cubic_quartic",
    "Primpy.C03_hierarchy_logderiv",
    "Primpy.C03_feature_epsilon_wrong"
   ],
   "note": ""
  },
  {
   "property": "C04",
   "status": "proved",
   "theorems": [
    "Primpy.C04_monomial",
    "Primpy.C04_quadratic",
    "Primpy.C04_starobinsky",
    "Primpy.C04_natural",
    "Primpy.C04_doublewell",
    "Primpy.C04_tmodel",
    "Primpy.C04_radiongauge"
   ],
   "note": ""
  },
  {
   "property": "C05",
   "status": "proved",
   "theorems": [
    "Primpy.C05_monomial",
    "Primpy.C05_starobinsky",
    "Primpy.C05_natural",
    "Primpy.C05_tmodel",
    "Primpy.C05_doublewell",
    "Primpy.C05_doublewell2",
    "Primpy.C05_doublewell4",
    "Primpy.C05_doublewell4_consistent",
    "Primpy.C05_radiongauge",
    "Primpy.C05_radiongauge2",
    "Primpy.C05_monomial_subclasses"
   ],
   "note": ""
  },
  {
   "property": "C06",
   "status": "proved",
   "theorems": [
    "Primpy.C06_monomial",
    "Primpy.C06_quadratic",
    "Primpy.C06_starobinsky",
    "Primpy.C06_natural",
    "Primpy.C06_doublewell",
    "Primpy.C06_tmodel",
    "Primpy.C06_radiongauge",
    "Primpy.C06_integral",
    "Primpy.C06_starobinsky_integral"
   ],
   "note": ""
  },
  {
   "property": "C07",
   "status": "partial",
   "theorems": [
    "Primpy.C07_monomial",
    "Primpy.C07_monomial_subclasses",
    "Primpy.C07_starobinsky",
    "Primpy.C07_natural",
    "Primpy.C07_tmodel",
    "Primpy.C07_radiongauge",
    "Primpy.C07_radiongauge2",
    "Primpy.C07_doublewell_partial",
    "Primpy.C07_doublewell_range"
   ],
   "note": "Exact inverse proved for all classes with a formula or a root finder. The general double well uses a linear interpolation table: proved exact at the nodes, off by at most one spacing elsewhere, ValueError outside; an exact inverse is false."
  },
  {
   "property": "C08",
   "status": "proved",
   "theorems": [
    "Primpy.C08_monomial_ns",
    "Primpy.C08_monomial_r",
    "Primpy.C08_monomial_subclasses",
    "Primpy.C08_starobinsky_ns",
    "Primpy.C08_starobinsky_r",
    "Primpy.C08_natural_ns_forward",
    "Primpy.C08_natural_ns_back",
    "Primpy.C08_natural_ns_error",
    "Primpy.C08_natural_r"
   ],
   "note": ""
  },
  {
   "property": "C09",
   "status": "proved",
   "theorems": [
    "Primpy.C09_from_Nstar",
    "Primpy.C09_from_phistar",
    "Primpy.C09_bad_arguments",
    "Primpy.C09_forgets_Lambda",
    "Primpy.C09_monomial",
    "Primpy.C09_quadratic",
    "Primpy.C09_starobinsky",
    "Primpy.C09_natural",
    "Primpy.C09_doublewell",
    "Primpy.C09_doublewell2",
    "Primpy.C09_tmodel",
    "Primpy.C09_radiongauge",
    "Primpy.C09_radiongauge2",
    "Primpy.C09_feature",
    "Primpy.C09_hits_monomial",
    "Primpy.C09_hits_quadratic",
    "Primpy.C09_hits_starobinsky",
    "Primpy.C09_hits_natural",
    "Primpy.C09_hits_tmodel",
    "Primpy.C09_hits_radiongauge2",
    "Primpy.C09_hits_searched"
   ],
   "note": ""
  },
  {
   "property": "C10",
   "status": "proved",
   "theorems": [
    "Primpy.C10_Lambda_only",
    "Primpy.C10_unknown_without_As",
    "Primpy.C10_As_alone",
    "Primpy.C10_As_both",
    "Primpy.C10_As_Nstar",
    "Primpy.C10_As_phistar",
    "Primpy.C10_unknown_with_As"
   ],
   "note": ""
  },
  {
   "property": "C11",
   "status": "proved",
   "theorems": [
    "Primpy.C11_monomial",
    "Primpy.C11_monomial_subclasses",
    "Primpy.C11_natural"
   ],
   "note": ""
  },
  {
   "property": "C12",
   "status": "proved",
   "theorems": [
    "Primpy.C12_quadratic",
    "Primpy.C12_linear_cubic_quartic",
    "Primpy.C12_even"
   ],
   "note": ""
  },
  {
   "property": "C13",
   "status": "partial",
   "theorems": [
    "Primpy.C13_epsilon_1",
    "Primpy.C13_epsilon_2",
    "Primpy.C13_epsilon_3_partial",
    "Primpy.C13_epsilon_3_second_order",
    "Primpy.C13_epsilon_4_partial",
    "Primpy.C13_epsilon_4_first_order",
    "Primpy.C13_epsilon_4_not_second_order",
    "Primpy.C13_epsilon_3_not_third_order"
   ],
   "note": "epsilon_1, epsilon_2: third order proved. epsilon_3, epsilon_4: accuracy proved with the missing e5V term added, second/first order without it, and the claimed order disproved."
  },
  {
   "property": "C14",
   "status": "partial",
   "theorems": [
    "Primpy.C14_first_second",
    "Primpy.C14_higher_formulas",
    "Primpy.C14_flat_partial",
    "Primpy.C14_curved_d3phi_wrong"
   ],
   "note": "Flat: every derivative. Curved: dH, d2H, d2phi and all formulas given the true lower derivatives; d3phi (hence d3H, d4phi) is proved wrong for K != 0."
  },
  {
   "property": "C15",
   "status": "proved",
   "theorems": [
    "Primpy.C15_derivatives"
   ],
   "note": ""
  },
  {
   "property": "C16",
   "status": "partial",
   "theorems": [
    "Primpy.C16_state",
    "Primpy.C16_derivs",
    "Primpy.C16_higher_derivs",
    "Primpy.C16_formulas",
    "Primpy.C16_parameters",
    "Primpy.C16_parameters_flat_partial",
    "Primpy.C16_curved_delta2_differs"
   ],
   "note": "Everything but epsilon_3, delta_2, delta_3 for all K; those for K = 0 (false for K != 0 because of get_d3phi)."
  },
  {
   "property": "C17",
   "status": "proved",
   "theorems": [
    "Primpy.C17_acceleration_T",
    "Primpy.C17_criteria_T",
    "Primpy.C17_criteria_N",
    "Primpy.C17_acceleration_N"
   ],
   "note": ""
  },
  {
   "property": "C18",
   "status": "partial",
   "theorems": [
    "Primpy.C18_efolds",
    "Primpy.C18_time_flat_partial",
    "Primpy.C18_time_curved_low"
   ],
   "note": "E-folds: all K. Cosmic time: flat; curved third-order parameters inherit the get_d3phi defect (C14)."
  },
  {
   "property": "C19",
   "status": "proved",
   "theorems": [
    "Primpy.C19_time_iff",
    "Primpy.C19_raychaudhuri",
    "Primpy.C19_efolds",
    "Primpy.C19_efolds_conv",
    "Primpy.C19_time_to_efolds",
    "Primpy.C19_efolds_to_time"
   ],
   "note": ""
  },
  {
   "property": "C20",
   "status": "proved",
   "theorems": [
    "Primpy.C20_logaH_T",
    "Primpy.C20_crossing_unique_T",
    "Primpy.C20_H_T",
    "Primpy.C20_N_T",
    "Primpy.C20_eta_T",
    "Primpy.C20_logaH_N",
    "Primpy.C20_crossing_unique_N",
    "Primpy.C20_H_N",
    "Primpy.C20_t_eta_N"
   ],
   "note": ""
  },
  {
   "property": "C21",
   "status": "proved",
   "theorems": [
    "Primpy.C21_bijection",
    "Primpy.C21_accessors",
    "Primpy.C21_readd_out_of_range",
    "Primpy.C21_readd_collision",
    "Primpy.C21_shipped_T",
    "Primpy.C21_shipped_N",
    "Primpy.C21_shipped_rows_T",
    "Primpy.C21_shipped_rows_N"
   ],
   "note": ""
  },
  {
   "property": "C22",
   "status": "proved",
   "theorems": [
    "Primpy.C22_postprocessing",
    "Primpy.C22_distinct_keys",
    "Primpy.C22_no_events",
    "Primpy.C22_variable_named_y"
   ],
   "note": ""
  },
  {
   "property": "C23",
   "status": "proved",
   "theorems": [
    "Primpy.C23_T",
    "Primpy.C23_N",
    "Primpy.C23_modeExit",
    "Primpy.C23_inflation_T",
    "Primpy.C23_inflation_N",
    "Primpy.C23_guard",
    "Primpy.C23_guard_zero",
    "Primpy.C23_no_guard"
   ],
   "note": ""
  },
  {
   "property": "C24",
   "status": "proved",
   "theorems": [
    "Primpy.C24_start_key",
    "Primpy.C24_end_key",
    "Primpy.C24_collapse_key",
    "Primpy.C24_end_warning",
    "Primpy.C24_no_clash",
    "Primpy.C24_end_warning_kinds",
    "Primpy.C24_still_inflating_time",
    "Primpy.C24_still_inflating_efolds",
    "Primpy.C24_start_warning_wrong",
    "Primpy.C24_terminal_start_missed"
   ],
   "note": ""
  },
  {
   "property": "C25",
   "status": "proved",
   "theorems": [
    "Primpy.C25_starts_inflating_T",
    "Primpy.C25_starts_inflating_N",
    "Primpy.C25_start",
    "Primpy.C25_start_warning",
    "Primpy.C25_end",
    "Primpy.C25_duration_mask",
    "Primpy.C25_Omega_K",
    "Primpy.C25_finite",
    "Primpy.C25_end_state_T"
   ],
   "note": ""
  },
  {
   "property": "C26",
   "status": "proved",
   "theorems": [
    "Primpy.C26_slowroll",
    "Primpy.C26_inflationstart",
    "Primpy.C26_rows_covered"
   ],
   "note": ""
  },
  {
   "property": "C27",
   "status": "proved",
   "theorems": [
    "Primpy.C27_N_to_Omega_start",
    "Primpy.C27_Omega_to_N_start",
    "Primpy.C27_N_to_Omega_slowroll",
    "Primpy.C27_Omega_to_N_slowroll",
    "Primpy.C27_friedmann_start"
   ],
   "note": ""
  },
  {
   "property": "C28",
   "status": "proved",
   "theorems": [
    "Primpy.C28_T",
    "Primpy.C28_N",
    "Primpy.C28_N_singular"
   ],
   "note": ""
  },
  {
   "property": "C29",
   "status": "proved",
   "theorems": [
    "Primpy.C29_T",
    "Primpy.C29_N",
    "Primpy.C29_T_vs_N"
   ],
   "note": ""
  },
  {
   "property": "C30",
   "status": "proved",
   "theorems": [
    "Primpy.C30_slowroll",
    "Primpy.C30_inflationstart",
    "Primpy.C30_call",
    "Primpy.C30_boundary_accepted",
    "Primpy.C30_boundary_slowroll",
    "Primpy.C30_wrong_sign_accepted",
    "Primpy.C30_T_without_t_i"
   ],
   "note": ""
  },
  {
   "property": "C31",
   "status": "proved",
   "theorems": [
    "Primpy.Shooting.C31_N_tot",
    "Primpy.Shooting.C31_objective",
    "Primpy.Shooting.C31_aborted",
    "Primpy.Shooting.C31_too_short",
    "Primpy.Shooting.C31_N_star"
   ],
   "note": ""
  },
  {
   "property": "C32",
   "status": "proved",
   "theorems": [
    "Primpy.C32_table",
    "Primpy.C32_examples"
   ],
   "note": ""
  },
  {
   "property": "C33",
   "status": "proved",
   "theorems": [
    "Primpy.C33_success",
    "Primpy.C33_no_inflation",
    "Primpy.C33_flat_errors",
    "Primpy.C33_curved_errors",
    "Primpy.C33_default",
    "Primpy.C33_insufficient",
    "Primpy.C33_N_star_reheating",
    "Primpy.C33_warnings",
    "Primpy.C33_ignored",
    "Primpy.C33_reheating_ignores_N_star"
   ],
   "note": ""
  },
  {
   "property": "C34",
   "status": "proved",
   "theorems": [
    "Primpy.C34_flat_N_star",
    "Primpy.C34_on_grid",
    "Primpy.C34_before_first_gridpoint"
   ],
   "note": ""
  },
  {
   "property": "C35",
   "status": "partial",
   "theorems": [
    "Primpy.C35_flat",
    "Primpy.C35_flat_N_star",
    "Primpy.C35_curved_Omega_K0",
    "Primpy.C35_curved_reheating_partial",
    "Primpy.C35_curved_w_rho_iff",
    "Primpy.C35_flat_agreement",
    "Primpy.C35_duration_density_refused",
    "Primpy.C35_curved_w_rho_false"
   ],
   "note": "The flat cases and the curved Omega_K0 case are proved in full. The curved reheating case is false as written for the pair w_reh + rho_reh (the code's DeltaN_reh agrees with the dilution law only for w_reh = 0 or instant reheating: C35_curved_w_rho_iff, C35_curved_w_rho_false); C35_curved_reheating_partial proves the remaining specifications."
  },
  {
   "property": "C36",
   "status": "proved",
   "theorems": [
    "Primpy.C36_N_star_to_DeltaN_minus1",
    "Primpy.C36_N_star_to_reheating",
    "Primpy.C36_reheating_to_N_star"
   ],
   "note": ""
  },
  {
   "property": "C37",
   "status": "proved",
   "theorems": [
    "Primpy.C37_Omega_K0_a0",
    "Primpy.C37_reheating_to_Omega_K0"
   ],
   "note": ""
  },
  {
   "property": "C38",
   "status": "partial",
   "theorems": [
    "Primpy.C38_modes",
    "Primpy.C38_k",
    "Primpy.C38_horizon_end",
    "Primpy.C38_increasing",
    "Primpy.C38_idempotent_flat",
    "Primpy.C38_idempotent_background",
    "Primpy.C38_idempotent_curved",
    "Primpy.C38_not_idempotent"
   ],
   "note": "Mode range, horizon-crossing meaning and monotonicity proved. Repeating the same call is proved to change nothing for curved universes, for copied backgrounds, and for flat universes whenever no in-inflation grid point repeats the aH of an earlier grid point; C38_not_idempotent exhibits a flat solution on which the statement is false without that condition (np.unique keeps the first index over the whole grid)."
  },
  {
   "property": "C39",
   "status": "partial",
   "theorems": [
    "Primpy.C39_history_partial",
    "Primpy.C39_H_star_stale",
    "Primpy.C39_rho_reh_mp4_stale",
    "Primpy.C39_background_stale"
   ],
   "note": "History independence proved except for H_star / rho_reh_mp4 (left stale by some branches, proved false by C39_H_star_stale, C39_rho_reh_mp4_stale) and copied backgrounds with a different end of inflation (C39_background_stale)."
  },
  {
   "property": "C40",
   "status": "partial",
   "theorems": [
    "Primpy.Approx.C40_CGS",
    "Primpy.Approx.C40_CGS_missing",
    "Primpy.Approx.C40_ARBDS",
    "Primpy.Approx.C40_LLMS_STE_calibrated",
    "Primpy.Approx.C40_LLMS_STE_requested",
    "Primpy.Approx.C40_first_request",
    "Primpy.Approx.C40_up_to_date_partial",
    "Primpy.Approx.C40_unknown",
    "Primpy.Approx.C40_stale",
    "Primpy.Approx.C40_unknown_history"
   ],
   "note": "Full description of which calibration answers a request is proved for every history; the claim itself is false in general (C40_stale, C40_unknown_history)."
  },
  {
   "property": "C41",
   "status": "proved",
   "theorems": [
    "Primpy.Approx.C41_parameters",
    "Primpy.Approx.C41_background",
    "Primpy.Approx.C41_LLMS",
    "Primpy.Approx.C41_set_ns",
    "Primpy.Approx.C41_set_ns_refuses",
    "Primpy.Approx.C41_root_exists"
   ],
   "note": ""
  },
  {
   "property": "C42",
   "status": "proved",
   "theorems": [
    "Primpy.C42_today",
    "Primpy.C42_friedmann",
    "Primpy.C42_units",
    "Primpy.C42_errors",
    "Primpy.C42_Omega_r0",
    "Primpy.C42_a0",
    "Primpy.C42_a0_flat_ignores_units",
    "Primpy.C42_N_BBN"
   ],
   "note": ""
  },
  {
   "property": "C43",
   "status": "proved",
   "theorems": [
    "Primpy.C43_line_iff",
    "Primpy.C43_discriminant",
    "Primpy.C43_no_error_no_nan",
    "Primpy.C43_bounce_raises",
    "Primpy.C43_radiation_gap"
   ],
   "note": ""
  },
  {
   "property": "C44",
   "status": "partial",
   "theorems": [
    "Primpy.C44_line_iff",
    "Primpy.C44_sign",
    "Primpy.C44_warning_sound",
    "Primpy.C44_no_warning_partial",
    "Primpy.C44_missed_recollapse"
   ],
   "note": "A warning implies a recollapse; no warning implies none for the radiation-free universe. With radiation the converse is false (C44_missed_recollapse)."
  },
  {
   "property": "C45",
   "status": "proved",
   "theorems": [
    "Primpy.C45_horizon",
    "Primpy.C45_today",
    "Primpy.C45_units",
    "Primpy.C45_conformal_time",
    "Primpy.C45_array",
    "Primpy.C45_ratio"
   ],
   "note": ""
  },
  {
   "property": "C46",
   "status": "proved",
   "theorems": [
    "Primpy.C46_recovers",
    "Primpy.C46_dilution",
    "Primpy.C46_instant"
   ],
   "note": ""
  },
  {
   "property": "C47",
   "status": "proved",
   "theorems": [
    "Primpy.Pert.C47_solves",
    "Primpy.Pert.C47_degenerate",
    "Primpy.Pert.C47_dense"
   ],
   "note": ""
  },
  {
   "property": "C48",
   "status": "proved",
   "theorems": [
    "Primpy.Pert.C48_single",
    "Primpy.Pert.C48_array",
    "Primpy.Pert.C48_value",
    "Primpy.Pert.C48_not_frozen"
   ],
   "note": ""
  },
  {
   "property": "C49",
   "status": "proved",
   "theorems": [
    "Primpy.Pert.C49_scalar",
    "Primpy.Pert.C49_tensor",
    "Primpy.Pert.C49_frequency"
   ],
   "note": ""
  },
  {
   "property": "C50",
   "status": "proved",
   "theorems": [
    "Primpy.Pert.C50_scalar_weight",
    "Primpy.Pert.C50_tensor_weight",
    "Primpy.Pert.C50_flat_frequency",
    "Primpy.Pert.C50_flat_canonical"
   ],
   "note": ""
  },
  {
   "property": "C51",
   "status": "partial",
   "theorems": [
    "Primpy.Pert.C51_scalar_normalised",
    "Primpy.Pert.C51_tensor_normalised",
    "Primpy.Pert.C51_scalar_same",
    "Primpy.Pert.C51_tensor_same",
    "Primpy.Pert.C51_scalar_HD_flat_partial",
    "Primpy.Pert.C51_HD_curved_differs",
    "Primpy.Pert.C51_HD_frequency"
   ],
   "note": "All vacua in both formulations except the scalar HD vacuum of curved universes, which is proved to differ (C51_HD_curved_differs)."
  },
  {
   "property": "C52",
   "status": "proved",
   "theorems": [
    "Primpy.Pert.C52_start",
    "Primpy.Pert.C52_stop",
    "Primpy.Pert.C52_stop_outside",
    "Primpy.Pert.C52_error",
    "Primpy.Pert.C52_arguments",
    "Primpy.Pert.C52_coefficients"
   ],
   "note": ""
  },
  {
   "property": "C53",
   "status": "proved",
   "theorems": [
    "Primpy.Pert.C53_filled",
    "Primpy.Pert.C53_errors",
    "Primpy.Pert.C53_vacua"
   ],
   "note": ""
  },
  {
   "property": "C54",
   "status": "partial",
   "theorems": [
    "Primpy.Pert.C54_scalar_RST_partial",
    "Primpy.Pert.C54_others_untouched",
    "Primpy.Pert.C54_tensor_not_dropped"
   ],
   "note": "Proved for P_s_RST; proved false for the tensor spectra and the other vacua."
  },
  {
   "property": "C55",
   "status": "proved",
   "theorems": [
    "Primpy.C55_flat_relations_T",
    "Primpy.C55_flat_relations_N",
    "Primpy.C55_r_leading",
    "Primpy.C55_leading",
    "Primpy.C55_CGS_STE_scalar",
    "Primpy.C55_CGS_STE_tensor",
    "Primpy.C55_LLMS_STE_scalar",
    "Primpy.C55_LLMS_STE_tensor",
    "Primpy.C55_ARBDS_STE_scalar",
    "Primpy.C55_ARBDS_STE_tensor",
    "Primpy.C55_first_order",
    "Primpy.C55_ARBDS_not_second_order",
    "Primpy.C55_flow_derivatives",
    "Primpy.C55_tilt",
    "Primpy.C55_ARBDS_tilt",
    "Primpy.C55_running"
   ],
   "note": ""
  },
  {
   "property": "C56",
   "status": "proved",
   "theorems": [
    "Primpy.C56_planck",
    "Primpy.C56_unique",
    "Primpy.C56_GeV",
    "Primpy.C56_radiation",
    "Primpy.C56_g0",
    "Primpy.C56_pivot"
   ],
   "note": ""
  },
  {
   "property": "C57",
   "status": "proved",
   "theorems": [
    "Primpy.Wrap.C57_scalar",
    "Primpy.Wrap.C57_tensor",
    "Primpy.Wrap.C57_raises",
    "Primpy.Wrap.C57_feature_crash",
    "Primpy.Wrap.C57_oscillation_needs_all",
    "Primpy.Wrap.C57_oscillation",
    "Primpy.Wrap.C57_cutoff",
    "Primpy.Wrap.C57_grid"
   ],
   "note": ""
  },
  {
   "property": "C58",
   "status": "proved",
   "theorems": [
    "Primpy.Wrap.C58_success",
    "Primpy.Wrap.C58_integrated",
    "Primpy.Wrap.C58_failure",
    "Primpy.Wrap.C58_rescale",
    "Primpy.Wrap.C58_converges",
    "Primpy.Wrap.C58_N_star_drift",
    "Primpy.Wrap.C58_w_reh_ignored"
   ],
   "note": ""
  },
  {
   "property": "C59",
   "status": "partial",
   "theorems": [
    "Primpy.Wrap.C59_check",
    "Primpy.Wrap.C59_partial",
    "Primpy.Wrap.C59_instant_rejected",
    "Primpy.Wrap.C59_roundtrip_rejected"
   ],
   "note": "Densities above the end-of-inflation density are rejected; the converse is false (spurious factor 1/3)."
  },
  {
   "property": "C60",
   "status": "proved",
   "theorems": [
    "Primpy.Version.C60_accepts_iff",
    "Primpy.Version.C60_bump",
    "Primpy.Version.C60_components",
    "Primpy.Version.C60_unknown_type",
    "Primpy.Version.C60_from_prerelease",
    "Primpy.Version.C60_finalise",
    "Primpy.Version.C60_string_reject",
    "Primpy.Version.C60_string_accept",
    "Primpy.Version.C60_end_to_end",
    "Primpy.Version.C60_same_release",
    "Primpy.Version.C60_unchanged_fails"
   ],
   "note": ""
  },
  {
   "property": "C61",
   "status": "proved",
   "theorems": [
    "Primpy.C61_starobinsky",
    "Primpy.C61_natural",
    "Primpy.C61_natural_error",
    "Primpy.C61_doublewell2",
    "Primpy.C61_doublewell4"
   ],
   "note": ""
  },
  {
   "property": "C62",
   "status": "proved",
   "theorems": [
    "Primpy.Pert.C62_points",
    "Primpy.Pert.C62_spectra"
   ],
   "note": ""
  },
  {
   "property": "C63",
   "status": "proved",
   "theorems": [
    "Primpy.Pert.C63_matching",
    "Primpy.Pert.C63_unique",
    "Primpy.Pert.C63_dense",
    "Primpy.Pert.C63_scalar_commutator",
    "Primpy.Pert.C63_scalar_flat",
    "Primpy.Pert.C63_tensor"
   ],
   "note": ""
  },
  {
   "property": "C64",
   "status": "proved",
   "theorems": [
    "Primpy.Pert.C64_single",
    "Primpy.Pert.C64_array",
    "Primpy.Pert.C64_efolds",
    "Primpy.Pert.C64_time"
   ],
   "note": ""
  },
  {
   "property": "C65",
   "status": "proved",
   "theorems": [
    "Primpy.C65_time",
    "Primpy.C65_efolds",
    "Primpy.C65_events",
    "Primpy.C65_active",
    "Primpy.C65_attributes"
   ],
   "note": ""
  },
  {
   "property": "C66",
   "status": "proved",
   "theorems": [
    "Primpy.C66_parameters_time",
    "Primpy.C66_parameters_efolds",
    "Primpy.Approx.C66_derive",
    "Primpy.Approx.C66_evaluate",
    "Primpy.Approx.C66_pivot"
   ],
   "note": ""
  },
  {
   "property": "C67",
   "status": "proved",
   "theorems": [
    "Primpy.C67_time_unique",
    "Primpy.C67_efolds_unique",
    "Primpy.C67_time_exists",
    "Primpy.C67_efolds_exists",
    "Primpy.C67_same_universe"
   ],
   "note": ""
  },
  {
   "property": "C68",
   "status": "proved",
   "theorems": [
    "Primpy.C68_stored",
    "Primpy.C68_w_time",
    "Primpy.C68_w_efolds",
    "Primpy.C68_epsilon_time",
    "Primpy.C68_epsilon_efolds",
    "Primpy.C68_flat_time",
    "Primpy.C68_flat_efolds",
    "Primpy.C68_expands",
    "Primpy.C68_velocity",
    "Primpy.C68_conservation_time",
    "Primpy.C68_conservation_efolds",
    "Primpy.C68_dilution_time",
    "Primpy.C68_dilution_efolds"
   ],
   "note": ""
  },
  {
   "property": "C69",
   "status": "proved",
   "theorems": [
    "Primpy.C69_monomial",
    "Primpy.C69_quadratic",
    "Primpy.C69_starobinsky",
    "Primpy.C69_starobinsky_shape",
    "Primpy.C69_natural",
    "Primpy.C69_doublewell",
    "Primpy.C69_doublewell_symmetric",
    "Primpy.C69_tmodel",
    "Primpy.C69_radiongauge",
    "Primpy.C69_radiongauge_mu",
    "Primpy.C69_gaussian_dip",
    "Primpy.C69_tanh_step",
    "Primpy.C69_feature_limits",
    "Primpy.C69_no_feature",
    "Primpy.C69_expands"
   ],
   "note": ""
  },
  {
   "property": "C70",
   "status": "proved",
   "theorems": [
    "Primpy.Wrap.C70_complete",
    "Primpy.Wrap.C70_state",
    "Primpy.Wrap.C70_reheating",
    "Primpy.Wrap.C70_end",
    "Primpy.Wrap.C70_requested",
    "Primpy.Wrap.C70_tilt",
    "Primpy.Wrap.C70_start_natural",
    "Primpy.Wrap.C70_start_doublewell"
   ],
   "note": ""
  },
  {
   "property": "C71",
   "status": "proved",
   "theorems": [
    "Primpy.C71_pivot_scalar",
    "Primpy.C71_pivot_tensor",
    "Primpy.C71_horizon_crossing",
    "Primpy.C71_third_order_drift",
    "Primpy.C71_conformal_time",
    "Primpy.C71_LLMS"
   ],
   "note": ""
  },
  {
   "property": "C72",
   "status": "proved",
   "theorems": [
    "Primpy.C72_second_order",
    "Primpy.C72_third_order_gap",
    "Primpy.C72_not_third_order",
    "Primpy.C72_shift",
    "Primpy.C72_relations_T",
    "Primpy.C72_relations_N"
   ],
   "note": ""
  },
  {
   "property": "C73",
   "status": "proved",
   "theorems": [
    "Primpy.C73_powerLaw_point",
    "Primpy.C73_powerLaw_point_N",
    "Primpy.C73_ARBDS_powerLaw",
    "Primpy.C73_ARBDS_constantRoll",
    "Primpy.C73_STE",
    "Primpy.C73_LLMS",
    "Primpy.C73_CGS_powerLaw",
    "Primpy.C73_CGS3_powerLaw",
    "Primpy.C73_CGS_constantRoll"
   ],
   "note": ""
  },
  {
   "property": "C74",
   "status": "proved",
   "theorems": [
    "Primpy.Approx.C74_CGS",
    "Primpy.Approx.C74_leading_order",
    "Primpy.Approx.C74_STE",
    "Primpy.Approx.C74_LLMS",
    "Primpy.Approx.C74_ARBDS"
   ],
   "note": ""
  },
  {
   "property": "C75",
   "status": "proved",
   "theorems": [
    "Primpy.Pert.C75_tensor_time",
    "Primpy.Pert.C75_tensor_efolds",
    "Primpy.Pert.C75_scalar_time",
    "Primpy.Pert.C75_scalar_efolds",
    "Primpy.Pert.C75_stop_tensor",
    "Primpy.Pert.C75_stop_scalar",
    "Primpy.Pert.C75_spectrum"
   ],
   "note": ""
  },
  {
   "property": "C76",
   "status": "proved",
   "theorems": [
    "Primpy.C76_time",
    "Primpy.C76_efolds",
    "Primpy.C76_builtin",
    "Primpy.C76_closed_recollapses",
    "Primpy.C76_efolds_breaks_down"
   ],
   "note": ""
  },
  {
   "property": "C77",
   "status": "proved",
   "theorems": [
    "Primpy.C77_generic",
    "Primpy.C77_time",
    "Primpy.C77_efolds",
    "Primpy.C77_found"
   ],
   "note": ""
  },
  {
   "property": "C78",
   "status": "proved",
   "theorems": [
    "Primpy.C78_generic",
    "Primpy.C78_backward_time",
    "Primpy.C78_backward_efolds",
    "Primpy.C78_common_scale",
    "Primpy.C78_no_modes"
   ],
   "note": ""
  },
  {
   "property": "C79",
   "status": "proved",
   "theorems": [
    "Primpy.C79_lyth_time",
    "Primpy.C79_lyth_efolds",
    "Primpy.C79_inflating_time",
    "Primpy.C79_inflating_efolds"
   ],
   "note": ""
  },
  {
   "property": "C80",
   "status": "proved",
   "theorems": [
    "Primpy.C80_time",
    "Primpy.C80_efolds",
    "Primpy.C80_mixed"
   ],
   "note": ""
  },
  {
   "property": "C81",
   "status": "proved",
   "theorems": [
    "Primpy.C81_time",
    "Primpy.C81_efolds",
    "Primpy.C81_flat_arbitrary"
   ],
   "note": ""
  },
  {
   "property": "C82",
   "status": "proved",
   "theorems": [
    "Primpy.Pert.C82_time",
    "Primpy.Pert.C82_efolds"
   ],
   "note": ""
  },
  {
   "property": "C83",
   "status": "proved",
   "theorems": [
    "Primpy.Pert.C83_efolds",
    "Primpy.Pert.C83_time",
    "Primpy.Pert.C83_ratio_efolds",
    "Primpy.Pert.C83_ratio_time"
   ],
   "note": ""
  },
  {
   "property": "C84",
   "status": "proved",
   "theorems": [
    "Primpy.Pert.C84_efolds",
    "Primpy.Pert.C84_time",
    "Primpy.Pert.C84_methods_efolds",
    "Primpy.Pert.C84_methods_time"
   ],
   "note": ""
  },
  {
   "property": "C85",
   "status": "proved",
   "theorems": [
    "Primpy.C85_efolds",
    "Primpy.C85_time",
    "Primpy.C85_slowrollic_efolds",
    "Primpy.C85_slowrollic_time"
   ],
   "note": ""
  },
  {
   "property": "C86",
   "status": "proved",
   "theorems": [
    "Primpy.C86_count_efolds",
    "Primpy.C86_count_time",
    "Primpy.C86_time",
    "Primpy.C86_efolds",
    "Primpy.C86_slowrollic_time",
    "Primpy.C86_slowrollic_efolds",
    "Primpy.C86_builtin"
   ],
   "note": ""
  },
  {
   "property": "C87",
   "status": "proved",
   "theorems": [
    "Primpy.Pert.C87_efolds",
    "Primpy.Pert.C87_time",
    "Primpy.Pert.C87_ratio",
    "Primpy.Pert.C87_As2Lambda"
   ],
   "note": ""
  },
  {
   "property": "C88",
   "status": "proved",
   "theorems": [
    "Primpy.Pert.C88_time",
    "Primpy.Pert.C88_builtin"
   ],
   "note": ""
  },
  {
   "property": "C89",
   "status": "proved",
   "theorems": [
    "Primpy.C89_accepts",
    "Primpy.C89_builds",
    "Primpy.C89_amplitude",
    "Primpy.C89_order",
    "Primpy.C89_rebuild",
    "Primpy.C89_errors"
   ],
   "note": ""
  },
  {
   "property": "C90",
   "status": "proved",
   "theorems": [
    "Primpy.C90_solve",
    "Primpy.C90_others",
    "Primpy.C90_initial",
    "Primpy.C90_errors",
    "Primpy.C90_phase_time",
    "Primpy.C90_phase_efolds",
    "Primpy.C90_found"
   ],
   "note": ""
  },
  {
   "property": "C91",
   "status": "proved",
   "theorems": [
    "Primpy.C91_independent",
    "Primpy.C91_N_tot",
    "Primpy.C91_N_tot_found"
   ],
   "note": ""
  },
  {
   "property": "C92",
   "status": "proved",
   "theorems": [
    "Primpy.C92_pivot"
   ],
   "note": ""
  },
  {
   "property": "C93",
   "status": "proved",
   "theorems": [
    "Primpy.C93_N_star"
   ],
   "note": ""
  },
  {
   "property": "C94",
   "status": "proved",
   "theorems": [
    "Primpy.C94_data",
    "Primpy.C94_leading_order",
    "Primpy.C94_CGS",
    "Primpy.C94_STE",
    "Primpy.C94_LLMS",
    "Primpy.C94_ARBDS"
   ],
   "note": ""
  },
  {
   "property": "C95",
   "status": "proved",
   "theorems": [
    "Primpy.C95_background",
    "Primpy.C95_wavenumber",
    "Primpy.C95_equations",
    "Primpy.C95_leading_order",
    "Primpy.C95_CGS",
    "Primpy.C95_STE"
   ],
   "note": ""
  },
  {
   "property": "C96",
   "status": "proved",
   "theorems": [
    "Primpy.C96_solve",
    "Primpy.C96_w",
    "Primpy.C96_end",
    "Primpy.C96_found"
   ],
   "note": ""
  },
  {
   "property": "C97",
   "status": "proved",
   "theorems": [
    "Primpy.C97_formula",
    "Primpy.C97_derivatives",
    "Primpy.C97_amplitude",
    "Primpy.C97_along"
   ],
   "note": ""
  },
  {
   "property": "C98",
   "status": "proved",
   "theorems": [
    "Primpy.C98_unique",
    "Primpy.C98_equations",
    "Primpy.C98_solve",
    "Primpy.C98_spectra",
    "Primpy.C98_slowroll_start",
    "Primpy.C98_inflation_start"
   ],
   "note": ""
  },
  {
   "property": "C99",
   "status": "proved",
   "theorems": [
    "Primpy.C99_flat",
    "Primpy.C99_curved",
    "Primpy.C99_delivers",
    "Primpy.C99_pipeline"
   ],
   "note": ""
  },
  {
   "property": "C100",
   "status": "proved",
   "theorems": [
    "Primpy.C100_exit",
    "Primpy.C100_time",
    "Primpy.C100_found",
    "Primpy.C100_monomial",
    "Primpy.C100_starobinsky",
    "Primpy.C100_natural",
    "Primpy.C100_tmodel",
    "Primpy.C100_radion",
    "Primpy.C100_doublewell",
    "Primpy.C100_forever",
    "Primpy.C100_global"
   ],
   "note": ""
  },
  {
   "property": "C101",
   "status": "proved",
   "theorems": [
    "Primpy.C101_universe"
   ],
   "note": ""
  },
  {
   "property": "C102",
   "status": "proved",
   "theorems": [
    "Primpy.C102_reheating"
   ],
   "note": ""
  },
  {
   "property": "C103",
   "status": "proved",
   "theorems": [
    "Primpy.C103_reheating"
   ],
   "note": ""
  },
  {
   "property": "C104",
   "status": "proved",
   "theorems": [
    "Primpy.C104_instant",
    "Primpy.C104_descriptions",
    "Primpy.C104_agnostic",
    "Primpy.C104_dust"
   ],
   "note": ""
  }
 ]
}