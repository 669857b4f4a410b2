{
 "C35": {
  "status": "partial",
  "note": "The flat cases and the curved Omega_K0 case are proved in full. The curved reheating case is false as written for the pair w_reh + rho_reh (the code's DeltaN_reh agrees with the dilution law only for w_reh = 0 or instant reheating: C35_curved_w_rho_iff, C35_curved_w_rho_false); C35_curved_reheating_partial proves the remaining specifications."
 },
 "C38": {
  "status": "partial",
  "note": "Mode range, horizon-crossing meaning and monotonicity proved. Repeating the same call is proved to change nothing for curved universes, for copied backgrounds, and for flat universes whenever no in-inflation grid point repeats the aH of an earlier grid point; C38_not_idempotent exhibits a flat solution on which the statement is false without that condition (np.unique keeps the first index over the whole grid)."
 },
 "C39": {
  "status": "partial",
  "note": "History independence proved except for H_star / rho_reh_mp4 (left stale by some branches, proved false by C39_H_star_stale, C39_rho_reh_mp4_stale) and copied backgrounds with a different end of inflation (C39_background_stale)."
 },
 "C40": {
  "status": "partial",
  "note": "Full description of which calibration answers a request is proved for every history; the claim itself is false in general (C40_stale, C40_unknown_history)."
 },
 "C02": {
  "note": "V..d3V proved for every base chain and every feature, and for both shipped classes. d4V (inherited from the featureless base) is proved wrong (C02_*_d4V_wrong), so the full chain is false."
 },
 "C07": {
  "note": "Exact inverse proved for all classes with a formula or a root finder. The general double well uses a linear interpolation table: proved exact at the nodes, off by at most one spacing elsewhere, ValueError outside; an exact inverse is false."
 },
 "C13": {
  "note": "epsilon_1, epsilon_2: third order proved. epsilon_3, epsilon_4: accuracy proved with the missing e5V term added, second/first order without it, and the claimed order disproved."
 },
 "C14": {
  "note": "Flat: every derivative. Curved: dH, d2H, d2phi and all formulas given the true lower derivatives; d3phi (hence d3H, d4phi) is proved wrong for K != 0."
 },
 "C16": {
  "note": "Everything but epsilon_3, delta_2, delta_3 for all K; those for K = 0 (false for K != 0 because of get_d3phi)."
 },
 "C18": {
  "note": "E-folds: all K. Cosmic time: flat; curved third-order parameters inherit the get_d3phi defect (C14)."
 },
 "C44": {
  "note": "A warning implies a recollapse; no warning implies none for the radiation-free universe. With radiation the converse is false (C44_missed_recollapse)."
 },
 "C51": {
  "note": "All vacua in both formulations except the scalar HD vacuum of curved universes, which is proved to differ (C51_HD_curved_differs)."
 },
 "C54": {
  "note": "Proved for P_s_RST; proved false for the tensor spectra and the other vacua."
 },
 "C59": {
  "note": "Densities above the end-of-inflation density are rejected; the converse is false (spurious factor 1/3)."
 }
}