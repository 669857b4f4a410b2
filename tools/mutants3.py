M = []
def m(file, definition, old, new, claim, props, **k):
    M.append(dict(id='Q%03d' % (len(M)+1), file='Model/'+file+'.lean', definition=definition, old=old, new=new, claim=claim, props=props.split(), **k))
U='Units'
m(U,'SI.mp_kg','√(u.hbar * u.c / (8 * π * u.G))','√(u.hbar * u.c / u.G)','C56: reduced Planck mass','C56')
m(U,'SI.tp_s','u.hbar / u.c ^ 5)','u.hbar / u.c ^ 3)','C56: tp','C56')
m(U,'SI.Tp_K','u.hbar * u.c ^ 5 /','u.hbar * u.c ^ 3 /','C56: Tp','C56')
m(U,'SI.lp_iGeV','u.lp_m / u.hbar / u.c * giga * u.e','u.lp_m / u.hbar * giga * u.e','C56: lp in 1/GeV','C56')
m(U,'SI.a_B','8 * π ^ 5 * u.k_B ^ 4 / 15','8 * π ^ 5 * u.k_B ^ 4 / 60','C56: radiation constant','C56')
m(U,'SI.g0','2 + 7 / 8 * 2 * N_eff * T_nu_TCMB ^ 3','2 + 7 / 8 * N_eff * T_nu_TCMB ^ 3','C56: g0','C56')
m(U,'SI.rho_nu0_kg_im3','7 / 8 * N_eff * T_nu_TCMB ^ 4','7 / 8 * N_eff * T_nu_TCMB ^ 3','C56: neutrino density','C56')
m(U,'SI.rho_r0_mp_ilp3','/ u.mp_kg * u.lp_m ^ 3','/ u.mp_kg * u.lp_m','C56: units of density','C56')
m(U,'SI.K_STAR_lp','K_STAR / u.Mpc_m * u.lp_m','K_STAR * u.Mpc_m * u.lp_m','C56: pivot in Planck units','C56')
B='BigBang'
m(B,'get_H0','.ok (h * 100000 / u.Mpc_m * u.tp_s)','.ok (h * 100 / u.Mpc_m * u.tp_s)','C42: H0 in Planck units','C42 C37')
m(B,'get_a0','√(-(-(SignType.sign Omega_K0 : ℝ)) / Omega_K0) / H0','√(-(-(SignType.sign Omega_K0 : ℝ)) / Omega_K0) * H0','C42/C37: a0','C42 C37')
m(B,'get_a0','.ok (a0 * u.lp_m / u.Mpc_m)','.ok (a0 * u.lp_m * u.Mpc_m)','C42: a0 in Mpc','C42 C37')
m(B,'radicand','Omega_m0 * x ^ 3 + Omega_K0 * x ^ 2','Omega_m0 * x ^ 2 + Omega_K0 * x ^ 3','C42: Friedmann scaling','C42 C43')
m(B,'Hubble_parameter','(exp (log a0 - N))','(exp (N - log a0))','C42: scale factor inverted','C42')
m(B,'Hubble_parameter','if nbb < 1 - Omega_r0 - Omega_m0 - Omega_K0 then','if nbb < 1 - Omega_m0 - Omega_K0 then','C43: radiation dropped in the criterion','C43 C42')
m(B,'no_Big_Bang_line','/ Omega_m0) / 3) ^ 3)\n  else if 0.5','/ Omega_m0) / 3) ^ 2)\n  else if 0.5','C43: line','C43')
m(B,'no_Big_Bang_line','4 * Omega_m0 * cos (arccos ((1 - Omega_m0) / Omega_m0) / 3) ^ 3','2 * Omega_m0 * cos (arccos ((1 - Omega_m0) / Omega_m0) / 3) ^ 3','C43: line','C43')
m(B,'expand_recollapse_line','/ 3 + 4 * π / 3) ^ 3','/ 3 + 2 * π / 3) ^ 3','C44: line','C44')
m(B,'Hubble_parameter','decide (1 - Omega_r0 - Omega_m0 - Omega_K0 < erl)','decide (erl < 1 - Omega_r0 - Omega_m0 - Omega_K0)','C44: warning inverted','C44')
m(B,'get_rho_crit_kg_im3','3 * H0_is ^ 2 / (8 * π * u.G)','3 * H0_is / (8 * π * u.G)','C42: critical density','C42 C56')
m(B,'get_w_delta_reh','(2 * delta_cHH / delta_reh - 1) / 3','(2 * delta_cHH / delta_reh + 1) / 3','C46','C46')
m(B,'get_w_delta_reh','let delta_reh := N_reh - N_end','let delta_reh := N_end - N_reh','C46','C46')
m(B,'comoving_Hubble_horizon','fdiv a0 (exp N * H)','fdiv a0 (exp (-N) * H)','C45','C45')
m(B,'comoving_Hubble_horizon','(exp N * H * 1000)','(exp N * H)','C45: km','C45')
m(B,'integrand','fdiv (exp (-n)) H','fdiv (exp n) H','C45: conformal time integrand','C45')
m(B,'conformal_time','quadValue u Omega_m0 Omega_K0 h N_start n).map fun v','quadValue u Omega_m0 Omega_K0 h n N_start).map fun v','C45: integration limits swapped','C45')
m(B,'conformal_time_ratio','| some (b, bs) => (b :: bs).getLast (by simp)','| some (b, _) => b','C45: start of the backward solution','C45')
m(B,'get_N_BBN','nanLog (a0 / (1 + SI.z_BBN))','nanLog (a0 * (1 + SI.z_BBN))','C42: N_BBN','C42')
R='Reheating'
m(R,'is_instant_reheating','∨ (∃ d, DeltaN_reh = some d ∧ d = 0)\n','','C32','C32')
m(R,'is_instant_reheating','∨ rho_reh_GeV.isSome then','then','C32: rho check dropped','C32')
m(R,'is_instant_reheating','if N_star.isSome then .ok false','if N_star.isSome then .ok true','C32','C32')
m(R,'is_instant_reheating','(∃ w, w_reh = some w ∧ w ≠ 1 / 3)\n      ∨ (∃ d, DeltaN_reh = some d ∧ d ≠ 0)','(∃ w, w_reh = some w ∧ w ≠ 1 / 3)\n      ∧ (∃ d, DeltaN_reh = some d ∧ d ≠ 0)','C32: or -> and','C32')
C='Calibration'
m(C,'logg','+ log g_th / 12','- log g_th / 12','C34/C35: g_th dependence','C34 C35 C36')
m(C,'logg','SI.g0 ^ (-1 / 3 : ℝ)','SI.g0 ^ (1 / 3 : ℝ)','C34/C35: entropy conservation','C34 C35')
m(C,'toPlanck','rho_GeV ^ 4 / u.mp_GeV','rho_GeV ^ 3 / u.mp_GeV','C35/C36: units','C34 C35 C36')
m(C,'flatNstar','let N_cross := I.N_end - N_star','let N_cross := I.N_beg + N_star','C34: N_star counts from the end','C34')
m(C,'flatNstar','let delta := 0 - logaH_star + log u.K_STAR_lp','let delta := 0 + logaH_star + log u.K_STAR_lp','C34: delta_N_calib','C34')
m(C,'flatNstar','if I.N_tot < N_star then .error','if I.N_tot ≤ N_star then .error','C33/C34: boundary','C33 C34')
m(C,'flatNstar','if N_star ≤ 0 then','if N_star < 0 then','C33: N_star = 0','C33')
m(C,'flatNstar','- log (I.V_end / u.T_CMB_Tp ^ 4) / 4\n            match','- log (I.V_end / u.T_CMB_Tp ^ 4) / 3\n            match','C34/C36: DeltaN_minus1','C34 C36')
m(C,'flatNstarReh','let dN := 4 * DeltaN_minus1 / (1 - 3 * w)','let dN := 4 * DeltaN_minus1 / (1 + 3 * w)','C34/C36','C34 C36')
m(C,'flatNstarReh','if dN < 0 ∨ w < -1 / 3 then','if dN < 0 then','C33','C33 C34')
m(C,'flatReh','let dm1 := dN / 4 * (1 - 3 * w)\n        let rho := 3 / 2 * I.V_end * exp (-3 * (1 + w) * dN)','let dm1 := dN / 4 * (1 - 3 * w)\n        let rho := 3 / 2 * I.V_end * exp (-4 * (1 + w) * dN)','C35: rho_reh','C35 C36')
m(C,'flatReh','/ (3 * (1 + w))\n','/ (1 + w)\n','C35: DeltaN_reh from rho_reh','C35 C36')
m(C,'flatReheating','let logaH_star := 0 + log u.K_STAR_lp - delta','let logaH_star := 0 + log u.K_STAR_lp + delta','C35','C35 C36')
m(C,'flatReheating','if logaH_star < I.logaH_beg ∨ I.logaH_end < logaH_star then','if logaH_star < I.logaH_beg then','C33: range check','C33 C35')
m(C,'flatReheating','if badReheating a then .error (.valueError "DeltaN_reh must be positive")\n  else match s.infl with\n    | none =>\n      match flatReh','if False then .error (.valueError "DeltaN_reh must be positive")\n  else match s.infl with\n    | none =>\n      match flatReh','C33: check dropped','C33')
m(C,'flatBackground','if N_star ≤ 0 ∨ N_star ≠ b.N_star then','if N_star ≤ 0 then','C33','C33')
m(C,'flat','if ∃ Ω, a.Omega_K0 = some Ω ∧ Ω ≠ 0 then','if ∃ Ω, a.Omega_K0 = some Ω ∧ Ω = 0 then','C33','C33')
m(C,'flat','let logk := s.logaH.map fun l => l + log SI.K_STAR - logaH_star','let logk := s.logaH.map fun l => l - logaH_star','C38: pivot mode','C38 C34')
m(C,'flat','a0_Mpc := exp logaH_star / SI.K_STAR','a0_Mpc := exp logaH_star * SI.K_STAR','C38/C34','C38 C34')
m(C,'curvedOmega','if (SignType.sign Ω : ℝ) ≠ -s.K then','if (SignType.sign Ω : ℝ) ≠ s.K then','C33/C37','C33 C37')
m(C,'curvedOmega','u.c / (h * 100 * 1000) * √(-s.K / Ω)','u.c / (h * 100) * √(-s.K / Ω)','C37: km','C37')
m(C,'curvedReheating','-s.K * u.c ^ 2 / (a0_Mpc * h * 100 * 1000) ^ 2','s.K * u.c ^ 2 / (a0_Mpc * h * 100 * 1000) ^ 2','C35/C37: sign of Omega_K0','C35 C37 C36')
m(C,'curvedReheating','let N00 := I.N_end + logg a.g_th','let N00 := I.N_end - logg a.g_th','C35','C35')
m(C,'curved','if a.N_star.isSome then .error (.valueError "N_star should be a derived parameter")\n  else','','C33: N_star accepted for curved','C33')
m(C,'curved','if h ≤ 0 then','if h < 0 then','C33','C33')
m(C,'curved','N_star := I.N_end - N_cross, N_cross_ := N_cross','N_star := N_cross - I.N_end, N_cross_ := N_cross','C37/C38: N_star sign','C37 C38 C35')
m(C,'curved','let logk := s.logaH.map fun l => l - log a0_Mpc','let logk := s.logaH.map fun l => l + log a0_Mpc','C38','C38 C37')
m(C,'finish','let N_beg := p.infl.N_beg + p.delta_N_calib','let N_beg := p.infl.N_beg','C38/C34: N_beg not shifted','C34 C38 C35')
m(C,'finish','N_dagg := N_cross - N_beg','N_dagg := N_beg - N_cross','C38: N_dagg','C34 C38')
m(C,'finish','k := (maskSel s.logaH p.infl.mask).map exp','k := s.logaH.map exp','C38: k on the masked grid','C38')
m(C,'finish','p.a0 / (exp n * h) * u.lp_m / u.Mpc_m) N s.H','p.a0 / (exp n * h) * u.lp_m / u.Mpc_m) s.N s.H','C38/C45: uncalibrated N','C38')
m(C,'finish','cHH_end_Mpc := p.a0 / (exp N_end * p.infl.H_end)','cHH_end_Mpc := p.a0 / (exp N_beg * p.infl.H_end)','C38: horizon at the end','C38')
m(C,'finish','if copied then 0\n          else if','if','C33/C39: warning for copied background','C33 C38 C39')
m(C,'finish','∧ p.N0 < n then 2 else 0','∧ n < p.N0 then 2 else 0','C33: warning condition','C33 C35')
m(C,'firstOccurrence','decide (∀ j < i, l[j]? ≠ l[i]?)','decide (∀ j > i, l[j]? ≠ l[i]?)','C38: last occurrence kept','C38')
m(C,'interpSorted','(x - p.1) + p.2)','(x - p.1) + q.2)','C34/C38: interpolation','C34 C35 C38')
m(C,'curvedReh','.ok (N00 + dm1, I.N_end + dN,\n        { st with w_reh := some (some w), DeltaN_reh := some (some dN)','.ok (N00 - dm1, I.N_end + dN,\n        { st with w_reh := some (some w), DeltaN_reh := some (some dN)','C35','C35')
m(C,'flatNstarReh','{ st with rho_reh_GeV := some none, rho_reh_mp4 := some none, w_reh := some none,\n                         DeltaN_reh := some none }','st','C39: stale reheating attributes','C39')
A='ApproxPower'
m(A,'Ps0','p.H ^ 2 / (8 * π ^ 2 * p.e1)','p.H ^ 2 / (4 * π ^ 2 * p.e1)','C55: leading order','C55')
m(A,'Pt0','2 * (p.H / π) ^ 2','(p.H / π) ^ 2','C55: leading order','C55')
m(A,'cgsS1','(4 * a - 2) * p.e1','(4 * a + 2) * p.e1','C55: first order of CGS','C55')
m(A,'llms_ns','1 - 2 * p.e1 - p.e2 - 2 * p.e1 ^ 2','1 - 2 * p.e1 - p.e2 + 2 * p.e1 ^ 2','C55: n_s','C55')
m(A,'llms_nsrun','-2 * p.e1 * p.e2 - p.e2 * p.e3','-2 * p.e1 * p.e2 + p.e2 * p.e3','C55: running','C55')
m(A,'bt0','-2 * (C + 1) * p.e1 + (-2','-2 * (C - 1) * p.e1 + (-2','C55','C55')
m(A,'steS','- C * p.e2 + (2','+ C * p.e2 + (2','C55: first order','C55')
m(A,'as0_1','1 - 2 * (1 - alpha) * p.e1 + alpha * p.e2','1 - 2 * (1 - alpha) * p.e1 - alpha * p.e2','C55','C55')
m(A,'as1_1','-2 * p.e1 - p.e2','-2 * p.e1 + p.e2','C55: tilt','C55')
m(A,'at1_1','-2 * p.e1\n','-p.e1\n','C55: tensor tilt','C55')
m(A,'as2_2','4 * p.e1 ^ 2 + 2 * p.e1 * p.e2 + p.e2 ^ 2 - p.e2 * p.e3','4 * p.e1 ^ 2 + 2 * p.e1 * p.e2 + p.e2 ^ 2 + p.e2 * p.e3','C55: running','C55')
m(A,'arbdsS','as0_1 p + as0_2 p + (as1_1 p + as1_2 p) * L','as0_1 p + as0_2 p + (as1_1 p + as1_1 p) * L','C55: order dispatch','C55')
m(A,'cgsS','| 2, p => cgsS1 p + cgsS2 p\n','| 2, p => cgsS1 p + cgsS3 p\n','C55: order dispatch','C55')
m(A,'cgsS','  | _, p => cgsS1 p + cgsS2 p + cgsS3 p','  | _, p => cgsS1 p + cgsS2 p','C55: order 3 equals order 2','C55')
m(A,'logTable','some (q.1, log (Ps q.1 q.2), log (Pt q.1 q.2))','some (q.1, log (Pt q.1 q.2), log (Ps q.1 q.2))','C55/C41: scalar and tensor swapped','C55 C41 C40')
m(A,'fit','⟨spline kw (tab.map fun q => (q.1, q.2.1))','⟨spline kw (tab.map fun q => (q.2.1, q.1))','C40/C55: axes swapped','C40 C41 C55')
m(A,'deriveLLMS','current := some (specLLMS spline kw g) }','current := c.current }','C40/C41: current spectrum not updated','C40 C41')
m(A,'deriveCGS','if n ≤ 3 then some (specCGS spline kw n g)','if n ≤ 3 then some (specCGS spline kw 3 g)','C40: every order is order 3','C40')
m(A,'evalP','if order ≤ 3 then (c, evalAttr "P_approx_CGS" pick k (c.cgs order))','if order ≤ 3 then (c, evalAttr "P_approx_CGS" pick k (c.cgs 3))','C40','C40')
m(A,'derive','else if method = "STE" then deriveSTE spline kw g c','else if method = "STE" then deriveLLMS spline kw g c','C40','C40')
m(A,'params','n_s := 1 + iteratedDeriv 1 S.s','n_s := iteratedDeriv 1 S.s','C41: n_s','C41')
m(A,'params','n_run := iteratedDeriv 2 S.s','n_run := iteratedDeriv 3 S.s','C41: running','C41')
m(A,'params','r := exp (S.t (log SI.K_STAR)) / exp (S.s (log SI.K_STAR))','r := exp (S.s (log SI.K_STAR)) / exp (S.t (log SI.K_STAR))','C41: r','C41')
m(A,'evalAttr','.ok (exp (pick S (log k)))','.ok (exp (pick S k))','C40/C41','C40 C41')
W='PowerSol'
m(W,'setNs','if p.st.K ≠ 0 then','if False then','C41: curved accepted','C41')
m(W,'setNs','if ns_min > n_s ∧ ns_max > n_s then','if ns_min > n_s ∨ ns_max > n_s then','C41: bracket check','C41')
m(W,'setNs','N_star := some r.2, rho_reh_GeV := rho_reh_GeV } "CGS"','N_star := some lo, rho_reh_GeV := rho_reh_GeV } "CGS"','C41: root not used','C41')
m(W,'nsObjective','.ok (q, P.n_s - n_s)','.ok (q, P.n_run - n_s)','C41: objective','C41')
m(W,'calibrateP','if a.background.isSome then .ok { p with st := s }\n    else','','C40/C41: spectra also derived for copied background','C40 C41')
m(W,'gridOf','maskSel sr.grid I.mask','sr.grid','C40/C41: unmasked slow-roll grid','C40 C41')
H='Shooting'
m(H,'phii2Ntot','| some n => .ok (some (n - N_tot))','| some n => .ok (some (N_tot - n))','C31: sign','C31')
m(H,'phii2Ntot','| .error (.inflationStart _) => .ok (some (0 - N_tot))','| .error (.inflationStart _) => .ok (some N_tot)','C31','C31')
m(H,'phii2Ntot','else if seen raw "Collapse" then .ok (some (0 - N_tot))','','C31: collapse','C31')
m(H,'isicNt','match start S r with','match start S hi with','C31: root not used','C31',count=2,nth=0)
m(H,'phii2Nstar','.ok (c\'.cal.map fun q => q.N_star - N_star)','.ok (c\'.cal.map fun q => q.N_star + N_star)','C31','C31')
m(H,'isicNsOk','if Omega_K0 = 0 then .error (.assertion "Curved universes only, here!")\n  else match','match','C31','C31')
m(H,'nestedArgs','if K = 0 then "N_star" else "Omega_K0"','if K = 0 then "N_star" else "reheating"','C31','C31')
m(H,'isicNsOk','(phii2Nstar u S O N_star Omega_K0 h (log a0)) lo hi','(phii2Nstar u S O N_star Omega_K0 h a0) lo hi','C31: N0','C31')
M=[x for x in M if x]
_T = {'Q042': ('C33', ['C33_N_star_reheating']), 'Q062': ('C38', ['C38_k']), 'Q064': ('C38', ['C38_horizon_end']),
  'Q066': ('C33', ['C33_warnings']), 'Q081': ('C71', ['C71']), 'Q085': ('C74', ['C74_CGS', 'C74_STE', 'C74_ARBDS']),
  'Q099': ('C41', ['C41_background']), 'Q100': ('C74', ['C74_CGS', 'C74_STE']), 'Q102': ('C31', ['C31_objective', 'C31_too_short'])}
for _m in M:
    if _m['id'] in _T: _m['props'] = [_T[_m['id']][0]]; _m['tightened'] = _T[_m['id']][1]
