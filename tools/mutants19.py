# C102, C103: the reheating branches
M = []
def m(file, definition, old, new, claim, props, **k):
    M.append(dict(id='ZI%03d' % (len(M)+1), file='Model/'+file+'.lean', definition=definition, old=old, new=new, claim=claim, props=props.split(), **k))
C='Calibration'; R='Reheating'
f='C102: the end of inflation sits where entropy conservation puts it'
c='C103: today sits where entropy conservation puts it'
m(C,'flatReheating','let N_end0 := 0 - logg a.g_th - log (I.V_end / u.T_CMB_Tp ^ 4) / 4','let N_end0 := 0 + logg a.g_th - log (I.V_end / u.T_CMB_Tp ^ 4) / 4',f,'C102')
m(C,'flatReheating','let N_end0 := 0 - logg a.g_th - log (I.V_end / u.T_CMB_Tp ^ 4) / 4','let N_end0 := 0 - logg a.g_th - log (I.V_end / u.T_CMB_Tp ^ 4) / 3',f,'C102')
m(C,'flatReheating','let delta := N_end - I.N_end\n        let logaH_star := 0 + log u.K_STAR_lp - delta\n        if','let delta := I.N_end - N_end\n        let logaH_star := 0 + log u.K_STAR_lp - delta\n        if',f,'C102')
m(C,'flatReheating','if logaH_star < I.logaH_beg ∨ I.logaH_end < logaH_star then\n          .error (.insufficientInflation "Pivot scale not within range")\n        else match interpL (maskSel s.logaH I.mask) (maskSel s.N I.mask) logaH_star with\n          | .error e => .error e\n          | .ok N_cross =>\n            .ok (I.N_end - N_cross, N_cross, logaH_star, delta, dN','if logaH_star ≤ I.logaH_beg ∨ I.logaH_end < logaH_star then\n          .error (.insufficientInflation "Pivot scale not within range")\n        else match interpL (maskSel s.logaH I.mask) (maskSel s.N I.mask) logaH_star with\n          | .error e => .error e\n          | .ok N_cross =>\n            .ok (I.N_end - N_cross, N_cross, logaH_star, delta, dN','C102: ValueError at the edge of the range','C102')
m(C,'flatReheating','interpL (maskSel s.logaH I.mask) (maskSel s.N I.mask) logaH_star with\n          | .error e => .error e\n          | .ok N_cross =>\n            .ok (I.N_end - N_cross, N_cross, logaH_star, delta, dN','interpL s.logaH s.N logaH_star with\n          | .error e => .error e\n          | .ok N_cross =>\n            .ok (I.N_end - N_cross, N_cross, logaH_star, delta, dN','C102: only grid points of the phase count','C102')
m(C,'flatReheating','delta, dN.map (I.N_end + ·), I, st)','delta, dN.map (N_end0 + ·), I, st)','C102: N_reh','C102')
m(C,'flatReh','''.ok (N_end0 - dm1, some dN,
          { st with w_reh := some (some w), DeltaN_reh''','''.ok (N_end0 + dm1, some dN,
          { st with w_reh := some (some w), DeltaN_reh''',f,'C102')
m(C,'flatReh','let dm1 := dN / 4 * (1 - 3 * w)\n        let rho := 3 / 2 * I.V_end','let dm1 := dN / 4 * (3 * w - 1)\n        let rho := 3 / 2 * I.V_end',f,'C102')
m(C,'flatReh','log (3 / 2 * I.V_end / toPlanck u rho) / (3 * (1 + w))','log (I.V_end / toPlanck u rho) / (3 * (1 + w))',f,'C102')
m(C,'flatReh','log (3 / 2 * I.V_end / toPlanck u rho) / (3 * (1 + w))','(1 + w) / 3 * log (3 / 2 * I.V_end / toPlanck u rho)',f+' (the error of the curved branch)','C102')
m(C,'flatReh','.ok (N_end0, some 0,','.ok (N_end0, none,','C102: N_reh after instant reheating','C102')
m(C,'badReheating','some d ∧ d < 0) ∨ ∃ w','some d ∧ d ≤ 0) ∨ ∃ w','C102, C103: instant reheating by DeltaN_reh = 0 is admissible','C102 C103')
m(C,'badReheating','∃ w, a.w_reh = some w ∧ w < -1 / 3','∃ w, a.w_reh = some w ∧ w < 0','C102, C103: -1/3 ≤ w is admissible','C102 C103')
m(C,'badReheating','∃ w, a.w_reh = some w ∧ w < -1 / 3','∃ w, a.w_reh = some w ∧ w ≤ -1 / 3','C102, C103: -1/3 ≤ w is admissible','C102 C103')
m(R,'is_instant_reheating','∨ (∃ w, w_reh = some w ∧ w = 1 / 3)\n','∨ (∃ w, w_reh = some w ∧ w = 0)\n','C102, C103: which histories are admissible','C102 C103')
m(R,'is_instant_reheating','∨ (∃ d, DeltaN_reh = some d ∧ d ≠ 0)','','C102, C103: w = 1/3 with a duration is refused','C102 C103')
m(C,'curvedReh','let dm1 := dN / 4 * (1 - 3 * w)\n      let rho','let dm1 := dN / 4 * (1 - w)\n      let rho',c,'C103')
m(C,'curvedReh','.ok (N00 + dm1, I.N_end + dN,\n        { st with w_reh := some (some w), DeltaN','.ok (N00 - dm1, I.N_end + dN,\n        { st with w_reh := some (some w), DeltaN',c,'C103')
m(C,'curvedReh','.ok (N00 + dm1, I.N_end + dN,\n        { st with w_reh := some (some w), DeltaN','.ok (N00 + dm1, I.N_end - dN,\n        { st with w_reh := some (some w), DeltaN','C103: N_reh','C103')
m(C,'curvedReh','-(1 + w) / 3 * log (2 / 3 * toPlanck u rho / I.V_end)','-(1 + w) / 3 * log (3 / 2 * toPlanck u rho / I.V_end)',c,'C103')
m(C,'curvedReh','.ok (N00, I.N_end,','.ok (N00, 0,','C103: N_reh after instant reheating','C103')
m(C,'curvedReheating','let N00 := I.N_end + logg a.g_th + log (I.V_end / u.T_CMB_Tp ^ 4) / 4','let N00 := I.N_end - logg a.g_th + log (I.V_end / u.T_CMB_Tp ^ 4) / 4',c,'C103')
m(C,'curvedReheating','let N00 := I.N_end + logg a.g_th + log (I.V_end / u.T_CMB_Tp ^ 4) / 4','let N00 := I.N_end + logg a.g_th + log (I.V_end / u.T_CMB_Tp ^ 4)',c,'C103')
m(C,'curvedReheating','let a0 := exp N0\n        let a0_Mpc := a0 * u.lp_m / u.Mpc_m','let a0 := exp N0\n        let a0_Mpc := a0 * u.Mpc_m / u.lp_m','C103: a0_Mpc','C103')
m(C,'curvedReheating','.ok (-s.K * u.c ^ 2 /','.ok (s.K * u.c ^ 2 /','C103: sign of Omega_K0','C103')
m(C,'curvedReheating','(a0_Mpc * h * 100 * 1000) ^ 2','(a0_Mpc * h * 100) ^ 2','C103: Omega_K0 with c in km/s','C103')
m(C,'curved','if h ≤ 0 then','if h < 0 then','C103: h = 0 raises ValueError','C103')
m(C,'curved','            let mask := andMask I.mask (firstOccurrence logk)','            let mask := I.mask','C103: points with a repeated aH do not count','C103')
m(C,'curvedSel','else if a.method = "reheating" then curvedReheating u s a h','else if a.method = "reheating" then curvedOmega u s a h',c,'C103')
q='C104: all descriptions of one history give the same calibrated object'
m(C,'flatReh','DeltaN_minus1 := some (some dm1), rho_reh_mp4 := some (some rho),\n                    rho_reh_GeV := some (some (toGeV u rho)) })\n      | some w, none','DeltaN_minus1 := some (some dm1), rho_reh_mp4 := some (some rho),\n                    rho_reh_GeV := some (some rho) })\n      | some w, none',q,'C104')
m(C,'flatReh','(3 * dN)).map (· - 1)) })\n        | none','(3 * dN)).map (· + 1)) })\n        | none',q,'C104')
m(C,'flatReh','let N_reh := 0 - logg a.g_th + log (3 / 2 * u.T_CMB_Tp ^ 4 / toPlanck u rho) / 4\n          let dN := N_reh - (N_end0 - dm1)','let N_reh := 0 - logg a.g_th + log (3 / 2 * u.T_CMB_Tp ^ 4 / toPlanck u rho) / 4\n          let dN := N_reh - N_end0',q,'C104')
m(C,'flatReh','.ok (N_end0 - dm1, none,','.ok (N_end0 + dm1, none,',q,'C104')
m(C,'flatReh','.ok (N_end0 - dm1, none,','.ok (N_end0 - dm1, some 0,','C104: with DeltaN_minus1 alone the end of reheating is unknown','C104')
m(C,'flatReh','log (3 / 2 * I.V_end / toPlanck u rho) / (3 * (1 + w))','log (I.V_end / toPlanck u rho) / (3 * (1 + w))',q,'C104')
m(C,'curvedReh','-(1 + w) / 3 * log (2 / 3 * toPlanck u rho / I.V_end)','-(1 + w) / 3 * log (toPlanck u rho / I.V_end)',q,'C104')
m(C,'curvedReh','rho_reh_mp4 := some (some (toPlanck u rho)), DeltaN_reh := some (some dN),\n                  DeltaN_minus1','rho_reh_mp4 := some (some rho), DeltaN_reh := some (some dN),\n                  DeltaN_minus1',q,'C104')
m(R,'is_instant_reheating','\n      ∨ (∃ d, DeltaN_minus1 = some d ∧ d = 0) then',' then','C104: all ways to ask for instant reheating agree','C104')
m(R,'is_instant_reheating','∨ (∃ d, DeltaN_reh = some d ∧ d = 0)\n      ∨ (∃ d, DeltaN_minus1','∨ (∃ d, DeltaN_minus1','C104: all ways to ask for instant reheating agree','C104')
