M = []
def m(file, definition, old, new, claim, props, **k):
    M.append(dict(id='ZA%03d' % (len(M)+1), file='Model/'+file+'.lean', definition=definition, old=old, new=new, claim=claim, props=props.split(), **k))
S='Calibration'
a='C92: N_cross is the linear interpolation in the cell of the grid'
m(S,'interpSorted','(q.2 - p.2) / (q.1 - p.1) * (x - p.1) + p.2','(q.2 - p.2) / (q.1 - p.1) * (x - p.1) + q.2',a,'C92')
m(S,'interpSorted','(q.2 - p.2) / (q.1 - p.1) * (x - p.1) + p.2','(q.2 - p.2) * (x - p.1) + p.2',a,'C92')
m(S,'interpSorted','else if x ≤ q.1 then','else if x ≤ q.1 + 1 then',a,'C92')
m(S,'interpSorted','if x < p.1 then .error','if x < p.1 - 1 then .error',a,'C92')
b='C92: the pivot scale is aH of the trajectory at the crossing'
m(S,'flatNstar','let N_cross := I.N_end - N_star','let N_cross := I.N_end + N_star',b,'C92')
m(S,'flatNstar','let N_cross := I.N_end - N_star','let N_cross := I.N_beg + N_star',b,'C92')
m(S,'flatNstar','let delta := 0 - logaH_star + log u.K_STAR_lp','let delta := logaH_star - log u.K_STAR_lp',b,'C92')
m(S,'flatNstar','let delta := 0 - logaH_star + log u.K_STAR_lp','let delta := 0 - logaH_star',b,'C92')
m(S,'flatReheating','let logaH_star := 0 + log u.K_STAR_lp - delta','let logaH_star := 0 + log u.K_STAR_lp + delta',b,'C92')
m(S,'flatReheating','.ok (I.N_end - N_cross, N_cross,','.ok (N_cross - I.N_end, N_cross,',b,'C92')
m(S,'flatReheating','interpL (maskSel s.logaH I.mask) (maskSel s.N I.mask) logaH_star','interpL (maskSel s.N I.mask) (maskSel s.logaH I.mask) logaH_star',b,'C92')
m(S,'flatReheating','interpL (maskSel s.logaH I.mask) (maskSel s.N I.mask) logaH_star','interpL s.logaH s.N logaH_star',b,'C92')
m(S,'flat','a0_Mpc := exp logaH_star / SI.K_STAR','a0_Mpc := exp (logaH_star - delta) / SI.K_STAR',b,'C92')
m(S,'flat','a0_Mpc := exp logaH_star / SI.K_STAR','a0_Mpc := exp logaH_star * SI.K_STAR',b,'C92')
m(S,'curvedReheating','let a0_Mpc := a0 * u.lp_m / u.Mpc_m','let a0_Mpc := a0 * u.Mpc_m / u.lp_m',b,'C92')
m(S,'curvedOmega','let a0 := a0_Mpc * u.Mpc_m / u.lp_m','let a0 := a0_Mpc * u.lp_m / u.Mpc_m',b,'C92')
m(S,'curved','let logk := s.logaH.map fun l => l - log a0_Mpc','let logk := s.logaH.map fun l => l + log a0_Mpc',b,'C92')
m(S,'curved','N_star := I.N_end - N_cross','N_star := I.N_end - I.N_beg',b,'C92')
m(S,'curved','interpL lk (maskSel s.N mask) (log SI.K_STAR)','interpL lk (maskSel s.N I.mask) (log SI.K_STAR)','C92: abscissae and ordinates of the interpolation use the same mask','C92')
m(S,'curved','interpL lk (maskSel s.N mask) (log SI.K_STAR)','interpL lk (maskSel s.H mask) (log SI.K_STAR)',b,'C92')
m(S,'curved','delta_N_calib := 0','delta_N_calib := N_cross',b,'C92')
m('InflationSol','inflationSol','decide (b < n) && decide (n < e)','decide (b < n) || decide (n < e)','C92: the cell lies in the phase of inflation','C92')
m('InflationSol','inflationSol','let logaH := s.grid.map fun p => (Q.Hnan p).bind fun h => (nanLog h).map (Q.N p.1 p.2 + ·)','let logaH := s.grid.map fun p => (Q.Hnan p).bind fun h => (nanLog h).map (Q.N p.1 p.2 - ·)',b,'C92')
