M = []
def m(file, definition, old, new, claim, props, **k):
    M.append(dict(id='ZC%03d' % (len(M)+1), file='Model/'+file+'.lean', definition=definition, old=old, new=new, claim=claim, props=props.split(), **k))
S='SpectraSol'
a='C94: the slow-roll parameters are the derivatives along the trajectory'
m(S,'T.srPoint','e2 := T.get_epsilon_2H H dH d2H','e2 := T.get_epsilon_2H H d2H dH',a,'C94')
m(S,'T.srPoint','g2 := T.get_epsilon_2H_Gong H dH d2H','g2 := T.get_epsilon_2H H dH d2H',a,'C94')
m(S,'T.srPoint','d1 := T.get_delta_1 H dH dphi d2phi','d1 := T.get_delta_1 H dH d2phi dphi',a,'C94')
m(S,'T.srPoint','d2 := T.get_delta_2 H dH d2H dphi d2phi d3phi','d2 := T.get_delta_2 H dH d2H dphi d2phi d2phi',a,'C94')
m(S,'T.srPoint','let dH := T.get_dH N H dphi K','let dH := T.get_dH H N dphi K',a,'C94')
m(S,'T.srPoint','let d3H := T.get_d3H N H dH d2H dphi d2phi d3phi K','let d3H := T.get_d3H N H dH d2H dphi d2phi d4phi K',a,'C94')
m(S,'N.srPoint','e2 := Primpy.N.get_epsilon_2H H dH d2H','e2 := T.get_epsilon_2H H dH d2H',a,'C94')
m(S,'N.srPoint','e1 := Primpy.N.get_epsilon_1H H dH','e1 := T.get_epsilon_1H H dH',a,'C94')
m(S,'N.srPoint','g3 := Primpy.N.get_epsilon_3H_Gong H dH d2H d3H','g3 := Primpy.N.get_epsilon_3H H dH d2H d3H',a,'C94')
m(S,'N.srPoint','d3 := Primpy.N.get_delta_3 H dH d2H d3H dphi d2phi d3phi d4phi','d3 := Primpy.N.get_delta_3 H dH d2H d3H dphi d2phi d4phi d3phi',a,'C94')
m(S,'T.srAt','T.srPoint N H dphi d.d2phi d.d3phi d.d4phi K','T.srPoint N H dphi d.d3phi d.d2phi d.d4phi K',a,'C94')
m(S,'N.srAt','N.srPoint N_ H dphi d.d2phi d.d3phi d.d4phi K','N.srPoint N_ H dphi d.d2phi d.d3phi d.d4phi 0',a,'C94')
m(S,'Eqs.srAt','| .T e => some (T.srAt e.K e.pot)','| .T e => some (N.srAt e.K e.pot)',a,'C94')
m(S,'Eqs.srAt','| .N e => some (N.srAt e.K e.pot)','| .N e => some (T.srAt e.K e.pot)',a,'C94')
m(S,'srArrays','(if (b.get? "dphidt").isSome then arr? (b.get? "dphidt") else arr? (b.get? "dphidN"))','(if (b.get? "dphidN").isSome then arr? (b.get? "dphidt") else arr? (b.get? "dphidN"))',a,'C94')
m(S,'srArrays','fun p q => f p.1 p.2 q.1 q.2','fun p q => f p.2 p.1 q.1 q.2',a,'C94')
m(S,'srArrays','fun p q => f p.1 p.2 q.1 q.2','fun p q => f p.1 p.2 q.2 q.1',a,'C94')
b='C94: the parameters at the pivot scale are interpolated in the e-folds at _N_cross'
m(S,'starValue','interpL (maskSel N mask) (maskSel v mask) x','interpL (maskSel v mask) (maskSel N mask) x',b,'C94')
m(S,'starValue','interpL (maskSel N mask) (maskSel v mask) x','interpL N v x',b,'C94')
m(S,'starPoint','e1 := starValue N (g.map (·.e1)) mask x','e1 := starValue N (g.map (·.e2)) mask x',b,'C94')
m(S,'starPoint','e3 := starValue N (g.map (·.e3)) mask x','e3 := starValue N (g.map (·.g3)) mask x',b,'C94')
m(S,'slowRoll','⟨g, starPoint s.N g⟩','⟨g, starPoint (s.N.map (· + 1)) g⟩',b,'C94')
P='PertSol'
c='C95: solve_oscode finds what it reads; the grid points are those of the trajectory'
m(P,'indepOf','if v = "t" then .t','if v = "_t" then .t',c,'C95')
m(P,'indepOf','if v = "_N" then .N','if v = "N" then .N',c,'C95')
m(P,'indepOf','if v = "t" then .t else if v = "_N" then .N else .other','if v = "t" then .N else if v = "_N" then .t else .other',c,'C95')
m(P,'dphiOf','| .t => arr? (o.get? "dphidt")','| .t => arr? (o.get? "dphidN")',c,'C95')
m(P,'dphiOf','| .N => arr? (o.get? "dphidN")','| .N => arr? (o.get? "phi")',c,'C95')
m(P,'bgOf','logaH_star := c.logaH_star','logaH_star := c.N_cross_','C95: the wavenumbers are reported with the conversion of the calibration','C95')
m(P,'bgOf','logaH_star := c.logaH_star','logaH_star := Real.log c.a0_Mpc','C95: the wavenumbers are reported with the conversion of the calibration','C95')
m(P,'bgOf','K := E.K, pot','K := 0, pot','C95: the equations are those of the curved universe','C95')
m(P,'bgOf','(arr? (o.get? "x")).bind','(arr? (o.get? "t")).bind',c,'C95')
m(P,'bgOf','⟨x.getD i 0, s.N.getD i 0, phi.getD i 0, dphi.getD i 0,','⟨x.getD i 0, s.N.getD i 0, dphi.getD i 0, phi.getD i 0,',c,'C95')
m(P,'bgOf','H.getD i 0, Ok.getD i 0, L.getD i 0⟩','H.getD i 0, L.getD i 0, Ok.getD i 0⟩',c,'C95')
m(P,'bgOf','⟨x.getD i 0, s.N.getD i 0,','⟨s.N.getD i 0, x.getD i 0,',c,'C95')
m(P,'bgOf','H.getD i 0, Ok.getD i 0, L.getD i 0⟩','H.getD i 0, Ok.getD (i + 1) 0, L.getD i 0⟩',c,'C95')
m(P,'bgOf','(List.range x.length)','(List.range (x.length - 1))',c,'C95')
Q='Perturbations'
d='C95: the integrator is handed the coefficients of the perturbation equations of the trajectory'
m(Q,'TensorT.frequency2','(k ^ 2 + k * K * (K + 1) + 2 * K) * exp (-2 * p.N)\n','(k ^ 2 + k * K * (K + 1) - 3 * K) * exp (-2 * p.N)\n',d,'C95')
m(Q,'TensorT.damping','3 * p.H / 2','p.H',d,'C95')
m(Q,'ScalarT.terms',' - K * exp (-2 * p.N) / p.H ^ 2\n',' + K * exp (-2 * p.N) / p.H ^ 2\n',d,'C95')
m(Q,'ScalarT.terms','- pot.dV p.phi / (p.H * p.dphi)','+ pot.dV p.phi / (p.H * p.dphi)',d,'C95')
m(Q,'ScalarT.shared','K * p.dphi ^ 2 / (2 * p.H ^ 2))','K * p.dphi ^ 2 / p.H ^ 2)',d,'C95')
m(Q,'ScalarT.frequency2','- K * exp (-2 * p.N) * (1 + shared','- K * exp (-2 * p.N) * (shared',d,'C95')
m(Q,'ScalarT.damping','(3 * p.H + shared','(2 * p.H + shared',d,'C95')
m(Q,'ScalarN.xi','p.dphi ^ 2 / 2 - 3','p.dphi ^ 2 / 2 - 2',d,'C95')
m(Q,'ScalarN.xi','p.Omega_K + p.dphi','- p.Omega_K + p.dphi',d,'C95')
m(Q,'ScalarN.damping2','(xi p - pot.dV p.phi / (p.H ^ 2 * p.dphi)) - xi p','(xi p - pot.dV p.phi / (p.H ^ 2 * p.dphi)) + xi p',d,'C95')
m(Q,'ScalarN.frequency2','(damping2 pot K k p + xi p + 1) * p.Omega_K','(damping2 pot K k p + xi p) * p.Omega_K',d,'C95')
m(Q,'TensorN.damping','+ K * exp (-2 * p.N) / p.H ^ 2) / 2','- K * exp (-2 * p.N) / p.H ^ 2) / 2',d,'C95')
m(Q,'TensorN.frequency2','* exp (-2 * p.N) / p.H ^ 2\n/-- efolds/perturbations.py:164','* exp (-2 * p.N) * p.H ^ 2\n/-- efolds/perturbations.py:164',d,'C95')
m(Q,'kappa2','- 3 * K','+ 2 * K',d,'C95')
m(Q,'oscCall','g := (slice b.pts beg stop).map m.damping','g := (slice b.pts beg stop).map m.frequency2',d,'C95')
m(Q,'oscCall','w := (slice b.pts beg stop).map fun p => csqrt (m.frequency2 p)','w := (slice b.pts beg stop).map fun p => (m.frequency2 p : ℂ)',d,'C95')
m(Q,'PPS.init','k * SI.K_STAR / exp b.logaH_star','k / SI.K_STAR * exp b.logaH_star','C95: the wavenumbers are reported in Mpc^-1','C95')
