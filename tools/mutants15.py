# C96, C97, and the survivors of mutants14 after C97 was added
M = []
def m(file, definition, old, new, claim, props, **k):
    M.append(dict(id='ZE%03d' % (len(M)+1), file='Model/'+file+'.lean', definition=definition, old=old, new=new, claim=claim, props=props.split(), **k))
B='Background'; P='Potentials'; C='PotentialCtor'; S='Solver'; I='InflationSol'
b='C97: a constructed potential evaluates its documented formula and its derivatives'
m(B,'InflT.d2Vdphi2','def d2Vdphi2 (e : InflT) (y : ℕ → ℝ) : ℝ := e.pot.d2V (phi y)','def d2Vdphi2 (e : InflT) (y : ℕ → ℝ) : ℝ := e.pot.dV (phi y)',b,'C97')
m(B,'InflN.d2Vdphi2','def d2Vdphi2 (e : InflN) (y : ℕ → ℝ) : ℝ := e.pot.d2V (phi y)','def d2Vdphi2 (e : InflN) (y : ℕ → ℝ) : ℝ := e.pot.d2V (dphidN y)',b,'C97')
m(P,'Tmodel.fns','⟨t.V, t.dV, t.d2V, t.d3V, t.d4V⟩','⟨t.V, t.dV, t.d3V, t.d2V, t.d4V⟩',b,'C97')
m(P,'Natural.fns','⟨n.V, n.dV, n.d2V, n.d3V, n.d4V⟩','⟨n.V, n.dV, n.d2V, n.d4V, n.d3V⟩',b,'C97')
m(P,'Quadratic.fns','⟨q.V, q.dV, q.d2V, q.d3V, q.d4V⟩','⟨q.toMonomial.dV, q.dV, q.d2V, q.d3V, q.d4V⟩',b,'C97')
m(P,'RadionGauge.fns','⟨g.V, g.dV, g.d2V, g.d3V, g.d4V⟩','⟨g.V, g.dV, g.d2V, g.d3V, g.d3V⟩',b,'C97')
m(P,'DoubleWell.fns','⟨d.V, d.dV, d.d2V, d.d3V, d.d4V⟩','⟨d.V, d.d2V, d.dV, d.d3V, d.d4V⟩',b,'C97')
m(C,'Pot.fns','(⟨x.Lambda, s.p.getD 0, s.alpha.getD 0⟩ : Tmodel).fns','(⟨x.Lambda, s.alpha.getD 0, s.p.getD 0⟩ : Tmodel).fns',b,'C97')
m(C,'Pot.fns','(⟨x.Lambda, s.phi0.getD 0⟩ : Natural).fns','(⟨1, s.phi0.getD 0⟩ : Natural).fns',b,'C97')
m(C,'Pot.fns','StarobinskyTanhStep x.Lambda (s.phi_feature.getD 0) (s.a_feature.getD 0)','StarobinskyTanhStep x.Lambda (s.a_feature.getD 0) (s.phi_feature.getD 0)',b,'C97')
m(C,'Pot.fns','| .starobinskyGaussianDip => StarobinskyGaussianDip x.Lambda','| .starobinskyGaussianDip => StarobinskyTanhStep x.Lambda',b,'C97')
m(C,'Pot.fns','| .quadratic => (⟨x.Lambda⟩ : Quadratic).fns','| .quadratic => (⟨x.Lambda⟩ : Starobinsky).fns',b,'C97')
m(C,'Pot.fns','(⟨x.Lambda, s.p.getD 0, s.alpha.getD 0⟩ : RadionGauge).fns','(⟨x.Lambda, s.alpha.getD 0, s.p.getD 0⟩ : RadionGauge).fns',b,'C97')
m(C,'Pot.fns','(⟨x.Lambda, s.phi0.getD 0, s.p.getD 0⟩ : DoubleWell).fns','(⟨x.Lambda, s.p.getD 0, s.phi0.getD 0⟩ : DoubleWell).fns',b,'C97')
m(C,'PotClass.methods','| .quadratic => Quadratic.sr Λ','| .quadratic => Starobinsky.sr o.W Λ','C97: the amplitude is that of the potential built','C97')
m(C,'PotClass.methods','| .doubleWell2 => DoubleWell2.sr (s.phi0.getD 0) Λ','| .doubleWell2 => DoubleWell.sr o.root (s.phi0.getD 0) 3 Λ','C97: the amplitude is that of the potential built','C97')
m(C,'PotClass.methods','| .natural => Natural.sr (s.phi0.getD 0) Λ','| .natural => Natural.sr (2 * s.phi0.getD 0) Λ','C97: the amplitude is that of the potential built','C97')
m('PotentialInit','sr_As2Lambda','let A_s0 := H2 / (8 * π^2 * e1)','let A_s0 := H2 / (4 * π^2 * e1)','C97: A_s = V^3/(12 pi^2 V\'^2)','C97')
m('PotentialInit','sr_As2Lambda','let H2 := P.V phi / 3','let H2 := P.V phi','C97: A_s = V^3/(12 pi^2 V\'^2)','C97')
m('PotentialInit','sr_As2Lambda','Lambda * (A_s / A_s0) ^ (1/4 : ℝ)','Lambda * (A_s0 / A_s) ^ (1/4 : ℝ)','C97: A_s = V^3/(12 pi^2 V\'^2)','C97')
d='C96: reported quantities converge to those of the exact solution'
m(S,'inflationSolB','-K * exp (-2 * l)','K * exp (-2 * l)',d,'C96',also=[(I,'-K * exp (-2 * l)','K * exp (-2 * l)')])
m(S,'inflationSolB','-K * exp (-2 * l)','-K * exp (2 * l)',d,'C96',also=[(I,'-K * exp (-2 * l)','-K * exp (2 * l)')])
m(S,'inflationSolB','N_tot := en.N_end.bind fun e => st.N_beg.map (e - ·)','N_tot := en.N_end.bind fun e => st.N_beg.map (· - e)',d,'C96',also=[(I,'N_tot := en.N_end.bind fun e => st.N_beg.map (e - ·)','N_tot := en.N_end.bind fun e => st.N_beg.map (· - e)')])
m(S,'inflationSolB','decide (b < n) && decide (n < e)','decide (b < n) || decide (n < e)',d,'C96',also=[(I,'decide (b < n) && decide (n < e)','decide (b < n) || decide (n < e)')])
m(S,'inflationSolB','decide (b < n) && decide (n < e)','decide (b < n) && decide (e < n)',d,'C96',also=[(I,'decide (b < n) && decide (n < e)','decide (b < n) && decide (e < n)')])
m(B,'InflT.call','Function.update dy 2 H\n','Function.update dy 2 H2\n',d,'C96')
m(B,'InflN.inflating','e.V y - e.H2 x y * dphidN y ^ 2','e.V y - dphidN y ^ 2',d,'C96')
m(B,'InflT.inflating','e.V y - dphidt y ^ 2','e.V y - dphidt y ^ 2 / 2',d,'C96')
m(B,'InflT.w','let p := dphidt_2 / 2 - V\n  let rho := dphidt_2 / 2 + V','let p := dphidt_2 / 2 - V\n  let rho := dphidt_2 - V',d,'C96',nth=0,count=2)
m(I,'postEnd','let phi := Q.phi p.1 p.2\n    ⟨some N, some phi','let phi := Q.N p.1 p.2\n    ⟨some N, some phi',d,'C96')
m(I,'endEvent','| none => firstEvent events "Inflation_dir-1_term0"','| none => firstEvent events "Inflation_dir+1_term0"',d,'C96')
m(I,'endEvent','  match firstEvent events "Inflation_dir-1_term1" with\n  | some p => some p\n  | none => firstEvent events "Inflation_dir-1_term0"','  firstEvent events "Inflation_dir-1_term0"',d,'C96')
m(I,'postStart','if 0 ≤ Q.inflating s.first.1 s.first.2 ∨ Q.w s.first.1 s.first.2 ≤ -1/3 then','if Q.inflating s.first.1 s.first.2 ≤ 0 then',d,'C96')
m(S,'solve','E.sol (res.set "event_keys" (.keys (events.map (Event.name fmtE))))','E.sol (res.set "event_keys" (.keys (events.reverse.map (Event.name fmtE))))',d,'C96')
m(I,'nanLog','if 0 < x then some (log x) else none','if 0 ≤ x then some (log x) else none','C25: logaH is finite exactly where H^2 > 0','C25')
