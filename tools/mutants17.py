# C100
M = []
def m(file, definition, old, new, claim, props, **k):
    M.append(dict(id='ZG%03d' % (len(M)+1), file='Model/'+file+'.lean', definition=definition, old=old, new=new, claim=claim, props=props.split(), **k))
B='Background'; S='Solver'; E='Events'; P='Potentials'; C='PotentialCtor'
d='C100: inflation ends; a flat universe caught between two fields does not accelerate for more than maxEfolds'
m(B,'InflT.call','Function.update dy 1 (T.get_d2phi H2 (dphidt y) (e.dVdphi y))','Function.update dy 1 (T.get_d2phi H2 (dphidt y) (-e.dVdphi y))',d,'C100')
m(B,'InflT.call','let dy := Function.update dy 2 H\n','let dy := Function.update dy 2 (-H)\n',d,'C100')
m(B,'N.get_d2phi','-(dH_H + 3) * dphi - dV / H2','-(dH_H - 3) * dphi - dV / H2',d,'C100')
m(B,'N.get_dH_H','-dphi^2 / 2 + K * exp (-2 * N) / H2','dphi^2 / 2 + K * exp (-2 * N) / H2',d,'C100')
m(B,'InflT.dVdphi','def dVdphi (e : InflT) (y : ℕ → ℝ) : ℝ := e.pot.dV (phi y)','def dVdphi (e : InflT) (y : ℕ → ℝ) : ℝ := e.pot.dV (_N y)',d,'C100')
f='C100: the end of inflation is found by solve wherever it is tracked'
m(B,'InflT.inflating','def inflating (e : InflT) (y : ℕ → ℝ) : ℝ := e.V y - dphidt y ^ 2','def inflating (e : InflT) (y : ℕ → ℝ) : ℝ := e.V y - dphidt y ^ 2 / 2',f,'C100')
m(B,'InflN.inflating','e.V y - e.H2 x y * dphidN y ^ 2\n/-- efolds/inflation.py:36-50','e.V y + e.H2 x y * dphidN y ^ 2\n/-- efolds/inflation.py:36-50',f,'C100')
m(S,'endB','match firstOf NE "Inflation_dir-1_term1" with','match firstOf NE "Inflation_dir-1_term2" with',f,'C100')
m(S,'endB','match firstOf NE "Inflation_dir-1_term0" with','match firstOf NE "Inflation_dir1_term0" with',f,'C100')
m(E,'Event.name','"Inflation_dir" ++ ev.direction.fmt ++ "_term" ++ fmtBool ev.terminal','"Inflation_dir" ++ fmtBool ev.terminal ++ "_term" ++ ev.direction.fmt',f,'C100')
m(E,'Direction.fmt','def fmt : Direction → String | neg => "-1" | zero => "0" | pos => "1"','def fmt : Direction → String | neg => "1" | zero => "0" | pos => "-1"',f,'C100')
m(E,'fmtBool','def fmtBool : Bool → String | true => "1" | false => "0"','def fmtBool : Bool → String | true => "True" | false => "False"',f,'C100')
m(S,'startB','if 0 ≤ Q.inflating x0 (colAt y 0) ∨ w0 ≤ -1/3 then do','if 0 < Q.inflating x0 (colAt y 0) ∨ w0 < -1/3 then do',f,'C100')
m(S,'inflationSolB','N_tot := en.N_end.bind fun e => st.N_beg.map (e - ·)','N_tot := en.N_end.bind fun e => st.N_beg.map (e + ·)','C100: N_tot is at most maxEfolds','C100')
m(S,'solve','(res.set "event_keys" (.keys (events.map (Event.name fmtE))))','(res.set "event_keys" (.keys (events.reverse.map (Event.name fmtE))))',f,'C100 C90')
m(S,'startB','let n ← pyGet N 0','let n ← pyGet N (-1)','C100: N_tot counts from the start','C100')
g='C100: the shipped formulas catch the field'
m(P,'Starobinsky.V','s.Lambda^4 * (1 - exp (-gamma * phi))^2','s.Lambda^4 * (1 - exp (-gamma * phi))',g,'C100')
m(P,'Quadratic.V','def V (q : Quadratic) (phi : ℝ) : ℝ := q.Lambda^4 * phi^2','def V (q : Quadratic) (phi : ℝ) : ℝ := q.Lambda^4 * (phi^2 + 1)',g,'C100')
m(P,'Natural.V','n.Lambda^4 / 2 * (1 - cos (π * phi / n.phi0))','n.Lambda^4 / 2 * (1 + cos (π * phi / n.phi0))',g,'C100')
m(P,'Tmodel.V','t.Lambda^4 * t.C phi ^ (2 * t.p)','t.Lambda^4 * (1 - t.C phi ^ (2 * t.p))',g,'C100')
m(P,'DoubleWell.V','d.Lambda^4 * (1 - d.x phi ^ d.p)^2','d.Lambda^4 * (1 + d.x phi ^ d.p)^2',g,'C100')
m(C,'construct','withP 4 kw >>= monomial o c','withP 2 kw >>= monomial o c',g,'C100')
m(C,'Pot.fns','(⟨x.Lambda, s.phi0.getD 0⟩ : Natural).fns','(⟨s.phi0.getD 0, x.Lambda⟩ : Natural).fns',g,'C100')
