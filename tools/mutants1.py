M = []
def m(file, definition, old, new, claim, props, **k):
    M.append(dict(id='P%03d' % (len(M)+1), file='Model/'+file+'.lean', definition=definition, old=old, new=new, claim=claim, props=props.split(), **k))
P='Potentials'
m(P,'Monomial.d2V','m.Lambda^4 * m.p * (m.p - 1) * |phi| ^ m.p / phi^2','m.Lambda^4 * m.p * (m.p + 1) * |phi| ^ m.p / phi^2','C01: d2V is the second derivative of V','C01')
m(P,'Monomial.d3V','(m.p^2 - 3*m.p + 2) * |phi| ^ (m.p - 3) * (SignType.sign phi : ℝ)','(m.p^2 - 3*m.p + 2) * |phi| ^ (m.p - 3)','C01: d3V at negative field values loses its sign','C01')
m(P,'Monomial.d4V','m.p^3 - 6*m.p^2 + 11*m.p - 6','m.p^3 - 6*m.p^2 + 11*m.p + 6','C01: d4V is the derivative of d3V','C01')
m(P,'Starobinsky.d3V','(exp (gamma * phi) - 4)','(exp (gamma * phi) - 2)','C01: d3V is the derivative of d2V','C01')
m(P,'Starobinsky.d4V','2 * s.Lambda^4 * gamma^4 * (8','2 * s.Lambda^4 * gamma^3 * (8','C01: d4V is the derivative of d3V','C01')
m(P,'Natural.d3V','-n.Lambda^4 / 2 * sin','n.Lambda^4 / 2 * sin','C01: sign of d3V','C01')
m(P,'Natural.d2V','cos (π * phi / n.phi0) * (π / n.phi0)^2','cos (π * phi / n.phi0) * π / n.phi0^2','C01: d2V chain-rule factor','C01')
m(P,'DoubleWell.dV','/ d.phi0 * (1 - d.x phi ^ d.p)','/ d.phi0 * (d.x phi ^ d.p - 1)','C01: dV has the wrong sign','C01')
m(P,'DoubleWell.d4V','8*d.p^3 - 24*d.p^2 + 22*d.p - 6','8*d.p^3 - 24*d.p^2 + 22*d.p + 6','C01: d4V coefficient','C01')
m(P,'Tmodel.d3V','(6*t.p^2 + 3*t.p + 1)','(6*t.p^2 - 3*t.p + 1)','C01: d3V coefficient','C01')
m(P,'Tmodel.d4V','(24*t.p^3 + 10*t.p)','(24*t.p^3 + 8*t.p)','C01: d4V coefficient','C01')
m(P,'RadionGauge.d3V','- 3 * g.p * (g.alpha - phi ^ g.p)','- 3 * g.p * (g.alpha + phi ^ g.p)','C01: d3V term','C01')
m(P,'RadionGauge.d4V','/ (g.alpha + phi ^ g.p)^5','/ (g.alpha + phi ^ g.p)^4','C01: d4V denominator power','C01')
m(P,'GaussianDip.d2F','(b^2 - (x - x0)^2)','(b^2 + (x - x0)^2)','C02: feature second derivative','C02')
m(P,'GaussianDip.d3F','- 3 * b^2)','- 2 * b^2)','C02: feature third derivative','C02')
m(P,'TanhStep.d2F','-2 * a / b^2 * tanh','2 * a / b^2 * tanh','C02: feature second derivative sign','C02')
m(P,'TanhStep.d3F','1 - 4 * tanh','1 - 2 * tanh','C02: feature third derivative','C02')
m(P,'FeaturePotential.d2V','+ 2 * base.dV phi * f.dF phi','+ base.dV phi * f.dF phi','C02: product rule factor 2 dropped','C02')
m(P,'FeaturePotential.d3V','+ 3 * base.dV phi * f.d2F phi','+ 3 * base.d2V phi * f.d2F phi','C02: wrong base derivative in the Leibniz rule','C02')
m(P,'FeaturePotential.V','base.V phi * (1 + f.F phi)  ','base.V phi * (1 - f.F phi)  ','C02: dV is no longer the derivative of V','C02')
m(P,'StarobinskyTanhStep','FeaturePotential (Starobinsky.mk Lambda).fns (TanhStep.fns phi_feature a_feature b_feature)','FeaturePotential (Starobinsky.mk Lambda).fns (TanhStep.fns phi_feature b_feature a_feature)','C02: arguments a_feature and b_feature swapped','C02')
m(P,'Monomial.get_epsilon_2V','noncomputable def get_epsilon_2V (m : Monomial) (phi : ℝ) : ℝ := 2 * m.p / phi^2','noncomputable def get_epsilon_2V (m : Monomial) (phi : ℝ) : ℝ := m.p / phi^2','C03: epsilon_2V factor 2','C03')
m(P,'Starobinsky.get_epsilon_3V','2 * gamma^2 * (exp (gamma * phi) + 1) / (exp','2 * gamma^2 * (exp (gamma * phi) - 1) / (exp','C03: epsilon_3V','C03')
m(P,'Starobinsky.get_epsilon_4V','(2 * (exp (gamma*phi) + 1) * sinh','((exp (gamma*phi) + 1) * sinh','C03: epsilon_4V factor 2','C03')
m(P,'Natural.get_epsilon_3V','π^2 * sin (π*phi/n.phi0)^2 / (n.phi0^2 *','π^2 * sin (π*phi/n.phi0)^2 / (2 * n.phi0^2 *','C03: epsilon_3V equal to epsilon_1V','C03', count=2, nth=None) if False else None
m(P,'DoubleWell.get_epsilon_2V','(d.p + d.x phi ^ d.p - 1)\n    / (d.phi0^2 * (d.x phi ^ d.p - 1)^2)','(d.p - d.x phi ^ d.p - 1)\n    / (d.phi0^2 * (d.x phi ^ d.p - 1)^2)','C03: epsilon_2V sign','C03')
m(P,'DoubleWell.get_epsilon_4V','5*p^3 + 7*p^2 - 36*p + 24','5*p^3 + 7*p^2 - 36*p + 12','C03: epsilon_4V coefficient','C03')
m(P,'Tmodel.get_epsilon_3V','(-t.C phi^6 + t.C phi^4 - t.C phi^2 + 1)','(-t.C phi^6 - t.C phi^4 - t.C phi^2 + 1)','C03: epsilon_3V coefficient','C03')
m(P,'RadionGauge.get_epsilon_3V','(3*alpha - phi ^ p)\n               - 3','(3*alpha + phi ^ p)\n               - 3','C03: epsilon_3V coefficient','C03')
m(P,'RadionGauge.get_epsilon_4V','- 12*p*phi ^ p*(alpha + phi ^ p)^3','- 12*p*phi ^ p*(alpha + phi ^ p)^2','C03: epsilon_4V power','C03')
m(P,'Monomial.inv_V','(V / m.Lambda^4) ^ (1 / m.p)','(V / m.Lambda^4) ^ m.p','C04: inv_V exponent','C04')
m(P,'Starobinsky.inv_V','-log (1 - √V / s.Lambda^2) / gamma','-log (1 - √V / s.Lambda^4) / gamma','C04: inv_V Lambda power','C04')
m(P,'Natural.inv_V','arccos (1 - 2 * V / n.Lambda^4)','arccos (1 - V / n.Lambda^4)','C04: missing factor 2','C04')
m(P,'Tmodel.inv_V','t.Lambda ^ (2/t.p)','t.Lambda ^ (4/t.p)','C04: Lambda exponent','C04')
m(P,'RadionGauge.inv_V','(g.Lambda^4/V - 1)','(g.Lambda^4/V + 1)','C04: sign','C04')
m(P,'DoubleWell.inv_V','d.phi0 - d.phi0 * (1 - √V','d.phi0 + d.phi0 * (1 - √V','C04: branch of the inverse','C04')
m(P,'Monomial.phi_end','√2 * m.p / 2','√2 * m.p','C05: epsilon_1V(phi_end)=1','C05')
m(P,'Starobinsky.phi_end','log (√2 * gamma + 1) / gamma','log (√2 * gamma - 1) / gamma','C05: epsilon_1V(phi_end)=1','C05')
m(P,'Natural.phi_end','arctan (√2 * π / (2 * n.phi0))','arctan (√2 * π / n.phi0)','C05: epsilon_1V(phi_end)=1','C05')
m(P,'DoubleWell.phi_end','(EPS * d.phi0) d.phi0','0 (EPS * d.phi0)','C05: wrong bracket','C05')
m(P,'DoubleWell2.phi_end','√(phi0^2 + 2) + 4','√(phi0^2 + 2) + 2','C05: DoubleWell2 closed form','C05')
m(P,'DoubleWell4.phi_end_squared','8 + √(auxB phi0) / √3','4 + √(auxB phi0) / √3','C05: quartic closed form','C05')
m(P,'Tmodel.phi_end','arsinh (2 * √2 * t.p / t.s_6_a)','arsinh (√2 * t.p / t.s_6_a)','C05: epsilon_1V(phi_end)=1','C05')
m(P,'RadionGauge.phi_end','(fun phi => g.get_epsilon_1V phi - 1) (1 / 10^30)','(fun phi => g.get_epsilon_2V phi - 1) (1 / 10^30)','C05: wrong slow-roll parameter','C05')
m(P,'RadionGauge2.phi_end','- 2 * (3:ℝ) ^ (5/6 : ℝ) * a','- (3:ℝ) ^ (5/6 : ℝ) * a','C05: RadionGauge2 closed form','C05')
m(P,'Monomial.sr_phi2N','-m.p / 4 + phi^2 / (2 * m.p)','phi^2 / (2 * m.p)','C06: N(phi_end)=0','C06')
m(P,'Starobinsky.sr_phi2N','(-phi + s.phi_end) / (2*gamma)','(phi - s.phi_end) / (2*gamma)','C06: dN/dphi = V/V\'','C06')
m(P,'Natural.sr_phi2N','n.phi0^2/π^2 * (log','2*n.phi0^2/π^2 * (log','C06: dN/dphi = V/V\'','C06')
m(P,'DoubleWell.sr_phi2N','(d.phi0 - phi)^2 / 8 - (d.phi0 - phi_e)^2 / 8','(d.phi0 - phi)^2 / 4 - (d.phi0 - phi_e)^2 / 4','C06: p=2 branch','C06')
m(P,'DoubleWell.sr_phi2N','if d.p = 2 then','if d.p = 4 then','C06: wrong special case (division by zero for p=2)','C06')
m(P,'Tmodel.sr_phi2N','√(8*t.p^2 + t.s_6_a^2))','√(8*t.p + t.s_6_a^2))','C06: N(phi_end)=0','C06')
m(P,'RadionGauge.sr_phi2N','(g.alpha*g.p/2 + g.alpha)','(g.alpha*g.p/2 - g.alpha)','C06','C06')
m(P,'Monomial.sr_N2phi','√(2 * m.p) * √(4 * N + m.p) / 2','√(2 * m.p) * √(4 * N) / 2','C07: inverse','C07')
m(P,'Starobinsky.sr_N2phi','exp (gamma*s.phi_end)/gamma\n','exp (gamma*s.phi_end)\n','C07: inverse','C07')
m(P,'Natural.sr_N2phi','exp (π^2*N/n.phi0^2)','exp (π*N/n.phi0^2)','C07: inverse','C07')
m(P,'Tmodel.sr_N2phi','arcosh (8*t.p/t.s_6_a^2 * N','arcosh (8*t.p/t.s_6_a * N','C07: inverse','C07')
m(P,'RadionGauge2.sr_N2phi','8*N*alpha + alpha^2','4*N*alpha + alpha^2','C07: inverse','C07')
m(P,'DoubleWell.sr_N2phi','(fun i => d.sr_phi2N phi_e (d.phis i)) d.phis N','d.phis (fun i => d.sr_phi2N phi_e (d.phis i)) N','C07: interpolation axes swapped','C07')
m(P,'interp1d','let lo := hi - 1','let lo := hi - 2','C07: wrong segment','C07')
m(P,'RadionGauge.sr_N2phi','g.sr_phi2N phi_end phi - N) phi_end','g.sr_phi2N phi_end phi + N) phi_end','C07: sign of the target','C07')
m(P,'Monomial.sr_ns2Nstar','(2 + p) / (2 * (1 - n_s))','(2 + p) / (2 * (n_s - 1))','C08','C08')
m(P,'Starobinsky.sr_ns2Nstar','8*(1-n_s) + 4*gamma^2','4*(1-n_s) + 4*gamma^2','C08','C08')
m(P,'Natural.sr_ns2Nstar','if phi0 < π / √(1 - n_s)','if π / √(1 - n_s) < phi0','C08: guard inverted','C08')
m(P,'Natural.sr_r2Nstar','(2 * f^2 * r + 16)','(2 * f^2 * r - 16)','C08','C08')
m(P,'Starobinsky.sr_r2Nstar','√2 * (4 - √r)','√2 * (4 + √r)','C08','C08')
m(P,'Starobinsky.sr_Nstar2r','32 / (2*N_star*gamma + √2)^2','16 / (2*N_star*gamma + √2)^2','C11: r = 16 epsilon_1V','C11 C08')
m(P,'Monomial.sr_Nstar2r','16 * p / (4 * N_star + p)','8 * p / (4 * N_star + p)','C11: r = 16 epsilon_1V','C11 C08')
m(P,'Natural.sr_Nstar2r','16 / (-2 * f^2 +','16 / (2 * f^2 +','C11','C11 C08')
m(P,'Monomial.sr_Nstar2ns','1 - p / (2 * N_star) - 1 / N_star','1 - p / (2 * N_star) - 2 / N_star','C08','C08')
m(P,'Linear','def Linear (Lambda : ℝ) : Monomial := ⟨Lambda, 1⟩','def Linear (Lambda : ℝ) : Monomial := ⟨Lambda, 2⟩','C12: LinearPotential is p=1','C12')
m(P,'Cubic.sr_Nstar2ns','Monomial.sr_Nstar2ns 3 N','Monomial.sr_Nstar2ns 2 N','C12: forwards with p=3','C12')
m(P,'Quartic.sr_ns2Nstar','Monomial.sr_ns2Nstar 4 n','Monomial.sr_ns2Nstar 3 n','C12: forwards with p=4','C12')
m(P,'Quadratic.dV','2 * q.Lambda^4 * phi\n','q.Lambda^4 * phi\n','C12: overrides agree with p=2','C12 C01')
m(P,'Quadratic.sr_r2Nstar','Monomial.sr_r2Nstar 2 r','Monomial.sr_Nstar2r 2 r','C12: wrong forward','C12')
m(P,'Quadratic.inv_V','√V / q.Lambda^2','√V / q.Lambda^4','C04: inv_V','C04 C12')
m(P,'Starobinsky.phi2efolds','- gamma * (phi - phi_end)) / (2 * gamma^2)','- (phi - phi_end)) / (2 * gamma^2)','C61','C61')
m(P,'Natural.phi2efolds','if phi < phi0 then','if phi0 < phi then','C61: assertion inverted','C61')
m(P,'DoubleWell2.phi2efolds','(phi2 - phi_end2 - phi0^2 * log (phi2 / phi_end2)) / 8','(phi2 - phi_end2 - phi0^2 * log (phi2 / phi_end2)) / 4','C61','C61')
m(P,'DoubleWell4.phi2efolds','(1/phi2 - 1/phi_end2)) / 16','(1/phi2 + 1/phi_end2)) / 16','C61','C61')
I='PotentialInit'
m(I,'sr_As2Lambda','H2 / (8 * π^2 * e1)','H2 / (12 * π^2 * e1)','C09: A_s normalisation','C09')
m(I,'sr_As2Lambda','(A_s / A_s0) ^ (1/4 : ℝ)','(A_s / A_s0) ^ (1/2 : ℝ)','C09: exponent','C09')
m(I,'sr_As2Lambda','.ok (Lambda * (A_s / A_s0)','.ok ((A_s / A_s0)','C09: current Lambda dropped','C09')
m(I,'sr_As2Lambda','    | some _ => .error (.exception "Need to specify either N_star or phi_star")','    | some phi => finish phi N','C10: both N_star and phi_star accepted','C09 C10')
m(I,'potInit','if kw.N_star.isSome ∨ kw.phi_star.isSome ∨ kw.other ≠ [] then','if kw.other ≠ [] then','C10: N_star without A_s accepted','C10')
m(I,'potInit','      if kw.other ≠ [] then .error (.exception "does not accept kwarg")\n      else .ok (L, decide (L0 ≠ 1))','      .ok (L, decide (L0 ≠ 1))','C10: unknown kwargs accepted','C10')
m(I,'potInit','.ok (L, decide (L0 ≠ 1))','.ok (L0, decide (L0 ≠ 1))','C09/C10: A_s ignored','C09 C10')
m(I,'potInit','decide (L0 ≠ 1)','false','C10: warning dropped','C10')
m(I,'potInit','if kw.N_star = none ∧ kw.phi_star = none then','if kw.N_star = none ∨ kw.phi_star = none then','C10','C10 C09')
m(I,'Natural.sr','⟨n.V, n.get_epsilon_1V, fun φ => .ok (n.sr_phi2N φ)','⟨n.V, n.get_epsilon_2V, fun φ => .ok (n.sr_phi2N φ)','C09: wrong epsilon','C09')
m(I,'DoubleWell2.sr','⟨d.V, d.get_epsilon_1V, fun φ => .ok (d.sr_phi2N (DoubleWell2','⟨d.dV, d.get_epsilon_1V, fun φ => .ok (d.sr_phi2N (DoubleWell2','C09: wrong potential','C09')
F='PotentialFlow'
m(F,'get_epsilon_1','5/36 * e1V * e2V^2','5/18 * e1V * e2V^2','C13: third-order accuracy','C13')
m(F,'get_epsilon_1','- e1V^2 * e2V / 9','+ e1V^2 * e2V / 9','C13: third-order accuracy','C13')
m(F,'get_epsilon_2','+ 1/9*e2V*e3V*e4V','','C13: third-order accuracy','C13')
m(F,'get_epsilon_2','- 1/6*e2V^2 - 1/3','- 1/3*e2V^2 - 1/3','C13: second-order accuracy','C13')
m(F,'get_epsilon_3','- 1/3*e3V*e4V - 1/6*e1V*e2V^2','- 1/6*e3V*e4V - 1/6*e1V*e2V^2','C13: second-order accuracy','C13')
m(F,'get_epsilon_4','e4V - 1/3*e2V*e3V','e3V - 1/3*e2V*e3V','C13: first-order accuracy','C13')
M=[x for x in M if x]
