M = []
def m(file, definition, old, new, claim, props, **k):
    M.append(dict(id='ZD%03d' % (len(M)+1), file='Model/'+file+'.lean', definition=definition, old=old, new=new, claim=claim, props=props.split(), **k))
B='Background'
a='C19/C67: the right-hand side is the flow of the given potential in the given curvature'
m(B,'InflT.H2','T.get_H2 (_N y) (dphidt y) (e.V y) e.K','T.get_H2 (_N y) (dphidt y) (e.V y) 0',a,'C19 C67')
m(B,'InflT.H2','T.get_H2 (_N y) (dphidt y) (e.V y) e.K','T.get_H2 (_N y) (phi y) (e.V y) e.K',a,'C19 C67')
m(B,'InflN.H2','N.get_H2 x (dphidN y) (e.V y) e.K','N.get_H2 x (dphidN y) (e.V y) (-e.K)',a,'C19 C67')
m(B,'InflT.dVdphi','def dVdphi (e : InflT) (y : ℕ → ℝ) : ℝ := e.pot.dV (phi y)','def dVdphi (e : InflT) (y : ℕ → ℝ) : ℝ := e.pot.dV (dphidt y)',a,'C19 C67')
m(B,'InflN.dVdphi','def dVdphi (e : InflN) (y : ℕ → ℝ) : ℝ := e.pot.dV (phi y)','def dVdphi (e : InflN) (y : ℕ → ℝ) : ℝ := e.pot.d2V (phi y)',a,'C19 C67')
m(B,'InflT.d2Vdphi2','def d2Vdphi2 (e : InflT) (y : ℕ → ℝ) : ℝ := e.pot.d2V (phi y)','def d2Vdphi2 (e : InflT) (y : ℕ → ℝ) : ℝ := e.pot.dV (phi y)','C14: reported derivatives are those of the trajectory','C14 C22 C19 C65')
m(B,'InflT.H','noncomputable def H (e : InflT) (y : ℕ → ℝ) : ℝ := √(e.H2 y)','noncomputable def H (e : InflT) (y : ℕ → ℝ) : ℝ := e.H2 y',a,'C19 C67 C20')
m(B,'InflN.H','noncomputable def H (e : InflN) (x : ℝ) (y : ℕ → ℝ) : ℝ := √(e.H2 x y)','noncomputable def H (e : InflN) (x : ℝ) (y : ℕ → ℝ) : ℝ := e.H2 x y',a,'C19 C67 C20')
P='Potentials'
m(P,'DoubleWell2','⟨Lambda, phi0, 2⟩','⟨Lambda, phi0, 3⟩','C05: phi_end of the quadratic double well','C05')
m(P,'DoubleWell4','⟨Lambda, phi0, 4⟩','⟨Lambda, phi0, 3⟩','C61: phi2efolds of the quartic double well','C61')
m(P,'RadionGauge2','⟨Lambda, 2, alpha⟩','⟨Lambda, 1, alpha⟩','C05: phi_end of the quadratic radion gauge potential','C05')
m(P,'FeaturePotential','+ 3 * base.dV phi * f.d2F phi','+ 2 * base.dV phi * f.d2F phi','C02: derivative chain of feature potentials','C02')
m(P,'FeaturePotential','V phi := base.V phi * (1 + f.F phi)','V phi := base.V phi * (1 - f.F phi)','C02: derivative chain of feature potentials','C02')
m(P,'Tmodel.fns','⟨t.V, t.dV, t.d2V, t.d3V, t.d4V⟩','⟨t.V, t.dV, t.d3V, t.d2V, t.d4V⟩','C01/C89: the built potential has the documented functions','C01 C89 C69')
m(P,'GaussianDip.fns','noncomputable def GaussianDip.fns (x0 a b : ℝ) : FeatureFns :=\n  ⟨fun x => F x x0 a b','noncomputable def GaussianDip.fns (x0 a b : ℝ) : FeatureFns :=\n  ⟨fun x => F x x0 b a','C02/C89: the feature has the documented position, height and width','C02 C89')
m(P,'TanhStep.fns','noncomputable def TanhStep.fns (x0 a b : ℝ) : FeatureFns :=\n  ⟨fun x => F x x0 a b, fun x => dF x x0 a b','noncomputable def TanhStep.fns (x0 a b : ℝ) : FeatureFns :=\n  ⟨fun x => F x x0 a b, fun x => dF x a x0 b','C02/C89: the feature has the documented position, height and width','C02 C89')
m(P,'Starobinsky.fns','⟨s.V, s.dV, s.d2V, s.d3V, s.d4V⟩','⟨s.V, s.d2V, s.dV, s.d3V, s.d4V⟩','C02/C89: functions of the Starobinsky potential','C01 C02 C89')
C='PotentialCtor'
b='C89: the constructed object has the methods of its class and the attributes given'
m(C,'Pot.fns','(⟨x.Lambda, s.p.getD 0, s.alpha.getD 0⟩ : Tmodel).fns','(⟨x.Lambda, s.alpha.getD 0, s.p.getD 0⟩ : Tmodel).fns',b,'C89')
m(C,'Pot.fns','(⟨x.Lambda, s.phi0.getD 0⟩ : Natural).fns','(⟨1, s.phi0.getD 0⟩ : Natural).fns',b,'C89')
m(C,'Pot.fns','StarobinskyTanhStep x.Lambda (s.phi_feature.getD 0) (s.a_feature.getD 0)','StarobinskyTanhStep x.Lambda (s.a_feature.getD 0) (s.phi_feature.getD 0)',b,'C89')
m(C,'Ctor.monomial','let (p, kw) ← pop kw "p"\n  base o c { p := some p } kw','let (p, _) ← pop kw "p"\n  base o c { p := some p } kw',b,'C89')
m(C,'Ctor.natural','base o c { phi0 := some phi0 } kw','base o c { p := some phi0 } kw',b,'C89')
m(C,'Ctor.popOpt','| none => .ok none\n','| none => .ok (some 0)\n',b,'C89')
U='Units'
c='C56: the constants are those of the reduced Planck system'
m(U,'lp_m','√(8 * π * u.G * u.hbar / u.c ^ 3)','√(8 * π * u.G * u.hbar / u.c ^ 5)',c,'C56')
m(U,'Mpc_m','mega * u.parsec_m','giga * u.parsec_m',c,'C56 C42')
m(U,'T_nu_Tp','T_nu_K / u.Tp_K','T_CMB_K / u.Tp_K',c,'C56')
m(U,'T_nu_K','T_nu_TCMB * T_CMB_K','T_CMB_K / T_nu_TCMB',c,'C56')
m(U,'rho_r0_kg_im3','u.rho_gamma0_kg_im3 + u.rho_nu0_kg_im3','u.rho_gamma0_kg_im3',c,'C56')
D='Calibration'
d='C33: which calibration is applied, and what is refused'
m(D,'badReheating','d < 0) ∨','d ≤ 0) ∨',d,'C33 C35 C32')
m(D,'badReheating','∃ w, a.w_reh = some w ∧ w < -1 / 3)\n\n/-- inflation.py:627','∃ w, a.w_reh = some w ∧ w < 1 / 3)\n\n/-- inflation.py:627',d,'C33 C35')
m(D,'flatSel','if a.method = "N_star" then flatNstar u s a\n    else if a.method = "reheating" then flatReheating u s a','if a.method = "N_star" then flatReheating u s a\n    else if a.method = "reheating" then flatNstar u s a',d,'C33 C34')
m(D,'curvedSel','if a.method = "Omega_K0" then curvedOmega u s a h\n  else if','if a.method = "N_star" then curvedOmega u s a h\n  else if',d,'C33 C37')
m(D,'calibrate','if s.K = 0 then\n    match flat u s a with','if s.K ≤ 0 then\n    match flat u s a with',d,'C33 C37')
m(D,'calibrate','match flat u s a with\n    | .error e => .error e\n    | .ok p => .ok (finish u s a.background.isSome p)','match flat u s a with\n    | .error e => .error e\n    | .ok p => .ok (finish u s false p)','C78: a copied calibration','C78 C33 C38')
E='Events'
m(E,'scipyActive','let up := g ≤ 0 ∧ 0 ≤ gNew','let up := 0 ≤ g ∧ 0 ≤ gNew','C23: events are located where they happen','C23 C77 C82 C25')
m(E,'scipyActive','| .pos => up\n  | .neg => down','| .pos => down\n  | .neg => up','C23: events are located where they happen','C23')
Q='Equations'
m(Q,'Dict.contains','d.any (·.1 == k)','d.any (·.1 != k)','C21/C89: membership in a dictionary','C21 C89 C24')
m(Q,'Dict.del','d.filter (·.1 ≠ k)','d.filter (·.1 = k)','C89: popped keywords are gone','C89')
m(Q,'add_variable','names.foldl add_variable1 e','(names.take 1).foldl add_variable1 e','C21: every name is registered','C21')
V='Version'
v='C60: version bumping'
m(V,'V.major','v.release.getD 0 0\n','v.release.getD 1 0\n',v,'C60')
m(V,'V.minor','v.release.getD 1 0','v.release.getD 2 0',v,'C60')
m(V,'V.eqv','trim a.release = trim b.release','a.release = b.release',v,'C60')
m(V,'readVersion',"afterLast '=' (cat file)","cat file",v,'C60')
m(V,'str','Nat.toDigits 10 n','Nat.toDigits 2 n',v,'C60')
S='Shooting'
m(S,'Shooting.start','⟨phi, S.t_i, S.eta_i, S.x_end, S.N_i, S.Omega_Ki⟩','⟨phi, S.eta_i, S.t_i, S.x_end, S.N_i, S.Omega_Ki⟩','C31/C91: the returned conditions have the given clock','C31 C91 C90')
m(S,'Shooting.startState','InflationStartIC.call S.E ic fun _ => some 0','InflationStartIC.call S.E ic fun _ => some 1','C31: the state starts at zero','C31 C91')
I='InflationSol'
m(I,'nanLog','if 0 < x then some (log x) else none','if 0 ≤ x then some (log x) else none','C25: NaN where the logarithm does not exist','C25 C22 C42')
m(I,'EqView.Hnan','nanSqrt (Q.H2 p.1 p.2)','some (Q.H2 p.1 p.2)','C25: the Hubble parameter of the solution','C25 C22 C92')
