M = []
def m(file, definition, old, new, claim, props, **k):
    M.append(dict(id='S%03d' % (len(M)+1), file='Model/'+file+'.lean', definition=definition, old=old, new=new, claim=claim, props=props.split(), **k))
A='ApproxPower'
m(A,'alpha','2 - log 2 - eulerMascheroniConstant','2 - log 2 + eulerMascheroniConstant','C73/C55: the constant alpha','C55 C73')
m(A,'C','eulerMascheroniConstant + log 2 - 2','eulerMascheroniConstant + log 2 - 1','C73/C55: the constant C','C55 C73')
m(A,'zeta3','1 / ((n : ℝ) + 1) ^ 3','1 / ((n : ℝ) + 1) ^ 2','C73: zeta(3)','C73')
m(A,'Z','zeta3 / 3 * 7','zeta3 / 3','C73: zeta(3) coefficient','C73')
m(A,'cgsS2','(4 * a ^ 2 - 19 + 7 * π ^ 2 / 3)','(4 * a ^ 2 - 17 + 7 * π ^ 2 / 3)','C55: CGS2','C55 C73')
m(A,'cgsS2','(3 * a ^ 2 + 2 * a - 20 + 29 * π ^ 2 / 12)','(3 * a ^ 2 - 2 * a - 20 + 29 * π ^ 2 / 12)','C55: CGS2 mixed','C55')
m(A,'cgsS2','(3 * a ^ 2 - 4 + 5 * π ^ 2 / 12)','(3 * a ^ 2 - 4 + 7 * π ^ 2 / 12)','C55: CGS2 d1^2','C55')
m(A,'cgsS2','+ 20 * a - 9 / 4 * π ^ 2 * a + 16 / 3','+ 20 * a - 7 / 4 * π ^ 2 * a + 16 / 3','C72: CGS3 third-order term e1*d2','C72')
m(A,'cgsS2','+ 8 * a - 7 / 12 * π ^ 2 * a - 4 + 2 * zeta3','+ 8 * a - 7 / 12 * π ^ 2 * a - 4 - 2 * zeta3','C72: CGS3 term d1*d2','C72')
m(A,'cgsS3','(4 * a ^ 2 + 8 * a + 16 + 5 * π ^ 2 - 48 * zeta3)','(4 * a ^ 2 + 8 * a - 16 + 5 * π ^ 2 - 48 * zeta3)','C72/C73: CGS3 e1^3','C72 C73')
m(A,'cgsS3','+ 88 / 3 + 23 / 3 * π ^ 2','+ 88 / 3 + 25 / 3 * π ^ 2','C72: CGS3 e1^2 d1','C72')
m(A,'cgsS3','- 24 * a + 13 / 4 * π ^ 2 * a + 16','- 24 * a + 13 / 4 * π ^ 2 * a - 16','C72: CGS3 e1 d1^2','C72')
m(A,'cgsS3','(4 * a ^ 3 - 16 * a + 5 / 3 * π ^ 2 * a + 8 - 6 * zeta3)','(4 * a ^ 3 - 16 * a + 5 / 3 * π ^ 2 * a + 8 - 8 * zeta3)','C72/C73: CGS3 d1^3','C72 C73')
m(A,'cgsT1','1 + 2 * (a - 1) * p.e1','1 + 2 * (a + 1) * p.e1','C55: tensor CGS1','C55')
m(A,'cgsT1','(-a ^ 2 + 2 * a - 2 + π ^ 2 / 12) * p.g2','(-a ^ 2 + 2 * a - 2 + π ^ 2 / 12) * p.e2','C55: Gong parameter','C55')
m(A,'cgsT1','+ π ^ 2 / 12 - 2 / 3 - 2 / 3 * zeta3','+ π ^ 2 / 12 - 2 / 3 + 2 / 3 * zeta3','C72: tensor CGS3','C72')
m(A,'cgsT2','(2 * a ^ 2 - 2 * a - 3 + π ^ 2 / 2)','(2 * a ^ 2 - 2 * a - 5 + π ^ 2 / 2)','C55: tensor CGS2','C55')
m(A,'cgsT2','(8 - 11 / 12 * π ^ 2) * a','(8 - 13 / 12 * π ^ 2) * a','C72: tensor CGS3','C72')
m(A,'cgsT3','(4 / 3 * a ^ 3 - 8 * a + π ^ 2 * a + 16 / 3 - 14 / 3 * zeta3)','(4 / 3 * a ^ 3 - 8 * a + π ^ 2 * a + 16 / 3)','C72/C73: tensor CGS3','C72 C73')
m(A,'cgsT','| 2, p => cgsT1 p + cgsT2 p\n','| 2, p => cgsT1 p\n','C55: order dispatch','C55')
m(A,'bs0','(-C ^ 2 - 3 * C + 7 * π ^ 2 / 12 - 7)','(-C ^ 2 - 3 * C + 7 * π ^ 2 / 12 - 6)','C55: LLMS amplitude','C55')
m(A,'bs0','(-C ^ 2 / 2 + π ^ 2 / 24) * p.e2 * p.e3\n/-- inflation.py:1130','(-C ^ 2 / 2 + π ^ 2 / 24) * p.e2 ^ 2\n/-- inflation.py:1130','C55: LLMS amplitude','C55')
m(A,'llms_nt','- 2 * (C + 1) * p.e1 * p.e2','- 2 * (C - 1) * p.e1 * p.e2','C71/C55: LLMS tensor tilt','C55 C71')
m(A,'llms_ntrun','llms_ntrun (p : SRPoint) : ℝ := -2 * p.e1 * p.e2','llms_ntrun (p : SRPoint) : ℝ := 2 * p.e1 * p.e2','C71: LLMS tensor running','C71 C55')
m(A,'llmsS','llms_nsrun p / 2 * L ^ 2','llms_nsrun p * L ^ 2','C55/C71: factor 1/2','C55 C71')
m(A,'llmsT','llms_nt p * L','(llms_nt p - 1) * L','C55/C71: tensor tilt convention','C55 C71')
m(A,'steT','(-C ^ 2 - 2 * C + π ^ 2 / 12 - 2) * p.e1 * p.e2\n\n','(-C ^ 2 - 2 * C + π ^ 2 / 12 - 2) * p.e2 ^ 2\n\n','C55: STE tensor','C55')
m(A,'as0_2','(-6 + alpha + alpha ^ 2 + 7 * π ^ 2 / 12)','(-6 - alpha + alpha ^ 2 + 7 * π ^ 2 / 12)','C71/C72','C71 C72')
m(A,'as0_2','(-12 * alpha ^ 2 + π ^ 2) / 24 * p.e2 * p.e3\n/-- inflation.py:1286','(-12 * alpha ^ 2 - π ^ 2) / 24 * p.e2 * p.e3\n/-- inflation.py:1286','C72','C72')
m(A,'as0_3','-(-16 + 24 * alpha - 4 * alpha ^ 3 - 3 * alpha * π ^ 2 + 6 * Z) / 24','-(-16 + 24 * alpha - 4 * alpha ^ 3 - 3 * alpha * π ^ 2 + 8 * Z) / 24','C73/C71','C71 C73')
m(A,'as0_3','+ 13 * π ^ 2 + 8 * alpha * π ^ 2 - 36 * Z','+ 11 * π ^ 2 + 8 * alpha * π ^ 2 - 36 * Z','C72: constant of the mixed term','C72 C71')
m(A,'as0_3','- 15 * π ^ 2 - 6 * alpha * π ^ 2 + 84 * Z','- 15 * π ^ 2 - 4 * alpha * π ^ 2 + 84 * Z','C71: pivot independence','C71')
m(A,'as0_3','(48 * alpha - 12 * alpha ^ 3 - 5 * alpha * π ^ 2) / 24','(48 * alpha - 12 * alpha ^ 3 + 5 * alpha * π ^ 2) / 24','C71','C71')
m(A,'as1_2','2 * (-2 * alpha + 1) * p.e1 ^ 2 + (-2 * alpha - 1) * p.e1 * p.e2','2 * (-2 * alpha + 1) * p.e1 ^ 2 + (-2 * alpha + 1) * p.e1 * p.e2','C71','C71')
m(A,'as1_3','- 2 / 3 * (-9 + 9 * alpha + π ^ 2)','- 2 / 3 * (-9 + 6 * alpha + π ^ 2)','C71','C71')
m(A,'as1_3','(-12 * alpha ^ 2 + π ^ 2) / 24 * (p.e2 * p.e3 ^ 2)','(12 * alpha ^ 2 + π ^ 2) / 24 * (p.e2 * p.e3 ^ 2)','C71','C71')
m(A,'as2_2','1 / 2 * (4 * p.e1 ^ 2 + 2 * p.e1 * p.e2','1 / 2 * (4 * p.e1 ^ 2 - 2 * p.e1 * p.e2','C71','C71')
m(A,'as2_3','1 / 2 * (6 * p.e1 ^ 2 * p.e2','1 / 2 * (4 * p.e1 ^ 2 * p.e2','C71','C71')
m(A,'as3_3','+ 4 * p.e1 * p.e2 * p.e3','- 4 * p.e1 * p.e2 * p.e3','C71','C71')
m(A,'at0_1','1 + 2 * (-1 + alpha) * p.e1','1 + 2 * (1 + alpha) * p.e1','C72/C55','C72 C55')
m(A,'at0_2','(-2 + 2 * alpha - alpha ^ 2 + π ^ 2 / 12) * p.e1 * p.e2\n/--','(-2 + 2 * alpha - alpha ^ 2 + π ^ 2 / 24) * p.e1 * p.e2\n/--','C72','C72')
m(A,'at0_3','+ 13 * π ^ 2 - 10 * alpha * π ^ 2','+ 13 * π ^ 2 + 10 * alpha * π ^ 2','C71','C71')
m(A,'at0_3','- π ^ 2 + alpha * π ^ 2 + 24 * Z','- π ^ 2 + alpha * π ^ 2 - 24 * Z','C72: tensor constant','C72')
m(A,'at1_2','(-2 + 2 * alpha) * p.e1 * p.e2','(2 + 2 * alpha) * p.e1 * p.e2','C71','C71')
m(A,'at1_3','6 * (-1 - alpha + alpha ^ 2 + 5 * π ^ 2 / 36)','6 * (-1 - alpha + alpha ^ 2 + 5 * π ^ 2 / 12)','C71','C71')
m(A,'at2_2','1 / 2 * (4 * p.e1 ^ 2 - 2 * p.e1 * p.e2)','1 / 2 * (4 * p.e1 ^ 2 + 2 * p.e1 * p.e2)','C71','C71')
m(A,'at2_3','2 * (3 - 6 * alpha)','2 * (3 + 6 * alpha)','C71','C71')
m(A,'at3_3','+ 12 * p.e1 ^ 2 * p.e2','+ 6 * p.e1 ^ 2 * p.e2','C71','C71')
m(A,'arbdsT','+ at2_2 p * L ^ 2\n','+ at2_2 p * L\n','C71','C71')
m(A,'arbdsS','(as2_2 p + as2_3 p) * L ^ 2','as2_2 p * L ^ 2','C71','C71')
m(A,'logTable','log (Ps q.1 q.2), log (Pt q.1 q.2)) else','log (Pt q.1 q.2), log (Ps q.1 q.2)) else','C74: scalar and tensor swapped','C74')
m(A,'specCGS','fun _ p => Pt0 p * cgsT order p','fun _ p => Pt0 p * cgsS order p','C74: tensor uses the scalar correction','C74')
m(A,'specLLMS','llmsT g.star (q.1 - log SI.K_STAR)','llmsT g.star q.1','C74: pivot in LLMS','C74')
m(A,'specSTE','fun _ p => Ps0 p * steS p','fun _ p => Ps0 p + steS p','C74','C74')
m(A,'specARBDS','(fun lk _ => Pt0 g.star','(fun lk p => Pt0 p','C74: grid instead of pivot values','C74')
m(A,'deriveSTE','ste := some (specSTE spline kw g), current','ste := c.ste, current','C40/C74: attribute not set','C40')
m(A,'deriveARBDS','if 1 ≤ order ∧ order ≤ 3 then some (specARBDS spline kw order g)','if 1 ≤ order ∧ order ≤ 3 then some (specARBDS spline kw 3 g)','C40/C74: order ignored','C74 C40')
P='PowerSol'
m(P,'gridOf','sr.star I.mask c.N_cross_','sr.star I.mask c.N_star','C74: pivot values at the wrong e-fold','C74 C41')
m(P,'deriveP','.ok ⟨s, c\', some (params S)⟩','.ok ⟨s, c\', none⟩','C41/C74: pivot parameters not stored','C41')
m(P,'deriveP','.ok ⟨s, c\', some (params S)⟩','.ok ⟨s, c, some (params S)⟩','C40/C41: caches not stored','C40 C74')
m(P,'nsProbe','nsProbe kw n_s q.1 xs','nsProbe kw n_s p xs','C41: state during the root search (unobservable?)','C41',)
m(P,'calibrateP','.ok s => if a.background.isSome then .ok { p with st := s }','.ok s => if a.background.isSome then .ok p','C41: copied background not stored','C41')
W='WrapperFull'
m(W,'fresh','⟨⟨0, r.N, r.logaH, r.H,','⟨⟨0, r.logaH, r.N, r.H,','C70: arrays swapped','C70')
m(W,'backend','n_s 20 N_star_max rho','n_s 20 N_star_max none','C70: rho_reh dropped in set_ns','C70')
m(W,'backend','w_reh b := b.sol.st.sticky.w_reh.join','w_reh b := b.sol.st.sticky.DeltaN_reh.join','C70: reheating check','C70')
m(W,'backend','rho_reh_GeV := some rho, w_reh := some w }','rho_reh_GeV := some rho, w_reh := some (1 / 3) }','C70','C70')
m(W,'advertised','"A_s", "n_s", "n_run", "n_runrun", "A_t", "n_t", "r"]','"A_s", "n_s", "n_run", "A_t", "n_t", "r"]','C70: advertised parameters','C70')
m(W,'getattr','| "A_t" => b.sol.pars.map fun P => some P.A_t','| "A_t" => b.sol.pars.map fun P => some P.A_s','C70','C70')
m(W,'getattr','| "n_runrun" => b.sol.pars.map fun P => some P.n_runrun','| "n_runrun" => b.sol.pars.map fun P => some P.n_run','C70','C70')
m(W,'getattr','| "N_end" => b.sol.st.cal.map fun c => some c.N_end','| "N_end" => b.sol.st.cal.map fun c => some c.N_beg','C70','C70')
m(W,'getattr','| "V_end" => some (b.sol.st.infl.map Infl.V_end)','| "V_end" => some (b.sol.st.infl.map Infl.H_end)','C70','C70')
m(W,'getattr','| "rho_reh_GeV" => b.sol.st.sticky.rho_reh_GeV','| "rho_reh_GeV" => b.sol.st.sticky.rho_reh_mp4','C70','C70')
m(W,'getattr','| "phi_end" => some (b.sol.st.infl.map fun _ => b.raw.phi_end)','| "phi_end" => some none','C70','C70')
m(W,'report','Approx.Spectrum.t "CGS" 3 kw k','Approx.Spectrum.s "CGS" 3 kw k','C70: tensor array','C70')
m(W,'report','Approx.Spectrum.s "CGS" 3 kw k','Approx.Spectrum.s "CGS" 2 kw k','C70: order','C70')
m(W,'clampPhi','if phi0 < phi_i then phi0 else phi_i','if phi_i < phi0 then phi0 else phi_i','C70: field beyond the hilltop','C70')
m(W,'calculate','(fam 1).sr_N2phi 90','(fam 1).sr_N2phi 60','C70: 90 e-folds','C70')
m(W,'calculate','p.A_s none (some p.N_star) with','p.A_s none (some 60) with','C70: starting Lambda','C70')
m(W,'calculate','sr_As2Lambda 1 (fam 1)','sr_As2Lambda 2 (fam 1)','C70','C70')
m(W,'mapE','| .ok ys => .ok (y :: ys)','| .ok ys => .ok (ys ++ [y])','C70: order of the arrays','C70')
X='Perturbations'
m(X,'linspace','a + (b - a) * i / (num - 1 : ℕ)','a + (b - a) * i / (num : ℕ)','C62','C62')
m(X,'xEval','linspace (logb 10 pb.x) (logb 10 pe.x) num_eval','linspace (logb 10 pb.N) (logb 10 pe.N) num_eval','C62','C62')
m(X,'xEval','linspace pb.N pe.N num_eval','linspace pb.x pe.N num_eval','C62','C62')
m(X,'wk','if 0 < A * √r ∧ 0 ≤ r then','if 0 ≤ r then','C49/C51: NaN of the HD vacuum','C49 C51 C47')
m(X,'csqrt','Complex.I * (√(-x) : ℝ)','(√(-x) : ℝ)','C52','C52')
m(X,'lexLe','a.re < b.re ∨ (a.re = b.re ∧ a.im ≤ b.im)','a.re < b.re ∨ a.im ≤ b.im','C48: median order','C48')
m(X,'last5','l.drop (l.length - 5)','l.drop (l.length - 4)','C48/C50: freeze-out value','C48 C50 C47 C53')
m(X,'cdiv','some (a / b)','some (a * b)','C47/C63','C47 C63')
m(X,'combineAll','.ok (d.set vac P, de.set vac Pe)','.ok (d, de.set vac Pe)','C50/C54','C50 C54 C53')
m(X,'solveOscode','loop osc b kw 0 k','loop osc b kw 1 k','C50/C53','C50 C53')
m(X,'argwhere','(List.range l.length).filter','(List.range (l.length - 1)).filter','C52: last point not considered','C52')
m(X,'ScalarT.vacHD','let z := a * p.dphi / p.H\n  let dz_z := p.H + d2phi / p.dphi - dH_H\n  (wk','let z := a * p.dphi\n  let dz_z := p.H + d2phi / p.dphi - dH_H\n  (wk','C49/C51: HD vacuum','C49 C51')
m(X,'ScalarN.vacHD','(wk (a * p.H) (radicand pot K k p))','(wk a (radicand pot K k p))','C51/C49: HD vacuum','C49 C51')
m(X,'ScalarN.vacRST','let z := a * p.dphi\n  if','let z := a * p.dphi / p.H\n  if','C51: T and N formulations','C51 C49')
m(X,'TensorN.vacK','(-Complex.I * k / (a * p.H : ℝ) - 1) * h)\n  else none\n/-- efolds/perturbations.py:178','(-Complex.I * k / (a * p.H : ℝ) + 1) * h)\n  else none\n/-- efolds/perturbations.py:178','C51','C51 C49')
m(X,'TensorN.vacRST','some (h, -Complex.I * k / (a * p.H : ℝ) * h)','some (h, -Complex.I * k / (a : ℝ) * h)','C51','C51 C49')
m(X,'TensorT.vacRST','some (h, -Complex.I * k / a * h)','some (h, Complex.I * k / a * h)','C49: positive frequency','C49')
Q='Potentials'
m(Q,'Monomial.V','m.Lambda^4 * |phi| ^ m.p','m.Lambda^4 * phi ^ m.p','C69/C01: absolute value','C01 C69')
m(Q,'Monomial.get_epsilon_1V','m.p^2 / (2 * phi^2)','m.p^2 / phi^2','C03','C03 C04')
m(Q,'Cubic','⟨Lambda, 3⟩','⟨Lambda, 2⟩','C01/C69: exponent of the cubic potential','C01 C69 C08')
m(Q,'Quartic','⟨Lambda, 4⟩','⟨Lambda, 3⟩','C01/C69','C01 C69 C08')
m(Q,'Linear.sr_Nstar2r','Monomial.sr_Nstar2r 1 N','Monomial.sr_Nstar2r 2 N','C08/C09','C08 C09')
m(Q,'Cubic.sr_ns2Nstar','Monomial.sr_ns2Nstar 3 n','Monomial.sr_ns2Nstar 2 n','C08','C08 C09')
m(Q,'Quartic.sr_r2Nstar','Monomial.sr_r2Nstar 4 r','Monomial.sr_r2Nstar 3 r','C08','C08 C09')
m(Q,'Quadratic.toMonomial','⟨q.Lambda, 2⟩','⟨q.Lambda, 1⟩','C03/C05','C03 C05')
m(Q,'Starobinsky.gamma','√(2 / 3)','√(3 / 2)','C69: plateau slope (any gamma is consistent?)','C69 C08 C10')
m(Q,'Starobinsky.V','(1 - exp (-gamma * phi))^2','(1 - exp (gamma * phi))^2','C69/C01','C01 C69')
m(Q,'Starobinsky.get_epsilon_1V','2 * gamma^2 / (1 - exp (gamma * phi))^2','2 * gamma / (1 - exp (gamma * phi))^2','C03','C03')
m(Q,'Starobinsky.get_epsilon_2V','gamma^2 / sinh (gamma * phi / 2)^2','gamma^2 / sinh (gamma * phi)^2','C03','C03')
m(Q,'Natural.V','n.Lambda^4 / 2 * (1 - cos (π * phi / n.phi0))','n.Lambda^4 / 2 * (1 + cos (π * phi / n.phi0))','C69/C01','C01 C69')
m(Q,'Natural.get_epsilon_1V','(2 * n.phi0^2 * (cos (π*phi/n.phi0) - 1)^2)','(2 * n.phi0^2 * (cos (π*phi/n.phi0) + 1)^2)','C03','C03')
m(Q,'Natural.sr_Nstar2ns','1 - (2 * f^2 + (2 * f^2 + 1) * exp (N_star / f^2))','1 - (2 * f^2 + (2 * f^2 - 1) * exp (N_star / f^2))','C08/C09','C08 C09')
m(Q,'DoubleWell.x','1 - phi / d.phi0','1 + phi / d.phi0','C69/C01','C01 C69')
m(Q,'DoubleWell.V','d.Lambda^4 * (1 - d.x phi ^ d.p)^2','d.Lambda^4 * (1 - d.x phi ^ d.p)','C01/C69','C01 C69')
m(Q,'DoubleWell.get_epsilon_3V','+ d.x phi ^ d.p * (d.p^2 + 3*d.p - 4) + 2)','+ d.x phi ^ d.p * (d.p^2 - 3*d.p - 4) + 2)','C03','C03')
m(Q,'DoubleWell.phis','((i : ℝ) + 1) * d.phi0 / 100000','(i : ℝ) * d.phi0 / 100000','C07','C07')
m(Q,'DoubleWell4.auxA','12 * √(3 * phi0^16 * (108 + phi0^4))','12 * √(3 * phi0^16 * (104 + phi0^4))','C11/C06','C06 C11 C05')
m(Q,'DoubleWell4.auxB','192 + phi0^4 + phi0^8','196 + phi0^4 + phi0^8','C11/C06','C06 C11 C05')
m(Q,'Tmodel.s_6_a','√(6 * t.alpha)','√(3 * t.alpha)','C69: plateau width','C69 C01')
m(Q,'Tmodel.V','t.C phi ^ (2 * t.p)\n','t.C phi ^ t.p\n','C01/C69','C01 C69')
m(Q,'Tmodel.dV','t.C phi ^ (2*t.p - 1) - t.C phi ^ (2*t.p + 1)','t.C phi ^ (2*t.p - 1) + t.C phi ^ (2*t.p + 1)','C01','C01')
m(Q,'Tmodel.get_epsilon_1V','8 * t.p^2 / (t.s_6_a^2 * sinh (2 * phi / t.s_6_a)^2)','8 * t.p^2 / (t.s_6_a^2 * sinh (phi / t.s_6_a)^2)','C03','C03')
m(Q,'Tmodel.get_epsilon_4V','- t.C phi^8 + 4*t.C phi^6','- t.C phi^8 + 2*t.C phi^6','C03','C03')
m(Q,'RadionGauge.mu','g.alpha ^ (1 / g.p)','g.alpha ^ g.p','C69: scale of the radion gauge potential','C69')
m(Q,'RadionGauge.V','phi ^ g.p / (g.alpha + phi ^ g.p)','phi ^ g.p / (g.alpha - phi ^ g.p)','C01/C69','C01 C69')
m(Q,'RadionGauge.get_epsilon_2V','(g.alpha + phi ^ g.p * (g.p + 1))','(g.alpha + phi ^ g.p * (g.p - 1))','C03','C03')
m(Q,'RadionGauge2.auxR','√3*a + 9*√(2*a + 27) + 27*√3','√3*a + 9*√(2*a + 27) + 9*√3','C05','C05 C06')
m(Q,'GaussianDip.F','-a * exp','a * exp','C69/C02: a dip, not a bump','C02 C69')
m(Q,'GaussianDip.dF','a / b^2 * (x - x0) * exp','a / b * (x - x0) * exp','C02','C02')
m(Q,'TanhStep.F','a * tanh ((x - x0) / b)','a * tanh ((x0 - x) / b)','C02/C69','C02 C69')
m(Q,'TanhStep.dF','a / b * (1 - tanh','a * (1 - tanh','C02','C02')
m(Q,'StarobinskyGaussianDip','(GaussianDip.fns phi_feature a_feature b_feature)','(GaussianDip.fns phi_feature b_feature a_feature)','C02/C69: parameters swapped','C02 C69')
G='Background'
m(G,'T.get_delta_1','d2phi / (H * dphi)\n','d2phi / dphi\n','C15/C66','C15 C14 C66')
m(G,'N.get_delta_1','d2phi/dphi + dH/H\n','d2phi/dphi - dH/H\n','C15/C66','C15 C14')
m(G,'InflT.inflating','e.V y - dphidt y ^ 2','e.V y + dphidt y ^ 2','C68/C18','C68 C18 C65')
m(G,'InflN.call','Function.update dy 2 (1 / √H2)','Function.update dy 2 (√H2)','C67','C67 C17')
m(G,'InflT.call','exp (-_N y)','exp (_N y)','C67: conformal time','C67 C17')
V='InflationSol'
m(V,'nanSqrt','if 0 ≤ x then some √x','if 0 < x then some √x','C68/C23','C23 C68 C28 C30')
m(V,'endKind','else if wlast < -1/3 then 1 else 2','else if wlast < 1/3 then 1 else 2','C24','C24')
m(V,'RawSol.grid','s.first :: s.rest','s.rest ++ [s.first]','C23','C23')
m(V,'inflationSol','-K * exp (-2 * l)','K * exp (-2 * l)','C68','C68 C25')
m(V,'postEnd','(nanLog h).map (N + ·), some (V phi), none⟩','(nanLog h).map (N + ·), some (V N), none⟩','C23/C65: V_end','C23 C65')
I='InitialConditions'
m(I,'mulExpNeg','a * exp (-n)','a * exp n','C27/C28','C28 C27 C30')
m(I,'writeRow','Function.update y i v','y','C29/C26','C29 C26')
N='PotentialInit'
m(N,'RadionGauge2.sr','RadionGauge2.sr_N2phi alpha N','g.sr_phi2N (RadionGauge2.phi_end alpha) N','C07/C12','C07 C12')
m(N,'Starobinsky.featureSr','(FeaturePotential s.fns f).V, s.get','s.V, s.get','C12','C12')
m(N,'Natural.sr','⟨n.V, n.get_epsilon_1V, fun φ => .ok (n.sr_phi2N φ)','⟨n.V, n.get_epsilon_2V, fun φ => .ok (n.sr_phi2N φ)','C12','C12')
Y='Wrapper'
m(Y,'kmax','ℝ := 50','ℝ := 5','C57: wavenumber range','C57')
m(Y,'ks','* 100 + 1⌋₊','* 100⌋₊','C57: number of wavenumbers','C57')
m(Y,'baseSpectra','q.A_t q.n_t n_t_run','q.A_s q.n_t n_t_run','C57','C57')
m(Y,'powerLaw','resolve (some 0) p','resolve none p','C57','C57')
m(Y,'log_oscillations','w_log * log (k / k_pivot)','w_log * (k / k_pivot)','C57','C57')
m(Y,'oscillation','(fun k => 1 + osc','(fun k => osc','C57','C57')
m(Y,'nanLe','a ≤ b','a < b','C58: w_reh = 1 boundary','C58')
m(Y,'nanLt','a < b','a ≤ b','C58: instant reheating rejected','C58')
Z='Shooting'
m(Z,'lastN','raw.grid.getLast (by simp [RawSol.grid])','raw.first','C31','C31')
m(Z,'endAtStart','| some [] => O.emptyTruth','| some [] => .ok true','C31','C31')
m(Z,'calState','some ⟨K, s.N, logaH, H, infl','some ⟨K, logaH, s.N, H, infl','C31','C31')
m(Z,'seen','firstEvent raw.events key).isSome = true','firstEvent raw.events key).isSome = false','C31','C31')
U='Units'
m(U,'K_STAR','ℝ := 0.05','ℝ := 0.002','C56: pivot scale','C56')
m(U,'T_nu_TCMB','(4 / 11 : ℝ)','(11 / 4 : ℝ)','C56','C56')
m(U,'mp_GeV','u.mp_kg * u.c ^ 2 / (giga * u.e)','u.mp_kg * u.c / (giga * u.e)','C56','C56')
m(U,'tp_iGeV','u.tp_s / u.hbar * giga * u.e','u.tp_s * u.hbar * giga * u.e','C56','C56')
m(U,'Mpc_m','mega * u.parsec_m','giga * u.parsec_m','C56','C56')
m(U,'rho_gamma0_kg_im3','u.a_B * T_CMB_K ^ 4 / u.c ^ 2','u.a_B * T_CMB_K ^ 4','C56','C56')
m(U,'T_CMB_Tp','T_CMB_K / u.Tp_K','T_CMB_K * u.Tp_K','C56','C56')
L='Calibration'
m(L,'maskSel','if p.2 then some p.1 else none','if p.2 then none else some p.1','C38/C74','C38 C74')
m(L,'toGeV','(rho_mp4 * u.mp_GeV / u.lp_iGeV ^ 3) ^ (1 / 4 : ℝ)','rho_mp4 * u.mp_GeV / u.lp_iGeV ^ 3','C33/C36','C33 C36 C35')
m(L,'interpL','insertionSort fun a b => a.1 ≤ b.1','insertionSort fun a b => a.2 ≤ b.2','C34','C34 C37')
m(L,'defaultMethod','if K = 0 then "N_star" else "Omega_K0"','if K = 0 then "Omega_K0" else "N_star"','C33/C34: default method','C33 C34')
m(L,'andMask','zipWith (· && ·)','zipWith (· || ·)','C34/C37','C34 C37 C38')
D='Events'
m(D,'Direction.val','neg => -1 | zero => 0 | pos => 1\n/-- `\'%d\' % d','neg => 1 | zero => 0 | pos => -1\n/-- `\'%d\' % d','C19: event at t_i','C19 C20')
m(D,'fmtBool','true => "1" | false => "0"','true => "0" | false => "1"','C19/C24','C19 C24 C20')
S='Solution'
m(S,'dictZip','(fun d p => d.set p.1 p.2) []','(fun d p => if d.contains p.1 then d else d.set p.1 p.2) []','C22: repeated names keep the last','C22')
m(S,'pyGet','match l[i]? with','match l[i + 1]? with','C22','C22')
T='Version'
m(T,'V.micro','v.release.getD 2 0','v.release.getD 2 1','C60/C61','C60 C61')
m(T,'dotted',"str n ++ '.' :: dotted ns","str n ++ dotted ns",'C60/C61','C60 C61')
m(T,'trim','(r.reverse.dropWhile (· = 0)).reverse','r','C61: trailing zeros','C60 C61')
m(T,'strip','((t.dropWhile p).reverse.dropWhile p).reverse','(t.dropWhile p)','C61','C60 C61')
m(T,'readmeVersion','afterLast \':\'','afterLast \'=\'','C61','C60 C61')
O='BigBang'
m(O,'get_Omega_r0','u.rho_r0_kg_im3 / rho','u.rho_gamma0_kg_im3 / rho','C42: neutrinos dropped','C42')
m(O,'fdiv','if b = 0 then none else some (a / b)','some (a / b)','C45: division by zero','C45 C33')

_P = {'T.get_delta_1':'C18 C66','N.get_delta_1':'C18 C66','InflT.inflating':'C17 C68','InflN.call':'C67 C19','InflT.call':'C67 C19','nanSqrt':'C25 C28 C30 C42',
'endKind':'C25 C24','RawSol.grid':'C25','inflationSol':'C68 C25','postEnd':'C25','mulExpNeg':'C27 C28 C29','writeRow':'C26','RadionGauge2.sr':'C09 C07','Starobinsky.featureSr':'C09','Natural.sr':'C09',
'defaultMethod':'C33 C34 C39','Direction.val':'C23 C24','fmtBool':'C24','V.micro':'C60','dotted':'C60','trim':'C60','strip':'C60','readmeVersion':'C60',
'Cubic':'C12 C69','Quartic':'C12 C69','Linear.sr_Nstar2r':'C12 C11','Cubic.sr_ns2Nstar':'C12 C08','Quartic.sr_r2Nstar':'C12 C08','Quadratic.toMonomial':'C12 C03',
'Starobinsky.gamma':'C69 C61 C10 C05 C08','DoubleWell4.auxA':'C61','DoubleWell4.auxB':'C61','Natural.sr_Nstar2ns':'C08 C11','wk':'C51','ScalarT.vacHD':'C51','ScalarN.vacHD':'C51','ScalarN.vacRST':'C51',
'TensorN.vacK':'C51','TensorN.vacRST':'C51','TensorT.vacRST':'C51','last5':'C48 C47 C53','combineAll':'C53 C54','solveOscode':'C53','get_Omega_r0':'C42','fdiv':'C45 C33','toGeV':'C33 C36 C35','andMask':'C38 C34 C37 C74',
'deriveSTE':'C40 C74','Monomial.get_epsilon_1V':'C03 C05'}
for _m in M:
    if _m['definition'] in _P: _m['props'] = _P[_m['definition']].split()

_T = {'S073': ('C70', ['C70_end']), 'S087': ('C48', ['C48_single', 'C48_array']), 'S106': ('C69', ['C69_starobinsky_shape']), 'S124': ('C69', ['C69_radiongauge_mu']),
 'S145': ('C09', ['C09_hits_radiongauge2']), 'S147': ('C09', ['C09_hits_natural']), 'S156': ('C31', ['C31_objective', 'UntilNContract']),
 'S157': ('C31', ['C31_aborted']), 'S160': ('C56', ['C56_pivot']), 'S170': ('C33', ['C33_default']), 'S176': ('C60', ['C60_components'])}
for _m in M:
    if _m['id'] in _T: _m['props'] = [_T[_m['id']][0]]; _m['tightened'] = _T[_m['id']][1]
