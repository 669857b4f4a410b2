M = []
def m(file, definition, old, new, claim, props, **k):
    M.append(dict(id='U%03d' % (len(M)+1), file='Model/'+file+'.lean', definition=definition, old=old, new=new, claim=claim, props=props.split(), **k))
P='Perturbations'
m(P,'TensorT.damping','3 * p.H / 2\n','-3 * p.H / 2\n','C75: anti-damping, modes do not freeze','C75')
m(P,'TensorT.damping','3 * p.H / 2\n','p.H / 2\n','C75: energy of tensor modes decreases only with enough damping','C75')
m(P,'TensorT.frequency2','(k ^ 2 + k * K * (K + 1) + 2 * K) * exp (-2 * p.N)\n','(k ^ 2 + k * K * (K + 1) - 2 * K) * exp (-2 * p.N)\n','C75: frequency of tensor modes','C75')
m(P,'TensorT.frequency2','(k ^ 2 + k * K * (K + 1) + 2 * K) * exp (-2 * p.N)\n','(k ^ 2 + k * K * (K + 1) + 2 * K) * exp (2 * p.N)\n','C75: redshifting of the frequency','C75')
m(P,'TensorN.damping','(3 - p.dphi ^ 2 / 2 + K * exp','(3 - p.dphi ^ 2 + K * exp','C75: damping in e-folds','C75')
m(P,'TensorN.damping','(3 - p.dphi ^ 2 / 2 + K * exp','(3 - p.dphi ^ 2 / 2 - K * exp','C75: curvature in the damping','C75')
m(P,'TensorN.frequency2','* exp (-2 * p.N) / p.H ^ 2\n/-- efolds/perturbations.py:164','* exp (-2 * p.N) / p.H\n/-- efolds/perturbations.py:164','C75: frequency in e-folds','C75')
m(P,'ScalarT.damping','(3 * p.H + shared K k p * terms pot K p * p.H) / 2','(3 * p.H - shared K k p * terms pot K p * p.H) / 2','C75: damping of scalar modes','C75')
m(P,'ScalarT.terms','p.dphi ^ 2 / (2 * p.H ^ 2) - 3 - pot.dV','p.dphi ^ 2 / (2 * p.H ^ 2) + 3 - pot.dV','C75: damping of scalar modes','C75')
m(P,'ScalarT.frequency2','kappa2 k K * exp (-2 * p.N) - K','kappa2 k K * exp (-p.N) - K','C75: frequency of scalar modes','C75')
m(P,'ScalarN.damping2','(xi p - pot.dV p.phi / (p.H ^ 2 * p.dphi)) - xi p','(xi p - pot.dV p.phi / (p.H ^ 2 * p.dphi)) + xi p','C75: damping of scalar modes in e-folds','C75')
m(P,'ScalarN.xi','p.Omega_K + p.dphi ^ 2 / 2 - 3','p.Omega_K + p.dphi ^ 2 - 3','C75: damping of scalar modes in e-folds','C75')
m(P,'ScalarN.frequency2','kappa2 k K / (exp (2 * p.N) * p.H ^ 2)','kappa2 k K / (exp (p.N) * p.H ^ 2)','C75: frequency of scalar modes in e-folds','C75')
m(P,'endTest','log fac < logaH - log k','log fac < log k - logaH','C75: integration stops far outside the horizon','C75')
m(P,'endTest','log fac < logaH - log k','fac < logaH - log k','C75: the factor is a ratio, not e-folds','C75')
m(P,'last5','l.drop (l.length - 5)','l.drop 5','C75: the median is taken of the last values','C75')
m(P,'nanmedian','s[s.length / 2]?\n','s[s.length - 1]?\n','C48: median','C75 C48')
m(P,'coefficients','cdiv (uk * dy1 - duk * y1) (y2 * dy1 - dy2 * y1)','cdiv (uk * dy1 - duk * y1) (y1 * dy2 - dy1 * y2)','C75: vacuum matching','C75 C47')
m(P,'modes',"k ^ 3 / (2 * π ^ 2)⟩,\n      ⟨TensorT","k ^ 2 / (2 * π ^ 2)⟩,\n      ⟨TensorT",'C75: dimensionless spectrum','C75')
m(P,'power','‖u‖ ^ 2 * norm','‖u‖ * norm','C75: spectrum is the squared modulus','C75')
B='Background'
m(B,'InflT.call','Function.update dy 2 H\n','Function.update dy 2 (-H)\n','C76/C77: expanding','C76 C77')
m(B,'InflT.call','T.get_d2phi H2 (dphidt y) (e.dVdphi y)','T.get_d2phi H2 (dphidt y) (e.V y)','C76: Klein-Gordon equation','C76')
m(B,'T.get_d2phi','-3 * √H2 * dphi - dV','3 * √H2 * dphi - dV','C76: friction, not acceleration','C76')
m(B,'T.get_H2','(dphi^2 / 2 + V) / 3 - K * exp (-2 * N)','(dphi^2 / 2 + V) / 3 + K * exp (-2 * N)','C76: curvature sign (closed universes recollapse, open ones do not)','C76')
m(B,'N.get_H2','(2 * V - 6 * K * exp (-2 * N)) / (6 - dphi^2)','(2 * V - 6 * K * exp (-2 * N)) / (6 + dphi^2)','C76/C77: Friedmann constraint','C76 C77')
m(B,'N.get_H2','(2 * V - 6 * K * exp (-2 * N)) / (6 - dphi^2)','(2 * V + 6 * K * exp (-2 * N)) / (6 - dphi^2)','C76/C79: curvature sign','C76 C79')
m(B,'N.get_d2phi','-(dH_H + 3) * dphi - dV / H2','-(dH_H - 3) * dphi - dV / H2','C76: friction','C76')
m(B,'InflN.call','Function.update dy 2 (1 / √H2)','Function.update dy 2 (√H2)','C76: time in the e-fold formulation','C76 C20')
m(B,'InflT.inflating','def inflating (e : InflT) (y : ℕ → ℝ) : ℝ := e.V y - dphidt y ^ 2','def inflating (e : InflT) (y : ℕ → ℝ) : ℝ := e.V y - dphidt y ^ 2 - dphidt y ^ 2','C77/C79: the event is the sign of the acceleration','C77 C79')
m(B,'InflN.inflating','e.V y - e.H2 x y * dphidN y ^ 2','e.V y - dphidN y ^ 2','C77/C79: the event is the sign of the acceleration','C77 C79')
m(B,'T.get_dH','-dphi^2 / 2 + K * exp (-2 * N)\n','-dphi^2 + K * exp (-2 * N)\n','C79: eps1 and the field velocity','C79')
m(B,'T.get_dH','-dphi^2 / 2 + K * exp (-2 * N)\n','-dphi^2 / 2 - K * exp (-2 * N)\n','C79: curvature sign','C79')
m(B,'N.get_dH','-dphi^2 * H / 2 + K * exp (-2 * N) / H\n','-dphi^2 * H / 2 + K * exp (-2 * N) * H\n','C79: curvature term','C79')
m(B,'T.get_epsilon_1H','get_epsilon_1H (H dH : ℝ) : ℝ := -dH / H^2','get_epsilon_1H (H dH : ℝ) : ℝ := -dH / H','C79: normalisation of eps1','C79')
m(B,'N.get_epsilon_1H','get_epsilon_1H (H dH : ℝ) : ℝ := -dH / H\n','get_epsilon_1H (H dH : ℝ) : ℝ := dH / H\n','C79: sign of eps1','C79')
m('ApproxPower','Ps0','p.H ^ 2 / (8 * π ^ 2 * p.e1)','p.H ^ 2 / (4 * π ^ 2 * p.e1)','C79: r = 16 eps1','C79')
m('ApproxPower','Pt0','2 * (p.H / π) ^ 2','(p.H / π) ^ 2','C79: r = 16 eps1','C79')
I='InflationSol'
m(I,'postStart','"Inflation_dir1_term0"','"Inflation_dir-1_term0"','C77: the start of inflation is the upward crossing','C77 C78')
m(I,'postStart','let N := some (Q.N s.first.1 s.first.2)','let N := some s.first.1','C77: start e-folds','C77')
m(I,'postEnd','let N := Q.N p.1 p.2\n    let H := Q.Hnan p\n    let phi','let N := p.1\n    let H := Q.Hnan p\n    let phi','C77: end e-folds','C77')
m(I,'inflationSol','decide (b < n) && decide (n < e)','decide (b < n) || decide (n < e)','C77/C78: the mask','C77 C78')
m(I,'inflationSol','decide (b < n) && decide (n < e)','decide (b ≤ n) && decide (n < e)','C77: the mask is the open interval','C77')
m(I,'inflationSol','decide (b < n) && decide (n < e)','decide (e < n) && decide (n < b)','C77/C78: the mask','C77 C78')
m(I,'inflationSol','st.N_beg.map (e - ·)','st.N_beg.map (· - e)','C77/C78: duration','C77 C78')
m(I,'endEvent','| none => firstEvent events "Inflation_dir-1_term0"','| none => none','C77: non-terminal end events','C77')
C='Calibration'
m(C,'flatBackground','N_star ≤ 0 ∨ N_star ≠ b.N_star','N_star ≤ 0','C78: matching N_star','C78')
m(C,'flatBackground','N_star ≤ 0 ∨ N_star ≠ b.N_star','N_star ≠ b.N_star','C78: positive N_star','C78')
m(C,'flatBackground','{ I with N_end := b.N_end }','I','C78: the end of inflation is copied','C78')
m(C,'flatBackground','b.N_cross_, b.logaH_star, b.delta_N_calib','b.N_cross_, b.logaH_star, 0','C78: the offset is copied','C78')
m(C,'flatBackground','b.N_cross_, b.logaH_star,','b.N_star, b.logaH_star,','C78: crossing is copied','C78')
m(C,'flatBackground','b.delta_N_calib, b.N_reh_','b.delta_N_calib, none','C78: end of reheating is copied','C78')
m(C,'finish','if copied then 0','if !copied then 0','C78/C33: no warnings for copied calibrations','C78 C33')
m(C,'finish','p.a0 / (exp n * h) * u.lp_m','p.a0 / (exp n + h) * u.lp_m','C38: comoving Hubble horizon','C38')
m(C,'finish','N := s.N.map (· + p.delta_N_calib)','N := s.N.map (· - p.delta_N_calib)','C78/C34: calibrated e-folds','C78 C34')
m(C,'andMask','List.zipWith (· && ·)','List.zipWith (· || ·)','C78: mask of modes','C78')
m(C,'maskSel','if p.2 then some p.1','if !p.2 then some p.1','C78: mask of modes','C78 C38')
G='Background'
m(G,'T.get_H2','(dphi^2 / 2 + V) / 3 - K','(dphi^2 / 2 + V) / 2 - K','C80: Friedmann equation','C80')
m(G,'T.get_H2','(dphi^2 / 2 + V) / 3 - K','(dphi^2 + V) / 3 - K','C80: kinetic energy','C80')
m(G,'T.get_d2phi','-3 * √H2 * dphi - dV\n','-√H2 * dphi - dV\n','C80: Hubble friction sets the e^-3N','C80')
m(G,'T.get_d2phi','-3 * √H2 * dphi - dV\n','3 * √H2 * dphi - dV\n','C80: Hubble friction','C80')
m(G,'N.get_dH_H','-dphi^2 / 2 + K * exp (-2 * N) / H2','dphi^2 / 2 + K * exp (-2 * N) / H2','C80: Hubble rate decreases','C80')
m(G,'N.get_H2','/ (6 - dphi^2)','/ (3 - dphi^2)','C80: Friedmann equation in e-folds','C80')
m(G,'InflT.call','Function.update dy 3 (exp (-_N y))','Function.update dy 3 (exp (_N y))','C81: conformal time','C81')
m(G,'InflN.call','(exp (-x) / √H2)','(exp (-x) * √H2)','C81: conformal time','C81')
m(G,'InflN.call','(exp (-x) / √H2)','(exp x / √H2)','C81: conformal time','C81')
m(G,'InflT.call','Function.update dy 2 H\n','Function.update dy 2 H2\n','C81/C80: e-folds','C81 C80')
B='BigBang'
m(B,'conformal_time_ratio','| none => fwd_first','| none => 0','C81: start of the forward run','C81')
m(B,'conformal_time_ratio','(b :: bs).getLast (by simp)','b','C81: the backward run is included','C81')
m(B,'conformal_time_ratio','(eta_end - eta_beg) / after','(eta_beg - eta_end) / after','C81: sign','C81')
m(B,'conformal_time_ratio','(eta_end - eta_beg) / after','after / (eta_end - eta_beg)','C81: inverse','C81')
m(B,'conformal_time_ratio','h N_end (log a0)','h (log a0) N_end','C81: conformal time until today','C81')
m(B,'conformal_time_ratio','let eta_end := (fwd_first :: fwd_rest).getLast (by simp)','let eta_end := fwd_first','C81: end of the forward run','C81')
m(B,'conformal_time_ratio','h N_end (log a0)','h N_end a0','C81: today is log a0','C81')
