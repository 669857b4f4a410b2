# C101, the rest of C100
M = []
def m(file, definition, old, new, claim, props, **k):
    M.append(dict(id='ZH%03d' % (len(M)+1), file='Model/'+file+'.lean', definition=definition, old=old, new=new, claim=claim, props=props.split(), **k))
R='WrapperRun'; F='WrapperFull'; W='Wrapper'; A='ApproxPower'; S='SpectraSol'; P='PowerSol'; I='InitialConditions'
u='C101: the stored results describe one slow-roll universe'
m(R,'tEval','logspace 5 12 7001','logspace 4 12 7001',u+' that starts at t = 1e5','C101')
m(R,'runEvents','[⟨.inflation none, .pos, false, 0⟩, ⟨.inflation none, .neg, true, 0⟩]','[⟨.inflation none, .neg, true, 0⟩]',u+' (no start event: unobservable, the run starts inflating or the start is untracked)','C101')
m(R,'runEvents','⟨.inflation none, .neg, true, 0⟩','⟨.inflation (some 1), .neg, true, 0⟩',u+', whose acceleration ends there','C101')
m(R,'runPot','("Lambda", some L) :: pot_kwargs','("Lambda", some (L ^ 2)) :: pot_kwargs',u,'C101')
m(R,'runEqs','.T ⟨0, pot.fns, false⟩','.T ⟨1, pot.fns, false⟩',u+', which is flat','C101')
m(R,'runEqs','.T ⟨0, pot.fns, false⟩','.T ⟨-1, pot.fns, false⟩',u+', which is flat','C101')
m(R,'runIC','10 ^ 300, some 0, none⟩','10 ^ 300, some 1, none⟩',u+' with N = 0 at the start','C101')
m(R,'runIC','⟨phi_i, tEval.head?,','⟨-phi_i, tEval.head?,',u+' starting at phi_i','C101')
m(R,'lastMasked','(maskSel v mask).getLast?','(maskSel v mask).head?','C101: density at the last grid point of the phase','C101')
m(R,'lastMasked','(maskSel p mask).getLast?','p.getLast?','C101: density at the last grid point of the phase','C101')
m(R,'readOff','s.fin.phi_end.getD 0, v, E.pot.V phi, sr⟩','s.fin.phi_end.getD 0, v, E.pot.dV phi, sr⟩','C101: density','C101')
m(R,'readOff','.ok ⟨success b, cs.N, cs.logaH, cs.H, some I, s.fin.phi_end.getD 0,','.ok ⟨success b, cs.logaH, cs.N, cs.H, some I, s.fin.phi_end.getD 0,',u,'C101')
m(R,'readOff','s.fin.phi_end.getD 0, v,','v, s.fin.phi_end.getD 0,','C101: phi_end','C101')
m(R,'readOff','.ok ⟨success b, cs.N, cs.logaH, cs.H, some I, s.fin.phi_end','.ok ⟨true, cs.N, cs.logaH, cs.H, some I, s.fin.phi_end',u+': only successful integrations','C101')
m(R,'calculateRun','(pot_kwargs.get? "phi0").join','none','C101: start at most at phi0','C101')
m(R,'calculateRun','(integrate o ivp fmtE success c pot_kwargs)','(integrate o ivp fmtE success c [])',u+' with the sampled parameters','C101')
m(F,'report','Approx.Spectrum.t "CGS" 3 kw k','Approx.Spectrum.s "CGS" 3 kw k','C101: tensor spectrum','C101 C70')
m(F,'clampPhi','if phi0 < phi_i then phi0 else phi_i','if phi0 < phi_i then phi_i else phi0','C101: start at most at phi0','C101')
m(F,'getattr','| "V_end" => some (b.sol.st.infl.map Infl.V_end)','| "V_end" => some (b.sol.st.infl.map Infl.H_end)','C101: V_end','C101')
m(F,'getattr','| "H_end" => some (b.sol.st.infl.map Infl.H_end)','| "H_end" => some (b.sol.st.infl.map Infl.N_end)','C101: H_end','C101')
m(F,'getattr','| "N_star" => b.sol.st.cal.map fun c => some c.N_star','| "N_star" => b.sol.st.cal.map fun c => some c.N_dagg','C101: N_star','C101')
m(F,'fresh','⟨⟨0, r.N, r.logaH, r.H, r.infl','⟨⟨1, r.N, r.logaH, r.H, r.infl','C101: flat calibration','C101')
m(W,'rho_end_GeV','1 / 2 * d.dphidt_last b ^ 2 + d.V_last b','d.dphidt_last b ^ 2 + d.V_last b','C101: bound on the reheating density','C101')
m(W,'pass','rho_end_GeV u d b < rho then','rho < rho_end_GeV u d b then','C101: bound on the reheating density','C101')
m(A,'specCGS','Ps0 p * cgsS order p','Pt0 p * cgsS order p','C101: scalar spectrum at the grid points','C101')
m(P,'gridOf','⟨c.logk.zip (maskSel sr.grid I.mask)','⟨c.logk.zip sr.grid','C101: spectra at the grid points','C101')
B='Background'
m(B,'InflT.inflating','def inflating (e : InflT) (y : ℕ → ℝ) : ℝ := e.V y - dphidt y ^ 2','def inflating (e : InflT) (y : ℕ → ℝ) : ℝ := e.V y - dphidt y * dphidt y * dphidt y','C100/C101: acceleration','C100 C101')
m('Solver','startB','let n ← pyGet N 0','let n ← pyGet N 1','C100: N_tot counts from the start','C100')
