# C98, C99
M = []
def m(file, definition, old, new, claim, props, **k):
    M.append(dict(id='ZF%03d' % (len(M)+1), file='Model/'+file+'.lean', definition=definition, old=old, new=new, claim=claim, props=props.split(), **k))
A='Calibration'; I='InitialConditions'; S='InflationSol'; H='Shooting'; P='PowerSol'; B='Background'
f='C99: flat calibration succeeds exactly if n > 0 and the grid brackets n e-folds before the end'
m(A,'flatNstar','if N_star ≤ 0 then .error','if N_star < 0 then .error',f,'C99')
m(A,'flatNstar','if I.N_tot < N_star then','if I.N_tot ≤ N_star then',f,'C99')
m(A,'flatNstar','let N_cross := I.N_end - N_star','let N_cross := I.N_beg + N_star',f,'C99')
m(A,'flatNstar','interpL (maskSel s.N I.mask) (maskSel s.logaH I.mask) N_cross','interpL s.N s.logaH N_cross',f,'C99')
m(A,'flatNstar','if I.N_tot < N_star then .error (.insufficientInflation "N_tot < N_star")','if I.N_tot < N_star then .error (.valueError "N_tot < N_star")',f,'C99')
g='C99: curved calibration succeeds exactly if h > 0, Omega_K0 has the sign opposite to K and the grid brackets the pivot'
m(A,'curvedOmega','(SignType.sign Ω : ℝ) ≠ -s.K','(SignType.sign Ω : ℝ) ≠ s.K',g,'C99')
m(A,'curvedOmega','let a0_Mpc := u.c / (h * 100 * 1000) * √(-s.K / Ω)','let a0_Mpc := u.c / (h * 100) * √(-s.K / Ω)',g,'C99')
m(A,'curvedOmega','let a0_Mpc := u.c / (h * 100 * 1000) * √(-s.K / Ω)','let a0_Mpc := u.c / (h * 100 * 1000) * √(-Ω / s.K)',g,'C99')
e='C99: a run with inflation has everything the calibration reads'
m(H,'calState','let lb ← s.start.logaH_beg','let lb ← s.start.H_beg',e,'C99')
m(H,'calState','let n ← s.N_tot','let n ← s.fin.N_end',e,'C99')
m(S,'postStart','let logaH (N H : Option ℝ) : Option ℝ := N.bind fun n => H.bind fun h => (nanLog h).map (n + ·)','let logaH (N H : Option ℝ) : Option ℝ := N.bind fun n => H.bind fun h => (nanLog h).map (n - ·)','C25: logaH_beg = log(a H)','C25 C99')
m(S,'postEnd','⟨some N, some phi, H, H.bind fun h => (nanLog h).map (N + ·), some (V phi), none⟩','⟨some N, some phi, none, H.bind fun h => (nanLog h).map (N + ·), some (V phi), none⟩',e,'C99')
m(P,'calibrateP','| .error e => .error e\n  | .ok s => if a.background.isSome','| .error _ => .ok p\n  | .ok s => if a.background.isSome',f,'C99')
m(P,'calibrateP','if a.background.isSome then .ok { p with st := s }','if a.background.isNone then .ok { p with st := s }','C98: the spectra are those of the textbook universe','C98')
t='C98: SlowRollIC requests the slow-roll velocity, InflationStartIC the solution with v = -sqrt(V)'
m(I,'SlowRollIC.dphidt_i','nanDiv (-ic.dV_i) (3 * h)','nanDiv ic.dV_i (3 * h)',t,'C98')
m(I,'SlowRollIC.dphidN_i','nanDiv (-ic.dV_i) (3 * h ^ 2)','nanDiv (-ic.dV_i) (3 * h)',t,'C98')
m(I,'InflationStartIC.dphidt_i','(nanSqrt ic.V_i).map (- ·)','nanSqrt ic.V_i',t,'C98')
m(I,'InflationStartIC.dphidN_i','nanDiv (-s) h','nanDiv (-s) (h ^ 2)',t,'C98')
m(I,'InflationStartIC.init','nanSqrt (V_i / 2 - E.K * exp (-2 * n))','nanSqrt (V_i / 3 - E.K * exp (-2 * n))',t,'C98')
m(I,'SlowRollIC.init','let aH_i := nanSqrt (V_i / 3 * exp (2 * N_i) - E.K)','let aH_i := nanSqrt (V_i / 3 * exp (2 * N_i) + E.K)',t,'C98')
m(I,'writeY0','writeRow E.idx "phi" (some ic.phi_i) y','writeRow E.idx "phi" (some 0) y',t,'C98')
c='C98: every trajectory is a textbook universe with the documented formula'
m(B,'InflT.V','def V (e : InflT) (y : ℕ → ℝ) : ℝ := e.pot.V (phi y)','def V (e : InflT) (y : ℕ → ℝ) : ℝ := e.pot.V (dphidt y)',c,'C98')
m('PotentialCtor','Pot.fns','| .quadratic => (⟨x.Lambda⟩ : Quadratic).fns','| .quadratic => (⟨1⟩ : Quadratic).fns',c,'C98')
