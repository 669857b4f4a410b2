M = []
def m(file, definition, old, new, claim, props, **k):
    M.append(dict(id='ZB%03d' % (len(M)+1), file='Model/'+file+'.lean', definition=definition, old=old, new=new, claim=claim, props=props.split(), **k))
S='ShootingSolve'
a='C93: a zero of the objective is a run whose calibration yields N_star'
m(S,'objectiveStar','q.N_star - N_star','q.N_star + N_star',a,'C93')
m(S,'objectiveStar','q.N_star - N_star','q.N_star - N_star - 1',a,'C93')
m(S,'objectiveStar','fun q => q.N_star - N_star','fun q => q.a0 - N_star',a,'C93')
m(S,'objectiveStar','if ∃ n, s.N_tot = some n ∧ N_star < n then','if ∃ n, s.N_tot = some n ∧ n < N_star then',a,'C93')
m(S,'objectiveStar','if ∃ n, s.N_tot = some n ∧ N_star < n then','if ∃ n, s.N_tot = some n ∧ n < n then',a,'C93')
m(S,'objectiveStar','if un ≠ [] ∨ N0 ≤ last then .ok (some last)','if un ≠ [] ∨ N0 ≤ last then .ok (some (last - N0))',a,'C93')
m(S,'objectiveStar','if un ≠ [] ∨ N0 ≤ last then .ok (some last)','if un ≠ [] ∨ last ≤ N0 then .ok (some last)',a,'C93')
m(S,'objectiveStar','if ∃ n, s.N_tot = some n ∧ n ≤ N_star then .ok (some (0 - N_star))','if ∃ n, s.N_tot = some n ∧ n ≤ N_star then .ok (some 0)',a,'C93')
m(S,'objectiveStar','if ∃ n, s.N_tot = some n ∧ n ≤ N_star then .ok (some (0 - N_star))','if ∃ n, s.N_tot = some n ∧ n ≤ N_star then .ok (s.N_tot.map (· - N_star))',a,'C93')
m(S,'objectiveStar','if c ≠ [] ∨ z = true then .ok (some (0 - N_star))\n        else match b.get? "message" with\n          | none => .error (.attributeError "message")\n          | some msg => if V.isStepSize msg then .error (.primpyError "StepSizeError") else .error (.primpyError "`solve_ivp` failed with message")\n\n/-- initialconditions.py:272-318','if c ≠ [] ∨ z = true then .ok (some 0)\n        else match b.get? "message" with\n          | none => .error (.attributeError "message")\n          | some msg => if V.isStepSize msg then .error (.primpyError "StepSizeError") else .error (.primpyError "`solve_ivp` failed with message")\n\n/-- initialconditions.py:272-318',a,'C93')
m(S,'objectiveStar','match Cal.calibrate u c (Shooting.nestedArgs K Omega_K0 h) with','match Cal.calibrate u c (Shooting.nestedArgs K (-Omega_K0) h) with','C93: the nested calibration is for the given Omega_K0 and h','C93')
m(S,'objectiveStar','match Cal.calibrate u c (Shooting.nestedArgs K Omega_K0 h) with','match Cal.calibrate u c (Shooting.nestedArgs K h Omega_K0) with','C93: the nested calibration is for the given Omega_K0 and h','C93')
b='C93: the returned conditions start the run that was shot for'
m(S,'phii2Nstar','⟨some (events N0), none, some rtol, some atol, kw⟩\n  objectiveStar','⟨some (events (N0 + 1)), none, some rtol, some atol, kw⟩\n  objectiveStar','C93: the nested run stops at N0','C93')
m(S,'phii2Nstar','let ic ← Shooting.start S phi\n  let (b, s) ← solve V.ivp V.fmtE S.E (ICCall.inflationStart S.E ic) [] ⟨some (events N0)','let ic ← Shooting.start S (phi + 1)\n  let (b, s) ← solve V.ivp V.fmtE S.E (ICCall.inflationStart S.E ic) [] ⟨some (events N0)',b,'C93')
m(S,'phii2Nstar','objectiveStar u V S.E.K N_star Omega_K0 h N0 b s','objectiveStar u V S.E.K N_star h Omega_K0 N0 b s',b,'C93')
m(S,'phii2Nstar','objectiveStar u V S.E.K N_star Omega_K0 h N0 b s','objectiveStar u V 0 N_star Omega_K0 h N0 b s',b,'C93')
m(S,'nsok','let ic ← Shooting.start S r\n    let y','let ic ← Shooting.start S hi\n    let y',b,'C93')
m(S,'nsok','let ic ← Shooting.start S r\n    let y','let ic ← Shooting.start S ((lo + hi) / 2)\n    let y',b,'C93')
m(S,'nsok','if Omega_K0 = 0 then .error (.assertion "Curved universes only, here!")','if Omega_K0 = 1 then .error (.assertion "Curved universes only, here!")','C93: flat universes are refused','C93')
m(S,'nsok','let a0 ← BB.get_a0 u h Omega_K0 "planck"','let a0 ← BB.get_a0 u h Omega_K0 "Mpc"','C93: the nested run stops at N0','C93')
m(S,'nsok','(phii2Nstar u V S N_star Omega_K0 h (Real.log a0) rtol atol kw)','(phii2Nstar u V S N_star Omega_K0 h a0 rtol atol kw)','C93: the nested run stops at N0','C93')
m(S,'nsok','(phii2Nstar u V S N_star Omega_K0 h (Real.log a0) rtol atol kw)','(phii2Nstar u V S (N_star + 1) Omega_K0 h (Real.log a0) rtol atol kw)',a,'C93')
m(S,'nsok','.ok (ic, y)\n\nend ISIC','.ok (ic, y0)\n\nend ISIC',b,'C93')
