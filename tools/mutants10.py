M = []
def m(file, definition, old, new, claim, props, **k):
    M.append(dict(id='Z%03d' % (len(M)+1), file='Model/'+file+'.lean', definition=definition, old=old, new=new, claim=claim, props=props.split(), **k))
S='ShootingSolve'
a='C91: the objective vanishes only at the requested N_tot'
m(S,'objective','| some n => .ok (some (n - N_tot))','| some n => .ok (some (n + N_tot))',a,'C91')
m(S,'objective','| some n => .ok (some (n - N_tot))','| some n => .ok (some (n - N_tot - 1))',a,'C91')
m(S,'objective','| some n => .ok (some (n - N_tot))','| some n => .ok (some (min 0 (n - N_tot)))',a,'C91')
m(S,'objective','then .ok (N_i.map (last - ·))','then .ok (N_i.map (last - · - N_tot))',a,'C91')
m(S,'objective','N_tot ≤ last - n then','last - n ≤ N_tot then',a,'C91')
m(S,'objective','if c ≠ [] then .ok (some (0 - N_tot))','if c ≠ [] then .ok (some 0)',a,'C91')
m(S,'objective','if z then .ok (some (0 - N_tot))','if z then .ok (some 0)',a,'C91')
m(S,'objective','if V.isStepSize msg then .error (.primpyError "StepSizeError")','if V.isStepSize msg then .ok (some 0)',a,'C91')
m(S,'objective','.error (.primpyError "`solve_ivp` failed with message")','.ok (some 0)',a,'C91')
b='C91: the nested run starts from the state the outer run starts from'
m(S,'phii2Ntot','(ICCall.inflationStart S.E ic)','(ICCall.slowRoll S.E ic)',b,'C91')
m(S,'phii2Ntot','n + N_tot + 10','n + N_tot - 10',b,'C91')
m(S,'phii2Ntot','objective V N_tot ic.N_i b s','objective V (N_tot + 1) ic.N_i b s',b,'C91')
m(S,'phii2Ntot','match Shooting.start S phi with','match Shooting.start S (phi + 1) with',b,'C91')
m(S,'nt','let ic ← Shooting.start S r','let ic ← Shooting.start S hi',b,'C91')
m(S,'nt','let ic ← Shooting.start S r','let ic ← Shooting.start S lo',b,'C91')
m(S,'nt','let y ← InflationStartIC.call S.E ic y0','let y ← SlowRollIC.call S.E ic y0',b,'C91')
c='C91: the nested run tracks the end of inflation'
m(S,'events','⟨.inflation none, .neg, true, 0⟩','⟨.inflation (some 0), .neg, true, 0⟩',c,'C91')
m(S,'events','⟨.inflation none, .neg, true, 0⟩','⟨.inflation none, .neg, true, 1⟩',c,'C91')
m(S,'events','⟨.inflation none, .neg, true, 0⟩','⟨.inflation none, .pos, true, 0⟩',c,'C91')
m(S,'events','⟨.untilN, .zero, true, bound⟩','⟨.untilN, .zero, true, bound - 20⟩',c,'C91')
m(S,'events','⟨.untilN, .zero, true, bound⟩','⟨.untilN, .zero, false, bound⟩',c,'C91')
d='C91: independence of events and settings (the reports are a function of the first sign changes)'
m('InflationSol','endEvent','| none => firstEvent events "Inflation_dir-1_term0"','| none => firstEvent events "Inflation_dir1_term0"',d,'C91')
