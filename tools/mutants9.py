M = []
def m(file, definition, old, new, claim, props, **k):
    M.append(dict(id='Y%03d' % (len(M)+1), file='Model/'+file+'.lean', definition=definition, old=old, new=new, claim=claim, props=props.split(), **k))
S='Solver'
a='C90: solve asks scipy for what the user requested'
m(S,'solve','kw.method.getD "RK45"','kw.method.getD "DOP853"',a,'C90')
m(S,'solve','let rtol := kw.rtol.getD (1 / 10 ^ 10)','let rtol := kw.rtol.getD (1 / 10 ^ 12)',a,'C90')
m(S,'solve','let atol := kw.atol.getD (1 / 10 ^ 12)','let atol := kw.rtol.getD (1 / 10 ^ 12)',a,'C90')
m(S,'solve','events, method, rtol, atol, kw.rest⟩','events, method, atol, rtol, kw.rest⟩',a,'C90')
m(S,'solve','events, method, rtol, atol, kw.rest⟩','events, method, rtol, atol, []⟩',a,'C90')
m(S,'solve','events, method, rtol, atol, kw.rest⟩','[], method, rtol, atol, kw.rest⟩',a,'C90')
m(S,'solve','⟨c.x_ini E, c.x_end,','⟨some c.x_end, c.x_end,',a,'C90')
m(S,'solve','⟨c.x_ini E, c.x_end,','⟨c.t_i, c.x_end,',a,'C90')
m(S,'solve','(List.range E.idx.length).map y, events','(List.range E.idx.length).map y0, events',a,'C90')
m(S,'solve','(List.range E.idx.length).map y, events','(List.range (E.idx.length + 1)).map y, events',a,'C90')
m(S,'solve','let (c, y) ← ic rtol atol kw.rest y0','let (c, y) ← ic atol rtol kw.rest y0',a,'C90')
m(S,'solve','let (c, y) ← ic rtol atol kw.rest y0','let (c, y) ← ic rtol atol [] y0',a,'C90')
m(S,'solve','let y0 : ℕ → Option ℝ := fun _ => some 0','let y0 : ℕ → Option ℝ := fun _ => some 1',a,'C90')
m(S,'solve','let events := kw.events.getD []','let events := (kw.events.getD []).reverse',a,'C90')
b='C90: event attributes carry the names of their events'
m(S,'solve','(.keys (events.map (Event.name fmtE)))','(.keys ((events.map (Event.name fmtE)).reverse))',b,'C90')
m(S,'solve','res.set "event_keys"','res.set "keys"',b,'C90')
m(S,'solve','E.sol (res.set "event_keys" (.keys (events.map (Event.name fmtE))))','E.sol res',b,'C90')
c='C90: start of inflation'
m(S,'startB','match firstOf NE "Collapse" with','match firstOf NE "Inflation_dir-1_term0" with',c,'C90')
m(S,'startB','if 0 ≤ Q.inflating x0 (colAt y 0) ∨ w0 ≤ -1/3 then do','if 0 < Q.inflating x0 (colAt y 0) ∨ w0 ≤ -1/3 then do',c,'C90')
m(S,'startB','if 0 ≤ Q.inflating x0 (colAt y 0) ∨ w0 ≤ -1/3 then do','if 0 ≤ Q.inflating x0 (colAt y 0) then do',c,'C90')
m(S,'startB','if 0 ≤ Q.inflating x0 (colAt y 0) ∨ w0 ≤ -1/3 then do','if 0 ≤ Q.inflating x0 (colAt y 1) ∨ w0 ≤ -1/3 then do',c,'C90')
m(S,'startB','let n ← pyGet N 0','let n ← pyGet x 0',c,'C90')
m(S,'startB','else match firstOf NE "Inflation_dir1_term0" with','else match firstOf NE "Inflation_dir1_term1" with',c,'C90')
m(S,'startB','let ys ← key YE "Inflation_dir1_term0"','let ys ← key YE "Inflation_dir-1_term0"',c,'C90')
m(S,'startB','let x1 ← pyGet xs 0\n        let y1 ← pyGet ys 0\n        let H := Q.Hnan (x1, state y1)\n        .ok ⟨some n,','let x1 ← pyGet xs 0\n        let y1 ← pyGet ys 0\n        let H := Q.Hnan (x1, state y1)\n        .ok ⟨some x1,',c,'C90')
d='C90: end of inflation'
m(S,'endAtB','let phi ← pyGet ps 0','let phi ← pyGet xs 0',d,'C90')
m(S,'endAtB','some (V phi), none⟩','some (V n), none⟩',d,'C90')
m(S,'endAtB','addLog (some n) H, some (V phi)','addLog (some phi) H, some (V phi)',d,'C90')
m(S,'endAtB','let H := Q.Hnan (x1, state y1)\n  .ok','let H := Q.Hnan (n, state y1)\n  .ok',d,'C90')
m(S,'endB','| some n => endAtB Q V s "Inflation_dir-1_term1" n','| some n => endAtB Q V s "Inflation_dir-1_term0" n',d,'C90')
m(S,'endB','match firstOf NE "Inflation_dir-1_term0" with','match firstOf NE "Inflation_dir1_term0" with',d,'C90')
m(S,'endB','match w.getLast? with','match w.head? with',d,'C90')
e='C90: derived attributes are those of the grid'
m(S,'inflationSolB','logaH.map fun l => l.map fun l => -K * exp (-2 * l)','logaH.map fun l => l.map fun l => K * exp (-2 * l)',e,'C90')
m(S,'inflationSolB','st.N_beg.map (e - ·)','st.N_beg.map (· - e)',e,'C90')
m(S,'inflationSolB','decide (b < n) && decide (n < e)','decide (b ≤ n) && decide (n < e)',e,'C90')
m(S,'inflationSolB','let N ← Attr.getArr (s.get? "_N")\n  let logaH','let N ← Attr.getArr (s.get? "x")\n  let logaH',e,'C90')
m(S,'inflationSolB','let w := onGrid x y Q.w','let w := (onGrid x y Q.w).reverse',e,'C90')
m(S,'Bunch.firstOf','(d.get? k).bind List.head?','(d.get? k).bind List.getLast?',e,'C90')
m(S,'Bunch.addLog','(nanLog h).map (n + ·)','(nanLog h).map (n - ·)',e,'C90')
m(S,'Bunch.colAt','(y.getD i []).getD j 0','(y.getD j []).getD i 0',e,'C90')
m(S,'Eqs.sol','| .N e => inflationSolB e.eqs e.view e.pot.V e.K res','| .N e => inflationSolB e.eqs e.view e.pot.dV e.K res',e,'C90')
m(S,'Eqs.sol','| .T e => inflationSolB e.eqs e.view e.pot.V e.K res','| .T e => inflationSolB e.eqs e.view e.pot.V (-e.K) res',e,'C90')
f='C90: the solution starts at the initial condition'
m(S,'ICCall.slowRoll','let y ← SlowRollIC.call E ic y0','let y ← InflationStartIC.call E ic y0',f,'C90')
m(S,'ICCall.inflationStart','let y ← InflationStartIC.call E ic y0','let y ← SlowRollIC.call E ic y0',f,'C90')
g='C90: positional arguments are rejected'
m(S,'solve','| _ :: _ => .error (.typeError "solve_ivp() got multiple values for argument \'method\'")\n  | [] => do','| _ => do',g,'C90')
