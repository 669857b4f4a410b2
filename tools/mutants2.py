M = []
def m(file, definition, old, new, claim, props, **k):
    M.append(dict(id='B%03d' % (len(M)+1), file='Model/'+file+'.lean', definition=definition, old=old, new=new, claim=claim, props=props.split(), **k))
B='Background'
m(B,'T.get_H2','(dphi^2 / 2 + V) / 3 - K * exp (-2 * N)','(dphi^2 / 2 + V) / 3 + K * exp (-2 * N)','C14/C16: sign of the curvature term','C14 C16 C19')
m(B,'T.get_dH','noncomputable def get_dH (N _H dphi K : ℝ) : ℝ := -dphi^2 / 2 + K','noncomputable def get_dH (N _H dphi K : ℝ) : ℝ := -dphi^2 / 2 - K','C14: dH is the derivative of H','C14 C16')
m(B,'T.get_d2H','-d2phi * dphi - 2 * K * H * exp (-2 * N)','-d2phi * dphi','C14: curvature term of d2H','C14 C16')
m(B,'T.get_d3H','2 * K * (2 * H^2 - dH)','2 * K * (2 * H^2 + dH)','C14: d3H','C14 C16')
m(B,'T.get_d2phi','-3 * √H2 * dphi - dV','-3 * H2 * dphi - dV','C14: Klein-Gordon (H instead of H^2)','C14 C19')
m(B,'T.get_d3phi','+ 3 * dphi^3 / 2','','C14: d3phi','C14')
m(B,'T.get_d4phi','- 6 * d2phi * dH','- 3 * d2phi * dH','C14: d4phi','C14')
m(B,'T.get_epsilon_1H','noncomputable def get_epsilon_1H (H dH : ℝ) : ℝ := -dH / H^2','noncomputable def get_epsilon_1H (H dH : ℝ) : ℝ := -dH / H','C18: epsilon_1H','C18 C16')
m(B,'T.get_epsilon_2H','d2H / (H * dH) - 2 * dH / H^2','d2H / (H * dH) - dH / H^2','C18: epsilon_2H','C18 C16')
m(B,'T.get_epsilon_3H','(-3*H*d2H + 4*dH^2)','(-3*H*d2H + 2*dH^2)','C18: epsilon_3H','C18')
m(B,'T.get_delta_2','d3phi / (H^2 * dphi)','d3phi / (H * dphi)','C18: delta_2','C18 C16')
m(B,'T.get_delta_3','d4phi / (H^3 * dphi)','d4phi / (H^2 * dphi)','C18: delta_3','C18 C16')
m(B,'N.get_H2','(2 * V - 6 * K * exp (-2 * N)) / (6 - dphi^2)','(2 * V - 6 * K * exp (-2 * N)) / (6 + dphi^2)','C15/C16/C19: Friedmann equation','C15 C16 C19')
m(B,'N.get_dH','-dphi^2 * H / 2 + K * exp (-2 * N) / H','-dphi^2 * H / 2 - K * exp (-2 * N) / H','C15','C15 C16')
m(B,'N.get_dH_H','-dphi^2 / 2 + K * exp (-2 * N) / H2','-dphi^2 / 2 + K * exp (-2 * N)','C15: dH_H','C15 C19')
m(B,'N.get_d2H','(2 * H + dH) / H^2','(2 * H - dH) / H^2','C15','C15 C16')
m(B,'N.get_d3H','- 2*d2phi*dphi*dH','- d2phi*dphi*dH','C15','C15 C16')
m(B,'N.get_d2phi','-(dH_H + 3) * dphi - dV / H2','-(dH_H + 2) * dphi - dV / H2','C15/C19','C15 C19')
m(B,'N.get_d3phi','2*dV*dH/H^3','dV*dH/H^3','C15','C15')
m(B,'N.get_d4phi','4*d2V*dH/H^3','2*d2V*dH/H^3','C15','C15')
m(B,'N.get_epsilon_2H','d2H / dH - dH / H','d2H / dH + dH / H','C18','C18 C16')
m(B,'N.get_epsilon_3H','- H^3*d2H^3 - dH^6','- H^3*d2H^3 + dH^6','C18','C18')
m(B,'N.get_delta_2','3 * d2phi/dphi * dH/H','2 * d2phi/dphi * dH/H','C18/C16','C18 C16')
m(B,'N.get_delta_3','(4*d2H/H + 7*dH^2/H^2)','(4*d2H/H + 6*dH^2/H^2)','C18/C16','C18 C16')
m(B,'N.get_epsilon_2H_Gong','-d2H/H + dH^2/H^2','-d2H/H - dH^2/H^2','C16/C18: Gong variants agree','C16 C18')
m(B,'T.get_epsilon_2H_Gong','-d2H / H^3 + 2 * dH^2 / H^4','-d2H / H^3 + dH^2 / H^4','C16/C18: Gong variant','C16 C18')
m(B,'T.get_epsilon_3H_Gong','6 * dH * d2H / H^5','3 * dH * d2H / H^5','C16/C18: Gong variant','C16 C18')
m(B,'N.get_epsilon_3H_Gong','2*dH*d2H/H^2 - dH^3/H^3','2*dH*d2H/H^2 + dH^3/H^3','C16/C18: Gong variant','C16 C18')
m(B,'InflT.inflating','e.V y - dphidt y ^ 2','e.V y - 2 * dphidt y ^ 2','C17: inflating > 0 iff accelerating','C17')
m(B,'InflN.inflating','e.V y - e.H2 x y * dphidN y ^ 2','e.V y - dphidN y ^ 2','C17: inflating','C17')
m(B,'InflT.w','let p := dphidt_2 / 2 - V\n  let rho := dphidt_2 / 2 + V\n  p / rho\n/-- time','let p := dphidt_2 / 2 - V\n  let rho := dphidt_2 / 2 + V\n  rho / p\n/-- time','C17: w','C17')
m(B,'InflN.w','let dphidt_2 := e.H2 x y * dphidN y ^ 2','let dphidt_2 := dphidN y ^ 2','C17: w in e-folds','C17')
m(B,'InflT.call','let dy := Function.update dy 2 H\n','let dy := Function.update dy 2 H2\n','C19: dN/dt = H','C19')
m(B,'InflT.call','Function.update dy 3 (exp (-_N y))','Function.update dy 3 (exp (_N y))','C19: deta/dt = 1/a','C19')
m(B,'InflN.call','Function.update dy 2 (1 / √H2)','Function.update dy 2 (√H2)','C19: dt/dN = 1/H','C19')
m(B,'InflN.call','Function.update dy e.etaRow','Function.update dy 3','C19: eta written to row 3 even when time is not tracked','C19')
m(B,'InflN.etaRow','if e.track_time then 3 else 2','if e.track_time then 2 else 3','C19/C21: row of eta','C19 C21')
m(B,'InflT.call','Function.update dy 1 (T.get_d2phi H2 (dphidt y) (e.dVdphi y))','Function.update dy 1 (T.get_d2phi H2 (dphidt y) (e.V y))','C19: V instead of dV','C19 C20')
m(B,'InflT.eqs','["phi", "dphidt", "_N"]','["phi", "_N", "dphidt"]','C21: registration order','C21')
m(B,'InflN.eqs','let s := if e.track_time then s.add_variable ["t"] else s\n  if e.track_eta then s.add_variable ["eta"] else s','let s := if e.track_eta then s.add_variable ["eta"] else s\n  if e.track_time then s.add_variable ["t"] else s','C21: registration order of t and eta','C21')
m(B,'T.pipeline','let d3phi := T.get_d3phi H dH d2H dphi d2phi dV d2V','let d3phi := T.get_d3phi H dH d2H d2phi dphi dV d2V','C14: swapped arguments in the pipeline','C14')
m(B,'N.pipeline','let d2phi := N.get_d2phi (H^2) dH_H dphi dV','let d2phi := N.get_d2phi H dH_H dphi dV','C15: H instead of H^2 in the pipeline','C15')
m(B,'N.pipeline','let d4phi := N.get_d4phi H dH d2H d3H dphi d2phi d3phi dV d2V d3V','let d4phi := N.get_d4phi H dH d2H d3H dphi d2phi d3phi dV d3V d2V','C15: swapped arguments','C15')
E_='Equations'
m(E_,'add_variable1','e.idx.set name e.idx.length','e.idx.set name (e.idx.length + 1)','C21: rows start at 0','C21')
m(E_,'add_variable1','methods := e.methods.set name (.row name) }','methods := e.methods }','C21: accessor not installed','C21')
m(E_,'set_independent_variable','methods := e.methods.set name .indep, ','methods := e.methods, ','C21: accessor of the independent variable','C21')
m(E_,'Dict.set','if k = k\' then (k\', v) :: d else','if k = k\' then (k\', v\') :: d else','C22: assignment does not overwrite','C21 C22')
m(E_,'call','| some .indep => some x','| some .indep => y[0]?','C21: independent accessor returns x','C21')
S='Solution'
m(S,'Equations.sol','let s := s.set (x_name ++ "_events") (.evArr (dictZip ks te\'))','let s := s.set (x_name ++ "_events") (.evArr (dictZip ks.reverse te\'))','C22: event times keyed wrongly','C22')
m(S,'Equations.sol','let s := s.del "t"\n','','C22: t not removed','C22')
m(S,'Equations.sol','let s := s.set x_name (.arr x)\n','','C22: independent variable not stored under its name','C22')
m(S,'setRows','let r ← pyGet y i\n','let r ← pyGet y (i + 1)\n','C22: wrong row','C22')
m(S,'setEventRows','let c ← columnOf i ye','let c ← columnOf 0 ye','C22: always column 0','C22')
m(S,'columnOf','.ok ((key, col) :: r)','.ok (if col = [] then r else (key, col) :: r)','C22: events that never happened lose their key','C22')
m(S,'Equations.sol','let s := s.del "y_events"\n    let s := s.set "y_events" (.evStates (dictZip ks ye))','let s := s.del "y_events"\n    let s := s.set "y_events" (.evStates (dictZip ks (ye.drop 1)))','C22: y_events shifted','C22')
V='Events'
m(V,'Direction.fmt','| pos => "1"','| pos => "+1"','C24: keys','C24')
m(V,'Event.call .modeExit','log |Q.H2 x y| / 2 + Q.N x y','log |Q.H2 x y| + Q.N x y','C23: ModeExit vanishes at k=aH','C23')
m(V,'Event.call .inflation','if some x = t_i then (ev.direction.val : ℝ) else Q.inflating x y - ev.value','Q.inflating x y - ev.value','C23: start of inflation triggers at t_i','C23')
m(V,'Event.call .untilN','| .untilN => Q.N x y - ev.value','| .untilN => Q.t x y - ev.value','C23: UntilN','C23')
m(V,'Event.call .phi0','| .phi0 => Q.phi x y - ev.value','| .phi0 => Q.phi x y + ev.value','C23: Phi0','C23')
m(V,'Event.call .collapse','| .collapse => Q.H2 x y - ev.value','| .collapse => Q.w x y - ev.value','C23: Collapse','C23')
m(V,'Event.call .afterInflationEnd','| .afterInflationEnd => Q.w x y - ev.value','| .afterInflationEnd => ev.value - Q.w x y','C23: direction of AfterInflationEnd','C23')
m(V,'Event.name','"Inflation_dir" ++','"InflationEvent_dir" ++','C24: event key not found by the post-processing','C24')
m(V,'Event.name','| .collapse => "Collapse"','| .collapse => "collapse"','C24','C24')
m(V,'Event.name','| .untilN => "UntilN"','| .untilN => "UntilT"','C24: name clash','C24',tightened=['C24_no_clash'])
m(V,'InflN.view','t _ y := y 2','t _ y := y 3','C23: row of t','C23')
m(V,'InflT.view','N _ y := InflT._N y','N x _ := x','C23/C25','C23 C25')
I='InflationSol'
m(I,'postStart','"Inflation_dir1_term0" with','"Inflation_dir-1_term0" with','C25: start read off the end event','C25 C24')
m(I,'postStart','if (firstEvent s.events "Collapse").isSome then','if (firstEvent s.events "Collapse").isNone then','C25','C25')
m(I,'postStart','0 ≤ Q.inflating s.first.1 s.first.2 ∨','0 < Q.inflating s.first.1 s.first.2 ∨','C25: boundary (starting exactly at the start of inflation)','C25')
m(I,'endEvent','match firstEvent events "Inflation_dir-1_term1" with\n  | some p => some p\n  | none => firstEvent events "Inflation_dir-1_term0"','match firstEvent events "Inflation_dir-1_term0" with\n  | some p => some p\n  | none => firstEvent events "Inflation_dir-1_term1"','C25: order of the end keys','C25 C24')
m(I,'postEnd','some (V phi), none⟩','some (V N), none⟩','C25: V_end at wrong argument','C25')
m(I,'inflationSol.inflation_mask','decide (b < n) && decide (n < e)','decide (b ≤ n) && decide (n < e)','C25: mask boundary','C25')
m(I,'inflationSol.Omega_K','-K * exp (-2 * l)','K * exp (-2 * l)','C25: sign of Omega_K','C25')
m(I,'inflationSol.N_tot','st.N_beg.map (e - ·)','st.N_beg.map (· - e)','C25: sign of N_tot','C25')
m(I,'inflationSol.logaH','(nanLog h).map (Q.N p.1 p.2 + ·)\n  {','(nanLog h).map (Q.N p.1 p.2 - ·)\n  {','C25: logaH','C25')
m(I,'firstEvent','(events.get? key).bind List.head?','(events.get? key).bind List.getLast?','C25: last instead of first event','C25 C24')
m(I,'startNotTracked','!events.contains "Inflation_dir+1_term1" && !events.contains "Inflation_dir+1_term0"','!events.contains "Inflation_dir1_term1" && !events.contains "Inflation_dir1_term0"','C24_start_warning finding would be false (key fixed)','C24')
m(I,'endKind','else if wlast < -1/3 then 1 else 2','else if wlast < 1/3 then 1 else 2','C25: kind of end warning','C25 C24',tightened=['C24_end_warning_kinds','C24_still_inflating_time'])
C='InitialConditions'
m(C,'SlowRollIC.init','let aH2_i := V_i / 3 * exp (2 * N_i) - E.K','let aH2_i := V_i / 2 * exp (2 * N_i) - E.K','C27/C29: slow-roll Friedmann','C27 C29 C30')
m(C,'SlowRollIC.init','nanDiv (-E.K) aH2_i','nanDiv E.K aH2_i','C27: sign of Omega_Ki','C27')
m(C,'SlowRollIC.init','nanLog (3 * E.K / V_i * (1 - 1 / Omega_Ki))','nanLog (2 * E.K / V_i * (1 - 1 / Omega_Ki))','C27: factor','C27')
m(C,'InflationStartIC.init','nanLog (2 * E.K / V_i * (1 - 1 / Omega_Ki))','nanLog (3 * E.K / V_i * (1 - 1 / Omega_Ki))','C27: factor','C27 C28')
m(C,'InflationStartIC.init','nanSqrt (V_i / 2 - E.K * exp (-2 * n))','nanSqrt (V_i / 3 - E.K * exp (-2 * n))','C28: H at start','C28')
m(C,'InflationStartIC.init','if 1 ≤ Omega_Ki then .error (.inflationStart "open")\n      else if','if 1 < Omega_Ki then .error (.inflationStart "open")\n      else if','C30: boundary Omega_Ki=1','C30')
m(C,'SlowRollIC.init','if aH2_i < 0 then .error (.inflationStart "closed")\n    else\n','if False then .error (.inflationStart "closed")\n    else\n','C30: check dropped','C30')
m(C,'SlowRollIC.init','| _, _ => .error (.typeError "N_i xor Omega_Ki")','| some N_i, some _ => .ok ⟨a.phi_i, a.t_i, a.eta_i, a.x_end, V_i, dV_i, some N_i, none, none, none⟩\n  | _, _ => .error (.typeError "N_i xor Omega_Ki")','C30: both accepted','C30')
m(C,'InflationStartIC.init','if a.Omega_Ki.isSome then .error (.assertion "Only either N_i or Omega_Ki")\n    else if','if','C30: both accepted','C30')
m(C,'writeY0','writeRow E.idx "_N" ic.N_i y\n','.ok y\n','C26: N not written','C26 C28 C29')
m(C,'writeY0','if ic.eta_i.isNone then .error (.assertion "eta_i")\n    else writeRow E.idx "eta" ic.eta_i y\n','.ok y\n','C26: eta not written','C26')
m(C,'writeY0','else writeRow E.idx "t" ic.t_i y','else writeRow E.idx "t" ic.N_i y','C26: t row','C26')
m(C,'writeY0','if ic.t_i.isNone then .error (.assertion "t_i")\n        else','','C26/C30: t_i=None accepted','C26 C30')
m(C,'SlowRollIC.dphidt_i','nanDiv (-ic.dV_i) (3 * h)\n','nanDiv ic.dV_i (3 * h)\n','C29: rolls uphill','C29')
m(C,'SlowRollIC.dphidN_i','nanDiv (-ic.dV_i) (3 * h ^ 2)','nanDiv (-ic.dV_i) (3 * h)','C29: e-fold velocity','C29')
m(C,'InflationStartIC.dphidt_i','(nanSqrt ic.V_i).map (- ·)','(nanSqrt ic.V_i).map (- · / 2)','C28: not at start of inflation','C28')
m(C,'InflationStartIC.dphidN_i','nanDiv (-s) h\n','some (-s * h)\n','C28: e-fold velocity','C28')
m(C,'IC.x_ini','| .N _ => ic.N_i\n','| .N _ => ic.t_i\n','C26: x_ini','C26 C28')
m(C,'SlowRollIC.init','mulExpNeg aH_i (some N_i)⟩','aH_i⟩','C29: H_i','C29 C27')
