# definitions that had no mutant of their own
M = []
def m(file, definition, old, new, claim, props, **k):
    M.append(dict(id='ZJ%03d' % (len(M)+1), file='Model/'+file+'.lean', definition=definition, old=old, new=new, claim=claim, props=props.split(), **k))
P='Potentials'; Q='PotentialInit'; B='BigBang'; U='Units'; I='InitialConditions'; V='Version'
c='C12: the named monomials are the monomial with their exponent'
m(P,'Linear.sr_Nstar2ns','ℝ := Monomial.sr_Nstar2ns 1 N','ℝ := Monomial.sr_Nstar2ns 2 N',c,'C12 C08')
m(P,'Linear.sr_ns2Nstar','Monomial.sr_ns2Nstar 1 n','Monomial.sr_ns2Nstar 0 n',c,'C12 C08')
m(P,'Linear.sr_r2Nstar','Monomial.sr_r2Nstar 1 r','Monomial.sr_r2Nstar 2 r',c,'C12 C08')
m(P,'Cubic.sr_Nstar2r','Monomial.sr_Nstar2r 3 N','Monomial.sr_Nstar2r 4 N',c,'C12 C08')
m(P,'Cubic.sr_r2Nstar','Monomial.sr_r2Nstar 3 r','Monomial.sr_Nstar2r 3 r',c,'C12 C08')
m(P,'Quartic.sr_Nstar2ns','Monomial.sr_Nstar2ns 4 N','Monomial.sr_ns2Nstar 4 N',c,'C12 C08')
m(P,'Quartic.sr_Nstar2r','Monomial.sr_Nstar2r 4 N','Monomial.sr_Nstar2r 3 N',c,'C12 C08')
a='C09: the amplitude of the potential gives the requested A_s'
m(Q,'Monomial.sr','⟨m.V, m.get_epsilon_1V, fun','⟨m.dV, m.get_epsilon_1V, fun',a,'C09 C10')
m(Q,'Quadratic.sr','⟨q.V, q.get_epsilon_1V, fun','⟨q.V, q.V, fun',a,'C09 C10')
m(Q,'Starobinsky.sr','.ok (s.sr_phi2N φ), fun N => .ok (s.sr_N2phi W N)⟩\nnoncomputable def Natural.sr','.ok (s.sr_phi2N φ), fun N => .ok (s.sr_phi2N N)⟩\nnoncomputable def Natural.sr',a,'C09 C10')
m(Q,'Tmodel.sr','fun N => .ok (t.sr_N2phi N)⟩','fun N => .ok (t.sr_N2phi (N + 1))⟩',a,'C09 C10')
m(Q,'DoubleWell.sr','⟨Λ, phi0, p⟩','⟨Λ, p, phi0⟩',a,'C09 C10')
m(Q,'RadionGauge.sr','⟨Λ, p, alpha⟩\n  ⟨g.V','⟨Λ, alpha, p⟩\n  ⟨g.V',a,'C09 C10')
h='C45: the conformal time is the integral of the comoving Hubble horizon'
m(B,'integrandFn','  | .ok (some v) => v\n  | _ => 0','  | .ok (some v) => -v\n  | _ => 0',h,'C45')
m(B,'quadValue','∫ n in a..b,','∫ n in b..a,',h,'C45')
m(B,'mapExcept','.ok (b :: bs)','.ok (bs ++ [b])',h+' (for each element of the array in turn)','C45 C81')
m(U,'mega','def mega : ℝ := 1000000','def mega : ℝ := 100000','C56: Mpc','C56')
m(U,'giga','def giga : ℝ := 1000000000','def giga : ℝ := 1000000','C56: GeV','C56')
m(I,'SlowRollIC.call','noncomputable def SlowRollIC.call (E : Eqs) (ic : IC) (y0 : ℕ → Option ℝ) :\n    Except PyErr (ℕ → Option ℝ) :=\n  writeY0 E ic (dphidt_i ic) (dphidN_i ic) y0','noncomputable def SlowRollIC.call (E : Eqs) (ic : IC) (y0 : ℕ → Option ℝ) :\n    Except PyErr (ℕ → Option ℝ) :=\n  writeY0 E ic (dphidN_i ic) (dphidt_i ic) y0','C29: the field starts with the slow-roll velocity','C29 C26')
m(I,'InflationStartIC.call','noncomputable def InflationStartIC.call (E : Eqs) (ic : IC) (y0 : ℕ → Option ℝ) :\n    Except PyErr (ℕ → Option ℝ) :=\n  writeY0 E ic (dphidt_i ic) (dphidN_i ic) y0','noncomputable def InflationStartIC.call (E : Eqs) (ic : IC) (y0 : ℕ → Option ℝ) :\n    Except PyErr (ℕ → Option ℝ) :=\n  writeY0 E ic (dphidN_i ic) (dphidN_i ic) y0','C28: the field starts where inflation starts','C28 C26')
m(V,'V.base',"str v.epoch ++ '!' :: dotted v.release","dotted v.release",'C60: the epoch counts','C60')
m(V,'cat',"(· ++ ['\\n'])","id",'C60: lines are separated','C60')
m('Wrapper','kmin','5 / 10 ^ 7','5 / 10 ^ 6','C57: range of wavenumbers','C57 C58')
