M = []
def m(file, definition, old, new, claim, props, **k):
    M.append(dict(id='X%03d' % (len(M)+1), file='Model/'+file+'.lean', definition=definition, old=old, new=new, claim=claim, props=props.split(), **k))
I='InitialConditions'; P='Perturbations'; B='Background'; PI='PotentialInit'; V='Potentials'
a='C85: a SlowRollIC start is on the slow-roll background'
m(I,'SlowRollIC.dphidt_i','nanDiv (-ic.dV_i) (3 * h)','nanDiv (ic.dV_i) (3 * h)',a,'C85')
m(I,'SlowRollIC.dphidt_i','nanDiv (-ic.dV_i) (3 * h)','nanDiv (-ic.dV_i) (2 * h)',a,'C85 C88')
m(I,'SlowRollIC.dphidN_i','nanDiv (-ic.dV_i) (3 * h ^ 2)','nanDiv (-ic.dV_i) (3 * h)',a,'C85')
m(I,'SlowRollIC.init','nanSqrt (V_i / 3 * exp (2 * N_i) - E.K)','nanSqrt (V_i / 2 * exp (2 * N_i) - E.K)',a,'C85')
s='C87/C88: the amplitude asked for is the amplitude obtained'
m(PI,'sr_As2Lambda','H2 / (8 * π^2 * e1)','H2 / (24 * π^2 * e1)',s,'C87 C88')
m(PI,'sr_As2Lambda','(A_s / A_s0) ^ (1/4 : ℝ)','(A_s / A_s0) ^ (1/2 : ℝ)',s,'C87 C88')
m(PI,'sr_As2Lambda','let H2 := P.V phi / 3','let H2 := P.V phi',s,'C87 C88')
m(PI,'sr_As2Lambda','(A_s / A_s0) ^ (1/4 : ℝ)','(A_s0 / A_s) ^ (1/4 : ℝ)',s,'C87 C88')
n='C86: the run lasts as many e-folds as sr_phi2N says'
m(V,'Monomial.sr_phi2N','-m.p / 4 + phi^2 / (2 * m.p)','-m.p / 4 + phi^2 / m.p',n,'C86')
m(V,'Starobinsky.sr_phi2N','(-phi + s.phi_end) / (2*gamma) + (exp (gamma * phi) - exp (gamma * s.phi_end)) / (2*gamma^2)','(phi - s.phi_end) / (2*gamma) + (exp (gamma * phi) - exp (gamma * s.phi_end)) / (2*gamma^2)',n,'C86')
e='C84-C87: slow-roll amplitudes of the numerical modes'
m(V,'Monomial.get_epsilon_1V','m.p^2 / (2 * phi^2)','m.p^2 / (phi^2)',e,'C86 C87')
m(V,'Starobinsky.get_epsilon_1V','2 * gamma^2 / (1 - exp (gamma * phi))^2','gamma^2 / (1 - exp (gamma * phi))^2',e,'C86 C87')
m(B,'T.get_H2','(dphi^2 / 2 + V) / 3 - K * exp (-2 * N)','(dphi^2 + V) / 3 - K * exp (-2 * N)','C85: the background obeys the Friedmann equation','C85')
m(B,'T.get_d2phi','-3 * √H2 * dphi - dV','-3 * √H2 * dphi + dV','C85: the background is the slow-roll attractor','C85')
m(B,'N.get_d2phi','-(dH_H + 3) * dphi - dV / H2','-(dH_H + 3) * dphi - dV','C85: the background is the slow-roll attractor','C85')
m(P,'TensorT.damping','3 * p.H / 2','3 * p.H',e,'C84')
m(P,'TensorN.damping','(3 - p.dphi ^ 2 / 2 + K','(3 + p.dphi ^ 2 / 2 + K',e,'C84')
m(P,'ScalarT.damping','(3 * p.H + shared K k p * terms pot K p * p.H) / 2','(p.H + shared K k p * terms pot K p * p.H) / 2',e,'C84')
m(P,'ScalarN.damping','damping2 pot K k p / 2','damping2 pot K k p',e,'C84')
m(P,'modes','byName (TensorT.vacK k) (TensorT.vacHD b.K k) (TensorT.vacRST k), k ^ 3 / (2 * π ^ 2) * 2⟩','byName (TensorT.vacK k) (TensorT.vacHD b.K k) (TensorT.vacRST k), k ^ 3 / (2 * π ^ 2) * 8⟩',e,'C84 C87')
m(P,'modes','byName (ScalarN.vacK b.pot b.K k) (ScalarN.vacHD b.pot b.K k) (ScalarN.vacRST k), k ^ 3 / (2 * π ^ 2)⟩','byName (ScalarN.vacK b.pot b.K k) (ScalarN.vacHD b.pot b.K k) (ScalarN.vacRST k), k ^ 3 / (π ^ 2)⟩',e,'C84 C87')
m(P,'TensorT.vacK','let h : ℂ := 2 / (√(2 * k) : ℝ) / a\n    some (h, (-Complex.I * k / a - (p.H : ℝ)) * h)','let h : ℂ := 2 / (√k : ℝ) / a\n    some (h, (-Complex.I * k / a - (p.H : ℝ)) * h)',e,'C84')
m(P,'ScalarT.vacK','let z := a * p.dphi / p.H\n  let dz_z := p.H + d2phi / p.dphi - dH_H\n  if 0 < k','let z := a * p.dphi / p.H\n  let dz_z := d2phi / p.dphi - dH_H\n  if 0 < k',e,'C84')
C='PotentialCtor'
k='C89: potentials are built from their documented keywords and from nothing else'
m(C,'Ctor.construct','| .cubic => withP 3 kw','| .cubic => withP 4 kw',k,'C89')
m(C,'Ctor.construct','| .doubleWell4 => withP 4 kw >>= doubleWell o c','| .doubleWell4 => withP 2 kw >>= doubleWell o c',k,'C89')
m(C,'Ctor.construct','if kw.contains "mass" then .error (.valueError "\'mass\' was dropped use \'Lambda\' instead") else withP 2 kw >>= monomial o c','withP 2 kw >>= monomial o c',k,'C89')
m(C,'Ctor.withP','if kw.contains "p" then .error (.typeError "got multiple values for keyword argument \'p\'") else .ok (("p", some v) :: kw)','.ok (("p", some v) :: kw)',k,'C89')
m(C,'Ctor.withP','.ok (("p", some v) :: kw)','.ok (kw ++ [("p", some 2)])',k,'C89')
m(C,'Ctor.tmodel','  let (p, kw) ← pop kw "p"\n  let (alpha, kw) ← pop kw "alpha"\n  base o c { p := some p, alpha := some alpha } kw','  let (p, kw) ← pop kw "alpha"\n  let (alpha, kw) ← pop kw "p"\n  base o c { p := some p, alpha := some alpha } kw',k,'C89')
m(C,'Ctor.doubleWell','base o c { phi0 := some phi0, p := some p } kw','base o c { phi0 := some p, p := some phi0 } kw',k,'C89')
m(C,'Ctor.feature','base o c { phi_feature := some x, a_feature := some a, b_feature := some b } kw','base o c { phi_feature := some x, a_feature := some b, b_feature := some a } kw',k,'C89')
m(C,'Ctor.radionGauge','if p = 0 ∨ (alpha = 0 ∧ p < 0)','if p = 0',k,'C89')
m(C,'Ctor.base','.filter (· ∉ ["Lambda", "A_s", "N_star", "phi_star"])','.filter (· ∉ ["Lambda", "A_s", "N_star", "phi_star", "mass"])',k,'C89')
m(C,'Ctor.base','⟨Lambda, A_s, kw.get? "N_star", kw.get? "phi_star", other⟩','⟨Lambda, A_s, kw.get? "phi_star", kw.get? "N_star", other⟩',k,'C89')
m(C,'Ctor.base','let other := (kw.map Prod.fst)','let other := ((kw.take 1).map Prod.fst)',k,'C89')
m(C,'Ctor.pop','| some (some x) => .ok (x, kw.del k)','| some (some x) => .ok (x, kw)',k,'C89')
m(C,'Ctor.pop','| none => .error (.keyError k)','| none => .ok (0, kw)',k,'C89')
m(C,'PotClass.methods','| .radionGauge2 => RadionGauge2.sr (s.alpha.getD 0) Λ','| .radionGauge2 => RadionGauge2.sr (s.alpha.getD 0) 1',k,'C89')
m('PotentialInit','potInit','let L0 := kw.Lambda.getD 1','let L0 := kw.Lambda.getD 0',k,'C89')
m('PotentialInit','potInit','else .ok (L, decide (L0 ≠ 1))','else .ok (L, false)',k,'C89')
m('PotentialInit','potInit','else .ok (L, decide (L0 ≠ 1))','else .ok (L0, decide (L0 ≠ 1))',k,'C89')
