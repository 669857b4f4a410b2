M = []
def m(file, definition, old, new, claim, props, **k):
    M.append(dict(id='W%03d' % (len(M)+1), file='Model/'+file+'.lean', definition=definition, old=old, new=new, claim=claim, props=props.split(), **k))
P='Perturbations'
A='ApproxPower'
c='C82: the reported spectra are those of the Bunch-Davies vacuum'
m(P,'TensorT.vacK','let h : ℂ := 2 / (√(2 * k) : ℝ) / a\n    some (h, (-Complex.I * k / a - (p.H : ℝ)) * h)','let h : ℂ := 1 / (√(2 * k) : ℝ) / a\n    some (h, (-Complex.I * k / a - (p.H : ℝ)) * h)',c,'C82')
m(P,'TensorT.vacK','some (h, (-Complex.I * k / a - (p.H : ℝ)) * h)','some (h, (Complex.I * k / a - (p.H : ℝ)) * h)',c,'C82')
m(P,'TensorT.vacRST','some (h, -Complex.I * k / a * h)','some (h, -Complex.I * k * h)',c,'C82')
m(P,'TensorT.vacHD','(wk a (k ^ 2 / a ^ 2 - 2 * p.H ^ 2 - dH))','(wk 1 (k ^ 2 / a ^ 2 - 2 * p.H ^ 2 - dH))',c,'C82')
m(P,'TensorT.vacHD','let h : ℂ := 2 / (√(2 * w) : ℝ) / a\n    (h, (-Complex.I * w / a','let h : ℂ := 2 / (√w : ℝ) / a\n    (h, (-Complex.I * w / a',c,'C82')
m(P,'TensorN.vacK','some (h, (-Complex.I * k / (a * p.H : ℝ) - 1) * h)','some (h, (-Complex.I * k / (a : ℝ) - 1) * h)',c,'C82')
m(P,'TensorN.vacHD','(h, (-Complex.I * w / (a * p.H : ℝ) - 1) * h)','(h, (-Complex.I * w / (p.H : ℝ) - 1) * h)',c,'C82')
m(P,'TensorN.vacRST','some (h, -Complex.I * k / (a * p.H : ℝ) * h)','some (h, Complex.I * k / (a * p.H : ℝ) * h)',c,'C82')
m(P,'ScalarT.vacK','let z := a * p.dphi / p.H\n  let dz_z := p.H + d2phi / p.dphi - dH_H\n  if 0 < k','let z := a * p.dphi\n  let dz_z := p.H + d2phi / p.dphi - dH_H\n  if 0 < k',c,'C82')
m(P,'ScalarT.vacRST','let z := a * p.dphi / p.H\n  if 0 < k','let z := p.dphi / p.H\n  if 0 < k',c,'C82')
m(P,'ScalarT.vacHD','(R, (-Complex.I * w / a - (dz_z : ℝ)) * R)','(R, (-Complex.I * w - (dz_z : ℝ)) * R)',c,'C82')
m(P,'ScalarN.vacK','some (R, (-Complex.I * k / (a * p.H : ℝ) - (dz_z : ℝ)) * R)','some (R, (-Complex.I * k / (a * p.H ^ 2 : ℝ) - (dz_z : ℝ)) * R)',c,'C82')
m(P,'ScalarN.vacHD','let R : ℂ := 1 / (√(2 * w) : ℝ) / (z : ℝ)\n    (R, (-Complex.I * w / (a * p.H : ℝ)','let R : ℂ := 2 / (√(2 * w) : ℝ) / (z : ℝ)\n    (R, (-Complex.I * w / (a * p.H : ℝ)',c,'C82')
m(P,'ScalarN.vacRST','let z := a * p.dphi\n  if 0 < k then\n    let R : ℂ := 1 / (√(2 * k) : ℝ) / (z : ℝ)\n    some (R, -Complex.I','let z := a / p.dphi\n  if 0 < k then\n    let R : ℂ := 1 / (√(2 * k) : ℝ) / (z : ℝ)\n    some (R, -Complex.I',c,'C82')
n='C82: normalisation of the spectra'
m(P,'modes','byName (TensorT.vacK k) (TensorT.vacHD b.K k) (TensorT.vacRST k), k ^ 3 / (2 * π ^ 2) * 2⟩','byName (TensorT.vacK k) (TensorT.vacHD b.K k) (TensorT.vacRST k), k ^ 3 / (2 * π ^ 2)⟩',n,'C82')
m(P,'modes','byName (TensorN.vacK k) (TensorN.vacHD b.K k) (TensorN.vacRST k), k ^ 3 / (2 * π ^ 2) * 2⟩','byName (TensorN.vacK k) (TensorN.vacHD b.K k) (TensorN.vacRST k), k ^ 3 / (2 * π ^ 2) * 8⟩',n,'C82')
m(P,'modes','byName (ScalarN.vacK b.pot b.K k) (ScalarN.vacHD b.pot b.K k) (ScalarN.vacRST k), k ^ 3','byName (ScalarN.vacK b.pot b.K k) (ScalarN.vacHD b.pot b.K k) (ScalarN.vacRST k), k ^ 2',n,'C82')
m(P,'modes','byName (ScalarT.vacK b.pot b.K k) (ScalarT.vacHD b.pot b.K k) (ScalarT.vacRST k), k ^ 3 / (2 * π ^ 2)⟩','byName (ScalarT.vacK b.pot b.K k) (ScalarT.vacHD b.pot b.K k) (ScalarT.vacRST k), k ^ 3 / (2 * π)⟩',n,'C82')
m(P,'modes','⟨TensorN.frequency2 b.K k, TensorN.damping b.K,\n        byName (TensorN.vacK k) (TensorN.vacHD b.K k) (TensorN.vacRST k)','⟨TensorN.frequency2 b.K k, TensorN.damping b.K,\n        byName (ScalarN.vacK b.pot b.K k) (TensorN.vacHD b.K k) (TensorN.vacRST k)','C82: tensor modes use tensor vacua','C82')
m(P,'power','‖u‖ ^ 2 * norm','‖u‖ * norm',n,'C82')
m(P,'coefficients','(cdiv (uk * dy2 - duk * y2) (y1 * dy2 - dy1 * y2),','(cdiv (uk * dy2 + duk * y2) (y1 * dy2 - dy1 * y2),',c,'C82')
m(P,'lincomb','a.bind fun a => b.bind fun b => x.bind fun x => y.map fun y => a * x + b * y','a.bind fun a => b.bind fun b => x.bind fun x => y.map fun y => a * x - b * y',c,'C82')
d='C83: the approximation has the stated order'
m(A,'Ps0','p.H ^ 2 / (8 * π ^ 2 * p.e1)','p.H ^ 2 / (4 * π ^ 2 * p.e1)','C83: amplitude of the slow-roll spectra','C83')
m(A,'Pt0','2 * (p.H / π) ^ 2','(p.H / π) ^ 2','C83: amplitude of the slow-roll spectra','C83')
m(A,'cgsS1','1 + (4 * a - 2) * p.e1','1 + (4 * a + 2) * p.e1',d,'C83')
m(A,'cgsT1','1 + 2 * (a - 1) * p.e1','1 + 2 * (a + 1) * p.e1',d,'C83')
m(A,'steS','1 - 2 * (C + 1) * p.e1 - C * p.e2','1 - 2 * C * p.e1 - C * p.e2',d,'C83')
m(A,'steT','1 - 2 * (C + 1) * p.e1 + (2 * C ^ 2','1 + 2 * (C + 1) * p.e1 + (2 * C ^ 2',d,'C83')
m(A,'cgsS','  | 2, p => cgsS1 p + cgsS2 p\n','  | 2, p => cgsS1 p\n',d,'C83')
m(A,'cgsS','  | 0, _ => 1\n  | 1, p => cgsS1 p\n','  | 0, _ => 2\n  | 1, p => cgsS1 p\n','C83: order 0 is the leading value','C83')
