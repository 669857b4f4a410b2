M = []
def m(file, definition, old, new, claim, props, **k):
    M.append(dict(id='R%03d' % (len(M)+1), file='Model/'+file+'.lean', definition=definition, old=old, new=new, claim=claim, props=props.split(), **k))
P='Perturbations'
m(P,'kappa2','k ^ 2 + k * K * (K + 1) - 3 * K','k ^ 2 + k * K * (K + 1) + 3 * K','C49-C51: eigenvalue','C49 C50 C51')
m(P,'ScalarT.shared','K * p.dphi ^ 2 / (2 * p.H ^ 2))','K * p.dphi ^ 2 / p.H ^ 2)','C49','C49')
m(P,'ScalarT.terms','- K * exp (-2 * p.N) / p.H ^ 2\n','+ K * exp (-2 * p.N) / p.H ^ 2\n','C49','C49')
m(P,'ScalarT.damping','(3 * p.H + shared K k p * terms pot K p * p.H) / 2','3 * p.H + shared K k p * terms pot K p * p.H','C49/C50: factor 2 convention of oscode','C49 C50')
m(P,'ScalarT.frequency2','(1 + shared K k p * terms pot K p)','(shared K k p * terms pot K p)','C49','C49')
m(P,'ScalarN.damping2','- xi p\n','\n','C49/C50','C49 C50')
m(P,'ScalarN.frequency2','kappa2 k K / (exp (2 * p.N) * p.H ^ 2)','kappa2 k K / (exp (2 * p.N) * p.H)','C49/C50','C49 C50')
m(P,'ScalarN.xi','p.Omega_K + p.dphi ^ 2 / 2 - 3','p.Omega_K + p.dphi ^ 2 / 2 + 3','C49/C50','C49 C50')
m(P,'TensorT.frequency2','(k ^ 2 + k * K * (K + 1) + 2 * K) * exp (-2 * p.N)\n/--','(k ^ 2 + k * K * (K + 1) - 2 * K) * exp (-2 * p.N)\n/--','C49','C49')
m(P,'TensorT.damping','3 * p.H / 2','3 * p.H','C49/C50','C49 C50')
m(P,'TensorN.damping','(3 - p.dphi ^ 2 / 2 +','(3 + p.dphi ^ 2 / 2 +','C49/C50','C49 C50')
m(P,'TensorN.frequency2','* exp (-2 * p.N) / p.H ^ 2\n/-- efolds/perturbations.py:164','* exp (-2 * p.N) / p.H\n/-- efolds/perturbations.py:164','C49/C50','C49 C50')
m(P,'ScalarT.vacK','some (R, (-Complex.I * k / a - (dz_z : ℝ)) * R)\n','some (R, (Complex.I * k / a - (dz_z : ℝ)) * R)\n','C51: positive-frequency','C51')
m(P,'ScalarT.vacRST','some (R, -Complex.I * k / a * R)','some (R, -Complex.I * k * R)','C51: Wronskian','C51')
m(P,'TensorT.vacK','2 / (√(2 * k) : ℝ) / a\n    some (h, (-Complex.I * k / a - (p.H','1 / (√(2 * k) : ℝ) / a\n    some (h, (-Complex.I * k / a - (p.H','C51: tensor normalisation','C51')
m(P,'TensorN.vacHD','k ^ 2 / (a * p.H) ^ 2 - 2 - dH / p.H','k ^ 2 / (a * p.H) ^ 2 - 2 + dH / p.H','C51: HD frequency','C51')
m(P,'TensorT.vacHD','k ^ 2 / a ^ 2 - 2 * p.H ^ 2 - dH','k ^ 2 / a ^ 2 - p.H ^ 2 - dH','C51: HD frequency','C51')
m(P,'ScalarN.radicand','- (1 + dH / p.H) * dz_z - d2z_z','- (1 - dH / p.H) * dz_z - d2z_z','C51: HD frequency','C51')
m(P,'ScalarT.radicand','+ 2 * dH_H ^ 2\n','+ dH_H ^ 2\n','C51: z\'\'/z','C51')
m(P,'ScalarN.vacK','let dz_z := d2phi / p.dphi + 1\n  if','let dz_z := d2phi / p.dphi - 1\n  if','C51','C51')
m(P,'modes','byName (TensorN.vacK k) (TensorN.vacHD b.K k) (TensorN.vacRST k), k ^ 3 / (2 * π ^ 2) * 2⟩','byName (TensorN.vacK k) (TensorN.vacHD b.K k) (TensorN.vacRST k), k ^ 3 / (2 * π ^ 2)⟩','C50/C51: tensor norm','C49 C50 C51 C48')
m(P,'byName','if vac = "k" then some k else if vac = "HD" then some HD','if vac = "k" then some k else if vac = "HD" then some RST','C51/C53: vacuum dispatch','C51 C53 C48 C47')
m(P,'coefficients','cdiv (uk * dy2 - duk * y2) (y1 * dy2 - dy1 * y2)','cdiv (uk * dy2 - duk * y2) (y1 * dy2 + dy1 * y2)','C47','C47')
m(P,'coefficients','cdiv (uk * dy1 - duk * y1) (y2 * dy1 - dy2 * y1)','cdiv (uk * dy1 - duk * y1) (y1 * dy2 - dy1 * y2)','C47: sign of b','C47')
m(P,'lincomb','y.map fun y => a * x + b * y','y.map fun y => a * x - b * y','C47/C48','C47 C48')
m(P,'power','‖u‖ ^ 2 * norm','‖u‖ * norm','C48/C51','C47 C48 C51')
m(P,'nanmedian','else (s[s.length / 2 - 1]?)','else (s[s.length / 2 + 1]?)','C48','C48')
m(P,'combine','(nanmedian (last5 one.sol)) (nanmedian (last5 two.sol))','(nanmedian (last5 two.sol)) (nanmedian (last5 one.sol))','C48: solutions swapped','C48')
m(P,'ab','one.sol.head?, one.dsol.head?','one.sol.getLast?, one.dsol.head?','C47/C48: initial values','C47 C48')
m(P,'begTest','log fac < log k - logaH','log k - logaH < log fac','C52','C52')
m(P,'endTest','log fac < logaH - log k','log fac ≤ logaH - log k','C52: boundary','C52')
m(P,'idxBeg','getLast?).getD 0','head?).getD 0','C52: last subhorizon point','C52')
m(P,'idxEnd','if pe.N - pb.N < 10 then','if pe.N - pb.N ≤ 10 then','C52: boundary 10 e-folds','C52')
m(P,'idxEnd','decide','decide','noop','C52') if False else None
m(P,'idxEnd','(argwhere (fun p => 10 < p.N - pb.N) b.pts).head?','(argwhere (fun p => 10 < p.N - pb.N) b.pts).getLast?','C52','C52')
m(P,'slice','(l.drop beg).take (stop + 1 - beg)','(l.drop beg).take (stop - beg)','C52: off by one at the end','C52')
m(P,'oscCall','ti := pb.x, tf := pe.x','ti := pe.x, tf := pb.x','C52: limits swapped','C52')
m(P,'oscCall','g := (slice b.pts beg stop).map m.damping','g := b.pts.map m.damping','C52: lengths differ','C52')
m(P,'csqrt','Complex.I * (√(-x) : ℝ)','(√(-x) : ℝ)','C49/C52: imaginary frequency','C49 C52 C50')
m(P,'runs','let r3 ← oscCall osc b kw beg stop t y0.2.2.1 y0.2.2.2','let r3 ← oscCall osc b kw beg stop t y0.1 y0.2.1','C47/C48: dependent tensor solutions','C47 C48 C53')
m(P,'pick','l[2 * m + i]?','l[m + 2 * i]?','C48/C53: solutions mixed up between modes','C48 C53 C47')
m(P,'oneMode','if k < 1 ∧ b.K = 1 ∧','if k ≤ 1 ∧ b.K = 1 ∧','C54: boundary','C54')
m(P,'oneMode','∧ kw.drop_closed_large_scales = true then Ps.set "RST"','then Ps.set "RST"','C54: option ignored','C54')
m(P,'oneMode','match pick rs 0 0, pick rs 0 1, pick rs 1 0, pick rs 1 1 with','match pick rs 1 0, pick rs 1 1, pick rs 0 0, pick rs 0 1 with','C48/C53: scalar and tensor swapped','C48 C53')
m(P,'storeAll','storeAll i m rest { P with P_s := s, P_t := t }','storeAll i m rest { P with P_s := s, P_t := s }','C53: tensor = scalar','C53')
m(P,'store','arr.set i v','arr.set (i + 1) v','C53: shifted','C53')
m(P,'loop','loop osc b kw (i + 1) ks P\'','loop osc b kw i ks P\'','C53: index not advanced','C53')
m(P,'PPS.init','k * SI.K_STAR / exp b.logaH_star','k / SI.K_STAR / exp b.logaH_star','C53: k_iMpc','C53')
m(P,'solveOscode1','| .ok _ => .ok m','| .ok _ => .ok { m with P_t := m.P_s }','C53: single mode','C53')
W='Wrapper'
m(W,'scalar_pk','n_runrun / 6','n_runrun / 3','C57','C57')
m(W,'tensor_pk','n_t_run / 2','n_t_run','C57','C57')
m(W,'resolve','p.n_t.getD (-r / 8 * (2 - n_s - r / 8))','p.n_t.getD (-r / 8 * (2 + n_s - r / 8))','C57: consistency relation','C57')
m(W,'resolve','some (r / 8 * (r / 8 + n_s - 1))','some (r / 8 * (r / 8 + n_s))','C57: running consistency','C57')
m(W,'resolve','if 0 < A_t ∧ r ≠ A_t / A_s then','if False then','C57: mismatch accepted','C57')
m(W,'resolve','if 0 < A_t then A_t else if 0 < r then r * A_s else A_t','if 0 < A_t then A_t else if 0 < r then r else A_t','C57','C57')
m(W,'resolve','let n_s := p.n_s.getD 1','let n_s := p.n_s.getD 0','C57: default n_s','C57')
m(W,'logspace','(10 : ℝ) ^ (a + (b - a) * i / (num - 1 : ℕ))','(10 : ℝ) ^ (a + (b - a) * i / (num : ℕ))','C57: last point of the grid','C57')
m(W,'modulate','List.zipWith (fun k P => P * m k) ks s.Pkt⟩','s.Pkt⟩','C57: tensor not modulated','C57')
m(W,'cutoffPPS','1 - cutoff','1 + cutoff','C57','C57')
m(W,'lin_oscillations','cos (w_lin * (k / k_pivot)','cos (w_lin * log (k / k_pivot)','C57','C57')
m(W,'cutoff','exp (-(k / k_cut) ^ s_cut)','exp (-(k_cut / k) ^ s_cut)','C57','C57')
m(W,'met','|x - target| < 1 / 10 ^ 14 + 1 / 10 ^ 6 * target','|x - target| < 1 / 10 ^ 14 + 1 / 10 ^ 3 * target','C58: tolerance','C58')
m(W,'rescale','(target / x) ^ (1 / 4 : ℝ) * L','(x / target) ^ (1 / 4 : ℝ) * L','C58','C58')
m(W,'shoot','| 0 => .error (.primpyError "`A_s` shooting failed.")','| 0 => .ok b','C58: not converged but returned','C58')
m(W,'slowRoll','match shoot u d p 10 (some Lambda0)','match shoot u d p 11 (some Lambda0)','C58: number of passes','C58')
m(W,'slowRoll','∨ nanLt (d.DeltaN_reh b) (some 0)','','C58: check dropped','C58')
m(W,'slowRoll','nanLe (some 1) (d.w_reh b)','nanLt (some 1) (d.w_reh b)','C58: boundary','C58')
m(W,'pass','if d.success b = false then .error (.primpyError "StepSizeError")\n    else if','if','C58','C58')
m(W,'pass','rho_end_GeV u d b < rho then','rho < rho_end_GeV u d b then','C58/C59','C58 C59')
m(W,'calibrateStep','min N_star (d.N_tot b - 0.1)','min N_star (d.N_tot b)','C58','C58')
m(W,'calibrateStep','(d.setNs b n_s rho N\').map fun b => (b, N\')','(d.setNs b n_s rho N\').map fun b => (b, N_star)','C58: N_star drift','C58')
m(W,'rho_end_GeV','(1 / 3 * (1 / 2 *','((1 / 2 *','C59: factor 1/3 (finding would be false)','C59')
V='Version'
m(V,'unitIncremented','(a.micro = 0 ∧ a.minor = b.minor + 1 ∧ a.major = b.major)','(a.minor = b.minor + 1 ∧ a.major = b.major)','C60','C60')
m(V,'unitIncremented','decide (b.base < a.base) && decide (p.2 = 0)','decide (p.2 = 0)','C60','C60')
m(V,'bumped','| "minor" => [v.major, v.minor + 1, 0]','| "minor" => [v.major, v.minor + 1, v.micro]','C60','C60')
m(V,'bumped','updateType.getD "micro"','updateType.getD "minor"','C60: default','C60')
m(V,'afterLast','t.reverse.takeWhile (· ≠ c)).reverse','t.takeWhile (· ≠ c))','C60: before the first','C60')
m(V,'check','if unitIncremented c p then .ok 0 else .ok 1','if unitIncremented p c then .ok 0 else .ok 1','C60: swapped','C60')
m(V,'check','if ¬ V.eqv c r then .ok 1\n    else','','C60: README not compared','C60')
m(V,'bump','readme.map (replaceAll current new)','readme','C60: README not updated','C60')
m(V,'replaceAll','t.drop (pat.length - 1)','t.drop pat.length','C60: eats one character','C60')
m(V,'trim','(r.reverse.dropWhile (· = 0)).reverse','r','C60: 1.0 == 1.0.0','C60')
M=[x for x in M if x]
_T = {'R038': ('C52', ['C52_coefficients']), 'R067': ('C58', ['C58_integrated']), 'R081': ('C60', ['C60_same_release'])}
for _m in M:
    if _m['id'] in _T: _m['props'] = [_T[_m['id']][0]]; _m['tightened'] = _T[_m['id']][1]
