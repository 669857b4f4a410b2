import Verif.Props.C70
import Verif.Props.C99
import Verif.Props.C100
import Verif.Props.C98
import Verif.Model.WrapperRun

/-!
# C101: the Cobaya wrapper reports a textbook universe
-/

namespace Primpy
open Real Set Spec Bunch Approx Ctor Wrap

/-! ## Specification -/

/-- The flat universe of a field that starts at `φ0` at time `x0` on the slow-roll trajectory, on the times `S`: cosmic time, `φ̇ = v`, `v̇ = -3Hv - V'(φ)`, `Ṅ = H > 0`,
`3H² = v²/2 + V(φ)`; `N = 0` at `x0`, and `v = -V'(φ0)/(3h)` with `h = √(V(φ0)/3)`.  The field stays in `D`. -/
structure SlowRollUniverse (V : ℝ → ℝ) (D S : Set ℝ) (x0 φ0 : ℝ) (φ v N H : ℝ → ℝ) : Prop where
  equations : Textbook (fun _ => 1) 0 V S φ v N H
  smooth : ∀ x ∈ S, φ x ∈ D
  field : φ x0 = φ0
  efolds : N x0 = 0
  velocity : v x0 = -deriv V φ0 / (3 * √(V φ0 / 3))

/-- Whatever the wrapper asks `solve` for, if it returns and calls the result a success, then the integration was faithful (`Launched`, C98). -/
def FaithfulRuns (o : PotOracles) (ivp : SolveIvp) (fmtE : ℝ → String) (success : Dict Attr → Bool) (c : PotClass) (kwp : Kwargs) : Prop :=
  ∀ phi L pot ic b s, construct o c (runPot L kwp) = .ok pot → SlowRollIC.init (runEqs pot) (runIC phi) = .ok ic →
    solve ivp fmtE (runEqs pot) (ICCall.slowRoll (runEqs pot) ic) [] runKw = .ok (b, s) → success b = true →
    ∃ S t Y x1 z, Launched ivp (runEqs pot) (c.domain (value (runPot L kwp))) S (ICCall.slowRoll (runEqs pot) ic) runKw t Y (10 ^ 5) x1 z

namespace C101

section
variable {ivp : SolveIvp} {fmtE : ℝ → String} {E : Eqs} {D S : Set ℝ} {ic : ICCall} {kw : SolveKw} {t : List ℝ} {Y : ℝ → ℕ → ℝ} {x0 x1 : ℝ}
  (h : Solved ivp E D S ic kw t Y x0 x1) {o : Dict Attr} {s : InflSol} (hs : solve ivp fmtE E ic [] kw = .ok (o, s)) {sr : SlowRoll} (hsr : slowRoll E o s = some sr)
  {cs : CalState} (hcs : Shooting.calState E.K s = some cs)
include h hs hsr hcs

/-- the grid points of the spectra, whatever calibrations came before -/
theorem crosses {K : Type} {u : SI} {spline : K → List (ℝ × ℝ) → ℝ → ℝ} {p q : PSol} {a : CalArgs} {m : String} {kws : K} {n : ℕ} (hp : SameSolution cs p.st)
    (hb : a.background = none) (hok : calibrateP u spline sr p a m kws n = .ok q) :
    ∃ κ xb xe star, q.st.cal = some κ ∧ ReportedPhase E Y x0 x1 s xb xe ∧ 0 < κ.a0_Mpc ∧
      ((∀ x ∈ Ioo xb xe, 0 < E.accel Y x) → ∃ x ∈ t, ∃ z ∈ t, xb < x ∧ x < z ∧ z < xe ∧ E.efolds Y x ≤ E.efolds Y xe - κ.N_star ∧ E.efolds Y xe - κ.N_star ≤ E.efolds Y z ∧
        E.aH Y x ≤ SI.K_STAR * κ.a0_Mpc ∧ SI.K_STAR * κ.a0_Mpc ≤ E.aH Y z) ∧
      (∀ i x, FreshPoint E Y t xb xe i x → Crosses sr q i (E.aH Y x / κ.a0_Mpc) (C94.along E Y x) star) ∧
      ∀ I, cs.infl = some I → I.mask.length = t.length ∧ ∀ (i : ℕ) z, t[i]? = some z → (I.mask[i]? = some true ↔ z ∈ Ioo xb xe) := by
  obtain ⟨c, y0, q', res, y, te, ye, hic, hq, hivp, sh, hres, hI, hpl⟩ := h.run
  obtain ⟨o', s', hs', sN, sL, hsr', -, hph⟩ := C94.arrays ivp fmtE hic hq hivp sh hres h.isOpen h.convex h.solution h.dV h.start h.inside h.density hI hpl h.clean
  rw [hs] at hs'
  obtain ⟨rfl, rfl⟩ := Prod.mk.inj (Except.ok.inj hs')
  rw [hsr] at hsr'
  have hsr' := Option.some.inj hsr'
  subst hsr'
  have hcal := C94.calibrateP_ok hb hok
  obtain ⟨eK, eN, eL, eI⟩ := C92.calState_ok sL hcs
  rw [sN] at eN
  have eLp : p.st.logaH = t.map fun x => log (E.aH Y x) := by rw [hp.logaH]; exact eL
  obtain ⟨J, I', κ, hJ, hInf', hκ, hlog, hmask⟩ := C94.calibrated_mask hb hcal eLp
  have tS : ∀ {l : ℕ} {v : ℝ}, t[l]? = some v → v ∈ S := fun hv => h.inside (hI.inside _ (List.mem_of_getElem? hv))
  obtain ⟨I, hInf, hIJ⟩ : ∃ I, cs.infl = some I ∧ (J = I ∨ J = { I with mask := andMask I.mask (firstOccurrence cs.logaH) }) := by
    rcases hp.infl with k | ⟨I, k1, k2⟩
    · exact ⟨J, k ▸ hJ, .inl rfl⟩
    · rw [hJ] at k2
      exact ⟨I, k1, .inr (Option.some.inj k2)⟩
  obtain ⟨hm, hIe⟩ := eI I hInf
  obtain ⟨xb, xe, h0b, hbe, he1, hNb, hNe, ⟨hpos, hneg, hbd, hz⟩, hlen, hsel⟩ := hph _ hm
  have hJN : J.N_end = E.efolds Y xe := by
    rw [hNe] at hIe
    rcases hIJ with rfl | rfl <;> exact (Option.some.inj hIe).symm
  have hJs : ∀ k : ℕ, J.mask[k]? = some true → I.mask[k]? = some true := by
    rcases hIJ with rfl | rfl
    · exact fun _ hk => hk
    · intro k hk
      simp only [andMask, List.getElem?_zipWith] at hk
      cases hIk : I.mask[k]? with
      | none => rw [hIk] at hk; simp at hk
      | some b =>
        rw [hIk] at hk
        cases hfk : (firstOccurrence cs.logaH)[k]? with
        | none => rw [hfk] at hk; simp at hk
        | some b' =>
          rw [hfk] at hk
          simp only [Option.some.injEq, Bool.and_eq_true] at hk
          rw [hk.1]
  have hJm : J.mask.length = t.length ∧ ∀ k : ℕ, (∀ l v w, l < k → t[l]? = some v → t[k]? = some w → log (E.aH Y v) ≠ log (E.aH Y w)) → I.mask[k]? = some true → J.mask[k]? = some true := by
    rcases hIJ with rfl | rfl
    · exact ⟨hlen, fun _ _ hk => hk⟩
    · refine ⟨by simp [andMask, firstOccurrence, eL, hlen], fun k hfr hk => ?_⟩
      have hkt : k < t.length := by rw [← hlen]; exact (List.getElem?_eq_some_iff.1 hk).1
      obtain ⟨w, hw⟩ : ∃ w, t[k]? = some w := ⟨_, List.getElem?_eq_getElem hkt⟩
      simp only [andMask, firstOccurrence, List.getElem?_zipWith, List.getElem?_map, List.length_map, eL, List.getElem?_range hkt, hk, hw, Option.map_some]
      simp only [Option.some.injEq, Bool.and_eq_true, decide_eq_true_eq, true_and]
      intro l hl he
      obtain ⟨v, hv⟩ : ∃ v, t[l]? = some v := ⟨_, List.getElem?_eq_getElem (by omega)⟩
      rw [hv] at he
      simp only [Option.map_some, Option.some.injEq] at he
      exact hfr l v w hl hv hw he
  have hmask := hmask hJm.1
  have eNp : p.st.N = t.map (E.efolds Y) := by rw [hp.N]; exact eN
  have hK' : p.st.K = 0 ∨ p.st.K = 1 ∨ p.st.K = -1 := by rw [hp.K, eK]; exact h.curvature
  have ha0 : 0 < κ.a0_Mpc := by
    obtain ⟨I₁, κ₁, g, -, h1, -, h2, -⟩ := calibrated_grid u (⟨[], fun _ _ => ⟨0, 0, 0, 0, 0, 0, 0, 0, 0⟩⟩ : SlowRoll) hK' hcal
    rw [hκ] at h1
    rw [Option.some.inj h1]; exact h2
  refine ⟨κ, xb, xe, starPoint (t.map (E.efolds Y)) (t.map (C94.along E Y)) I'.mask κ.N_cross_, hκ, ⟨⟨h0b, hbe, he1⟩, hNb, hNe, hpos, hneg, hbd, hz⟩, ha0, fun hacc => ?_, fun i x hf => ?_, fun I' hI' => by
    rw [hInf] at hI'
    rw [← Option.some.inj hI']
    exact ⟨hlen, hsel⟩⟩
  · obtain ⟨mN, cN, d, hd, hdpos⟩ := C92.facts h.isOpen h.convex h.solution h.dV
    have hph : Icc xb xe ⊆ S := fun x hx => h.inside ⟨h0b.trans hx.1, hx.2.trans he1⟩
    have maH : StrictMonoOn (E.aH Y) (Icc xb xe) := strictMonoOn_of_deriv_pos (convex_Icc _ _) (fun x hx => (hd x (hph hx)).continuousAt.continuousWithinAt) fun x hx => by
      rw [(hd x (hph (interior_subset hx))).deriv]
      rw [interior_Icc] at hx
      exact hdpos x (hph ⟨hx.1.le, hx.2.le⟩) (hacc x hx)
    have mL : StrictMonoOn (fun x => log (E.aH Y x)) (Icc xb xe) := fun p hp' q' hq' hpq => log_lt_log (C92.aH_pos h.solution (hph hp')) (maH hp' hq' hpq)
    obtain ⟨J', hJ', k1, -, k3, -, i, j, x, z, -, c2, c3, c4, c5, c6, -, c8, c9, c10, c11, -⟩ :=
      C92.cal_cell (P := Ioo xb xe) (fN := E.efolds Y) (fL := fun x => log (E.aH Y x)) hK' hb hcal hκ eNp eLp h.sorted
        (fun J' hJ' => by
          rw [hJ] at hJ'
          rw [← Option.some.inj hJ']
          exact ⟨hJm.1, fun i z hz hh => (hsel i z hz).1 (hJs i hh)⟩)
        (mN.mono (Ioo_subset_Icc_self.trans hph)) (mL.mono Ioo_subset_Icc_self)
    rw [hJ] at hJ'
    rw [← Option.some.inj hJ', hJN] at k1
    rw [← Option.some.inj hJ'] at c5 c6
    have e : E.efolds Y xe - κ.N_star = κ.N_cross_ := by rw [k1]; ring
    rw [e, ← k3]
    refine ⟨x, List.mem_of_getElem? c2, z, List.mem_of_getElem? c3, ((hsel i x c2).1 (hJs i c5)).1, c4, ((hsel j z c3).1 (hJs j c6)).2, c8, c9, ?_, ?_⟩
    · rw [← log_le_iff_le_exp (C92.aH_pos h.solution (tS c2))]; exact c10
    · rw [← le_log_iff_exp_le (C92.aH_pos h.solution (tS c3))]; exact c11
  have fr : ∀ l v w, l < i → t[l]? = some v → t[i]? = some w → log (E.aH Y v) ≠ log (E.aH Y w) := fun l v w hl hv hw he => by
    refine hf.2.2 l v hl hv ?_
    have hx := hf.1
    rw [hx] at hw
    rw [← Option.some.inj hw] at he
    rw [← exp_log (C92.aH_pos h.solution (tS hv)), ← exp_log (C92.aH_pos h.solution (tS hx)), he]
  refine ⟨I', κ, log (E.aH Y x), hInf', hκ, (hmask i).2 ⟨hJm.2 i fr ((hsel i x hf.1).2 hf.2.1), fr⟩, ?_, ?_, ?_, rfl⟩
  · rw [hlog, eLp, List.getElem?_map, hf.1]; rfl
  · show (t.map (C94.along E Y))[i]? = _
    rw [List.getElem?_map, hf.1]; rfl
  · rw [exp_log (C92.aH_pos h.solution (tS hf.1))]

omit hsr hcs in
/-- the values recorded at the end of inflation are those of the trajectory there -/
theorem ends {xe : ℝ} (hxe : xe ∈ Icc x0 x1) (hNe : s.fin.N_end = some (E.efolds Y xe)) :
    s.fin.phi_end = some (Y xe 0) ∧ s.fin.V_end = some (E.pot.V (Y xe 0)) ∧ s.fin.H_end = some (E.hubble Y xe) := by
  obtain ⟨c, y0, q, res, y, te, ye, hic, hq, hivp, sh, hres, hI, hp⟩ := h.run
  have hE := C91.shipped h.solution
  obtain ⟨o2, raw, hs2, hg, hev, -⟩ := C90_solve ivp fmtE E hE ic kw c y0 q hic hq hivp sh
  rw [hs] at hs2
  obtain ⟨-, hraw⟩ := Prod.mk.inj (Except.ok.inj hs2)
  have hQ : ∀ x, (C90.view E).inflating x (C90.trunc E.idx.length Y x) = (C90.view E).inflating x (Y x) := fun x => C91.inflating_congr hE C91.trunc_lt x
  have hQN : ∀ x, (C90.view E).N x (C90.trunc E.idx.length Y x) = E.efolds Y x := fun x => C91.N_congr hE C91.trunc_lt x
  have hQH : ∀ x, (C90.view E).H2 x (C90.trunc E.idx.length Y x) = (C90.view E).H2 x (Y x) := fun x => C92.H2_congr hE C91.trunc_lt x
  have two : 0 < E.idx.length := by
    cases E with
    | other K p => exact absurd rfl (hE K p)
    | T e => have := C91.rowsT e; omega
    | N e => have := C91.rowsN e; omega
  have hQp : ∀ x, (C90.view E).phi x (C90.trunc E.idx.length Y x) = Y x 0 := fun x => by
    have e0 : C90.trunc E.idx.length Y x 0 = Y x 0 := by rw [C90.trunc, if_pos two]
    cases E with
    | other K p => exact absurd rfl (hE K p)
    | T e => exact e0
    | N e => exact e0
  have hf := C90.faithful (raw := raw) (fmtE := fmtE) (C90.Integrated.trunc hI hp hQ) (fun x i hi => by rw [C90.trunc, if_neg (by omega)]) sh hg hev hp
  obtain ⟨mN, -, -⟩ := C92.facts h.isOpen h.convex h.solution h.dV
  have hen : s.fin = postEnd (C90.view E) E.pot.V raw := by rw [hraw]; rfl
  rw [hen] at hNe ⊢
  unfold postEnd at hNe ⊢
  cases hev' : endEvent raw.events with
  | none => rw [hev'] at hNe; cases hNe
  | some p =>
    rw [hev'] at hNe
    dsimp only at hNe ⊢
    obtain ⟨key, hk, l, hl, hp⟩ : ∃ key ∈ ["Inflation_dir-1_term1", "Inflation_dir-1_term0"], ∃ l, raw.events.get? key = some l ∧ p ∈ l := by
      have ft : ∀ key, firstEvent raw.events key = some p → ∃ l, raw.events.get? key = some l ∧ p ∈ l := fun key h => by
        unfold firstEvent at h
        cases hg : raw.events.get? key with
        | none => rw [hg] at h; simp at h
        | some l =>
          rw [hg] at h
          exact ⟨l, rfl, List.mem_of_mem_head? (by simpa using h)⟩
      unfold endEvent at hev'
      cases h1 : firstEvent raw.events "Inflation_dir-1_term1" with
      | some q =>
        rw [h1] at hev'
        dsimp only at hev'
        rw [hev'] at h1
        exact ⟨_, by simp, ft _ h1⟩
      | none =>
        rw [h1] at hev'
        dsimp only at hev'
        exact ⟨_, by simp, ft _ hev'⟩
    have hp2 := hf.events _ l hl p hp
    have hp1 := (hf.ends key hk l hl).sound p.1 (List.mem_map_of_mem hp)
    have hpS : p.1 ∈ S := h.inside ⟨hp1.after.le, hp1.before⟩
    rw [hp2] at hNe ⊢
    have hNe := Option.some.inj hNe
    rw [hQN] at hNe
    have hx : p.1 = xe := mN.injOn hpS (h.inside hxe) hNe
    have hH := C92.H2_pos h.solution p.1 hpS
    have hHn : (C90.view E).Hnan p = some (E.hubble Y p.1) := by
      have : p = (p.1, C90.trunc E.idx.length Y p.1) := Prod.ext rfl hp2
      rw [this]
      simp only [EqView.Hnan, hQH, nanSqrt, if_pos hH.le, Eqs.hubble]
    rw [hHn, hQp, hx]
    exact ⟨rfl, rfl, rfl⟩

end

/-- what the wrapper stores for the `j`-th wavenumber -/
theorem stored {κ : Type} {spline : κ → List (ℝ × ℝ) → ℝ → ℝ} {kw : κ} {ks : List ℝ} {b : Obj} {st : Wrap.State} (h : report spline kw ks b = .ok st) {j : ℕ} {k : ℝ} (hk : ks[j]? = some k)
    {Ps Pt : ℝ} (h1 : ask spline b.raw.sr b.sol Spectrum.s "CGS" 3 kw k = .ok Ps) (h2 : ask spline b.raw.sr b.sol Spectrum.t "CGS" 3 kw k = .ok Pt) :
    st.Pks[j]? = some Ps ∧ st.Pkt[j]? = some Pt := by
  have key : ∀ {f : ℝ → Except PyErr ℝ} {l r : List ℝ} {j : ℕ} {k v : ℝ}, mapE f l = .ok r → l[j]? = some k → f k = .ok v → r[j]? = some v := by
    intro f l
    induction l with
    | nil => intro r j k v _ hk; simp at hk
    | cons x l ih =>
      intro r j k v hr hk hv
      unfold mapE at hr
      split at hr
      · cases hr
      next y hy =>
        split at hr
        · cases hr
        next ys hys =>
          cases hr
          cases j with
          | zero =>
            have : x = k := by simpa using hk
            subst this
            rw [hy] at hv
            cases hv; rfl
          | succ j =>
            show ys[j]? = some v
            simp only [List.getElem?_cons_succ] at hk
            exact ih hys hk hv
  unfold report at h
  unfold ask at h1 h2
  split at h
  · cases h
  next g hg =>
    rw [hg] at h1 h2
    split at h
    · cases h
    next Pks hPks =>
      split at h
      · cases h
      next Pkt hPkt =>
        split at h
        · cases h
        cases h
        exact ⟨key hPks hk h1, key hPkt hk h2⟩

/-- a solution as the wrapper sees it comes from one call of `solve` -/
theorem integrated {o : PotOracles} {ivp : SolveIvp} {fmtE : ℝ → String} {success : Dict Attr → Bool} {c : PotClass} {kwp : Kwargs} {phi : ℝ} {L : Option ℝ} {r : Raw}
    (h : integrate o ivp fmtE success c kwp phi L = .ok r) (hsuc : r.success = true) {I : Infl} (hI : r.infl = some I) :
    ∃ L' pot ic b s cs, construct o c (runPot L' kwp) = .ok pot ∧ SlowRollIC.init (runEqs pot) (runIC phi) = .ok ic ∧
      solve ivp fmtE (runEqs pot) (ICCall.slowRoll (runEqs pot) ic) [] runKw = .ok (b, s) ∧ success b = true ∧ Shooting.calState (runEqs pot).K s = some cs ∧
      Approx.slowRoll (runEqs pot) b s = some r.sr ∧ (fresh r).st = cs ∧ r.phi_end = s.fin.phi_end.getD 0 ∧
      ∃ pl, lastMasked b I.mask = some (r.dphidt_last, pl) ∧ r.V_last = pot.fns.V pl := by
  unfold integrate at h
  cases L with
  | none => cases h
  | some L' =>
    dsimp only at h
    split at h
    · cases h
    next pot hpot =>
      split at h
      · cases h
      next ic hic =>
        split at h
        · cases h
        next b s hs =>
          unfold readOff at h
          split at h
          · next cs sr hcs hsr =>
            have key : cs = ⟨0, cs.N, cs.logaH, cs.H, cs.infl, ⟨none, none, none, none, none, none⟩, none⟩ := by
              have h' := hcs
              unfold Shooting.calState at h'
              obtain ⟨H, -, h'⟩ := Option.bind_eq_some_iff.1 h'
              obtain ⟨L', -, h'⟩ := Option.bind_eq_some_iff.1 h'
              rw [← Option.some.inj h']
              rfl
            split at h
            · cases h; cases hI
            · next J hJ =>
              split at h
              · next v pl hl =>
                have h := Except.ok.inj h
                subst h
                have hIJ : J = I := Option.some.inj hI
                refine ⟨L', pot, ic, b, s, cs, hpot, hic, hs, hsuc, hcs, hsr, ?_, rfl, pl, hIJ ▸ hl, rfl⟩
                rw [key]
                show (⟨0, cs.N, cs.logaH, cs.H, some J, _, _⟩ : CalState) = _
                rw [hJ]
              · split at h
                · cases h
                · cases h; cases hsuc
          · cases h

/-- the last entries that the wrapper reads are the solution at the last grid point of the phase -/
theorem last {ivp : SolveIvp} {fmtE : ℝ → String} {e : InflT} {D S : Set ℝ} {ic : ICCall} {kw : SolveKw} {t : List ℝ} {Y : ℝ → ℕ → ℝ} {x0 x1 : ℝ}
    (h : Solved ivp (.T e) D S ic kw t Y x0 x1) {o : Dict Attr} {s : InflSol} (hs : solve ivp fmtE (.T e) ic [] kw = .ok (o, s)) {m : List Bool} {v pl : ℝ}
    (hl : lastMasked o m = some (v, pl)) :
    ∃ (i : ℕ) (x : ℝ), t[i]? = some x ∧ m[i]? = some true ∧ v = Y x 1 ∧ pl = Y x 0 ∧ ∀ (j : ℕ) (w : ℝ), t[j]? = some w → m[j]? = some true → w ≤ x := by
  obtain ⟨c, y0, q', res, y, te, ye, hic, hq, hivp, sh, hres, hI, hpl⟩ := h.run
  obtain ⟨o', s', hs', -, -, -, ⟨-, -, -, -, hbp, hbd, -⟩, -⟩ := C94.arrays ivp fmtE hic hq hivp sh hres h.isOpen h.convex h.solution h.dV h.start h.inside h.density hI hpl h.clean
  rw [hs] at hs'
  obtain ⟨rfl, rfl⟩ := Prod.mk.inj (Except.ok.inj hs')
  have hbd := hbd _ rfl
  unfold lastMasked at hl
  rw [hbp, hbd] at hl
  simp only [arr?, Option.bind_some, maskSel_map, List.getLast?_map] at hl
  cases hx : (maskSel t m).getLast? with
  | none => rw [hx] at hl; cases hl
  | some x =>
    rw [hx] at hl
    obtain ⟨rfl, rfl⟩ := Prod.mk.inj (Option.some.inj hl)
    obtain ⟨ys, hys⟩ := List.getLast?_eq_some_iff.1 hx
    obtain ⟨i, hi, hmi⟩ := C92.maskSel_mem (t := t) (m := m) (z := x) (by rw [hys]; simp)
    refine ⟨i, x, hi, hmi, rfl, rfl, fun j w hj hmj => ?_⟩
    have hw : w ∈ maskSel t m := by
      obtain ⟨a1, a2⟩ := List.getElem?_eq_some_iff.1 hj
      obtain ⟨b1, b2⟩ := List.getElem?_eq_some_iff.1 hmj
      unfold maskSel
      refine List.mem_filterMap.2 ⟨(w, true), ?_, rfl⟩
      have : j < (t.zip m).length := by rw [List.length_zip]; omega
      rw [← a2, ← b2, ← List.getElem_zip (h := this)]
      exact List.getElem_mem _
    have hp := h.sorted.sublist (C92.maskSel_sublist t m)
    rw [hys] at hp hw
    rcases List.mem_append.1 hw with k | k
    · exact ((List.pairwise_append.1 hp).2.2 w k x (List.mem_singleton.2 rfl)).le
    · exact (List.mem_singleton.1 k).le

/-- a sampled reheating density that the wrapper let pass -/
theorem allowed {κ : Type} {u : SI} {spline : κ → List (ℝ × ℝ) → ℝ → ℝ} {kw : κ} {solver : PSol → ℝ → ℝ → List ℝ × ℝ} {run : Option ℝ → Except PyErr Raw} {p : SRParams} {L : Option ℝ}
    {N N' : ℝ} {b : Obj} (h : pass u (backend u spline kw solver run) p L N = .ok (b, N')) {r : Raw} (hr : run L = .ok r) {rho : ℝ} (hrho : p.rho_reh_GeV = some rho) :
    rho ≤ (1 / 3 * (1 / 2 * r.dphidt_last ^ 2 + r.V_last) * u.mp_GeV / u.lp_iGeV ^ 3) ^ (1 / 4 : ℝ) := by
  obtain ⟨d, hd⟩ : ∃ d, d = backend u spline kw solver run := ⟨_, rfl⟩
  have key : ∀ b0, d.solve L = .ok b0 → rho_end_GeV u d b0 = (1 / 3 * (1 / 2 * r.dphidt_last ^ 2 + r.V_last) * u.mp_GeV / u.lp_iGeV ^ 3) ^ (1 / 4 : ℝ) := fun b0 h0 => by
    rw [hd] at h0 ⊢
    simp only [backend, hr] at h0
    split at h0
    · cases h0
    · rw [← Except.ok.inj h0]; rfl
  rw [← hd] at h
  unfold pass at h
  split at h
  · cases h
  next b0 hb0 =>
    by_cases c1 : d.success b0 = false
    · rw [if_pos c1] at h; cases h
    rw [if_neg c1] at h
    by_cases c2 : ∃ rho, p.rho_reh_GeV = some rho ∧ rho_end_GeV u d b0 < rho
    · rw [if_pos c2] at h; cases h
    rw [← key b0 hb0]
    exact not_lt.1 fun hlt => c2 ⟨rho, hrho, hlt⟩

/-- the slow-roll parameters at a point depend on the history near it -/
theorem slowRollAt_congr {all all' : Prop} (ha : all' → all) {S : Set ℝ} (hS : IsOpen S) {rate rate' H H' p p' : ℝ → ℝ} {P : ℝ → SRPoint} (e1 : ∀ x ∈ S, rate x = rate' x)
    (e2 : ∀ x ∈ S, H x = H' x) (e3 : ∀ x ∈ S, p x = p' x) {x : ℝ} (hx : x ∈ S) (h : SlowRollAt all rate H p P x) : SlowRollAt all' rate' H' p' P x := by
  have ev : ∀ {f g : ℝ → ℝ}, (∀ x ∈ S, f x = g x) → g =ᶠ[nhds x] f := fun h => by
    filter_upwards [hS.mem_nhds hx] with y hy
    exact (h y hy).symm
  obtain ⟨h1, h2, h3, h4, h5, h6, h7, h8, h9⟩ := h
  rw [e1 x hx] at h2 h3 h4 h5 h6 h7 h8 h9
  rw [e2 x hx] at h1 h7 h8 h9
  rw [e3 x hx] at h5 h8 h9
  refine ⟨h1, h2.congr_of_eventuallyEq (ev fun y hy => by rw [e2 y hy]), h3, h4, fun k => (h5 k).congr_of_eventuallyEq (ev fun y hy => by rw [e3 y hy]), fun k => h6 (ha k),
    fun k => (h7 (ha k)).congr_of_eventuallyEq (ev fun y hy => by rw [e2 y hy]), fun k l => (h8 (ha k) l).congr_of_eventuallyEq (ev fun y hy => by rw [e2 y hy, e3 y hy]),
    fun k l => (h9 (ha k) l).congr_of_eventuallyEq (ev fun y hy => by rw [e2 y hy, e3 y hy])⟩

/-- the textbook histories with the requested initial state are the slow-roll universes -/
theorem start {o : PotOracles} {c : PotClass} {kwp : Kwargs} {pot : Pot} (h : construct o c kwp = .ok pot) (hg : c.sensible (value kwp)) {phi : ℝ} {ic : IC}
    (hinit : SlowRollIC.init (runEqs pot) (runIC phi) = .ok ic) {ivp : SolveIvp} {S : Set ℝ} {t : List ℝ} {Y : ℝ → ℕ → ℝ} {x1 : ℝ} {z : ℕ → ℝ}
    (L : Launched ivp (runEqs pot) (c.domain (value kwp)) S (ICCall.slowRoll (runEqs pot) ic) runKw t Y (10 ^ 5) x1 z) (φ v N H : ℝ → ℝ) :
    (runEqs pot).StartsFrom z (10 ^ 5) φ v N H ↔
      φ (10 ^ 5) = phi ∧ N (10 ^ 5) = 0 ∧ v (10 ^ 5) = -deriv (c.formula (value kwp) pot.Lambda) phi / (3 * √(c.formula (value kwp) pot.Lambda phi / 3)) := by
  obtain ⟨k, y0, q, res, y, te, ye, hic, hq, -, hz, -⟩ := L.run
  obtain ⟨F, hF⟩ : ∃ F, F = c.formula (value kwp) pot.Lambda := ⟨_, rfl⟩
  have ht : GivesTracked (runEqs pot) ic := fun h => by cases h
  have eV : (runEqs pot).pot.V phi = F phi := by rw [hF]; exact C97_formula h _
  have three : (runEqs pot).idx.length = 3 := rfl
  obtain ⟨y', hy, hok⟩ := C91.bind_ok hic
  obtain ⟨r0, r1, r2⟩ := C98.rows ht hy
  have hyy : y' = y0 := (Prod.mk.inj (Except.ok.inj hok)).2
  rw [hyy] at r0 r1
  have hI : ic.phi_i = phi ∧ 0 ≤ F phi ∧ ic.H_i = some (√(F phi / 3)) := by
    have hi := hinit
    unfold SlowRollIC.init runIC at hi
    dsimp only at hi
    rw [eV] at hi
    split at hi
    · cases hi
    next hn =>
      have hK : (runEqs pot).K = 0 := rfl
      rw [hK] at hn hi
      rw [mul_zero, exp_zero, mul_one, sub_zero] at hn hi
      rw [← Except.ok.inj hi]
      refine ⟨rfl, by linarith [not_lt.1 hn], ?_⟩
      show mulExpNeg (nanSqrt _) (some 0) = _
      rw [nanSqrt, if_pos (not_lt.1 hn)]
      show some (√(F phi / 3) * exp (-0)) = _
      rw [neg_zero, exp_zero, mul_one]
  have hφ : phi ∈ c.domain (value kwp) := by
    have := C98.field_in L.solution _ L.start
    rw [(hz 0 (by omega)).2, ← Option.some.inj ((hz 0 (by omega)).1 ▸ r0 : some (z 0) = _).symm, hI.1] at this
    exact this
  have hpos : 0 < F phi := by
    refine lt_of_le_of_ne hI.2.1 fun e => ?_
    rw [(hz 1 (by omega)).1, SlowRollIC.dphidt_i, hI.2.2, ← e] at r1
    simp [nanDiv] at r1
  have key := C98_slowroll_start (n := 0) h hg rfl (a := runIC phi) rfl rfl hφ (by
    have hK : (runEqs pot).K = 0 := rfl
    rw [hK, zero_mul, sub_zero]
    rw [hF] at hpos
    exact div_pos hpos three_pos) hinit ht hic (fun i hi => (hz i hi).1) (x0 := 10 ^ 5) (fun e he => by cases he) φ v N H
  refine key.trans (and_congr Iff.rfl (and_congr Iff.rfl ?_))
  show 1 * v _ = 1 * (-deriv _ phi / (3 * √(_ / 3 - 0 * _))) ↔ _
  rw [one_mul, one_mul, zero_mul, sub_zero]
  exact Iff.rfl

end C101

/-! ## The claims -/

section
variable {κ : Type} {u : SI} {spline : κ → List (ℝ × ℝ) → ℝ → ℝ} {kw : κ} {solver : PSol → ℝ → ℝ → List ℝ × ℝ} {o : PotOracles} {ivp : SolveIvp} {fmtE : ℝ → String}
  {success : Dict Attr → Bool} {c : PotClass} {kwp : Kwargs} {ks : List ℝ} {p : SRParams} {st : Wrap.State}

/-- **C101**: whenever `SlowRollPPS.calculate` returns, what it stores describes one universe: that of the potential `c` with the sampled parameters and some amplitude `L`, whose field starts
on the slow-roll trajectory at some `φ0` (at most the parameter `phi0`, if that is sampled).  That universe exists, up to the end of the run, and in it, between two times `xb < xe`,

* the expansion accelerates (`φ̇² ≤ V`) until `xe`, where `φ̇² = V`, and `phi_end`, `V_end`, `H_end` are the values there;
* with `a0 > 0` today's scale factor (per Mpc), at each grid point inside the phase with a new value of `aH`, for the wavenumber `k = aH/a0`, the stored spectra are the third-order slow-roll
  expressions in the parameters `ε₁, ε₂, ε₃` of that universe at that time;
* (if the acceleration does not vanish inside) two grid points of the phase enclose both the pivot scale, `aH ≤ K_STAR a0 ≤ aH`, and the moment `N_star` e-folds before the end;
* a sampled reheating density is at most a third of the energy density `3H²` of that universe (finding 7) at the last grid point of the phase. -/
theorem C101_universe (hsp : Interpolates spline) (hg : ∀ L, c.sensible (value (runPot L kwp))) (hf : FaithfulRuns o ivp fmtE success c kwp)
    (h : calculateRun u spline kw solver o ivp fmtE success c kwp ks p = .ok st) :
    ∃ (L φ0 : ℝ) (pot : Pot) (S : Set ℝ) (t : List ℝ) (x1 : ℝ), construct o c (runPot L kwp) = .ok pot ∧ (∀ q, (kwp.get? "phi0").join = some q → φ0 ≤ q) ∧ Icc (10 ^ 5) x1 ⊆ S ∧ (∀ x ∈ t, x ∈ Icc (10 ^ 5) x1) ∧
      (∃ φ v N H, SlowRollUniverse (c.formula (value (runPot L kwp)) pot.Lambda) (c.domain (value (runPot L kwp))) S (10 ^ 5) φ0 φ v N H) ∧
      ∀ φ v N H, SlowRollUniverse (c.formula (value (runPot L kwp)) pot.Lambda) (c.domain (value (runPot L kwp))) S (10 ^ 5) φ0 φ v N H →
        ∃ (xb xe a0 n : ℝ) (P : ℝ → SRPoint), 10 ^ 5 ≤ xb ∧ xb < xe ∧ xe ≤ x1 ∧
          (∀ x ∈ Icc xb xe, v x ^ 2 ≤ c.formula (value (runPot L kwp)) pot.Lambda (φ x)) ∧ v xe ^ 2 = c.formula (value (runPot L kwp)) pot.Lambda (φ xe) ∧
          st.derived.lookup "phi_end" = some (some (φ xe)) ∧ st.derived.lookup "V_end" = some (some (c.formula (value (runPot L kwp)) pot.Lambda (φ xe))) ∧
          st.derived.lookup "H_end" = some (some (H xe)) ∧
          0 < a0 ∧ (∀ x ∈ S, SlowRollAt True H H v P x) ∧
          (∀ (i j : ℕ) x, t[i]? = some x → x ∈ Ioo xb xe → (∀ (l : ℕ) w, l < i → t[l]? = some w → exp (N w) * H w ≠ exp (N x) * H x) →
            ks[j]? = some (exp (N x) * H x / a0) → 0 < (P x).e1 * cgsS 3 (P x) → 0 < cgsT 3 (P x) →
            st.Pks[j]? = some (H x ^ 2 / (8 * π ^ 2 * (P x).e1) * cgsS 3 (P x)) ∧ st.Pkt[j]? = some (2 * (H x / π) ^ 2 * cgsT 3 (P x))) ∧
          st.derived.lookup "N_star" = some (some n) ∧
          ((∀ x ∈ Ioo xb xe, v x ^ 2 < c.formula (value (runPot L kwp)) pot.Lambda (φ x)) → ∃ x ∈ t, ∃ z ∈ t, xb < x ∧ x < z ∧ z < xe ∧ N x ≤ N xe - n ∧ N xe - n ≤ N z ∧
            exp (N x) * H x ≤ SI.K_STAR * a0 ∧ SI.K_STAR * a0 ≤ exp (N z) * H z) ∧
          ∀ rho, p.rho_reh_GeV = some rho → ∃ x ∈ t, xb < x ∧ x < xe ∧ (∀ w ∈ t, xb < w → w < xe → w ≤ x) ∧ rho ≤ (H x ^ 2 * u.mp_GeV / u.lp_iGeV ^ 3) ^ (1 / 4 : ℝ) := by
  unfold calculateRun at h
  split at h
  · cases h
  obtain ⟨Lam, φ0, b, hφ0, hb, hr⟩ : ∃ Lam φ0 b, (∀ q, (kwp.get? "phi0").join = some q → φ0 ≤ q) ∧
      slowRoll u (backend u spline kw solver (integrate o ivp fmtE success c kwp φ0)) p Lam = .ok b ∧ report spline kw ks b = .ok st := by
    unfold calculate at h
    split at h
    · cases h
    split at h
    · cases h
    next phi_i _ =>
      split at h
      · cases h
      next b hb =>
        refine ⟨_, _, b, fun q hq => ?_, hb, h⟩
        rw [hq]
        unfold clampPhi
        dsimp only
        split
        · exact le_rfl
        · next hlt => exact not_lt.1 hlt
  obtain ⟨st', -, -, hst, -, hlook, -⟩ := report_ok ks hb
  rw [hr] at hst
  have hst := Except.ok.inj hst
  subst hst
  obtain ⟨L, Nq, N', I, p0, a, hpass, -, -, hrun, hI, hist, -, hcalP, hcal, -, hbg, -⟩ := final hb
  obtain ⟨r, I', p1, a', hrun', hraw, hsuc, -⟩ := pass_last hpass
  subst hraw
  obtain ⟨L', pot, ic, bs, s, cs, hpot, hinit, hs, hsb, hcs, hsr, hfr, hpe, pl, hlast, hVl⟩ := C101.integrated hrun hsuc hI
  obtain ⟨S, t, Y, x1, z, hL⟩ := hf φ0 L' pot ic bs s hpot hinit hs hsb
  have hg := hg L'
  have hE : (runEqs pot).pot = pot.fns := rfl
  have hS := C98.solved hpot hg hE hL
  have hY := C98_equations hpot hg hE hL.isOpen hL.solution
  have hst := fun φ v N H => C101.start hpot hg hinit hL φ v N H
  obtain ⟨k0, y0, q0, res, y, te, ye, -, -, -, hz, -, -, -, hInt, -⟩ := hL.run
  have three : (runEqs pot).idx.length = 3 := rfl
  refine ⟨L', φ0, pot, S, t, x1, hpot, hφ0, hL.inside, hInt.inside, ?_, fun φ v N H hU => ?_⟩
  · have h0 : (runEqs pot).StartsFrom z (10 ^ 5) (fun x => Y x 0) ((runEqs pot).velocity Y) ((runEqs pot).efolds Y) ((runEqs pot).hubble Y) := by
      refine ⟨(hz 0 (by omega)).2, ?_, (hz 2 (by omega)).2⟩
      show 1 * Y _ 1 = _
      rw [one_mul]; exact (hz 1 (by omega)).2
    obtain ⟨e1, e2, e3⟩ := (hst _ _ _ _).1 h0
    exact ⟨_, _, _, _, hY, C98.field_in hL.solution, e1, e2, e3⟩
  · have hsame := C98.same hpot hg hE hL hU.smooth hU.equations ((hst φ v N H).2 ⟨hU.field, hU.efolds, hU.velocity⟩)
    have hist' : SameSolution cs p0.st := hfr ▸ hist.same
    obtain ⟨cal, xb, xe, star, hκ, hR, ha0, hpiv, hcross, hmask⟩ := C101.crosses hS hs hsr hcs hist' hbg hcalP
    have hxe : xe ∈ Icc (10 ^ 5) x1 := ⟨hR.ordered.1.trans hR.ordered.2.1.le, hR.ordered.2.2⟩
    obtain ⟨n1, n2, n3⟩ := C101.ends hS hs hxe hR.ends
    have inS : ∀ x ∈ Icc xb xe, x ∈ S := fun x hx => hL.inside ⟨hR.ordered.1.trans hx.1, hx.2.trans hR.ordered.2.2⟩
    have xeS := hL.inside hxe
    have tS : ∀ x ∈ t, x ∈ S := fun x hx => hL.inside (hInt.inside x hx)
    have eV : ∀ x ∈ S, (runEqs pot).pot.V (Y x 0) = c.formula (value (runPot L' kwp)) pot.Lambda (φ x) := fun x hx => by
      rw [(hsame x hx).1]; exact C97_formula hpot _
    have eacc : ∀ x ∈ S, (runEqs pot).accel Y x = c.formula (value (runPot L' kwp)) pot.Lambda (φ x) - v x ^ 2 := fun x hx => by
      rw [← eV x hx, ← (hsame x hx).2.1]; rfl
    have eaH : ∀ x ∈ S, (runEqs pot).aH Y x = exp (N x) * H x := fun x hx => by
      obtain ⟨-, -, e3, e4⟩ := hsame x hx
      show exp ((runEqs pot).efolds Y x) * (runEqs pot).hubble Y x = _
      rw [e3, e4]
    have erate : ∀ x ∈ S, (runEqs pot).rate Y x = H x := fun x hx => (hsame x hx).2.2.2
    obtain ⟨g1, g2, g3, -⟩ := C97_derivatives hpot hg
    have dV : IsDerivOn (c.domain (value (runPot L' kwp))) (runEqs pot).pot.V (runEqs pot).pot.dV := hS.dV
    have hfl : ∀ x ∈ S, SlowRollAt True H H v (C94.along (runEqs pot) Y) x := fun x hx =>
      C101.slowRollAt_congr (fun _ => .inr rfl) hL.isOpen erate (fun x hx => (hsame x hx).2.2.2) (fun x hx => (hsame x hx).2.1) hx
        (C94.flow hL.isOpen hL.solution hS.dV hS.d2V hS.d3V x hx)
    -- the mask after the calibrations
    obtain ⟨J, hJ, hJV, hJH⟩ : ∃ J, b.sol.st.infl = some J ∧ J.V_end = (runEqs pot).pot.V (Y xe 0) ∧ J.H_end = (runEqs pot).hubble Y xe := by
      have hcsI : cs.infl = some I := by rw [← hfr]; exact hI
      have hVH : I.V_end = (runEqs pot).pot.V (Y xe 0) ∧ I.H_end = (runEqs pot).hubble Y xe := by
        have h' := hcs
        unfold Shooting.calState at h'
        obtain ⟨H, -, h'⟩ := Option.bind_eq_some_iff.1 h'
        obtain ⟨L', -, h'⟩ := Option.bind_eq_some_iff.1 h'
        have h' := (Option.some.inj h').symm
        rw [h'] at hcsI
        dsimp only at hcsI
        rw [n2, n3] at hcsI
        obtain ⟨b', -, hcsI⟩ := Option.bind_eq_some_iff.1 hcsI
        obtain ⟨e, -, hcsI⟩ := Option.bind_eq_some_iff.1 hcsI
        obtain ⟨n, -, hcsI⟩ := Option.bind_eq_some_iff.1 hcsI
        obtain ⟨v', hv', hcsI⟩ := Option.bind_eq_some_iff.1 hcsI
        obtain ⟨h'', hh', hcsI⟩ := Option.bind_eq_some_iff.1 hcsI
        obtain ⟨lb, -, hcsI⟩ := Option.bind_eq_some_iff.1 hcsI
        obtain ⟨le, -, hcsI⟩ := Option.bind_eq_some_iff.1 hcsI
        obtain ⟨m, -, hcsI⟩ := Option.bind_eq_some_iff.1 hcsI
        rw [← Option.some.inj hcsI]
        exact ⟨(Option.some.inj hv').symm, (Option.some.inj hh').symm⟩
      have hist2 : CalHistory u (fresh b.raw).st b.sol.st := .returned a hist (by intro b I hb'; rw [hbg] at hb'; cases hb') hcal
      rcases hist2.same.infl with k | ⟨I₂, k, k'⟩
      · exact ⟨I, k.trans hI, hVH⟩
      · have : some I₂ = some I := k.symm.trans hI
        have := Option.some.inj this
        subst this
        exact ⟨_, k', hVH⟩
    refine ⟨xb, xe, cal.a0_Mpc, cal.N_star, C94.along (runEqs pot) Y, hR.ordered.1, hR.ordered.2.1, hR.ordered.2.2, fun x hx => ?_, ?_, ?_, ?_, ?_, ha0, hfl, ?_, ?_, fun hacc => ?_, fun rho hrho => ?_⟩
    · have := hR.accelerates x hx
      rw [eacc x (inS x hx)] at this
      linarith
    · have := hR.stops
      rw [eacc xe xeS] at this
      linarith
    · rw [hlook _ (by simp [advertised])]
      simp only [getattr, hJ, Option.map_some, hpe, n1, Option.getD_some]
      rw [(hsame xe xeS).1]
    · rw [hlook _ (by simp [advertised])]
      simp only [getattr, hJ, Option.map_some, hJV]
      rw [eV xe xeS]
    · rw [hlook _ (by simp [advertised])]
      simp only [getattr, hJ, Option.map_some, hJH]
      rw [(hsame xe xeS).2.2.2]
    · intro i j x hx hxI hfresh hk hps hpt
      have hxS := inS x ⟨hxI.1.le, hxI.2.le⟩
      have hc := hcross i x ⟨hx, hxI, fun l w hl hw => by rw [eaH w (tS w (List.mem_of_getElem? hw)), eaH x hxS]; exact hfresh l w hl hw⟩
      rw [eaH x hxS] at hc
      have hH : (C94.along (runEqs pot) Y x).H = H x := (hfl x hxS).hubble
      have hHp := hU.equations.expanding x hxS
      have hpp := pi_pos
      have q1 : 0 < (C94.along (runEqs pot) Y x).H ^ 2 / (8 * π ^ 2 * (C94.along (runEqs pot) Y x).e1) * cgsS 3 (C94.along (runEqs pot) Y x) := by
        rw [hH]
        have e1 : (C94.along (runEqs pot) Y x).e1 ≠ 0 := fun e => by rw [e, zero_mul] at hps; exact lt_irrefl _ hps
        have : H x ^ 2 / (8 * π ^ 2 * (C94.along (runEqs pot) Y x).e1) * cgsS 3 (C94.along (runEqs pot) Y x) =
            H x ^ 2 / (8 * π ^ 2 * (C94.along (runEqs pot) Y x).e1 ^ 2) * ((C94.along (runEqs pot) Y x).e1 * cgsS 3 (C94.along (runEqs pot) Y x)) := by field_simp
        rw [this]
        have : 0 < (C94.along (runEqs pot) Y x).e1 ^ 2 := by positivity
        positivity
      have q2 : 0 < 2 * ((C94.along (runEqs pot) Y x).H / π) ^ 2 * cgsT 3 (C94.along (runEqs pot) Y x) := by rw [hH]; positivity
      have hK : p0.st.K = 0 ∨ p0.st.K = 1 ∨ p0.st.K = -1 := by
        rw [hist'.K, ← hfr]; exact .inl rfl
      obtain ⟨a1, a2⟩ := C74_CGS u spline b.raw.sr hsp p0 b.sol a kw hbg hK i _ _ star 3 (by norm_num) hcalP hc q1 q2
      have := C101.stored hr hk a1 a2
      rwa [hH] at this
    · rw [hlook _ (by simp [advertised])]
      simp only [getattr, hκ, Option.map_some]
    · obtain ⟨x, hx, z, hz, k1, k2, k3, k4, k5, k6, k7⟩ := hpiv fun x hx => by
        rw [eacc x (inS x ⟨hx.1.le, hx.2.le⟩)]
        linarith [hacc x hx]
      rw [(hsame x (tS x hx)).2.2.1, (hsame xe xeS).2.2.1] at k4
      rw [(hsame z (tS z hz)).2.2.1, (hsame xe xeS).2.2.1] at k5
      rw [eaH x (tS x hx)] at k6
      rw [eaH z (tS z hz)] at k7
      exact ⟨x, hx, z, hz, k1, k2, k3, k4, k5, k6, k7⟩
    · have hrej := C101.allowed hpass hrun hrho
      have hcsI : cs.infl = some I := by rw [← hfr]; exact hI
      obtain ⟨-, hsel⟩ := hmask I hcsI
      obtain ⟨i, x, hx, hm, ev, ep, hmax⟩ := C101.last (e := ⟨0, pot.fns, false⟩) hS hs hlast
      have hxt := List.mem_of_getElem? hx
      have hxI := (hsel i x hx).1 hm
      refine ⟨x, hxt, hxI.1, hxI.2, fun w hw w1 w2 => ?_, ?_⟩
      · obtain ⟨j, hj⟩ := List.getElem?_of_mem hw
        exact hmax j w hj ((hsel j w hj).2 ⟨w1, w2⟩)
      · have eVx := eV x (tS x hxt)
        have evx : v x = Y x 1 := by rw [← (hsame x (tS x hxt)).2.1]; rfl
        have hF := hU.equations.friedmann x (tS x hxt)
        have e3 : 1 / 3 * (1 / 2 * b.raw.dphidt_last ^ 2 + b.raw.V_last) = H x ^ 2 := by
          have e4 : pot.fns.V (Y x 0) = c.formula (value (runPot L' kwp)) pot.Lambda (φ x) := eVx
          rw [hVl, ev, ep, e4, ← evx]
          linarith
        rwa [e3] at hrej

end

namespace C101.Ex

/-! ## The hypotheses are met

`SlowRollPPS` with the quadratic potential and only `A_s` and `N_star` sampled; `A_s` such that `Λ = 1`.  The wrapper starts at `φ = √362`, 90 slow-roll e-folds before the end.  The universe
exists for all later times (C76) and its inflation ends at some `t1` (C100); the integrator answers this one request, with four grid points and that end. -/

noncomputable def st (Y : ℝ → ℕ → ℝ) (t : ℝ) : List ℝ := [Y t 0, Y t 1, Y t 2]
noncomputable def τ1 (t1 : ℝ) : ℝ := 10 ^ 5 + (t1 - 10 ^ 5) / 3
noncomputable def τ2 (t1 : ℝ) : ℝ := 10 ^ 5 + 2 * (t1 - 10 ^ 5) / 3
noncomputable def grid (t1 : ℝ) : List ℝ := [10 ^ 5, τ1 t1, τ2 t1, t1]
noncomputable def rows (t1 : ℝ) (Y : ℝ → ℕ → ℝ) : List (List ℝ) := [(grid t1).map fun t => Y t 0, (grid t1).map fun t => Y t 1, (grid t1).map fun t => Y t 2]
noncomputable def te (t1 : ℝ) : List (List ℝ) := [[], [t1]]
noncomputable def ye (t1 : ℝ) (Y : ℝ → ℕ → ℝ) : List (List (List ℝ)) := [[], [st Y t1]]
noncomputable def res (t1 : ℝ) (Y : ℝ → ℕ → ℝ) : Dict Attr := [("t", .arr (grid t1)), ("y", .rows (rows t1 Y)), ("t_events", .tEvents (te t1)), ("y_events", .yEvents (ye t1 Y))]
/-- the one request -/
noncomputable def request (z : ℕ → ℝ) : IvpCall := ⟨some (10 ^ 5), 10 ^ 300, [some (z 0), some (z 1), some (z 2)], runEvents, "DOP853", 2.22045 / 10 ^ 14, 1 / 10 ^ 18, [("t_eval", .arr tEval)]⟩
open Classical in
noncomputable def ivp (P : PotFns) (z : ℕ → ℝ) (t1 : ℝ) (Y : ℝ → ℕ → ℝ) : SolveIvp := fun E q =>
  if E = C98.Ex.E P ∧ q = request z then .ok (res t1 Y) else .error (.exception "not foreseen")

section
variable {P : PotFns} {t1 : ℝ} (h1 : 10 ^ 5 < t1) {Y : ℝ → ℕ → ℝ} {s : ℝ} (hs : s < 10 ^ 5) {z : ℕ → ℝ} (hi : ∀ i < (InflT.mk 0 P false).rows, Y (10 ^ 5) i = z i)
  (hT : (C98.Ex.E P).Trajectory univ (Ioi s) Y) (hb : ∀ t ∈ Ico (10 ^ 5) t1, 0 < (C98.Ex.E P).accel Y t) (h0 : (C98.Ex.E P).accel Y t1 = 0)

theorem shape : IvpShape (C98.Ex.E P).idx.length 2 (res t1 Y) (grid t1) (rows t1 Y) (te t1) (ye t1 Y) where
  t_ne := by simp [grid]
  get_t := rfl
  get_y := rfl
  get_te := rfl
  get_ye := rfl
  rows := rfl
  cols := by simp [rows]
  te_len := rfl
  ye_len := rfl
  occ := fun j ts ss h1 h2 => by
    match j with
    | j + 2 => simp [te] at h1
    | 1 =>
      simp only [te, ye, List.getElem?_cons_zero, List.getElem?_cons_succ, Option.some.injEq] at h1 h2
      subst h1 h2; rfl
    | 0 =>
      simp only [te, ye, List.getElem?_cons_zero, Option.some.injEq] at h1 h2
      subst h1 h2; rfl
  states := by
    intro v hv s hs
    simp only [ye, List.mem_cons, List.not_mem_nil, or_false] at hv
    rcases hv with rfl | rfl
    · simp at hs
    · rw [List.mem_singleton] at hs
      subst hs; rfl

include h1 in
theorem ordered : (10 : ℝ) ^ 5 < τ1 t1 ∧ τ1 t1 < τ2 t1 ∧ τ2 t1 < t1 := by
  unfold τ1 τ2
  refine ⟨?_, ?_, ?_⟩ <;> linarith

include h1 in
theorem inside : ∀ x ∈ grid t1, x ∈ Icc (10 ^ 5) t1 := by
  obtain ⟨o1, o2, o3⟩ := ordered h1
  intro x hx
  simp only [grid, List.mem_cons, List.not_mem_nil, or_false] at hx
  rcases hx with rfl | rfl | rfl | rfl <;> constructor <;> linarith

include h1 hb h0 in
theorem integrated : Integrated (C90.view (C98.Ex.E P)) (C98.Ex.E P).idx.length runEvents Y (10 ^ 5) t1 (grid t1) (rows t1 Y) (te t1) (ye t1 Y) where
  start := rfl
  inside := inside h1
  sampled := fun j x hx i hi => by
    rw [C98.Ex.rows3] at hi
    match j with
    | 0 => simp only [grid, List.getElem?_cons_zero, Option.some.injEq] at hx; subst hx; interval_cases i <;> rfl
    | 1 => simp only [grid, List.getElem?_cons_succ, List.getElem?_cons_zero, Option.some.injEq] at hx; subst hx; interval_cases i <;> rfl
    | 2 => simp only [grid, List.getElem?_cons_succ, List.getElem?_cons_zero, Option.some.injEq] at hx; subst hx; interval_cases i <;> rfl
    | 3 => simp only [grid, List.getElem?_cons_succ, List.getElem?_cons_zero, Option.some.injEq] at hx; subst hx; interval_cases i <;> rfl
    | j + 4 => simp [grid] at hx
  stated := fun j ts ss h1 h2 a x s h3 h4 i hi => by
    rw [C98.Ex.rows3] at hi
    match j with
    | j + 2 => simp [te] at h1
    | 1 =>
      simp only [te, ye, List.getElem?_cons_zero, List.getElem?_cons_succ, Option.some.injEq] at h1 h2
      subst h1 h2
      match a with
      | a + 1 => simp at h3
      | 0 =>
        simp only [List.getElem?_cons_zero, Option.some.injEq] at h3 h4
        subst h3 h4
        interval_cases i <;> rfl
    | 0 =>
      simp only [te, List.getElem?_cons_zero, Option.some.injEq] at h1
      subst h1
      simp at h3
  detected := fun j ev ts h2 h3 _ _ => by
    have nneg : ∀ x, 10 ^ 5 ≤ x → x ≤ t1 → 0 ≤ (C98.Ex.E P).accel Y x := fun x k1 k2 => by
      rcases k2.lt_or_eq with k | rfl
      · exact (hb x ⟨k1, k⟩).le
      · exact h0.ge
    match j with
    | j + 2 => simp [te] at h3
    | 1 =>
      simp only [te, runEvents, List.getElem?_cons_zero, List.getElem?_cons_succ, Option.some.injEq] at h2 h3
      subst h2 h3
      have key : Detects ((C98.Ex.E P).accel Y) (10 ^ 5) t1 (-1) [t1] := by
        refine ⟨by simp, fun c hc => ?_, fun a b k1 hab k2 k3 k4 => ?_⟩
        · rw [List.mem_singleton] at hc
          subst hc
          refine ⟨h1, le_rfl, h0, ⟨10 ^ 5, le_rfl, h1, fun x hx hx0 => ?_⟩, fun h => absurd h (lt_irrefl _)⟩
          have := hb x hx; linarith
        · have := nneg b (by linarith) k2
          linarith
      have key : Detects (fun x => (C90.view (C98.Ex.E P)).inflating x (Y x)) (10 ^ 5) t1 (-1) [t1] := key
      simpa [Event.call, Direction.val] using key
    | 0 =>
      simp only [te, runEvents, List.getElem?_cons_zero, Option.some.injEq] at h2 h3
      subst h2 h3
      have key : Detects ((C98.Ex.E P).accel Y) (10 ^ 5) t1 1 [] := by
        refine ⟨by simp, fun c hc => by simp at hc, fun a b k1 hab k2 k3 k4 => ?_⟩
        have := nneg a k1 (by linarith)
        linarith
      have key : Detects (fun x => (C90.view (C98.Ex.E P)).inflating x (Y x)) (10 ^ 5) t1 1 [] := key
      simpa [Event.call, Direction.val] using key
  stopped := fun j ev ts h2 h3 _ c hc => by
    match j with
    | j + 2 => simp [te] at h3
    | 1 =>
      simp only [te, List.getElem?_cons_zero, List.getElem?_cons_succ, Option.some.injEq] at h3
      subst h3
      exact List.mem_singleton.1 hc
    | 0 =>
      simp only [te, List.getElem?_cons_zero, Option.some.injEq] at h3
      subst h3
      simp at hc

theorem plain : PlainInflation runEvents := by
  intro ev hm _
  simp only [runEvents, List.mem_cons, List.not_mem_nil, or_false] at hm
  rcases hm with rfl | rfl <;> exact ⟨rfl, rfl⟩

/-- `ic` asks for the state `z` at `10⁵`, and to integrate up to `10³⁰⁰` -/
def Asks (E : Eqs) (z : ℕ → ℝ) (ic : ICCall) : Prop :=
  ∃ c y, ic (runKw.rtol.getD (1 / 10 ^ 10)) (runKw.atol.getD (1 / 10 ^ 12)) runKw.rest (fun _ => some 0) = .ok (c, y) ∧ c.x_ini E = some (10 ^ 5) ∧ c.x_end = 10 ^ 300 ∧
    ∀ i < 3, y i = some (z i)

theorem request_eq {c : IC} {y : ℕ → Option ℝ} (k1 : c.x_ini (C98.Ex.E P) = some (10 ^ 5)) (k2 : c.x_end = 10 ^ 300) (k3 : ∀ i < 3, y i = some (z i)) :
    (⟨c.x_ini (C98.Ex.E P), c.x_end, (List.range (C98.Ex.E P).idx.length).map y, runKw.events.getD [], runKw.method.getD "RK45", runKw.rtol.getD (1 / 10 ^ 10), runKw.atol.getD (1 / 10 ^ 12), runKw.rest⟩ :
      IvpCall) = request z := by
  have hl : (List.range (C98.Ex.E P).idx.length).map y = [some (z 0), some (z 1), some (z 2)] := by
    rw [C98.Ex.rows3]
    show [y 0, y 1, y 2] = _
    rw [k3 0 (by norm_num), k3 1 (by norm_num), k3 2 (by norm_num)]
  rw [hl, k1, k2]
  rfl

include h1 hs hi hT hb h0 in
theorem launched {ic : ICCall} (hic : Asks (C98.Ex.E P) z ic) : Launched (ivp P z t1 Y) (C98.Ex.E P) univ (Ioi s) ic runKw (grid t1) Y (10 ^ 5) t1 z where
  run := by
    obtain ⟨c, y, k0, k1, k2, k3⟩ := hic
    refine ⟨c, y, _, res t1 Y, rows t1 Y, te t1, ye t1 Y, k0, requested (C98.Ex.E P) runKw c y, k1, fun i hl => ?_, ?_, shape, rfl, integrated h1 hb h0, plain⟩
    · rw [C98.Ex.rows3] at hl
      exact ⟨k3 i hl, hi i (by rw [InflT.rows_eq]; exact hl)⟩
    · rw [request_eq k1 k2 k3]
      exact if_pos ⟨rfl, rfl⟩
  curvature := .inl rfl
  isOpen := isOpen_Ioi
  convex := convex_Ioi _
  solution := hT
  start := hs
  inside := fun x hx => hs.trans_le hx.1
  density := by
    have h : 0 < (C90.view (C98.Ex.E P)).H2 (10 ^ 5) (Y (10 ^ 5)) := hT.2.1 _ hs
    have eK : (C98.Ex.E P).K = 0 := rfl
    rw [eK, zero_mul, add_zero]
    exact h
  sorted := by
    obtain ⟨o1, o2, o3⟩ := ordered h1
    simp only [grid, List.pairwise_cons, List.mem_cons, List.not_mem_nil, or_false]
    refine ⟨?_, ?_, ?_, by simp⟩
    · rintro x (rfl | rfl | rfl) <;> linarith
    · rintro x (rfl | rfl) <;> linarith
    · rintro x rfl; exact o3
  clean := fun h => by
    have := hb (10 ^ 5) ⟨le_rfl, h1⟩
    linarith

include h1 hs hi hT hb h0 in
/-- whatever the wrapper asks for: an answer is faithful -/
theorem faithful (o : PotOracles) (fmtE : ℝ → String) (kwp : Kwargs) : FaithfulRuns o (ivp P z t1 Y) fmtE (fun _ => true) .quadratic kwp := by
  intro phi L pot ic b sol hpot hinit hsol _
  obtain ⟨⟨c, y⟩, hic, hok⟩ := C91.bind_ok hsol
  obtain ⟨r, hr, -⟩ := C91.bind_ok hok
  have hr : ivp P z t1 Y (runEqs pot) ⟨c.x_ini (runEqs pot), c.x_end, (List.range (runEqs pot).idx.length).map y, runKw.events.getD [], runKw.method.getD "RK45",
    runKw.rtol.getD (1 / 10 ^ 10), runKw.atol.getD (1 / 10 ^ 12), runKw.rest⟩ = .ok r := hr
  unfold ivp at hr
  split at hr
  · next hq =>
    obtain ⟨hE, hq⟩ := hq
    rw [hE] at hq hic ⊢
    have e1 := congrArg IvpCall.x_ini hq
    have e2 := congrArg IvpCall.x_end hq
    have e3 := congrArg IvpCall.y0 hq
    dsimp only [request] at e1 e2 e3
    rw [C98.Ex.rows3] at e3
    have e3 : [y 0, y 1, y 2] = [some (z 0), some (z 1), some (z 2)] := e3
    simp only [List.cons.injEq, and_true] at e3
    refine ⟨Ioi s, grid t1, Y, t1, z, launched h1 hs hi hT hb h0 ⟨c, y, hic, e1, e2, fun i hl => ?_⟩⟩
    interval_cases i
    · exact e3.1
    · exact e3.2.1
    · exact e3.2.2
  · cases hr

include h1 hb in
theorem watched {ic : ICCall} : Watched (ivp P z t1 Y) (C98.Ex.E P) ic runKw Y (10 ^ 5) := by
  intro c y0 q _ hq
  have he : q.events = runEvents := hq.events.1 _ rfl
  refine ⟨by rw [he]; exact ⟨_, List.mem_cons_of_mem _ (List.mem_singleton_self _), ⟨_, rfl⟩, rfl⟩, ?_, .inl (hb _ ⟨le_rfl, h1⟩).le⟩
  intro res t y te ye _ _ j ev ts k1 _ k3
  rw [he] at k1
  match j with
  | j + 2 => simp [runEvents] at k1
  | 1 =>
    simp only [runEvents, List.getElem?_cons_zero, List.getElem?_cons_succ, Option.some.injEq] at k1
    rw [← k1] at k3
    cases k3
  | 0 =>
    simp only [runEvents, List.getElem?_cons_zero, Option.some.injEq] at k1
    rw [← k1] at k3
    cases k3

theorem endSeen {ic : ICCall} : EndSeen (ivp P z t1 Y) (C98.Ex.E P) ic runKw := by
  intro c y0 q _ hq
  have he : q.events = runEvents := hq.events.1 _ rfl
  refine ⟨true, by rw [he]; exact ⟨_, List.mem_cons_of_mem _ (List.mem_singleton_self _), ⟨_, rfl⟩, rfl, rfl⟩, ?_⟩
  intro r t y te' ye hr sh j ev ts k1 k2 _ k4 _
  obtain rfl : res t1 Y = r := by
    unfold ivp at hr
    split at hr
    · exact Except.ok.inj hr
    · cases hr
  have := sh.get_te
  have k : te t1 = te' := Attr.tEvents.inj (Option.some.inj (Eq.trans rfl this))
  rw [← k] at k2
  rw [he] at k1
  match j with
  | j + 2 => simp [te] at k2
  | 1 =>
    simp only [te, List.getElem?_cons_zero, List.getElem?_cons_succ, Option.some.injEq] at k2
    rw [← k2]; simp
  | 0 =>
    simp only [runEvents, List.getElem?_cons_zero, Option.some.injEq] at k1
    rw [← k1] at k4
    cases k4

end
/-- the initial state that the wrapper asks for -/
noncomputable def start (P : PotFns) (phi : ℝ) (i : ℕ) : ℝ := if i = 0 then phi else if i = 1 then -P.dV phi / (3 * √(P.V phi / 3)) else 0

theorem asks {pot : Pot} {phi : ℝ} (hV : 0 < pot.fns.V phi) : ∃ ic, SlowRollIC.init (runEqs pot) (runIC phi) = .ok ic ∧ Asks (C98.Ex.E pot.fns) (start pot.fns phi) (ICCall.slowRoll (runEqs pot) ic) := by
  have hV3 : 0 < pot.fns.V phi / 3 := by positivity
  have head : tEval.head? = some (10 ^ 5) := by
    unfold tEval logspace
    rw [List.head?_map, List.head?_range]
    rw [if_neg (by norm_num), Option.map_some]
    norm_num
  obtain ⟨h0, hh0⟩ : ∃ h0, h0 = tEval.head? := ⟨_, rfl⟩
  rw [← hh0] at head
  have hrun : runIC phi = ⟨phi, h0, none, 10 ^ 300, some 0, none⟩ := by rw [hh0]; rfl
  obtain ⟨ic, hic, k1, k2, k3, k4, k5, k6⟩ : ∃ ic, SlowRollIC.init (runEqs pot) (runIC phi) = .ok ic ∧ ic.phi_i = phi ∧ ic.t_i = some (10 ^ 5) ∧ ic.x_end = 10 ^ 300 ∧ ic.N_i = some 0 ∧
      ic.dV_i = pot.fns.dV phi ∧ ic.H_i = some (√(pot.fns.V phi / 3)) := by
    have hK : (runEqs pot).K = 0 := rfl
    have hpot : (runEqs pot).pot = pot.fns := rfl
    refine ⟨⟨phi, h0, none, 10 ^ 300, pot.fns.V phi, pot.fns.dV phi, some 0, nanDiv (-0) (pot.fns.V phi / 3), nanSqrt (pot.fns.V phi / 3), mulExpNeg (nanSqrt (pot.fns.V phi / 3)) (some 0)⟩, ?_, ?_⟩
    · rw [hrun]; unfold SlowRollIC.init
      dsimp only
      rw [hK, hpot, mul_zero, exp_zero, mul_one, sub_zero, if_neg (not_lt.2 hV3.le)]
    · refine ⟨rfl, head, rfl, rfl, rfl, ?_⟩
      show mulExpNeg (nanSqrt _) (some 0) = _
      rw [nanSqrt, if_pos hV3.le]
      show some (√(pot.fns.V phi / 3) * exp (-0)) = _
      rw [neg_zero, exp_zero, mul_one]
  have ht : GivesTracked (runEqs pot) ic := fun h => by cases h
  obtain ⟨y, hy, -, -⟩ := C26.fill (runEqs pot) ic (SlowRollIC.dphidt_i ic) (SlowRollIC.dphidN_i ic) ht (fun _ => some 0)
  obtain ⟨r0, r1, r2⟩ := C98.rows ht hy
  refine ⟨ic, hic, ic, y, ?_, k2, k3, fun i hl => ?_⟩
  · show (SlowRollIC.call (runEqs pot) ic (fun _ => some 0) >>= fun y => .ok (ic, y)) = _
    unfold SlowRollIC.call
    rw [hy]; rfl
  · interval_cases i
    · rw [r0, k1]; rfl
    · rw [r1, SlowRollIC.dphidt_i, k6, k5]
      show nanDiv _ _ = _
      have : 3 * √(pot.fns.V phi / 3) ≠ 0 := by have := sqrt_pos.2 hV3; positivity
      rw [nanDiv, if_neg this]; rfl
    · rw [r2, k4]; rfl

/-- one pass of the loop is enough when the amplitude is right at once -/
theorem first_pass {κ : Type} {u : SI} {spline : κ → List (ℝ × ℝ) → ℝ → ℝ} {kw : κ} {solver : PSol → ℝ → ℝ → List ℝ × ℝ} {fam : ℝ → SRMethods} {phi0 : Option ℝ}
    {run : ℝ → Option ℝ → Except PyErr Raw} (ks : List ℝ) {A n x y phi_i : ℝ} {r : Raw} {I : Infl} {q : PSol} {P : PowerParams}
    (hA : sr_As2Lambda 1 (fam 1) A none (some n) = .ok (1, x, y)) (hphi : (fam 1).sr_N2phi 90 = .ok phi_i) (hrun : run (clampPhi phi0 phi_i) (some 1) = .ok r)
    (hs : r.success = true) (hI : r.infl = some I) (hcal : calibrateP u spline r.sr (fresh r) { method := "N_star", N_star := some n } "CGS" kw 3 = .ok q)
    (hP : q.pars = some P) (hPA : P.A_s = A) (hA0 : 0 < A) : ∃ st, calculate u spline kw solver fam phi0 run ks { N_star := n, A_s := A } = .ok st := by
  obtain ⟨B, hB⟩ : ∃ B, B = backend u spline kw solver (run (clampPhi phi0 phi_i)) := ⟨_, rfl⟩
  have hsol : B.solve (some 1) = .ok ⟨r, fresh r⟩ := by
    rw [hB]; simp [backend, hrun, hI]
  have hpass : pass u B { N_star := n, A_s := A } (some 1) n = .ok (⟨r, q⟩, n) := by
    unfold pass
    rw [hsol]
    dsimp only
    rw [if_neg (by rw [hB]; simp [backend, hs]), if_neg (by rintro ⟨_, h, -⟩; cases h)]
    rw [hB]
    simp only [calibrateStep, backend]
    rw [hcal]
    rfl
  have hK : (fresh r).st.K = 0 := rfl
  obtain ⟨-, -, t3, -⟩ := flat_given (p := { N_star := n, A_s := A }) (N := n) hK (.efolds (.inl rfl) rfl) (calibrateP_st rfl hcal)
  obtain ⟨-, t4, t5, c, t6, t7⟩ := t3 rfl
  have hsr : Wrap.slowRoll u B { N_star := n, A_s := A } 1 = .ok ⟨r, q⟩ := by
    unfold Wrap.slowRoll shoot
    dsimp only
    rw [hpass]
    dsimp only
    have hAs : B.A_s ⟨r, q⟩ = some A := by rw [hB, ← hPA]; simp [backend, hP]
    rw [if_pos ⟨A, hAs, by rw [sub_self, abs_zero]; positivity⟩]
    dsimp only
    rw [if_neg]
    have hw : B.w_reh ⟨r, q⟩ = none := by rw [hB]; simp [backend, t4]
    have hd : B.DeltaN_reh ⟨r, q⟩ = none := by rw [hB]; simp [backend, t5]
    have hn : B.N_reh ⟨r, q⟩ = none := by rw [hB]; simp [backend, t6, t7]
    rw [hw, hd, hn]
    rintro (⟨_, _, h, -⟩ | ⟨_, _, -, h, -⟩ | ⟨_, _, h, -⟩ | ⟨_, _, -, h, -⟩) <;> cases h
  rw [hB] at hsr
  obtain ⟨st, -, -, hst, -⟩ := report_ok ks hsr
  refine ⟨st, ?_⟩
  unfold calculate
  dsimp only
  rw [hA]
  dsimp only
  rw [hphi]
  dsimp only
  rw [hsr]
  exact hst

open Classical in
/-- An interpolating spline that returns `d` where there is no node. -/
noncomputable def spline (d : ℝ) (_ : Unit) (l : List (ℝ × ℝ)) (x : ℝ) : ℝ := ((l.find? fun q => decide (q.1 = x)).map Prod.snd).getD d

theorem spline_interpolates (d : ℝ) : Interpolates (spline d) := by
  intro kw l x y hm hn
  unfold spline
  induction l with
  | nil => cases hm
  | cons q l ih =>
    by_cases hq : q.1 = x
    · rw [List.find?_cons_of_pos (by simpa using hq)]
      rcases List.mem_cons.1 hm with h | h
      · rw [← h]; rfl
      · exact absurd (List.mem_map.2 ⟨_, h, hq.symm⟩) (List.nodup_cons.1 hn).1
    · rw [List.find?_cons_of_neg (by simpa using hq)]
      rcases List.mem_cons.1 hm with h | h
      · exact absurd (by rw [← h]) hq
      · exact ih h (List.nodup_cons.1 hn).2

theorem spline_off (d : ℝ) {l : List (ℝ × ℝ)} {x : ℝ} (h : ∀ q ∈ l, q.1 ≠ x) : spline d () l x = d := by
  unfold spline
  rw [List.find?_eq_none.2 (by simpa using fun a b hab => h (a, b) hab)]
  rfl


/-- `C101_universe` applies: the wrapper returns, whatever the wavenumbers. -/
example (o : PotOracles) (u : SI) (fmtE : ℝ → String) (solver : PSol → ℝ → ℝ → List ℝ × ℝ) : ∃ (d : ℝ) (ivp : SolveIvp) (n A : ℝ), 0 < n ∧ 0 < A ∧ Interpolates (spline d) ∧
    (∀ L, PotClass.quadratic.sensible (value (runPot L []))) ∧ FaithfulRuns o ivp fmtE (fun _ => true) .quadratic [] ∧
    ∀ ks, ∃ st, calculateRun u (spline d) () solver o ivp fmtE (fun _ => true) .quadratic [] ks { N_star := n, A_s := A } = .ok st := by
  obtain ⟨kwp, pot, hkw, hp, hf⟩ := C98.Ex.built o
  have hkw : runPot 1 [] = kwp := hkw.symm
  have hp0 : ∃ pot0, construct o .quadratic [] = .ok pot0 := by
    have hs : TakenFrom .quadratic [] { p := some 2 } := by taken
    exact ⟨_, C89_builds (o := o) hs (L := none) rfl (fun k hk => absurd rfl hk)⟩
  obtain ⟨pot0, hp0⟩ := hp0
  have sq := C98.Ex.isSq hp hf
  have ef : PotClass.quadratic.formula (value kwp) pot.Lambda = fun φ => φ ^ 2 := funext hf
  have hg : PotClass.quadratic.sensible (value kwp) := trivial
  -- the start
  obtain ⟨phi, hphi⟩ : ∃ phi, phi = (⟨1⟩ : Quadratic).sr_N2phi 90 := ⟨_, rfl⟩
  have hphi2 : phi ^ 2 = 362 := by
    rw [hphi]
    show (√(2 * 2) * √(4 * 90 + 2) / 2) ^ 2 = 362
    rw [div_pow, mul_pow, sq_sqrt (by norm_num), sq_sqrt (by norm_num)]
    norm_num
  have hphi0 : 0 < phi := by
    rw [hphi]
    show 0 < √(2 * 2) * √(4 * 90 + 2) / 2
    have a : 0 < √((2 : ℝ) * 2) := sqrt_pos.2 (by norm_num)
    have b : 0 < √((4 : ℝ) * 90 + 2) := sqrt_pos.2 (by norm_num)
    positivity
  obtain ⟨z, hz⟩ : ∃ z, z = start pot.fns phi := ⟨_, rfl⟩
  have z0 : z 0 = phi := by rw [hz]; rfl
  have z1 : z 1 ^ 2 = 4 / 3 := by
    rw [hz]
    show (-pot.fns.dV phi / (3 * √(pot.fns.V phi / 3))) ^ 2 = _
    rw [sq.V, sq.dV, div_pow, mul_pow, sq_sqrt (by positivity), neg_sq, mul_pow, hphi2]
    norm_num
  have E0 : z 1 ^ 2 / 2 + PotClass.quadratic.formula (value kwp) pot.Lambda (z 0) = 362 + 2 / 3 := by rw [hf, z0, z1, hphi2]; norm_num
  have caught : Caught (fun φ : ℝ => φ ^ 2) univ (362 + 2 / 3) phi 0 20 (2 / 20) := by
    have := (C100_monomial (c := .quadratic) (g := fun _ => 0) (P := 2) (Λ := 1) (b := 20) (E0 := 362 + 2 / 3) (φ0 := phi) rfl two_pos one_ne_zero (by norm_num)
      (by show (1 : ℝ) ^ 4 * phi ^ 2 ≤ _; rw [hphi2]; norm_num) (by show (362 + 2 / 3 : ℝ) < 1 ^ 4 * 20 ^ 2; norm_num)).1 hphi0
    have e : PotClass.quadratic.formula (fun _ => 0) 1 = fun φ : ℝ => φ ^ 2 := funext fun φ => by show (1 : ℝ) ^ 4 * φ ^ 2 = _; ring
    rwa [e] at this
  obtain ⟨s, Y, t1, hs, hi, hT, h1, hb, h0, -, -⟩ := C100_global hp hg rfl (fun φ => by rw [hf]; positivity) false (10 ^ 5) (y0 := z) (by rw [hf, z0, z1, hphi2]; norm_num) (a := 0) (b := 20) (γ := 2 / 20)
    (by norm_num) (by rw [E0, ef, z0]; exact caught)
  have hT : (C98.Ex.E pot.fns).Trajectory univ (Ioi s) Y := hT
  have hb : ∀ t ∈ Ico (10 ^ 5) t1, 0 < (C98.Ex.E pot.fns).accel Y t := hb
  have h0 : (C98.Ex.E pot.fns).accel Y t1 = 0 := h0
  -- the request and the answer
  obtain ⟨ic, hic, hask⟩ := asks (pot := pot) (phi := phi) (by rw [sq.V]; positivity)
  rw [← hz] at hask
  have Ln := launched h1 hs hi hT hb h0 hask
  have Sd := C98.solved hp hg rfl (show Launched (ivp pot.fns z t1 Y) (C98.Ex.E pot.fns) (PotClass.quadratic.domain (value kwp)) (Ioi s) _ runKw (grid t1) Y (10 ^ 5) t1 z from Ln)
  obtain ⟨b, sol, m, hsol, hm⟩ := C100.seen (ivp pot.fns z t1 Y) fmtE Sd (watched h1 hb) endSeen (hb _ ⟨le_rfl, h1⟩).le
  obtain ⟨c, y0, q', res', y, te, ye, hic', hq', hivp', sh', hres', hI', hpl'⟩ := Sd.run
  obtain ⟨b', sol', hs', -, -, hsr, ⟨-, -, -, -, hbp, hbd, -⟩, -⟩ := C94.arrays (ivp pot.fns z t1 Y) fmtE hic' hq' hivp' sh' hres' Sd.isOpen Sd.convex Sd.solution Sd.dV Sd.start Sd.inside Sd.density hI' hpl' Sd.clean
  rw [hsol] at hs'
  obtain ⟨rfl, rfl⟩ := Prod.mk.inj (Except.ok.inj hs')
  have hbd := hbd _ rfl
  obtain ⟨sr, cs, I, xb, xe, hsr', hcs, cK, cN, cL, cI, hph, iB, iE, iT, hlen, hsel⟩ := C99.state Sd hsol hm
  -- the phase is the whole run
  obtain ⟨o1, o2, o3⟩ := ordered h1
  obtain ⟨q1, q2, q3⟩ := hph.ordered
  have exb : xb = 10 ^ 5 := by
    by_contra hne
    have := hph.decelerates (10 ^ 5) le_rfl (q1.lt_of_ne (Ne.symm hne))
    have := hb (10 ^ 5) ⟨le_rfl, h1⟩
    linarith
  have exe : xe = t1 := by
    by_contra hne
    have := hb xe ⟨by linarith, q3.lt_of_ne hne⟩
    have := hph.stops
    linarith
  rw [exb, exe] at hsel hph
  rw [exe] at iE
  rw [exb, exe] at iT
  have m1 : I.mask[1]? = some true := (hsel 1 (τ1 t1) rfl).2 ⟨o1, by linarith⟩
  have m2 : I.mask[2]? = some true := (hsel 2 (τ2 t1) rfl).2 ⟨by linarith, o3⟩
  -- `N_star`: halfway between the two points
  have mN := (C92.facts Sd.isOpen Sd.convex Sd.solution Sd.dV).1
  have inS : ∀ x, 10 ^ 5 ≤ x → x ∈ Ioi s := fun x hx => hs.trans_le hx
  have f01 := mN (inS _ le_rfl) (inS _ o1.le) o1
  have f12 := mN (inS _ o1.le) (inS _ (o1.trans o2).le) o2
  have f23 := mN (inS _ (o1.trans o2).le) (inS _ h1.le) o3
  obtain ⟨f, hf'⟩ : ∃ f, f = (C98.Ex.E pot.fns).efolds Y := ⟨_, rfl⟩
  obtain ⟨L, hL⟩ : ∃ L : ℝ → ℝ, L = fun x => log ((C98.Ex.E pot.fns).aH Y x) := ⟨_, rfl⟩
  rw [← hf'] at mN f01 f12 f23 cN iE iT
  rw [← hL] at cL
  obtain ⟨n, hn⟩ : ∃ n, n = f t1 - (f (τ1 t1) + f (τ2 t1)) / 2 := ⟨_, rfl⟩
  have n0 : 0 < n := by linarith
  have nT : n ≤ I.N_tot := by rw [iT]; linarith
  have phS : Ioo (10 ^ 5) t1 ⊆ Ioi s := fun x hx => inS x hx.1.le
  have mL : StrictMonoOn L (Ioo (10 ^ 5) t1) := by
    obtain ⟨-, -, d, hd, hdpos⟩ := C92.facts Sd.isOpen Sd.convex Sd.solution Sd.dV
    have maH : StrictMonoOn ((C98.Ex.E pot.fns).aH Y) (Ioo (10 ^ 5) t1) := strictMonoOn_of_deriv_pos (convex_Ioo _ _) (fun x hx => (hd x (phS hx)).continuousAt.continuousWithinAt) fun x hx => by
      rw [(hd x (phS (interior_subset hx))).deriv]
      rw [interior_Ioo] at hx
      exact hdpos x (phS hx) (hb x ⟨hx.1.le, hx.2⟩)
    rw [hL]
    exact fun p hp' q hq' hpq => log_lt_log (C92.aH_pos Sd.solution (phS hp')) (maH hp' hq' hpq)
  have l12 := mL ⟨o1, o2.trans o3⟩ ⟨o1.trans o2, o3⟩ o2
  have sorted : (maskSel (grid t1) I.mask).Pairwise fun a b => f a < f b := by
    refine (Sd.sorted.sublist (C92.maskSel_sublist (grid t1) I.mask)).imp_of_mem fun {a b} ha hb hab => ?_
    obtain ⟨i, hi1, -⟩ := C92.maskSel_mem ha
    obtain ⟨j, hj1, -⟩ := C92.maskSel_mem hb
    exact mN (inS a (inside h1 a (List.mem_of_getElem? hi1)).1) (inS b (inside h1 b (List.mem_of_getElem? hj1)).1) hab
  obtain ⟨ls, hls⟩ : ∃ ls, interpL (maskSel cs.N I.mask) (maskSel cs.logaH I.mask) (I.N_end - n) = .ok ls := by
    rw [cN, cL, C99.interpL_iff sorted]
    refine ⟨1, 2, τ1 t1, τ2 t1, rfl, rfl, m1, m2, f12, ?_, ?_⟩ <;> rw [iE, hn] <;> linarith
  obtain ⟨a, ha⟩ : ∃ a : CalArgs, a = { method := "N_star", N_star := some n } := ⟨_, rfl⟩
  obtain ⟨δ, stk, hsel'⟩ : ∃ δ stk, Cal.flatSel u cs a = .ok (n, I.N_end - n, ls, δ, none, I, stk) := by
    rw [ha]
    unfold Cal.flatSel Cal.flatNstar
    dsimp only
    rw [if_pos rfl, if_neg (by linarith), cI]
    dsimp only
    rw [if_neg (by linarith), hls]
    exact ⟨_, _, rfl⟩
  have hcal := Cal.calibrate_flat_intro (a := a) (show cs.K = 0 from cK) (by rw [ha]) hsel'
  -- the pivot scale is not that of a grid point
  have only : ∀ (i : ℕ) x, (grid t1)[i]? = some x → I.mask[i]? = some true → x = τ1 t1 ∨ x = τ2 t1 := fun i x hx hi => by
    have hI := (hsel i x hx).1 hi
    have := List.mem_of_getElem? hx
    simp only [grid, List.mem_cons, List.not_mem_nil, or_false] at this
    rcases this with h | h | h | h
    · rw [h] at hI; exact absurd hI.1 (lt_irrefl _)
    · exact .inl h
    · exact .inr h
    · rw [h] at hI; exact absurd hI.2 (lt_irrefl _)
  have lsv : ls = (L (τ1 t1) + L (τ2 t1)) / 2 := by
    obtain ⟨I', hI', k1, -, -, -, i, j, x, w, -, c2, c3, c4, c5, c6, -, -, -, -, -, c11⟩ :=
      C92.cal_cell (P := Ioo (10 ^ 5) t1) (fN := f) (fL := L) (.inl cK) (by rw [ha]) hcal rfl cN cL Sd.sorted
        (fun J hJ => by
          rw [cI] at hJ
          rw [← Option.some.inj hJ]
          exact ⟨hlen, fun i z hz hh => (hsel i z hz).1 hh⟩)
        (mN.mono phS) mL
    rw [cI] at hI'
    rw [← Option.some.inj hI'] at c5 c6
    have e1 : x = τ1 t1 := by
      rcases only i x c2 c5 with h | h
      · exact h
      · rcases only j w c3 c6 with h' | h' <;> rw [h, h'] at c4 <;> linarith
    have e2 : w = τ2 t1 := by
      rcases only j w c3 c6 with h' | h'
      · rw [e1, h'] at c4; exact absurd c4 (lt_irrefl _)
      · exact h'
    have c11 : (I.N_end - n - f x) * (L w - L x) = (f w - f x) * (ls - L x) := c11
    rw [e1, e2, iE, hn] at c11
    have hne : f (τ2 t1) - f (τ1 t1) ≠ 0 := by linarith
    have : (f (τ2 t1) - f (τ1 t1)) * (ls - (L (τ1 t1) + L (τ2 t1)) / 2) = 0 := by linear_combination -c11
    rcases mul_eq_zero.1 this with h | h
    · exact absurd h hne
    · linarith
  -- the amplitude
  obtain ⟨ph, hph'⟩ : ∃ ph, ph = (⟨1⟩ : Quadratic).sr_N2phi n := ⟨_, rfl⟩
  have ph0 : 0 < ph := by
    rw [hph']
    show 0 < √(2 * 2) * √(4 * n + 2) / 2
    have a : 0 < √((2 : ℝ) * 2) := sqrt_pos.2 (by norm_num)
    have b : 0 < √(4 * n + 2) := sqrt_pos.2 (by linarith)
    positivity
  obtain ⟨A, hAd⟩ : ∃ A, A = ((⟨1⟩ : Quadratic).V ph / 3) / (8 * π ^ 2 * (⟨1⟩ : Quadratic).get_epsilon_1V ph) := ⟨_, rfl⟩
  have A0 : 0 < A := by
    rw [hAd]
    have e1 : (⟨1⟩ : Quadratic).V ph = ph ^ 2 := by show (1 : ℝ) ^ 4 * ph ^ 2 = _; ring
    have e2 : (⟨1⟩ : Quadratic).get_epsilon_1V ph = 2 ^ 2 / (2 * ph ^ 2) := rfl
    rw [e1, e2]
    have := pi_pos
    positivity
  have hA : sr_As2Lambda 1 (Quadratic.sr 1) A none (some n) = .ok (1, ph, n) := by
    show Except.ok (1 * (A / (((⟨1⟩ : Quadratic).V ((⟨1⟩ : Quadratic).sr_N2phi n) / 3) / (8 * π ^ 2 * (⟨1⟩ : Quadratic).get_epsilon_1V ((⟨1⟩ : Quadratic).sr_N2phi n)))) ^ (1 / 4 : ℝ), (⟨1⟩ : Quadratic).sr_N2phi n, n) = _
    rw [← hph', ← hAd, div_self A0.ne', one_rpow, mul_one]
  -- the solution as the wrapper sees it
  obtain ⟨v, pl, hlast⟩ : ∃ v pl, lastMasked b I.mask = some (v, pl) := by
    have ne : ∀ {l : List ℝ}, l.length = (grid t1).length → ∃ w, (maskSel l I.mask).getLast? = some w := fun {l} hl => by
      have : ∃ w, w ∈ maskSel l I.mask := by
        have h4 : (grid t1).length = 4 := rfl
        have l1 : 1 < l.length := by rw [hl, h4]; norm_num
        obtain ⟨g1, g2⟩ := List.getElem?_eq_some_iff.1 m1
        refine ⟨l[1], ?_⟩
        unfold maskSel
        refine List.mem_filterMap.2 ⟨(l[1], true), ?_, rfl⟩
        have : 1 < (l.zip I.mask).length := by rw [List.length_zip]; omega
        rw [← g2, ← List.getElem_zip (h := this)]
        exact List.getElem_mem _
      obtain ⟨w, hw⟩ := this
      exact ⟨_, List.getLast?_eq_some_getLast (List.ne_nil_of_mem hw)⟩
    unfold lastMasked
    rw [hbp, hbd]
    obtain ⟨w1, e1⟩ := ne (l := (grid t1).map fun x => Y x 1) (by simp)
    obtain ⟨w2, e2⟩ := ne (l := (grid t1).map fun x => Y x 0) (by simp)
    exact ⟨w1, w2, by simp [Approx.arr?, e1, e2]⟩
  obtain ⟨r, hr⟩ : ∃ r : Raw, r = ⟨true, cs.N, cs.logaH, cs.H, some I, sol.fin.phi_end.getD 0, v, pot.fns.V pl, sr⟩ := ⟨_, rfl⟩
  have hfr : (fresh r).st = cs := by
    have h' := hcs
    unfold Shooting.calState at h'
    obtain ⟨H, -, h'⟩ := Option.bind_eq_some_iff.1 h'
    obtain ⟨L', -, h'⟩ := Option.bind_eq_some_iff.1 h'
    have key : cs = ⟨0, cs.N, cs.logaH, cs.H, cs.infl, ⟨none, none, none, none, none, none⟩, none⟩ := by
      rw [← Option.some.inj h']
      rfl
    rw [key, hr, cI]
    rfl
  have hrun : integrate o (ivp pot.fns z t1 Y) fmtE (fun _ => true) .quadratic [] phi (some 1) = .ok r := by
    unfold integrate
    dsimp only
    rw [hkw, hp]
    dsimp only
    rw [hic]
    dsimp only
    have hsol' : solve (ivp pot.fns z t1 Y) fmtE (runEqs pot) (ICCall.slowRoll (runEqs pot) ic) [] runKw = .ok (b, sol) := hsol
    rw [hsol']
    dsimp only
    unfold readOff
    have hcs' : Shooting.calState (runEqs pot).K sol = some cs := hcs
    have hsr'' : Approx.slowRoll (runEqs pot) b sol = some sr := hsr'
    rw [hcs', hsr'']
    dsimp only
    rw [cI]
    dsimp only
    rw [hlast, hr]
    rfl
  -- the calibration and the spectrum at the pivot scale
  rw [← hfr] at hcal
  rw [ha] at hcal
  obtain ⟨g, q, hg', hq, hqs, hqp⟩ := Approx.calibrateP_CGS u (spline (log A)) sr (p := fresh r) () rfl hcal
  have hAs : (params (specCGS (spline (log A)) () 3 g)).A_s = A := by
    show exp (spline (log A) () _ (log SI.K_STAR)) = A
    rw [spline_off, exp_log A0]
    intro w hw
    obtain ⟨w', hw', rfl⟩ := List.mem_map.1 hw
    obtain ⟨w'', hw'', e⟩ := List.mem_filterMap.1 hw'
    have e1 : w'.1 = w''.1 := by
      split at e
      · rw [← Option.some.inj e]
      · cases e
    show w'.1 ≠ _
    rw [e1]
    have eg : g = ⟨(maskSel (cs.logaH.map fun l => l + log SI.K_STAR - ls) (andMask I.mask (firstOccurrence (cs.logaH.map fun l => l + log SI.K_STAR - ls)))).zip
        (maskSel sr.grid (andMask I.mask (firstOccurrence (cs.logaH.map fun l => l + log SI.K_STAR - ls)))), sr.star (andMask I.mask (firstOccurrence (cs.logaH.map fun l => l + log SI.K_STAR - ls))) (I.N_end - n)⟩ := by
      rw [hfr] at hg'
      exact (Option.some.inj hg').symm
    rw [eg] at hw''
    obtain ⟨i, c2, c5⟩ := C92.maskSel_mem (List.of_mem_zip hw'').1
    rw [cL, List.map_map, List.getElem?_map] at c2
    obtain ⟨x, hx, e2⟩ := Option.map_eq_some_iff.1 c2
    have hm : I.mask[i]? = some true := by
      simp only [andMask, List.getElem?_zipWith] at c5
      cases hIk : I.mask[i]? with
      | none => rw [hIk] at c5; simp at c5
      | some b1 =>
        rw [hIk] at c5
        split at c5
        · next p1 p2 =>
          simp only [Option.some.injEq, Bool.and_eq_true] at c5 p1
          rw [p1, c5.1]
        · cases c5
    have e2 : L x + log SI.K_STAR - ls = w''.1 := e2
    rw [← e2]
    rcases only i x hx hm with h | h <;> rw [h, lsv] <;> intro k <;> linarith
  refine ⟨log A, ivp pot.fns z t1 Y, n, A, n0, A0, spline_interpolates _, fun L => trivial, faithful h1 hs hi hT hb h0 o fmtE [], fun ks => ?_⟩
  unfold calculateRun
  rw [hp0]
  dsimp only
  refine first_pass (fam := Quadratic.sr) ks hA (phi_i := phi) ?_ (r := r) (I := I) (q := q) ?_ ?_ ?_ ?_ hqp hAs A0
  · rw [hphi]; rfl
  · exact hrun
  · rw [hr]
  · rw [hr]
  · rw [hr] at hq ⊢; exact hq

end C101.Ex
end Primpy
