import Verif.Props.C92
import Verif.Props.C37
import Verif.Lemmas.Reconstruct
import Mathlib.Analysis.Real.Pi.Bounds

/-!
# C93: `ISIC_NsOk` through `solve`
-/

namespace Primpy
open Real Set Spec Bunch Cal

/-! ## Specification -/

/-- In the grid `t`, the neighbours `a < b` within the phase of inflation `(xb, xe)` between which `xs` lies (a grid point between them is skipped only if a grid point before
inflation has the same `aH`) are also those between which the expansion has `N` e-folds left to the end of inflation. -/
def SameCell (E : Eqs) (Y : ℝ → ℕ → ℝ) (t : List ℝ) (xb xe xs N : ℝ) : Prop :=
  ∃ (i j : ℕ) (a b : ℝ), i < j ∧ t[i]? = some a ∧ t[j]? = some b ∧ xb < a ∧ a < b ∧ b < xe ∧
    (∀ (k : ℕ) (w : ℝ), i < k → k < j → t[k]? = some w → ∃ (l : ℕ) (v : ℝ), l < k ∧ t[l]? = some v ∧ v < xb ∧ E.aH Y v = E.aH Y w) ∧
    xs ∈ Icc a b ∧ ∃ xc ∈ Icc a b, E.efolds Y xe - E.efolds Y xc = N

namespace C93
open C91

/-- a run stopped by `UntilN` ends at the bound -/
theorem until_last {V : ISIC.Env} {E : Eqs} {D : Set ℝ} {q : IvpCall} {res : Dict Attr} {bound : ℝ} (hqe : q.events = ISIC.events bound) (hE : E.Shipped)
    {t : List ℝ} {y : List (List ℝ)} {te : List (List ℝ)} {ye : List (List (List ℝ))} {X : Set ℝ} {Y : ℝ → ℕ → ℝ} {x0 x1 : ℝ} (run : Run E D q res t y te ye X Y x0 x1)
    {ic : ICCall} {kw : SolveKw} {c : IC} {z : ℕ → Option ℝ}
    (hic : ic (kw.rtol.getD (1 / 10 ^ 10)) (kw.atol.getD (1 / 10 ^ 12)) kw.rest (fun _ => some 0) = .ok (c, z)) (hq : Requested E kw c z q) (hres : V.ivp E q = .ok res)
    {b : Dict Attr} {s : InflSol} (hsol : solve V.ivp V.fmtE E ic [] kw = .ok (b, s))
    {NE : Dict (List ℝ)} {un Ns : List ℝ} {lst : ℝ} (hNE : b.get? "_N_events" = some (.evArr NE)) (hu : NE.get? "UntilN" = some un) (hNs : b.get? "_N" = some (.arr Ns))
    (hlst : Ns.getLast? = some lst) (hu' : un ≠ []) : lst = bound := by
  obtain ⟨b', raw, hs', hg, hev, -, hxn, -, -, hrow, hxe, hvev, -⟩ := C90_solve V.ivp V.fmtE E hE _ kw c z q hic hq hres run.shape
  have hbb : b = b' := by rw [hsol] at hs'; injection hs' with h; injection h
  subst hbb
  have hNev : ∀ k, NE.get? k = (raw.events.get? k).map (·.map fun p => (C90.view E).N p.1 p.2) := by
    cases hEe : E with
    | other K p => exact absurd hEe (hE K p)
    | T e =>
      rw [hEe] at hvev
      obtain ⟨K, pot, te'⟩ := e
      obtain ⟨d, hd, hk⟩ := hvev "_N" 2 (by cases te' <;> rfl)
      have hd' : b.get? "_N_events" = some (.evArr d) := hd
      rw [hNE] at hd'
      injection hd' with h; injection h with h
      rw [h]; exact hk
    | N e =>
      rw [hEe] at hxe
      obtain ⟨d, -, hd, hk⟩ := hxe
      have hd' : b.get? "_N_events" = some (.evArr d) := hd
      rw [hNE] at hd'
      injection hd' with h; injection h with h
      rw [h]; exact hk
  rw [hNev, Option.map_eq_some_iff] at hu
  obtain ⟨l, hl, rfl⟩ := hu
  obtain ⟨j, ts, ss, hj, h1, h2, rfl⟩ := (hev _ _).1 hl
  obtain ⟨ev, he, hm, hnm⟩ := C90.lastAt_event hj
  rw [hqe] at hm
  have hev' := untilN_event hm hnm
  obtain ⟨c, hc⟩ : ∃ c, c ∈ ts := by
    cases ts with
    | nil => simp at hu'
    | cons c l => exact ⟨c, List.mem_cons_self ..⟩
  have hbnd := run.bound j ev ts he h1 (by rw [hev']) c hc
  have hlast := run.last j ev ts he h1 (by rw [hev']) c hc
  have hNarr := N_array hE run.shape hxn hrow
  rw [hNs] at hNarr
  have hNarr : Ns = onGrid t y (C90.view E).N := by injection hNarr with h; injection h
  rw [hNarr, onGrid_last hlast] at hlst
  have hcol : (C90.view E).N c (colAt y (t.length - 1)) = (C90.view E).N c (Y c) := by
    refine N_congr hE (fun i hi => ?_) c
    refine run.integrated.sampled (t.length - 1) c ?_ i hi
    rw [← List.getLast?_eq_getElem?]; exact hlast
  have hlst := Option.some.inj hlst
  rw [hcol, hbnd, hev'] at hlst
  exact hlst.symm

/-- the objective is small at a run only if that run inflates for more than `N_star` e-folds; it is then the deviation of the calibrated `N_star` -/
theorem inner {u : SI} {V : ISIC.Env} {S : Shooting.Setup} {D : Set ℝ} {N_star Ω h N0 rtol atol : ℝ} {kw : Dict Attr} {r v : ℝ} {ic : IC} {y : ℕ → Option ℝ}
    (hN : |v| < N_star) (hN0 : |v| < N0) (hs : Shooting.start S r = .ok ic) (hc : InflationStartIC.call S.E ic (fun _ => some 0) = .ok y)
    (h0 : ISIC.phii2Nstar u V S N_star Ω h N0 rtol atol kw r = .ok (some v)) (hE : S.E.Shipped)
    (hrun : ∀ q res, q.x_ini = ic.x_ini S.E → q.y0 = (List.range S.E.idx.length).map y → q.events = ISIC.events N0 → V.ivp S.E q = .ok res →
      ∃ t y te ye X Y x0 x1, Run S.E D q res t y te ye X Y x0 x1) :
    ∃ kw', ∃ q res b s, ICCall.inflationStart S.E ic (kw'.rtol.getD (1 / 10 ^ 10)) (kw'.atol.getD (1 / 10 ^ 12)) kw'.rest (fun _ => some 0) = .ok (ic, y) ∧
      Requested S.E kw' ic y q ∧ q.x_ini = ic.x_ini S.E ∧ q.y0 = (List.range S.E.idx.length).map y ∧ q.events = ISIC.events N0 ∧ V.ivp S.E q = .ok res ∧
      solve V.ivp V.fmtE S.E (ICCall.inflationStart S.E ic) [] kw' = .ok (b, s) ∧
      ∃ n cs cs' κ, s.N_tot = some n ∧ N_star < n ∧ Shooting.calState S.E.K s = some cs ∧ Cal.calibrate u cs (Shooting.nestedArgs S.E.K Ω h) = .ok cs' ∧ cs'.cal = some κ ∧
        κ.N_star = N_star + v := by
  have hv := abs_lt.1 hN
  have hv0 := abs_lt.1 hN0
  unfold ISIC.phii2Nstar at h0
  rw [hs] at h0
  obtain ⟨ic', hic', h0⟩ := bind_ok h0
  injection hic' with hic'
  subst hic'
  obtain ⟨⟨b, s⟩, hsol, hobj⟩ := bind_ok h0
  obtain ⟨kw', hkw⟩ : ∃ kw' : SolveKw, kw' = ⟨some (ISIC.events N0), none, some rtol, some atol, kw⟩ := ⟨_, rfl⟩
  rw [← hkw] at hsol
  have hic : ICCall.inflationStart S.E ic (kw'.rtol.getD (1 / 10 ^ 10)) (kw'.atol.getD (1 / 10 ^ 12)) kw'.rest (fun _ => some 0) = .ok (ic, y) := by
    simp only [ICCall.inflationStart, hc, bind, Except.bind]
  obtain ⟨q, hqd⟩ : ∃ q : IvpCall, q = ⟨ic.x_ini S.E, ic.x_end, (List.range S.E.idx.length).map y, kw'.events.getD [], kw'.method.getD "RK45",
    kw'.rtol.getD (1 / 10 ^ 10), kw'.atol.getD (1 / 10 ^ 12), kw'.rest⟩ := ⟨_, rfl⟩
  have hq : Requested S.E kw' ic y q := hqd ▸ requested S.E kw' ic y
  have hqe : q.events = ISIC.events N0 := by rw [hqd, hkw]; rfl
  have hqx : q.x_ini = ic.x_ini S.E := by rw [hqd]
  have hqy : q.y0 = (List.range S.E.idx.length).map y := by rw [hqd]
  obtain ⟨res, hres⟩ : ∃ res, V.ivp S.E q = .ok res := by
    have h := solve_eq (ivp := V.ivp) (fmtE := V.fmtE) hE hic hq
    rw [hsol] at h
    obtain ⟨res, h1, -⟩ := bind_ok h.symm
    exact ⟨res, h1⟩
  refine ⟨kw', q, res, b, s, hic, hq, hqx, hqy, hqe, hres, hsol, ?_⟩
  obtain ⟨t, y', te, ye, X, Y, x0, x1, run⟩ := hrun q res hqx hqy hqe hres
  dsimp only at hobj
  unfold ISIC.objectiveStar at hobj
  by_cases hcase : ∃ n, s.N_tot = some n ∧ N_star < n
  · rw [if_pos hcase] at hobj
    obtain ⟨n, hn, hlt⟩ := hcase
    cases hcs : Shooting.calState S.E.K s with
    | none => rw [hcs] at hobj; cases hobj
    | some cs =>
      rw [hcs] at hobj
      dsimp only at hobj
      cases hcal : Cal.calibrate u cs (Shooting.nestedArgs S.E.K Ω h) with
      | error e => rw [hcal] at hobj; cases hobj
      | ok cs' =>
        rw [hcal] at hobj
        dsimp only at hobj
        injection hobj with hobj
        obtain ⟨κ, hκ, he⟩ := Option.map_eq_some_iff.1 hobj
        exact ⟨n, cs, cs', κ, hn, hlt, rfl, hcal, hκ, by linarith⟩
  · exfalso
    rw [if_neg hcase] at hobj
    obtain ⟨NE, hNE, hobj⟩ := bind_ok hobj
    obtain ⟨un, hu, hobj⟩ := bind_ok hobj
    obtain ⟨Ns, hNs, hobj⟩ := bind_ok hobj
    obtain ⟨lst, hlst, hobj⟩ := bind_ok hobj
    by_cases hc2 : un ≠ [] ∨ N0 ≤ lst
    · rw [if_pos hc2] at hobj
      have : lst = v := Option.some.inj (Except.ok.inj hobj)
      rcases hc2 with hc2 | hc2
      · have := until_last hqe hE run hic hq hres hsol (evArr_ok hNE) (key_ok hu) (getArr_ok hNs) (lastOf_ok hlst) hc2
        linarith
      · linarith
    · rw [if_neg hc2] at hobj
      obtain ⟨cc, hcc, hobj⟩ := bind_ok hobj
      by_cases hc3 : ∃ n, s.N_tot = some n ∧ n ≤ N_star
      · rw [if_pos hc3] at hobj
        have : 0 - N_star = v := Option.some.inj (Except.ok.inj hobj)
        linarith
      · rw [if_neg hc3] at hobj
        obtain ⟨ee, hee, hobj⟩ := bind_ok hobj
        obtain ⟨fst, hfst, hobj⟩ := bind_ok hobj
        obtain ⟨z, hz, hobj⟩ := bind_ok hobj
        by_cases hc4 : cc ≠ [] ∨ z = true
        · rw [if_pos hc4] at hobj
          have : 0 - N_star = v := Option.some.inj (Except.ok.inj hobj)
          linarith
        · rw [if_neg hc4] at hobj
          split at hobj
          · cases hobj
          · split_ifs at hobj

theorem calState_K {K : ℝ} {s : InflSol} {cs : CalState} (h : Shooting.calState K s = some cs) : cs.K = K := by
  unfold Shooting.calState at h
  obtain ⟨H, -, h⟩ := Option.bind_eq_some_iff.1 h
  obtain ⟨L, -, h⟩ := Option.bind_eq_some_iff.1 h
  have h := (Option.some.inj h).symm
  subst h
  rfl

/-- the calibration with `Omega_K0` and `h` uses the scale factor today that belongs to these -/
theorem a0_of {u : SI} {s s' : CalState} {Ω h : ℝ} {κ : Calib} (hK : s.K = 0 ∨ s.K = 1 ∨ s.K = -1) (hΩ : Ω ≠ 0)
    (hok : Cal.calibrate u s (Shooting.nestedArgs s.K Ω h) = .ok s') (hκ : s'.cal = some κ) : κ.a0_Mpc = u.c / (h * 100 * 1000) * √(-s.K / Ω) := by
  by_cases hK0 : s.K = 0
  · exfalso
    unfold Cal.calibrate at hok
    rw [if_pos hK0] at hok
    unfold Cal.flat at hok
    rw [if_pos ⟨Ω, rfl, hΩ⟩] at hok
    cases hok
  · have hK' : s.K = 1 ∨ s.K = -1 := hK.resolve_left hK0
    obtain ⟨p, hp, rfl⟩ := calibrate_curved hK0 hok
    obtain ⟨-, h', Ω', aM, a0, N0, nr, st, I, nc, hh, h0, hs, -, -, -, -, rfl⟩ := curved_ok hp
    have hh : h = h' := Option.some.inj hh
    subst hh
    obtain ⟨-, -, haM, -⟩ := curvedSel_a0 hK' h0 hs
    have hΩ' : Ω' = Ω := by
      unfold Cal.curvedSel at hs
      rw [if_pos (by unfold Shooting.nestedArgs defaultMethod; rw [if_neg hK0])] at hs
      unfold Cal.curvedOmega at hs
      dsimp only [Shooting.nestedArgs] at hs
      split_ifs at hs
      have := (Except.ok.inj hs)
      exact ((Prod.mk.inj this).1).symm
    have := Option.some.inj hκ
    rw [← this, ← hΩ']
    exact haM

/-- inflation-start conditions have positive density where the potential is positive -/
theorem density {E : Eqs} {D S : Set ℝ} {Y : ℝ → ℕ → ℝ} {x0 : ℝ} {a : ICArgs} {ic : IC} {y : ℕ → Option ℝ} (hT : E.Trajectory D S Y) (hx0 : x0 ∈ S)
    (hi : InflationStartIC.init E a = .ok ic) (hc : InflationStartIC.call E ic (fun _ => some 0) = .ok y) (hx : ic.x_ini E = some x0)
    (hy : ∀ i < E.idx.length, y i = some (Y x0 i)) (hV : 0 < E.pot.V ic.phi_i) : 0 < (C90.view E).H2 x0 (Y x0) + E.K * exp (-2 * E.efolds Y x0) := by
  have hb := boundary hT hx0 hi hc hx hy
  have hH := C92.H2_pos hT x0 hx0
  obtain ⟨y', hc', hrow, -⟩ := C26_inflationstart E ic (gives hc) fun _ => some 0
  have e : y' = y := by rw [hc] at hc'; injection hc' with h; exact h.symm
  subst e
  cases E with
  | other K p => exact absurd hT (by simp [Eqs.Trajectory])
  | T e =>
    obtain ⟨K, pot, te⟩ := e
    have h3 := C91.rowsT ⟨K, pot, te⟩
    have r0 := (hrow "phi" 0 (by cases te <;> rfl)).1 rfl
    rw [hy 0 (by omega)] at r0
    have r0 := Option.some.inj r0
    have hV : 0 < pot.V ic.phi_i := hV
    have hb : pot.V (Y x0 0) - Y x0 1 ^ 2 = 0 := hb
    show 0 < InflT.H2 ⟨K, pot, te⟩ (Y x0) + K * exp (-2 * Y x0 2)
    simp only [InflT.H2, T.get_H2, InflT.V, InflT.phi, InflT.dphidt, InflT._N]
    rw [← r0] at hV
    rw [show Y x0 1 ^ 2 = pot.V (Y x0 0) by linarith]
    linarith
  | N e =>
    obtain ⟨K, pot, tt, te⟩ := e
    have h3 := C91.rowsN ⟨K, pot, tt, te⟩
    have r0 := (hrow "phi" 0 (by cases tt <;> cases te <;> rfl)).1 rfl
    rw [hy 0 (by omega)] at r0
    have r0 := Option.some.inj r0
    have hV : 0 < pot.V ic.phi_i := hV
    rw [← r0] at hV
    show 0 < InflN.H2 ⟨K, pot, tt, te⟩ x0 (Y x0) + K * exp (-2 * x0)
    have hH : 0 < InflN.H2 ⟨K, pot, tt, te⟩ x0 (Y x0) := hH
    have hb : pot.V (Y x0 0) - InflN.H2 ⟨K, pot, tt, te⟩ x0 (Y x0) * Y x0 1 ^ 2 = 0 := hb
    have hd : InflN.H2 ⟨K, pot, tt, te⟩ x0 (Y x0) = (2 * pot.V (Y x0 0) - 6 * K * exp (-2 * x0)) / (6 - Y x0 1 ^ 2) := rfl
    have hne : 6 - Y x0 1 ^ 2 ≠ 0 := fun h => by rw [hd, h, div_zero] at hH; exact lt_irrefl _ hH
    rw [eq_div_iff hne] at hd
    linarith

/-- the phase of inflation of a run that reports `N_tot` -/
theorem phase {E : Eqs} {D : Set ℝ} {q : IvpCall} {res : Dict Attr} {t : List ℝ} {y : List (List ℝ)} {te : List (List ℝ)} {ye : List (List (List ℝ))} {X : Set ℝ}
    {Y : ℝ → ℕ → ℝ} {x0 x1 : ℝ} (run : Run E D q res t y te ye X Y x0 x1) (hp : PlainInflation q.events) (hV : IsDerivOn D E.pot.V E.pot.dV) (hsub : Icc x0 x1 ⊆ X)
    (hρ : 0 < (C90.view E).H2 x0 (Y x0) + E.K * exp (-2 * E.efolds Y x0)) (hclean : StartsCleanly (E.accel Y) x0 x1) {fmtE : ℝ → String} {raw : RawSol}
    (hg : raw.grid = (List.range t.length).map (fun j => (t.getD j 0, fun i => (y.getD i []).getD j 0)))
    (hev : ∀ k l, raw.events.get? k = some l ↔ ∃ j ts ss, LastAt (q.events.map (Event.name fmtE)) k j ∧ te[j]? = some ts ∧ ye[j]? = some ss ∧
        l = ts.zip (ss.map fun st i => st.getD i 0)) {n : ℝ} (hn : (inflationSol (C90.view E) E.pot.V E.K raw).N_tot = some n) :
    ∃ xb xe, x0 ≤ xb ∧ xb < xe ∧ xe ≤ x1 ∧ (inflationSol (C90.view E) E.pot.V E.K raw).start.N_beg = some (E.efolds Y xb) ∧
      (inflationSol (C90.view E) E.pot.V E.K raw).fin.N_end = some (E.efolds Y xe) ∧ n = E.efolds Y xe - E.efolds Y xb ∧ ∀ x ∈ Icc xb xe, 0 ≤ E.accel Y x := by
  have hE := shipped run.solution
  have hQ : ∀ x, (C90.view E).inflating x (C90.trunc E.idx.length Y x) = (C90.view E).inflating x (Y x) := fun x => inflating_congr hE trunc_lt x
  have hQN : ∀ x, (C90.view E).N x (C90.trunc E.idx.length Y x) = E.efolds Y x := fun x => N_congr hE trunc_lt x
  have hf := C90.faithful (raw := raw) (fmtE := fmtE) (C90.Integrated.trunc run.integrated hp hQ) (fun x i hi => by rw [C90.trunc, if_neg (by omega)]) run.shape hg hev hp
  obtain ⟨mN, -, -⟩ := C92.facts run.isOpen run.convex run.solution hV
  have hmono : StrictMonoOn (fun x => (C90.view E).N x (C90.trunc E.idx.length Y x)) (Icc x0 x1) := by
    simp only [hQN]; exact mN.mono hsub
  have hst := C92.starts (raw := raw) run.solution run.start hρ hf.start
  obtain ⟨hd, hnone, -⟩ := C25_duration_mask (C90.view E) E.pot.V E.K raw
  obtain ⟨m, hm⟩ : ∃ m, (inflationSol (C90.view E) E.pot.V E.K raw).inflation_mask = some m := by
    cases h : (inflationSol (C90.view E) E.pot.V E.K raw).inflation_mask with
    | none => rw [hnone.1 h] at hn; cases hn
    | some m => exact ⟨m, rfl⟩
  obtain ⟨xb, xe, h0b, hbe, he1, hNb, hNe, hpos, -⟩ := C77_generic E.pot.V E.K hf hmono hst (by simp only [hQ]; exact hclean) hm
  simp only [hQ, hQN] at hNb hNe hpos
  obtain ⟨b, e, hb, he, hnn⟩ := (hd n).1 hn
  rw [hNb] at hb
  rw [hNe] at he
  exact ⟨xb, xe, h0b, hbe, he1, hNb, hNe, by rw [Option.some.inj hb, Option.some.inj he]; linarith, hpos⟩

/-- along two runs from the same state, equal e-folds are reached at the same point -/
theorem point_eq {E : Eqs} {X1 X2 : Set ℝ} {Y1 Y2 : ℝ → ℕ → ℝ} {x0 a1 a2 p1 p2 : ℝ} (hE : E.Shipped) (hY : ∀ x ∈ X1, x ∈ X2 → ∀ i < E.idx.length, Y1 x i = Y2 x i)
    (m1 : StrictMonoOn (E.efolds Y1) X1) (m2 : StrictMonoOn (E.efolds Y2) X2) (s1 : Icc x0 a1 ⊆ X1) (s2 : Icc x0 a2 ⊆ X2) (h1 : p1 ∈ Icc x0 a1) (h2 : p2 ∈ Icc x0 a2)
    (h : E.efolds Y1 p1 = E.efolds Y2 p2) : p1 = p2 := by
  rcases le_total p1 p2 with hle | hle
  · have hp : p1 ∈ X2 := s2 ⟨h1.1, hle.trans h2.2⟩
    refine m2.injOn hp (s2 h2) ?_
    rw [← h]
    exact (N_congr hE (hY p1 (s1 h1) hp) p1).symm
  · have hp : p2 ∈ X1 := s1 ⟨h2.1, hle.trans h1.2⟩
    refine m1.injOn (s1 h1) hp ?_
    rw [h]
    exact (N_congr hE (hY p2 hp (s2 h2)) p2).symm

end C93

/-- **C93, `ISIC_NsOk` through `solve`.**  `solve(ISIC_NsOk(equations, N_star, Omega_K0, h, phi_i_bracket, …), **kwargs)` with `N_star > 0`: any equations, bracket, `N_i` or
`Omega_Ki`, events and solver settings, with a scale factor today above one Planck length.  Suppose the shooting finds initial conditions, at a positive potential, and
scipy's runs from these are faithful.  Then the returned object starts from `InflationStartIC` conditions with the requested `N_i` or `Omega_Ki`; and if it reports `N_tot`, this is
more than `N_star`, and there is a phase of inflation `[xb, xe]` of the trajectory with these ends; if the expansion accelerates in its interior, `aH` of the
trajectory passes the pivot scale for the universe with the given `Omega_K0` and `h` exactly once in it, `N_star` e-folds before its end, up to the residual `ε` the root finder
leaves in the objective and the width of one cell in the grid of the nested run; and a calibration of the returned object with the same `Omega_K0` and `h` yields such an `N_star` up to one cell of its own grid. -/
theorem C93_N_star (u : SI) (V : ISIC.Env) (S : Shooting.Setup) (hK : S.E.K = 0 ∨ S.E.K = 1 ∨ S.E.K = -1) {D : Set ℝ} {d3 : ℝ → ℝ} (hD : IsOpen D)
    (h1 : IsDerivOn D S.E.pot.V S.E.pot.dV) (h2 : IsDerivOn D S.E.pot.dV S.E.pot.d2V) (h3 : IsDerivOn D S.E.pot.d2V d3)
    {ε : ℝ} (hroot : ∀ f lo hi r, V.root f lo hi = .ok r → ∃ v, f r = .ok (some v) ∧ |v| ≤ ε) {N_star Ω h lo hi a0 : ℝ} (hN : ε < N_star)
    (ha : BB.get_a0 u h Ω "planck" = .ok a0) (ha0 : ε < log a0)
    {kw : SolveKw} {ic : IC} {y : ℕ → Option ℝ} {q : IvpCall} {res : Dict Attr}
    (hok : ISIC.nsok u V S N_star Ω h lo hi (kw.rtol.getD (1 / 10 ^ 10)) (kw.atol.getD (1 / 10 ^ 12)) kw.rest (fun _ => some 0) = .ok (ic, y)) (hq : Requested S.E kw ic y q)
    (hp : PlainInflation q.events) (hres : V.ivp S.E q = .ok res) (hV : 0 < S.E.pot.V ic.phi_i)
    (hrun : ∀ q' res', q'.x_ini = q.x_ini → q'.y0 = q.y0 → q'.events = ISIC.events (log a0) → V.ivp S.E q' = .ok res' →
      ∃ t y te ye X Y x0 x1, Run S.E D q' res' t y te ye X Y x0 x1 ∧ Icc x0 x1 ⊆ X ∧ t.Pairwise (· < ·) ∧ StartsCleanly (S.E.accel Y) x0 x1)
    {t : List ℝ} {yy : List (List ℝ)} {te : List (List ℝ)} {ye : List (List (List ℝ))} {X : Set ℝ} {Y : ℝ → ℕ → ℝ} {x0 x1 : ℝ} (run : Run S.E D q res t yy te ye X Y x0 x1)
    (hsub : Icc x0 x1 ⊆ X) (ht : t.Pairwise (· < ·)) (hclean : StartsCleanly (S.E.accel Y) x0 x1) :
    InflationStartIC.init S.E ⟨ic.phi_i, S.t_i, S.eta_i, S.x_end, S.N_i, S.Omega_Ki⟩ = .ok ic ∧
    ∃ o s, solve V.ivp V.fmtE S.E (ISIC.nsok u V S N_star Ω h lo hi) [] kw = .ok (o, s) ∧ ∀ n, s.N_tot = some n → N_star < n ∧
      ∃ xb xe, x0 ≤ xb ∧ xb < xe ∧ xe ≤ x1 ∧ s.start.N_beg = some (S.E.efolds Y xb) ∧ s.fin.N_end = some (S.E.efolds Y xe) ∧ n = S.E.efolds Y xe - S.E.efolds Y xb ∧
        (∀ x ∈ Icc xb xe, 0 ≤ S.E.accel Y x) ∧ ((∀ x ∈ Ioo xb xe, 0 < S.E.accel Y x) →
          ∃ xs ∈ Ioo xb xe, S.E.aH Y xs = SI.K_STAR * (u.c / (h * 100 * 1000) * √(-S.E.K / Ω)) ∧
            (∀ x ∈ Icc xb xe, S.E.aH Y x = SI.K_STAR * (u.c / (h * 100 * 1000) * √(-S.E.K / Ω)) → x = xs) ∧
            (∃ q' res' t', q'.x_ini = q.x_ini ∧ q'.y0 = q.y0 ∧ q'.events = ISIC.events (log a0) ∧ V.ivp S.E q' = .ok res' ∧ res'.get? "t" = some (.arr t') ∧
              ∃ N, |N - N_star| ≤ ε ∧ SameCell S.E Y t' xb xe xs N) ∧
            ∀ cs cs' κ, Shooting.calState S.E.K s = some cs → Cal.calibrate u cs (Shooting.nestedArgs S.E.K Ω h) = .ok cs' → cs'.cal = some κ →
              SameCell S.E Y t xb xe xs κ.N_star) := by
  have hE := C91.shipped run.solution
  have hqu := hq.unique hE (requested S.E kw ic y)
  have hqx : q.x_ini = ic.x_ini S.E := by rw [hqu]
  have hqy : q.y0 = (List.range S.E.idx.length).map y := by rw [hqu]
  obtain ⟨r, hΩ, hr, hs, hc⟩ : ∃ r, Ω ≠ 0 ∧
      V.root (ISIC.phii2Nstar u V S N_star Ω h (log a0) (kw.rtol.getD (1 / 10 ^ 10)) (kw.atol.getD (1 / 10 ^ 12)) kw.rest) lo hi = .ok r ∧
      Shooting.start S r = .ok ic ∧ InflationStartIC.call S.E ic (fun _ => some 0) = .ok y := by
    have hok' := hok
    unfold ISIC.nsok at hok'
    by_cases hΩ : Ω = 0
    · rw [if_pos hΩ] at hok'; cases hok'
    rw [if_neg hΩ] at hok'
    obtain ⟨ic0, hhi, hok'⟩ := C91.bind_ok hok'
    obtain ⟨a0', ha', hok'⟩ := C91.bind_ok hok'
    rw [ha] at ha'
    injection ha' with ha'
    subst ha'
    obtain ⟨r, hr, hok'⟩ := C91.bind_ok hok'
    obtain ⟨ic', hs, hok'⟩ := C91.bind_ok hok'
    obtain ⟨y', hc, hok'⟩ := C91.bind_ok hok'
    injection hok' with e
    injection e with e1 e2
    subst e1 e2
    exact ⟨r, hΩ, hr, hs, hc⟩
  have hphi : ic.phi_i = r := by
    have h3 := hs
    unfold Shooting.start InflationStartIC.init at h3
    dsimp only at h3
    split at h3
    · split_ifs at h3
      · cases h3; rfl
    · split at h3
      · split_ifs at h3
        · cases h3; rfl
      · cases h3
  have hinit : InflationStartIC.init S.E ⟨ic.phi_i, S.t_i, S.eta_i, S.x_end, S.N_i, S.Omega_Ki⟩ = .ok ic := by rw [hphi]; exact hs
  obtain ⟨v, hv, hvε⟩ := hroot _ _ _ _ hr
  obtain ⟨kw', q', res', b', s', hic', hq', hqx', hqy', hqe', hres', hsol', n', cs', cs'', κ', hn', hlt, hcs', hcal', hκ', hNs⟩ :=
    C93.inner (D := D) (hvε.trans_lt hN) (hvε.trans_lt ha0) hs hc hv hE fun q' res' a1 a2 a3 a4 => by
      obtain ⟨t, y, te, ye, X, Y, x0, x1, hr, -⟩ := hrun q' res' (a1.trans hqx.symm) (a2.trans hqy.symm) a3 a4
      exact ⟨t, y, te, ye, X, Y, x0, x1, hr⟩
  obtain ⟨t', yy', te', ye', X', Y', x0', x1', run', hsub', ht', hclean'⟩ := hrun q' res' (hqx'.trans hqx.symm) (hqy'.trans hqy.symm) hqe' hres'
  have hpl' : PlainInflation q'.events := by rw [hqe']; exact C91.plain_events _
  -- the same state
  have ex : x0 = x0' := by
    have := run.from_x
    rw [hqx, ← hqx', run'.from_x] at this
    exact (Option.some.inj this).symm
  subst ex
  have hYY := C91.traj_unique hD h1 h2 h3 run.solution run'.solution run.isOpen run'.isOpen run.convex run'.convex run.start run'.start fun i hi => by
    have := run.from_y i hi
    rw [hqy, ← hqy', run'.from_y i hi] at this
    exact (Option.some.inj (Option.some.inj this)).symm
  have hstate : ∀ {q : IvpCall} {Y : ℝ → ℕ → ℝ}, q.y0 = (List.range S.E.idx.length).map y → (∀ i < S.E.idx.length, q.y0[i]? = some (some (Y x0 i))) →
      ∀ i < S.E.idx.length, y i = some (Y x0 i) := fun {q Y} e hf i hi => by
    have := hf i hi
    rw [e] at this
    simpa [List.getElem?_map, List.getElem?_range hi] using this
  have hρ := C93.density run.solution run.start hinit hc (by rw [← hqx]; exact run.from_x) (hstate hqy run.from_y) hV
  have hρ' := C93.density run'.solution run'.start hinit hc (by rw [← hqx']; exact run'.from_x) (hstate hqy' run'.from_y) hV
  refine ⟨hinit, ?_⟩
  obtain ⟨o1, s1, o2, s2, k1, k2, hstart, hfin, htot⟩ := C91_independent V.ivp V.ivp V.fmtE V.fmtE hD h1 h2 h3 hic' hq' hok hq (by rw [hqx', hqx]) (by rw [hqy', hqy])
    hres' hres run' run hpl' hp
  have e1 : s1 = s' := by rw [hsol'] at k1; injection k1 with k; injection k with _ k; exact k.symm
  subst e1
  obtain ⟨o, raw, hs1, hg, hev, -⟩ := C90_solve V.ivp V.fmtE S.E hE _ kw ic y q hok hq hres run.shape
  have e2 : s2 = inflationSol (C90.view S.E) S.E.pot.V S.E.K raw := by rw [k2] at hs1; injection hs1 with k; injection k
  refine ⟨o2, s2, k2, fun n hn => ?_⟩
  have hnn : n = n' := by
    rw [hn', hn] at htot
    exact (Option.some.inj (htot (by simp) (by simp))).symm
  subst hnn
  refine ⟨hlt, ?_⟩
  obtain ⟨xb, xe, h0b, hbe, he1, hNb, hNe, hnt, hpos⟩ := C93.phase run hp h1 hsub hρ hclean hg hev (by rw [← e2]; exact hn)
  rw [← e2] at hNb hNe
  refine ⟨xb, xe, h0b, hbe, he1, hNb, hNe, hnt, hpos, fun hacc => ?_⟩
  obtain ⟨mN, cN, -⟩ := C92.facts run.isOpen run.convex run.solution h1
  obtain ⟨mN', cN', -⟩ := C92.facts run'.isOpen run'.convex run'.solution h1
  -- the pivot scale of the nested run
  obtain ⟨o3, s3, k3, hpv⟩ := C92_pivot V.ivp V.fmtE hK hic' hq' hres' run'.shape run'.isOpen run'.convex run'.solution h1 run'.start hsub' hρ' run'.integrated ht' hpl' hclean'
  have e3 : s3 = s1 := by rw [hsol'] at k3; injection k3 with k; injection k with _ k; exact k.symm
  subst e3
  obtain ⟨xb', xe', h0b', hbe', he1', hNb', hNe', hpos', hrest⟩ := hpv u cs' _ cs'' κ' hcs' rfl hcal' hκ'
  have hst := hstart (by rw [hNb']; simp) (by rw [hNb]; simp)
  have hfi := hfin (by rw [hNe']; simp) (by rw [hNe]; simp)
  have eb : xb = xb' := by
    refine C93.point_eq hE hYY mN mN' hsub hsub' ⟨h0b, (hbe.trans_le he1).le⟩ ⟨h0b', (hbe'.trans_le he1').le⟩ ?_
    rw [hst, hNb] at hNb'
    exact Option.some.inj hNb'
  have ee : xe = xe' := by
    refine C93.point_eq hE hYY mN mN' hsub hsub' ⟨h0b.trans hbe.le, he1⟩ ⟨h0b'.trans hbe'.le, he1'⟩ ?_
    rw [hfi, hNe] at hNe'
    exact Option.some.inj hNe'
  subst eb ee
  -- the trajectories agree up to the end of inflation
  have inX : ∀ {x}, x0 ≤ x → x ≤ xe → x ∈ X := fun h h' => hsub ⟨h, h'.trans he1⟩
  have inX' : ∀ {x}, x0 ≤ x → x ≤ xe → x ∈ X' := fun h h' => hsub' ⟨h, h'.trans he1'⟩
  have eN : ∀ {x}, x0 ≤ x → x ≤ xe → S.E.efolds Y' x = S.E.efolds Y x := fun {x} h h' => (C91.N_congr hE (hYY x (inX h h') (inX' h h')) x).symm
  have eA : ∀ {x}, x0 ≤ x → x ≤ xe → S.E.accel Y' x = S.E.accel Y x := fun {x} h h' => (C91.inflating_congr hE (hYY x (inX h h') (inX' h h')) x).symm
  have eH : ∀ {x}, x0 ≤ x → x ≤ xe → S.E.aH Y' x = S.E.aH Y x := fun {x} h h' => by
    unfold Eqs.aH
    rw [eN h h', C92.H2_congr hE (hYY x (inX h h') (inX' h h')) x]
  obtain ⟨-, i, j, a, b, c1, c2, c3, c4, c5, c6, c7, xc, hxc, xs, hxs, c8, c9, -, c10, c11, -⟩ := hrest fun x hx => by
    rw [eA (h0b.trans hx.1.le) hx.2.le]; exact hacc x hx
  have eK := C93.calState_K hcs'
  have eM := C93.a0_of (by rw [eK]; exact hK) hΩ (by rw [eK]; exact hcal') hκ'
  rw [eK] at eM
  have hxs' : xb < xs ∧ xs < xe := ⟨c4.trans_le hxs.1, hxs.2.trans_lt c6⟩
  have hxc' : xb < xc ∧ xc < xe := ⟨c4.trans_le hxc.1, hxc.2.trans_lt c6⟩
  refine ⟨xs, hxs', ?_, fun x hx h => ?_, ⟨q', res', t', hqx'.trans hqx.symm, hqy'.trans hqy.symm, hqe', hres', run'.shape.get_t, ?_⟩, fun cs cs' κ hcs hcal hκ => ?_⟩
  · rw [← eH (h0b.trans hxs'.1.le) hxs'.2.le, c10, eM]
  · exact c11 x hx (by rw [eH (h0b.trans hx.1) hx.2, h, eM])
  · refine ⟨N_star + v, by rw [add_sub_cancel_left]; exact hvε, i, j, a, b, c1, c2, c3, c4, c5, c6, fun k w h1 h2 hw => ?_, hxs, xc, hxc, ?_⟩
    · obtain ⟨l, v, d1, d2, d3, d4⟩ := c7 k w h1 h2 hw
      have hlt' : ∀ {a b : ℕ} {v w : ℝ}, a < b → t'[a]? = some v → t'[b]? = some w → v < w := fun {a b v w} hab hv hw => by
        obtain ⟨h1, rfl⟩ := List.getElem?_eq_some_iff.1 hv
        obtain ⟨h2, rfl⟩ := List.getElem?_eq_some_iff.1 hw
        exact List.pairwise_iff_getElem.1 ht' a b h1 h2 hab
      have hv0 := (run'.integrated.inside v (List.mem_of_getElem? d2)).1
      have hw1 : w < xe := (hlt' h2 hw c3).trans c6
      have hw0 := (run'.integrated.inside w (List.mem_of_getElem? hw)).1
      exact ⟨l, v, d1, d2, d3, by rw [← eH hv0 (d3.trans hbe).le, ← eH hw0 hw1.le]; exact d4⟩
    · rw [← eN (h0b.trans hbe.le) le_rfl, ← eN (h0b.trans hxc'.1.le) hxc'.2.le, c9, hNs]
  · obtain ⟨o4, s4, k4, hpv4⟩ := C92_pivot V.ivp V.fmtE hK hok hq hres run.shape run.isOpen run.convex run.solution h1 run.start hsub hρ run.integrated ht hp hclean
    have e4 : s4 = s2 := by rw [k2] at k4; injection k4 with k; injection k with _ k; exact k.symm
    subst e4
    obtain ⟨yb, ye, g0, g1, g2, g3, g4, -, grest⟩ := hpv4 u cs _ cs' κ hcs rfl hcal hκ
    have eb : xb = yb := mN.injOn (inX h0b hbe.le) (hsub ⟨g0, (g1.trans_le g2).le⟩) (by rw [hNb] at g3; exact Option.some.inj g3)
    have ee : xe = ye := mN.injOn (inX (h0b.trans hbe.le) le_rfl) (hsub ⟨g0.trans g1.le, g2⟩) (by rw [hNe] at g4; exact Option.some.inj g4)
    subst eb ee
    obtain ⟨-, i, j, a, b, f1, f2, f3, f4, f5, f6, f7, zc, hzc, zs, hzs, -, f9, -, f10, -, -⟩ := grest hacc
    have eK2 := C93.calState_K hcs
    have eM2 := C93.a0_of (by rw [eK2]; exact hK) hΩ (by rw [eK2]; exact hcal) hκ
    rw [eK2] at eM2
    have hz : xb < zs ∧ zs < xe := ⟨f4.trans_le hzs.1, hzs.2.trans_lt f6⟩
    have : zs = xs := c11 zs ⟨hz.1.le, hz.2.le⟩ (by rw [eH (h0b.trans hz.1.le) hz.2.le, f10, eM2, eM])
    subst this
    exact ⟨i, j, a, b, f1, f2, f3, f4, f5, f6, f7, hzs, zc, hzc, f9⟩

/-! ## The hypotheses are met -/

namespace C93.Ex
open C91
open scoped ContDiff

/-! An open universe with scale factor `a(t) = 1 + 10 t - sin t`: inflation from `t = 0` to `t = π`. -/

noncomputable def a (t : ℝ) : ℝ := 1 + 10 * t - sin t
noncomputable def p (t : ℝ) : ℝ := -1 + (10 - cos t) ^ 2 - a t * sin t
noncomputable def f (t : ℝ) : ℝ := -(√(2 * p t) / a t)
/-- the times considered -/
def S : Set ℝ := Ioo (-1 / 100) 4

theorem a_pos {t : ℝ} (ht : t ∈ S) : 0 < a t := by
  unfold a
  rcases le_total 0 t with h | h
  · have := sin_le h; linarith
  · have h1 := ht.1
    have := sin_nonpos_of_nonpos_of_neg_pi_le h (by have := pi_gt_three; linarith)
    linarith

theorem p_pos {t : ℝ} (ht : t ∈ S) : 0 < p t := by
  have ha := a_pos ht
  have h1 : a t * sin t ≤ a t * 1 := mul_le_mul_of_nonneg_left (sin_le_one t) ha.le
  have h2 : a t ≤ 42 := by
    have h3 := neg_one_le_sin t
    have h4 := ht.2
    unfold a; linarith
  have h5 := cos_le_one t
  have h6 : 81 ≤ (10 - cos t) ^ 2 := by nlinarith
  unfold p; linarith

theorem history : Reconstruct.History (-1) (-1 / 100) 4 0 a (fun t => 10 - cos t) sin f where
  mem := by norm_num
  d1 := fun t _ => by
    refine ((((hasDerivAt_id t).const_mul 10).const_add 1).sub (hasDerivAt_sin t)).congr_deriv ?_
    ring
  d2 := fun t _ => by
    refine ((hasDerivAt_const t (10 : ℝ)).sub (hasDerivAt_cos t)).congr_deriv ?_
    ring
  sa := by
    have : ContDiff ℝ ∞ a := (contDiff_const.add (contDiff_const.mul contDiff_id)).sub contDiff_sin
    exact this.contDiffOn
  sa1 := (contDiff_const.sub contDiff_cos).contDiffOn
  sf := by
    have s1 : ContDiff ℝ ∞ a := (contDiff_const.add (contDiff_const.mul contDiff_id)).sub contDiff_sin
    have s2 : ContDiff ℝ ∞ p := (contDiff_const.add ((contDiff_const.sub contDiff_cos).pow 2)).sub (s1.mul contDiff_sin)
    have s3 : ContDiffOn ℝ ∞ (fun t => √(2 * p t)) S := (contDiff_const.mul s2).contDiffOn.sqrt fun t ht => by have := p_pos ht; positivity
    exact (s3.div s1.contDiffOn fun t ht => (a_pos ht).ne').neg
  pos := fun t ht => a_pos ht
  grow := fun t _ => by have := cos_le_one t; show (0 : ℝ) < 10 - cos t; linarith
  neg := fun t ht => by
    have h1 := a_pos ht
    have h2 := p_pos ht
    have : 0 < √(2 * p t) / a t := by positivity
    unfold f; linarith
  eq := fun t ht => by
    have h1 := (a_pos ht).ne'
    have h2 := p_pos ht
    unfold f
    rw [neg_sq, div_pow, sq_sqrt (by linarith), div_mul_cancel₀ _ (pow_ne_zero 2 h1)]
    unfold p; ring

noncomputable def pot : PotFns := (Reconstruct.exists_potential history).choose
noncomputable def φ : ℝ → ℝ := (Reconstruct.exists_potential history).choose_spec.choose
noncomputable def e : InflT := ⟨-1, pot, false⟩
noncomputable def E : Eqs := .T e
noncomputable def Y (t : ℝ) : ℕ → ℝ
  | 0 => φ t
  | 1 => f t
  | _ => log (a t)
def D : Set ℝ := φ '' S

theorem facts : φ 0 = 0 ∧ IsOpen D ∧ IsDerivOn D pot.V pot.dV ∧ IsDerivOn D pot.dV pot.d2V ∧ IsDerivOn D pot.d2V pot.d3V ∧
    (∀ t ∈ S, pot.V (φ t) = (2 * (10 - cos t) ^ 2 + 2 * -1 + a t * sin t) / a t ^ 2) ∧
    SolvesODE S e.rows e.call Y ∧ ∀ t ∈ S, e.H2 (Y t) = ((10 - cos t) / a t) ^ 2 := by
  obtain ⟨h0, h1, h2, h3, h4, h5, h6⟩ := (Reconstruct.exists_potential history).choose_spec.choose_spec
  obtain ⟨h7, h8⟩ := h6 Y fun t => ⟨rfl, rfl, rfl⟩
  exact ⟨h0, h1, h2, h3, h4, h5, h7, h8⟩

theorem rows3 : E.idx.length = 3 := by show e.rows = 3; rw [InflT.rows_eq]; rfl

theorem aH_pos (t : ℝ) : 0 < 10 - cos t := by have := cos_le_one t; linarith

theorem f_sq {t : ℝ} (ht : t ∈ S) : f t ^ 2 = 2 * p t / a t ^ 2 := by
  unfold f
  rw [neg_sq, div_pow, sq_sqrt (by have := p_pos ht; linarith)]

theorem accel {t : ℝ} (ht : t ∈ S) : e.inflating (Y t) = 3 * sin t / a t := by
  have h := facts.2.2.2.2.2.1 t ht
  show pot.V (φ t) - f t ^ 2 = _
  rw [h, f_sq ht]
  have := (a_pos ht).ne'
  unfold p
  field_simp
  ring

theorem mem_S {t : ℝ} (h0 : 0 ≤ t) (h1 : t ≤ 7 / 2) : t ∈ S := ⟨by linarith, by linarith⟩

theorem accel_pos {t : ℝ} (h0 : 0 < t) (h1 : t < π) : 0 < e.inflating (Y t) := by
  have h := pi_lt_d2
  have ht := mem_S h0.le (by linarith)
  rw [accel ht]
  have := a_pos ht
  have := sin_pos_of_pos_of_lt_pi h0 h1
  positivity

theorem accel_neg {t : ℝ} (h0 : π < t) (h1 : t ≤ 7 / 2) : e.inflating (Y t) < 0 := by
  have h := pi_gt_three
  have ht := mem_S (by linarith) h1
  rw [accel ht]
  have := a_pos ht
  have hs : 0 < sin (t - π) := sin_pos_of_pos_of_lt_pi (by linarith) (by linarith)
  rw [sin_sub_pi] at hs
  exact div_neg_of_neg_of_pos (by linarith) this

theorem accel_zero : e.inflating (Y 0) = 0 ∧ e.inflating (Y π) = 0 := by
  have h := pi_gt_three
  have h' := pi_lt_d2
  rw [accel (mem_S le_rfl (by norm_num)), accel (mem_S (by linarith) (by linarith))]
  simp

theorem trajectory : E.Trajectory D S Y :=
  ⟨facts.2.2.2.2.2.2.1, fun t ht => by rw [facts.2.2.2.2.2.2.2 t ht]; exact pow_pos (div_pos (aH_pos t) (a_pos ht)) 2, fun t ht => ⟨t, ht, rfl⟩⟩


/-! Runs: scipy samples `t = 0, π/2, 2π/3` and the end, which is `π` if the end of inflation is terminal and `7/2` otherwise. -/

noncomputable def st (t : ℝ) : List ℝ := [Y t 0, Y t 1, Y t 2]
def stopsAt (events : List Event) : Bool := events.any fun ev => C91.Ex.isEnd ev && ev.terminal
noncomputable def x1 (events : List Event) : ℝ := if stopsAt events then π else 7 / 2
noncomputable def te (events : List Event) : List (List ℝ) := events.map fun ev => if C91.Ex.isEnd ev then [π] else []
noncomputable def ye (events : List Event) : List (List (List ℝ)) := events.map fun ev => if C91.Ex.isEnd ev then [st π] else []
noncomputable def gridTo (X : ℝ) : List ℝ := [0, π / 2, 2 * π / 3, X]
noncomputable def grid (events : List Event) : List ℝ := gridTo (x1 events)
noncomputable def rows (events : List Event) : List (List ℝ) := [(grid events).map fun t => Y t 0, (grid events).map fun t => Y t 1, (grid events).map fun t => Y t 2]
noncomputable def res (events : List Event) : Dict Attr :=
  [("t", .arr (grid events)), ("y", .rows (rows events)), ("t_events", .tEvents (te events)), ("y_events", .yEvents (ye events)), ("message", .str "")]

theorem x1_bounds (events : List Event) : π ≤ x1 events ∧ x1 events ≤ 7 / 2 := by
  have := pi_lt_d2
  unfold x1
  split_ifs
  · exact ⟨le_rfl, by linarith⟩
  · exact ⟨by linarith, le_rfl⟩

theorem te_get {events : List Event} {j : ℕ} {ev : Event} {ts : List ℝ} (he : events[j]? = some ev) (h : (te events)[j]? = some ts) :
    ts = if C91.Ex.isEnd ev then [π] else [] := by
  rw [te, List.getElem?_map, he] at h
  exact (Option.some.inj h).symm

theorem ends {X : ℝ} (h1 : π ≤ X) (h2 : X ≤ 7 / 2) : Detects (fun x => e.inflating (Y x)) 0 X (-1) [π] where
  sorted := by simp
  sound := fun c hc => by
    rw [List.mem_singleton] at hc
    subst hc
    refine ⟨pi_pos, h1, accel_zero.2, ⟨0, le_rfl, pi_pos, fun x hx h0 => ?_⟩, fun h => ⟨X, h, fun x hx => ?_⟩⟩
    · have := accel_pos h0 hx.2
      show -1 * e.inflating (Y x) < 0
      linarith
    · have := accel_neg hx.1 (hx.2.trans h2)
      show 0 < -1 * e.inflating (Y x)
      linarith
  complete := fun a b h0 hab hb ha hb' => by
    refine ⟨π, by simp, ?_, ?_⟩
    · by_contra h
      push Not at h
      have := accel_neg h (by linarith)
      have ha : -1 * e.inflating (Y a) < 0 := ha
      linarith
    · by_contra h
      push Not at h
      have := accel_pos (h0.trans_lt hab) h
      have hb' : 0 < -1 * e.inflating (Y b) := hb'
      linarith

theorem begins {X : ℝ} (h2 : X ≤ 7 / 2) : Detects (fun x => e.inflating (Y x)) 0 X 1 [] where
  sorted := by simp
  sound := by simp
  complete := fun a b h0 hab hb ha hb' => by
    have ha : 1 * e.inflating (Y a) < 0 := ha
    have hb' : 0 < 1 * e.inflating (Y b) := hb'
    exfalso
    by_cases h : π < b
    · have := accel_neg h (hb.trans h2)
      linarith
    · rcases h0.eq_or_lt with rfl | h0
      · rw [accel_zero.1] at ha; linarith
      · have := accel_pos h0 (lt_of_lt_of_le hab (not_lt.1 h))
        linarith

theorem clean (X : ℝ) : StartsCleanly (E.accel Y) 0 X := by
  intro _ x h0 _ h
  have hpi := pi_pos
  refine ⟨min x π / 2, by have := lt_min h0 hpi; linarith, by have := min_le_left x π; have := lt_min h0 hpi; linarith, ?_⟩
  exact accel_pos (by have := lt_min h0 hpi; linarith) (by have := min_le_right x π; have := lt_min h0 hpi; linarith)

theorem sorted (events : List Event) : (grid events).Pairwise (· < ·) := by
  have h := x1_bounds events
  have hpi := pi_pos
  simp only [grid, gridTo, List.pairwise_cons, List.mem_cons, List.not_mem_nil, or_false]
  refine ⟨?_, ?_, ?_, by simp⟩
  · rintro x (rfl | rfl | rfl) <;> linarith
  · rintro x (rfl | rfl) <;> linarith
  · rintro x rfl; linarith

theorem shape (events : List Event) : IvpShape E.idx.length events.length (res events) (grid events) (rows events) (te events) (ye events) where
  t_ne := by simp [grid, gridTo]
  get_t := rfl
  get_y := rfl
  get_te := rfl
  get_ye := rfl
  rows := by rw [rows3]; rfl
  cols := by simp [rows]
  te_len := by simp [te]
  ye_len := by simp [ye]
  occ := fun j ts ss h1 h2 => by
    rw [te, List.getElem?_map, Option.map_eq_some_iff] at h1
    obtain ⟨ev, he, rfl⟩ := h1
    rw [ye, List.getElem?_map, he] at h2
    have h2 : ss = if C91.Ex.isEnd ev = true then [st π] else [] := (Option.some.inj h2).symm
    rw [h2]
    split_ifs <;> rfl
  states := by
    intro v hv s hs
    rw [rows3]
    rw [ye, List.mem_map] at hv
    obtain ⟨ev, -, rfl⟩ := hv
    split_ifs at hs
    · rw [List.mem_singleton] at hs
      rw [hs]; rfl
    · simp at hs

theorem integrated (events : List Event) (hp : PlainInflation events) :
    Integrated (C90.view E) E.idx.length events Y 0 (x1 events) (grid events) (rows events) (te events) (ye events) where
  start := rfl
  inside := by
    have h := x1_bounds events
    have h0 := pi_pos
    intro x hx
    simp only [grid, gridTo, List.mem_cons, List.not_mem_nil, or_false] at hx
    rcases hx with rfl | rfl | rfl | rfl <;> constructor <;> linarith
  sampled := fun j x hx i hi => by
    rw [rows3] at hi
    match j with
    | 0 => simp only [grid, gridTo, List.getElem?_cons_zero, Option.some.injEq] at hx; subst hx; interval_cases i <;> rfl
    | 1 => simp only [grid, gridTo, List.getElem?_cons_succ, List.getElem?_cons_zero, Option.some.injEq] at hx; subst hx; interval_cases i <;> rfl
    | 2 => simp only [grid, gridTo, List.getElem?_cons_succ, List.getElem?_cons_zero, Option.some.injEq] at hx; subst hx; interval_cases i <;> rfl
    | 3 => simp only [grid, gridTo, List.getElem?_cons_succ, List.getElem?_cons_zero, Option.some.injEq] at hx; subst hx; interval_cases i <;> rfl
    | j + 4 => simp [grid, gridTo] at hx
  stated := fun j ts ss h1 h2 a x s h3 h4 i hi => by
    rw [rows3] at hi
    rw [te, List.getElem?_map, Option.map_eq_some_iff] at h1
    obtain ⟨ev, he, rfl⟩ := h1
    rw [ye, List.getElem?_map, he] at h2
    have h2 : ss = if C91.Ex.isEnd ev = true then [st π] else [] := (Option.some.inj h2).symm
    subst h2
    by_cases hb : C91.Ex.isEnd ev = true
    · rw [if_pos hb] at h3 h4
      match a with
      | a + 1 => simp at h3
      | 0 =>
        simp only [List.getElem?_cons_zero, Option.some.injEq] at h3 h4
        subst h3 h4
        interval_cases i <;> rfl
    · rw [if_neg hb] at h3
      simp at h3
  detected := fun j ev ts h1 h2 h3 h4 => by
    have hx := x1_bounds events
    have hc : (fun x => ev.call (C90.view E) x (Y x)) = fun x => e.inflating (Y x) :=
      funext fun x => C90.call_plain (hp ev (List.mem_of_getElem? h1) h3) x (Y x)
    rw [hc, te_get h1 h2]
    by_cases hb : C91.Ex.isEnd ev = true
    · rw [if_pos hb, (C91.Ex.isEnd_iff.1 hb).2]
      have hv : ((Direction.neg.val : ℤ) : ℝ) = -1 := by norm_num [Direction.val]
      rw [hv]
      exact ends hx.1 hx.2
    · rw [if_neg hb]
      have hd : ev.direction = .pos := by
        cases hd : ev.direction with
        | pos => rfl
        | neg => exact absurd (C91.Ex.isEnd_iff.2 ⟨h3, hd⟩) hb
        | zero => exact absurd hd h4
      rw [hd]
      have hv : ((Direction.pos.val : ℤ) : ℝ) = 1 := by norm_num [Direction.val]
      rw [hv]
      exact begins hx.2
  stopped := fun j ev ts h1 h2 h3 c hc => by
    rw [te_get h1 h2] at hc
    by_cases hb : C91.Ex.isEnd ev = true
    · rw [if_pos hb, List.mem_singleton] at hc
      have : stopsAt events = true := List.any_eq_true.2 ⟨ev, List.mem_of_getElem? h1, by rw [hb, h3]; rfl⟩
      rw [hc, x1, if_pos this]
    · rw [if_neg hb] at hc
      simp at hc

theorem run {q : IvpCall} (hp : PlainInflation q.events) (hx : q.x_ini = some 0) (hy : ∀ i < E.idx.length, q.y0[i]? = some (some (Y 0 i))) :
    Run E D q (res q.events) (grid q.events) (rows q.events) (te q.events) (ye q.events) S Y 0 (x1 q.events) where
  shape := shape _
  solution := trajectory
  isOpen := isOpen_Ioo
  convex := convex_Ioo _ _
  start := mem_S le_rfl (by norm_num)
  sub := fun x hx => mem_S hx.1 (hx.2.le.trans (x1_bounds _).2)
  from_x := hx
  from_y := hy
  integrated := integrated _ hp
  crosses := fun j ev ts h1 h2 h3 h4 c hc => by
    rw [te_get h1 h2] at hc
    by_cases hb : C91.Ex.isEnd ev = true
    · rw [if_pos hb, List.mem_singleton] at hc
      subst hc
      have hpi := pi_pos
      have hpi' := pi_lt_d2
      refine ⟨7 / 2, by linarith, fun x hx => mem_S (by linarith [hx.1]) hx.2, fun x hx => ?_⟩
      rw [C90.call_plain (hp ev (List.mem_of_getElem? h1) h3) x (Y x), (C91.Ex.isEnd_iff.1 hb).2]
      have := accel_neg hx.1 hx.2
      have hv : ((Direction.neg.val : ℤ) : ℝ) = -1 := by norm_num [Direction.val]
      rw [hv]
      show 0 < -1 * e.inflating (Y x)
      linarith
    · rw [if_neg hb] at hc
      simp at hc
  bound := fun j ev ts h1 h2 h3 c hc => by
    rw [te_get h1 h2] at hc
    have hb : ¬ C91.Ex.isEnd ev = true := fun h => by
      obtain ⟨⟨_, h⟩, -⟩ := C91.Ex.isEnd_iff.1 h
      rw [h3] at h; cases h
    rw [if_neg hb] at hc
    simp at hc
  last := fun j ev ts h1 h2 h3 c hc => by
    rw [(integrated _ hp).stopped j ev ts h1 h2 h3 c hc]
    rfl

/-- `t_i = 0`, `N_i = 0`; the shooting is for `phi_i` -/
noncomputable def setup : Shooting.Setup := ⟨E, some 0, none, 7 / 2, some 0, none⟩

open Classical in
/-- an integrator as above, and a root finder that knows the answer `phi_i = 0` and checks it -/
noncomputable def env (fmtE : ℝ → String) : ISIC.Env where
  ivp := fun _ q => .ok (res q.events)
  fmtE := fmtE
  root := fun f _ _ => if f 0 = .ok (some 0) then .ok 0 else .error (.valueError "f(a) and f(b) must have different signs")
  emptyTruth := .ok false
  isStepSize := fun _ => false

theorem V0 : pot.V 0 = 160 ∧ f 0 = -√160 := by
  have h := facts.2.2.2.2.2.1 0 (mem_S le_rfl (by norm_num))
  rw [facts.1] at h
  refine ⟨?_, ?_⟩
  · rw [h]; norm_num [a]
  · norm_num [f, p, a]

theorem start_ok : ∃ ic, Shooting.start setup 0 = .ok ic ∧ ic.phi_i = 0 ∧ ic.t_i = some 0 ∧ ic.N_i = some 0 ∧ ic.V_i = 160 := by
  obtain ⟨c, hc⟩ : ∃ c, Shooting.start setup 0 = .ok c := by
    unfold Shooting.start InflationStartIC.init setup
    dsimp only
    rw [if_neg (by simp), if_neg]
    · exact ⟨_, rfl⟩
    · show ¬ pot.V 0 / 2 * exp (2 * 0) - -1 < 0
      rw [V0.1]; norm_num
  refine ⟨c, hc, ?_⟩
  unfold Shooting.start InflationStartIC.init setup at hc
  dsimp only at hc
  split_ifs at hc
  cases hc
  exact ⟨rfl, rfl, rfl, V0.1⟩

/-- the state vector is the one of the exact solution at `t = 0` -/
theorem state_ok {ic : IC} (h1 : ic.phi_i = 0) (h2 : ic.N_i = some 0) (h3 : ic.V_i = 160) :
    ∃ y, InflationStartIC.call E ic (fun _ => some 0) = .ok y ∧ ∀ i < E.idx.length, y i = some (Y 0 i) := by
  obtain ⟨y, hy, hrow, -⟩ := C26_inflationstart E ic (show GivesTracked E ic from fun h => by cases h) fun _ => some 0
  refine ⟨y, hy, fun i hi => ?_⟩
  rw [rows3] at hi
  interval_cases i
  · rw [(hrow "phi" 0 rfl).1 rfl, h1]
    show some 0 = some (φ 0)
    rw [facts.1]
  · rw [(hrow "dphidt" 1 rfl).2.2.2.2.1 rfl, InflationStartIC.dphidt_i, h3, nanSqrt, if_pos (by norm_num)]
    show some _ = some (f 0)
    rw [V0.2]
  · rw [(hrow "_N" 2 rfl).2.1 rfl, h2]
    show some 0 = some (log (a 0))
    norm_num [a]


/-- `N_star` of the example -/
noncomputable def Ns : ℝ := log (1 + 10 * π) - log (5 * π)
/-- scale factor today, in Mpc -/
noncomputable def aM : ℝ := 10 / SI.K_STAR
/-- the Hubble parameter for which, with `Omega_K0 = 1`, this is the scale factor today -/
noncomputable def hub (u : SI) : ℝ := u.c / (100000 * aM)

theorem K_pos : (0 : ℝ) < SI.K_STAR := by unfold SI.K_STAR; norm_num
theorem aM_pos : 0 < aM := div_pos (by norm_num) K_pos

theorem at_point {t : ℝ} (ht : t ∈ S) {r : ℕ → ℝ} (hr : ∀ i < 3, r i = Y t i) : (C90.view E).N t r = log (a t) ∧ (C90.view E).Hnan (t, r) = some ((10 - cos t) / a t) ∧
    nanLog ((10 - cos t) / a t) = some (log ((10 - cos t) / a t)) ∧ log (a t) + log ((10 - cos t) / a t) = log (10 - cos t) ∧ (C90.view E).inflating t r = e.inflating (Y t) := by
  have hd := div_pos (aH_pos t) (a_pos ht)
  have hE : E.Shipped := fun K p h => by cases h
  refine ⟨by show r 2 = _; rw [hr 2 (by norm_num)]; rfl, ?_, by rw [nanLog, if_pos hd], ?_, ?_⟩
  · have : (C90.view E).H2 t r = ((10 - cos t) / a t) ^ 2 := by
      rw [← facts.2.2.2.2.2.2.2 t ht]
      exact C92.H2_congr hE (by rw [rows3]; exact hr) t
    unfold EqView.Hnan
    rw [this, nanSqrt, if_pos (sq_nonneg _), sqrt_sq hd.le]
  · rw [log_div (aH_pos t).ne' (a_pos ht).ne']; ring
  · exact inflating_congr hE (by rw [rows3]; exact hr) t

theorem a_mono {s t : ℝ} (h : s < t) : a s < a t := by
  have h1 : sin t - sin s ≤ t - s := by
    have := (le_abs_self _).trans (Real.abs_sin_sub_sin_le t s)
    rwa [abs_of_pos (by linarith)] at this
  unfold a; linarith

theorem cos_X {X : ℝ} (h1 : π ≤ X) (h2 : X ≤ 7 / 2) : cos X < -1 / 2 := by
  have hpi := pi_gt_three
  have : cos (π / 3) < cos (X - π) := cos_lt_cos_of_nonneg_of_le_pi_div_two (by linarith) (by linarith) (by linarith)
  rw [cos_pi_div_three, cos_sub_pi] at this
  linarith

theorem cos_23 : cos (2 * π / 3) = -1 / 2 := by
  rw [show 2 * π / 3 = π - π / 3 by ring, cos_pi_sub, cos_pi_div_three]; norm_num

theorem calibrated (u : SI) {raw : RawSol} {X : ℝ} (h1 : π ≤ X) (h2 : X ≤ 7 / 2) {g0 g1 g2 g3 ge : ℕ → ℝ} (hgrid : raw.grid = [(0, g0), (π / 2, g1), (2 * π / 3, g2), (X, g3)])
    (p0 : ∀ i < 3, g0 i = Y 0 i) (p1 : ∀ i < 3, g1 i = Y (π / 2) i) (p2 : ∀ i < 3, g2 i = Y (2 * π / 3) i) (p3 : ∀ i < 3, g3 i = Y X i) (pe : ∀ i < 3, ge i = Y π i)
    (hend : endEvent raw.events = some (π, ge)) (hcol : firstEvent raw.events "Collapse" = none) :
    ∃ cs cs' κ, (inflationSol (C90.view E) E.pot.V E.K raw).N_tot = some (log (1 + 10 * π)) ∧ Shooting.calState E.K (inflationSol (C90.view E) E.pot.V E.K raw) = some cs ∧
      Cal.calibrate u cs (Shooting.nestedArgs E.K 1 (hub u)) = .ok cs' ∧ cs'.cal = some κ ∧ κ.N_star = Ns := by
  have hpi := pi_gt_three
  have hpi' := pi_lt_d2
  have m0 : (0 : ℝ) ∈ S := mem_S le_rfl (by norm_num)
  have m1 : π / 2 ∈ S := mem_S (by linarith) (by linarith)
  have m2 : 2 * π / 3 ∈ S := mem_S (by linarith) (by linarith)
  have me : π ∈ S := mem_S (by linarith) (by linarith)
  have m3 : X ∈ S := mem_S (by linarith) h2
  obtain ⟨N0, H0, L0, A0, I0⟩ := at_point m0 p0
  obtain ⟨N1, H1, L1, A1, -⟩ := at_point m1 p1
  obtain ⟨N2, H2, L2, A2, -⟩ := at_point m2 p2
  obtain ⟨N3, H3, L3, A3, -⟩ := at_point m3 p3
  obtain ⟨Ne, He, Le, Ae, -⟩ := at_point me pe
  have v0 : a 0 = 1 := by norm_num [a]
  have v1 : a (π / 2) = 5 * π := by simp only [a, sin_pi_div_two]; ring
  have ve : a π = 1 + 10 * π := by simp only [a, sin_pi]; ring
  have q1 : log (a 0) < log (a (π / 2)) := log_lt_log (a_pos m0) (a_mono (by linarith))
  have q2 : log (a (π / 2)) < log (a (2 * π / 3)) := log_lt_log (a_pos m1) (a_mono (by linarith))
  have q3 : log (a (2 * π / 3)) < log (a π) := log_lt_log (a_pos m2) (a_mono (by linarith))
  have q4 : log (a π) ≤ log (a X) := by
    rcases h1.eq_or_lt with h | h
    · rw [h]
    · exact (log_lt_log (a_pos me) (a_mono h)).le
  have hfirst : raw.first = (0, g0) := (List.cons.inj hgrid).1
  have hst : postStart (C90.view E) raw = ⟨some (log (a 0)), some ((10 - cos 0) / a 0), some (log (10 - cos 0)), none⟩ := by
    unfold postStart
    rw [if_neg (by rw [hcol]; simp), if_pos (Or.inl (by rw [hfirst, I0, accel_zero.1])), hfirst]
    simp only [H0, N0, Option.bind_some, L0, Option.map_some, A0]
  obtain ⟨v, f', hen⟩ : ∃ v f', postEnd (C90.view E) E.pot.V raw = ⟨some (log (a π)), f', some ((10 - cos π) / a π), some (log (10 - cos π)), some v, none⟩ := by
    unfold postEnd
    rw [hend]
    simp only [He, Ne, Option.bind_some, Le, Option.map_some, Ae]
    exact ⟨_, _, rfl⟩
  have k1 : (decide (log (a 0) < log (a 0)) && decide (log (a 0) < log (a π))) = false := by simp
  have k2 : (decide (log (a 0) < log (a (π / 2))) && decide (log (a (π / 2)) < log (a π))) = true := by simp [q1, q2.trans q3]
  have k3 : (decide (log (a 0) < log (a (2 * π / 3))) && decide (log (a (2 * π / 3)) < log (a π))) = true := by simp [q1.trans q2, q3]
  have k4 : (decide (log (a 0) < log (a X)) && decide (log (a X) < log (a π))) = false := by simp [q4]
  obtain ⟨cs, hcs, hcK, hcN, hcL, hcI⟩ : ∃ cs, Shooting.calState E.K (inflationSol (C90.view E) E.pot.V E.K raw) = some cs ∧ cs.K = -1 ∧
      cs.N = [log (a 0), log (a (π / 2)), log (a (2 * π / 3)), log (a X)] ∧ cs.logaH = [log (10 - cos 0), log (10 - cos (π / 2)), log (10 - cos (2 * π / 3)), log (10 - cos X)] ∧
      ∃ I, cs.infl = some I ∧ I.N_end = log (a π) ∧ I.mask = [false, true, true, false] := by
    refine ⟨⟨-1, [log (a 0), log (a (π / 2)), log (a (2 * π / 3)), log (a X)], [log (10 - cos 0), log (10 - cos (π / 2)), log (10 - cos (2 * π / 3)), log (10 - cos X)],
      [(10 - cos 0) / a 0, (10 - cos (π / 2)) / a (π / 2), (10 - cos (2 * π / 3)) / a (2 * π / 3), (10 - cos X) / a X],
      some ⟨log (a 0), log (a π), log (a π) - log (a 0), v, (10 - cos π) / a π, log (10 - cos 0), log (10 - cos π), [false, true, true, false]⟩, ⟨none, none, none, none, none, none⟩, none⟩,
      ?_, rfl, rfl, rfl, _, rfl, rfl, rfl⟩
    simp only [inflationSol, hst, hen, hgrid, List.map_cons, List.map_nil, N0, N1, N2, N3, H0, H1, H2, H3, L0, L1, L2, L3, A0, A1, A2, A3, Shooting.calState, Option.bind_some,
      Option.map_some, List.mapM_cons, List.mapM_nil, id, Option.bind_eq_bind, Option.pure_def, k1, k2, k3, k4]
    rfl
  have htot : (inflationSol (C90.view E) E.pot.V E.K raw).N_tot = some (log (1 + 10 * π)) := by
    simp only [inflationSol, hst, hen, Option.bind_some, Option.map_some, v0, ve, log_one, sub_zero]
  obtain ⟨I, hI, hIe, hIm⟩ := hcI
  obtain ⟨l0, hl0⟩ : ∃ l, l = log (10 - cos 0) := ⟨_, rfl⟩
  obtain ⟨l1, hl1⟩ : ∃ l, l = log (10 - cos (π / 2)) := ⟨_, rfl⟩
  obtain ⟨l2, hl2⟩ : ∃ l, l = log (10 - cos (2 * π / 3)) := ⟨_, rfl⟩
  obtain ⟨l3, hl3⟩ : ∃ l, l = log (10 - cos X) := ⟨_, rfl⟩
  rw [← hl0, ← hl1, ← hl2, ← hl3] at hcL
  have r1 : l0 < l1 := by rw [hl0, hl1, cos_zero, cos_pi_div_two]; exact log_lt_log (by norm_num) (by norm_num)
  have r2 : l1 < l2 := by rw [hl2, hl1, cos_23, cos_pi_div_two]; exact log_lt_log (by norm_num) (by norm_num)
  have r3 : l2 < l3 := by
    have := cos_X h1 h2
    rw [hl2, hl3, cos_23]; exact log_lt_log (by norm_num) (by linarith)
  have e1 : l1 - log aM = log SI.K_STAR := by
    rw [hl1, cos_pi_div_two, sub_zero, aM, log_div (by norm_num) K_pos.ne']; ring
  obtain ⟨κ, cs', hcal, hcs', hκ⟩ : ∃ κ cs', Cal.calibrate u cs (Shooting.nestedArgs E.K 1 (hub u)) = .ok cs' ∧ cs'.cal = some κ ∧ κ.N_star = Ns := by
    have ha := aM_pos
    have hc := u.c_pos
    have hh : 0 < hub u := by unfold hub; positivity
    unfold Cal.calibrate
    rw [hcK, if_neg (by norm_num)]
    have hargs : Shooting.nestedArgs E.K 1 (hub u) = { method := "Omega_K0", Omega_K0 := some 1, h := some (hub u) } := by
      unfold Shooting.nestedArgs
      rw [defaultMethod, if_neg (by show (-1 : ℝ) ≠ 0; norm_num)]
    rw [hargs]
    unfold Cal.curved
    rw [if_neg (by simp)]
    dsimp only
    rw [if_neg (not_le.2 hh)]
    have haM' : u.c / (hub u * 100 * 1000) * √(-(-1) / 1) = aM := by
      unfold hub
      rw [show (-(-1 : ℝ)) / 1 = 1 by norm_num, sqrt_one]
      field_simp
      norm_num
    unfold Cal.curvedSel
    rw [if_pos rfl]
    unfold Cal.curvedOmega
    dsimp only
    rw [hcK, if_neg one_ne_zero, if_neg (by simp), haM', hI]
    dsimp only
    rw [hIm, hcL, hcN, hIe]
    have hmask : andMask [false, true, true, false] (firstOccurrence ([l0, l1, l2, l3].map fun l => l - log aM)) = [false, true, true, false] := by
      apply andMask_nodup
      · rfl
      · simp only [List.map_cons, List.map_nil, List.nodup_cons, List.mem_cons, not_or, List.not_mem_nil, not_false_eq_true, and_true, List.nodup_nil]
        refine ⟨⟨?_, ?_, ?_⟩, ⟨?_, ?_⟩, ?_⟩ <;> intro h <;> linarith
    have hl : maskSel ([l0, l1, l2, l3].map fun l => l - log aM) [false, true, true, false] = [log SI.K_STAR, l2 - log aM] := by
      simp only [maskSel, List.map_cons, List.map_nil, List.zip_cons_cons, List.zip_nil_right, List.filterMap_cons, Bool.false_eq_true, if_false, if_true, List.filterMap_nil, e1]
    have hn : maskSel [log (a 0), log (a (π / 2)), log (a (2 * π / 3)), log (a X)] [false, true, true, false] = [log (a (π / 2)), log (a (2 * π / 3))] := by simp [maskSel]
    have hint : interpL [log SI.K_STAR, l2 - log aM] [log (a (π / 2)), log (a (2 * π / 3))] (log SI.K_STAR) = .ok (log (a (π / 2))) := by
      rw [interpL_sorted (by simp; linarith)]
      simp only [List.zip_cons_cons, List.zip_nil_right, interpSorted]
      rw [if_neg (by linarith), if_pos (by linarith)]
      simp
    rw [hmask, hl, hn, if_neg (by simp), if_neg ?_, hint]
    · exact ⟨_, _, rfl, rfl, by rw [ve, v1]; rfl⟩
    · rintro (h | h)
      · have := h (log SI.K_STAR) (by simp); linarith
      · have := h (l2 - log aM) (by simp); linarith
  exact ⟨cs, cs', κ, htot, hcs, hcal, hcs', hκ⟩


/-- a run that tracks the end of inflation, and nothing else with the name of the `Collapse` event, is calibrated as above -/
theorem run_calibrated (u : SI) {fmtE : ℝ → String} {q : IvpCall} {raw : RawSol} (hg : raw.grid = ivpGrid (grid q.events) (rows q.events))
    (hev : ∀ k l, raw.events.get? k = some l ↔ ∃ j ts ss, LastAt (q.events.map (Event.name fmtE)) k j ∧ (te q.events)[j]? = some ts ∧ (ye q.events)[j]? = some ss ∧
      l = ts.zip (ss.map state))
    {j : ℕ} {k : String} (hk : k = "Inflation_dir-1_term1" ∨ (k = "Inflation_dir-1_term0" ∧ "Inflation_dir-1_term1" ∉ q.events.map (Event.name fmtE)))
    (hj : LastAt (q.events.map (Event.name fmtE)) k j) (hte : (te q.events)[j]? = some [π]) (hye : (ye q.events)[j]? = some [st π]) :
    ∃ cs cs' κ, (inflationSol (C90.view E) E.pot.V E.K raw).N_tot = some (log (1 + 10 * π)) ∧ Shooting.calState E.K (inflationSol (C90.view E) E.pot.V E.K raw) = some cs ∧
      Cal.calibrate u cs (Shooting.nestedArgs E.K 1 (hub u)) = .ok cs' ∧ cs'.cal = some κ ∧ κ.N_star = Ns := by
  have hx := x1_bounds q.events
  have hk' : firstEvent raw.events k = some (π, state (st π)) := by
    have := (hev k _).2 ⟨j, _, _, hj, hte, hye, rfl⟩
    unfold firstEvent
    rw [this]; rfl
  have hend : endEvent raw.events = some (π, state (st π)) := by
    unfold endEvent
    rcases hk with rfl | ⟨rfl, hn⟩
    · rw [hk']
    · have : firstEvent raw.events "Inflation_dir-1_term1" = none := by
        unfold firstEvent
        cases h : raw.events.get? "Inflation_dir-1_term1" with
        | none => rfl
        | some l =>
          obtain ⟨j', ts, ss, hj', -⟩ := (hev _ _).1 h
          exact absurd (List.mem_of_getElem? hj'.1) hn
      rw [this, hk']
  have hcol : firstEvent raw.events "Collapse" = none := by
    unfold firstEvent
    cases h : raw.events.get? "Collapse" with
    | none => rfl
    | some l =>
      obtain ⟨j', ts, ss, hj', h1, h2, hz⟩ := (hev _ _).1 h
      obtain ⟨ev, he, -, hn⟩ := C90.lastAt_event hj'
      obtain ⟨d, b', v, rfl⟩ := (C24_collapse_key _ ev).1 hn
      have := te_get he h1
      rw [if_neg (by simp [C91.Ex.isEnd])] at this
      rw [this] at hz
      simp at hz
      rw [hz]; rfl
  refine calibrated u hx.1 hx.2 (raw := raw) (X := x1 q.events) (g0 := colAt (rows q.events) 0) (g1 := colAt (rows q.events) 1) (g2 := colAt (rows q.events) 2)
    (g3 := colAt (rows q.events) 3) (ge := state (st π)) hg ?_ ?_ ?_ ?_ ?_ hend hcol <;> intro i hi <;> interval_cases i <;> rfl

/-- the objective vanishes at `phi_i = 0` if this `N_star` is wanted -/
theorem objective_ok (u : SI) (fmtE : ℝ → String) (N0 rtol atol : ℝ) (kw : Dict Attr) : ISIC.phii2Nstar u (env fmtE) setup Ns 1 (hub u) N0 rtol atol kw 0 = .ok (some 0) := by
  obtain ⟨ic, hs, h1, ht, h2, h3⟩ := start_ok
  obtain ⟨y, hy, hyi⟩ := state_ok h1 h2 h3
  unfold ISIC.phii2Nstar
  rw [hs]
  obtain ⟨kw', hkw⟩ : ∃ kw' : SolveKw, kw' = ⟨some (ISIC.events N0), none, some rtol, some atol, kw⟩ := ⟨_, rfl⟩
  rw [← hkw]
  have hE : E.Shipped := fun K p h => by cases h
  have hic : ICCall.inflationStart E ic (kw'.rtol.getD (1 / 10 ^ 10)) (kw'.atol.getD (1 / 10 ^ 12)) kw'.rest (fun _ => some 0) = .ok (ic, y) := by
    simp only [ICCall.inflationStart, hy, bind, Except.bind]
  obtain ⟨q, hq, hqe⟩ : ∃ q, Requested E kw' ic y q ∧ q.events = ISIC.events N0 := ⟨_, requested E kw' ic y, by rw [hkw]; rfl⟩
  have hr2 : (env fmtE).ivp E q = .ok (res q.events) := rfl
  obtain ⟨b, raw, hsol, hg, hev, -⟩ := C90_solve (env fmtE).ivp (env fmtE).fmtE E hE _ kw' ic y q hic hq hr2 (shape _)
  have hsol' : solve (env fmtE).ivp (env fmtE).fmtE setup.E (ICCall.inflationStart setup.E ic) [] kw' = .ok (b, inflationSol (C90.view E) E.pot.V E.K raw) := hsol
  have names : q.events.map (Event.name fmtE) = ["Inflation_dir1_term0", "Inflation_dir-1_term1", "UntilN", "Collapse"] := by
    rw [hqe]
    simp only [ISIC.events, List.map_cons, List.map_nil, Event.name]
    decide
  obtain ⟨cs, cs', κ, htot, hcs, hcal, hκ, hN⟩ := run_calibrated u (fmtE := fmtE) (q := q) hg hev (j := 1) (Or.inl rfl) (by
      rw [names]
      refine ⟨rfl, fun j hj => ?_⟩
      match j with
      | 2 => decide
      | 3 => decide
      | j + 4 => simp) (by rw [hqe]; rfl) (by rw [hqe]; rfl)
  simp only [Bind.bind, Except.bind]
  rw [hsol']
  show ISIC.objectiveStar _ _ E.K Ns 1 (hub u) N0 b _ = _
  unfold ISIC.objectiveStar
  have hlt : Ns < log (1 + 10 * π) := by
    have : 0 < log (5 * π) := log_pos (by have := pi_gt_three; linarith)
    unfold Ns; linarith
  rw [if_pos ⟨_, htot, hlt⟩, hcs]
  dsimp only
  rw [hcal]
  dsimp only
  rw [hκ]
  simp [hN]

/-- the outer call asks for the non-terminal end event only, and for another method -/
def kw : SolveKw := ⟨some [⟨.inflation none, .neg, false, 0⟩], some "DOP853", none, none, []⟩

/-- `C93_N_star` applies: in the open universe above, `ISIC_NsOk` finds `phi_i = 0` for `N_star = log((1 + 10 π)/(5 π))`, `Omega_K0 = 1`, and the returned object inflates for
`log(1 + 10 π)` e-folds and can be calibrated, with the requested `N_star`. -/
example (u : SI) (hu : u.c * u.tp_s < u.Mpc_m) (fmtE : ℝ → String) : ∃ o s cs cs' κ,
    solve (env fmtE).ivp (env fmtE).fmtE setup.E (ISIC.nsok u (env fmtE) setup Ns 1 (hub u) (-1) 0) [] kw = .ok (o, s) ∧ s.N_tot = some (log (1 + 10 * π)) ∧
      Shooting.calState setup.E.K s = some cs ∧ Cal.calibrate u cs (Shooting.nestedArgs setup.E.K 1 (hub u)) = .ok cs' ∧ cs'.cal = some κ ∧ κ.N_star = Ns ∧ ∃ xb xe xs t,
      SameCell E Y t xb xe xs κ.N_star := by
  obtain ⟨ic, hs, h1, ht, h2, h3⟩ := start_ok
  obtain ⟨y, hy, hyi⟩ := state_ok h1 h2 h3
  have hE : E.Shipped := fun K p h => by cases h
  have hpi := pi_gt_three
  have ha := aM_pos
  have hc := u.c_pos
  have htp := u.tp_pos
  have hMp := u.Mpc_pos
  obtain ⟨a0, hga, ha0⟩ : ∃ a0, BB.get_a0 u (hub u) 1 "planck" = .ok a0 ∧ 1 < a0 := by
    refine ⟨1 / (hub u * 100000 / u.Mpc_m * u.tp_s), ?_, ?_⟩
    · unfold BB.get_a0 BB.get_H0
      simp [bind, Except.bind]
    · unfold hub
      have e : u.c / (100000 * aM) * 100000 / u.Mpc_m * u.tp_s = u.c * u.tp_s / (u.Mpc_m * aM) := by field_simp
      rw [e, one_div_div, one_lt_div (by positivity)]
      have : 1 ≤ aM := by
        unfold aM
        rw [le_div_iff₀ K_pos]
        unfold SI.K_STAR; norm_num
      nlinarith
  have hok : ISIC.nsok u (env fmtE) setup Ns 1 (hub u) (-1) 0 (kw.rtol.getD (1 / 10 ^ 10)) (kw.atol.getD (1 / 10 ^ 12)) kw.rest (fun _ => some 0) = .ok (ic, y) := by
    unfold ISIC.nsok
    rw [if_neg one_ne_zero, hs]
    have hroot : (env fmtE).root (ISIC.phii2Nstar u (env fmtE) setup Ns 1 (hub u) (log a0) (kw.rtol.getD (1 / 10 ^ 10)) (kw.atol.getD (1 / 10 ^ 12)) kw.rest) (-1) 0 = .ok 0 := by
      show (if _ then _ else _) = _
      rw [if_pos (objective_ok u fmtE _ _ _ _)]
    simp only [Bind.bind, Except.bind, hga, hroot, hs]
    rw [show InflationStartIC.call setup.E ic (fun _ => some 0) = .ok y from hy]
  obtain ⟨q, hq, hqe⟩ : ∃ q, Requested E kw ic y q ∧ q.events = [⟨.inflation none, .neg, false, 0⟩] := ⟨_, requested E kw ic y, rfl⟩
  have hqu := hq.unique hE (requested E kw ic y)
  have hp : PlainInflation q.events := by rw [hqe]; exact C90.Ex.plain
  have hx : q.x_ini = some 0 := by rw [hqu]; exact ht
  have hy0 : ∀ i < E.idx.length, q.y0[i]? = some (some (Y 0 i)) := fun i hi => by rw [hqu]; simp [List.getElem?_map, List.getElem?_range hi, hyi i hi]
  have hN : 0 < Ns := by
    unfold Ns
    have : log (5 * π) < log (1 + 10 * π) := log_lt_log (by linarith) (by linarith)
    linarith
  have hsub : ∀ events, Icc 0 (x1 events) ⊆ S := fun events x hx => mem_S hx.1 (hx.2.trans (x1_bounds events).2)
  obtain ⟨-, o, s, hsol, hmain⟩ := C93_N_star u (env fmtE) setup (D := D) (Or.inr (Or.inr rfl)) facts.2.1 facts.2.2.1 facts.2.2.2.1 facts.2.2.2.2.1 (ε := 0)
    (fun f lo hi r h => by
      have h : (if f 0 = .ok (some 0) then .ok 0 else .error (.valueError "f(a) and f(b) must have different signs") : Except PyErr ℝ) = .ok r := by
        have h' := h
        unfold env at h'
        dsimp only at h'
        exact h'
      by_cases hf : f 0 = .ok (some 0)
      · rw [if_pos hf] at h
        injection h with h
        rw [← h]; exact ⟨0, hf, by simp⟩
      · rw [if_neg hf] at h
        cases h) hN hga (log_pos ha0) hok hq hp (res := res q.events) rfl (by rw [h1]; show 0 < pot.V 0; rw [V0.1]; norm_num)
    (fun q' res' e1 e2 e3 h => by
      have h : (.ok (res q'.events) : Except PyErr (Dict Attr)) = .ok res' := h
      injection h with h
      subst h
      exact ⟨_, _, _, _, _, _, _, _, run (by rw [e3]; exact plain_events _) (e1.trans hx) (fun i hi => by rw [e2]; exact hy0 i hi), hsub _, sorted _, clean _⟩)
    (run hp hx hy0) (hsub _) (sorted _) (clean _)
  obtain ⟨o', raw, hs1, hg, hev, -⟩ := C90_solve (env fmtE).ivp (env fmtE).fmtE E hE (ISIC.nsok u (env fmtE) setup Ns 1 (hub u) (-1) 0) kw ic y q hok hq (res := res q.events) rfl (shape _)
  have hse : (o', inflationSol (C90.view E) E.pot.V E.K raw) = (o, s) := Except.ok.inj (hs1.symm.trans hsol)
  have hse : inflationSol (C90.view E) E.pot.V E.K raw = s := (Prod.mk.inj hse).2
  obtain ⟨cs, cs', κ, htot, hcs, hcal, hκ, hNs⟩ := run_calibrated u (fmtE := fmtE) (q := q) hg hev (j := 0) (k := "Inflation_dir-1_term0")
    (Or.inr ⟨rfl, by rw [hqe]; simp only [List.map_cons, List.map_nil, Event.name]; decide⟩) (by
      rw [hqe]
      refine ⟨rfl, fun j hj => ?_⟩
      rw [List.getElem?_eq_none (by simp; omega)]; simp) (by rw [hqe]; rfl) (by rw [hqe]; rfl)
  rw [hse] at htot hcs
  refine ⟨o, s, cs, cs', κ, hsol, htot, hcs, hcal, hκ, hNs, ?_⟩
  obtain ⟨-, xb, xe, k1, k2, k3, -, -, -, hpos, hrest⟩ := hmain _ htot
  have hxe : xe ≤ π := by
    by_contra h
    push Not at h
    have h1 : 0 ≤ e.inflating (Y xe) := hpos xe ⟨k2.le, le_rfl⟩
    have h2 := accel_neg h (k3.trans (x1_bounds _).2)
    linarith
  obtain ⟨xs, -, -, -, -, hcell⟩ := hrest fun x hx => accel_pos (k1.trans_lt hx.1) (hx.2.trans_le hxe)
  exact ⟨xb, xe, xs, _, hcell cs cs' κ hcs hcal hκ⟩

end C93.Ex
end Primpy
