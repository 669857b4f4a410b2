import Verif.Model.SpectraSol
import Verif.Props.C18
import Verif.Props.C74
import Verif.Props.C92

/-!
# C94: the slow-roll spectra of an integrated and calibrated background are those of the trajectory

`solve(…)`, then `calibrate_scale_factor(…)` with a method for the spectra: what `P_s_approx`, `P_t_approx` return at the wavenumber that leaves the horizon at a grid
point, in terms of the trajectory alone.
-/

namespace Primpy
open Real Set Spec Bunch Approx

/-! ## Specification -/

/-- the Hubble rate along a trajectory -/
noncomputable def Eqs.hubble (E : Eqs) (Y : ℝ → ℕ → ℝ) (x : ℝ) : ℝ := √((C90.view E).H2 x (Y x))
/-- e-folds per unit of the independent variable -/
noncomputable def Eqs.rate (E : Eqs) (Y : ℝ → ℕ → ℝ) (x : ℝ) : ℝ := match E with | .T _ => E.hubble Y x | _ => 1
/-- the field velocity `dφ/dt` along a trajectory -/
noncomputable def Eqs.velocity (E : Eqs) (Y : ℝ → ℕ → ℝ) (x : ℝ) : ℝ := match E with | .T _ => Y x 1 | _ => E.hubble Y x * Y x 1

/-- `P` gives the slow-roll parameters at the point `x` of a history with Hubble rate `H`, field velocity `p = dφ/dt` and `rate = dN/dx`:

* `ε₁ = -d ln H/dN`, `ε₂ = d ln ε₁/dN`, Gong's `ε₂ = dε₁/dN`, `δ₁ = φ̈/(H φ̇)`, and if `all`,
* `ε₃ = d ln ε₂/dN`, Gong's `ε₃ = (d²ε₁/dt²)/H²`, `δ₂ = (d³φ/dt³)/(H² φ̇)`, `δ₃ = (d⁴φ/dt⁴)/(H³ φ̇)`. -/
structure SlowRollAt (all : Prop) (rate H p : ℝ → ℝ) (P : ℝ → SRPoint) (x : ℝ) : Prop where
  hubble : (P x).H = H x
  e1 : HasDerivAt (fun x => log (H x)) (-(rate x * (P x).e1)) x
  e2 : (P x).e1 ≠ 0 → HasDerivAt (fun x => (P x).e1) (rate x * ((P x).e1 * (P x).e2)) x
  g2 : HasDerivAt (fun x => (P x).e1) (rate x * (P x).g2) x
  d1 : p x ≠ 0 → HasDerivAt p (rate x * (p x * (P x).d1)) x
  e3 : all → (P x).e1 ≠ 0 → (P x).e2 ≠ 0 → HasDerivAt (fun x => (P x).e2) (rate x * ((P x).e2 * (P x).e3)) x
  g3 : all → HasDerivAt (fun x => H x * (P x).g2) (rate x * (H x * (P x).g3)) x
  d2 : all → p x ≠ 0 → HasDerivAt (fun x => H x * p x * (P x).d1) (rate x * (H x * p x * (P x).d2)) x
  d3 : all → p x ≠ 0 → HasDerivAt (fun x => H x ^ 2 * p x * (P x).d2) (rate x * (H x ^ 2 * p x * (P x).d3)) x

/-- `solve(ic, **kw)` integrates the trajectory `Y` faithfully: scipy is asked, its answer has the documented shape (and no attribute of its own called `dphidt`),
samples the solution `Y` of the equations on the increasing grid `t` from `x0` to `x1`, and records the events faithfully (`Integrated`, C90).  The potential has the three derivatives it says
it has, the density is positive at the start, and the trajectory does not just touch the start of inflation there (`StartsCleanly`, C77). -/
structure Solved (ivp : SolveIvp) (E : Eqs) (D S : Set ℝ) (ic : ICCall) (kw : SolveKw) (t : List ℝ) (Y : ℝ → ℕ → ℝ) (x0 x1 : ℝ) : Prop where
  run : ∃ c y0 q res y te ye, ic (kw.rtol.getD (1 / 10 ^ 10)) (kw.atol.getD (1 / 10 ^ 12)) kw.rest (fun _ => some 0) = .ok (c, y0) ∧ Requested E kw c y0 q ∧
    ivp E q = .ok res ∧ IvpShape E.idx.length q.events.length res t y te ye ∧ res.get? "dphidt" = none ∧
    Integrated (C90.view E) E.idx.length q.events Y x0 x1 t y te ye ∧ PlainInflation q.events
  curvature : E.K = 0 ∨ E.K = 1 ∨ E.K = -1
  isOpen : IsOpen S
  convex : Convex ℝ S
  solution : E.Trajectory D S Y
  dV : IsDerivOn D E.pot.V E.pot.dV
  d2V : IsDerivOn D E.pot.dV E.pot.d2V
  d3V : IsDerivOn D E.pot.d2V E.pot.d3V
  start : x0 ∈ S
  inside : Icc x0 x1 ⊆ S
  density : 0 < (C90.view E).H2 x0 (Y x0) + E.K * exp (-2 * E.efolds Y x0)
  sorted : t.Pairwise (· < ·)
  clean : StartsCleanly (E.accel Y) x0 x1

/-- `[xb, xe]` is the inflationary phase of the trajectory that the object `s` reports: the expansion accelerates from `xb` to `xe`, where the acceleration ends, and not before `xb`, where it
begins unless `xb` is the start of the run. -/
structure ReportedPhase (E : Eqs) (Y : ℝ → ℕ → ℝ) (x0 x1 : ℝ) (s : InflSol) (xb xe : ℝ) : Prop where
  ordered : x0 ≤ xb ∧ xb < xe ∧ xe ≤ x1
  begins : s.start.N_beg = some (E.efolds Y xb)
  ends : s.fin.N_end = some (E.efolds Y xe)
  accelerates : ∀ x ∈ Icc xb xe, 0 ≤ E.accel Y x
  decelerates : ∀ x, x0 ≤ x → x < xb → E.accel Y x ≤ 0
  starts : xb = x0 ∨ E.accel Y xb = 0
  stops : E.accel Y xe = 0

/-- `x` is grid point number `i`, inside `(xb, xe)`, and no earlier grid point has the same `aH`. -/
def FreshPoint (E : Eqs) (Y : ℝ → ℕ → ℝ) (t : List ℝ) (xb xe : ℝ) (i : ℕ) (x : ℝ) : Prop :=
  t[i]? = some x ∧ x ∈ Ioo xb xe ∧ ∀ (l : ℕ) (v : ℝ), l < i → t[l]? = some v → E.aH Y v ≠ E.aH Y x

/-- `H`, `ε₁`, `ε₂`, `ε₃` of `star` lie the fraction `w` of the way from those of `p` to those of `r`. -/
def Mixed (w : ℝ) (p r star : SRPoint) : Prop :=
  star.H = (1 - w) * p.H + w * r.H ∧ star.e1 = (1 - w) * p.e1 + w * r.e1 ∧ star.e2 = (1 - w) * p.e2 + w * r.e2 ∧ star.e3 = (1 - w) * p.e3 + w * r.e3

namespace C94

/-- what the code computes from the state of the trajectory -/
noncomputable def along (E : Eqs) (Y : ℝ → ℕ → ℝ) (x : ℝ) : SRPoint :=
  match E with
  | .T e => T.srAt e.K e.pot (InflT._N (Y x)) (e.H (Y x)) (InflT.phi (Y x)) (InflT.dphidt (Y x))
  | .N e => N.srAt e.K e.pot x (e.H x (Y x)) (InflN.phi (Y x)) (InflN.dphidN (Y x))
  | .other _ _ => ⟨0, 0, 0, 0, 0, 0, 0, 0, 0⟩

theorem sol_mono {S S' : Set ℝ} {n : ℕ} {f : ℝ → (ℕ → ℝ) → ℕ → ℝ} {Y : ℝ → ℕ → ℝ} (h : SolvesODE S n f Y) (hs : S' ⊆ S) : SolvesODE S' n f Y :=
  fun x hx => h x (hs hx)

theorem alongT {S D : Set ℝ} {e : InflT} {Y : ℝ → ℕ → ℝ} (hS : IsOpen S) (sol : SolvesODE S e.rows e.call Y) (hH : ∀ x ∈ S, 0 < e.H2 (Y x))
    (hV : IsDerivOn D e.pot.V e.pot.dV) (hV2 : IsDerivOn D e.pot.dV e.pot.d2V) (hV3 : IsDerivOn D e.pot.d2V e.pot.d3V) (hφ : ∀ x ∈ S, InflT.phi (Y x) ∈ D) {x : ℝ}
    (hx : x ∈ S) : SlowRollAt (e.K = 0) (fun x => e.H (Y x)) (fun x => e.H (Y x)) (fun x => InflT.dphidt (Y x)) (along (.T e) Y) x := by
  obtain ⟨l1, l2, l3⟩ := C18_time_curved_low hS sol hH hV hφ x hx
  obtain ⟨f1, -, f3, f4⟩ := C14_first_second hS sol hH hV hφ
  have hp : ∀ x ∈ S, 0 < e.H (Y x) := fun n hn => sqrt_pos.mpr (hH n hn)
  have hxp := hp x hx
  have e1ne : T.get_epsilon_1H (e.H (Y x)) (e.derivs (Y x)).dH ≠ 0 → (e.derivs (Y x)).dH ≠ 0 := fun h h' => h (by simp [T.get_epsilon_1H, h'])
  have pts : ∀ {f f' : ℝ → ℝ}, IsDerivOn S f f' → IsDerivOn {x} f f' := fun h y hy => by rw [mem_singleton_iff.1 hy]; exact h x hx
  have cp : ∀ᶠ z in nhds x, InflT.dphidt (Y x) ≠ 0 → InflT.dphidt (Y z) ≠ 0 := by
    by_cases h : InflT.dphidt (Y x) = 0
    · simp [h]
    · exact ((f3 x hx).continuousAt.eventually_ne h).mono fun z hz _ => hz
  have S0 : InflT.dphidt (Y x) ≠ 0 → ∃ S', IsOpen S' ∧ S' ⊆ S ∧ x ∈ S' ∧ ∀ z ∈ S', InflT.dphidt (Y z) ≠ 0 := fun h => by
    obtain ⟨U, hU, hUo, hxU⟩ := eventually_nhds_iff.1 cp
    exact ⟨U ∩ S, hUo.inter hS, inter_subset_right, ⟨hxU, hx⟩, fun z hz => hU z hz.1 h⟩
  refine ⟨rfl, l1, fun h => l2 (e1ne h), l3, fun h => ?_, fun hK h1 h2 => ?_, fun hK => ?_, fun hK h => ?_, fun hK h => ?_⟩
  · refine hderiv (f3 x hx) ?_
    show e.H (Y x) * (InflT.dphidt (Y x) * T.get_delta_1 (e.H (Y x)) (e.derivs (Y x)).dH (InflT.dphidt (Y x)) (e.derivs (Y x)).d2phi) = _
    have h : InflT.dphidt (Y x) ≠ 0 := h
    simp only [T.get_delta_1]; field_simp
  · obtain ⟨h1', h2', h3', -⟩ := C14_flat_partial hS sol hH hV hV2 hV3 hφ hK
    have k := flowT (pts h1') (pts h2') (pts h3') (fun n hn => by rw [mem_singleton_iff.1 hn]; exact hxp)
      (fun n hn => by rw [mem_singleton_iff.1 hn]; exact e1ne h1) (fun n hn => by rw [mem_singleton_iff.1 hn]; exact h2)
    exact k.third x rfl
  · exact (C18_time_flat_partial hS sol hH hV hV2 hV3 hφ hK).2.1.third x hx
  · obtain ⟨S', o, s, hx', hne⟩ := S0 h
    exact ((C18_time_flat_partial o (sol_mono sol s) (fun z hz => hH z (s hz)) hV hV2 hV3 (fun z hz => hφ z (s hz)) hK).2.2 hne).second x hx'
  · obtain ⟨S', o, s, hx', hne⟩ := S0 h
    exact ((C18_time_flat_partial o (sol_mono sol s) (fun z hz => hH z (s hz)) hV hV2 hV3 (fun z hz => hφ z (s hz)) hK).2.2 hne).third x hx'

theorem alongN {S D : Set ℝ} {e : InflN} {Y : ℝ → ℕ → ℝ} (hS : IsOpen S) (sol : SolvesODE S e.rows e.call Y) (hH : ∀ x ∈ S, 0 < e.H2 x (Y x))
    (hV : IsDerivOn D e.pot.V e.pot.dV) (hV2 : IsDerivOn D e.pot.dV e.pot.d2V) (hV3 : IsDerivOn D e.pot.d2V e.pot.d3V) (hφ : ∀ x ∈ S, InflN.phi (Y x) ∈ D) {x : ℝ}
    (hx : x ∈ S) : SlowRollAt True (fun _ => 1) (fun x => e.H x (Y x)) (fun x => e.H x (Y x) * InflN.dphidN (Y x)) (along (.N e) Y) x := by
  obtain ⟨f1, -, f2, f3, -, p1, -⟩ := C15_derivatives hS sol hH hV hV2 hV3 hφ
  have hp : ∀ x ∈ S, 0 < e.H x (Y x) := fun n hn => sqrt_pos.mpr (hH n hn)
  have hxp := hp x hx
  have e1ne : N.get_epsilon_1H (e.H x (Y x)) (e.derivs x (Y x)).dH ≠ 0 → (e.derivs x (Y x)).dH ≠ 0 := fun h h' => h (by simp [N.get_epsilon_1H, h'])
  have pts : ∀ {f f' : ℝ → ℝ}, IsDerivOn S f f' → IsDerivOn {x} f f' := fun h y hy => by rw [mem_singleton_iff.1 hy]; exact h x hx
  have q0 : e.H x (Y x) * InflN.dphidN (Y x) ≠ 0 → InflN.dphidN (Y x) ≠ 0 := fun h h' => h (by rw [h', mul_zero])
  have S0 : e.H x (Y x) * InflN.dphidN (Y x) ≠ 0 → ∃ S', IsOpen S' ∧ S' ⊆ S ∧ x ∈ S' ∧ ∀ z ∈ S', InflN.dphidN (Y z) ≠ 0 := fun h => by
    obtain ⟨U, hU, hUo, hxU⟩ := eventually_nhds_iff.1 ((p1 x hx).continuousAt.eventually_ne (q0 h))
    exact ⟨U ∩ S, hUo.inter hS, inter_subset_right, ⟨hxU, hx⟩, fun z hz => hU z hz.1⟩
  obtain ⟨-, g, -⟩ := C18_efolds hS sol hH hV hV2 hV3 hφ
  refine ⟨rfl, ?_, fun h => ?_, g.second x hx, fun h => ?_, fun _ h1 h2 => ?_, fun _ => g.third x hx, fun _ h => ?_, fun _ h => ?_⟩
  · have f1' : HasDerivAt (fun n => e.H n (Y n)) (e.derivs x (Y x)).dH x := f1 x hx
    refine hderiv (f1'.log hxp.ne') ?_
    show -(1 * N.get_epsilon_1H (e.H x (Y x)) (e.derivs x (Y x)).dH) = _
    simp only [N.get_epsilon_1H]; ring
  · have h : N.get_epsilon_1H (e.H x (Y x)) (e.derivs x (Y x)).dH ≠ 0 := h
    have hd := e1ne h
    have k := ((f2 x hx).neg).div (f1 x hx) hxp.ne'
    refine hderiv (f := fun n => N.get_epsilon_1H (e.H n (Y n)) (e.derivs n (Y n)).dH) k ?_
    show 1 * (N.get_epsilon_1H (e.H x (Y x)) (e.derivs x (Y x)).dH * N.get_epsilon_2H (e.H x (Y x)) (e.derivs x (Y x)).dH (e.derivs x (Y x)).d2H) = _
    simp only [N.get_epsilon_1H, N.get_epsilon_2H, Pi.neg_apply]
    field_simp; ring
  · obtain ⟨S', o, s, hx', hne⟩ := S0 h
    exact ((C18_efolds o (sol_mono sol s) (fun z hz => hH z (s hz)) hV hV2 hV3 (fun z hz => hφ z (s hz))).2.2 hne).first x hx'
  · have k := flowN (pts f1) (pts f2) (pts f3) (fun n hn => by rw [mem_singleton_iff.1 hn]; exact hxp)
      (fun n hn => by rw [mem_singleton_iff.1 hn]; exact e1ne h1) (fun n hn => by rw [mem_singleton_iff.1 hn]; exact h2)
    exact k.third x rfl
  · obtain ⟨S', o, s, hx', hne⟩ := S0 h
    exact ((C18_efolds o (sol_mono sol s) (fun z hz => hH z (s hz)) hV hV2 hV3 (fun z hz => hφ z (s hz))).2.2 hne).second x hx'
  · obtain ⟨S', o, s, hx', hne⟩ := S0 h
    exact ((C18_efolds o (sol_mono sol s) (fun z hz => hH z (s hz)) hV hV2 hV3 (fun z hz => hφ z (s hz))).2.2 hne).third x hx'

/-! ### the arrays of the solution -/

theorem dict_idx (E : Eqs) (hE : E.Shipped) : E.idx.get? "phi" = some 0 ∧ (∀ e, E = .T e → E.idx.get? "dphidt" = some 1) ∧
    (∀ e, E = .N e → E.idx.get? "dphidN" = some 1 ∧ "dphidt" ∉ E.xname :: E.idx.map Prod.fst) := by
  cases E with
  | other K p => exact absurd rfl (hE K p)
  | T e =>
    obtain ⟨K, pot, te⟩ := e
    refine ⟨(by cases te <;> rfl), fun e' _ => (by cases te <;> rfl), fun e' h => (by cases h)⟩
  | N e =>
    obtain ⟨K, pot, tt, te⟩ := e
    refine ⟨(by cases tt <;> cases te <;> rfl), fun e' h => (by cases h), fun e' _ => ⟨(by cases tt <;> cases te <;> rfl), ?_⟩⟩
    have hidx : (Eqs.N ⟨K, pot, tt, te⟩).idx = (addedNames (C90.history (.N ⟨K, pot, tt, te⟩))).zipIdx := by cases tt <;> cases te <;> rfl
    rw [hidx]
    cases tt <;> cases te <;> simp [Eqs.xname, C90.history, addedNames]

theorem row_eq {n : ℕ} {t : List ℝ} {y : List (List ℝ)} {Y : ℝ → ℕ → ℝ} (hlen : y.length = n) (hc : ∀ r ∈ y, r.length = t.length)
    (hs : ∀ (j : ℕ) x, t[j]? = some x → ∀ i < n, (y.getD i []).getD j 0 = Y x i) {i : ℕ} (hi : i < n) {r : List ℝ} (hr : y[i]? = some r) : r = t.map fun x => Y x i := by
  have hl : r.length = t.length := hc r (List.mem_of_getElem? hr)
  apply List.ext_getElem
  · simp [hl]
  · intro j h1 h2
    have hj : j < t.length := by omega
    have := hs j t[j] (List.getElem?_eq_getElem hj) i hi
    rw [List.getElem_map, ← this]
    simp [List.getD, hr, List.getElem?_eq_getElem h1]

theorem zip4 {α : Type} (t : List ℝ) (f : ℝ → ℝ → ℝ → ℝ → α) (a b c d : ℝ → ℝ) :
    List.zipWith (fun p q => f p.1 p.2 q.1 q.2) ((t.map a).zip (t.map b)) ((t.map c).zip (t.map d)) = t.map fun x => f (a x) (b x) (c x) (d x) := by
  induction t with
  | nil => rfl
  | cons x t ih => simp only [List.map_cons, List.zip_cons_cons, List.zipWith_cons_cons, ih]

/-- everything the calibration and the spectra read, in terms of the trajectory -/
theorem arrays (ivp : SolveIvp) (fmtE : ℝ → String) {E : Eqs} {D S : Set ℝ} {ic : ICCall} {kw : SolveKw} {c : IC} {y0 : ℕ → Option ℝ} {q : IvpCall}
    (hic : ic (kw.rtol.getD (1 / 10 ^ 10)) (kw.atol.getD (1 / 10 ^ 12)) kw.rest (fun _ => some 0) = .ok (c, y0)) (hq : Requested E kw c y0 q)
    {res : Dict Attr} {t : List ℝ} {y : List (List ℝ)} {te : List (List ℝ)} {ye : List (List (List ℝ))} (hivp : ivp E q = .ok res)
    (sh : IvpShape E.idx.length q.events.length res t y te ye) (hres : res.get? "dphidt" = none) {Y : ℝ → ℕ → ℝ} {x0 x1 : ℝ} (hS : IsOpen S) (hc : Convex ℝ S)
    (hT : E.Trajectory D S Y) (hV : IsDerivOn D E.pot.V E.pot.dV) (hx0 : x0 ∈ S) (hsub : Icc x0 x1 ⊆ S)
    (hρ : 0 < (C90.view E).H2 x0 (Y x0) + E.K * exp (-2 * E.efolds Y x0))
    (hI : Integrated (C90.view E) E.idx.length q.events Y x0 x1 t y te ye) (hp : PlainInflation q.events) (hclean : StartsCleanly (E.accel Y) x0 x1) :
    ∃ o s, solve ivp fmtE E ic [] kw = .ok (o, s) ∧ s.N = t.map (E.efolds Y) ∧ s.logaH = (t.map fun x => log (E.aH Y x)).map some ∧
      slowRoll E o s = some ⟨t.map (along E Y), starPoint (t.map (E.efolds Y)) (t.map (along E Y))⟩ ∧
      (s.H = (t.map (E.hubble Y)).map some ∧ s.Omega_K = (t.map fun x => -E.K * exp (-2 * log (E.aH Y x))).map some ∧ o.get? "x" = some (.arr t) ∧
        o.get? "independent_variable" = some (.str E.xname) ∧ o.get? "phi" = some (.arr (t.map fun x => Y x 0)) ∧
        (∀ e, E = .T e → o.get? "dphidt" = some (.arr (t.map fun x => Y x 1))) ∧ ∀ e, E = .N e → o.get? "dphidN" = some (.arr (t.map fun x => Y x 1))) ∧
      ∀ m, s.inflation_mask = some m → ∃ xb xe, x0 ≤ xb ∧ xb < xe ∧ xe ≤ x1 ∧ s.start.N_beg = some (E.efolds Y xb) ∧ s.fin.N_end = some (E.efolds Y xe) ∧
        ((∀ x ∈ Icc xb xe, 0 ≤ E.accel Y x) ∧ (∀ x, x0 ≤ x → x < xb → E.accel Y x ≤ 0) ∧ (xb = x0 ∨ E.accel Y xb = 0) ∧ E.accel Y xe = 0) ∧ m.length = t.length ∧ ∀ (i : ℕ) z, t[i]? = some z → (m[i]? = some true ↔ z ∈ Ioo xb xe) := by
  have hE := C91.shipped hT
  obtain ⟨o, raw, hs, hg, hev, hox, -, -, hoi, hrows, -⟩ := C90_solve ivp fmtE E hE ic kw c y0 q hic hq hivp sh
  have hother := C90_others ivp fmtE E hE ic kw c y0 q hic hq hivp sh hs
  have hQ : ∀ x, (C90.view E).inflating x (C90.trunc E.idx.length Y x) = (C90.view E).inflating x (Y x) := fun x => C91.inflating_congr hE C91.trunc_lt x
  have hQN : ∀ x, (C90.view E).N x (C90.trunc E.idx.length Y x) = E.efolds Y x := fun x => C91.N_congr hE C91.trunc_lt x
  have hQH : ∀ x, (C90.view E).H2 x (C90.trunc E.idx.length Y x) = (C90.view E).H2 x (Y x) := fun x => C92.H2_congr hE C91.trunc_lt x
  have hf := C90.faithful (raw := raw) (fmtE := fmtE) (C90.Integrated.trunc hI hp hQ) (fun x i hi => by rw [C90.trunc, if_neg (by omega)]) sh hg hev hp
  obtain ⟨mN, -, -⟩ := C92.facts hS hc hT hV
  have glen : raw.grid.length = t.length := by rw [hg]; simp
  have gt : raw.grid.map Prod.fst = t := by
    apply List.ext_getElem
    · rw [List.length_map, glen]
    · intro i h1 h2
      simp only [hg, List.getElem_map, List.getElem_range]
      exact C90.getD_lt _ h2
  have gmap : ∀ {α : Type} (f : ℝ × (ℕ → ℝ) → α) (g : ℝ → α), (∀ x ∈ Icc x0 x1, f (x, C90.trunc E.idx.length Y x) = g x) → raw.grid.map f = t.map g := by
    intro α f g h
    rw [← gt, List.map_map]
    refine List.map_congr_left fun p hp' => ?_
    obtain ⟨h1, h2⟩ := hf.grid p hp'
    have : p = (p.1, C90.trunc E.idx.length Y p.1) := Prod.ext rfl h2
    rw [this]; exact h _ h1
  obtain ⟨s, hsd⟩ : ∃ s, s = inflationSol (C90.view E) E.pot.V E.K raw := ⟨_, rfl⟩
  rw [← hsd] at hs
  have sN : s.N = t.map (E.efolds Y) := by
    rw [hsd]; exact gmap (fun p => (C90.view E).N p.1 p.2) _ fun x _ => hQN x
  have sH : s.H = (t.map (E.hubble Y)).map some := by
    rw [hsd, List.map_map]
    refine gmap (C90.view E).Hnan _ fun x hx => ?_
    have hH := C92.H2_pos hT x (hsub hx)
    simp only [EqView.Hnan, hQH, nanSqrt, if_pos hH.le, Function.comp, Eqs.hubble]
  have sL : s.logaH = (t.map fun x => log (E.aH Y x)).map some := by
    rw [hsd, List.map_map]
    refine gmap (fun p => ((C90.view E).Hnan p).bind fun h => (nanLog h).map ((C90.view E).N p.1 p.2 + ·)) _ fun x hx => ?_
    have hH := C92.H2_pos hT x (hsub hx)
    have hsq := sqrt_pos.2 hH
    simp only [EqView.Hnan, hQH, hQN, nanSqrt, if_pos hH.le, Option.bind_some, nanLog, if_pos hsq, Option.map_some, Function.comp, Option.some.injEq, Eqs.aH]
    rw [log_mul (exp_pos _).ne' hsq.ne', log_exp]
  have sO : s.Omega_K = (t.map fun x => -E.K * exp (-2 * log (E.aH Y x))).map some := by
    have : s.Omega_K = s.logaH.map fun l => l.map fun l => -E.K * exp (-2 * l) := by rw [hsd]; rfl
    rw [this, sL]
    simp [List.map_map, Function.comp_def]
  have two : 2 ≤ E.idx.length := by
    cases E with
    | other K p => exact absurd rfl (hE K p)
    | T e => have := C91.rowsT e; omega
    | N e => exact C91.rowsN e
  have hread : ∀ a i, i < 2 → E.idx.get? a = some i → o.get? a = some (.arr (t.map fun x => Y x i)) := fun a i hi ha => by
    obtain ⟨r, hr, hb⟩ := hrows a i ha
    rw [hb, row_eq sh.rows sh.cols hI.sampled (by omega) hr]
  refine ⟨o, s, hs, sN, sL, ?_, ⟨sH, sO, hox, hoi, hread _ 0 (by norm_num) (dict_idx E hE).1, fun e he => hread _ 1 (by norm_num) ((dict_idx E hE).2.1 e he),
    fun e he => hread _ 1 (by norm_num) ((dict_idx E hE).2.2 e he).1⟩, fun m hm => ?_⟩
  · obtain ⟨i0, iT, iN⟩ := dict_idx E hE
    have two : 2 ≤ E.idx.length := by
      cases E with
      | other K p => exact absurd rfl (hE K p)
      | T e => have := C91.rowsT e; omega
      | N e => exact C91.rowsN e
    obtain ⟨r0, hr0, hb0⟩ := hrows "phi" 0 i0
    have e0 := row_eq sh.rows sh.cols hI.sampled (by omega) hr0
    have hg : srArrays E o s = some (t.map (along E Y)) := by
      unfold srArrays
      rw [sH, C92.mapM_some, hb0, sN, e0]
      cases E with
      | other K p => exact absurd rfl (hE K p)
      | T e =>
        obtain ⟨r1, hr1, hb1⟩ := hrows "dphidt" 1 (iT e rfl)
        rw [hb1, row_eq sh.rows sh.cols hI.sampled (by omega) hr1]
        simp only [Eqs.srAt, Option.bind_some, arr?, Option.isSome_some, if_true]
        rw [zip4]
        rfl
      | N e =>
        obtain ⟨r1, hr1, hb1⟩ := hrows "dphidN" 1 (iN e rfl).1
        have hnone : o.get? "dphidt" = none := by
          rw [hother "dphidt" (iN e rfl).2 (fun m h => ?_) (by decide), hres]
          have := congrArg (fun s => s.toList.reverse) h
          simp at this
        rw [hb1, hnone, row_eq sh.rows sh.cols hI.sampled (by omega) hr1]
        simp only [Eqs.srAt, Option.bind_some, arr?, Option.isSome_none, Bool.false_eq_true, if_false]
        rw [zip4]
        rfl
    unfold slowRoll
    rw [hg, sN]
    rfl
  · have hmono : StrictMonoOn (fun x => (C90.view E).N x (C90.trunc E.idx.length Y x)) (Icc x0 x1) := by
      simp only [hQN]; exact mN.mono hsub
    have hst := C92.starts (raw := raw) hT hx0 hρ hf.start
    rw [hsd] at hm
    obtain ⟨xb, xe, h0b, hbe, he1, hNb, hNe, hpos, hneg, hbd, hz, -, hlen, hsel⟩ := C77_generic E.pot.V E.K hf hmono hst (by simp only [hQ]; exact hclean) hm
    rw [← hsd] at hNb hNe
    simp only [hQ, hQN] at hNb hNe hpos hneg hbd hz
    refine ⟨xb, xe, h0b, hbe, he1, hNb, hNe, ⟨hpos, fun x h1 h2 => hneg x ⟨h1, h2.le⟩ h2, hbd, hz⟩, by rw [hlen, glen], fun i z hz => ?_⟩
    have hi : i < raw.grid.length := by rw [glen]; exact (List.getElem?_eq_some_iff.1 hz).1
    rw [hsel i hi]
    have : raw.grid[i].1 = z := by
      rw [← gt, List.getElem?_map, List.getElem?_eq_getElem hi] at hz
      exact Option.some.inj hz
    rw [this]

/-- the mask after a calibration: the grid points inside inflation with a new value of `aH` -/
theorem calibrated_mask {u : SI} {s s' : CalState} {a : CalArgs} {t : List ℝ} {fL : ℝ → ℝ} (hb : a.background = none) (hok : Cal.calibrate u s a = .ok s')
    (hL : s.logaH = t.map fL) : ∃ I I' κ, s.infl = some I ∧ s'.infl = some I' ∧ s'.cal = some κ ∧ s'.logaH = s.logaH ∧
      (I.mask.length = t.length → ∀ (k : ℕ), I'.mask[k]? = some true ↔ I.mask[k]? = some true ∧ ∀ l v w, l < k → t[l]? = some v → t[k]? = some w → fL v ≠ fL w) := by
  have hμ : ∀ (I : Infl) (d : ℝ), I.mask.length = t.length → ∀ k : ℕ, (andMask I.mask (firstOccurrence (s.logaH.map fun l => l - d)))[k]? = some true ↔
      I.mask[k]? = some true ∧ ∀ l v w, l < k → t[l]? = some v → t[k]? = some w → fL v ≠ fL w := by
    intro I d hlen k
    by_cases hk : k < t.length
    · obtain ⟨w, hw⟩ : ∃ w, t[k]? = some w := ⟨_, List.getElem?_eq_getElem hk⟩
      obtain ⟨c, hc⟩ : ∃ c, I.mask[k]? = some c := ⟨_, List.getElem?_eq_getElem (by omega)⟩
      simp only [andMask, firstOccurrence, List.getElem?_zipWith, List.getElem?_map, List.length_map, hL, List.getElem?_range hk, hc, hw, Option.map_some]
      simp only [Option.some.injEq, Bool.and_eq_true, decide_eq_true_eq]
      refine and_congr Iff.rfl ⟨fun h l v w' hl hv hw' he => ?_, fun h l hl he => ?_⟩
      · have := h l hl
        rw [hv] at this
        simp only [Option.map_some, ne_eq, Option.some.injEq] at this
        subst hw'
        exact this (by rw [he])
      · obtain ⟨v, hv⟩ : ∃ v, t[l]? = some v := ⟨_, List.getElem?_eq_getElem (by omega)⟩
        rw [hv] at he
        simp only [Option.map_some, Option.some.injEq] at he
        exact h l v w hl hv rfl (by linarith)
    · have h1 : I.mask[k]? = none := List.getElem?_eq_none (by omega)
      simp [andMask, List.getElem?_zipWith, h1]
  by_cases hK : s.K = 0
  · obtain ⟨p, hp, rfl⟩ := Cal.calibrate_flat hK hok
    obtain ⟨-, ns, nc, ls, δ, nr, I, st, hs, rfl⟩ := Cal.flat_ok hp
    have hI : s.infl = some I := by
      unfold Cal.flatSel at hs
      rw [hb] at hs
      dsimp only at hs
      split_ifs at hs with h1 h2
      · exact (Cal.flatNstar_ok hs).2.2.1
      · exact (Cal.flatReheating_ok hs).2.1
    refine ⟨I, _, _, hI, rfl, rfl, rfl, fun hlen k => ?_⟩
    have e : (s.logaH.map fun l => l + log SI.K_STAR - ls) = s.logaH.map fun l => l - (ls - log SI.K_STAR) := by
      refine List.map_congr_left fun l _ => ?_
      ring
    show (andMask I.mask (firstOccurrence (s.logaH.map fun l => l + log SI.K_STAR - ls)))[k]? = some true ↔ _
    rw [e]
    exact hμ I _ hlen k
  · obtain ⟨p, hp, rfl⟩ := Cal.calibrate_curved hK hok
    obtain ⟨-, h, Ω, aM, a0, N0, nr, st, I, nc, -, -, -, hI, -, -, -, rfl⟩ := Cal.curved_ok hp
    exact ⟨I, _, _, hI, rfl, rfl, rfl, fun hlen k => hμ I _ hlen k⟩

theorem flow {E : Eqs} {D S : Set ℝ} {Y : ℝ → ℕ → ℝ} (hS : IsOpen S) (hT : E.Trajectory D S Y) (hV : IsDerivOn D E.pot.V E.pot.dV)
    (hV2 : IsDerivOn D E.pot.dV E.pot.d2V) (hV3 : IsDerivOn D E.pot.d2V E.pot.d3V) :
    ∀ x ∈ S, SlowRollAt ((∃ e, E = .N e) ∨ E.K = 0) (E.rate Y) (E.hubble Y) (E.velocity Y) (along E Y) x := by
  intro x hx
  cases E with
  | other K p => exact absurd hT (by simp [Eqs.Trajectory])
  | T e =>
    obtain ⟨h1, h2, h3, h4, h5, h6, h7, h8, h9⟩ := alongT hS hT.1 hT.2.1 hV hV2 hV3 hT.2.2 hx
    have hK : ((∃ e', Eqs.T e = .N e') ∨ (Eqs.T e).K = 0) → e.K = 0 := by
      rintro (⟨e', h⟩ | h)
      · cases h
      · exact h
    exact ⟨h1, h2, h3, h4, h5, fun k => h6 (hK k), fun k => h7 (hK k), fun k => h8 (hK k), fun k => h9 (hK k)⟩
  | N e =>
    obtain ⟨h1, h2, h3, h4, h5, h6, h7, h8, h9⟩ := alongN hS hT.1 hT.2.1 hV hV2 hV3 hT.2.2 hx
    exact ⟨h1, h2, h3, h4, h5, fun _ => h6 trivial, fun _ => h7 trivial, fun _ => h8 trivial, fun _ => h9 trivial⟩

/-- `interp1d` picks one cell, for all quantities at once -/
theorem interp_weights {f : ℝ → ℝ} : ∀ {l : List ℝ} {x p r : ℝ}, l.Pairwise (fun a b => f a < f b) → p ∈ l → r ∈ l → f p ≤ x → x ≤ f r → f p < f r →
    ∃ l1 a b l2, l = l1 ++ a :: b :: l2 ∧ f a ≤ x ∧ x ≤ f b ∧ ∀ g : ℝ → ℝ, interpSorted (l.map fun z => (f z, g z)) x = .ok ((g b - g a) / (f b - f a) * (x - f a) + g a) := by
  intro l
  induction l with
  | nil => intro x p r _ hp; cases hp
  | cons a l ih =>
    intro x p r hl hp hr h1 h2 h3
    obtain ⟨ha, hl'⟩ := List.pairwise_cons.1 hl
    cases l with
    | nil =>
      simp only [List.mem_singleton] at hp hr
      subst hp hr
      exact absurd h3 (lt_irrefl _)
    | cons b l =>
      have hap : f a ≤ f p := by
        rcases List.mem_cons.1 hp with rfl | h
        · exact le_refl _
        · exact (ha p h).le
      have hx : ¬ x < f a := not_lt.2 (hap.trans h1)
      by_cases hb : x ≤ f b
      · refine ⟨[], a, b, l, rfl, not_lt.1 hx, hb, fun g => ?_⟩
        simp only [List.map_cons, interpSorted]
        rw [if_neg hx, if_pos hb]
      · have hb' := not_le.1 hb
        have hr' : r ∈ b :: l := by
          rcases List.mem_cons.1 hr with rfl | h
          · have := ha b (by simp); linarith
          · exact h
        obtain ⟨l1, a', b', l2, e, k1, k2, k3⟩ := ih hl' (List.mem_cons_self) hr' hb'.le h2 (by linarith)
        refine ⟨a :: l1, a', b', l2, by rw [e]; rfl, k1, k2, fun g => ?_⟩
        have := k3 g
        simp only [List.map_cons, interpSorted] at this ⊢
        rw [if_neg hx, if_neg hb]
        exact this

theorem calibrateP_ok {K : Type} {u : SI} {spline : K → List (ℝ × ℝ) → ℝ → ℝ} {sr : SlowRoll} {p q : PSol} {a : CalArgs} {m : String} {kw : K} {o : ℕ} (hb : a.background = none)
    (hok : calibrateP u spline sr p a m kw o = .ok q) : Cal.calibrate u p.st a = .ok q.st := by
  unfold calibrateP at hok
  cases hc : Cal.calibrate u p.st a with
  | error e => rw [hc] at hok; cases hok
  | ok s =>
    rw [hc] at hok
    simp only [hb, Option.isSome_none, Bool.false_eq_true, if_false] at hok
    unfold deriveP at hok
    split at hok
    · cases hok
    · dsimp only at hok
      split at hok
      · cases hok
      · simp only [Except.ok.injEq] at hok
        subst hok
        rfl

section
variable {ivp : SolveIvp} {fmtE : ℝ → String} {E : Eqs} {D S : Set ℝ} {ic : ICCall} {kw : SolveKw} {t : List ℝ} {Y : ℝ → ℕ → ℝ} {x0 x1 : ℝ}
  (h : Solved ivp E D S ic kw t Y x0 x1) {o : Dict Attr} {s : InflSol} (hs : solve ivp fmtE E ic [] kw = .ok (o, s)) {sr : SlowRoll} (hsr : slowRoll E o s = some sr)
  {cs : CalState} (hcs : Shooting.calState E.K s = some cs)
include h hs hsr hcs

/-- the grid points of the spectra of a calibrated solution, and the parameters at `_N_cross` -/
theorem core {K : Type} {u : SI} {spline : K → List (ℝ × ℝ) → ℝ → ℝ} {p q : PSol} {a : CalArgs} {m : String} {kws : K} {n : ℕ} (hp : p.st = cs)
    (hb : a.background = none) (hok : calibrateP u spline sr p a m kws n = .ok q) :
    ∃ κ xb xe star, q.st.cal = some κ ∧ ReportedPhase E Y x0 x1 s xb xe ∧
      (∀ i x, FreshPoint E Y t xb xe i x → Crosses sr q i (E.aH Y x / κ.a0_Mpc) (along E Y x) star) ∧
      ((∀ x ∈ Ioo xb xe, 0 < E.accel Y x) → (∀ (i : ℕ) x, t[i]? = some x → x ∈ Ioo xb xe → FreshPoint E Y t xb xe i x) →
        ∃ (i : ℕ) (x z w : ℝ), t[i]? = some x ∧ t[i + 1]? = some z ∧ xb < x ∧ z < xe ∧ 0 ≤ w ∧ w ≤ 1 ∧
          κ.N_cross_ = (1 - w) * E.efolds Y x + w * E.efolds Y z ∧ Mixed w (along E Y x) (along E Y z) star) := by
  obtain ⟨c, y0, q', res, y, te, ye, hic, hq, hivp, sh, hres, hI, hpl⟩ := h.run
  obtain ⟨o', s', hs', sN, sL, hsr', -, hph⟩ := arrays ivp fmtE hic hq hivp sh hres h.isOpen h.convex h.solution h.dV h.start h.inside h.density hI hpl h.clean
  rw [hs] at hs'
  obtain ⟨rfl, rfl⟩ := Prod.mk.inj (Except.ok.inj hs')
  rw [hsr] at hsr'
  have hsr' := Option.some.inj hsr'
  subst hsr'
  have hcal := calibrateP_ok hb hok
  rw [hp] at hcal
  obtain ⟨eK, eN, eL, eI⟩ := C92.calState_ok sL hcs
  rw [sN] at eN
  obtain ⟨I, I', κ, hInf, hInf', hκ, hlog, hmask⟩ := calibrated_mask hb hcal eL
  obtain ⟨hm, -⟩ := eI I hInf
  obtain ⟨xb, xe, h0b, hbe, he1, hNb, hNe, ⟨hpos, hneg, hbd, hz⟩, hlen, hsel⟩ := hph _ hm
  have hmask := hmask hlen
  have hphS : Icc xb xe ⊆ S := fun x hx => h.inside ⟨h0b.trans hx.1, hx.2.trans he1⟩
  have tS : ∀ {l : ℕ} {v : ℝ}, t[l]? = some v → v ∈ S := fun hv => h.inside (hI.inside _ (List.mem_of_getElem? hv))
  have fresh : ∀ i x, FreshPoint E Y t xb xe i x → I'.mask[i]? = some true := fun i x ⟨f1, f2, f3⟩ => by
    refine (hmask i).2 ⟨(hsel i x f1).2 f2, fun l v w hl hv hw he => f3 l v hl hv ?_⟩
    rw [f1] at hw
    rw [← Option.some.inj hw] at he
    rw [← exp_log (C92.aH_pos h.solution (tS hv)), ← exp_log (C92.aH_pos h.solution (tS f1)), he]
  refine ⟨κ, xb, xe, starPoint (t.map (E.efolds Y)) (t.map (along E Y)) I'.mask κ.N_cross_, hκ, ⟨⟨h0b, hbe, he1⟩, hNb, hNe, hpos, hneg, hbd, hz⟩, fun i x hf => ?_, fun hacc hall => ?_⟩
  · refine ⟨I', κ, log (E.aH Y x), hInf', hκ, fresh i x hf, ?_, ?_, ?_, rfl⟩
    · rw [hlog, eL, List.getElem?_map, hf.1]; rfl
    · show (t.map (along E Y))[i]? = _
      rw [List.getElem?_map, hf.1]; rfl
    · rw [exp_log (C92.aH_pos h.solution (tS hf.1))]
  · obtain ⟨mN, -, d, hd, hdpos⟩ := C92.facts h.isOpen h.convex h.solution h.dV
    have maH : StrictMonoOn (E.aH Y) (Icc xb xe) := strictMonoOn_of_deriv_pos (convex_Icc _ _) (fun x hx => (hd x (hphS hx)).continuousAt.continuousWithinAt) fun x hx => by
      rw [(hd x (hphS (interior_subset hx))).deriv]
      rw [interior_Icc] at hx
      exact hdpos x (hphS ⟨hx.1.le, hx.2.le⟩) (hacc x hx)
    have mL : StrictMonoOn (fun x => log (E.aH Y x)) (Icc xb xe) := fun p hp' q' hq' hpq => log_lt_log (C92.aH_pos h.solution (hphS hp')) (maH hp' hq' hpq)
    have hIoo : Ioo xb xe ⊆ Icc xb xe := Ioo_subset_Icc_self
    have hK' : cs.K = 0 ∨ cs.K = 1 ∨ cs.K = -1 := by rw [eK]; exact h.curvature
    obtain ⟨I'', hI'', -, -, -, -, i, j, x, z, c1, c2, c3, c4, c5, c6, -, c8, c9, -⟩ :=
      C92.cal_cell (P := Ioo xb xe) (fN := E.efolds Y) (fL := fun x => log (E.aH Y x)) hK' hb hcal hκ eN eL h.sorted
        (fun J hJ => by
          rw [hInf] at hJ
          have hJ := (Option.some.inj hJ).symm
          subst hJ
          exact ⟨hlen, fun i z hz hh => (hsel i z hz).1 hh⟩)
        (mN.mono (hIoo.trans hphS)) (mL.mono hIoo)
    rw [hInf] at hI''
    have hI'' := (Option.some.inj hI'').symm
    subst hI''
    have xP := (hsel i x c2).1 c5
    have zP := (hsel j z c3).1 c6
    -- the selected points
    have inP : ∀ w ∈ maskSel t I'.mask, w ∈ Ioo xb xe := fun w hw => by
      obtain ⟨k, h1, h2⟩ := C92.maskSel_mem hw
      exact (hsel k w h1).1 ((hmask k).1 h2).1
    have hl : (maskSel t I'.mask).Pairwise fun a b => E.efolds Y a < E.efolds Y b :=
      (h.sorted.sublist (C92.maskSel_sublist t I'.mask)).imp_of_mem fun {a b} ha hb hab => mN (hphS (hIoo (inP a ha))) (hphS (hIoo (inP b hb))) hab
    have selmem : ∀ (k : ℕ) w, t[k]? = some w → w ∈ Ioo xb xe → w ∈ maskSel t I'.mask := fun k w h1 h2 => by
      have := maskSel_zip_mem t t I'.mask k w w (fresh k w (hall k w h1 h2)) h1 h1
      exact (List.of_mem_zip this).1
    obtain ⟨l1, a', b', l2, e, k1, k2, k3⟩ := interp_weights hl (selmem i x c2 xP) (selmem j z c3 zP) c8 c9 (mN (hphS (hIoo xP)) (hphS (hIoo zP)) c4)
    obtain ⟨i', j', hij, hi', hj', mi, mj, hbet⟩ := C92.maskSel_next e
    have lt_of : ∀ {a b : ℕ} {v w : ℝ}, a < b → t[a]? = some v → t[b]? = some w → v < w := fun {a b v w} hab hv hw => by
      obtain ⟨h1, rfl⟩ := List.getElem?_eq_some_iff.1 hv
      obtain ⟨h2, rfl⟩ := List.getElem?_eq_some_iff.1 hw
      exact List.pairwise_iff_getElem.1 h.sorted a b h1 h2 hab
    have aP := (hsel i' a' hi').1 ((hmask i').1 mi).1
    have bP := (hsel j' b' hj').1 ((hmask j').1 mj).1
    have hj1 : j' = i' + 1 := by
      by_contra hne
      have hj'l := (List.getElem?_eq_some_iff.1 hj').1
      obtain ⟨v, hv⟩ : ∃ v, t[i' + 1]? = some v := ⟨_, List.getElem?_eq_getElem (by omega)⟩
      have vP : v ∈ Ioo xb xe := ⟨aP.1.trans (lt_of (by omega) hi' hv), (lt_of (by omega) hv hj').trans bP.2⟩
      exact hbet (i' + 1) (by omega) (by omega) (fresh _ v (hall _ v hv vP))
    rw [hj1] at hj'
    have hNlt : E.efolds Y a' < E.efolds Y b' := mN (hphS (hIoo aP)) (hphS (hIoo bP)) (lt_of (by omega) hi' hj')
    have hD : 0 < E.efolds Y b' - E.efolds Y a' := by linarith
    obtain ⟨w, hw⟩ : ∃ w, w = (κ.N_cross_ - E.efolds Y a') / (E.efolds Y b' - E.efolds Y a') := ⟨_, rfl⟩
    have val : ∀ g : SRPoint → ℝ, starValue (t.map (E.efolds Y)) ((t.map (along E Y)).map g) I'.mask κ.N_cross_ =
        (1 - w) * g (along E Y a') + w * g (along E Y b') := by
      intro g
      have hz : (maskSel (t.map (E.efolds Y)) I'.mask).zip (maskSel (t.map fun x => g (along E Y x)) I'.mask) =
          (maskSel t I'.mask).map fun z => (E.efolds Y z, g (along E Y z)) := by
        rw [maskSel_map, maskSel_map, List.zip_map']
      unfold starValue
      rw [List.map_map]
      show (match interpL (maskSel (t.map (E.efolds Y)) I'.mask) (maskSel (t.map fun x => g (along E Y x)) I'.mask) κ.N_cross_ with | .ok y => y | .error _ => 0) = _
      rw [interpL_sorted (by rw [hz, List.pairwise_map]; exact hl), hz, k3 fun x => g (along E Y x), hw]
      field_simp
      ring
    refine ⟨i', a', b', w, hi', hj', aP.1, bP.2, ?_, ?_, ?_, val (·.H), val (·.e1), val (·.e2), val (·.e3)⟩
    · rw [hw]; exact div_nonneg (by linarith) hD.le
    · rw [hw, div_le_one hD]; linarith
    · rw [hw]; field_simp; ring

end

theorem K_ok {E : Eqs} {s : InflSol} {cs : CalState} (hcs : Shooting.calState E.K s = some cs) : cs.K = E.K := by
  unfold Shooting.calState at hcs
  obtain ⟨H, -, h⟩ := Option.bind_eq_some_iff.1 hcs
  obtain ⟨L, -, h⟩ := Option.bind_eq_some_iff.1 h
  rw [← Option.some.inj h]

/-- `SlowRollAt` pins `ε₁` down -/
theorem rate_pos {E : Eqs} {D S : Set ℝ} {Y : ℝ → ℕ → ℝ} (hT : E.Trajectory D S Y) {x : ℝ} (hx : x ∈ S) : 0 < E.rate Y x := by
  cases E with
  | other K p => exact absurd hT (by simp [Eqs.Trajectory])
  | T e => exact sqrt_pos.2 (C92.H2_pos hT x hx)
  | N e => exact one_pos

end C94

/-! ## The claims -/

/-- **C94, the data.**  `solve` returns an object, and the slow-roll parameters can be computed from its arrays. -/
theorem C94_data {ivp : SolveIvp} (fmtE : ℝ → String) {E : Eqs} {D S : Set ℝ} {ic : ICCall} {kw : SolveKw} {t : List ℝ} {Y : ℝ → ℕ → ℝ} {x0 x1 : ℝ}
    (h : Solved ivp E D S ic kw t Y x0 x1) : ∃ o s sr, solve ivp fmtE E ic [] kw = .ok (o, s) ∧ slowRoll E o s = some sr ∧ sr.grid.length = t.length ∧
      ∃ P : ℝ → SRPoint, (∀ x ∈ S, SlowRollAt ((∃ e, E = .N e) ∨ E.K = 0) (E.rate Y) (E.hubble Y) (E.velocity Y) P x) ∧ ∀ i : ℕ, sr.grid[i]? = t[i]?.map P := by
  obtain ⟨c, y0, q', res, y, te, ye, hic, hq, hivp, sh, hres, hI, hpl⟩ := h.run
  obtain ⟨o, s, hs, -, -, hsr, -⟩ := C94.arrays ivp fmtE hic hq hivp sh hres h.isOpen h.convex h.solution h.dV h.start h.inside h.density hI hpl h.clean
  exact ⟨o, s, _, hs, hsr, by simp, C94.along E Y, C94.flow h.isOpen h.solution h.dV h.d2V h.d3V, fun i => by simp⟩

section
variable {ivp : SolveIvp} {fmtE : ℝ → String} {E : Eqs} {D S : Set ℝ} {ic : ICCall} {kw : SolveKw} {t : List ℝ} {Y : ℝ → ℕ → ℝ} {x0 x1 : ℝ}
  (h : Solved ivp E D S ic kw t Y x0 x1) {o : Dict Attr} {s : InflSol} (hs : solve ivp fmtE E ic [] kw = .ok (o, s)) {sr : SlowRoll} (hsr : slowRoll E o s = some sr)
  {cs : CalState} (hcs : Shooting.calState E.K s = some cs) {κ : Type} (u : SI) {spline : κ → List (ℝ × ℝ) → ℝ → ℝ} (hsp : Interpolates spline) {p q : PSol} {a : CalArgs}
  {kws : κ} (hp : p.st = cs) (hb : a.background = none)
include h hs hsr hcs hsp hp hb

/-- **C94, leading order.**  After `solve` and `calibrate_scale_factor` with `CGS` at order 0, the mode that leaves the horizon at a grid point `x` of the reported inflationary phase has the
power `H²/(8π²ε₁)` (scalar) and `2H²/π²` (tensor) of the trajectory at `x`, where `ε₁ = -d ln H/dN`. -/
theorem C94_leading_order (hok : calibrateP u spline sr p a "CGS" kws 0 = .ok q) :
    ∃ c xb xe, q.st.cal = some c ∧ ReportedPhase E Y x0 x1 s xb xe ∧
      ∀ i x, FreshPoint E Y t xb xe i x → ∀ ε, 0 < ε → HasDerivAt (fun x => log (E.hubble Y x)) (-(E.rate Y x * ε)) x →
        ask spline sr q Spectrum.s "CGS" 0 kws (E.aH Y x / c.a0_Mpc) = .ok (E.hubble Y x ^ 2 / (8 * π ^ 2 * ε)) ∧
        ask spline sr q Spectrum.t "CGS" 0 kws (E.aH Y x / c.a0_Mpc) = .ok (2 * E.hubble Y x ^ 2 / π ^ 2) := by
  obtain ⟨c, xb, xe, star, hc, hph, hx, -⟩ := C94.core h hs hsr hcs hp hb hok
  refine ⟨c, xb, xe, hc, hph, fun i x hf ε hε hd => ?_⟩
  have hxS : x ∈ S := h.inside ⟨hph.ordered.1.trans hf.2.1.1.le, hf.2.1.2.le.trans hph.ordered.2.2⟩
  have fl := C94.flow h.isOpen h.solution h.dV h.d2V h.d3V x hxS
  have e1 : (C94.along E Y x).e1 = ε := by
    have := fl.e1.unique hd
    have hr := C94.rate_pos h.solution hxS
    exact mul_left_cancel₀ hr.ne' (by linarith)
  have hH : 0 < E.hubble Y x := sqrt_pos.2 (C92.H2_pos h.solution x hxS)
  have := C74_leading_order u spline sr hsp p q a kws hb (by rw [hp, C94.K_ok hcs]; exact h.curvature) i _ _ star hok (hx i x hf) (by rw [fl.hubble]; exact hH) (by rw [e1]; exact hε)
  rw [fl.hubble, e1] at this
  exact this

/-- **C94, CGS.**  Order by order up to 3, the spectra at the wavenumber that leaves the horizon at a grid point `x` of the reported inflationary phase are the leading-order ones times the
Choe-Gong-Stewart correction, both evaluated with the slow-roll parameters of the trajectory at `x` (where both are positive). -/
theorem C94_CGS (n : ℕ) (hn : n ≤ 3) (hok : calibrateP u spline sr p a "CGS" kws n = .ok q) :
    ∃ P c xb xe, (∀ x ∈ S, SlowRollAt ((∃ e, E = .N e) ∨ E.K = 0) (E.rate Y) (E.hubble Y) (E.velocity Y) P x) ∧ q.st.cal = some c ∧ ReportedPhase E Y x0 x1 s xb xe ∧
      ∀ i x, FreshPoint E Y t xb xe i x → 0 < E.hubble Y x ^ 2 / (8 * π ^ 2 * (P x).e1) * cgsS n (P x) → 0 < 2 * (E.hubble Y x / π) ^ 2 * cgsT n (P x) →
        ask spline sr q Spectrum.s "CGS" n kws (E.aH Y x / c.a0_Mpc) = .ok (E.hubble Y x ^ 2 / (8 * π ^ 2 * (P x).e1) * cgsS n (P x)) ∧
        ask spline sr q Spectrum.t "CGS" n kws (E.aH Y x / c.a0_Mpc) = .ok (2 * (E.hubble Y x / π) ^ 2 * cgsT n (P x)) := by
  obtain ⟨c, xb, xe, star, hc, hph, hx, -⟩ := C94.core h hs hsr hcs hp hb hok
  have fl := C94.flow h.isOpen h.solution h.dV h.d2V h.d3V
  refine ⟨C94.along E Y, c, xb, xe, fl, hc, hph, fun i x hf h1 h2 => ?_⟩
  have hxS : x ∈ S := h.inside ⟨hph.ordered.1.trans hf.2.1.1.le, hf.2.1.2.le.trans hph.ordered.2.2⟩
  rw [← (fl x hxS).hubble] at h1 h2 ⊢
  exact C74_CGS u spline sr hsp p q a kws hb (by rw [hp, C94.K_ok hcs]; exact h.curvature) i _ _ star n hn hok (hx i x hf) h1 h2

/-- **C94, STE.**  The same for Stewart's expressions. -/
theorem C94_STE (n : ℕ) (hok : calibrateP u spline sr p a "STE" kws n = .ok q) :
    ∃ P c xb xe, (∀ x ∈ S, SlowRollAt ((∃ e, E = .N e) ∨ E.K = 0) (E.rate Y) (E.hubble Y) (E.velocity Y) P x) ∧ q.st.cal = some c ∧ ReportedPhase E Y x0 x1 s xb xe ∧
      ∀ i x, FreshPoint E Y t xb xe i x → 0 < E.hubble Y x ^ 2 / (8 * π ^ 2 * (P x).e1) * steS (P x) → 0 < 2 * (E.hubble Y x / π) ^ 2 * steT (P x) →
        ask spline sr q Spectrum.s "STE" n kws (E.aH Y x / c.a0_Mpc) = .ok (E.hubble Y x ^ 2 / (8 * π ^ 2 * (P x).e1) * steS (P x)) ∧
        ask spline sr q Spectrum.t "STE" n kws (E.aH Y x / c.a0_Mpc) = .ok (2 * (E.hubble Y x / π) ^ 2 * steT (P x)) := by
  obtain ⟨c, xb, xe, star, hc, hph, hx, -⟩ := C94.core h hs hsr hcs hp hb hok
  have fl := C94.flow h.isOpen h.solution h.dV h.d2V h.d3V
  refine ⟨C94.along E Y, c, xb, xe, fl, hc, hph, fun i x hf h1 h2 => ?_⟩
  have hxS : x ∈ S := h.inside ⟨hph.ordered.1.trans hf.2.1.1.le, hf.2.1.2.le.trans hph.ordered.2.2⟩
  rw [← (fl x hxS).hubble] at h1 h2 ⊢
  exact C74_STE u spline sr hsp p q a kws hb (by rw [hp, C94.K_ok hcs]; exact h.curvature) i _ _ star n hok (hx i x hf) h1 h2

/-- `star` are the parameters the code uses for the pivot scale: if the phase accelerates throughout and `aH` takes no value twice on its grid points, then
`H`, `ε₁`, `ε₂`, `ε₃` lie on the straight lines between two neighbouring grid points of the phase, at the place where the straight line through the e-folds takes the value `_N_cross`. -/
def PivotParameters (E : Eqs) (Y : ℝ → ℕ → ℝ) (t : List ℝ) (xb xe : ℝ) (P : ℝ → SRPoint) (N_cross : ℝ) (star : SRPoint) : Prop :=
  (∀ x ∈ Ioo xb xe, 0 < E.accel Y x) → (∀ (i : ℕ) x, t[i]? = some x → x ∈ Ioo xb xe → FreshPoint E Y t xb xe i x) →
    ∃ (i : ℕ) (x z w : ℝ), t[i]? = some x ∧ t[i + 1]? = some z ∧ xb < x ∧ z < xe ∧ 0 ≤ w ∧ w ≤ 1 ∧
      N_cross = (1 - w) * E.efolds Y x + w * E.efolds Y z ∧ Mixed w (P x) (P z) star

/-- **C94, LLMS.**  At the wavenumber `k` that leaves the horizon at a grid point the spectra are the quadratic polynomials in `ln(k/k_*)` whose coefficients are those of the slow-roll parameters at
the crossing of the pivot scale. -/
theorem C94_LLMS (n : ℕ) (hok : calibrateP u spline sr p a "LLMS" kws n = .ok q) :
    ∃ P c xb xe star, (∀ x ∈ S, SlowRollAt ((∃ e, E = .N e) ∨ E.K = 0) (E.rate Y) (E.hubble Y) (E.velocity Y) P x) ∧ q.st.cal = some c ∧ ReportedPhase E Y x0 x1 s xb xe ∧
      PivotParameters E Y t xb xe P c.N_cross_ star ∧ ∀ i x, FreshPoint E Y t xb xe i x → ∀ k, k = E.aH Y x / c.a0_Mpc →
        ask spline sr q Spectrum.s "LLMS" n kws k = .ok (exp (log (star.H ^ 2 / (8 * π ^ 2 * star.e1)) + bs0 star
          + (llms_ns star - 1) * (log k - log SI.K_STAR) + llms_nsrun star / 2 * (log k - log SI.K_STAR) ^ 2)) ∧
        ask spline sr q Spectrum.t "LLMS" n kws k = .ok (exp (log (2 * (star.H / π) ^ 2) + bt0 star
          + llms_nt star * (log k - log SI.K_STAR) + llms_ntrun star / 2 * (log k - log SI.K_STAR) ^ 2)) := by
  obtain ⟨c, xb, xe, star, hc, hph, hx, hst⟩ := C94.core h hs hsr hcs hp hb hok
  have fl := C94.flow h.isOpen h.solution h.dV h.d2V h.d3V
  refine ⟨C94.along E Y, c, xb, xe, star, fl, hc, hph, hst, fun i x hf k hk => ?_⟩
  subst hk
  exact C74_LLMS u spline sr hsp p q a kws hb (by rw [hp, C94.K_ok hcs]; exact h.curvature) i _ _ star n hok (hx i x hf)

/-- **C94, ARBDS.**  The same for the polynomials of order 1 to 3 of Auclair and Ringeval (where both spectra are positive). -/
theorem C94_ARBDS (n : ℕ) (h1n : 1 ≤ n) (hn : n ≤ 3) (hok : calibrateP u spline sr p a "ARBDS" kws n = .ok q) :
    ∃ P c xb xe star, (∀ x ∈ S, SlowRollAt ((∃ e, E = .N e) ∨ E.K = 0) (E.rate Y) (E.hubble Y) (E.velocity Y) P x) ∧ q.st.cal = some c ∧ ReportedPhase E Y x0 x1 s xb xe ∧
      PivotParameters E Y t xb xe P c.N_cross_ star ∧ ∀ i x, FreshPoint E Y t xb xe i x → ∀ k, k = E.aH Y x / c.a0_Mpc →
        0 < star.H ^ 2 / (8 * π ^ 2 * star.e1) * arbdsS n star (log k - log SI.K_STAR) → 0 < 2 * (star.H / π) ^ 2 * arbdsT n star (log k - log SI.K_STAR) →
        ask spline sr q Spectrum.s "ARBDS" n kws k = .ok (star.H ^ 2 / (8 * π ^ 2 * star.e1) * arbdsS n star (log k - log SI.K_STAR)) ∧
        ask spline sr q Spectrum.t "ARBDS" n kws k = .ok (2 * (star.H / π) ^ 2 * arbdsT n star (log k - log SI.K_STAR)) := by
  obtain ⟨c, xb, xe, star, hc, hph, hx, hst⟩ := C94.core h hs hsr hcs hp hb hok
  have fl := C94.flow h.isOpen h.solution h.dV h.d2V h.d3V
  refine ⟨C94.along E Y, c, xb, xe, star, fl, hc, hph, hst, fun i x hf k hk h1 h2 => ?_⟩
  subst hk
  exact C74_ARBDS u spline sr hsp p q a kws hb (by rw [hp, C94.K_ok hcs]; exact h.curvature) i _ _ star n h1n hn hok (hx i x hf) h1 h2

end

/-! ## The hypotheses are met

The exact solution of C92: the grid points `-2` and `-1` lie inside inflation. -/

namespace C94.Ex
open C92.Ex

theorem solved : Solved ivp E univ (Iio 0) (ICCall.slowRoll E C90.Ex.ic) C90.Ex.kw grid Exact.yHjT (-3) (-1 / 10) := by
  obtain ⟨y0, q, hic, hq, he⟩ := C90.Ex.called
  have hs' : IvpShape E.idx.length q.events.length res grid rows C90.Ex.te C90.Ex.ye := by rw [he]; exact shape
  exact {
    run := ⟨_, y0, q, res, rows, C90.Ex.te, C90.Ex.ye, hic, hq, rfl, hs', rfl, by rw [he]; exact integrated, by rw [he]; exact C90.Ex.plain⟩
    curvature := .inl rfl
    isOpen := isOpen_Iio
    convex := convex_Iio 0
    solution := trajectory
    dV := (Exact.hjPot_chain).1
    d2V := (Exact.hjPot_chain).2
    d3V := (Exact.hjPot_chain).3
    start := by norm_num
    inside := by intro x hx; have := hx.2; show x < 0; linarith
    density := by
      show 0 < Exact.hjT.H2 (Exact.yHjT (-3)) + _
      rw [Exact.hjT_H2]
      have : E.K = 0 := rfl
      rw [this]; norm_num
    sorted := by
      simp only [grid, List.pairwise_cons, List.mem_cons, List.not_mem_nil, or_false]
      norm_num
    clean := by
      intro h
      rw [accel] at h
      norm_num at h }

theorem hubble {x : ℝ} (hx : x < 0) : E.hubble Exact.yHjT x = -2 * x := by
  show √(Exact.hjT.H2 (Exact.yHjT x)) = _
  rw [Exact.hjT_H2, sqrt_sq (by linarith)]

theorem aH {x : ℝ} (hx : x < 0) : E.aH Exact.yHjT x = exp (-x ^ 2) * (-2 * x) := by
  show exp (E.efolds Exact.yHjT x) * E.hubble Exact.yHjT x = _
  rw [hubble hx]; rfl

theorem eps : HasDerivAt (fun x => log (E.hubble Exact.yHjT x)) (-(E.rate Exact.yHjT (-1) * (1 / 2))) (-1) := by
  have hr : E.rate Exact.yHjT (-1) = 2 := by
    have h : E.rate Exact.yHjT (-1) = E.hubble Exact.yHjT (-1) := rfl
    rw [h, hubble (by norm_num)]; norm_num
  rw [hr]
  have h1 : HasDerivAt (fun x : ℝ => -2 * x) (-2) (-1) := by simpa using (hasDerivAt_id (-1 : ℝ)).const_mul (-2)
  have h2 := (h1.log (by norm_num)).congr_of_eventuallyEq (f₁ := fun x => log (E.hubble Exact.yHjT x)) (by
    filter_upwards [Iio_mem_nhds (show (-1 : ℝ) < 0 by norm_num)] with x hx
    rw [hubble hx])
  refine h2.congr_deriv ?_
  norm_num

/-- `C94_leading_order` applies, and the mode that leaves the horizon at `t = -1`, where `H = 2` and `ε₁ = 1/2`, has `P_s = 1/π²`, `P_t = 8/π²`. -/
example (u : SI) (fmtE : ℝ → String) : ∃ (o : Dict Attr) (s : InflSol) (sr : SlowRoll) (cs : CalState) (sp : Unit → List (ℝ × ℝ) → ℝ → ℝ) (q : PSol) (c : Calib),
    solve ivp fmtE E (ICCall.slowRoll E C90.Ex.ic) [] C90.Ex.kw = .ok (o, s) ∧ slowRoll E o s = some sr ∧ Shooting.calState E.K s = some cs ∧ Interpolates sp ∧
    calibrateP u sp sr ⟨cs, Caches.empty, none⟩ { method := "N_star", N_star := some 1 } "CGS" () 0 = .ok q ∧ q.st.cal = some c ∧
    ask sp sr q Spectrum.s "CGS" 0 () (E.aH Exact.yHjT (-1) / c.a0_Mpc) = .ok (1 / π ^ 2) ∧
    ask sp sr q Spectrum.t "CGS" 0 () (E.aH Exact.yHjT (-1) / c.a0_Mpc) = .ok (8 / π ^ 2) := by
  obtain ⟨y0, q, hic, hq, he⟩ := C90.Ex.called
  have hE : E.Shipped := by intro K p h; cases h
  have hs' : IvpShape E.idx.length q.events.length res grid rows C90.Ex.te C90.Ex.ye := by rw [he]; exact shape
  obtain ⟨o', raw, hs1, hg, hev, -⟩ := C90_solve ivp fmtE E hE (ICCall.slowRoll E C90.Ex.ic) C90.Ex.kw _ y0 q hic hq (res := res) rfl hs'
  obtain ⟨cs, cs', κ, hcs, hcal, hκ, -⟩ := calibrated u fmtE hg (by rw [he] at hev; exact hev)
  obtain ⟨o, s, sr, hs, hsr, -, -⟩ := C94_data fmtE solved
  have hse : (o', inflationSol (C90.view E) E.pot.V E.K raw) = (o, s) := Except.ok.inj (hs1.symm.trans hs)
  have hse : inflationSol (C90.view E) E.pot.V E.K raw = s := (Prod.mk.inj hse).2
  rw [hse] at hcs
  obtain ⟨sp, hsp⟩ : ∃ sp : Unit → List (ℝ × ℝ) → ℝ → ℝ, Interpolates sp := ⟨_, interpolates_lookup⟩
  obtain ⟨g, hg'⟩ := gridOf_calibrate u sr hcal
  obtain ⟨Q, hQ⟩ : ∃ Q, calibrateP u sp sr ⟨cs, Caches.empty, none⟩ { method := "N_star", N_star := some 1 } "CGS" () 0 = .ok Q := by
    refine ⟨⟨cs', deriveCGS sp () 0 g Caches.empty, some (params (specCGS sp () 0 g))⟩, ?_⟩
    unfold calibrateP
    rw [hcal]
    simp [deriveP, hg', derive, deriveCGS]
  obtain ⟨c, xb, xe, hc, hph, hall⟩ := C94_leading_order solved hs hsr hcs u hsp rfl rfl hQ
  refine ⟨o, s, sr, cs, sp, Q, c, hs, hsr, hcs, hsp, hQ, hc, ?_⟩
  -- `-1` is a grid point of the phase
  obtain ⟨c', xb', xe', star, hc', hph', -, hpiv⟩ := C94.core solved hs hsr hcs rfl rfl hQ
  have hc' : c' = c := by rw [hc] at hc'; exact (Option.some.inj hc').symm
  have end_neg : ∀ {x : ℝ}, x ≤ -1 / 10 → 0 ≤ E.accel Exact.yHjT x → x ^ 2 ≥ 1 / 2 := fun hx ha => by rw [accel] at ha; linarith
  have exb : xb ^ 2 = xb' ^ 2 ∧ xe ^ 2 = xe' ^ 2 := by
    have h1 := hph.begins.symm.trans hph'.begins
    have h2 := hph.ends.symm.trans hph'.ends
    have h1 : -xb ^ 2 = -xb' ^ 2 := Option.some.inj h1
    have h2 : -xe ^ 2 = -xe' ^ 2 := Option.some.inj h2
    constructor <;> linarith
  obtain ⟨o1, o2, o3⟩ := hph.ordered
  obtain ⟨o1', o2', o3'⟩ := hph'.ordered
  have hxb : xb = xb' := by nlinarith [exb.1]
  have hxe : xe = xe' := by nlinarith [exb.2]
  rw [← hxb, ← hxe] at hpiv
  have a1 : E.aH Exact.yHjT (-2) = exp (-4) * 4 := by rw [aH (by norm_num)]; norm_num
  have a2 : E.aH Exact.yHjT (-1) = exp (-1) * 2 := by rw [aH (by norm_num)]; norm_num
  have a0 : E.aH Exact.yHjT (-3) = exp (-9) * 6 := by rw [aH (by norm_num)]; norm_num
  have l01 : E.aH Exact.yHjT (-3) < E.aH Exact.yHjT (-2) := by
    rw [a0, a1, show (-4 : ℝ) = -9 + 5 by norm_num, exp_add]
    have := add_one_le_exp (5 : ℝ)
    have := exp_pos (-9)
    nlinarith
  have l12 : E.aH Exact.yHjT (-2) < E.aH Exact.yHjT (-1) := by
    rw [a1, a2, show (-1 : ℝ) = -4 + 3 by norm_num, exp_add]
    have := add_one_le_exp (3 : ℝ)
    have := exp_pos (-4)
    nlinarith
  have g0 : grid[0]? = some (-3 : ℝ) := rfl
  have g1 : grid[1]? = some (-2 : ℝ) := rfl
  have g2 : grid[2]? = some (-1 : ℝ) := rfl
  have g3 : grid[3]? = some (-1 / 10 : ℝ) := rfl
  have fresh1 : (-2 : ℝ) ∈ Ioo xb xe → FreshPoint E Exact.yHjT grid xb xe 1 (-2) := fun hm => ⟨g1, hm, fun l v hl hv => by
    have : l = 0 := by omega
    subst this
    rw [g0] at hv
    rw [← Option.some.inj hv]
    exact l01.ne⟩
  have fresh2 : (-1 : ℝ) ∈ Ioo xb xe → FreshPoint E Exact.yHjT grid xb xe 2 (-1) := fun hm => ⟨g2, hm, fun l v hl hv => by
    rcases (by omega : l = 0 ∨ l = 1) with rfl | rfl
    · rw [g0] at hv; rw [← Option.some.inj hv]; exact (l01.trans l12).ne
    · rw [g1] at hv; rw [← Option.some.inj hv]; exact l12.ne⟩
  have no3 : (-1 / 10 : ℝ) ∉ Ioo xb xe := fun hm => by linarith [hm.2]
  have no0 : (-3 : ℝ) ∉ Ioo xb xe := fun hm => by linarith [hm.1]
  obtain ⟨i, x, z, w, hi, hz, hbx, hze, -⟩ := hpiv (fun x hx => by
      have e : 0 ≤ E.accel Exact.yHjT xe := hph.accelerates xe ⟨o2.le, le_rfl⟩
      rw [accel] at e ⊢
      have : xe ^ 2 < x ^ 2 := by have := hx.2; nlinarith
      linarith)
    (fun i x hx hm => by
      match i with
      | 0 => rw [g0] at hx; rw [← Option.some.inj hx] at hm; exact absurd hm no0
      | 1 => rw [g1] at hx; rw [← Option.some.inj hx] at hm ⊢; exact fresh1 hm
      | 2 => rw [g2] at hx; rw [← Option.some.inj hx] at hm ⊢; exact fresh2 hm
      | 3 => rw [g3] at hx; rw [← Option.some.inj hx] at hm; exact absurd hm no3
      | i + 4 => simp [grid] at hx)
  have hm : (-1 : ℝ) ∈ Ioo xb xe := by
    match i with
    | 0 => rw [g0] at hi; rw [← Option.some.inj hi] at hbx; exact absurd hbx (by linarith)
    | 1 =>
      rw [g1] at hi; rw [← Option.some.inj hi] at hbx
      rw [g2] at hz; rw [← Option.some.inj hz] at hze
      exact ⟨by linarith, hze⟩
    | 2 => rw [g3] at hz; rw [← Option.some.inj hz] at hze; exact absurd hze (by linarith)
    | i + 3 => simp [grid] at hz
  obtain ⟨k1, k2⟩ := hall 2 (-1) (fresh2 hm) (1 / 2) (by norm_num) eps
  have hH : E.hubble Exact.yHjT (-1) = 2 := by rw [hubble (by norm_num)]; norm_num
  rw [hH] at k1 k2
  have n1 : (2 : ℝ) ^ 2 / (8 * π ^ 2 * (1 / 2)) = 1 / π ^ 2 := by field_simp; norm_num
  have n2 : 2 * (2 : ℝ) ^ 2 / π ^ 2 = 8 / π ^ 2 := by norm_num
  rw [n1] at k1
  rw [n2] at k2
  exact ⟨k1, k2⟩

end C94.Ex
end Primpy
