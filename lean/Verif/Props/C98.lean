import Verif.Props.C19
import Verif.Props.C26
import Verif.Props.C67
import Verif.Props.C76
import Verif.Props.C94
import Verif.Props.C97
import Verif.Props.C99

/-!
# C98: from the keywords of the potential to the textbook universe

A potential is built from keywords, an equations object from the potential, and `solve` is called: what comes back are the samples of *the* solution of the textbook
equations (Friedmann, Klein-Gordon) of the documented potential with the requested initial data, and the leading-order spectra are the textbook expressions on it.
-/

namespace Primpy
open Real Set Spec Bunch Approx Ctor

/-! ## Specification -/

/-- The textbook equations of a scalar field in a Friedmann universe, on `S`: `dt = τ(H) dx` relates cosmic time to the variable `x` (`τ = 1` for cosmic time,
`τ = 1/H` for e-folds), `φ̇ = v`, `v̇ = -3Hv - V'(φ)`, `Ṅ = H > 0` and `3H² = v²/2 + V(φ) - 3K e^{-2N}`. -/
structure Textbook (τ : ℝ → ℝ) (K : ℝ) (V : ℝ → ℝ) (S : Set ℝ) (φ v N H : ℝ → ℝ) : Prop where
  field : ∀ x ∈ S, HasDerivAt φ (τ (H x) * v x) x
  kleinGordon : ∀ x ∈ S, HasDerivAt v (τ (H x) * (-3 * H x * v x - deriv V (φ x))) x
  expansion : ∀ x ∈ S, HasDerivAt N (τ (H x) * H x) x
  friedmann : ∀ x ∈ S, 3 * H x ^ 2 = v x ^ 2 / 2 + V (φ x) - 3 * K * exp (-2 * N x)
  expanding : ∀ x ∈ S, 0 < H x

/-- cosmic time per unit of the independent variable, for Hubble rate `h` -/
noncomputable def Eqs.clock (E : Eqs) (h : ℝ) : ℝ := match E with | .T _ => 1 | _ => 1 / h

/-- `φ`, `v`, `N` are the history whose initial data at `x0` are the rows `z` of the state: the field, its velocity per unit of the independent variable, and
(cosmic time) the number of e-folds, or (e-folds) `N = x0`. -/
def Eqs.StartsFrom (E : Eqs) (z : ℕ → ℝ) (x0 : ℝ) (φ v N H : ℝ → ℝ) : Prop :=
  φ x0 = z 0 ∧ E.clock (H x0) * v x0 = z 1 ∧ match E with | .T _ => N x0 = z 2 | _ => N x0 = x0

/-- `solve(ic, **kw)` with the equations `E` is integrated faithfully from the initial state `z` at `x0`: the initial condition asks for this state, scipy is asked, its
answer has the documented shape and samples, on the increasing grid `t` from `x0` to `x1`, an expanding solution `Y` of the equations that starts at `z` and
keeps the field in `D`; the events are recorded faithfully.  Nothing is said about the potential. -/
structure Launched (ivp : SolveIvp) (E : Eqs) (D S : Set ℝ) (ic : ICCall) (kw : SolveKw) (t : List ℝ) (Y : ℝ → ℕ → ℝ) (x0 x1 : ℝ) (z : ℕ → ℝ) : Prop where
  run : ∃ c y0 q res y te ye, ic (kw.rtol.getD (1 / 10 ^ 10)) (kw.atol.getD (1 / 10 ^ 12)) kw.rest (fun _ => some 0) = .ok (c, y0) ∧ Requested E kw c y0 q ∧
    q.x_ini = some x0 ∧ (∀ i < E.idx.length, y0 i = some (z i) ∧ Y x0 i = z i) ∧
    ivp E q = .ok res ∧ IvpShape E.idx.length q.events.length res t y te ye ∧ res.get? "dphidt" = none ∧
    Integrated (C90.view E) E.idx.length q.events Y x0 x1 t y te ye ∧ PlainInflation q.events
  curvature : E.K = 0 ∨ E.K = 1 ∨ E.K = -1
  isOpen : IsOpen S
  convex : Convex ℝ S
  solution : E.Trajectory D S Y
  start : x0 ∈ S
  inside : Icc x0 x1 ⊆ S
  density : 0 < (C90.view E).H2 x0 (Y x0) + E.K * exp (-2 * E.efolds Y x0)
  sorted : t.Pairwise (· < ·)
  clean : StartsCleanly (E.accel Y) x0 x1

/-! ## Uniqueness of the textbook universe (no code involved) -/

namespace C98

/-- the right-hand side of the textbook equations -/
noncomputable def rhs (τ : ℝ → ℝ) (K : ℝ) (V dV : ℝ → ℝ) (w : ℝ × ℝ × ℝ) : ℝ × ℝ × ℝ :=
  let h := √((w.2.1 ^ 2 / 2 + V w.1) / 3 - K * exp (-2 * w.2.2))
  (τ h * w.2.1, τ h * (-3 * h * w.2.1 - dV w.1), τ h * h)

theorem rhs_contDiff {τ : ℝ → ℝ} {K : ℝ} {V dV : ℝ → ℝ} {w : ℝ × ℝ × ℝ} (hV : ContDiffAt ℝ 1 V w.1) (hdV : ContDiffAt ℝ 1 dV w.1)
    (hpos : 0 < (w.2.1 ^ 2 / 2 + V w.1) / 3 - K * exp (-2 * w.2.2)) (hτ : ∀ h, 0 < h → ContDiffAt ℝ 1 τ h) : ContDiffAt ℝ 1 (rhs τ K V dV) w := by
  have a : ContDiffAt ℝ 1 (fun w : ℝ × ℝ × ℝ => V w.1) w := hV.comp w contDiff_fst.contDiffAt
  have b : ContDiffAt ℝ 1 (fun w : ℝ × ℝ × ℝ => dV w.1) w := hdV.comp w contDiff_fst.contDiffAt
  have c : ContDiffAt ℝ 1 (fun w : ℝ × ℝ × ℝ => (w.2.1 ^ 2 / 2 + V w.1) / 3 - K * exp (-2 * w.2.2)) w := by fun_prop
  have d : ContDiffAt ℝ 1 (fun w : ℝ × ℝ × ℝ => √((w.2.1 ^ 2 / 2 + V w.1) / 3 - K * exp (-2 * w.2.2))) w := c.sqrt hpos.ne'
  have e : ContDiffAt ℝ 1 (fun w : ℝ × ℝ × ℝ => τ √((w.2.1 ^ 2 / 2 + V w.1) / 3 - K * exp (-2 * w.2.2))) w :=
    ContDiffAt.comp (f := fun w : ℝ × ℝ × ℝ => √((w.2.1 ^ 2 / 2 + V w.1) / 3 - K * exp (-2 * w.2.2))) w (hτ _ (sqrt_pos.2 hpos)) d
  have f : ContDiffAt ℝ 1 (fun w : ℝ × ℝ × ℝ => w.2.1) w := by fun_prop
  exact (e.mul f).prodMk ((e.mul (((contDiffAt_const (c := (-3 : ℝ))).mul d).mul f |>.sub b)).prodMk (e.mul d))

theorem H_eq {τ : ℝ → ℝ} {K : ℝ} {V : ℝ → ℝ} {S : Set ℝ} {φ v N H : ℝ → ℝ} (h : Textbook τ K V S φ v N H) {x : ℝ} (hx : x ∈ S) :
    H x = √((v x ^ 2 / 2 + V (φ x)) / 3 - K * exp (-2 * N x)) ∧ 0 < (v x ^ 2 / 2 + V (φ x)) / 3 - K * exp (-2 * N x) := by
  have f := h.friedmann x hx
  have p := h.expanding x hx
  have e : (v x ^ 2 / 2 + V (φ x)) / 3 - K * exp (-2 * N x) = H x ^ 2 := by linarith
  rw [e]
  exact ⟨(sqrt_sq p.le).symm, by positivity⟩

theorem triple {τ : ℝ → ℝ} {K : ℝ} {V dV : ℝ → ℝ} {D S : Set ℝ} {φ v N H : ℝ → ℝ} (h : Textbook τ K V S φ v N H) (hV : IsDerivOn D V dV) (hφ : ∀ x ∈ S, φ x ∈ D)
    {x : ℝ} (hx : x ∈ S) : HasDerivAt (fun x => (φ x, v x, N x)) (rhs τ K V dV (φ x, v x, N x)) x := by
  have e := (H_eq h hx).1
  have d : deriv V (φ x) = dV (φ x) := (hV _ (hφ x hx)).deriv
  have := (h.field x hx).prodMk ((h.kleinGordon x hx).prodMk (h.expansion x hx))
  rw [d] at this
  show HasDerivAt _ (τ √(_) * v x, τ √(_) * (-3 * √(_) * v x - dV (φ x)), τ √(_) * √(_)) x
  rw [← e]
  exact this

end C98

/-- **C98, uniqueness**: the initial data determine the textbook universe.  (`V` is three times differentiable where the first history goes, `τ` is smooth.) -/
theorem C98_unique {τ : ℝ → ℝ} (hτ : ∀ h, 0 < h → ContDiffAt ℝ 1 τ h) {K : ℝ} {V dV d2V d3V : ℝ → ℝ} {D S : Set ℝ} (hD : IsOpen D) (h1 : IsDerivOn D V dV) (h2 : IsDerivOn D dV d2V)
    (h3 : IsDerivOn D d2V d3V) (hS : IsOpen S) (hc : Convex ℝ S) {φ v N H φ' v' N' H' : ℝ → ℝ} (h : Textbook τ K V S φ v N H) (h' : Textbook τ K V S φ' v' N' H')
    (hφ : ∀ x ∈ S, φ x ∈ D) (hφ' : ∀ x ∈ S, φ' x ∈ D) {x0 : ℝ} (hx0 : x0 ∈ S) (e1 : φ x0 = φ' x0) (e2 : v x0 = v' x0) (e3 : N x0 = N' x0) :
    ∀ x ∈ S, φ x = φ' x ∧ v x = v' x ∧ N x = N' x ∧ H x = H' x := by
  intro x hx
  have key := unique_auto hS hc.isPreconnected (fun x hx => C98.triple h h1 hφ hx) (fun x hx => C98.triple h' h1 hφ' hx)
    (fun x hx => C98.rhs_contDiff (contDiffAt_of_deriv hD h1 h2 (hφ x hx)) (contDiffAt_of_deriv hD h2 h3 (hφ x hx)) (C98.H_eq h hx).2 hτ) hx0
    (by rw [e1, e2, e3]) x hx
  obtain ⟨k1, k2⟩ := Prod.mk.inj key
  obtain ⟨k2, k3⟩ := Prod.mk.inj k2
  refine ⟨k1, k2, k3, ?_⟩
  rw [(C98.H_eq h hx).1, (C98.H_eq h' hx).1, k1, k2, k3]

namespace C98

theorem clock_smooth (E : Eqs) : ∀ h, 0 < h → ContDiffAt ℝ 1 E.clock h := by
  intro h hh
  cases E with
  | T e => exact contDiffAt_const
  | N e => exact contDiffAt_const.div contDiffAt_id hh.ne'
  | other K p => exact contDiffAt_const.div contDiffAt_id hh.ne'

/-- every solution of the code's equations is a textbook universe, and conversely its rows are read off the latter -/
theorem textbook {E : Eqs} {D S : Set ℝ} {Y : ℝ → ℕ → ℝ} (hT : E.Trajectory D S Y) (hS : IsOpen S) {V : ℝ → ℝ} (hV : ∀ φ, E.pot.V φ = V φ) (h1 : IsDerivOn D V E.pot.dV) :
    Textbook E.clock E.K V S (fun x => Y x 0) (E.velocity Y) (E.efolds Y) (E.hubble Y) := by
  have eV : E.pot.V = V := funext hV
  cases E with
  | other K p => exact absurd hT (by simp [Eqs.Trajectory])
  | T e =>
    obtain ⟨sol, hH, hφ⟩ := hT
    have u := InflT.universe sol hH
    refine ⟨fun x hx => ?_, fun x hx => ?_, fun x hx => ?_, fun x hx => ?_, fun x hx => u.expanding x hx⟩
    · refine (u.velocity x hx).congr_deriv ?_
      show _ = 1 * _
      rw [one_mul]; rfl
    · refine (u.kleinGordon x hx).congr_deriv ?_
      rw [(h1 _ (hφ x hx)).deriv]
      show _ = 1 * _
      rw [one_mul]
      show -(3 * _ * _) - _ = -3 * e.H (Y x) * InflT.dphidt (Y x) - e.pot.dV (InflT.phi (Y x))
      ring
    · refine (u.hubble x hx).congr_deriv ?_
      show _ = 1 * _
      rw [one_mul]; rfl
    · rw [← eV]; exact u.friedmann x hx
  | N e =>
    obtain ⟨sol, hH, hφ⟩ := hT
    have u := C19_efolds hS sol hH (by rw [← eV] at h1; exact h1) hφ
    refine ⟨fun x hx => ?_, fun x hx => ?_, fun x hx => ?_, fun x hx => ?_, fun x hx => u.expanding x hx⟩
    · refine (u.velocity x hx).congr_deriv ?_
      have := u.expanding x hx
      show _ = 1 / e.H x (Y x) * (e.H x (Y x) * Y x 1)
      field_simp
    · refine (u.kleinGordon x hx).congr_deriv ?_
      rw [(h1 _ (hφ x hx)).deriv]
      have := u.expanding x hx
      show _ = 1 / e.H x (Y x) * (-3 * e.H x (Y x) * (e.H x (Y x) * Y x 1) - e.pot.dV (Y x 0))
      field_simp
    · refine (hasDerivAt_id x).congr_deriv ?_
      have := u.expanding x hx
      show _ = 1 / e.H x (Y x) * e.H x (Y x)
      field_simp
    · rw [← eV]; exact u.friedmann x hx

/-- where the formula is smooth is open -/
theorem domain_open (c : PotClass) (g : String → ℝ) : IsOpen (c.domain g) := by
  cases c <;> first
    | exact isOpen_univ
    | exact isOpen_Iio
    | exact isOpen_Ioi
    | exact isOpen_ne

end C98

/-! ## The claims -/

/-- **C98, the equations**: the object built by `cls(**kwargs)`, with parameters with which its documented formula makes sense, makes the integrated system the textbook one:
every expanding solution of either set of equations is a textbook universe of the *documented formula*, as long as the field stays where the formula is smooth. -/
theorem C98_equations {o : PotOracles} {c : PotClass} {kw : Kwargs} {x : Pot} (h : construct o c kw = .ok x) (hg : c.sensible (value kw)) {E : Eqs} (hE : E.pot = x.fns)
    {S : Set ℝ} (hS : IsOpen S) {Y : ℝ → ℕ → ℝ} (hT : E.Trajectory (c.domain (value kw)) S Y) :
    Textbook E.clock E.K (c.formula (value kw) x.Lambda) S (fun x => Y x 0) (E.velocity Y) (E.efolds Y) (E.hubble Y) := by
  refine C98.textbook hT hS (fun φ => ?_) ?_
  · rw [hE]; exact C97_formula h φ
  · rw [hE]; exact (C97_derivatives h hg).1

namespace C98

theorem solved {o : PotOracles} {c : PotClass} {kwp : Kwargs} {p : Pot} (h : construct o c kwp = .ok p) (hg : c.sensible (value kwp)) {ivp : SolveIvp} {E : Eqs} (hE : E.pot = p.fns)
    {S : Set ℝ} {ic : ICCall} {kw : SolveKw} {t : List ℝ} {Y : ℝ → ℕ → ℝ} {x0 x1 : ℝ} {z : ℕ → ℝ} (L : Launched ivp E (c.domain (value kwp)) S ic kw t Y x0 x1 z) :
    Solved ivp E (c.domain (value kwp)) S ic kw t Y x0 x1 := by
  obtain ⟨k, y0, q, res, y, te, ye, hic, hq, -, -, hivp, sh, hd, hI, hp⟩ := L.run
  obtain ⟨d1, d2, d3, -⟩ := C97_derivatives h hg
  have eV : c.formula (value kwp) p.Lambda = p.fns.V := funext fun φ => (C97_formula h φ).symm
  exact ⟨⟨k, y0, q, res, y, te, ye, hic, hq, hivp, sh, hd, hI, hp⟩, L.curvature, L.isOpen, L.convex, L.solution, by rw [hE, ← eV]; exact d1, by rw [hE]; exact d2,
    by rw [hE]; exact d3, L.start, L.inside, L.density, L.sorted, L.clean⟩

theorem field_in {E : Eqs} {D S : Set ℝ} {Y : ℝ → ℕ → ℝ} (hT : E.Trajectory D S Y) : ∀ x ∈ S, Y x 0 ∈ D := by
  cases E with
  | other K p => exact absurd hT (by simp [Eqs.Trajectory])
  | T e => exact hT.2.2
  | N e => exact hT.2.2

/-- the integrated solution is the textbook universe with these initial data -/
theorem same {o : PotOracles} {c : PotClass} {kwp : Kwargs} {p : Pot} (h : construct o c kwp = .ok p) (hg : c.sensible (value kwp)) {ivp : SolveIvp} {E : Eqs} (hE : E.pot = p.fns)
    {S : Set ℝ} {ic : ICCall} {kw : SolveKw} {t : List ℝ} {Y : ℝ → ℕ → ℝ} {x0 x1 : ℝ} {z : ℕ → ℝ} (L : Launched ivp E (c.domain (value kwp)) S ic kw t Y x0 x1 z)
    {φ v N H : ℝ → ℝ} (hφ : ∀ x ∈ S, φ x ∈ c.domain (value kwp)) (hB : Textbook E.clock E.K (c.formula (value kwp) p.Lambda) S φ v N H) (h0 : E.StartsFrom z x0 φ v N H) :
    ∀ x ∈ S, Y x 0 = φ x ∧ E.velocity Y x = v x ∧ E.efolds Y x = N x ∧ E.hubble Y x = H x := by
  obtain ⟨k, y0, q, res, y, te, ye, hic, hq, -, hz, -⟩ := L.run
  have hY := C98_equations h hg hE L.isOpen L.solution
  obtain ⟨d1, d2, d3, -⟩ := C97_derivatives h hg
  obtain ⟨b0, b1, b2⟩ := h0
  have two : 2 ≤ E.idx.length := by
    cases E with
    | other K p => exact absurd L.solution (by simp [Eqs.Trajectory])
    | T e => have := C91.rowsT e; omega
    | N e => exact C91.rowsN e
  have z0 : Y x0 0 = z 0 := (hz 0 (by omega)).2
  have z1 : Y x0 1 = z 1 := (hz 1 (by omega)).2
  have eN : E.efolds Y x0 = N x0 := by
    cases E with
    | other K p => exact absurd L.solution (by simp [Eqs.Trajectory])
    | T e => exact ((hz 2 (C91.rowsT e)).2).trans (Eq.symm b2)
    | N e => exact Eq.symm b2
  have ev : E.velocity Y x0 = v x0 := by
    cases E with
    | other K p => exact absurd L.solution (by simp [Eqs.Trajectory])
    | T e =>
      have b1 : 1 * v x0 = z 1 := b1
      rw [one_mul] at b1
      exact z1.trans b1.symm
    | N e =>
      have b1 : 1 / H x0 * v x0 = z 1 := b1
      have hp := hB.expanding x0 L.start
      have e1 : v x0 = H x0 * Y x0 1 := by rw [z1, ← b1]; field_simp
      have f1 := hB.friedmann x0 L.start
      have f2 := hY.friedmann x0 L.start
      have hq' := hY.expanding x0 L.start
      have six : 6 - Y x0 1 ^ 2 ≠ 0 := InflN.six_ne (L.solution.2.1 x0 L.start)
      have ev' : (Eqs.N e).velocity Y x0 = (Eqs.N e).hubble Y x0 * Y x0 1 := rfl
      rw [ev'] at f2 ⊢
      rw [e1] at f1 ⊢
      have eN : (Eqs.N e).efolds Y x0 = N x0 := eN
      rw [b0, ← z0, ← eN] at f1
      have f2 : 3 * (Eqs.N e).hubble Y x0 ^ 2 = ((Eqs.N e).hubble Y x0 * Y x0 1) ^ 2 / 2 + c.formula (value kwp) p.Lambda (Y x0 0) - 3 * (Eqs.N e).K * exp (-2 * (Eqs.N e).efolds Y x0) := f2
      have key : ((Eqs.N e).hubble Y x0 ^ 2 - H x0 ^ 2) * (6 - Y x0 1 ^ 2) = 0 := by linear_combination 2 * f2 - 2 * f1
      have key := (mul_eq_zero.1 key).resolve_right six
      have : (Eqs.N e).hubble Y x0 = H x0 := by nlinarith
      rw [this]
  exact C98_unique (clock_smooth E) (domain_open c _) d1 d2 d3 L.isOpen L.convex hY hB (field_in L.solution) hφ L.start (z0.trans b0.symm) ev eN

end C98

/-- **C98, `solve` returns the textbook universe**: take any history `φ, v, N, H` that satisfies the textbook equations with the documented formula and has the requested initial
data.  Then the arrays `x`, `phi`, `dphidt` (or `dphidN`), `_N`, `H`, `logaH` and `Omega_K` of what `solve` returns are the samples of that history. -/
theorem C98_solve {o : PotOracles} {c : PotClass} {kwp : Kwargs} {p : Pot} (h : construct o c kwp = .ok p) (hg : c.sensible (value kwp)) {ivp : SolveIvp} (fmtE : ℝ → String) {E : Eqs}
    (hE : E.pot = p.fns) {S : Set ℝ} {ic : ICCall} {kw : SolveKw} {t : List ℝ} {Y : ℝ → ℕ → ℝ} {x0 x1 : ℝ} {z : ℕ → ℝ}
    (L : Launched ivp E (c.domain (value kwp)) S ic kw t Y x0 x1 z) {φ v N H : ℝ → ℝ} (hφ : ∀ x ∈ S, φ x ∈ c.domain (value kwp))
    (hB : Textbook E.clock E.K (c.formula (value kwp) p.Lambda) S φ v N H) (h0 : E.StartsFrom z x0 φ v N H) :
    ∃ b s, solve ivp fmtE E ic [] kw = .ok (b, s) ∧ b.get? "x" = some (.arr t) ∧ b.get? "phi" = some (.arr (t.map φ)) ∧
      (∀ e, E = .T e → b.get? "dphidt" = some (.arr (t.map v))) ∧ (∀ e, E = .N e → b.get? "dphidN" = some (.arr (t.map fun x => v x / H x))) ∧
      s.N = t.map N ∧ s.H = t.map (fun x => some (H x)) ∧ s.logaH = t.map (fun x => some (N x + log (H x))) ∧
      s.Omega_K = t.map (fun x => some (-E.K / (exp (N x) * H x) ^ 2)) := by
  have hs := C98.same h hg hE L hφ hB h0
  obtain ⟨k, y0, q, res, y, te, ye, hic, hq, -, -, hivp, sh, hd, hI, hp⟩ := L.run
  have hS := C98.solved h hg hE L
  obtain ⟨b, s, hok, aN, aL, -, ⟨aH, aO, ax, -, aφ, aT, aE⟩, -⟩ := C94.arrays ivp fmtE hic hq hivp sh hd L.isOpen L.convex L.solution hS.dV L.start L.inside L.density hI hp L.clean
  have mem : ∀ x ∈ t, x ∈ S := fun x hx => L.inside (hI.inside x hx)
  have laH : ∀ x ∈ S, log (E.aH Y x) = N x + log (H x) ∧ E.aH Y x = exp (N x) * H x := fun x hx => by
    obtain ⟨-, -, e3, e4⟩ := hs x hx
    have hp := hB.expanding x hx
    have : E.aH Y x = exp (N x) * H x := by show exp (E.efolds Y x) * E.hubble Y x = _; rw [e3, e4]
    rw [this, log_mul (exp_pos _).ne' hp.ne', log_exp]
    exact ⟨rfl, rfl⟩
  refine ⟨b, s, hok, ax, ?_, fun e he => ?_, fun e he => ?_, ?_, ?_, ?_, ?_⟩
  · rw [aφ, List.map_congr_left fun x hx => (hs x (mem x hx)).1]
  · rw [aT e he]
    subst he
    rw [List.map_congr_left fun x hx => (hs x (mem x hx)).2.1.symm]
    rfl
  · rw [aE e he]
    subst he
    congr 2
    refine List.map_congr_left fun x hx => ?_
    obtain ⟨-, e2, -, e4⟩ := hs x (mem x hx)
    have hp := hB.expanding x (mem x hx)
    have e2 : (Eqs.N e).hubble Y x * Y x 1 = v x := e2
    rw [← e2, e4]; field_simp
  · rw [aN, List.map_congr_left fun x hx => (hs x (mem x hx)).2.2.1]
  · rw [aH, List.map_map]
    exact List.map_congr_left fun x hx => congrArg some (hs x (mem x hx)).2.2.2
  · rw [aL, List.map_map]
    exact List.map_congr_left fun x hx => congrArg some (laH x (mem x hx)).1
  · rw [aO, List.map_map]
    refine List.map_congr_left fun x hx => congrArg some ?_
    have hp := hB.expanding x (mem x hx)
    have e := (laH x (mem x hx)).1
    show -E.K * exp (-2 * log (E.aH Y x)) = _
    rw [e, show -2 * (N x + log (H x)) = -(((N x + log (H x)) + (N x + log (H x)))) by ring, exp_neg, exp_add, exp_add, exp_log hp]
    field_simp

namespace C98

/-- the first slow-roll parameter of a textbook universe -/
theorem epsilon {τ : ℝ → ℝ} {K : ℝ} {V dV : ℝ → ℝ} {D S : Set ℝ} (hS : IsOpen S) {φ v N H : ℝ → ℝ} (h : Textbook τ K V S φ v N H) (hV : IsDerivOn D V dV) (hφ : ∀ x ∈ S, φ x ∈ D)
    {x : ℝ} (hx : x ∈ S) : HasDerivAt (fun x => log (H x)) (-(τ (H x) * H x * ((v x ^ 2 / 2 - K * exp (-2 * N x)) / H x ^ 2))) x := by
  have hp := h.expanding x hx
  have hd : deriv V (φ x) = dV (φ x) := (hV _ (hφ x hx)).deriv
  have a := (((h.kleinGordon x hx).pow 2).div_const 2).add (HasDerivAt.comp x (hV _ (hφ x hx)) (h.field x hx))
  have b := (((h.expansion x hx).const_mul (-2)).exp).const_mul (3 * K)
  have k := (a.sub b).div_const 3
  have ev : (fun s => H s ^ 2) =ᶠ[nhds x] fun s => (v s ^ 2 / 2 + V (φ s) - 3 * K * exp (-2 * N s)) / 3 := by
    filter_upwards [hS.mem_nhds hx] with s hs
    rw [← h.friedmann s hs]; ring
  have k := k.congr_of_eventuallyEq ev
  have d : HasDerivAt H (-(τ (H x) * (v x ^ 2 / 2 - K * exp (-2 * N x)))) x := by
    refine hasDerivAt_of_sq hS hx h.expanding (k.congr_deriv ?_)
    rw [hd]; push_cast; ring
  refine (d.log hp.ne').congr_deriv ?_
  field_simp

end C98

section
variable {o : PotOracles} {c : PotClass} {kwp : Kwargs} {p : Pot} (h : construct o c kwp = .ok p) (hg : c.sensible (value kwp)) {ivp : SolveIvp} {fmtE : ℝ → String} {E : Eqs}
  (hE : E.pot = p.fns) {S : Set ℝ} {ic : ICCall} {kw : SolveKw} {t : List ℝ} {Y : ℝ → ℕ → ℝ} {x0 x1 : ℝ} {z : ℕ → ℝ}
  (L : Launched ivp E (c.domain (value kwp)) S ic kw t Y x0 x1 z) {φ v N H : ℝ → ℝ} (hφ : ∀ x ∈ S, φ x ∈ c.domain (value kwp))
  (hB : Textbook E.clock E.K (c.formula (value kwp) p.Lambda) S φ v N H) (h0 : E.StartsFrom z x0 φ v N H)
include h hg hE L hφ hB h0

/-- **C98, the spectra**: after `calibrate_scale_factor` with `CGS` at order 0, the mode that leaves the horizon (`k a0 = aH`) at a grid point of the reported phase of accelerated expansion
(`φ̇² ≤ V`) has the textbook power `P_s = H⁴ / (8π² (φ̇²/2 - K/a²))` (that is `(H²/(2πφ̇))²` in the flat case) and `P_t = 2 H²/π²`, on the textbook universe of the documented
formula with the requested initial data. -/
theorem C98_spectra {b : Dict Attr} {s : InflSol} (hs : solve ivp fmtE E ic [] kw = .ok (b, s)) {sr : SlowRoll} (hsr : slowRoll E b s = some sr) {cs : CalState}
    (hcs : Shooting.calState E.K s = some cs) {κ : Type} (u : SI) {spline : κ → List (ℝ × ℝ) → ℝ → ℝ} (hsp : Interpolates spline) {P Q : PSol} {a : CalArgs} {kws : κ} (hP : P.st = cs)
    (hb : a.background = none) (hok : calibrateP u spline sr P a "CGS" kws 0 = .ok Q) :
    ∃ cal xb xe, Q.st.cal = some cal ∧ x0 ≤ xb ∧ xb < xe ∧ xe ≤ x1 ∧ s.start.N_beg = some (N xb) ∧ s.fin.N_end = some (N xe) ∧
      (∀ x ∈ Icc xb xe, v x ^ 2 ≤ c.formula (value kwp) p.Lambda (φ x)) ∧
      ∀ (i : ℕ) x, t[i]? = some x → x ∈ Ioo xb xe → (∀ (l : ℕ) w, l < i → t[l]? = some w → exp (N w) * H w ≠ exp (N x) * H x) → 0 < v x ^ 2 / 2 - E.K * exp (-2 * N x) →
        ask spline sr Q Spectrum.s "CGS" 0 kws (exp (N x) * H x / cal.a0_Mpc) = .ok (H x ^ 4 / (8 * π ^ 2 * (v x ^ 2 / 2 - E.K * exp (-2 * N x)))) ∧
        ask spline sr Q Spectrum.t "CGS" 0 kws (exp (N x) * H x / cal.a0_Mpc) = .ok (2 * H x ^ 2 / π ^ 2) := by
  have hsame := C98.same h hg hE L hφ hB h0
  have hS := C98.solved h hg hE L
  obtain ⟨cal, xb, xe, hcal, hph, hall⟩ := C94_leading_order hS hs hsr hcs u hsp hP hb hok
  have inS : ∀ x ∈ Icc xb xe, x ∈ S := fun x hx => L.inside ⟨hph.ordered.1.trans hx.1, hx.2.trans hph.ordered.2.2⟩
  have hbe := hph.ordered.2.1.le
  have aH : ∀ x ∈ S, E.aH Y x = exp (N x) * H x := fun x hx => by
    obtain ⟨-, -, e3, e4⟩ := hsame x hx
    show exp (E.efolds Y x) * E.hubble Y x = _
    rw [e3, e4]
  refine ⟨cal, xb, xe, hcal, hph.ordered.1, hph.ordered.2.1, hph.ordered.2.2, ?_, ?_, fun x hx => ?_, fun i x hi hx hfr hpos => ?_⟩
  · rw [hph.begins, (hsame xb (inS xb ⟨le_rfl, hbe⟩)).2.2.1]
  · rw [hph.ends, (hsame xe (inS xe ⟨hbe, le_rfl⟩)).2.2.1]
  · obtain ⟨e1, e2, -, -⟩ := hsame x (inS x hx)
    have ac := hph.accelerates x hx
    have hf : E.pot.V (Y x 0) = c.formula (value kwp) p.Lambda (φ x) := by rw [hE, e1]; exact C97_formula h _
    rw [← hf, ← e2]
    cases E with
    | other K p => exact absurd L.solution (by simp [Eqs.Trajectory])
    | T e =>
      have ac : 0 ≤ e.pot.V (Y x 0) - Y x 1 ^ 2 := ac
      show Y x 1 ^ 2 ≤ e.pot.V (Y x 0)
      linarith
    | N e =>
      have ac : 0 ≤ e.pot.V (Y x 0) - e.H2 x (Y x) * Y x 1 ^ 2 := ac
      show (√(e.H2 x (Y x)) * Y x 1) ^ 2 ≤ e.pot.V (Y x 0)
      rw [mul_pow, sq_sqrt (L.solution.2.1 x (inS x hx)).le]
      linarith
  · have hxS := inS x ⟨hx.1.le, hx.2.le⟩
    have hp := hB.expanding x hxS
    have hI : ∀ (l : ℕ) w, t[l]? = some w → w ∈ S := fun l w hw => by
      obtain ⟨k, y0, q, res, y, te, ye, -, -, -, -, -, -, -, hI, -⟩ := L.run
      exact L.inside (hI.inside w (List.mem_of_getElem? hw))
    obtain ⟨-, -, -, e4⟩ := hsame x hxS
    have hd : HasDerivAt (fun x => log (E.hubble Y x)) (-(E.rate Y x * ((v x ^ 2 / 2 - E.K * exp (-2 * N x)) / H x ^ 2))) x := by
      have := C98.epsilon L.isOpen hB (C97_derivatives h hg).1 hφ hxS
      have ev : (fun x => log (E.hubble Y x)) =ᶠ[nhds x] fun x => log (H x) := by
        filter_upwards [L.isOpen.mem_nhds hxS] with w hw
        rw [(hsame w hw).2.2.2]
      have er : E.rate Y x = E.clock (H x) * H x := by
        cases E with
        | other K p => exact absurd L.solution (by simp [Eqs.Trajectory])
        | T e =>
          show (Eqs.T e).hubble Y x = 1 * H x
          rw [e4, one_mul]
        | N e =>
          show 1 = 1 / H x * H x
          field_simp
      rw [er]
      exact this.congr_of_eventuallyEq ev
    have := hall i x ⟨hi, hx, fun l w hl hw => by rw [aH w (hI l w hw), aH x hxS]; exact hfr l w hl hw⟩ _ (by positivity) hd
    rw [aH x hxS, e4] at this
    refine ⟨this.1.trans (congrArg _ ?_), this.2⟩
    field_simp

end

namespace C98

/-- the rows of the state an initial condition writes -/
theorem rows {E : Eqs} {ic : IC} {vt vN : Option ℝ} (hg : GivesTracked E ic) {y0 y : ℕ → Option ℝ} (h : writeY0 E ic vt vN y0 = .ok y) :
    y 0 = some ic.phi_i ∧ match E with | .T _ => y 1 = vt ∧ y 2 = ic.N_i | _ => y 1 = vN := by
  obtain ⟨y', h', hr, -⟩ := C26.fill E ic vt vN hg y0
  obtain rfl : y = y' := Except.ok.inj (h.symm.trans h')
  cases E with
  | other K p => exact absurd hg (by simp [GivesTracked])
  | T e =>
    obtain ⟨K, pot, te⟩ := e
    have i0 : (Eqs.T ⟨K, pot, te⟩).idx.get? "phi" = some 0 := by cases te <;> rfl
    have i1 : (Eqs.T ⟨K, pot, te⟩).idx.get? "dphidt" = some 1 := by cases te <;> rfl
    have i2 : (Eqs.T ⟨K, pot, te⟩).idx.get? "_N" = some 2 := by cases te <;> rfl
    exact ⟨(hr _ _ i0).1 rfl, (hr _ _ i1).2.2.2.2.1 rfl, (hr _ _ i2).2.1 rfl⟩
  | N e =>
    obtain ⟨K, pot, tt, te⟩ := e
    have i0 : (Eqs.N ⟨K, pot, tt, te⟩).idx.get? "phi" = some 0 := by cases tt <;> cases te <;> rfl
    have i1 : (Eqs.N ⟨K, pot, tt, te⟩).idx.get? "dphidN" = some 1 := by cases tt <;> cases te <;> rfl
    exact ⟨(hr _ _ i0).1 rfl, (hr _ _ i1).2.2.2.2.2 rfl⟩

theorem scale {V K n m : ℝ} : (V / m - K * exp (-2 * n)) * exp (2 * n) = V / m * exp (2 * n) - K := by
  have : exp (-2 * n) * exp (2 * n) = 1 := by rw [← exp_add]; simp
  linear_combination (-K) * this

theorem hubble_sqrt {V K n m : ℝ} : √(V / m * exp (2 * n) - K) * exp (-n) = √(V / m - K * exp (-2 * n)) := by
  rw [← scale, sqrt_mul' _ (exp_pos _).le, show 2 * n = n + n by ring, exp_add, sqrt_mul_self (exp_pos _).le, mul_assoc, ← exp_add]
  simp

end C98

/-- **C98, `SlowRollIC`**: the initial state of `SlowRollIC(equations, phi_i, N_i=n, …)` is that of the textbook histories with `φ = phi_i`, `N = n` and the velocity
`φ̇ = -V'/(3h)`, `h² = V/3 - K e^{-2n}` (with e-folds: `dφ/dN = -V'/(3h²)`), `V` the documented formula. -/
theorem C98_slowroll_start {o : PotOracles} {c : PotClass} {kwp : Kwargs} {p : Pot} (h : construct o c kwp = .ok p) (hg : c.sensible (value kwp)) {E : Eqs} (hE : E.pot = p.fns)
    {a : ICArgs} {n : ℝ} (hn : a.N_i = some n) (hΩ : a.Omega_Ki = none) (hφ : a.phi_i ∈ c.domain (value kwp))
    (hpos : 0 < c.formula (value kwp) p.Lambda a.phi_i / 3 - E.K * exp (-2 * n)) {ic : IC} (hinit : SlowRollIC.init E a = .ok ic) (ht : GivesTracked E ic) {rtol atol : ℝ}
    {kw : Dict Attr} {y0 y : ℕ → Option ℝ} {ic' : IC} (hcall : ICCall.slowRoll E ic rtol atol kw y0 = .ok (ic', y)) {z : ℕ → ℝ} (hz : ∀ i < E.idx.length, y i = some (z i)) {x0 : ℝ}
    (hx0 : ∀ e, E = .N e → x0 = n) (φ v N H : ℝ → ℝ) :
    E.StartsFrom z x0 φ v N H ↔ φ x0 = a.phi_i ∧ N x0 = n ∧
      E.clock (H x0) * v x0 = E.clock √(c.formula (value kwp) p.Lambda a.phi_i / 3 - E.K * exp (-2 * n)) *
        (-deriv (c.formula (value kwp) p.Lambda) a.phi_i / (3 * √(c.formula (value kwp) p.Lambda a.phi_i / 3 - E.K * exp (-2 * n)))) := by
  have eV : E.pot.V a.phi_i = c.formula (value kwp) p.Lambda a.phi_i := by rw [hE]; exact C97_formula h _
  have edV : E.pot.dV a.phi_i = deriv (c.formula (value kwp) p.Lambda) a.phi_i := by rw [hE]; exact ((C97_derivatives h hg).1 _ hφ).deriv.symm
  rw [← edV]
  rw [← eV] at hpos ⊢
  obtain ⟨y', hy, hok⟩ := C91.bind_ok hcall
  obtain ⟨rfl, rfl⟩ := Prod.mk.inj (Except.ok.inj hok)
  have hpos' : 0 < E.pot.V a.phi_i / 3 * exp (2 * n) - E.K := by rw [← C98.scale]; positivity
  obtain ⟨hh, hhd⟩ : ∃ hh, hh = √(E.pot.V a.phi_i / 3 - E.K * exp (-2 * n)) := ⟨_, rfl⟩
  have hh0 : 0 < hh := by rw [hhd]; exact sqrt_pos.2 hpos
  have hic : ic.phi_i = a.phi_i ∧ ic.N_i = some n ∧ ic.dV_i = E.pot.dV a.phi_i ∧ ic.H_i = some hh := by
    unfold SlowRollIC.init at hinit
    rw [hn, hΩ] at hinit
    dsimp only at hinit
    rw [if_neg (not_lt.2 hpos'.le)] at hinit
    rw [← Except.ok.inj hinit]
    refine ⟨rfl, rfl, rfl, ?_⟩
    show mulExpNeg (nanSqrt _) (some n) = _
    rw [nanSqrt, if_pos hpos'.le]
    show some (√(_) * exp (-n)) = _
    rw [C98.hubble_sqrt, hhd]
  obtain ⟨i1, i2, i3, i4⟩ := hic
  obtain ⟨r0, r1⟩ := C98.rows ht hy
  rw [← hhd]
  cases E with
  | other K p => exact absurd ht (by simp [GivesTracked])
  | T e =>
    obtain ⟨r1, r2⟩ := r1
    have h3 := C91.rowsT e
    rw [hz 0 (by omega), i1] at r0
    rw [hz 1 (by omega), SlowRollIC.dphidt_i, i4, i3, Option.bind_some, nanDiv, if_neg (by positivity)] at r1
    rw [hz 2 (by omega), i2] at r2
    rw [Option.some.injEq] at r0 r1 r2
    show φ x0 = z 0 ∧ 1 * v x0 = z 1 ∧ N x0 = z 2 ↔ _ ∧ _ ∧ 1 * v x0 = 1 * _
    rw [r0, r1, r2, one_mul (- _ / _)]
    tauto
  | N e =>
    have h2 := C91.rowsN e
    rw [hz 0 (by omega), i1] at r0
    have r1 : z 1 = -e.pot.dV a.phi_i / (3 * hh ^ 2) := by
      have r1 : y' 1 = SlowRollIC.dphidN_i ic := r1
      rw [hz 1 (by omega), SlowRollIC.dphidN_i, i4, i3, Option.bind_some, nanDiv, if_neg (by positivity)] at r1
      exact Option.some.inj r1
    rw [Option.some.injEq] at r0
    have ex := hx0 e rfl
    show φ x0 = z 0 ∧ 1 / H x0 * v x0 = z 1 ∧ N x0 = x0 ↔ _ ∧ _ ∧ 1 / H x0 * v x0 = 1 / hh * (-e.pot.dV a.phi_i / (3 * hh))
    rw [r0, r1, show 1 / hh * (-e.pot.dV a.phi_i / (3 * hh)) = -e.pot.dV a.phi_i / (3 * hh ^ 2) by field_simp, ← ex]
    tauto

/-- **C98, `InflationStartIC`**: the initial state of `InflationStartIC(equations, phi_i, N_i=n, …)` is that of the textbook histories with `φ = phi_i`, `N = n` that are at the brink of
accelerated expansion, `φ̇ = -√V`.  (With e-folds a closed universe with `V = 3K/a²` is excluded: there the Hubble rate is not determined by the state.) -/
theorem C98_inflation_start {o : PotOracles} {c : PotClass} {kwp : Kwargs} {p : Pot} (h : construct o c kwp = .ok p) {E : Eqs} (hE : E.pot = p.fns)
    {a : ICArgs} {n : ℝ} (hn : a.N_i = some n) (hΩ : a.Omega_Ki = none) (hV : 0 < c.formula (value kwp) p.Lambda a.phi_i)
    (hpos : 0 < c.formula (value kwp) p.Lambda a.phi_i / 2 - E.K * exp (-2 * n)) {ic : IC} (hinit : InflationStartIC.init E a = .ok ic) (ht : GivesTracked E ic) {rtol atol : ℝ}
    {kw : Dict Attr} {y0 y : ℕ → Option ℝ} {ic' : IC} (hcall : ICCall.inflationStart E ic rtol atol kw y0 = .ok (ic', y)) {z : ℕ → ℝ} (hz : ∀ i < E.idx.length, y i = some (z i)) {x0 : ℝ}
    (hx0 : ∀ e, E = .N e → x0 = n) (hne : ∀ e, E = .N e → c.formula (value kwp) p.Lambda a.phi_i ≠ 3 * E.K * exp (-2 * n)) {S : Set ℝ} (hS : x0 ∈ S) {φ v N H : ℝ → ℝ} (hB : Textbook E.clock E.K (c.formula (value kwp) p.Lambda) S φ v N H) :
    E.StartsFrom z x0 φ v N H ↔ φ x0 = a.phi_i ∧ N x0 = n ∧ v x0 = -√(c.formula (value kwp) p.Lambda a.phi_i) := by
  have eV : E.pot.V a.phi_i = c.formula (value kwp) p.Lambda a.phi_i := by rw [hE]; exact C97_formula h _
  have fr := hB.friedmann x0 hS
  have Hp := hB.expanding x0 hS
  obtain ⟨F, hF⟩ : ∃ F : ℝ → ℝ, ∀ ψ, c.formula (value kwp) p.Lambda ψ = F ψ := ⟨_, fun _ => rfl⟩
  simp only [hF] at eV fr hV hpos hne ⊢
  obtain ⟨y', hy, hok⟩ := C91.bind_ok hcall
  obtain ⟨rfl, rfl⟩ := Prod.mk.inj (Except.ok.inj hok)
  have hpos' : 0 < E.pot.V a.phi_i / 2 * exp (2 * n) - E.K := by rw [← C98.scale, eV]; positivity
  obtain ⟨hh, hhd⟩ : ∃ hh, hh = √(F a.phi_i / 2 - E.K * exp (-2 * n)) := ⟨_, rfl⟩
  have hh0 : 0 < hh := by rw [hhd]; exact sqrt_pos.2 hpos
  have hhs : hh ^ 2 = F a.phi_i / 2 - E.K * exp (-2 * n) := by rw [hhd]; exact sq_sqrt hpos.le
  have hic : ic.phi_i = a.phi_i ∧ ic.N_i = some n ∧ ic.V_i = F a.phi_i ∧ ic.H_i = some hh := by
    unfold InflationStartIC.init at hinit
    rw [hn, hΩ] at hinit
    dsimp only at hinit
    rw [if_neg (by simp), if_neg (not_lt.2 hpos'.le)] at hinit
    rw [← Except.ok.inj hinit]
    refine ⟨rfl, rfl, eV, ?_⟩
    show nanSqrt (E.pot.V a.phi_i / 2 - E.K * exp (-2 * n)) = _
    rw [eV, nanSqrt, if_pos hpos.le, hhd]
  obtain ⟨i1, i2, i3, i4⟩ := hic
  obtain ⟨r0, r1⟩ := C98.rows ht hy
  cases E with
  | other K p => exact absurd ht (by simp [GivesTracked])
  | T e =>
    obtain ⟨r1, r2⟩ := r1
    have h3 := C91.rowsT e
    rw [hz 0 (by omega), i1] at r0
    rw [hz 1 (by omega), InflationStartIC.dphidt_i, i3, nanSqrt, if_pos hV.le, Option.map_some] at r1
    rw [hz 2 (by omega), i2] at r2
    rw [Option.some.injEq] at r0 r1 r2
    show φ x0 = z 0 ∧ 1 * v x0 = z 1 ∧ N x0 = z 2 ↔ _
    rw [r0, r1, r2, one_mul]
    tauto
  | N e =>
    have h2 := C91.rowsN e
    rw [hz 0 (by omega), i1] at r0
    have r1 : z 1 = -√(F a.phi_i) / hh := by
      have r1 : y' 1 = InflationStartIC.dphidN_i ic := r1
      rw [hz 1 (by omega), InflationStartIC.dphidN_i, i3, i4, nanSqrt, if_pos hV.le, Option.bind_some, Option.bind_some, nanDiv, if_neg hh0.ne'] at r1
      exact Option.some.inj r1
    rw [Option.some.injEq] at r0
    have ex := hx0 e rfl
    show φ x0 = z 0 ∧ 1 / H x0 * v x0 = z 1 ∧ N x0 = x0 ↔ _
    rw [r0, r1]
    have hs := sq_sqrt hV.le
    constructor
    · rintro ⟨a1, a2, a3⟩
      refine ⟨a1, a3.trans ex, ?_⟩
      have a2' : v x0 * hh = -√(F a.phi_i) * H x0 := by field_simp at a2; linarith
      rw [a1, show N x0 = n from a3.trans ex] at fr
      have this : (v x0 * hh) ^ 2 = F a.phi_i * H x0 ^ 2 := by rw [a2', mul_pow, neg_sq, hs]
      have fr : 3 * H x0 ^ 2 = v x0 ^ 2 / 2 + F a.phi_i - 3 * e.K * exp (-2 * n) := fr
      have hhs : hh ^ 2 = F a.phi_i / 2 - e.K * exp (-2 * n) := hhs
      have e1 : (H x0 ^ 2 - hh ^ 2) * (6 * hh ^ 2 - F a.phi_i) = 0 := by
        linear_combination 2 * hh ^ 2 * fr + this - 6 * hh ^ 2 * hhs
      have e2 : 6 * hh ^ 2 - F a.phi_i ≠ 0 := by
        intro e3
        apply hne e rfl
        show F a.phi_i = 3 * e.K * exp (-2 * n)
        linarith
      have e1 := (mul_eq_zero.1 e1).resolve_right e2
      have e3 : H x0 = hh := by nlinarith
      rw [e3] at a2'
      exact mul_right_cancel₀ hh0.ne' a2'
    · rintro ⟨a1, a2, a3⟩
      have : H x0 = hh := by
        rw [a1, a2, a3, neg_sq, hs] at fr
        have fr : 3 * H x0 ^ 2 = F a.phi_i / 2 + F a.phi_i - 3 * e.K * exp (-2 * n) := fr
        have hhs : hh ^ 2 = F a.phi_i / 2 - e.K * exp (-2 * n) := hhs
        have : H x0 ^ 2 = hh ^ 2 := by linarith
        nlinarith
      refine ⟨a1, ?_, a2.trans ex.symm⟩
      rw [a3, this]; field_simp

namespace C98.Ex

/-! `QuadraticPotential(Lambda=1)` and the universe with `φ = 1`, `φ̇ = -1`, `N = 0` at `t = 0`, where its accelerated expansion ends. -/

theorem built (o : PotOracles) : ∃ (kwp : Kwargs) (p : Pot), kwp = [("Lambda", some 1)] ∧ construct o .quadratic kwp = .ok p ∧ ∀ φ, PotClass.quadratic.formula (value kwp) p.Lambda φ = φ ^ 2 := by
  obtain ⟨kwp, hkw⟩ : ∃ kwp : Kwargs, kwp = [("Lambda", some 1)] := ⟨_, rfl⟩
  have hs : TakenFrom .quadratic kwp { p := some 2 } := by taken
  have hb := C89_builds (o := o) hs (L := some 1) (by simp [hkw, Dict.get?_cons]) (fun k hk => by
    rw [hkw] at hk
    simp only [Dict.get?_cons, Dict.get?_nil] at hk
    by_contra hn
    push Not at hn
    simp [hn.2] at hk)
  refine ⟨kwp, _, hkw, hb, fun φ => ?_⟩
  show (1 : ℝ) ^ 4 * φ ^ 2 = _
  ring

/-- what the example needs to know about the potential -/
structure IsSq (P : PotFns) : Prop where
  V : ∀ φ, P.V φ = φ ^ 2
  dV : ∀ φ, P.dV φ = 2 * φ
  d1 : IsDerivOn univ P.V P.dV
  d2 : IsDerivOn univ P.dV P.d2V
  d3 : IsDerivOn univ P.d2V P.d3V

theorem isSq {o : PotOracles} {kwp : Kwargs} {p : Pot} (h : construct o .quadratic kwp = .ok p) (hf : ∀ φ, PotClass.quadratic.formula (value kwp) p.Lambda φ = φ ^ 2) : IsSq p.fns := by
  obtain ⟨d1, d2, d3, -⟩ := C97_derivatives h (show PotClass.quadratic.sensible (value kwp) from trivial)
  have e : PotClass.quadratic.formula (value kwp) p.Lambda = p.fns.V := funext fun φ => (C97_formula h φ).symm
  rw [e] at d1
  have V : ∀ φ, p.fns.V φ = φ ^ 2 := fun φ => (C97_formula h φ).trans (hf φ)
  refine ⟨V, fun φ => ?_, d1, d2, d3⟩
  have h1 := d1 φ (mem_univ _)
  have h2 : HasDerivAt (fun φ : ℝ => φ ^ 2) (2 * φ) φ := by simpa using hasDerivAt_pow 2 φ
  rw [show p.fns.V = fun φ => φ ^ 2 from funext V] at h1
  exact h1.unique h2

noncomputable def E (P : PotFns) : Eqs := .T ⟨0, P, false⟩

/-- the universe around `t = 0`: it accelerates before and decelerates after -/
theorem exists_universe {P : PotFns} (hP : IsSq P) : ∃ ρ > 0, ∃ Y : ℝ → ℕ → ℝ, Y 0 0 = 1 ∧ Y 0 1 = -1 ∧ Y 0 2 = 0 ∧ (E P).Trajectory univ (Ioo (-ρ) ρ) Y ∧
    (∀ t ∈ Ioo (-ρ) ρ, Y t 1 < 0) ∧ (∀ t ∈ Ioo (-ρ) 0, 0 < (E P).accel Y t) ∧ (E P).accel Y 0 = 0 ∧ ∀ t ∈ Ioo 0 ρ, (E P).accel Y t < 0 := by
  obtain ⟨y0, hy0⟩ : ∃ y0 : ℕ → ℝ, y0 = fun i => if i = 0 then 1 else if i = 1 then -1 else 0 := ⟨_, rfl⟩
  have H0 : (InflT.mk 0 P false).H2 y0 = 1 / 2 := by
    simp only [InflT.H2, T.get_H2, InflT.V, InflT.phi, InflT.dphidt, InflT._N, hy0, hP.V]; norm_num
  obtain ⟨ε, hε, Y, hi, sol, hH⟩ := C67_time_exists (e := ⟨0, P, false⟩) isOpen_univ hP.d1 hP.d2 hP.d3 0 y0 (mem_univ _) (by rw [H0]; norm_num)
  rw [zero_sub, zero_add] at sol hH
  have m0 : (0 : ℝ) ∈ Ioo (-ε) ε := ⟨by linarith, hε⟩
  have r3 : (InflT.mk 0 P false).rows = 3 := by rw [InflT.rows_eq]; rfl
  have i0 : Y 0 0 = 1 := by rw [hi 0 (by rw [r3]; norm_num), hy0]; rfl
  have i1 : Y 0 1 = -1 := by rw [hi 1 (by rw [r3]; norm_num), hy0]; rfl
  have i2 : Y 0 2 = 0 := by rw [hi 2 (by rw [r3]; norm_num), hy0]; rfl
  have u := InflT.universe sol fun t ht => (hH t ht).1
  have hh : (InflT.mk 0 P false).H (Y 0) = √(1 / 2) := by
    show √((InflT.mk 0 P false).H2 (Y 0)) = _
    congr 1
    simp only [InflT.H2, T.get_H2, InflT.V, InflT.phi, InflT.dphidt, InflT._N, i0, i1, i2, hP.V]; norm_num
  have hs : √(1 / 2 : ℝ) < 1 := by rw [sqrt_lt' one_pos]; norm_num
  have dv : HasDerivAt (fun t => Y t 1) (3 * √(1 / 2) - 2) 0 := by
    refine (u.kleinGordon 0 m0).congr_deriv ?_
    show -(3 * (InflT.mk 0 P false).H (Y 0) * Y 0 1) - P.dV (Y 0 0) = _
    rw [hh, i0, i1, hP.dV]; ring
  have dφ : HasDerivAt (fun t => Y t 0) (-1) 0 := (u.velocity 0 m0).congr_deriv i1
  have dg : HasDerivAt (fun t => Y t 0 ^ 2 - Y t 1 ^ 2) (6 * √(1 / 2) - 6) 0 := by
    refine ((dφ.pow 2).sub (dv.pow 2)).congr_deriv ?_
    simp only [i0, i1]; push_cast; ring
  have g0 : Y 0 0 ^ 2 - Y 0 1 ^ 2 = 0 := by rw [i0, i1]; norm_num
  have ac : ∀ t, (E P).accel Y t = Y t 0 ^ 2 - Y t 1 ^ 2 := fun t => by
    show P.V (Y t 0) - Y t 1 ^ 2 = _
    rw [hP.V]
  have e1 := (hasDerivAt_iff_tendsto_slope.1 dg).eventually (gt_mem_nhds (show 6 * √(1 / 2) - 6 < (0 : ℝ) by linarith))
  have e2 : ∀ᶠ t in nhds (0 : ℝ), Y t 1 < 0 := dv.continuousAt.eventually (gt_mem_nhds (show Y 0 1 < 0 by rw [i1]; norm_num))
  rw [eventually_nhdsWithin_iff] at e1
  obtain ⟨δ, hδ, hall⟩ := Metric.eventually_nhds_iff.1 (e1.and e2)
  obtain ⟨ρ, hρ⟩ : ∃ ρ, ρ = min ε δ := ⟨_, rfl⟩
  have p0 : 0 < ρ := by rw [hρ]; exact lt_min hε hδ
  have pε : ρ ≤ ε := by rw [hρ]; exact min_le_left _ _
  have pδ : ρ ≤ δ := by rw [hρ]; exact min_le_right _ _
  have sub : Ioo (-ρ) ρ ⊆ Ioo (-ε) ε := fun t ht => ⟨by linarith [ht.1], by linarith [ht.2]⟩
  have dist' : ∀ t ∈ Ioo (-ρ) ρ, dist t 0 < δ := fun t ht => by
    rw [Real.dist_0_eq_abs, abs_lt]; exact ⟨by linarith [ht.1], by linarith [ht.2]⟩
  have slope' : ∀ t ∈ Ioo (-ρ) ρ, t ≠ 0 → (Y t 0 ^ 2 - Y t 1 ^ 2) / t < 0 := fun t ht hn => by
    have := (hall (dist' t ht)).1 hn
    rw [slope_def_field, g0, sub_zero, sub_zero] at this
    exact this
  refine ⟨ρ, p0, Y, i0, i1, i2, ⟨fun t ht => sol t (sub ht), fun t ht => (hH t (sub ht)).1, fun _ _ => mem_univ _⟩, fun t ht => (hall (dist' t ht)).2, fun t ht => ?_, ?_, fun t ht => ?_⟩
  · have := slope' t ⟨ht.1, by linarith [ht.2]⟩ ht.2.ne
    rw [ac]
    by_contra hc
    exact absurd this (not_lt.2 (div_nonneg_of_nonpos (not_lt.1 hc) ht.2.le))
  · rw [ac, g0]
  · have := slope' t ⟨by linarith [ht.1], ht.2⟩ ht.1.ne'
    rw [ac]
    by_contra hc
    exact absurd this (not_lt.2 (div_nonneg (not_lt.1 hc) ht.1.le))

/-! The run: from `t = -ρ/2`, sampled at `-ρ/2`, `-ρ/4`, `-ρ/8` and `ρ/2`, with the end of inflation recorded at `t = 0`. -/

noncomputable def st (Y : ℝ → ℕ → ℝ) (t : ℝ) : List ℝ := [Y t 0, Y t 1, Y t 2]
noncomputable def grid (ρ : ℝ) : List ℝ := [-ρ / 2, -ρ / 4, -ρ / 8, ρ / 2]
noncomputable def rows (ρ : ℝ) (Y : ℝ → ℕ → ℝ) : List (List ℝ) := [(grid ρ).map fun t => Y t 0, (grid ρ).map fun t => Y t 1, (grid ρ).map fun t => Y t 2]
noncomputable def te : List (List ℝ) := [[0]]
noncomputable def ye (Y : ℝ → ℕ → ℝ) : List (List (List ℝ)) := [[st Y 0]]
noncomputable def res (ρ : ℝ) (Y : ℝ → ℕ → ℝ) : Dict Attr := [("t", .arr (grid ρ)), ("y", .rows (rows ρ Y)), ("t_events", .tEvents te), ("y_events", .yEvents (ye Y))]
noncomputable def ivp (ρ : ℝ) (Y : ℝ → ℕ → ℝ) : SolveIvp := fun _ _ => .ok (res ρ Y)
def events : List Event := [⟨.inflation none, .neg, false, 0⟩]
/-- an initial condition that asks for the state at `t = -ρ/2` -/
noncomputable def ic (ρ : ℝ) (Y : ℝ → ℕ → ℝ) : ICCall := fun _ _ _ _ =>
  .ok (⟨Y (-ρ / 2) 0, some (-ρ / 2), none, 5, 0, 0, some (Y (-ρ / 2) 2), none, none, none⟩, fun i => some (Y (-ρ / 2) i))

section
variable {P : PotFns} (hP : IsSq P) {ρ : ℝ} (hρ : 0 < ρ) {Y : ℝ → ℕ → ℝ} (hT : (E P).Trajectory univ (Ioo (-ρ) ρ) Y)
  (hb : ∀ t ∈ Ioo (-ρ) 0, 0 < (E P).accel Y t) (h0 : (E P).accel Y 0 = 0) (ha : ∀ t ∈ Ioo 0 ρ, (E P).accel Y t < 0)

theorem rows3 : (E P).idx.length = 3 := by show (InflT.mk 0 P false).rows = 3; rw [InflT.rows_eq]; rfl

theorem shape : IvpShape (E P).idx.length 1 (res ρ Y) (grid ρ) (rows ρ Y) te (ye Y) where
  t_ne := by simp [grid]
  get_t := rfl
  get_y := rfl
  get_te := rfl
  get_ye := rfl
  rows := rfl
  cols := by simp [rows]
  te_len := rfl
  ye_len := rfl
  occ := fun j ts ss h1 h2 => by
    match j with
    | j + 1 => simp [te] at h1
    | 0 =>
      simp only [te, ye, List.getElem?_cons_zero, Option.some.injEq] at h1 h2
      subst h1 h2; rfl
  states := by
    intro v hv s hs
    simp only [ye, List.mem_singleton] at hv
    subst hv
    rw [List.mem_singleton] at hs
    subst hs; rfl

include hρ hb h0 ha in
theorem integrated : Integrated (C90.view (E P)) (E P).idx.length events Y (-ρ / 2) (ρ / 2) (grid ρ) (rows ρ Y) te (ye Y) where
  start := rfl
  inside := by
    intro x hx
    simp only [grid, List.mem_cons, List.not_mem_nil, or_false] at hx
    rcases hx with rfl | rfl | rfl | rfl <;> constructor <;> linarith
  sampled := fun j x hx i hi => by
    rw [rows3] at hi
    match j with
    | 0 => simp only [grid, List.getElem?_cons_zero, Option.some.injEq] at hx; subst hx; interval_cases i <;> rfl
    | 1 => simp only [grid, List.getElem?_cons_succ, List.getElem?_cons_zero, Option.some.injEq] at hx; subst hx; interval_cases i <;> rfl
    | 2 => simp only [grid, List.getElem?_cons_succ, List.getElem?_cons_zero, Option.some.injEq] at hx; subst hx; interval_cases i <;> rfl
    | 3 => simp only [grid, List.getElem?_cons_succ, List.getElem?_cons_zero, Option.some.injEq] at hx; subst hx; interval_cases i <;> rfl
    | j + 4 => simp [grid] at hx
  stated := fun j ts ss h1 h2 a x s h3 h4 i hi => by
    rw [rows3] at hi
    match j with
    | j + 1 => simp [te] at h1
    | 0 =>
      simp only [te, ye, List.getElem?_cons_zero, Option.some.injEq] at h1 h2
      subst h1 h2
      match a with
      | a + 1 => simp at h3
      | 0 =>
        simp only [List.getElem?_cons_zero, Option.some.injEq] at h3 h4
        subst h3 h4
        interval_cases i <;> rfl
  detected := fun j ev ts h1 h2 _ _ => by
    match j with
    | j + 1 => simp [te] at h2
    | 0 =>
      simp only [te, events, List.getElem?_cons_zero, Option.some.injEq] at h1 h2
      subst h1 h2
      have key : Detects ((E P).accel Y) (-ρ / 2) (ρ / 2) (-1) [0] := by
        refine ⟨by simp, fun c hc => ?_, fun a b h1 hab h2 h3 h4 => ⟨0, by simp, ?_, ?_⟩⟩
        · rw [List.mem_singleton] at hc
          subst hc
          refine ⟨by linarith, by linarith, h0, ⟨-ρ / 2, le_rfl, by linarith, fun x hx _ => ?_⟩, fun _ => ⟨ρ / 2, by linarith, fun x hx => ?_⟩⟩
          · have := hb x ⟨by linarith [hx.1], hx.2⟩; linarith
          · have := ha x ⟨hx.1, by linarith [hx.2]⟩; linarith
        · by_contra hc
          have := ha a ⟨not_le.1 hc, by linarith⟩
          linarith
        · by_contra hc
          have := hb b ⟨by linarith, not_le.1 hc⟩
          linarith
      have key : Detects (fun x => (C90.view (E P)).inflating x (Y x)) (-ρ / 2) (ρ / 2) (-1) [0] := key
      simpa [Event.call, Direction.val] using key
  stopped := fun j ev ts h1 h2 h3 => by
    match j with
    | j + 1 => simp [events] at h1
    | 0 =>
      simp only [events, List.getElem?_cons_zero, Option.some.injEq] at h1
      subst h1
      cases h3

include hρ hT hb h0 ha in
theorem launched : Launched (ivp ρ Y) (E P) univ (Ioo (-ρ) ρ) (ic ρ Y) C90.Ex.kw (grid ρ) Y (-ρ / 2) (ρ / 2) (Y (-ρ / 2)) where
  run := ⟨_, _, _, res ρ Y, rows ρ Y, te, ye Y, rfl, requested (E P) C90.Ex.kw _ _, rfl, fun i _ => ⟨rfl, rfl⟩, rfl, shape, rfl, integrated hρ hb h0 ha, C90.Ex.plain⟩
  curvature := .inl rfl
  isOpen := isOpen_Ioo
  convex := convex_Ioo _ _
  solution := hT
  start := ⟨by linarith, by linarith⟩
  inside := fun x hx => ⟨by linarith [hx.1], by linarith [hx.2]⟩
  density := by
    have := hT.2.1 (-ρ / 2) ⟨by linarith, by linarith⟩
    have h : 0 < (C90.view (E P)).H2 (-ρ / 2) (Y (-ρ / 2)) := this
    have eK : (E P).K = 0 := rfl
    rw [eK, zero_mul, add_zero]
    exact h
  sorted := by
    simp only [grid, List.pairwise_cons, List.mem_cons, List.not_mem_nil, or_false]
    refine ⟨?_, ?_, ?_, by simp⟩
    · rintro x (rfl | rfl | rfl) <;> linarith
    · rintro x (rfl | rfl) <;> linarith
    · rintro x rfl; linarith
  clean := fun h => by
    have := hb (-ρ / 2) ⟨by linarith, by linarith⟩
    linarith

include hρ hb in
theorem watched : Watched (ivp ρ Y) (E P) (ic ρ Y) C90.Ex.kw Y (-ρ / 2) := by
  intro c y0 q _ hq
  have he : q.events = [⟨.inflation none, .neg, false, 0⟩] := hq.events.1 _ rfl
  refine ⟨by rw [he]; exact ⟨_, List.mem_singleton_self _, ⟨_, rfl⟩, rfl⟩, ?_, .inl (hb _ ⟨by linarith, by linarith⟩).le⟩
  intro res t y te ye _ _ j ev ts h1 _ h3
  rw [he] at h1
  match j with
  | j + 1 => simp at h1
  | 0 =>
    simp only [List.getElem?_cons_zero, Option.some.injEq] at h1
    rw [← h1] at h3
    cases h3

end

/-- `C98_equations`, `C98_unique` and `C98_solve` apply: whatever universe satisfies the textbook equations of `V = φ²` and passes through `φ = 1`, `φ̇ = -1`, `N = 0` at `t = 0`, `solve`
returns its samples. -/
example (o : PotOracles) (fmtE : ℝ → String) : ∃ (kwp : Kwargs) (p : Pot) (ρ : ℝ) (Y : ℝ → ℕ → ℝ), construct o .quadratic kwp = .ok p ∧ 0 < ρ ∧
    (∃ φ v N H : ℝ → ℝ, Textbook (fun _ => 1) 0 (fun φ => φ ^ 2) (Ioo (-ρ) ρ) φ v N H ∧ φ 0 = 1 ∧ v 0 = -1 ∧ N 0 = 0) ∧
    ∀ φ v N H : ℝ → ℝ, Textbook (fun _ => 1) 0 (fun φ => φ ^ 2) (Ioo (-ρ) ρ) φ v N H → φ 0 = 1 → v 0 = -1 → N 0 = 0 →
      ∃ b s, solve (ivp ρ Y) fmtE (.T ⟨0, p.fns, false⟩) (ic ρ Y) [] C90.Ex.kw = .ok (b, s) ∧ b.get? "phi" = some (.arr [φ (-ρ / 2), φ (-ρ / 4), φ (-ρ / 8), φ (ρ / 2)]) ∧
        s.N = [N (-ρ / 2), N (-ρ / 4), N (-ρ / 8), N (ρ / 2)] := by
  obtain ⟨kwp, p, hkw, hp, hf⟩ := built o
  have hP := isSq hp hf
  obtain ⟨ρ, hρ, Y, y0, y1, y2, hT, -, hb, h0, ha⟩ := exists_universe hP
  have ef : PotClass.quadratic.formula (value kwp) p.Lambda = fun φ => φ ^ 2 := funext hf
  have hg : PotClass.quadratic.sensible (value kwp) := trivial
  have eq := C98_equations hp hg (E := E p.fns) rfl isOpen_Ioo hT
  rw [ef] at eq
  have m0 : (0 : ℝ) ∈ Ioo (-ρ) ρ := ⟨by linarith, hρ⟩
  have L : Launched (ivp ρ Y) (E p.fns) (PotClass.quadratic.domain (value kwp)) (Ioo (-ρ) ρ) (ic ρ Y) C90.Ex.kw (grid ρ) Y (-ρ / 2) (ρ / 2) (Y (-ρ / 2)) := launched hρ hT hb h0 ha
  refine ⟨kwp, p, ρ, Y, hp, hρ, ⟨_, _, _, _, eq, y0, y1, y2⟩, fun φ v N H hB f0 f1 f2 => ?_⟩
  have same := C98_unique (τ := fun _ => 1) (fun _ _ => contDiffAt_const) isOpen_univ (show IsDerivOn univ (fun φ : ℝ => φ ^ 2) p.fns.dV from ef ▸ (C97_derivatives hp hg).1) hP.d2 hP.d3
    isOpen_Ioo (convex_Ioo _ _) eq hB (fun _ _ => mem_univ _) (fun _ _ => mem_univ _) m0 (y0.trans f0.symm) (y1.trans f1.symm) (y2.trans f2.symm)
  obtain ⟨e1, e2, e3, -⟩ := same (-ρ / 2) ⟨by linarith, by linarith⟩
  obtain ⟨b, s, hs, -, k1, -, -, k2, -⟩ := C98_solve hp hg fmtE (E := E p.fns) rfl L (φ := φ) (v := v) (N := N) (H := H) (fun _ _ => mem_univ _) (by rw [ef]; exact hB)
    ⟨e1.symm, by show 1 * v (-ρ / 2) = _; rw [one_mul]; exact e2.symm, e3.symm⟩
  exact ⟨b, s, hs, k1, k2⟩

/-- `C98_spectra` applies to a calibration that exists: `n` e-folds between `t = -ρ/4` and the end of inflation are asked for, and the mode that leaves the horizon at `t = -ρ/4` has
`P_s = (H²/(2π φ̇))²` and `P_t = 2 H²/π²`. -/
example (o : PotOracles) (u : SI) (fmtE : ℝ → String) {sp : Unit → List (ℝ × ℝ) → ℝ → ℝ} (hsp : Interpolates sp) : ∃ (kwp : Kwargs) (p : Pot) (ρ : ℝ) (Y : ℝ → ℕ → ℝ) (b : Dict Attr)
    (s : InflSol) (sr : SlowRoll) (cs : CalState) (n : ℝ) (Q : PSol) (cal : Calib) (φ v N H : ℝ → ℝ), construct o .quadratic kwp = .ok p ∧ 0 < ρ ∧
    solve (ivp ρ Y) fmtE (E p.fns) (ic ρ Y) [] C90.Ex.kw = .ok (b, s) ∧ slowRoll (E p.fns) b s = some sr ∧
    Shooting.calState (E p.fns).K s = some cs ∧ calibrateP u sp sr ⟨cs, Caches.empty, none⟩ { method := "N_star", N_star := some n } "CGS" () 0 = .ok Q ∧ Q.st.cal = some cal ∧
    Textbook (fun _ => 1) 0 (fun φ => φ ^ 2) (Ioo (-ρ) ρ) φ v N H ∧ φ 0 = 1 ∧ v 0 = -1 ∧ N 0 = 0 ∧
    ask sp sr Q Spectrum.s "CGS" 0 () (exp (N (-ρ / 4)) * H (-ρ / 4) / cal.a0_Mpc) = .ok ((H (-ρ / 4) ^ 2 / (2 * π * v (-ρ / 4))) ^ 2) ∧
    ask sp sr Q Spectrum.t "CGS" 0 () (exp (N (-ρ / 4)) * H (-ρ / 4) / cal.a0_Mpc) = .ok (2 * H (-ρ / 4) ^ 2 / π ^ 2) := by
  obtain ⟨kwp, p, hkw, hp, hf⟩ := built o
  have hP := isSq hp hf
  obtain ⟨ρ, hρ, Y, y0, y1, y2, hT, hv, hb, h0, ha⟩ := exists_universe hP
  have ef : PotClass.quadratic.formula (value kwp) p.Lambda = fun φ => φ ^ 2 := funext hf
  have hg : PotClass.quadratic.sensible (value kwp) := trivial
  have eq := C98_equations hp hg (E := E p.fns) rfl isOpen_Ioo hT
  have L : Launched (ivp ρ Y) (E p.fns) (PotClass.quadratic.domain (value kwp)) (Ioo (-ρ) ρ) (ic ρ Y) C90.Ex.kw (grid ρ) Y (-ρ / 2) (ρ / 2) (Y (-ρ / 2)) := launched hρ hT hb h0 ha
  have hS := C98.solved hp hg (E := E p.fns) rfl L
  obtain ⟨b, s, m, hs, hm⟩ := C99_delivers fmtE hS (watched hρ hb) (a := -ρ / 2) (b := ρ / 2) le_rfl (by linarith) le_rfl (hb _ ⟨by linarith, by linarith⟩) (ha _ ⟨by linarith, by linarith⟩)
  obtain ⟨sr, cs, xb, xe, hsr, hcs, hph, hall⟩ := C99_flat hS hs hm rfl
  have o1 := hph.ordered
  -- the phase is `[-ρ/2, 0]`
  have hxe : xe = 0 := by
    have hz := hph.stops
    rcases lt_trichotomy xe 0 with h | h | h
    · have := hb xe ⟨by linarith, h⟩; linarith
    · exact h
    · have := ha xe ⟨h, by linarith⟩; linarith
  have hxb : xb = -ρ / 2 := by
    rcases hph.starts with h | h
    · exact h
    · have := hb xb ⟨by linarith, by linarith⟩; linarith
  subst hxe hxb
  have mem : ∀ x, -ρ < x → x < ρ → x ∈ Ioo (-ρ) ρ := fun x h1 h2 => ⟨h1, h2⟩
  have mN : StrictMonoOn ((E p.fns).efolds Y) (Ioo (-ρ) ρ) := (C92.facts isOpen_Ioo (convex_Ioo _ _) hT hP.d1).1
  obtain ⟨n, hn⟩ : ∃ n, n = (E p.fns).efolds Y 0 - (E p.fns).efolds Y (-ρ / 4) := ⟨_, rfl⟩
  have hn0 : 0 < n := by
    have := mN (mem (-ρ / 4) (by linarith) (by linarith)) (mem 0 (by linarith) hρ) (by linarith)
    rw [hn]; linarith
  have en : (E p.fns).efolds Y 0 - n = (E p.fns).efolds Y (-ρ / 4) := by rw [hn]; ring
  obtain ⟨Q, hQ⟩ := (hall u sp ⟨cs, Caches.empty, none⟩ () "CGS" 0 n 100 none rfl (.inl ⟨rfl, by norm_num⟩)).1.2 ⟨hn0, -ρ / 4, by simp [grid], -ρ / 8, by simp [grid],
    ⟨by linarith, by linarith⟩, ⟨by linarith, by linarith⟩, by linarith, by rw [en], by
      rw [en]; exact (mN (mem (-ρ / 4) (by linarith) (by linarith)) (mem (-ρ / 8) (by linarith) (by linarith)) (by linarith)).le⟩
  have st : (E p.fns).StartsFrom (Y (-ρ / 2)) (-ρ / 2) (fun x => Y x 0) ((E p.fns).velocity Y) ((E p.fns).efolds Y) ((E p.fns).hubble Y) := ⟨rfl, one_mul _, rfl⟩
  obtain ⟨cal, xb', xe', hcal, h1, h2, h3, h4, h5, -, hmain⟩ := C98_spectra hp hg (E := E p.fns) rfl L (fun _ _ => mem_univ _) eq st hs hsr hcs u hsp rfl rfl hQ
  obtain rfl : -ρ / 2 = xb' := mN.injOn (mem _ (by linarith) (by linarith)) (mem _ (by linarith) (by linarith)) (Option.some.inj (hph.begins.symm.trans h4))
  obtain rfl : 0 = xe' := mN.injOn (mem _ (by linarith) (by linarith)) (mem _ (by linarith) (by linarith)) (Option.some.inj (hph.ends.symm.trans h5))
  obtain ⟨d, hd, hdp⟩ := (C92.facts isOpen_Ioo (convex_Ioo _ _) hT hP.d1).2.2
  have sub : Icc (-ρ / 2) (-ρ / 4) ⊆ Ioo (-ρ) ρ := fun x hx => ⟨by linarith [hx.1], by linarith [hx.2]⟩
  have maH : StrictMonoOn ((E p.fns).aH Y) (Icc (-ρ / 2) (-ρ / 4)) := strictMonoOn_of_deriv_pos (convex_Icc _ _)
    (fun x hx => (hd x (sub hx)).continuousAt.continuousWithinAt) fun x hx => by
      have hx := interior_subset hx
      rw [(hd x (sub hx)).deriv]
      exact hdp x (sub hx) (hb x ⟨by linarith [hx.1], by linarith [hx.2]⟩)
  have hlt := maH ⟨le_rfl, by linarith⟩ ⟨by linarith, le_rfl⟩ (show -ρ / 2 < -ρ / 4 by linarith)
  have hvq := hv (-ρ / 4) (mem _ (by linarith) (by linarith))
  have hvq : (E p.fns).velocity Y (-ρ / 4) < 0 := hvq
  obtain ⟨k1, k2⟩ := hmain 1 (-ρ / 4) rfl ⟨by linarith, by linarith⟩ (fun l w hl hw => by
    obtain rfl : l = 0 := by omega
    obtain rfl : -ρ / 2 = w := Option.some.inj hw
    exact hlt.ne) (by
      have : (E p.fns).K = 0 := rfl
      rw [this, zero_mul, sub_zero]
      have := mul_pos_of_neg_of_neg hvq hvq
      nlinarith)
  have eK : (E p.fns).K = 0 := rfl
  have eq' : Textbook (fun _ => 1) 0 (fun φ => φ ^ 2) (Ioo (-ρ) ρ) (fun x => Y x 0) ((E p.fns).velocity Y) ((E p.fns).efolds Y) ((E p.fns).hubble Y) := by rw [ef] at eq; exact eq
  have kv : (E p.fns).hubble Y (-ρ / 4) ^ 4 / (8 * π ^ 2 * ((E p.fns).velocity Y (-ρ / 4) ^ 2 / 2 - (E p.fns).K * exp (-2 * (E p.fns).efolds Y (-ρ / 4)))) =
      ((E p.fns).hubble Y (-ρ / 4) ^ 2 / (2 * π * (E p.fns).velocity Y (-ρ / 4))) ^ 2 := by
    rw [eK, zero_mul, sub_zero]
    have := hvq.ne
    field_simp
    norm_num
  rw [kv] at k1
  exact ⟨kwp, p, ρ, Y, b, s, sr, cs, n, Q, cal, fun x => Y x 0, (E p.fns).velocity Y, (E p.fns).efolds Y, (E p.fns).hubble Y, hp, hρ, hs, hsr, hcs, hQ, hcal, eq', y0, y1, y2, k1, k2⟩

/-- `C98_slowroll_start` applies: with `phi_i = 4`, `N_i = 0` the field starts at `4` with `φ̇ = -8/(3 √(16/3))`. -/
example (o : PotOracles) (φ v N H : ℝ → ℝ) : ∃ (kwp : Kwargs) (p : Pot) (ic : IC) (y : ℕ → Option ℝ) (z : ℕ → ℝ), construct o .quadratic kwp = .ok p ∧
    SlowRollIC.init (.T ⟨0, p.fns, false⟩) ⟨4, some 0, none, 5, some 0, none⟩ = .ok ic ∧
    ICCall.slowRoll (.T ⟨0, p.fns, false⟩) ic 0 0 [] (fun _ => some 0) = .ok (ic, y) ∧ (∀ i < 3, y i = some (z i)) ∧
    ((Eqs.T ⟨0, p.fns, false⟩).StartsFrom z 0 φ v N H ↔ φ 0 = 4 ∧ N 0 = 0 ∧ v 0 = -8 / (3 * √(16 / 3))) := by
  obtain ⟨kwp, p, hkw, hp, hf⟩ := built o
  have hP := isSq hp hf
  have ef : PotClass.quadratic.formula (value kwp) p.Lambda = fun φ => φ ^ 2 := funext hf
  have e4 : p.fns.V 4 = 16 := by rw [hP.V]; norm_num
  have d4 : p.fns.dV 4 = 8 := by rw [hP.dV]; norm_num
  obtain ⟨ic, hic, i1, i2, i3, i4⟩ : ∃ ic, SlowRollIC.init (.T ⟨0, p.fns, false⟩) ⟨4, some 0, none, 5, some 0, none⟩ = .ok ic ∧ ic.phi_i = 4 ∧ ic.N_i = some 0 ∧ ic.dV_i = 8 ∧
      ic.H_i = some √(16 / 3) := by
    unfold SlowRollIC.init
    dsimp only
    have hc : ¬ (Eqs.T ⟨0, p.fns, false⟩).pot.V 4 / 3 * exp (2 * 0) - (Eqs.T ⟨0, p.fns, false⟩).K < 0 := by
      show ¬ p.fns.V 4 / 3 * exp (2 * 0) - 0 < 0
      rw [e4]; norm_num
    rw [if_neg hc]
    refine ⟨_, rfl, rfl, rfl, d4, ?_⟩
    show mulExpNeg (nanSqrt (p.fns.V 4 / 3 * exp (2 * 0) - 0)) (some 0) = _
    rw [e4, nanSqrt, if_pos (by norm_num)]
    show some (√(_) * exp (-0)) = _
    norm_num
  obtain ⟨y, hy, hrow, -⟩ := C26_slowroll (.T ⟨0, p.fns, false⟩) ic (fun h => by cases h) fun _ => some 0
  have r0 := (hrow "phi" 0 rfl).1 rfl
  have r1 := (hrow "dphidt" 1 rfl).2.2.2.2.1 rfl
  have r2 := (hrow "_N" 2 rfl).2.1 rfl
  have hs : 0 < √(16 / 3 : ℝ) := sqrt_pos.2 (by norm_num)
  rw [i1] at r0
  rw [SlowRollIC.dphidt_i, i4, i3, Option.bind_some, nanDiv, if_neg (by positivity)] at r1
  rw [i2] at r2
  have hcall : ICCall.slowRoll (.T ⟨0, p.fns, false⟩) ic 0 0 [] (fun _ => some 0) = .ok (ic, y) := by
    simp only [ICCall.slowRoll, hy, bind, Except.bind]
  have hz : ∀ i < 3, y i = some ((fun i => (y i).getD 0) i) := fun i hi => by
    interval_cases i
    · show y 0 = some ((y 0).getD 0); rw [r0]; rfl
    · show y 1 = some ((y 1).getD 0); rw [r1]; rfl
    · show y 2 = some ((y 2).getD 0); rw [r2]; rfl
  have r3 : (Eqs.T ⟨0, p.fns, false⟩).idx.length = 3 := by show (InflT.mk 0 p.fns false).rows = 3; rw [InflT.rows_eq]; rfl
  have key := C98_slowroll_start hp (show PotClass.quadratic.sensible (value kwp) from trivial) (E := .T ⟨0, p.fns, false⟩) rfl (a := ⟨4, some 0, none, 5, some 0, none⟩) (n := 0) rfl rfl
    (mem_univ _) (by
      show 0 < PotClass.quadratic.formula (value kwp) p.Lambda 4 / 3 - 0 * exp (-2 * 0)
      rw [hf]
      norm_num) hic (fun h => by cases h) hcall (z := fun i => (y i).getD 0) (by rw [r3]; exact hz) (x0 := 0) (fun e h => by cases h) φ v N H
  refine ⟨kwp, p, ic, y, _, hp, hic, hcall, hz, key.trans ?_⟩
  have hd : deriv (PotClass.quadratic.formula (value kwp) p.Lambda) 4 = 8 := by
    have := hasDerivAt_pow 2 (4 : ℝ)
    rw [ef, this.deriv]; norm_num
  show φ 0 = 4 ∧ N 0 = 0 ∧ 1 * v 0 = 1 * (-deriv (PotClass.quadratic.formula (value kwp) p.Lambda) 4 / (3 * √(PotClass.quadratic.formula (value kwp) p.Lambda 4 / 3 - 0 * exp (-2 * 0)))) ↔ _
  rw [hd, hf, one_mul, one_mul, show (4 : ℝ) ^ 2 / 3 - 0 * exp (-2 * 0) = 16 / 3 by norm_num]

/-- `C98_inflation_start` applies: with `phi_i = 1`, `N_i = 0` the universe starts as the one above: `φ̇ = -1`. -/
example (o : PotOracles) : ∃ (kwp : Kwargs) (p : Pot) (ρ : ℝ) (ic : IC) (y : ℕ → Option ℝ) (z : ℕ → ℝ), construct o .quadratic kwp = .ok p ∧ 0 < ρ ∧
    InflationStartIC.init (.T ⟨0, p.fns, false⟩) ⟨1, some 0, none, 5, some 0, none⟩ = .ok ic ∧
    ICCall.inflationStart (.T ⟨0, p.fns, false⟩) ic 0 0 [] (fun _ => some 0) = .ok (ic, y) ∧ (∀ i < 3, y i = some (z i)) ∧
    ∃ φ v N H : ℝ → ℝ, Textbook (fun _ => 1) 0 (fun φ => φ ^ 2) (Ioo (-ρ) ρ) φ v N H ∧ (Eqs.T ⟨0, p.fns, false⟩).StartsFrom z 0 φ v N H := by
  obtain ⟨kwp, p, hkw, hp, hf⟩ := built o
  have hP := isSq hp hf
  obtain ⟨ρ, hρ, Y, y0, y1, y2, hT, -, hb, h0, ha⟩ := exists_universe hP
  have ef : PotClass.quadratic.formula (value kwp) p.Lambda = fun φ => φ ^ 2 := funext hf
  have eq := C98_equations hp (show PotClass.quadratic.sensible (value kwp) from trivial) (E := E p.fns) rfl isOpen_Ioo hT
  have e1 : p.fns.V 1 = 1 := by rw [hP.V]; norm_num
  obtain ⟨ic, hic, i1, i2, i3⟩ : ∃ ic, InflationStartIC.init (.T ⟨0, p.fns, false⟩) ⟨1, some 0, none, 5, some 0, none⟩ = .ok ic ∧ ic.phi_i = 1 ∧ ic.N_i = some 0 ∧ ic.V_i = 1 := by
    unfold InflationStartIC.init
    dsimp only
    have hc : ¬ (Eqs.T ⟨0, p.fns, false⟩).pot.V 1 / 2 * exp (2 * 0) - (Eqs.T ⟨0, p.fns, false⟩).K < 0 := by
      show ¬ p.fns.V 1 / 2 * exp (2 * 0) - 0 < 0
      rw [e1]; norm_num
    rw [if_neg (by simp), if_neg hc]
    exact ⟨_, rfl, rfl, rfl, e1⟩
  obtain ⟨y, hy, hrow, -⟩ := C26_inflationstart (.T ⟨0, p.fns, false⟩) ic (fun h => by cases h) fun _ => some 0
  have r0 := (hrow "phi" 0 rfl).1 rfl
  have r1 := (hrow "dphidt" 1 rfl).2.2.2.2.1 rfl
  have r2 := (hrow "_N" 2 rfl).2.1 rfl
  rw [i1] at r0
  rw [InflationStartIC.dphidt_i, i3, nanSqrt, if_pos (by norm_num), Option.map_some] at r1
  rw [i2] at r2
  have hcall : ICCall.inflationStart (.T ⟨0, p.fns, false⟩) ic 0 0 [] (fun _ => some 0) = .ok (ic, y) := by
    simp only [ICCall.inflationStart, hy, bind, Except.bind]
  have hz : ∀ i < 3, y i = some ((fun i => (y i).getD 0) i) := fun i hi => by
    interval_cases i
    · show y 0 = some ((y 0).getD 0); rw [r0]; rfl
    · show y 1 = some ((y 1).getD 0); rw [r1]; rfl
    · show y 2 = some ((y 2).getD 0); rw [r2]; rfl
  have r3 : (Eqs.T ⟨0, p.fns, false⟩).idx.length = 3 := by show (InflT.mk 0 p.fns false).rows = 3; rw [InflT.rows_eq]; rfl
  have key := C98_inflation_start hp (E := .T ⟨0, p.fns, false⟩) rfl (a := ⟨1, some 0, none, 5, some 0, none⟩) (n := 0) rfl rfl (by
      show 0 < PotClass.quadratic.formula (value kwp) p.Lambda 1
      rw [hf]; norm_num) (by
      show 0 < PotClass.quadratic.formula (value kwp) p.Lambda 1 / 2 - 0 * exp (-2 * 0)
      rw [hf]
      norm_num) hic (fun h => by cases h) hcall (z := fun i => (y i).getD 0) (by rw [r3]; exact hz) (x0 := 0) (fun e h => by cases h) (fun e h => by cases h)
    (show (0 : ℝ) ∈ Ioo (-ρ) ρ from ⟨by linarith, hρ⟩) eq
  refine ⟨kwp, p, ρ, ic, y, _, hp, hρ, hic, hcall, hz, _, _, _, _, by rw [ef] at eq; exact eq, key.2 ⟨y0, y2, ?_⟩⟩
  show Y 0 1 = -√(PotClass.quadratic.formula (value kwp) p.Lambda 1)
  rw [hf]
  rw [y1]; norm_num

end C98.Ex
end Primpy
