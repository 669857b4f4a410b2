import Verif.Lemmas.Stable
import Verif.Props.C94

/-!
# C96: an inexact integrator: what `solve` reports converges linearly in its errors
-/

namespace Primpy
open Real Set Spec Bunch Metric NNReal

/-! ## Specification -/

/-- the right-hand side handed to scipy -/
noncomputable def Eqs.rhs (E : Eqs) : ℝ → (ℕ → ℝ) → ℕ → ℝ :=
  match E with
  | .T e => e.call
  | .N e => e.call
  | .other _ _ => fun _ _ _ => 0

/-- How an inexact integrator went from each grid point to the next: in step `j` it followed the curve `follow j`, which satisfies the equations up to a residual
`defect` per unit of the independent variable, and stored as the next state something at most `jump j` away from the end of that curve.  It started `initial` away
from the requested state.  (With `defect = 0`, `jump j` is the local error of step `j`; with `jump = 0`, `defect` is the residual of the dense output.) -/
structure StepLog where
  follow : ℕ → ℝ → ℕ → ℝ
  initial : ℝ
  defect : ℝ
  jump : ℕ → ℝ

/-- scipy's answer (grid `t`, rows `y`, event places `te` and states `ye`) is an inexact integration of the equations from `x0` towards `x1`, starting near `Y x0`,
with total error `δ`: the initial error, the jumps of all steps and the accumulated residual add up to at most `δ`; a recorded event lies in some step, its state
is within `δ` of the curve followed there, and the event function is at most `δ` there; every step in which an event function has a root in the sense of scipy
(`scipyActive`, on the stored states) has an event recorded (except possibly the last step, if it was cut short by a terminal event); and the integration ends at
`x1` or with a terminal event. -/
structure InexactRun (E : Eqs) (events : List Event) (Y : ℝ → ℕ → ℝ) (x0 x1 : ℝ) (t : List ℝ) (y : List (List ℝ)) (te : List (List ℝ))
    (ye : List (List (List ℝ))) (L : StepLog) (δ : ℝ) : Prop where
  start : t.head? = some x0
  increasing : t.Pairwise (· < ·)
  inside : ∀ x ∈ t, x ≤ x1
  initial : ∀ i < E.idx.length, |(y.getD i []).getD 0 0 - Y x0 i| ≤ L.initial
  defect_nonneg : 0 ≤ L.defect
  starts : ∀ (j : ℕ) a b, t[j]? = some a → t[j + 1]? = some b → ∀ i < E.idx.length, L.follow j a i = (y.getD i []).getD j 0
  follows : ∀ (j : ℕ) a b, t[j]? = some a → t[j + 1]? = some b → ∀ x ∈ Icc a b, ∀ i < E.idx.length,
    ∃ v, HasDerivAt (fun s => L.follow j s i) v x ∧ |v - E.rhs x (L.follow j x) i| ≤ L.defect
  jumps : ∀ (j : ℕ) a b, t[j]? = some a → t[j + 1]? = some b → ∀ i < E.idx.length, |(y.getD i []).getD (j + 1) 0 - L.follow j b i| ≤ L.jump j
  total : L.initial + ∑ j ∈ Finset.range (t.length - 1), L.jump j + L.defect * (x1 - x0) ≤ δ
  recorded : ∀ (k : ℕ) ev ts ss, events[k]? = some ev → te[k]? = some ts → ye[k]? = some ss → ∀ (m : ℕ) c st, ts[m]? = some c → ss[m]? = some st →
    (∃ (j : ℕ) (a b : ℝ), t[j]? = some a ∧ t[j + 1]? = some b ∧ c ∈ Icc a b ∧ ∀ i < E.idx.length, |st.getD i 0 - L.follow j c i| ≤ δ) ∧
      |ev.call (C90.view E) c (fun i => st.getD i 0)| ≤ δ
  detected : ∀ (k : ℕ) ev ts, events[k]? = some ev → te[k]? = some ts → ∀ (j : ℕ) a b, t[j]? = some a → t[j + 1]? = some b →
    (j + 2 < t.length ∨ ∀ (k' : ℕ) ev' ts', events[k']? = some ev' → te[k']? = some ts' → ev'.terminal = true → ts' = []) →
    scipyActive ev.direction (ev.call (C90.view E) a fun i => (y.getD i []).getD j 0) (ev.call (C90.view E) b fun i => (y.getD i []).getD (j + 1) 0) →
    ∃ c ∈ ts, c ∈ Icc a b
  finished : t.getLast? = some x1 ∨ ∃ (k : ℕ) (ev : Event) (ts : List ℝ), events[k]? = some ev ∧ te[k]? = some ts ∧ ev.terminal = true ∧ ts ≠ []

/-- The initial condition succeeds, and scipy answers the request made for it with an inexact integration near `Y` on the grid `t` of total error `δ`. -/
def InexactlySolved (ivp : SolveIvp) (E : Eqs) (ic : ICCall) (kw : SolveKw) (Y : ℝ → ℕ → ℝ) (x0 x1 : ℝ) (t : List ℝ) (δ : ℝ) : Prop :=
  ∃ c y0 q res y te ye L, ic (kw.rtol.getD (1 / 10 ^ 10)) (kw.atol.getD (1 / 10 ^ 12)) kw.rest (fun _ => some 0) = .ok (c, y0) ∧ Requested E kw c y0 q ∧
    ivp E q = .ok res ∧ IvpShape E.idx.length q.events.length res t y te ye ∧ InexactRun E q.events Y x0 x1 t y te ye L δ

/-- `o` is a number within `ε` of `v` (and not NaN). -/
def Near (o : Option ℝ) (v ε : ℝ) : Prop := ∃ u, o = some u ∧ |u - v| ≤ ε

namespace C96

/-! ## States as vectors -/

/-- independent variable and state -/
abbrev Vec (n : ℕ) := ℝ × (Fin n → ℝ)

/-- rows that do not exist are zero -/
def ext {n : ℕ} (v : Fin n → ℝ) (i : ℕ) : ℝ := if h : i < n then v ⟨i, h⟩ else 0
/-- the first `n` rows -/
def vec (n : ℕ) (x : ℝ) (y : ℕ → ℝ) : Vec n := (x, fun i => y i)

theorem ext_vec {n i : ℕ} (hi : i < n) (x : ℝ) (y : ℕ → ℝ) : ext (vec n x y).2 i = y i := by simp [ext, vec, hi]

theorem dist_vec' {n : ℕ} {x x' : ℝ} {y z : ℕ → ℝ} {ε : ℝ} (hε : 0 ≤ ε) (hx : |x' - x| ≤ ε) (h : ∀ i < n, |y i - z i| ≤ ε) : dist (vec n x' y) (vec n x z) ≤ ε := by
  rw [Prod.dist_eq]
  refine max_le (by simpa [vec, Real.dist_eq] using hx) ((dist_pi_le_iff hε).2 fun i => ?_)
  rw [Real.dist_eq]
  exact h i i.2

theorem dist_vec {n : ℕ} {x : ℝ} {y z : ℕ → ℝ} {ε : ℝ} (hε : 0 ≤ ε) (h : ∀ i < n, |y i - z i| ≤ ε) : dist (vec n x y) (vec n x z) ≤ ε :=
  dist_vec' hε (by simpa using hε) h

theorem of_dist_vec {n : ℕ} {x x' : ℝ} {y z : ℕ → ℝ} {ε : ℝ} (h : dist (vec n x' y) (vec n x z) ≤ ε) : ∀ i < n, |y i - z i| ≤ ε := by
  intro i hi
  have h1 : dist (vec n x' y).2 (vec n x z).2 ≤ ε := (le_max_right _ _).trans (by rw [← Prod.dist_eq]; exact h)
  have := (dist_le_pi_dist (vec n x' y).2 (vec n x z).2 ⟨i, hi⟩).trans h1
  rwa [Real.dist_eq] at this

/-- the equations as an autonomous system -/
noncomputable def G (E : Eqs) (p : Vec E.idx.length) : Vec E.idx.length := (1, fun i => E.rhs p.1 (ext p.2) i)

theorem rhs_congr {E : Eqs} (hE : E.Shipped) {y z : ℕ → ℝ} (h : ∀ i < E.idx.length, y i = z i) (x : ℝ) (i : ℕ) (hi : i < E.idx.length) : E.rhs x y i = E.rhs x z i := by
  cases E with
  | other K p => exact absurd rfl (hE K p)
  | T e =>
    have := C91.rowsT e
    show e.call x y i = e.call x z i
    simp only [InflT.call, InflT.H2, InflT.V, InflT.dVdphi, InflT._N, InflT.phi, InflT.dphidt, h 0 (by omega), h 1 (by omega), h 2 (by omega)]
  | N e =>
    have := C91.rowsN e
    show e.call x y i = e.call x z i
    simp only [InflN.call, InflN.H2, InflN.V, InflN.dVdphi, InflN.phi, InflN.dphidN, h 0 (by omega), h 1 (by omega)]

/-- `q` is continuously differentiable in the independent variable and the state at `(x, Y x)` -/
def SmoothAt (n : ℕ) (Y : ℝ → ℕ → ℝ) (x : ℝ) (q : ℝ → (ℕ → ℝ) → ℝ) : Prop := ContDiffAt ℝ 1 (fun p : Vec n => q p.1 (ext p.2)) (vec n x (Y x))

theorem smooth_row {n : ℕ} {Y : ℝ → ℕ → ℝ} {x : ℝ} {i : ℕ} (hi : i < n) : SmoothAt n Y x fun _ y => y i := by
  have : (fun p : Vec n => ext p.2 i) = fun p => p.2 ⟨i, hi⟩ := by funext p; simp [ext, hi]
  unfold SmoothAt
  rw [this]
  fun_prop

theorem smooth_x {n : ℕ} {Y : ℝ → ℕ → ℝ} {x : ℝ} : SmoothAt n Y x fun x _ => x := by
  unfold SmoothAt; fun_prop

theorem smooth_const {n : ℕ} {Y : ℝ → ℕ → ℝ} {x : ℝ} (c : ℝ) : SmoothAt n Y x fun _ _ => c := by
  unfold SmoothAt; fun_prop

/-- the quantities and right-hand sides along a trajectory -/
theorem smooth {E : Eqs} {D S : Set ℝ} {Y : ℝ → ℕ → ℝ} {d3 : ℝ → ℝ} (hD : IsOpen D) (h1 : IsDerivOn D E.pot.V E.pot.dV) (h2 : IsDerivOn D E.pot.dV E.pot.d2V)
    (h3 : IsDerivOn D E.pot.d2V d3) (hT : E.Trajectory D S Y) {x : ℝ} (hx : x ∈ S) :
    0 < (C90.view E).H2 x (Y x) ∧ (∀ i < E.idx.length, SmoothAt E.idx.length Y x fun x y => E.rhs x y i) ∧ SmoothAt E.idx.length Y x (C90.view E).N ∧
      SmoothAt E.idx.length Y x (C90.view E).phi ∧ SmoothAt E.idx.length Y x (C90.view E).H2 ∧ SmoothAt E.idx.length Y x (C90.view E).inflating ∧
      SmoothAt E.idx.length Y x (fun x y => E.pot.V ((C90.view E).phi x y)) ∧
      (0 < (C90.view E).H2 x (Y x) + E.K * exp (-2 * E.efolds Y x) → SmoothAt E.idx.length Y x (C90.view E).w) := by
  have comp : ∀ {n : ℕ} {f : ℝ → ℝ} {q : ℝ → (ℕ → ℝ) → ℝ}, SmoothAt n Y x q → ContDiffAt ℝ 1 f (q x (ext (vec n x (Y x)).2)) → SmoothAt n Y x fun x y => f (q x y) :=
    fun {n f q} hq hf => ContDiffAt.comp (g := f) (f := fun p : Vec n => q p.1 (ext p.2)) (vec n x (Y x)) hf hq
  cases E with
  | other K p => exact absurd hT (by simp [Eqs.Trajectory])
  | T e =>
    have r := C91.rowsT e
    obtain ⟨sol, hH, hφ⟩ := hT
    have hH : 0 < e.H2 (Y x) := hH x hx
    have x0 := ext_vec (n := (Eqs.T e).idx.length) (i := 0) (by omega) x (Y x)
    have x1 := ext_vec (n := (Eqs.T e).idx.length) (i := 1) (by omega) x (Y x)
    have x2 := ext_vec (n := (Eqs.T e).idx.length) (i := 2) (by omega) x (Y x)
    have s0 := smooth_row (n := (Eqs.T e).idx.length) (Y := Y) (x := x) (i := 0) (by omega)
    have s1 := smooth_row (n := (Eqs.T e).idx.length) (Y := Y) (x := x) (i := 1) (by omega)
    have s2 := smooth_row (n := (Eqs.T e).idx.length) (Y := Y) (x := x) (i := 2) (by omega)
    have sV : SmoothAt (Eqs.T e).idx.length Y x fun _ y => e.pot.V (y 0) := comp s0 (by rw [x0]; exact contDiffAt_of_deriv hD h1 h2 (hφ x hx))
    have sdV : SmoothAt (Eqs.T e).idx.length Y x fun _ y => e.pot.dV (y 0) := comp s0 (by rw [x0]; exact contDiffAt_of_deriv hD h2 h3 (hφ x hx))
    have sH : SmoothAt (Eqs.T e).idx.length Y x fun _ y => e.H2 y := by
      unfold SmoothAt at *
      simp only [InflT.H2, T.get_H2, InflT.V, InflT.phi, InflT.dphidt, InflT._N]
      fun_prop
    have vH : e.H2 (ext (vec (Eqs.T e).idx.length x (Y x)).2) = e.H2 (Y x) := by
      simp only [InflT.H2, InflT.V, InflT.phi, InflT.dphidt, InflT._N, x0, x1, x2]
    have sR : SmoothAt (Eqs.T e).idx.length Y x fun _ y => √(e.H2 y) := ContDiffAt.sqrt sH (by rw [vH]; exact hH.ne')
    refine ⟨hH, fun i hi => ?_, s2, s0, sH, ?_, sV, fun hρ => ?_⟩
    · have hi4 : i < 4 := by
        have : i < e.rows := hi
        rw [InflT.rows_eq] at this; split at this <;> omega
      show SmoothAt _ Y x fun x y => e.call x y i
      interval_cases i
      · simp only [InflT.call0]; exact s1
      · simp only [InflT.call1, InflT.H, InflT.dphidt, InflT.dVdphi, InflT.phi]
        unfold SmoothAt at *
        fun_prop
      · simp only [InflT.call2]; exact sR
      · have he : e.track_eta = true := by
          by_contra hne
          have : 3 < e.rows := hi
          rw [InflT.rows_eq] at this; simp [hne] at this
        simp only [InflT.call3 _ he, InflT._N]
        unfold SmoothAt at *
        fun_prop
    · show SmoothAt _ Y x fun _ y => e.inflating y
      simp only [InflT.inflating, InflT.V, InflT.phi, InflT.dphidt]
      unfold SmoothAt at *
      fun_prop
    · have hρ : 0 < e.H2 (Y x) + e.K * exp (-2 * Y x 2) := hρ
      show SmoothAt _ Y x fun _ y => e.w y
      simp only [InflT.w, InflT.V, InflT.phi, InflT.dphidt]
      unfold SmoothAt at *
      refine ContDiffAt.div (by fun_prop) (by fun_prop) ?_
      rw [x0, x1]
      simp only [InflT.H2, T.get_H2, InflT.V, InflT.phi, InflT.dphidt, InflT._N] at hρ
      intro h
      rw [h] at hρ
      linarith
  | N e =>
    have r := C91.rowsN e
    obtain ⟨sol, hH, hφ⟩ := hT
    have hH : 0 < e.H2 x (Y x) := hH x hx
    have x0 := ext_vec (n := (Eqs.N e).idx.length) (i := 0) (by omega) x (Y x)
    have x1 := ext_vec (n := (Eqs.N e).idx.length) (i := 1) (by omega) x (Y x)
    have s0 := smooth_row (n := (Eqs.N e).idx.length) (Y := Y) (x := x) (i := 0) (by omega)
    have s1 := smooth_row (n := (Eqs.N e).idx.length) (Y := Y) (x := x) (i := 1) (by omega)
    have sx : SmoothAt (Eqs.N e).idx.length Y x fun x _ => x := smooth_x
    have sV : SmoothAt (Eqs.N e).idx.length Y x fun _ y => e.pot.V (y 0) := comp s0 (by rw [x0]; exact contDiffAt_of_deriv hD h1 h2 (hφ x hx))
    have sdV : SmoothAt (Eqs.N e).idx.length Y x fun _ y => e.pot.dV (y 0) := comp s0 (by rw [x0]; exact contDiffAt_of_deriv hD h2 h3 (hφ x hx))
    have h6 : 6 - Y x 1 ^ 2 ≠ 0 := InflN.six_ne hH
    have sH : SmoothAt (Eqs.N e).idx.length Y x fun x y => e.H2 x y := by
      unfold SmoothAt at *
      simp only [InflN.H2, N.get_H2, InflN.V, InflN.phi, InflN.dphidN]
      refine ContDiffAt.div (by fun_prop) (by fun_prop) ?_
      rw [x1]; exact h6
    have vH : e.H2 x (ext (vec (Eqs.N e).idx.length x (Y x)).2) = e.H2 x (Y x) := by
      simp only [InflN.H2, InflN.V, InflN.phi, InflN.dphidN, x0, x1]
    have vH' : e.H2 (vec (Eqs.N e).idx.length x (Y x)).1 (ext (vec (Eqs.N e).idx.length x (Y x)).2) = e.H2 x (Y x) := vH
    have sR : SmoothAt (Eqs.N e).idx.length Y x fun x y => √(e.H2 x y) := ContDiffAt.sqrt sH (by rw [vH']; exact hH.ne')
    have vR : √(e.H2 x (ext (vec (Eqs.N e).idx.length x (Y x)).2)) ≠ 0 := by rw [vH]; exact (sqrt_pos.2 hH).ne'
    refine ⟨hH, fun i hi => ?_, sx, s0, sH, ?_, sV, fun hρ => ?_⟩
    · show SmoothAt _ Y x fun x y => e.call x y i
      have hi' : i < e.rows := hi
      by_cases i0 : i = 0
      · rw [i0]; simp only [InflN.call0]; exact s1
      by_cases i1 : i = 1
      · rw [i1]
        simp only [InflN.call1, N.get_d2phi, N.get_dH_H, InflN.dphidN, InflN.dVdphi, InflN.phi]
        have a1 : SmoothAt (Eqs.N e).idx.length Y x fun x y => e.pot.dV (y 0) / e.H2 x y := ContDiffAt.div sdV sH (by rw [vH']; exact hH.ne')
        have a2 : SmoothAt (Eqs.N e).idx.length Y x fun x y => e.K * exp (-2 * x) / e.H2 x y :=
          ContDiffAt.div (by unfold SmoothAt at sx; fun_prop) sH (by rw [vH']; exact hH.ne')
        unfold SmoothAt at *
        fun_prop
      by_cases i2 : i = 2 ∧ e.track_time = true
      · rw [i2.1]
        simp only [InflN.call_t _ i2.2, InflN.H]
        exact ContDiffAt.div contDiffAt_const sR vR
      · have he : e.track_eta = true := by
          by_contra hne
          rw [InflN.rows_eq] at hi'
          cases ht : e.track_time <;> simp [hne, ht] at hi' i2 <;> omega
        have hi2 : i = e.etaRow := by
          rw [InflN.rows_eq] at hi'
          unfold InflN.etaRow
          cases ht : e.track_time <;> simp [he, ht] at hi' i2 ⊢ <;> omega
        rw [hi2]
        simp only [InflN.call_eta _ he, InflN.H]
        exact ContDiffAt.div (by unfold SmoothAt at sx; fun_prop) sR vR
    · show SmoothAt _ Y x fun x y => e.inflating x y
      simp only [InflN.inflating, InflN.V, InflN.phi, InflN.dphidN]
      unfold SmoothAt at *
      fun_prop
    · have hρ : 0 < e.H2 x (Y x) + e.K * exp (-2 * x) := hρ
      show SmoothAt _ Y x fun x y => e.w x y
      simp only [InflN.w, InflN.V, InflN.phi, InflN.dphidN]
      unfold SmoothAt at *
      refine ContDiffAt.div (by fun_prop) (by fun_prop) ?_
      rw [x0, x1, vH']
      have e3 : e.H2 x (Y x) * (6 - Y x 1 ^ 2) = 2 * e.pot.V (Y x 0) - 6 * e.K * exp (-2 * x) := by
        simp only [InflN.H2, N.get_H2, InflN.V, InflN.phi, InflN.dphidN]
        exact div_mul_cancel₀ _ h6
      intro h
      nlinarith

/-! ## Closeness -/

/-- a smooth quantity changes at most linearly near the trajectory -/
theorem lipschitz {E : Eqs} {Y : ℝ → ℕ → ℝ} {x0 x1 : ℝ} (hc : ∀ i < E.idx.length, ContinuousOn (fun x => Y x i) (Icc x0 x1)) {q : ℝ → (ℕ → ℝ) → ℝ}
    (hq : ∀ x ∈ Icc x0 x1, SmoothAt E.idx.length Y x q) (hcg : ∀ (x : ℝ) (y z : ℕ → ℝ), (∀ i < E.idx.length, y i = z i) → q x y = q x z) :
    ∃ r > 0, ∃ K, 0 ≤ K ∧ ∀ x ∈ Icc x0 x1, ∀ (x' : ℝ) (st : ℕ → ℝ) (η : ℝ), 0 ≤ η → η ≤ r → |x' - x| ≤ η → (∀ i < E.idx.length, |st i - Y x i| ≤ η) →
      |q x' st - q x (Y x)| ≤ K * η := by
  have cont : ContinuousOn (fun x => vec E.idx.length x (Y x)) (Icc x0 x1) :=
    continuousOn_id.prodMk (continuousOn_pi.2 fun i => hc i i.2)
  obtain ⟨r, hr, K, hK⟩ := Stable.tube cont hq
  refine ⟨r, hr, K, K.2, fun x hx x' st η h0 hηr hx' h => ?_⟩
  have hd := dist_vec' h0 hx' h
  have := (hK x hx).dist_le_mul (vec E.idx.length x' st) (mem_closedBall.2 (hd.trans hηr)) (vec E.idx.length x (Y x)) (mem_closedBall_self hr.le)
  rw [Real.dist_eq] at this
  have e1 : ∀ (x : ℝ) (y : ℕ → ℝ), q (vec E.idx.length x y).1 (ext (vec E.idx.length x y).2) = q x y := fun x y => hcg x _ _ fun i hi => ext_vec hi x y
  rw [e1, e1] at this
  exact this.trans (mul_le_mul_of_nonneg_left hd K.2)

section
variable {E : Eqs} {D S : Set ℝ} {Y : ℝ → ℕ → ℝ} {d3 : ℝ → ℝ} {x0 x1 : ℝ}

theorem traj_deriv (hT : E.Trajectory D S Y) {x : ℝ} (hx : x ∈ S) : ∀ i < E.idx.length, HasDerivAt (fun s => Y s i) (E.rhs x (Y x) i) x := by
  cases E with
  | other K p => exact absurd hT (by simp [Eqs.Trajectory])
  | T e => exact fun i hi => hT.1 x hx i hi
  | N e => exact fun i hi => hT.1 x hx i hi

theorem traj_cont (hT : E.Trajectory D S Y) (hsub : Icc x0 x1 ⊆ S) : ∀ i < E.idx.length, ContinuousOn (fun x => Y x i) (Icc x0 x1) :=
  fun i hi _ hx => (traj_deriv hT (hsub hx) i hi).continuousAt.continuousWithinAt

theorem vec_deriv (hE : E.Shipped) (hT : E.Trajectory D S Y) {x : ℝ} (hx : x ∈ S) :
    HasDerivAt (fun x => vec E.idx.length x (Y x)) (G E (vec E.idx.length x (Y x))) x := by
  refine (hasDerivAt_id x).prodMk (hasDerivAt_pi.2 fun i => ?_)
  have := traj_deriv hT hx i i.2
  refine this.congr_deriv ?_
  exact rhs_congr hE (fun k hk => (ext_vec hk x (Y x)).symm) x i i.2

theorem G_smooth (hD : IsOpen D) (h1 : IsDerivOn D E.pot.V E.pot.dV) (h2 : IsDerivOn D E.pot.dV E.pot.d2V) (h3 : IsDerivOn D E.pot.d2V d3) (hT : E.Trajectory D S Y)
    {x : ℝ} (hx : x ∈ S) : ContDiffAt ℝ 1 (G E) (vec E.idx.length x (Y x)) :=
  contDiffAt_const.prodMk (contDiffAt_pi.2 fun i => (smooth hD h1 h2 h3 hT hx).2.1 i i.2)

theorem getElem?_getD {t : List ℝ} {j : ℕ} (h : j < t.length) : t[j]? = some (t.getD j 0) := by rw [List.getElem?_eq_getElem h, C90.getD_lt _ h]

/-- stored states and recorded events are close to the trajectory -/
theorem close (hD : IsOpen D) (h1 : IsDerivOn D E.pot.V E.pot.dV) (h2 : IsDerivOn D E.pot.dV E.pot.d2V) (h3 : IsDerivOn D E.pot.d2V d3) (hT : E.Trajectory D S Y)
    (hsub : Icc x0 x1 ⊆ S) : ∃ C, 1 ≤ C ∧ ∃ δ0 > 0, ∀ (events : List Event) t y te ye L δ, InexactRun E events Y x0 x1 t y te ye L δ → δ ≤ δ0 → 0 ≤ δ ∧
      (∀ (j : ℕ) x, t[j]? = some x → x ∈ Icc x0 x1 ∧ ∀ i < E.idx.length, |(y.getD i []).getD j 0 - Y x i| ≤ C * δ) ∧
      ∀ (k : ℕ) ev ts ss, events[k]? = some ev → te[k]? = some ts → ye[k]? = some ss → ∀ (m : ℕ) c st, ts[m]? = some c → ss[m]? = some st →
        c ∈ Icc x0 x1 ∧ (∀ i < E.idx.length, |st.getD i 0 - Y c i| ≤ C * δ) ∧ |ev.call (C90.view E) c (fun i => st.getD i 0)| ≤ δ := by
  have hE := C91.shipped hT
  have hn : 0 < E.idx.length := by
    cases E with
    | other K p => exact absurd rfl (hE K p)
    | T e => have := C91.rowsT e; omega
    | N e => have := C91.rowsN e; omega
  have yd : ∀ x ∈ Icc x0 x1, HasDerivAt (fun x => vec E.idx.length x (Y x)) (G E (vec E.idx.length x (Y x))) x := fun x hx => vec_deriv hE hT (hsub hx)
  obtain ⟨r, hr, K, hK⟩ := Stable.tube (fun x hx => (yd x hx).continuousAt.continuousWithinAt) (fun x hx => G_smooth hD h1 h2 h3 hT (hsub hx))
  obtain ⟨A, hA⟩ : ∃ A, A = Real.exp (K * (x1 - x0)) := ⟨_, rfl⟩
  have hA0 : 0 < A := by rw [hA]; exact exp_pos _
  refine ⟨A + 1, by linarith, r / (2 * A), by positivity, fun events t y te ye L δ R hδ => ?_⟩
  obtain ⟨a, t', rfl⟩ : ∃ a t', t = a :: t' := by
    cases t with
    | nil => have := R.start; simp at this
    | cons a b => exact ⟨a, b, rfl⟩
  obtain rfl : a = x0 := by have := R.start; simpa using this
  obtain ⟨t, ht⟩ : ∃ t, t = a :: t' := ⟨_, rfl⟩
  obtain ⟨n, hnt⟩ : ∃ n, t.length = n + 1 := ⟨t'.length, by rw [ht]; simp⟩
  rw [← ht] at R ⊢
  have t0 : t.getD 0 0 = a := by rw [ht]; rfl
  have get : ∀ j < n + 1, t[j]? = some (t.getD j 0) := fun j hj => getElem?_getD (by omega)
  have hL0 : 0 ≤ L.initial := (abs_nonneg _).trans (R.initial 0 hn)
  have mono : ∀ j < n, t.getD j 0 ≤ t.getD (j + 1) 0 := fun j hj => by
    have := List.pairwise_iff_getElem.1 R.increasing j (j + 1) (by omega) (by omega) (by omega)
    rw [C90.getD_lt _ (by omega), C90.getD_lt _ (by omega)]
    exact this.le
  have jump0 : ∀ j < n, 0 ≤ L.jump j := fun j hj => (abs_nonneg _).trans (R.jumps j _ _ (get j (by omega)) (get (j + 1) (by omega)) 0 hn)
  have hlast : t.getD n 0 ≤ x1 := R.inside _ (List.mem_of_getElem? (get n (by omega)))
  choose! v hv using fun j (hj : j < n) => R.follows j _ _ (get j (by omega)) (get (j + 1) (by omega))
  have hx01 : a ≤ x1 := by
    have := R.inside a (by rw [ht]; exact List.mem_cons_self ..)
    exact this
  have tot := R.total
  rw [hnt] at tot
  simp only [Nat.add_sub_cancel] at tot
  have hsum : 0 ≤ ∑ j ∈ Finset.range n, L.jump j := Finset.sum_nonneg fun j hj => jump0 j (Finset.mem_range.1 hj)
  have hδ0 : 0 ≤ δ := le_trans (by have := mul_nonneg R.defect_nonneg (sub_nonneg.2 hx01); linarith) tot
  have bnd : (L.initial + ∑ j ∈ Finset.range n, L.jump j + L.defect * (x1 - a)) * Real.exp (K * (x1 - a)) ≤ δ * A := by
    rw [← hA]; exact mul_le_mul_of_nonneg_right tot hA0.le
  have small : δ * A < r := by
    have : δ * A ≤ r / (2 * A) * A := mul_le_mul_of_nonneg_right hδ hA0.le
    have e : r / (2 * A) * A = r / 2 := by field_simp
    linarith
  obtain ⟨grid, inside⟩ := Stable.steps (G := G E) (y := fun x => vec E.idx.length x (Y x)) (K := K) (r := r) (a := a) (b := x1) (ρ := L.defect) (ε := L.initial) yd hK
    R.defect_nonneg hL0 (n := n) (t := fun j => t.getD j 0) (z := fun j => vec E.idx.length (t.getD j 0) fun i => (y.getD i []).getD j 0)
    (u := fun j x => vec E.idx.length x (L.follow j x)) (u' := fun j x => (1, fun i => v j x i)) (d := L.jump) t0 mono hlast
    (by rw [t0]; exact dist_vec hL0 R.initial)
    (fun j hj s hs => (hasDerivAt_id s).prodMk (hasDerivAt_pi.2 fun i => (hv j hj s hs i i.2).1))
    (fun j hj s hs => by
      rw [Prod.dist_eq]
      refine max_le (by simp [G, R.defect_nonneg]) ((dist_pi_le_iff R.defect_nonneg).2 fun i => ?_)
      rw [Real.dist_eq]
      have := (hv j hj s hs i i.2).2
      have e : E.rhs s (L.follow j s) i = E.rhs s (ext (vec E.idx.length s (L.follow j s)).2) i := rhs_congr hE (fun k hk => (ext_vec hk s _).symm) s i i.2
      rw [e] at this
      exact this)
    (fun j hj => by
      have := R.starts j _ _ (get j (by omega)) (get (j + 1) (by omega))
      simp only [vec, Prod.mk.injEq, true_and]
      funext i
      exact this i i.2)
    (fun j hj => dist_vec (jump0 j hj) fun i hi => R.jumps j _ _ (get j (by omega)) (get (j + 1) (by omega)) i hi)
    (bnd.trans_lt small)
  refine ⟨hδ0, fun j x hx => ?_, fun k ev ts ss he hts hss m c st hc hst => ?_⟩
  · have hj : j < n + 1 := by rw [← hnt]; exact (List.getElem?_eq_some_iff.1 hx).1
    rw [get j hj] at hx
    have hx := Option.some.inj hx
    obtain ⟨g1, g2⟩ := grid j (by omega)
    rw [hx] at g1 g2
    refine ⟨g1, fun i hi => (of_dist_vec (g2.trans bnd) i hi).trans ?_⟩
    linarith
  · obtain ⟨⟨j, a', b', hja, hjb, hcin, hfol⟩, hval⟩ := R.recorded k ev ts ss he hts hss m c st hc hst
    have hj : j < n := by have := (List.getElem?_eq_some_iff.1 hjb).1; omega
    rw [get j (by omega)] at hja
    rw [get (j + 1) (by omega)] at hjb
    have hja := Option.some.inj hja
    have hjb := Option.some.inj hjb
    rw [← hja, ← hjb] at hcin
    have i1 := of_dist_vec ((inside j hj c hcin).trans bnd)
    have m1 := (grid j (by omega)).1
    have m2 := (grid (j + 1) (by omega)).1
    refine ⟨⟨m1.1.trans hcin.1, hcin.2.trans m2.2⟩, fun i hi => ?_, hval⟩
    have := abs_sub_le (st.getD i 0) (L.follow j c i) (Y c i)
    linarith [i1 i hi, hfol i hi]

theorem view_congr (hE : E.Shipped) {y z : ℕ → ℝ} (h : ∀ i < E.idx.length, y i = z i) (x : ℝ) :
    (C90.view E).N x y = (C90.view E).N x z ∧ (C90.view E).phi x y = (C90.view E).phi x z ∧ (C90.view E).H2 x y = (C90.view E).H2 x z ∧
      (C90.view E).inflating x y = (C90.view E).inflating x z ∧ (C90.view E).w x y = (C90.view E).w x z := by
  cases E with
  | other K p => exact absurd rfl (hE K p)
  | T e =>
    have := C91.rowsT e
    refine ⟨h 2 (by omega), h 0 (by omega), ?_, ?_, ?_⟩
    · show e.H2 y = e.H2 z
      simp only [InflT.H2, InflT.V, InflT._N, InflT.phi, InflT.dphidt, h 0 (by omega), h 1 (by omega), h 2 (by omega)]
    · show e.inflating y = e.inflating z
      simp only [InflT.inflating, InflT.V, InflT.phi, InflT.dphidt, h 0 (by omega), h 1 (by omega)]
    · show e.w y = e.w z
      simp only [InflT.w, InflT.V, InflT.phi, InflT.dphidt, h 0 (by omega), h 1 (by omega)]
  | N e =>
    have := C91.rowsN e
    have hh : e.H2 x y = e.H2 x z := by simp only [InflN.H2, InflN.V, InflN.phi, InflN.dphidN, h 0 (by omega), h 1 (by omega)]
    refine ⟨rfl, h 0 (by omega), hh, ?_, ?_⟩
    · show e.inflating x y = e.inflating x z
      simp only [InflN.inflating, hh, InflN.V, InflN.phi, InflN.dphidN, h 0 (by omega), h 1 (by omega)]
    · show e.w x y = e.w x z
      simp only [InflN.w, hh, InflN.V, InflN.phi, InflN.dphidN, h 0 (by omega), h 1 (by omega)]

/-- `logaH` of a state -/
noncomputable def lg (E : Eqs) (x : ℝ) (st : ℕ → ℝ) : ℝ := (C90.view E).N x st + log √((C90.view E).H2 x st)

theorem lg_eq {x : ℝ} (h : 0 < (C90.view E).H2 x (Y x)) : lg E x (Y x) = log (E.aH Y x) := by
  rw [Eqs.aH, log_mul (exp_pos _).ne' (sqrt_pos.2 h).ne', log_exp]; rfl

/-- what is computed from a state that is close to the trajectory -/
theorem quant (hD : IsOpen D) (h1 : IsDerivOn D E.pot.V E.pot.dV) (h2 : IsDerivOn D E.pot.dV E.pot.d2V) (h3 : IsDerivOn D E.pot.d2V d3) (hT : E.Trajectory D S Y)
    (hsub : Icc x0 x1 ⊆ S) : ∃ r > 0, ∃ K, 1 ≤ K ∧ ∃ m > 0, ∀ x ∈ Icc x0 x1, ∀ (x' : ℝ) (st : ℕ → ℝ) (η : ℝ), 0 ≤ η → η ≤ r → |x' - x| ≤ η →
      (∀ i < E.idx.length, |st i - Y x i| ≤ η) →
      m ≤ (C90.view E).H2 x' st ∧ |(C90.view E).N x' st - E.efolds Y x| ≤ K * η ∧ |(C90.view E).phi x' st - Y x 0| ≤ K * η ∧
      |√((C90.view E).H2 x' st) - E.hubble Y x| ≤ K * η ∧ |lg E x' st - log (E.aH Y x)| ≤ K * η ∧
      |-E.K * exp (-2 * lg E x' st) - -E.K / E.aH Y x ^ 2| ≤ K * η ∧ |(C90.view E).inflating x' st - E.accel Y x| ≤ K * η ∧
      |E.pot.V ((C90.view E).phi x' st) - E.pot.V (Y x 0)| ≤ K * η := by
  have hE := C91.shipped hT
  have hc := traj_cont (x0 := x0) (x1 := x1) hT hsub
  have sm := fun x (hx : x ∈ Icc x0 x1) => smooth hD h1 h2 h3 hT (hsub hx)
  have vv : ∀ x, (C90.view E).H2 x (ext (vec E.idx.length x (Y x)).2) = (C90.view E).H2 x (Y x) := fun x => (view_congr hE (fun i hi => ext_vec hi x (Y x)) x).2.2.1
  have sR : ∀ x ∈ Icc x0 x1, SmoothAt E.idx.length Y x fun x y => √((C90.view E).H2 x y) := fun x hx =>
    ContDiffAt.sqrt (sm x hx).2.2.2.2.1 (by show (C90.view E).H2 x (ext (vec E.idx.length x (Y x)).2) ≠ 0; rw [vv]; exact (sm x hx).1.ne')
  have sl : ∀ x ∈ Icc x0 x1, SmoothAt E.idx.length Y x fun x y => lg E x y := fun x hx =>
    ContDiffAt.add (sm x hx).2.2.1 (ContDiffAt.log (sR x hx) (by
      show √((C90.view E).H2 x (ext (vec E.idx.length x (Y x)).2)) ≠ 0; rw [vv]; exact (sqrt_pos.2 (sm x hx).1).ne'))
  have sO : ∀ x ∈ Icc x0 x1, SmoothAt E.idx.length Y x fun x y => -E.K * exp (-2 * lg E x y) := fun x hx => by
    have := sl x hx
    unfold SmoothAt at *
    fun_prop
  have cg := fun (x : ℝ) (y z : ℕ → ℝ) (h : ∀ i < E.idx.length, y i = z i) => view_congr hE h x
  have cl : ∀ (x : ℝ) (y z : ℕ → ℝ), (∀ i < E.idx.length, y i = z i) → lg E x y = lg E x z := fun x y z h => by
    obtain ⟨a1, -, a3, -⟩ := cg x y z h
    rw [lg, lg, a1, a3]
  obtain ⟨r1, p1, K1, k1, L1⟩ := lipschitz hc (fun x hx => (sm x hx).2.2.2.2.1) fun x y z h => (cg x y z h).2.2.1
  obtain ⟨r2, p2, K2, k2, L2⟩ := lipschitz hc (fun x hx => (sm x hx).2.2.1) fun x y z h => (cg x y z h).1
  obtain ⟨r3, p3, K3, k3, L3⟩ := lipschitz hc (fun x hx => (sm x hx).2.2.2.1) fun x y z h => (cg x y z h).2.1
  obtain ⟨r4, p4, K4, k4, L4⟩ := lipschitz hc sR fun x y z h => by rw [(cg x y z h).2.2.1]
  obtain ⟨r5, p5, K5, k5, L5⟩ := lipschitz hc sl cl
  obtain ⟨r6, p6, K6, k6, L6⟩ := lipschitz hc sO fun x y z h => by rw [cl x y z h]
  obtain ⟨r7, p7, K7, k7, L7⟩ := lipschitz hc (fun x hx => (sm x hx).2.2.2.2.2.1) fun x y z h => (cg x y z h).2.2.2.1
  obtain ⟨r8, p8, K8, k8, L8⟩ := lipschitz hc (fun x hx => (sm x hx).2.2.2.2.2.2.1) fun x y z h => by rw [(cg x y z h).2.1]
  obtain ⟨m, hm, hmin⟩ : ∃ m > 0, ∀ x ∈ Icc x0 x1, m ≤ (C90.view E).H2 x (Y x) := by
    rcases (Icc x0 x1).eq_empty_or_nonempty with h | h
    · exact ⟨1, one_pos, by simp [h]⟩
    · have cont : ContinuousOn (fun x => (C90.view E).H2 x (Y x)) (Icc x0 x1) := fun x hx => by
        have e : (fun x => (C90.view E).H2 x (Y x)) = (fun p : Vec E.idx.length => (C90.view E).H2 p.1 (ext p.2)) ∘ fun x => vec E.idx.length x (Y x) :=
          funext fun x => (vv x).symm
        rw [e]
        exact (ContinuousAt.comp (f := fun x => vec E.idx.length x (Y x)) (sm x hx).2.2.2.2.1.continuousAt
          (vec_deriv hE hT (hsub hx)).continuousAt).continuousWithinAt
      obtain ⟨x, hx, hmin⟩ := isCompact_Icc.exists_isMinOn h cont
      exact ⟨_, (sm x hx).1, fun y hy => hmin hy⟩
  have phi0 : ∀ x, (C90.view E).phi x (Y x) = Y x 0 := fun x => by
    cases E with
    | other K p => exact absurd rfl (hE K p)
    | T e => rfl
    | N e => rfl
  obtain ⟨K, hK⟩ : ∃ K, K = 1 + K1 + K2 + K3 + K4 + K5 + K6 + K7 + K8 := ⟨_, rfl⟩
  refine ⟨min (min (min r1 r2) (min r3 r4)) (min (min (min r5 r6) (min r7 r8)) (m / (2 * (K1 + 1)))), by positivity, K, by rw [hK]; linarith, m / 2, by positivity,
    fun x hx x' st η h0 hη hx' h => ?_⟩
  simp only [le_min_iff] at hη
  obtain ⟨⟨⟨b1, b2⟩, b3, b4⟩, ⟨⟨b5, b6⟩, b7, b8⟩, b9⟩ := hη
  have wk : ∀ {k a : ℝ}, a ≤ k * η → k ≤ K → a ≤ K * η := fun ha hk => ha.trans (mul_le_mul_of_nonneg_right hk h0)
  have l1 := L1 x hx x' st η h0 b1 hx' h
  have e9 : η * (K1 + 1) ≤ m / 2 := by
    have := mul_le_mul_of_nonneg_right b9 (show 0 ≤ K1 + 1 by linarith)
    have e : m / (2 * (K1 + 1)) * (K1 + 1) = m / 2 := by field_simp
    linarith
  have hH := hmin x hx
  refine ⟨?_, wk (L2 x hx x' st η h0 b2 hx' h) (by linarith), ?_, wk (L4 x hx x' st η h0 b4 hx' h) (by linarith), ?_, ?_, wk (L7 x hx x' st η h0 b7 hx' h) (by linarith), ?_⟩
  · have := (abs_le.1 l1).1
    nlinarith
  · have := L3 x hx x' st η h0 b3 hx' h
    rw [phi0] at this
    exact wk this (by linarith)
  · have := L5 x hx x' st η h0 b5 hx' h
    rw [lg_eq (sm x hx).1] at this
    exact wk this (by linarith)
  · have := L6 x hx x' st η h0 b6 hx' h
    have e : -E.K * exp (-2 * lg E x (Y x)) = -E.K / E.aH Y x ^ 2 := by
      rw [lg_eq (sm x hx).1, show -2 * log (E.aH Y x) = -(log (E.aH Y x ^ 2)) by rw [log_pow]; push_cast; ring, exp_neg, exp_log, div_eq_mul_inv]
      have : 0 < E.aH Y x := mul_pos (exp_pos _) (sqrt_pos.2 (sm x hx).1)
      positivity
    rw [e] at this
    exact wk this (by linarith)
  · have := L8 x hx x' st η h0 b8 hx' h
    rw [phi0] at this
    exact wk this (by linarith)

/-- the same for the reported values -/
theorem reported {x m : ℝ} {st : ℕ → ℝ} (hm : 0 < m) (h : m ≤ (C90.view E).H2 x st) :
    (C90.view E).Hnan (x, st) = some √((C90.view E).H2 x st) ∧
      ((C90.view E).Hnan (x, st)).bind (fun h => (nanLog h).map ((C90.view E).N x st + ·)) = some (lg E x st) := by
  have h0 : 0 < (C90.view E).H2 x st := hm.trans_le h
  have e : (C90.view E).Hnan (x, st) = some √((C90.view E).H2 x st) := by
    show nanSqrt _ = _
    rw [nanSqrt, if_pos h0.le]
  refine ⟨e, ?_⟩
  rw [e, Option.bind_some, nanLog, if_pos (sqrt_pos.2 h0)]
  rfl

/-- the trajectory moves at most linearly -/
theorem moves (hD : IsOpen D) (h1 : IsDerivOn D E.pot.V E.pot.dV) (h2 : IsDerivOn D E.pot.dV E.pot.d2V) (h3 : IsDerivOn D E.pot.d2V d3) (hT : E.Trajectory D S Y)
    (hsub : Icc x0 x1 ⊆ S) : ∃ B, 0 ≤ B ∧ ∀ a ∈ Icc x0 x1, ∀ b ∈ Icc x0 x1, ∀ i < E.idx.length, |Y a i - Y b i| ≤ B * |a - b| := by
  have hE := C91.shipped hT
  have cont : ContinuousOn (fun x => G E (vec E.idx.length x (Y x))) (Icc x0 x1) := fun x hx =>
    (ContinuousAt.comp (g := G E) (f := fun x => vec E.idx.length x (Y x)) (G_smooth hD h1 h2 h3 hT (hsub hx)).continuousAt
      (vec_deriv hE hT (hsub hx)).continuousAt).continuousWithinAt
  obtain ⟨B, hB⟩ := isCompact_Icc.exists_bound_of_continuousOn cont
  refine ⟨max B 0, le_max_right _ _, fun a ha b hb i hi => ?_⟩
  have := (convex_Icc x0 x1).norm_image_sub_le_of_norm_hasDerivWithin_le (f := fun x => vec E.idx.length x (Y x)) (f' := fun x => G E (vec E.idx.length x (Y x))) (C := max B 0)
    (fun x hx => (vec_deriv hE hT (hsub hx)).hasDerivWithinAt) (fun x hx => (hB x hx).trans (le_max_left _ _)) hb ha
  rw [← dist_eq_norm, Real.norm_eq_abs] at this
  exact of_dist_vec this i hi

end

end C96

section
variable {E : Eqs} {D S : Set ℝ} {Y : ℝ → ℕ → ℝ} {d3 : ℝ → ℝ} {x0 x1 : ℝ}

/-- **C96, the returned arrays.**  Let `Y` be an expanding solution of the background equations on `[x0, x1]`, for a three times differentiable potential.  There are
a constant `C` and a threshold `δ0` such that, whatever the integrator, its options, grid and events: if it integrates the equations from near `Y x0` inexactly
with a total error `δ ≤ δ0`, then `solve` succeeds and every variable it returns, at every grid point, is within `C δ` of the exact solution there, and so are the
number of e-folds, `H`, `logaH` and `Omega_K`. -/
theorem C96_solve (hD : IsOpen D) (h1 : IsDerivOn D E.pot.V E.pot.dV) (h2 : IsDerivOn D E.pot.dV E.pot.d2V) (h3 : IsDerivOn D E.pot.d2V d3) (hT : E.Trajectory D S Y)
    (hsub : Icc x0 x1 ⊆ S) : ∃ C > 0, ∃ δ0 > 0, ∀ ivp fmtE ic kw t δ, InexactlySolved ivp E ic kw Y x0 x1 t δ → δ ≤ δ0 →
      ∃ b s, solve ivp fmtE E ic [] kw = .ok (b, s) ∧ b.get? E.xname = some (.arr t) ∧
        (∀ a i, E.idx.get? a = some i → ∃ r, b.get? a = some (.arr r) ∧ r.length = t.length ∧ ∀ (j : ℕ) x, t[j]? = some x → Near r[j]? (Y x i) (C * δ)) ∧
        ∀ (j : ℕ) x, t[j]? = some x → Near s.N[j]? (E.efolds Y x) (C * δ) ∧ Near s.H[j]?.join (E.hubble Y x) (C * δ) ∧
          Near s.logaH[j]?.join (log (E.aH Y x)) (C * δ) ∧ Near s.Omega_K[j]?.join (-E.K / E.aH Y x ^ 2) (C * δ) := by
  have hE := C91.shipped hT
  obtain ⟨C, hC, δ0, hδ0, hclose⟩ := C96.close hD h1 h2 h3 hT hsub
  obtain ⟨r, hr, K, hK, m, hm, hq⟩ := C96.quant hD h1 h2 h3 hT hsub
  refine ⟨K * C, by positivity, min δ0 (r / C), by positivity, fun ivp fmtE ic kw t δ ⟨c, y0, q, res, y, te, ye, L, hic, hq', hivp, sh, R⟩ hδ => ?_⟩
  obtain ⟨hδn, hgrid, -⟩ := hclose _ t y te ye L δ R (hδ.trans (min_le_left _ _))
  obtain ⟨b, raw, hs, hg, -, -, hxn, -, -, hrow, -⟩ := C90_solve ivp fmtE E hE ic kw c y0 q hic hq' hivp sh
  have hCδ : C * δ ≤ r := by
    have := hδ.trans (min_le_right _ _)
    rw [le_div_iff₀ (by linarith)] at this
    linarith
  have hCδ0 : 0 ≤ C * δ := by positivity
  have hKC : C * δ ≤ K * C * δ := by rw [mul_assoc]; exact le_mul_of_one_le_left hCδ0 hK
  refine ⟨b, _, hs, hxn, fun a i ha => ?_, fun j x hx => ?_⟩
  · obtain ⟨row, hr1, hr2⟩ := hrow a i ha
    have hlen := sh.cols row (List.mem_of_getElem? hr1)
    have hi : i < E.idx.length := by rw [← sh.rows]; exact (List.getElem?_eq_some_iff.1 hr1).1
    refine ⟨row, hr2, hlen, fun j x hx => ?_⟩
    have hj : j < row.length := by rw [hlen]; exact (List.getElem?_eq_some_iff.1 hx).1
    refine ⟨row[j], List.getElem?_eq_getElem hj, ?_⟩
    have := (hgrid j x hx).2 i hi
    have e : (y.getD i []).getD j 0 = row[j] := by
      have : y.getD i [] = row := by simp [List.getD, hr1]
      rw [this, C90.getD_lt _ hj]
    rw [e] at this
    exact this.trans hKC
  · obtain ⟨hxin, hst⟩ := hgrid j x hx
    obtain ⟨q1, q2, -, q4, q5, q6, -⟩ := hq x hxin x _ (C * δ) hCδ0 hCδ (by simpa using hCδ0) hst
    obtain ⟨e1, e2⟩ := C96.reported hm q1
    have hj : j < t.length := (List.getElem?_eq_some_iff.1 hx).1
    have hgj : raw.grid[j]? = some (x, fun i => (y.getD i []).getD j 0) := by
      rw [hg, List.getElem?_map, List.getElem?_range hj, Option.map_some]
      rw [C96.getElem?_getD hj] at hx
      rw [Option.some.inj hx]
    rw [← mul_assoc] at q2 q4 q5 q6
    refine ⟨⟨_, ?_, q2⟩, ⟨_, ?_, q4⟩, ⟨_, ?_, q5⟩, ⟨_, ?_, q6⟩⟩
    · show (raw.grid.map fun p => (C90.view E).N p.1 p.2)[j]? = _
      rw [List.getElem?_map, hgj]; rfl
    · show ((raw.grid.map _)[j]?).join = _
      rw [List.getElem?_map, hgj, Option.map_some, e1]; rfl
    · show ((raw.grid.map fun p => ((C90.view E).Hnan p).bind fun h => (nanLog h).map ((C90.view E).N p.1 p.2 + ·))[j]?).join = _
      rw [List.getElem?_map, hgj, Option.map_some]
      simp only [e2]; rfl
    · show (((raw.grid.map fun p => ((C90.view E).Hnan p).bind fun h => (nanLog h).map ((C90.view E).N p.1 p.2 + ·)).map fun l => l.map fun l => -E.K * exp (-2 * l))[j]?).join = _
      rw [List.getElem?_map, List.getElem?_map, hgj, Option.map_some, Option.map_some]
      simp only [e2]; rfl

/-- **C96, the equation of state.**  If moreover the density is positive along the solution, the returned `w` is within `C δ` of the exact one. -/
theorem C96_w (hD : IsOpen D) (h1 : IsDerivOn D E.pot.V E.pot.dV) (h2 : IsDerivOn D E.pot.dV E.pot.d2V) (h3 : IsDerivOn D E.pot.d2V d3) (hT : E.Trajectory D S Y)
    (hsub : Icc x0 x1 ⊆ S) (hρ : ∀ x ∈ Icc x0 x1, 0 < (C90.view E).H2 x (Y x) + E.K * exp (-2 * E.efolds Y x)) :
    ∃ C > 0, ∃ δ0 > 0, ∀ ivp fmtE ic kw t δ, InexactlySolved ivp E ic kw Y x0 x1 t δ → δ ≤ δ0 →
      ∃ b s, solve ivp fmtE E ic [] kw = .ok (b, s) ∧ ∀ (j : ℕ) x, t[j]? = some x → Near s.w[j]? ((C90.view E).w x (Y x)) (C * δ) := by
  have hE := C91.shipped hT
  obtain ⟨C, hC, δ0, hδ0, hclose⟩ := C96.close hD h1 h2 h3 hT hsub
  obtain ⟨r, hr, K, hK, hq⟩ := C96.lipschitz (C96.traj_cont hT hsub) (fun x hx => (C96.smooth hD h1 h2 h3 hT (hsub hx)).2.2.2.2.2.2.2 (hρ x hx))
    fun x y z h => (C96.view_congr hE h x).2.2.2.2
  refine ⟨(K + 1) * C, by positivity, min δ0 (r / C), by positivity, fun ivp fmtE ic kw t δ ⟨c, y0, q, res, y, te, ye, L, hic, hq', hivp, sh, R⟩ hδ => ?_⟩
  obtain ⟨hδn, hgrid, -⟩ := hclose _ t y te ye L δ R (hδ.trans (min_le_left _ _))
  obtain ⟨b, raw, hs, hg, -⟩ := C90_solve ivp fmtE E hE ic kw c y0 q hic hq' hivp sh
  have hCδ : C * δ ≤ r := by
    have := hδ.trans (min_le_right _ _)
    rw [le_div_iff₀ (by linarith)] at this
    linarith
  have hCδ0 : 0 ≤ C * δ := by positivity
  refine ⟨b, _, hs, fun j x hx => ?_⟩
  obtain ⟨hxin, hst⟩ := hgrid j x hx
  have hj : j < t.length := (List.getElem?_eq_some_iff.1 hx).1
  have hgj : raw.grid[j]? = some (x, fun i => (y.getD i []).getD j 0) := by
    rw [hg, List.getElem?_map, List.getElem?_range hj, Option.map_some]
    rw [C96.getElem?_getD hj] at hx
    rw [Option.some.inj hx]
  refine ⟨(C90.view E).w x fun i => (y.getD i []).getD j 0, ?_, (hq x hxin x _ (C * δ) hCδ0 hCδ (by simpa using hCδ0) hst).trans ?_⟩
  · show (raw.grid.map fun p => (C90.view E).w p.1 p.2)[j]? = _
    rw [List.getElem?_map, hgj]; rfl
  · rw [mul_assoc]; linarith

/-- The solution inflates from `x0` on, stops to inflate at `xs`, and does not inflate from there to `x1`; the acceleration changes sign at a nonzero rate. -/
structure EndsOnce (E : Eqs) (Y : ℝ → ℕ → ℝ) (x0 x1 xs : ℝ) : Prop where
  inside : xs ∈ Ioo x0 x1
  before : ∀ x ∈ Ico x0 xs, 0 < E.accel Y x
  after : ∀ x ∈ Ioc xs x1, E.accel Y x < 0
  zero : E.accel Y xs = 0
  simple : ∃ g, g ≠ 0 ∧ HasDerivAt (E.accel Y) g xs

namespace C96

theorem accel_cont (hD : IsOpen D) (h1 : IsDerivOn D E.pot.V E.pot.dV) (h2 : IsDerivOn D E.pot.dV E.pot.d2V) (h3 : IsDerivOn D E.pot.d2V d3) (hT : E.Trajectory D S Y)
    (hsub : Icc x0 x1 ⊆ S) : ContinuousOn (E.accel Y) (Icc x0 x1) := fun x hx => by
  have hE := C91.shipped hT
  have e : E.accel Y = (fun p : Vec E.idx.length => (C90.view E).inflating p.1 (ext p.2)) ∘ fun x => vec E.idx.length x (Y x) :=
    funext fun x => (view_congr hE (fun i hi => ext_vec hi x (Y x)) x).2.2.2.1.symm
  rw [e]
  exact (ContinuousAt.comp (f := fun x => vec E.idx.length x (Y x)) (smooth hD h1 h2 h3 hT (hsub hx)).2.2.2.2.2.1.continuousAt
    (vec_deriv hE hT (hsub hx)).continuousAt).continuousWithinAt

/-- a recorded event of a plain inflation event is close to the end of inflation, and so are the values there -/
theorem at_end (hD : IsOpen D) (h1 : IsDerivOn D E.pot.V E.pot.dV) (h2 : IsDerivOn D E.pot.dV E.pot.d2V) (h3 : IsDerivOn D E.pot.d2V d3) (hT : E.Trajectory D S Y)
    (hsub : Icc x0 x1 ⊆ S) {xs : ℝ} (hend : EndsOnce E Y x0 x1 xs) : ∃ C > 0, ∃ δ0 > 0, ∀ (events : List Event) t y te ye L δ,
      InexactRun E events Y x0 x1 t y te ye L δ → δ ≤ δ0 → 0 ≤ δ ∧ ∀ (k : ℕ) ev ts ss, events[k]? = some ev → ev.kind = .inflation none ∧ ev.value = 0 → te[k]? = some ts →
        ye[k]? = some ss → ∀ (m : ℕ) c st, ts[m]? = some c → ss[m]? = some st → |c - xs| ≤ C * δ ∧
          Near (some ((C90.view E).N c fun i => st.getD i 0)) (E.efolds Y xs) (C * δ) ∧ Near (some ((C90.view E).phi c fun i => st.getD i 0)) (Y xs 0) (C * δ) ∧
          Near ((C90.view E).Hnan (c, fun i => st.getD i 0)) (E.hubble Y xs) (C * δ) ∧
          Near (((C90.view E).Hnan (c, fun i => st.getD i 0)).bind fun h => (nanLog h).map ((C90.view E).N c (fun i => st.getD i 0) + ·)) (log (E.aH Y xs)) (C * δ) ∧
          Near (some (E.pot.V ((C90.view E).phi c fun i => st.getD i 0))) (E.pot.V (Y xs 0)) (C * δ) := by
  obtain ⟨A, hA, δ0, hδ0, hclose⟩ := close hD h1 h2 h3 hT hsub
  obtain ⟨r, hr, K, hK, m, hm, hq⟩ := quant hD h1 h2 h3 hT hsub
  obtain ⟨B, hB, hmove⟩ := moves hD h1 h2 h3 hT hsub
  obtain ⟨g, hg, hd⟩ := hend.simple
  have hxs : xs ∈ Icc x0 x1 := ⟨hend.inside.1.le, hend.inside.2.le⟩
  obtain ⟨μ, hμ, hlow⟩ := Stable.lower (accel_cont hD h1 h2 h3 hT hsub) hd hg hend.zero (fun x hx hne => by
    rcases lt_or_gt_of_ne hne with h | h
    · exact (hend.before x ⟨hx.1, h⟩).ne'
    · exact (hend.after x ⟨h, hx.2⟩).ne)
  -- |c - xs| ≤ P δ, |st - Y xs| ≤ Q δ
  obtain ⟨P, hP⟩ : ∃ P, P = (K * A + 1) / μ := ⟨_, rfl⟩
  have hP0 : 0 < P := by rw [hP]; positivity
  obtain ⟨Q, hQ⟩ : ∃ Q, Q = A + B * P + P := ⟨_, rfl⟩
  have hBP : 0 ≤ B * P := by positivity
  have hQ0 : 0 < Q := by rw [hQ]; positivity
  have hPQ : P ≤ Q := by rw [hQ]; linarith
  have hPK : P ≤ K * Q := hPQ.trans (le_mul_of_one_le_left hQ0.le hK)
  refine ⟨K * Q, by positivity, min δ0 (min (r / A) (r / Q)), by positivity, fun events t y te ye L δ R hδ => ?_⟩
  simp only [le_min_iff] at hδ
  obtain ⟨d1, d2, d3⟩ := hδ
  rw [le_div_iff₀ (by linarith)] at d2
  rw [le_div_iff₀ hQ0] at d3
  obtain ⟨hδn, -, hev⟩ := hclose events t y te ye L δ R d1
  refine ⟨hδn, fun k ev ts ss he hpl hts hss i c st hc hst => ?_⟩
  obtain ⟨hcin, hstc, hval⟩ := hev k ev ts ss he hts hss i c st hc hst
  rw [C90.call_plain hpl] at hval
  have hAδ : 0 ≤ A * δ := by positivity
  obtain ⟨-, -, -, -, -, -, q7, -⟩ := hq c hcin c _ (A * δ) hAδ (by linarith) (by simpa using hAδ) hstc
  have hacc : |E.accel Y c| ≤ (K * A + 1) * δ := by
    have := abs_sub_abs_le_abs_sub (E.accel Y c) ((C90.view E).inflating c fun i => st.getD i 0)
    rw [abs_sub_comm] at this
    nlinarith
  have hcx : |c - xs| ≤ P * δ := by
    have := (hlow c hcin).trans hacc
    rw [hP, div_mul_eq_mul_div, le_div_iff₀ hμ]
    linarith
  have hst' : ∀ i < E.idx.length, |st.getD i 0 - Y xs i| ≤ Q * δ := fun i hi => by
    have a1 := hstc i hi
    have a2 := (hmove c hcin xs hxs i hi).trans (mul_le_mul_of_nonneg_left hcx hB)
    have := abs_sub_le (st.getD i 0) (Y c i) (Y xs i)
    have e : Q * δ = A * δ + B * (P * δ) + P * δ := by rw [hQ]; ring
    have : 0 ≤ P * δ := by positivity
    linarith
  obtain ⟨q1, q2, q3, q4, q5, -, -, q8⟩ := hq xs hxs c _ (Q * δ) (by positivity) (by linarith) (hcx.trans (mul_le_mul_of_nonneg_right hPQ hδn)) hst'
  obtain ⟨e1, e2⟩ := reported hm q1
  rw [← mul_assoc] at q2 q3 q4 q5 q8
  exact ⟨hcx.trans (mul_le_mul_of_nonneg_right hPK hδn), ⟨_, rfl, q2⟩, ⟨_, rfl, q3⟩, ⟨_, e1, q4⟩, ⟨_, e2, q5⟩, ⟨_, rfl, q8⟩⟩

theorem crossing {g : ℕ → ℝ} {n : ℕ} (h0 : 0 < g 0) (hn : g n < 0) : ∃ j < n, 0 ≤ g j ∧ g (j + 1) ≤ 0 := by
  by_contra hne
  push Not at hne
  have : ∀ j ≤ n, 0 ≤ g j := fun j hj => by
    induction j with
    | zero => exact h0.le
    | succ j ih => exact (hne j hj (ih (by omega))).le
  linarith [this n le_rfl]

theorem requested_events {kw : SolveKw} {c : IC} {y : ℕ → Option ℝ} {q : IvpCall} (h : Requested E kw c y q) : q.events = kw.events.getD [] := by
  cases he : kw.events with
  | none => exact h.events.2 he
  | some l => exact h.events.1 l he

end C96

/-- **C96, the end of inflation.**  If inflation ends once along the solution, at `xs`, then what an inexact integration (tracking plain inflation events) reports as
the end of inflation is the end at `xs`, up to `C δ`: the e-folds, the field, `H`, `logaH` and the potential there. -/
theorem C96_end (hD : IsOpen D) (h1 : IsDerivOn D E.pot.V E.pot.dV) (h2 : IsDerivOn D E.pot.dV E.pot.d2V) (h3 : IsDerivOn D E.pot.d2V d3) (hT : E.Trajectory D S Y)
    (hsub : Icc x0 x1 ⊆ S) {xs : ℝ} (hend : EndsOnce E Y x0 x1 xs) :
    ∃ C > 0, ∃ δ0 > 0, ∀ ivp fmtE ic kw t δ, PlainInflation (kw.events.getD []) → InexactlySolved ivp E ic kw Y x0 x1 t δ → δ ≤ δ0 →
      ∃ b s, solve ivp fmtE E ic [] kw = .ok (b, s) ∧ (s.fin.N_end ≠ none →
        Near s.fin.N_end (E.efolds Y xs) (C * δ) ∧ Near s.fin.phi_end (Y xs 0) (C * δ) ∧ Near s.fin.H_end (E.hubble Y xs) (C * δ) ∧
        Near s.fin.logaH_end (log (E.aH Y xs)) (C * δ) ∧ Near s.fin.V_end (E.pot.V (Y xs 0)) (C * δ)) := by
  have hE := C91.shipped hT
  obtain ⟨C, hC, δ0, hδ0, hae⟩ := C96.at_end hD h1 h2 h3 hT hsub hend
  refine ⟨C, hC, δ0, hδ0, fun ivp fmtE ic kw t δ hp ⟨c, y0, q, res, y, te, ye, L, hic, hq', hivp, sh, R⟩ hδ => ?_⟩
  rw [← C96.requested_events hq'] at hp
  obtain ⟨-, hae⟩ := hae _ t y te ye L δ R hδ
  obtain ⟨b, raw, hs, hg, hev, -⟩ := C90_solve ivp fmtE E hE ic kw c y0 q hic hq' hivp sh
  refine ⟨b, _, hs, fun hne => ?_⟩
  show Near (postEnd (C90.view E) E.pot.V raw).N_end _ _ ∧ _
  have hne : (postEnd (C90.view E) E.pot.V raw).N_end ≠ none := hne
  show _ ∧ Near (postEnd (C90.view E) E.pot.V raw).phi_end _ _ ∧ Near (postEnd (C90.view E) E.pot.V raw).H_end _ _ ∧
    Near (postEnd (C90.view E) E.pot.V raw).logaH_end _ _ ∧ Near (postEnd (C90.view E) E.pot.V raw).V_end _ _
  unfold postEnd at *
  cases hee : endEvent raw.events with
  | none => rw [hee] at hne; exact absurd rfl hne
  | some p =>
    have key : ∀ k, (∀ ev : Event, ev.name fmtE = k → ev.IsInflation .neg) → firstEvent raw.events k = some p →
        ∃ (j : ℕ) (ev : Event) (ts : List ℝ) (ss : List (List ℝ)) (st : List ℝ), q.events[j]? = some ev ∧ (ev.kind = .inflation none ∧ ev.value = 0) ∧ te[j]? = some ts ∧ ye[j]? = some ss ∧ ts[0]? = some p.1 ∧
          ss[0]? = some st ∧ p.2 = fun i => st.getD i 0 := by
      intro k hk hf
      rw [firstEvent, Option.bind_eq_some_iff] at hf
      obtain ⟨l, hl, hh⟩ := hf
      obtain ⟨j, ts, ss, hj, h1, h2, rfl⟩ := (hev k l).1 hl
      obtain ⟨ev, he, hm, hn⟩ := C90.lastAt_event hj
      rw [List.head?_eq_getElem?, List.getElem?_zip_eq_some, List.getElem?_map, Option.map_eq_some_iff] at hh
      obtain ⟨hx, st, hst, hs⟩ := hh
      exact ⟨j, ev, ts, ss, st, he, hp ev hm (hk ev hn).1, h1, h2, hx, hst, hs.symm⟩
    obtain ⟨j, ev, ts, ss, st, he, hpl, h1, h2, hx, hst, hp2⟩ : ∃ (j : ℕ) (ev : Event) (ts : List ℝ) (ss : List (List ℝ)) (st : List ℝ), q.events[j]? = some ev ∧
        (ev.kind = .inflation none ∧ ev.value = 0) ∧ te[j]? = some ts ∧ ye[j]? = some ss ∧ ts[0]? = some p.1 ∧ ss[0]? = some st ∧ p.2 = fun i => st.getD i 0 := by
      unfold endEvent at hee
      cases hf : firstEvent raw.events "Inflation_dir-1_term1" with
      | some p' =>
        rw [hf] at hee
        have hee : some p' = some p := hee
        rw [hee] at hf
        exact key _ (fun ev h => ((C24_end_key fmtE ev).1.1 h).1) hf
      | none =>
        rw [hf] at hee
        exact key _ (fun ev h => ((C24_end_key fmtE ev).2.1 h).1) hee
    obtain ⟨-, n1, n2, n3, n4, n5⟩ := hae j ev ts ss he hpl h1 h2 0 p.1 st hx hst
    have hpp : p = (p.1, fun i => st.getD i 0) := by rw [← hp2]
    rw [hpp]
    exact ⟨n1, n2, n3, n4, n5⟩

/-- **C96, the reported phase of inflation.**  Let inflation end once along the solution, at `xs`.  If the tracked events have different names, contain one for the
end of inflation, and only such events are terminal, then an inexact integration of small total error `δ` does report an end of inflation, and the reported start,
end and duration are, up to `C δ`, the e-folds at `x0`, at `xs` and between them; the inflation mask includes every grid point that is more than `C δ` e-folds
after the start and before the end, and no grid point that is more than `C δ` e-folds after the end. -/
theorem C96_found (hD : IsOpen D) (h1 : IsDerivOn D E.pot.V E.pot.dV) (h2 : IsDerivOn D E.pot.dV E.pot.d2V) (h3 : IsDerivOn D E.pot.d2V d3) (hT : E.Trajectory D S Y)
    (hsub : Icc x0 x1 ⊆ S) {xs : ℝ} (hend : EndsOnce E Y x0 x1 xs) :
    ∃ C > 0, ∃ δ0 > 0, ∀ ivp fmtE ic kw t δ, PlainInflation (kw.events.getD []) → (∃ ev ∈ kw.events.getD [], ev.IsInflation .neg) →
      ((kw.events.getD []).map (Event.name fmtE)).Nodup → (∀ ev ∈ kw.events.getD [], ev.terminal = true → ev.IsInflation .neg) →
      (∀ ev ∈ kw.events.getD [], ev.kind = .collapse → ev.value = 0) → InexactlySolved ivp E ic kw Y x0 x1 t δ → δ ≤ δ0 →
      ∃ b s m, solve ivp fmtE E ic [] kw = .ok (b, s) ∧ Near s.start.N_beg (E.efolds Y x0) (C * δ) ∧ Near s.fin.N_end (E.efolds Y xs) (C * δ) ∧
        Near s.N_tot (E.efolds Y xs - E.efolds Y x0) (C * δ) ∧ s.inflation_mask = some m ∧ m.length = t.length ∧
        ∀ (j : ℕ) x, t[j]? = some x →
          (E.efolds Y x0 + C * δ < E.efolds Y x → E.efolds Y x + C * δ < E.efolds Y xs → m[j]? = some true) ∧
          (E.efolds Y xs + C * δ < E.efolds Y x → m[j]? = some false) := by
  have hE := C91.shipped hT
  obtain ⟨A, hA, δa, hδa, hclose⟩ := C96.close hD h1 h2 h3 hT hsub
  obtain ⟨r, hr, K, hK, μ, hμ, hqt⟩ := C96.quant hD h1 h2 h3 hT hsub
  obtain ⟨Ce, hCe, δe, hδe, hfin⟩ := C96_end hD h1 h2 h3 hT hsub hend
  have x01 : x0 ≤ x1 := (hend.inside.1.trans hend.inside.2).le
  have p0 : 0 < E.accel Y x0 := hend.before x0 ⟨le_rfl, hend.inside.1⟩
  have p1 : E.accel Y x1 < 0 := hend.after x1 ⟨hend.inside.2, le_rfl⟩
  obtain ⟨C, hC⟩ : ∃ C, C = 2 * (Ce + K * A) := ⟨_, rfl⟩
  have hKA : 0 < K * A := by positivity
  refine ⟨C, by rw [hC]; positivity, min (min δa δe) (min (min (r / A) (μ / 2)) (min (E.accel Y x0 / (2 * (K * A))) (-E.accel Y x1 / (2 * (K * A))))), ?_,
    fun ivp fmtE ic kw t δ hp hneg hnd hterm hcol hsol hδ => ?_⟩
  · have : 0 < -E.accel Y x1 := by linarith
    positivity
  simp only [le_min_iff] at hδ
  obtain ⟨⟨d1, d2⟩, ⟨d3, d4⟩, d5, d6⟩ := hδ
  rw [le_div_iff₀ (by linarith)] at d3
  rw [le_div_iff₀ (by positivity)] at d5 d6
  obtain ⟨b, s, hs, hfin⟩ := hfin ivp fmtE ic kw t δ hp hsol d2
  obtain ⟨c, y0, q, res, y, te, ye, L, hic, hq', hivp, sh, R⟩ := hsol
  rw [← C96.requested_events hq'] at hp hneg hnd hterm hcol
  obtain ⟨hδn, hgrid, hevs⟩ := hclose _ t y te ye L δ R d1
  obtain ⟨b', raw, hs', hg, hev, -⟩ := C90_solve ivp fmtE E hE ic kw c y0 q hic hq' hivp sh
  have hse : inflationSol (C90.view E) E.pot.V E.K raw = s := (Prod.mk.inj (Except.ok.inj (hs'.symm.trans hs))).2
  have hAδ : 0 ≤ A * δ := by positivity
  have st : ∀ (j : ℕ) x, t[j]? = some x → |(C90.view E).N x (fun i => (y.getD i []).getD j 0) - E.efolds Y x| ≤ K * A * δ ∧
      |(C90.view E).inflating x (fun i => (y.getD i []).getD j 0) - E.accel Y x| ≤ K * A * δ := by
    intro j x hx
    obtain ⟨hxin, hst⟩ := hgrid j x hx
    obtain ⟨-, q2, -, -, -, -, q7, -⟩ := hqt x hxin x _ (A * δ) hAδ (by linarith) (by simpa using hAδ) hst
    rw [← mul_assoc] at q2 q7
    exact ⟨q2, q7⟩
  have hlen : 0 < t.length := List.length_pos_of_ne_nil sh.t_ne
  have ht0 : t[0]? = some x0 := by rw [← List.head?_eq_getElem?]; exact R.start
  have hgj : ∀ (j : ℕ) x, t[j]? = some x → raw.grid[j]? = some (x, fun i => (y.getD i []).getD j 0) := fun j x hx => by
    have hj : j < t.length := (List.getElem?_eq_some_iff.1 hx).1
    rw [hg, List.getElem?_map, List.getElem?_range hj, Option.map_some]
    rw [C96.getElem?_getD hj] at hx
    rw [Option.some.inj hx]
  have hfirst : raw.first = (x0, fun i => (y.getD i []).getD 0 0) := Option.some.inj (hgj 0 x0 ht0)
  -- the end has been recorded
  have keyed : ∀ (k : ℕ) (ev : Event) (ts : List ℝ), q.events[k]? = some ev → ev.IsInflation .neg → te[k]? = some ts → ts ≠ [] → (endEvent raw.events).isSome := by
    intro k ev ts he hi hts hne
    obtain ⟨ss, hss⟩ := exists_getElem? (l := ye) (j := k) (by rw [sh.ye_len, ← sh.te_len]; exact (List.getElem?_eq_some_iff.1 hts).1)
    have hlast : LastAt (q.events.map (Event.name fmtE)) (ev.name fmtE) k := by
      have hk : (q.events.map (Event.name fmtE))[k]? = some (ev.name fmtE) := by rw [List.getElem?_map, he]; rfl
      refine ⟨hk, fun k' hk' h => ?_⟩
      have a1 := (List.getElem?_eq_some_iff.1 hk).1
      have := (List.getElem?_inj a1 hnd).1 (hk.trans h.symm)
      omega
    have hget := (hev (ev.name fmtE) _).2 ⟨k, ts, ss, hlast, hts, hss, rfl⟩
    have hne' : (firstEvent raw.events (ev.name fmtE)).isSome := by
      rw [firstEvent, hget, Option.bind_some]
      cases ts with
      | nil => exact absurd rfl hne
      | cons a ts =>
        have := sh.occ k _ ss hts hss
        cases ss with
        | nil => simp at this
        | cons b ss => rfl
    unfold endEvent
    cases ht : ev.terminal with
    | true =>
      rw [(C24_end_key fmtE ev).1.2 ⟨hi, ht⟩] at hne'
      obtain ⟨p, hp⟩ := Option.isSome_iff_exists.1 hne'
      rw [hp]; rfl
    | false =>
      rw [(C24_end_key fmtE ev).2.2 ⟨hi, ht⟩] at hne'
      cases firstEvent raw.events "Inflation_dir-1_term1" with
      | some p => rfl
      | none => exact hne'
  have hsome : (endEvent raw.events).isSome := by
    by_cases hrec : ∃ (k : ℕ) (ev : Event) (ts : List ℝ), q.events[k]? = some ev ∧ te[k]? = some ts ∧ ev.terminal = true ∧ ts ≠ []
    · obtain ⟨k, ev, ts, he, hts, hte, hne⟩ := hrec
      exact keyed k ev ts he (hterm ev (List.mem_of_getElem? he) hte) hts hne
    · have hlast : t.getLast? = some x1 := R.finished.resolve_right hrec
      rw [List.getLast?_eq_getElem?] at hlast
      obtain ⟨ev, hm, hi⟩ := hneg
      obtain ⟨k, he⟩ := List.mem_iff_getElem?.1 hm
      obtain ⟨ts, hts⟩ := exists_getElem? (l := te) (j := k) (by rw [sh.te_len]; exact (List.getElem?_eq_some_iff.1 he).1)
      obtain ⟨j, hj, g1, g2⟩ := C96.crossing (g := fun j => (C90.view E).inflating (t.getD j 0) fun i => (y.getD i []).getD j 0) (n := t.length - 1)
        (by
          have := (abs_le.1 (st 0 x0 ht0).2).1
          have e : t.getD 0 0 = x0 := by rw [C96.getElem?_getD hlen] at ht0; exact Option.some.inj ht0
          show 0 < (C90.view E).inflating (t.getD 0 0) _
          rw [e]
          nlinarith)
        (by
          have := (abs_le.1 (st _ x1 hlast).2).2
          have e : t.getD (t.length - 1) 0 = x1 := by rw [C96.getElem?_getD (by omega)] at hlast; exact Option.some.inj hlast
          show (C90.view E).inflating (t.getD (t.length - 1) 0) _ < 0
          rw [e]
          nlinarith)
      have hpl := hp ev hm hi.1
      obtain ⟨c', hc', -⟩ := R.detected k ev ts he hts j _ _ (C96.getElem?_getD (by omega)) (C96.getElem?_getD (by omega))
        (Or.inr fun k' ev' ts' a1 a2 a3 => by
          by_contra hne
          exact hrec ⟨k', ev', ts', a1, a2, a3, hne⟩)
        (by rw [C90.call_plain hpl, C90.call_plain hpl, hi.2]; exact ⟨g1, g2⟩)
      exact keyed k ev ts he hi hts (by rintro rfl; simp at hc')
  have hNend : s.fin.N_end ≠ none := by
    rw [← hse]
    obtain ⟨p, hp⟩ := Option.isSome_iff_exists.1 hsome
    show (postEnd (C90.view E) E.pot.V raw).N_end ≠ none
    unfold postEnd
    rw [hp]
    simp
  obtain ⟨⟨ve, he1, he2⟩, -⟩ := hfin hNend
  -- the start
  have hcollapse : firstEvent raw.events "Collapse" = none := by
    by_contra hne
    obtain ⟨p, hp'⟩ := Option.ne_none_iff_exists'.1 hne
    rw [firstEvent, Option.bind_eq_some_iff] at hp'
    obtain ⟨l, hl, hh⟩ := hp'
    obtain ⟨k, ts, ss, hk, hts, hss, rfl⟩ := (hev _ l).1 hl
    obtain ⟨ev, he, hm, hn⟩ := C90.lastAt_event hk
    obtain ⟨d, b'', v, rfl⟩ := (C24_collapse_key fmtE ev).1 hn
    rw [List.head?_eq_getElem?, List.getElem?_zip_eq_some, List.getElem?_map, Option.map_eq_some_iff] at hh
    obtain ⟨hx, sst, hst, hs⟩ := hh
    obtain ⟨cin, cst, cval⟩ := hevs k _ ts ss he hts hss 0 p.1 sst hx hst
    obtain ⟨q1, -⟩ := hqt p.1 cin p.1 _ (A * δ) hAδ (by linarith) (by simpa using hAδ) cst
    have hv : v = 0 := hcol _ hm rfl
    have cval : |(C90.view E).H2 p.1 (fun i => sst.getD i 0) - v| ≤ δ := cval
    rw [hv, sub_zero] at cval
    have := (abs_le.1 cval).2
    linarith
  have hinf0 : 0 ≤ (C90.view E).inflating raw.first.1 raw.first.2 := by
    rw [hfirst]
    have := (abs_le.1 (st 0 x0 ht0).2).1
    show 0 ≤ (C90.view E).inflating x0 _
    nlinarith
  have hbeg : s.start.N_beg = some ((C90.view E).N x0 fun i => (y.getD i []).getD 0 0) := by
    rw [← hse]
    show (postStart (C90.view E) raw).N_beg = _
    unfold postStart
    dsimp only
    rw [if_neg (by rw [hcollapse]; simp), if_pos (Or.inl hinf0), hfirst]
  have n0 := (st 0 x0 ht0).1
  have hCe : Ce * δ ≤ C * δ := mul_le_mul_of_nonneg_right (by rw [hC]; linarith) hδn
  have hKAδ : K * A * δ ≤ C * δ := mul_le_mul_of_nonneg_right (by rw [hC]; linarith) hδn
  have hboth : C * δ = 2 * (Ce * δ) + 2 * (K * A * δ) := by rw [hC]; ring
  have hCe0 : 0 ≤ Ce * δ := by positivity
  have hKA0 : 0 ≤ K * A * δ := by positivity
  have e2 := abs_le.1 he2
  have e0 := abs_le.1 n0
  refine ⟨b, s, raw.grid.map fun p => decide ((C90.view E).N x0 (fun i => (y.getD i []).getD 0 0) < (C90.view E).N p.1 p.2) && decide ((C90.view E).N p.1 p.2 < ve), hs,
    ⟨_, hbeg, n0.trans hKAδ⟩, ⟨_, he1, he2.trans hCe⟩, ⟨ve - (C90.view E).N x0 fun i => (y.getD i []).getD 0 0, ?_, ?_⟩, ?_, by rw [List.length_map, hg]; simp, fun j x hx => ?_⟩
  · have : s.N_tot = s.fin.N_end.bind fun e => s.start.N_beg.map (e - ·) := by rw [← hse]; rfl
    rw [this, he1, hbeg]; rfl
  · rw [abs_le]
    constructor <;> linarith
  · have : s.inflation_mask = s.start.N_beg.bind fun b => s.fin.N_end.map fun e => s.N.map fun n => open Classical in decide (b < n) && decide (n < e) := by rw [← hse]; rfl
    have hN : s.N = raw.grid.map fun p => (C90.view E).N p.1 p.2 := by rw [← hse]; rfl
    rw [this, he1, hbeg, hN]
    simp only [Option.bind_some, Option.map_some, List.map_map]
    congr 1
  · have e3 := abs_le.1 (st j x hx).1
    rw [List.getElem?_map, hgj j x hx, Option.map_some]
    refine ⟨fun a1 a2 => ?_, fun a1 => ?_⟩
    · congr 1
      rw [Bool.and_eq_true, decide_eq_true_iff, decide_eq_true_iff]
      constructor
      · show (C90.view E).N x0 _ < (C90.view E).N x _
        linarith
      · show (C90.view E).N x _ < ve
        linarith
    · congr 1
      rw [Bool.and_eq_false_iff]
      right
      rw [decide_eq_false_iff_not, not_lt]
      show ve ≤ (C90.view E).N x _
      linarith

end

/-! ## The hypotheses are met

The solution `φ = -2t`, `N = -t²` of `V = 3φ² - 2` from `t = -3` to `t = -1/10`, with the end of inflation at `t = -√(1/2)`, integrated with an error `δ` in the last
step. -/

namespace C96.Ex

noncomputable def E : Eqs := .T Exact.hjT
abbrev evs : List Event := [⟨.inflation none, .neg, false, 0⟩]
/-- the field at the last grid point is off by `δ` -/
noncomputable def rows (δ : ℝ) : List (List ℝ) := [[6, 2, 1 / 5 + δ], [-2, -2, -2], [-9, -1, -(1 / 100)]]
noncomputable def res (δ : ℝ) : Dict Attr :=
  [("t", .arr C90.Ex.grid), ("y", .rows (rows δ)), ("t_events", .tEvents C90.Ex.te), ("y_events", .yEvents C90.Ex.ye), ("success", .other 1)]
noncomputable def ivp (δ : ℝ) : SolveIvp := fun _ _ => .ok (res δ)
noncomputable def log' (δ : ℝ) : StepLog := ⟨fun _ => Exact.yHjT, 0, 0, fun j => if j = 1 then δ else 0⟩

theorem rows3 : E.idx.length = 3 := C90.Ex.rows3

theorem trajectory : E.Trajectory univ (Iio 0) Exact.yHjT :=
  ⟨Exact.hjT_sol, fun t ht => by rw [Exact.hjT_H2]; have : t < 0 := ht; exact pow_pos (by linarith) 2, fun _ _ => mem_univ _⟩

theorem accel (x : ℝ) : E.accel Exact.yHjT x = 12 * x ^ 2 - 6 := by
  show Exact.hjT.inflating (Exact.yHjT x) = _
  rw [hj_inflating]

theorem shape (δ : ℝ) : IvpShape E.idx.length evs.length (res δ) C90.Ex.grid (rows δ) C90.Ex.te C90.Ex.ye where
  t_ne := by simp [C90.Ex.grid]
  get_t := rfl
  get_y := rfl
  get_te := rfl
  get_ye := rfl
  rows := by rw [rows3]; rfl
  cols := by simp [rows, C90.Ex.grid]
  te_len := rfl
  ye_len := rfl
  occ := C90.Ex.shape.occ
  states := C90.Ex.shape.states

theorem root : -1 < -√(1 / 2 : ℝ) ∧ -√(1 / 2 : ℝ) < -1 / 10 ∧ (√(1 / 2 : ℝ)) ^ 2 = 1 / 2 := by
  have h2 : (√(1 / 2 : ℝ)) ^ 2 = 1 / 2 := sq_sqrt (by norm_num)
  have h0 := sqrt_nonneg (1 / 2 : ℝ)
  refine ⟨?_, ?_, h2⟩ <;> nlinarith

/-- the two steps of the grid -/
theorem step {j : ℕ} {a b : ℝ} (ha : C90.Ex.grid[j]? = some a) (hb : C90.Ex.grid[j + 1]? = some b) : (j = 0 ∧ a = -3 ∧ b = -1) ∨ (j = 1 ∧ a = -1 ∧ b = -1 / 10) := by
  match j with
  | 0 =>
    simp only [C90.Ex.grid, List.getElem?_cons_zero, List.getElem?_cons_succ, Option.some.injEq] at ha hb
    exact Or.inl ⟨rfl, ha.symm, hb.symm⟩
  | 1 =>
    simp only [C90.Ex.grid, List.getElem?_cons_zero, List.getElem?_cons_succ, Option.some.injEq] at ha hb
    exact Or.inr ⟨rfl, ha.symm, hb.symm⟩
  | j + 2 => simp [C90.Ex.grid] at hb

theorem run {δ : ℝ} (hδ : 0 ≤ δ) : InexactRun E evs Exact.yHjT (-3) (-1 / 10) C90.Ex.grid (rows δ) C90.Ex.te C90.Ex.ye (log' δ) δ where
  start := rfl
  increasing := by
    simp only [C90.Ex.grid, List.pairwise_cons, List.mem_cons, List.not_mem_nil, or_false]
    norm_num
  inside := by
    intro x hx
    simp only [C90.Ex.grid, List.mem_cons, List.not_mem_nil, or_false] at hx
    rcases hx with rfl | rfl | rfl <;> norm_num
  initial := fun i hi => by
    rw [rows3] at hi
    interval_cases i <;> simp [rows, Exact.yHjT, log'] <;> norm_num
  defect_nonneg := le_rfl
  starts := fun j a b ha hb i hi => by
    rw [rows3] at hi
    rcases step ha hb with ⟨rfl, rfl, -⟩ | ⟨rfl, rfl, -⟩
    · interval_cases i <;> simp [rows, Exact.yHjT, log'] <;> norm_num
    · interval_cases i <;> simp [rows, Exact.yHjT, log']
  follows := fun j a b ha hb x hx i hi => by
    have hx0 : x < 0 := by
      rcases step ha hb with ⟨-, -, rfl⟩ | ⟨-, -, rfl⟩ <;> linarith [hx.2]
    refine ⟨E.rhs x (Exact.yHjT x) i, Exact.hjT_sol x hx0 i hi, ?_⟩
    simp [log']
  jumps := fun j a b ha hb i hi => by
    rw [rows3] at hi
    rcases step ha hb with ⟨rfl, -, rfl⟩ | ⟨rfl, -, rfl⟩
    · interval_cases i <;> simp [rows, Exact.yHjT, log']
    · interval_cases i
      · have : (1 / 5 + δ) - -2 * (-1 / 10) = δ := by ring
        simp only [rows, List.getD, List.getElem?_cons_zero, List.getElem?_cons_succ, Option.getD_some, log', Exact.yHjT, this, if_true]
        rw [abs_of_nonneg hδ]
      · simp [rows, Exact.yHjT, log', hδ]
      · simp [rows, Exact.yHjT, log']
        norm_num [hδ]
  total := by
    have : C90.Ex.grid.length - 1 = 2 := rfl
    rw [this, Finset.sum_range_succ, Finset.sum_range_succ]
    simp [log']
  recorded := fun k ev ts ss he hts hss m c st hc hst => by
    match k with
    | k + 1 => simp at he
    | 0 =>
      simp only [C90.Ex.te, C90.Ex.ye, List.getElem?_cons_zero, Option.some.injEq] at he hts hss
      subst he hts hss
      match m with
      | m + 1 => simp at hc
      | 0 =>
        simp only [List.getElem?_cons_zero, Option.some.injEq] at hc hst
        subst hc hst
        refine ⟨⟨1, -1, -1 / 10, rfl, rfl, ⟨root.1.le, root.2.1.le⟩, fun i hi => ?_⟩, ?_⟩
        · rw [rows3] at hi
          interval_cases i <;> simp [C90.Ex.st, Exact.yHjT, log', hδ]
        · rw [C90.call_plain ⟨rfl, rfl⟩]
          have : (C90.view E).inflating (-√(1 / 2)) (fun i => (C90.Ex.st (-√(1 / 2))).getD i 0) = 0 := by
            show 3 * (-2 * -√(1 / 2)) ^ 2 - 2 - (-2) ^ 2 = (0 : ℝ)
            have := root.2.2
            nlinarith
          rw [this]
          simpa using hδ
  detected := fun k ev ts he hts j a b ha hb _ hact => by
    match k with
    | k + 1 => simp at he
    | 0 =>
      simp only [C90.Ex.te, List.getElem?_cons_zero, Option.some.injEq] at he hts
      subst he hts
      rcases step ha hb with ⟨rfl, rfl, rfl⟩ | ⟨rfl, rfl, rfl⟩
      · exfalso
        rw [C90.call_plain ⟨rfl, rfl⟩, C90.call_plain ⟨rfl, rfl⟩] at hact
        have h : (C90.view E).inflating (-1) (fun i => ((rows δ).getD i []).getD (0 + 1) 0) ≤ 0 := hact.2
        have e : (C90.view E).inflating (-1) (fun i => ((rows δ).getD i []).getD (0 + 1) 0) = 3 * 2 ^ 2 - 2 - (-2) ^ 2 := rfl
        rw [e] at h
        norm_num at h
      · exact ⟨_, List.mem_singleton_self _, root.1.le, root.2.1.le⟩
  finished := Or.inl rfl

theorem solved {δ : ℝ} (hδ : 0 ≤ δ) : InexactlySolved (ivp δ) E (ICCall.slowRoll E C90.Ex.ic) C90.Ex.kw Exact.yHjT (-3) (-1 / 10) C90.Ex.grid δ := by
  obtain ⟨y0, q, hic, hq, he⟩ := C90.Ex.called
  exact ⟨C90.Ex.ic, y0, q, res δ, rows δ, C90.Ex.te, C90.Ex.ye, log' δ, hic, hq, rfl, by rw [he]; exact shape δ, by rw [he]; exact run hδ⟩

theorem ends : EndsOnce E Exact.yHjT (-3) (-1 / 10) (-√(1 / 2)) where
  inside := ⟨by linarith [root.1], root.2.1⟩
  before := fun x hx => by
    rw [accel]
    have := hx.2
    nlinarith [root.2.2, sqrt_nonneg (1 / 2 : ℝ)]
  after := fun x hx => by
    rw [accel]
    have h1 := hx.1
    have h2 := hx.2
    nlinarith [root.2.2, sqrt_nonneg (1 / 2 : ℝ)]
  zero := by rw [accel, neg_sq, root.2.2]; norm_num
  simple := by
    refine ⟨24 * -√(1 / 2), by have := root.2.1; intro h; linarith, ?_⟩
    have e : E.accel Exact.yHjT = fun x => 12 * x ^ 2 - 6 := funext accel
    rw [e]
    exact (((hasDerivAt_pow 2 _).const_mul 12).sub_const 6).congr_deriv (by norm_num; ring)

/-- `C96_solve`, `C96_w`, `C96_end` and `C96_found` apply: with an error of `δ` in the last step, the reported total number of e-folds is `17/2` up to `C δ`, and the field
at the last grid point is `1/5` up to `C δ` (and not exactly). -/
example (fmtE : ℝ → String) : ∃ C > 0, ∃ δ0 > 0, ∀ δ ∈ Icc 0 δ0, ∃ b s, solve (ivp δ) fmtE E (ICCall.slowRoll E C90.Ex.ic) [] C90.Ex.kw = .ok (b, s) ∧
    Near s.N_tot (17 / 2) (C * δ) ∧ Near s.fin.phi_end (2 * √(1 / 2)) (C * δ) ∧ (∃ r, b.get? "phi" = some (.arr r) ∧ Near r[2]? (1 / 5) (C * δ)) ∧
    Near s.w[0]? ((C90.view E).w (-3) (Exact.yHjT (-3))) (C * δ) := by
  have c := Exact.hjPot_chain
  have hsub : Icc (-3 : ℝ) (-1 / 10) ⊆ Iio 0 := by intro x hx; have := hx.2; show x < 0; linarith
  obtain ⟨C1, p1, δ1, q1, F1⟩ := C96_solve (E := E) isOpen_univ c.d1 c.d2 c.d3 trajectory hsub
  obtain ⟨C2, p2, δ2, q2, F2⟩ := C96_w (E := E) isOpen_univ c.d1 c.d2 c.d3 trajectory hsub (fun x hx => by
    show 0 < Exact.hjT.H2 (Exact.yHjT x) + 0 * _
    rw [Exact.hjT_H2, zero_mul, add_zero]
    have := hx.2
    have : x < 0 := by linarith
    exact pow_pos (by linarith) 2)
  obtain ⟨C3, p3, δ3, q3, F3⟩ := C96_end (E := E) isOpen_univ c.d1 c.d2 c.d3 trajectory hsub ends
  obtain ⟨C4, p4, δ4, q4, F4⟩ := C96_found (E := E) isOpen_univ c.d1 c.d2 c.d3 trajectory hsub ends
  refine ⟨C1 + C2 + C3 + C4, by positivity, min (min δ1 δ2) (min δ3 δ4), by positivity, fun δ hδ => ?_⟩
  obtain ⟨hδ0, hδ⟩ := hδ
  simp only [le_min_iff] at hδ
  have S := solved hδ0
  have wk : ∀ {o : Option ℝ} {v k : ℝ}, Near o v (k * δ) → k ≤ C1 + C2 + C3 + C4 → Near o v ((C1 + C2 + C3 + C4) * δ) := fun ⟨u, h1, h2⟩ hk =>
    ⟨u, h1, h2.trans (mul_le_mul_of_nonneg_right hk hδ0)⟩
  obtain ⟨b, s, hs, -, hv, -⟩ := F1 _ fmtE _ _ _ δ S hδ.1.1
  obtain ⟨b2, s2, hs2, hw⟩ := F2 _ fmtE _ _ _ δ S hδ.1.2
  obtain ⟨b3, s3, hs3, he⟩ := F3 (ivp δ) fmtE (ICCall.slowRoll E C90.Ex.ic) C90.Ex.kw C90.Ex.grid δ C90.Ex.plain S hδ.2.1
  obtain ⟨b4, s4, m, hs4, -, hNe, hNt, -⟩ := F4 (ivp δ) fmtE (ICCall.slowRoll E C90.Ex.ic) C90.Ex.kw C90.Ex.grid δ C90.Ex.plain ⟨_, List.mem_singleton_self _, ⟨_, rfl⟩, rfl⟩ (by simp [C90.Ex.kw])
    (fun ev hm ht => by
      have hm : ev ∈ evs := hm
      rw [List.mem_singleton] at hm; subst hm; cases ht)
    (fun ev hm ht => by
      have hm : ev ∈ evs := hm
      rw [List.mem_singleton] at hm; subst hm; cases ht) S hδ.2.2
  have e2 : s2 = s := (Prod.mk.inj (Except.ok.inj (hs2.symm.trans hs))).2
  have e3 : s3 = s := (Prod.mk.inj (Except.ok.inj (hs3.symm.trans hs))).2
  have e4 : s4 = s := (Prod.mk.inj (Except.ok.inj (hs4.symm.trans hs))).2
  rw [e2] at hw
  rw [e3] at he
  rw [e4] at hNe hNt
  refine ⟨b, s, hs, ?_, ?_, ?_, wk (hw 0 (-3) rfl) (by linarith)⟩
  · have e : E.efolds Exact.yHjT (-√(1 / 2)) - E.efolds Exact.yHjT (-3) = 17 / 2 := by
      show -(-√(1 / 2 : ℝ)) ^ 2 - -(-3 : ℝ) ^ 2 = 17 / 2
      rw [neg_sq, root.2.2]; norm_num
    rw [e] at hNt
    exact wk hNt (by linarith)
  · obtain ⟨v, hv1, -⟩ := hNe
    obtain ⟨-, h2, -⟩ := he (by rw [hv1]; simp)
    have e : Exact.yHjT (-√(1 / 2)) 0 = 2 * √(1 / 2) := by show -2 * -√(1 / 2 : ℝ) = _; ring
    rw [e] at h2
    exact wk h2 (by linarith)
  · obtain ⟨r, hr1, -, hr3⟩ := hv "phi" 0 rfl
    have := hr3 2 (-1 / 10) rfl
    have e : Exact.yHjT (-1 / 10) 0 = 1 / 5 := by show -2 * (-1 / 10 : ℝ) = 1 / 5; norm_num
    rw [e] at this
    exact ⟨r, hr1, wk this (by linarith)⟩

end C96.Ex
end Primpy
