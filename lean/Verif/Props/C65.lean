import Verif.Props.C64
import Verif.Lemmas.Trajectory
import Verif.Lemmas.Exact
import Verif.Model.InflationSol

/-!
# C65: the background scales with the potential
-/

namespace Primpy
open Real Spec

/-- The same equations in the potential `s² V`. -/
def InflT.scaled (e : InflT) (s : ℝ) : InflT := { e with pot := e.pot.scaled (s ^ 2) }
def InflN.scaled (e : InflN) (s : ℝ) : InflN := { e with pot := e.pot.scaled (s ^ 2) }

/-- A state in the rescaled universe (Hubble rate times `s`, scale factor times `exp c`), cosmic time: field, velocity, e-folds,
conformal time. -/
noncomputable def stateT (s c : ℝ) (y : ℕ → ℝ) : ℕ → ℝ
  | 0 => y 0
  | 1 => s * y 1
  | 2 => y 2 + c
  | i => y i / (s * exp c)
/-- The same for e-folds: field, velocity, then cosmic time if tracked, then conformal time if tracked. -/
noncomputable def stateN (e : InflN) (s c : ℝ) (y : ℕ → ℝ) (i : ℕ) : ℝ :=
  if i = 0 then y 0 else if i = 1 then y 1 else if e.track_time = true ∧ i = 2 then y 2 / s else y i / (s * exp c)

section
variable {s c : ℝ} (hs : 0 < s)
include hs

theorem InflT.H2_scaled (e : InflT) (hK : e.K = 0 ∨ s * exp c = 1) (y : ℕ → ℝ) : (e.scaled s).H2 (stateT s c y) = s ^ 2 * e.H2 y := by
  simp only [InflT.H2, T.get_H2, InflT.scaled, InflT._N, InflT.dphidt, InflT.V, InflT.phi, stateT, PotFns.scaled]
  rw [Pert.kE hK]
  ring

theorem InflN.H2_scaled (e : InflN) (hK : e.K = 0 ∨ s * exp c = 1) (x : ℝ) (y : ℕ → ℝ) :
    (e.scaled s).H2 (x + c) (stateN e s c y) = s ^ 2 * e.H2 x y := by
  simp only [InflN.H2, N.get_H2, InflN.scaled, InflN.dphidN, InflN.V, InflN.phi, stateN, PotFns.scaled]
  simp only [one_ne_zero, if_true, if_false]
  rw [mul_assoc 6, Pert.kE hK, ← mul_div_assoc]
  congr 1
  ring

theorem sqrt_scaled (x : ℝ) : √(s ^ 2 * x) = s * √x := by
  rw [sqrt_mul (by positivity), sqrt_sq hs.le]

/-- **C65, cosmic time.**  Any equations object, curvature (in a curved universe `s exp c = 1`), solution on any set: the rescaled
trajectory — run through `s` times as fast, e-folds shifted, velocity `s` times as large, conformal time divided by `s exp c` —
solves the equations in the potential `s² V`. -/
theorem C65_time (e : InflT) (hK : e.K = 0 ∨ s * exp c = 1) {S : Set ℝ} {y : ℝ → ℕ → ℝ} (sol : SolvesODE S e.rows e.call y) :
    SolvesODE {t | s * t ∈ S} (e.scaled s).rows (e.scaled s).call fun t => stateT s c (y (s * t)) := by
  intro t ht i hi
  have hi' : i < e.rows := hi
  have hH : (e.scaled s).H (stateT s c (y (s * t))) = s * e.H (y (s * t)) := by
    simp only [InflT.H]; rw [InflT.H2_scaled hs e hK, sqrt_scaled hs]
  have d' : HasDerivAt (fun t => y (s * t) i) (e.call (s * t) (y (s * t)) i * s) t :=
    (sol (s * t) ht i hi').comp (h := fun t => s * t) t (by simpa using (hasDerivAt_id t).const_mul s)
  have hr := InflT.rows_eq e
  have h4 : i < 4 := by split_ifs at hr <;> omega
  interval_cases i
  · refine d'.congr_deriv ?_
    rw [InflT.call0, InflT.call0]
    simp only [InflT.dphidt, stateT]; ring
  · refine (d'.const_mul s).congr_deriv ?_
    rw [InflT.call1, InflT.call1, hH]
    simp only [InflT.dphidt, stateT, InflT.dVdphi, InflT.phi, InflT.scaled, PotFns.scaled]; ring
  · refine (d'.add_const c).congr_deriv ?_
    rw [InflT.call2, InflT.call2, hH]; ring
  · have ht : e.track_eta = true := by
      by_contra h
      rw [if_neg h] at hr; omega
    refine (d'.div_const (s * exp c)).congr_deriv ?_
    rw [InflT.call3 _ ht, InflT.call3 (e.scaled s) ht]
    simp only [InflT._N, stateT]
    rw [neg_add, exp_add, exp_neg c]
    field_simp

/-- **C65, e-folds.**  The same with e-folds as independent variable; tracked cosmic time is divided by `s`, conformal time
by `s exp c`. -/
theorem C65_efolds (e : InflN) (hK : e.K = 0 ∨ s * exp c = 1) {S : Set ℝ} {y : ℝ → ℕ → ℝ} (sol : SolvesODE S e.rows e.call y) :
    SolvesODE {n | n - c ∈ S} (e.scaled s).rows (e.scaled s).call fun n => stateN e s c (y (n - c)) := by
  intro n hn i hi
  have hi' : i < e.rows := hi
  obtain ⟨x, rfl⟩ : ∃ x, n = x + c := ⟨n - c, by ring⟩
  have hx : x ∈ S := by simpa using hn
  have hH2 := InflN.H2_scaled hs e hK x (y x)
  have hH : (e.scaled s).H (x + c) (stateN e s c (y x)) = s * e.H x (y x) := by
    simp only [InflN.H]; rw [hH2, sqrt_scaled hs]
  have d := (sol x hx i hi')
  have d' : HasDerivAt (fun n => y (n - c) i) (e.call x (y x) i) (x + c) := by
    have d2 : HasDerivAt (fun s => y s i) (e.call x (y x) i) (x + c - c) := by rw [add_sub_cancel_right]; exact d
    exact d2.comp_sub_const _ _
  have e0 : x + c - c = x := by ring
  dsimp only
  rw [e0]
  have hr := InflN.rows_eq e
  have h4 : i < 4 := by split_ifs at hr <;> omega
  have eta : ∀ j, j = e.etaRow → e.track_eta = true → HasDerivAt (fun n => y (n - c) j) (e.call x (y x) j) (x + c) →
      HasDerivAt (fun n => y (n - c) j / (s * exp c)) ((e.scaled s).call (x + c) (stateN e s c (y x)) j) (x + c) := by
    intro j hj ht hd
    have e1 : (e.scaled s).etaRow = e.etaRow := rfl
    have c1 := InflN.call_eta e ht x (y x)
    have c2 := InflN.call_eta (e.scaled s) ht (x + c) (stateN e s c (y x))
    rw [e1] at c2
    rw [← hj] at c1 c2
    refine (hd.div_const (s * exp c)).congr_deriv ?_
    rw [c1, c2, hH, neg_add, exp_add, exp_neg c]
    simp only [div_eq_mul_inv, mul_inv]
    ring
  rcases Nat.lt_or_ge i 2 with h2 | h2
  · interval_cases i
    · refine d'.congr_deriv ?_
      rw [InflN.call0, InflN.call0]
      simp [InflN.dphidN, stateN]
    · refine d'.congr_deriv ?_
      rw [InflN.call1, InflN.call1, hH2]
      simp only [InflN.dphidN, stateN, InflN.dVdphi, InflN.phi, InflN.scaled, PotFns.scaled, N.get_d2phi, N.get_dH_H, one_ne_zero, if_true, if_false]
      rw [Pert.kE hK, mul_div_mul_left _ _ (by positivity), mul_div_mul_left _ _ (by positivity)]
  · have hi0 : i ≠ 0 := by omega
    have hi1 : i ≠ 1 := by omega
    by_cases ht : e.track_time = true
    · by_cases h3 : i = 2
      · subst h3
        simp only [stateN, if_neg hi0, if_neg hi1, ht, true_and, if_true]
        refine (d'.div_const s).congr_deriv ?_
        rw [InflN.call_t _ ht, InflN.call_t (e.scaled s) ht]
        rw [hH]
        simp only [div_eq_mul_inv, mul_inv]
        ring
      · have hte : e.track_eta = true := by
          by_contra h
          rw [if_neg h, if_pos ht] at hr; omega
        have hj : i = e.etaRow := by
          unfold InflN.etaRow; rw [if_pos ht]; omega
        have := eta i hj hte d'
        have e2 : (fun n => stateN e s c (y (n - c)) i) = fun n => y (n - c) i / (s * exp c) := by
          funext n; simp only [stateN, if_neg hi0, if_neg hi1, h3, and_false, if_false]
        rw [e2]; exact this
    · have hte : e.track_eta = true := by
        by_contra h
        rw [if_neg h, if_neg ht] at hr; omega
      have hj : i = e.etaRow := by
        unfold InflN.etaRow; rw [if_neg ht]; rw [if_neg ht, if_pos hte] at hr; omega
      have := eta i hj hte d'
      have e2 : (fun n => stateN e s c (y (n - c)) i) = fun n => y (n - c) i / (s * exp c) := by
        funext n; simp only [stateN, if_neg hi0, if_neg hi1, ht, false_and, if_false]; rfl
      rw [e2]; exact this
end

/-! ## Events -/

/-- What the rescaling does to the observables of an equations object: `f`, `g` map points to the points of the rescaled universe. -/
structure RescaledView (s c : ℝ) (Q Q' : EqView) (f : ℝ → ℝ) (g : (ℕ → ℝ) → ℕ → ℝ) : Prop where
  inj : Function.Injective f
  t : ∀ x y, Q'.t (f x) (g y) = Q.t x y / s
  N : ∀ x y, Q'.N (f x) (g y) = Q.N x y + c
  phi : ∀ x y, Q'.phi (f x) (g y) = Q.phi x y
  inflating : ∀ x y, Q'.inflating (f x) (g y) = s ^ 2 * Q.inflating x y
  w : ∀ x y, Q'.w (f x) (g y) = Q.w x y
  H2 : ∀ x y, Q'.H2 (f x) (g y) = s ^ 2 * Q.H2 x y

theorem rescaledT {s c : ℝ} (hs : 0 < s) (e : InflT) (hK : e.K = 0 ∨ s * exp c = 1) :
    RescaledView s c e.view (e.scaled s).view (fun x => x / s) (stateT s c) where
  inj a b h := by field_simp at h; exact h
  t _ _ := rfl
  N _ _ := rfl
  phi _ _ := rfl
  inflating x y := by
    simp only [InflT.view, InflT.inflating, InflT.V, InflT.phi, InflT.dphidt, InflT.scaled, PotFns.scaled, stateT]; ring
  w x y := by
    simp only [InflT.view, InflT.w, InflT.V, InflT.phi, InflT.dphidt, InflT.scaled, PotFns.scaled, stateT]
    rw [show (s * y 1) ^ 2 / 2 - s ^ 2 * e.pot.V (y 0) = s ^ 2 * (y 1 ^ 2 / 2 - e.pot.V (y 0)) by ring,
      show (s * y 1) ^ 2 / 2 + s ^ 2 * e.pot.V (y 0) = s ^ 2 * (y 1 ^ 2 / 2 + e.pot.V (y 0)) by ring, mul_div_mul_left _ _ (by positivity)]
  H2 x y := InflT.H2_scaled hs e hK y

theorem rescaledN {s c : ℝ} (hs : 0 < s) (e : InflN) (ht : e.track_time = true) (hK : e.K = 0 ∨ s * exp c = 1) :
    RescaledView s c e.view (e.scaled s).view (fun x => x + c) (stateN e s c) where
  inj a b h := by simpa using h
  t x y := by simp [InflN.view, stateN, ht]
  N _ _ := rfl
  phi _ _ := by simp [InflN.view, stateN, InflN.phi]
  inflating x y := by
    simp only [InflN.view, InflN.inflating]
    rw [InflN.H2_scaled hs e hK]
    simp only [InflN.V, InflN.phi, InflN.dphidN, InflN.scaled, PotFns.scaled, stateN, one_ne_zero, if_true, if_false]
    ring
  w x y := by
    simp only [InflN.view, InflN.w]
    rw [InflN.H2_scaled hs e hK]
    simp only [InflN.V, InflN.phi, InflN.dphidN, InflN.scaled, PotFns.scaled, stateN, one_ne_zero, if_true, if_false]
    rw [show s ^ 2 * e.H2 x y * y 1 ^ 2 / 2 - s ^ 2 * e.pot.V (y 0) = s ^ 2 * (e.H2 x y * y 1 ^ 2 / 2 - e.pot.V (y 0)) by ring,
      show s ^ 2 * e.H2 x y * y 1 ^ 2 / 2 + s ^ 2 * e.pot.V (y 0) = s ^ 2 * (e.H2 x y * y 1 ^ 2 / 2 + e.pot.V (y 0)) by ring,
      mul_div_mul_left _ _ (by positivity)]
  H2 x y := InflN.H2_scaled hs e hK x y

/-- The same event in the rescaled universe: thresholds in units of time, e-folds, energy density, wavenumber. -/
noncomputable def Event.rescaled (s c : ℝ) (f : ℝ → ℝ) (ev : Event) : Event where
  kind := match ev.kind with | .inflation t_i => .inflation (t_i.map f) | k => k
  direction := ev.direction
  terminal := ev.terminal
  value := match ev.kind with
    | .untilT => ev.value / s
    | .untilN => ev.value + c
    | .inflation _ => s ^ 2 * ev.value
    | .afterInflationEnd => ev.value
    | .collapse => s ^ 2 * ev.value
    | .phi0 => ev.value
    | .modeExit => s * exp c * ev.value

/-- **C65, events.**  Every event, at every point: its function in the rescaled universe has the same sign and the same zeros (and so, along a
trajectory, is seen by the integrator in the same steps).  `ModeExit` needs a positive wavenumber and `H² ≠ 0`. -/
theorem C65_events {s c : ℝ} (hs : 0 < s) {Q Q' : EqView} {f : ℝ → ℝ} {g : (ℕ → ℝ) → ℕ → ℝ} (h : RescaledView s c Q Q' f g) (ev : Event)
    (x : ℝ) (y : ℕ → ℝ) (hm : ev.kind = .modeExit → 0 < ev.value ∧ Q.H2 x y ≠ 0) :
    ∃ q > 0, (ev.rescaled s c f).call Q' (f x) (g y) = q * ev.call Q x y := by
  obtain ⟨kind, d, tm, v⟩ := ev
  cases kind with
  | untilT =>
    refine ⟨1 / s, by positivity, ?_⟩
    simp only [Event.call, Event.rescaled, h.t]; ring
  | untilN =>
    refine ⟨1, one_pos, ?_⟩
    simp only [Event.call, Event.rescaled, h.N]; ring
  | inflation t_i =>
    simp only [Event.call, Event.rescaled]
    by_cases hx : some x = t_i
    · refine ⟨1, one_pos, ?_⟩
      rw [if_pos hx, ← hx, Option.map_some, if_pos rfl, one_mul]
    · refine ⟨s ^ 2, by positivity, ?_⟩
      rw [if_neg hx, if_neg, h.inflating]
      · ring
      · intro h'
        cases t_i with
        | none => cases h'
        | some a =>
          rw [Option.map_some, Option.some.injEq] at h'
          exact hx (by rw [h.inj h'])
  | afterInflationEnd =>
    refine ⟨1, one_pos, ?_⟩
    simp only [Event.call, Event.rescaled, h.w]; ring
  | collapse =>
    refine ⟨s ^ 2, by positivity, ?_⟩
    simp only [Event.call, Event.rescaled, h.H2]; ring
  | phi0 =>
    refine ⟨1, one_pos, ?_⟩
    simp only [Event.call, Event.rescaled, h.phi]; ring
  | modeExit =>
    obtain ⟨hv, hH⟩ := hm rfl
    dsimp only at hv
    refine ⟨1, one_pos, ?_⟩
    simp only [Event.call, Event.rescaled, h.H2, h.N]
    rw [abs_mul, abs_of_pos (by positivity : 0 < s ^ 2), log_mul (by positivity) (by simpa using hH), log_mul (by positivity) hv.ne',
      log_mul hs.ne' (exp_pos c).ne', log_exp, log_pow]
    push_cast
    ring

/-- The integrator's test for an event in a step, from point `x₁` to `x₂`, gives the same answer. -/
theorem C65_active {s c : ℝ} (hs : 0 < s) {Q Q' : EqView} {f : ℝ → ℝ} {g : (ℕ → ℝ) → ℕ → ℝ} (h : RescaledView s c Q Q' f g) (ev : Event)
    (x₁ x₂ : ℝ) (y₁ y₂ : ℕ → ℝ) (hm : ev.kind = .modeExit → 0 < ev.value ∧ Q.H2 x₁ y₁ ≠ 0 ∧ Q.H2 x₂ y₂ ≠ 0) :
    scipyActive (ev.rescaled s c f).direction ((ev.rescaled s c f).call Q' (f x₁) (g y₁)) ((ev.rescaled s c f).call Q' (f x₂) (g y₂)) ↔
      scipyActive ev.direction (ev.call Q x₁ y₁) (ev.call Q x₂ y₂) := by
  obtain ⟨q₁, p₁, e₁⟩ := C65_events hs h ev x₁ y₁ fun hk => ⟨(hm hk).1, (hm hk).2.1⟩
  obtain ⟨q₂, p₂, e₂⟩ := C65_events hs h ev x₂ y₂ fun hk => ⟨(hm hk).1, (hm hk).2.2⟩
  rw [e₁, e₂]
  have a1 : ∀ z, q₁ * z ≤ 0 ↔ z ≤ 0 := fun z => by rw [← not_lt, mul_pos_iff_of_pos_left p₁, not_lt]
  have a2 : ∀ z, 0 ≤ q₁ * z ↔ 0 ≤ z := fun z => mul_nonneg_iff_of_pos_left p₁
  have b1 : ∀ z, q₂ * z ≤ 0 ↔ z ≤ 0 := fun z => by rw [← not_lt, mul_pos_iff_of_pos_left p₂, not_lt]
  have b2 : ∀ z, 0 ≤ q₂ * z ↔ 0 ≤ z := fun z => mul_nonneg_iff_of_pos_left p₂
  unfold scipyActive
  simp only [a1, a2, b1, b2]
  rfl

/-! ## Start, end and duration of inflation -/

noncomputable def RawSol.rescaled (f : ℝ → ℝ) (g : (ℕ → ℝ) → ℕ → ℝ) (r : RawSol) : RawSol where
  first := (f r.first.1, g r.first.2)
  rest := r.rest.map fun p => (f p.1, g p.2)
  events := r.events.mapVal (List.map fun p => (f p.1, g p.2))

/-- The derived attributes in the rescaled universe: e-folds shifted by `c`, `H` times `s`, `ln(aH)` shifted by `ln s + c`, potential
times `s²`; equation of state, curvature density, duration, mask and warnings the same. -/
noncomputable def InflSol.rescaled (s c : ℝ) (r : InflSol) : InflSol where
  start := ⟨r.start.N_beg.map (· + c), r.start.H_beg.map (s * ·), r.start.logaH_beg.map (· + (log s + c)), r.start.warning⟩
  fin := ⟨r.fin.N_end.map (· + c), r.fin.phi_end, r.fin.H_end.map (s * ·), r.fin.logaH_end.map (· + (log s + c)), r.fin.V_end.map (s ^ 2 * ·),
    r.fin.warning⟩
  N := r.N.map (· + c)
  w := r.w
  H := r.H.map (Option.map (s * ·))
  logaH := r.logaH.map (Option.map (· + (log s + c)))
  Omega_K := r.Omega_K
  N_tot := r.N_tot
  inflation_mask := r.inflation_mask

section
variable {s c : ℝ} (hs : 0 < s) {Q Q' : EqView} {f : ℝ → ℝ} {g : (ℕ → ℝ) → ℕ → ℝ} (h : RescaledView s c Q Q' f g)
include hs h

theorem Hnan_rescaled (p : ℝ × (ℕ → ℝ)) : Q'.Hnan (f p.1, g p.2) = (Q.Hnan p).map (s * ·) := by
  unfold EqView.Hnan nanSqrt
  dsimp only
  rw [h.H2, sqrt_scaled hs]
  have : 0 ≤ s ^ 2 * Q.H2 p.1 p.2 ↔ 0 ≤ Q.H2 p.1 p.2 := mul_nonneg_iff_of_pos_left (by positivity)
  by_cases h0 : 0 ≤ Q.H2 p.1 p.2
  · rw [if_pos h0, if_pos (this.mpr h0)]; rfl
  · rw [if_neg h0, if_neg (fun h' => h0 (this.mp h'))]; rfl

omit h in
theorem nanLog_scaled (x : ℝ) : nanLog (s * x) = (nanLog x).map (log s + ·) := by
  unfold nanLog
  have : 0 < s * x ↔ 0 < x := mul_pos_iff_of_pos_left hs
  by_cases h0 : 0 < x
  · rw [if_pos h0, if_pos (this.mpr h0), log_mul hs.ne' h0.ne']; rfl
  · rw [if_neg h0, if_neg (fun h' => h0 (this.mp h'))]; rfl

omit h in
theorem logaH_scaled (n : ℝ) (H : Option ℝ) :
    ((H.map (s * ·)).bind fun h => (nanLog h).map (n + c + ·)) = (H.bind fun h => (nanLog h).map (n + ·)).map (· + (log s + c)) := by
  cases H with
  | none => rfl
  | some H =>
    simp only [Option.map_some, Option.bind_some, nanLog_scaled hs, Option.map_map]
    congr 1
    funext l
    simp only [Function.comp]
    ring

omit hs h in
theorem firstEvent_rescaled (events : Dict (List (ℝ × (ℕ → ℝ)))) (key : String) :
    firstEvent (events.mapVal (List.map fun p => (f p.1, g p.2))) key = (firstEvent events key).map fun p => (f p.1, g p.2) := by
  unfold firstEvent
  rw [Dict.get?_mapVal]
  cases events.get? key with
  | none => rfl
  | some l => simp

omit hs h in
theorem contains_mapVal {α β : Type} (u : α → β) (d : Dict α) (k : String) : (d.mapVal u).contains k = d.contains k := by
  unfold Dict.contains Dict.mapVal
  rw [List.any_map]
  rfl

theorem postStart_rescaled (r : RawSol) : postStart Q' (r.rescaled f g) =
    ⟨(postStart Q r).N_beg.map (· + c), (postStart Q r).H_beg.map (s * ·), (postStart Q r).logaH_beg.map (· + (log s + c)), (postStart Q r).warning⟩ := by
  unfold postStart RawSol.rescaled
  dsimp only
  rw [firstEvent_rescaled, firstEvent_rescaled, Option.isSome_map]
  by_cases h1 : (firstEvent r.events "Collapse").isSome = true
  · rw [if_pos h1, if_pos h1]; rfl
  rw [if_neg h1, if_neg h1]
  have e : (0 ≤ Q'.inflating (f r.first.1) (g r.first.2) ∨ Q'.w (f r.first.1) (g r.first.2) ≤ -1 / 3) ↔
      (0 ≤ Q.inflating r.first.1 r.first.2 ∨ Q.w r.first.1 r.first.2 ≤ -1 / 3) := by
    rw [h.inflating, h.w, mul_nonneg_iff_of_pos_left (by positivity)]
  by_cases h2 : 0 ≤ Q.inflating r.first.1 r.first.2 ∨ Q.w r.first.1 r.first.2 ≤ -1 / 3
  · rw [if_pos h2, if_pos (e.mpr h2)]
    rw [h.N, Hnan_rescaled hs h]
    simp only [Option.map_some, Option.bind_some]
    rw [logaH_scaled hs]
  rw [if_neg h2, if_neg (fun h' => h2 (e.mp h'))]
  cases firstEvent r.events "Inflation_dir1_term0" with
  | none =>
    simp only [Option.map_none, startNotTracked, contains_mapVal]
    rfl
  | some p =>
    simp only [Option.map_some, h.N, Hnan_rescaled hs h, Option.bind_some]
    rw [logaH_scaled hs]

omit hs h in
theorem endEvent_rescaled (events : Dict (List (ℝ × (ℕ → ℝ)))) :
    endEvent (events.mapVal (List.map fun p => (f p.1, g p.2))) = (endEvent events).map fun p => (f p.1, g p.2) := by
  unfold endEvent
  rw [firstEvent_rescaled, firstEvent_rescaled]
  cases firstEvent events "Inflation_dir-1_term1" <;> rfl

theorem postEnd_rescaled (V : ℝ → ℝ) (r : RawSol) : postEnd Q' (fun x => s ^ 2 * V x) (r.rescaled f g) =
    ⟨(postEnd Q V r).N_end.map (· + c), (postEnd Q V r).phi_end, (postEnd Q V r).H_end.map (s * ·), (postEnd Q V r).logaH_end.map (· + (log s + c)),
      (postEnd Q V r).V_end.map (s ^ 2 * ·), (postEnd Q V r).warning⟩ := by
  unfold postEnd
  have e1 : (r.rescaled f g).events = r.events.mapVal (List.map fun p => (f p.1, g p.2)) := rfl
  have e2 : ∀ (h1 : (r.rescaled f g).grid ≠ []) (h2 : r.grid ≠ []),
      (r.rescaled f g).grid.getLast h1 = (f (r.grid.getLast h2).1, g (r.grid.getLast h2).2) := by
    intro h1 h2
    have e3 : (r.rescaled f g).grid = r.grid.map fun p => (f p.1, g p.2) := rfl
    simp only [e3, List.getLast_map]
  rw [e1, endEvent_rescaled]
  cases endEvent r.events with
  | none =>
    have hw : ∀ (h1 : (r.rescaled f g).grid ≠ []) (h2 : r.grid ≠ []), Q'.w ((r.rescaled f g).grid.getLast h1).1 ((r.rescaled f g).grid.getLast h1).2 =
        Q.w (r.grid.getLast h2).1 (r.grid.getLast h2).2 := by
      intro h1 h2
      rw [e2 h1 h2]
      exact h.w _ _
    have hk : ∀ z, endKind (r.events.mapVal (List.map fun p => (f p.1, g p.2))) z = endKind r.events z := by
      intro z; simp only [endKind, contains_mapVal]
    exact congrArg (fun z => (⟨none, none, none, none, none, some (.inflationEnd z)⟩ : EndInfo)) ((hk _).trans (congrArg (endKind _) (hw _ _)))
  | some p =>
    simp only [Option.map_some, h.N, h.phi, Hnan_rescaled hs h]
    rw [logaH_scaled hs]

/-- **C65, the derived attributes.**  Any grid, any events: start and end of inflation, `H`, `ln(aH)`, curvature density, total number of
e-folds, mask and warnings of the rescaled solution are those of the original, rescaled. -/
theorem C65_attributes {K : ℝ} (hK : K = 0 ∨ s * exp c = 1) (V : ℝ → ℝ) (r : RawSol) :
    inflationSol Q' (fun x => s ^ 2 * V x) K (r.rescaled f g) = (inflationSol Q V K r).rescaled s c := by
  have e3 : (r.rescaled f g).grid = r.grid.map fun p => (f p.1, g p.2) := rfl
  unfold inflationSol InflSol.rescaled
  dsimp only
  rw [postStart_rescaled hs h, postEnd_rescaled hs h, e3]
  simp only [List.map_map]
  have hN : (fun p : ℝ × (ℕ → ℝ) => Q'.N (f p.1) (g p.2)) = fun p => Q.N p.1 p.2 + c := by funext p; exact h.N _ _
  have hl : ∀ p : ℝ × (ℕ → ℝ), ((Q'.Hnan (f p.1, g p.2)).bind fun h => (nanLog h).map (Q'.N (f p.1) (g p.2) + ·)) =
      ((Q.Hnan p).bind fun h => (nanLog h).map (Q.N p.1 p.2 + ·)).map (· + (log s + c)) := by
    intro p
    rw [Hnan_rescaled hs h, h.N]
    exact logaH_scaled hs _ _
  congr 1
  · exact List.map_congr_left fun p _ => h.N _ _
  · exact List.map_congr_left fun p _ => h.w _ _
  · exact List.map_congr_left fun p _ => Hnan_rescaled hs h p
  · exact List.map_congr_left fun p _ => hl p
  · apply List.map_congr_left
    intro p _
    simp only [Function.comp]
    rw [hl, Option.map_map]
    congr 1
    funext l
    simp only [Function.comp]
    rcases hK with rfl | hm
    · simp
    · rw [← Pert.log_m hs, hm, log_one, add_zero]
  · cases (postEnd Q V r).N_end with
    | none => rfl
    | some a =>
    cases (postStart Q r).N_beg with
    | none => rfl
    | some b => simp
  · cases (postEnd Q V r).N_end with
    | none => cases (postStart Q r).N_beg <;> rfl
    | some a =>
    cases (postStart Q r).N_beg with
    | none => rfl
    | some b =>
      simp only [Option.map_some, Option.bind_some, Option.some.injEq]
      apply List.map_congr_left
      intro p _
      simp only [Function.comp]
      simp only [h.N, add_lt_add_iff_right]
end

/-- The exact power-law universe (`a = t²`): the hypotheses of C65 are met, with `s = 3`, `c = 1`. -/
example : SolvesODE {t | 3 * t ∈ Set.Ioi (0 : ℝ)} (Exact.flatT.scaled 3).rows (Exact.flatT.scaled 3).call
    fun t => stateT 3 1 (Exact.yFlatT (3 * t)) :=
  C65_time (by norm_num) _ (.inl rfl) Exact.flatT_sol

/-- The closed universe `a = t`, `s = 2`, `a` halved. -/
example : SolvesODE {t | 2 * t ∈ Set.Ioi (0 : ℝ)} (Exact.curvedT.scaled 2).rows (Exact.curvedT.scaled 2).call
    fun t => stateT 2 (-log 2) (Exact.yCurvedT (2 * t)) :=
  C65_time (by norm_num) _ (.inr (by rw [exp_neg, exp_log (by norm_num)]; norm_num)) Exact.curvedT_sol

/-- The same in e-folds. -/
example : SolvesODE {n | n - -log 2 ∈ Set.univ} (Exact.curvedN.scaled 2).rows (Exact.curvedN.scaled 2).call
    fun n => stateN Exact.curvedN 2 (-log 2) (Exact.yCurvedN (n - -log 2)) :=
  C65_efolds (by norm_num) _ (.inr (by rw [exp_neg, exp_log (by norm_num)]; norm_num)) Exact.curvedN_sol

end Primpy
