import Verif.Model.WrapperFull
import Verif.Props.C07
import Verif.Props.C35
import Verif.Props.C41
import Verif.Props.C58

/-!
# C70: the slow-roll wrapper, from the sampled parameters to the stored state
-/

namespace Primpy
open Real
namespace Wrap
variable {κ : Type} {u : SI} {spline : κ → List (ℝ × ℝ) → ℝ → ℝ} {kw : κ} {solver : Approx.PSol → ℝ → ℝ → List ℝ × ℝ}

/-! ### The last calibration of a pass -/

theorem calibrateP_st {sr : Approx.SlowRoll} {p q : Approx.PSol} {a : CalArgs} (hb : a.background = none)
    (h : Approx.calibrateP u spline sr p a "CGS" kw 3 = .ok q) : Cal.calibrate u p.st a = .ok q.st := by
  cases hc : Cal.calibrate u p.st a with
  | error e => unfold Approx.calibrateP at h; rw [hc] at h; cases h
  | ok s =>
    obtain ⟨g, q', -, e2, e3, -⟩ := Approx.calibrateP_CGS u spline sr kw hb hc
    rw [e2] at h
    cases h
    rw [e3]

theorem calibrateP_hist {sr : Approx.SlowRoll} {p q : Approx.PSol} {a : CalArgs} {s0 : CalState} (hb : a.background = none)
    (h : Approx.calibrateP u spline sr p a "CGS" kw 3 = .ok q) (hist : CalHistory u s0 p.st) : CalHistory u s0 q.st :=
  .returned a hist (by intro b I hb'; rw [hb] at hb'; cases hb') (calibrateP_st hb h)

theorem nsObjective_calibrates {sr : Approx.SlowRoll} {p q : Approx.PSol} {n_s x d : ℝ} (h : Approx.nsObjective u spline sr kw n_s p x = .ok (q, d)) :
    Approx.calibrateP u spline sr p { method := "N_star", N_star := some x } "CGS" kw 3 = .ok q := by
  unfold Approx.nsObjective at h
  split at h
  · cases h
  next q' hq =>
    split at h
    · cases h
    · cases h; exact hq

theorem nsProbe_hist {sr : Approx.SlowRoll} {n_s : ℝ} {s0 : CalState} (xs : List ℝ) : ∀ {p q : Approx.PSol}, Approx.nsProbe u spline sr kw n_s p xs = .ok q →
    CalHistory u s0 p.st → CalHistory u s0 q.st := by
  induction xs with
  | nil => intro p q h hist; cases h; exact hist
  | cons x xs ih =>
    intro p q h hist
    unfold Approx.nsProbe at h
    split at h
    · cases h
    next r hr =>
      obtain ⟨r1, r2⟩ := r
      exact ih h (calibrateP_hist rfl (nsObjective_calibrates hr) hist)

theorem setNs_last {sr : Approx.SlowRoll} {p q : Approx.PSol} {n_s lo hi : ℝ} {rho : Option ℝ} {s0 : CalState}
    (h : Approx.setNs u spline sr kw solver n_s lo hi rho p = .ok q) (hist : CalHistory u s0 p.st) :
    ∃ p0 x, CalHistory u s0 p0.st ∧ Approx.calibrateP u spline sr p0 { method := "N_star", N_star := some x, rho_reh_GeV := rho } "CGS" kw 3 = .ok q := by
  unfold Approx.setNs at h
  split at h
  · cases h
  · split at h
    · cases h
    next q1 d1 h1 =>
      split at h
      · cases h
      next q2 d2 h2 =>
        dsimp only at h
        split at h
        · cases h
        · split at h
          · cases h
          · split at h
            · cases h
            next q3 h3 =>
              have k1 := calibrateP_hist rfl (nsObjective_calibrates h1) hist
              have k2 := calibrateP_hist rfl (nsObjective_calibrates h2) k1
              exact ⟨q3, _, nsProbe_hist _ h3 k2, h⟩

/-- The arguments of the calibration that made the final solution. -/
inductive LastArgs (p : SRParams) (N : ℝ) : CalArgs → Prop where
  | reheating {w rho : ℝ} : p.w_reh = some w → p.rho_reh_GeV = some rho →
      LastArgs p N { method := "reheating", rho_reh_GeV := some rho, w_reh := some w }
  | efolds : (p.w_reh = none ∨ p.rho_reh_GeV = none) → p.n_s = none → LastArgs p N { method := "N_star", N_star := some N, rho_reh_GeV := p.rho_reh_GeV }
  | tilt {n_s : ℝ} (x : ℝ) : (p.w_reh = none ∨ p.rho_reh_GeV = none) → p.n_s = some n_s →
      LastArgs p N { method := "N_star", N_star := some x, rho_reh_GeV := p.rho_reh_GeV }

theorem exceptMap_ok {α β : Type} {f : α → β} {x : Except PyErr α} {y : β} (h : x.map f = .ok y) : ∃ a, x = .ok a ∧ f a = y := by
  cases x with
  | error e => cases h
  | ok a => cases h; exact ⟨a, rfl, rfl⟩

theorem pass_last {run : Option ℝ → Except PyErr Raw} {p : SRParams} {L : Option ℝ} {N N' : ℝ} {b : Obj}
    (h : pass u (backend u spline kw solver run) p L N = .ok (b, N')) :
    ∃ r I p0 a, run L = .ok r ∧ b.raw = r ∧ r.success = true ∧ r.infl = some I ∧ CalHistory u (fresh r).st p0.st ∧ LastArgs p N a ∧
      Approx.calibrateP u spline r.sr p0 a "CGS" kw 3 = .ok b.sol := by
  unfold pass at h
  cases hr : run L with
  | error e => simp only [backend, hr] at h; cases h
  | ok r =>
    by_cases hbad : r.success = true ∧ r.infl.isNone
    · simp only [backend, hr] at h
      rw [if_pos hbad] at h
      cases h
    · have hs : (backend u spline kw solver run).solve L = .ok ⟨r, fresh r⟩ := by
        simp only [backend, hr]
        rw [if_neg hbad]
      rw [hs] at h
      dsimp only at h
      by_cases h1 : (backend u spline kw solver run).success ⟨r, fresh r⟩ = false
      · rw [if_pos h1] at h; cases h
      rw [if_neg h1] at h
      split at h
      · cases h
      have h1 : r.success = true := by simpa [backend] using h1
      obtain ⟨I, hI⟩ : ∃ I, r.infl = some I := by
        cases hi : r.infl with
        | none => exact absurd ⟨h1, by rw [hi]; rfl⟩ hbad
        | some I => exact ⟨I, rfl⟩
      have hist : CalHistory u (fresh r).st (fresh r).st := .fresh
      unfold calibrateStep at h
      split at h
      · next w rho _ hw hrho =>
        obtain ⟨b', hb', e⟩ := exceptMap_ok h
        obtain ⟨s, hs', e'⟩ := exceptMap_ok hb'
        cases e; cases e'
        exact ⟨r, I, _, _, rfl, rfl, h1, hI, hist, .reheating hw hrho, hs'⟩
      · next rho hrho hn hwr =>
        have hor : p.w_reh = none ∨ p.rho_reh_GeV = none := by
          cases hw : p.w_reh with
          | none => exact .inl rfl
          | some w =>
            cases hr' : p.rho_reh_GeV with
            | none => exact .inr rfl
            | some x => exact absurd hr' (hwr w x hw)
        obtain ⟨b', hb', e⟩ := exceptMap_ok h
        obtain ⟨s, hs', e'⟩ := exceptMap_ok hb'
        cases e; cases e'
        exact ⟨r, I, _, _, rfl, rfl, h1, hI, hist, .efolds hor hn, hs'⟩
      · next rho n_s hrho hn hwr =>
        have hor : p.w_reh = none ∨ p.rho_reh_GeV = none := by
          cases hw : p.w_reh with
          | none => exact .inl rfl
          | some w =>
            cases hr' : p.rho_reh_GeV with
            | none => exact .inr rfl
            | some x => exact absurd hr' (hwr w x hw)
        dsimp only at h
        split at h
        · cases h
        next b1 hb1 =>
          obtain ⟨s1, hs1, e1⟩ := exceptMap_ok hb1
          cases e1
          obtain ⟨b', hb', e⟩ := exceptMap_ok h
          obtain ⟨s, hs', e'⟩ := exceptMap_ok hb'
          cases e; cases e'
          obtain ⟨p0, x, k1, k2⟩ := setNs_last hs' (calibrateP_hist rfl hs1 hist)
          exact ⟨r, I, p0, _, rfl, rfl, h1, hI, k1, .tilt x hor hn, k2⟩

theorem pass_tilt {run : Option ℝ → Except PyErr Raw} {p : SRParams} {L : Option ℝ} {N N' n_s : ℝ} {b : Obj}
    (h : pass u (backend u spline kw solver run) p L N = .ok (b, N')) (hor : p.w_reh = none ∨ p.rho_reh_GeV = none) (hn : p.n_s = some n_s) :
    ∃ r p0, run L = .ok r ∧ b.raw = r ∧ CalHistory u (fresh r).st p0.st ∧ N' ≤ N ∧
      Approx.setNs u spline r.sr kw solver n_s 20 N' p.rho_reh_GeV p0 = .ok b.sol := by
  obtain ⟨r, I, -, -, hr, -, h1, hI, -⟩ := pass_last h
  unfold pass at h
  have hbad : ¬ (r.success = true ∧ r.infl.isNone) := by
    rintro ⟨-, h⟩
    rw [hI] at h
    cases h
  have hs : (backend u spline kw solver run).solve L = .ok ⟨r, fresh r⟩ := by
    simp only [backend, hr]
    rw [if_neg hbad]
  rw [hs] at h
  dsimp only at h
  rw [if_neg (by simp [backend, h1])] at h
  split at h
  · cases h
  unfold calibrateStep at h
  split at h
  · next w rho _ hw hrho =>
    rcases hor with k | k
    · rw [k] at hw; cases hw
    · rw [k] at hrho; cases hrho
  · next rho hrho hn' hwr => rw [hn] at hn'; cases hn'
  · next rho n_s' hrho hn' hwr =>
    rw [hn] at hn'
    cases hn'
    dsimp only at h
    split at h
    · cases h
    next b1 hb1 =>
      obtain ⟨s1, hs1, e1⟩ := exceptMap_ok hb1
      cases e1
      obtain ⟨b', hb', e⟩ := exceptMap_ok h
      obtain ⟨s, hs', e'⟩ := exceptMap_ok hb'
      cases e; cases e'
      exact ⟨r, s1, hr, rfl, calibrateP_hist rfl hs1 .fresh, min_le_left _ _, hs'⟩

/-- Without a requested tilt the loop keeps its `N_star`. -/
theorem Missed.N_star {B : Type} {d : Backend B} {p : SRParams} {L0 L : Option ℝ} {N0 N : ℝ} {m : ℕ} (h : Missed u d p L0 N0 m L N) (hn : p.n_s = none) : N = N0 := by
  induction h with
  | start => rfl
  | @step m L N N' b _ hp _ ih =>
    rw [← ih]
    unfold pass at hp
    split at hp
    · cases hp
    split_ifs at hp
    unfold calibrateStep at hp
    split at hp
    · obtain ⟨_, -, e⟩ := exceptMap_ok hp; cases e; rfl
    · obtain ⟨_, -, e⟩ := exceptMap_ok hp; cases e; rfl
    · next hn' _ => rw [hn] at hn'; cases hn'

/-! ### What a flat calibration leaves -/

/-- The reheating attributes after a flat calibration that is not copied. -/
theorem flat_slots {s s' : CalState} {a : CalArgs} (hK : s.K = 0) (hb : a.background = none) (hok : Cal.calibrate u s a = .ok s') :
    (∃ x, s'.sticky.w_reh = some x) ∧ (∃ x, s'.sticky.DeltaN_reh = some x) ∧ (∃ x, s'.sticky.DeltaN_minus1 = some (some x)) ∧
    (∃ x y, s'.sticky.rho_reh_GeV = some x ∧ s'.sticky.rho_reh_mp4 = some y ∧ (x.isSome → y.isSome)) ∧
    ∃ c, s'.cal = some c ∧ c.N0 = 0 := by
  obtain ⟨p, hp, rfl⟩ := Cal.calibrate_flat hK hok
  obtain ⟨-, ns, nc, ls, δ, nr, I, st, hs, rfl⟩ := Cal.flat_ok hp
  simp only [Cal.finish]
  have key : (∃ x, st.w_reh = some x) ∧ (∃ x, st.DeltaN_reh = some x) ∧ (∃ x, st.DeltaN_minus1 = some (some x)) ∧
      ∃ x y, st.rho_reh_GeV = some x ∧ st.rho_reh_mp4 = some y ∧ (x.isSome → y.isSome) := by
    unfold Cal.flatSel at hs
    rw [hb] at hs
    dsimp only at hs
    split_ifs at hs with h1 h2
    · obtain ⟨-, -, -, -, -, -, -, dm1, -, hst⟩ := Cal.flatNstar_ok hs
      unfold Cal.flatNstarReh at hst
      split at hst
      · cases hst
        exact ⟨⟨_, rfl⟩, ⟨_, rfl⟩, ⟨_, rfl⟩, _, _, rfl, rfl, by simp⟩
      · split at hst
        · cases hst
        · dsimp only at hst
          split at hst
          · cases hst
          · cases hst
            exact ⟨⟨_, rfl⟩, ⟨_, rfl⟩, ⟨_, rfl⟩, _, _, rfl, rfl, by simp⟩
      · cases hst
        exact ⟨⟨_, rfl⟩, ⟨_, rfl⟩, ⟨_, rfl⟩, _, _, rfl, rfl, by simp⟩
      · cases hst
    · obtain ⟨-, -, N_end, dN, hst, -⟩ := Cal.flatReheating_ok hs
      unfold Cal.flatReh at hst
      split at hst
      · cases hst
      · cases hst
        exact ⟨⟨_, rfl⟩, ⟨_, rfl⟩, ⟨_, rfl⟩, _, _, rfl, rfl, by simp⟩
      · split at hst
        · split at hst
          · cases hst
          · split at hst
            · cases hst
              exact ⟨⟨_, rfl⟩, ⟨_, rfl⟩, ⟨_, rfl⟩, _, _, rfl, rfl, by simp⟩
            · cases hst
              exact ⟨⟨_, rfl⟩, ⟨_, rfl⟩, ⟨_, rfl⟩, _, _, rfl, rfl, by simp⟩
        · split at hst
          · cases hst
            exact ⟨⟨_, rfl⟩, ⟨_, rfl⟩, ⟨_, rfl⟩, _, _, rfl, rfl, by simp⟩
          · cases hst
            exact ⟨⟨_, rfl⟩, ⟨_, rfl⟩, ⟨_, rfl⟩, _, _, rfl, rfl, by simp⟩
          · cases hst
  exact ⟨key.1, key.2.1, key.2.2.1, key.2.2.2, _, rfl, rfl⟩

/-- The given reheating parameters are reported as given. -/
theorem flat_given {s s' : CalState} {p : SRParams} {N : ℝ} {a : CalArgs} (hK : s.K = 0) (ha : LastArgs p N a) (hok : Cal.calibrate u s a = .ok s') :
    (∀ rho, p.rho_reh_GeV = some rho → s'.sticky.rho_reh_GeV = some (some rho)) ∧
    (∀ w rho, p.w_reh = some w → p.rho_reh_GeV = some rho → s'.sticky.w_reh = some (some w)) ∧
    (p.rho_reh_GeV = none → s'.sticky.rho_reh_GeV = some none ∧ s'.sticky.w_reh = some none ∧ s'.sticky.DeltaN_reh = some none ∧
      ∃ c, s'.cal = some c ∧ c.N_reh = none) ∧
    (∀ x, a.method = "N_star" → a.N_star = some x → ∃ c, s'.cal = some c ∧ c.N_star = x) := by
  obtain ⟨q, hq, rfl⟩ := Cal.calibrate_flat hK hok
  obtain ⟨-, ns, nc, ls, δ, nr, I, st, hs, rfl⟩ := Cal.flat_ok hq
  simp only [Cal.finish]
  cases ha with
  | @reheating w rho hw hrho =>
    unfold Cal.flatSel at hs
    dsimp only at hs
    rw [if_neg (by decide), if_pos rfl] at hs
    obtain ⟨-, -, N_end, dN, hst, -⟩ := Cal.flatReheating_ok hs
    rw [hw, hrho]
    unfold Cal.flatReh at hst
    dsimp only at hst
    split at hst
    · cases hst
    · next hi =>
      have := ((C32_table none (some rho) (some w) none none).1.1 hi).2
      exact absurd (.inl ⟨rho, rfl⟩) this
    · cases hst
      refine ⟨?_, ?_, ?_, ?_⟩
      · rintro _ ⟨⟩; rfl
      · rintro _ _ ⟨⟩ _; rfl
      · rintro ⟨⟩
      · intro x hm; simp at hm
  | efolds hor hn =>
    unfold Cal.flatSel at hs
    dsimp only at hs
    rw [if_pos rfl] at hs
    obtain ⟨hns, -, -, -, -, -, -, dm1, -, hst⟩ := Cal.flatNstar_ok hs
    unfold Cal.flatNstarReh at hst
    cases hr : p.rho_reh_GeV with
    | none =>
      simp only [hr] at hst
      cases hst
      refine ⟨?_, ?_, ?_, ?_⟩
      · rintro _ ⟨⟩
      · rintro _ _ _ ⟨⟩
      · intro _; exact ⟨rfl, rfl, rfl, _, rfl, rfl⟩
      · intro x _ hx; exact ⟨_, rfl, by cases hns; cases hx; rfl⟩
    | some rho =>
      simp only [hr] at hst
      cases hst
      refine ⟨?_, ?_, ?_, ?_⟩
      · rintro _ ⟨⟩; rfl
      · intro w _ hw
        rcases hor with k | k
        · rw [k] at hw; cases hw
        · rw [hr] at k; cases k
      · rintro ⟨⟩
      · intro x _ hx; exact ⟨_, rfl, by cases hns; cases hx; rfl⟩
  | tilt y hor hn =>
    unfold Cal.flatSel at hs
    dsimp only at hs
    rw [if_pos rfl] at hs
    obtain ⟨hns, -, -, -, -, -, -, dm1, -, hst⟩ := Cal.flatNstar_ok hs
    unfold Cal.flatNstarReh at hst
    cases hr : p.rho_reh_GeV with
    | none =>
      simp only [hr] at hst
      cases hst
      refine ⟨?_, ?_, ?_, ?_⟩
      · rintro _ ⟨⟩
      · rintro _ _ _ ⟨⟩
      · intro _; exact ⟨rfl, rfl, rfl, _, rfl, rfl⟩
      · intro x _ hx; exact ⟨_, rfl, by cases hns; cases hx; rfl⟩
    | some rho =>
      simp only [hr] at hst
      cases hst
      refine ⟨?_, ?_, ?_, ?_⟩
      · rintro _ ⟨⟩; rfl
      · intro w _ hw
        rcases hor with k | k
        · rw [k] at hw; cases hw
        · rw [hr] at k; cases k
      · rintro ⟨⟩
      · intro x _ hx; exact ⟨_, rfl, by cases hns; cases hx; rfl⟩

/-! ### Evaluating lists -/

theorem mapE_ok {α β : Type} {f : α → Except PyErr β} {g : α → β} (l : List α) (h : ∀ x ∈ l, f x = .ok (g x)) : mapE f l = .ok (l.map g) := by
  induction l with
  | nil => rfl
  | cons x l ih =>
    unfold mapE
    rw [h x (List.mem_cons_self ..), ih fun y hy => h y (List.mem_cons_of_mem _ hy)]
    rfl

theorem lookup_map {β : Type} (g : String → β) (l : List String) {n : String} (h : n ∈ l) : (l.map fun m => (m, g m)).lookup n = some (g n) := by
  induction l with
  | nil => cases h
  | cons m l ih =>
    rw [List.map_cons, List.lookup_cons]
    by_cases hm : n = m
    · subst hm
      simp
    · rw [show (n == m) = false by simpa using hm]
      exact ih ((List.mem_cons.1 h).resolve_left hm)

/-! ### The final solution -/

/-- Everything about the solution the loop ends with. -/
theorem final {run : Option ℝ → Except PyErr Raw} {p : SRParams} {Lambda0 : ℝ} {b : Obj}
    (h : slowRoll u (backend u spline kw solver run) p Lambda0 = .ok b) :
    ∃ L N N' I p0 a, pass u (backend u spline kw solver run) p L N = .ok (b, N') ∧ N ≤ p.N_star ∧ (p.n_s = none → N = p.N_star) ∧
      run L = .ok b.raw ∧ b.raw.infl = some I ∧ CalHistory u (fresh b.raw).st p0.st ∧ LastArgs p N a ∧
      Approx.calibrateP u spline b.raw.sr p0 a "CGS" kw 3 = .ok b.sol ∧ Cal.calibrate u p0.st a = .ok b.sol.st ∧ p0.st.K = 0 ∧ a.background = none ∧ a.g_th = 100 := by
  obtain ⟨⟨m, L, N, N', -, hmiss, hpass⟩, -⟩ := C58_success h
  obtain ⟨r, I, p0, a, hr, rfl, -, hI, hist, hl, hcal⟩ := pass_last hpass
  have hb : a.background = none := by cases hl <;> rfl
  have hg : a.g_th = 100 := by cases hl <;> rfl
  exact ⟨L, N, N', I, p0, a, hpass, C58_N_star_drift hmiss, hmiss.N_star, hr, hI, hist, hl, hcal, calibrateP_st hb hcal, hist.same.K, hb, hg⟩

/-- After the loop nothing is missing. -/
theorem getattr_some {run : Option ℝ → Except PyErr Raw} {p : SRParams} {Lambda0 : ℝ} {b : Obj}
    (h : slowRoll u (backend u spline kw solver run) p Lambda0 = .ok b) : ∀ n ∈ advertised, ∃ v, getattr b n = some v := by
  obtain ⟨L, N, N', I, p0, a, -, -, -, -, -, -, -, hcalP, hcal, hK, hb, -⟩ := final h
  obtain ⟨⟨x1, h1⟩, ⟨x2, h2⟩, ⟨x3, h3⟩, ⟨x4, -, h4, -⟩, c, hc, -⟩ := flat_slots hK hb hcal
  obtain ⟨g, q, -, e2, -, e4⟩ := Approx.calibrateP_CGS u spline b.raw.sr kw hb hcal
  rw [hcalP] at e2
  cases e2
  intro n hn
  simp only [advertised, List.mem_cons, List.not_mem_nil, or_false] at hn
  rcases hn with rfl | rfl | rfl | rfl | rfl | rfl | rfl | rfl | rfl | rfl | rfl | rfl | rfl | rfl | rfl | rfl | rfl <;>
    simp [getattr, h1, h2, h3, h4, hc, e4]

/-- What the last part of `calculate` makes of the final solution. -/
theorem report_ok {run : Option ℝ → Except PyErr Raw} {p : SRParams} {Lambda0 : ℝ} {b : Obj} (ks : List ℝ)
    (h : slowRoll u (backend u spline kw solver run) p Lambda0 = .ok b) :
    ∃ st S P, report spline kw ks b = .ok st ∧ st.derived.map Prod.fst = advertised ∧ (∀ n ∈ advertised, st.derived.lookup n = getattr b n) ∧
      b.sol.pars = some P ∧ Approx.PivotParameters (Approx.valueOf S Approx.Spectrum.s) (Approx.valueOf S Approx.Spectrum.t) P ∧
      st.Pks = ks.map (Approx.valueOf S Approx.Spectrum.s) ∧ st.Pkt = ks.map (Approx.valueOf S Approx.Spectrum.t) := by
  obtain ⟨L, N, N', I, p0, a, -, -, -, -, -, -, -, hcalP, hcal, hK, hb, -⟩ := final h
  obtain ⟨g, S, P, hg, hS, hP, hpiv, hans⟩ := Approx.C41_parameters u spline b.raw.sr p0 b.sol a "CGS" 3 kw hb (by intro g; simp [Approx.named]) hcalP
  have hget := getattr_some h
  have hd : mapE (entry b) advertised = .ok (advertised.map fun n => (n, (getattr b n).getD none)) := by
    refine mapE_ok _ fun n hn => ?_
    obtain ⟨v, hv⟩ := hget n hn
    simp only [entry, hv, Option.getD_some]
  refine ⟨⟨ks.map (Approx.valueOf S Approx.Spectrum.s), ks.map (Approx.valueOf S Approx.Spectrum.t), advertised.map fun n => (n, (getattr b n).getD none)⟩, S, P,
    ?_, ?_, ?_, hP, hpiv, rfl, rfl⟩
  · unfold report
    rw [hg]
    dsimp only
    have es := mapE_ok (f := fun k => (Approx.evalP spline Approx.Spectrum.s "CGS" 3 kw k g b.sol.caches).2) ks fun k _ => hans Approx.Spectrum.s k
    have et := mapE_ok (f := fun k => (Approx.evalP spline Approx.Spectrum.t "CGS" 3 kw k g b.sol.caches).2) ks fun k _ => hans Approx.Spectrum.t k
    rw [es]
    dsimp only
    rw [et]
    dsimp only
    rw [hd]
  · simp [List.map_map, Function.comp_def]
  · intro n hn
    obtain ⟨v, hv⟩ := hget n hn
    rw [lookup_map _ _ hn, hv]
    rfl

/-! ### The property -/

section
variable {fam : ℝ → SRMethods} {phi0 : Option ℝ} {run : ℝ → Option ℝ → Except PyErr Raw} {ks : List ℝ} {p : SRParams}

theorem calculate_ok {st : State} (h : calculate u spline kw solver fam phi0 run ks p = .ok st) :
    ∃ Lambda phi b, slowRoll u (backend u spline kw solver (run phi)) p Lambda = .ok b ∧ report spline kw ks b = .ok st := by
  unfold calculate at h
  split at h
  · cases h
  split at h
  · cases h
  split at h
  · cases h
  exact ⟨_, _, _, by assumption, h⟩

/-- **C70, nothing fails after the loop.**  If the amplitude loop (with its final reheating check) returns a solution, `calculate` returns: both spectra can be evaluated at all `ks`, and every parameter of `get_can_provide_params` is an
attribute of the solution.  So an exception of `calculate` is one of the slow-roll formulae for the starting values, or one described by C58. -/
theorem C70_complete {e : PyErr} (h : calculate u spline kw solver fam phi0 run ks p = .error e) :
    sr_As2Lambda 1 (fam 1) p.A_s none (some p.N_star) = .error e ∨ (fam 1).sr_N2phi 90 = .error e ∨
      ∃ Lambda phi N phi_i, sr_As2Lambda 1 (fam 1) p.A_s none (some p.N_star) = .ok (Lambda, phi, N) ∧ (fam 1).sr_N2phi 90 = .ok phi_i ∧
        slowRoll u (backend u spline kw solver (run (clampPhi phi0 phi_i))) p Lambda = .error e := by
  unfold calculate at h
  split at h
  next e' he => cases h; exact .inl he
  next L phi N hL =>
    split at h
    next e' he => cases h; exact .inr (.inl he)
    next phi_i hphi =>
      split at h
      next e' he => cases h; exact .inr (.inr ⟨L, phi, N, phi_i, hL, hphi, he⟩)
      next b hb =>
        obtain ⟨st, -, -, hst, -⟩ := report_ok ks hb
        rw [hst] at h
        cases h

/-- **C70, the stored state.**  There are two everywhere positive spectra `Ps`, `Pt` such that the stored arrays are their values at `ks`, in order; the derived dictionary has exactly the advertised parameters; its amplitudes, tilts and
runnings are those of `Ps`, `Pt` at the pivot scale; and the scalar amplitude is within `1e-14 + 1e-6 A_s` of the requested one. -/
theorem C70_state {st : State} (h : calculate u spline kw solver fam phi0 run ks p = .ok st) :
    ∃ (Ps Pt : ℝ → ℝ) (P : Approx.PowerParams), (∀ k, 0 < Ps k ∧ 0 < Pt k) ∧ st.Pks = ks.map Ps ∧ st.Pkt = ks.map Pt ∧ st.derived.map Prod.fst = advertised ∧
      Approx.PivotParameters Ps Pt P ∧ |Ps SI.K_STAR - p.A_s| < 1 / 10 ^ 14 + 1 / 10 ^ 6 * p.A_s ∧
      st.derived.lookup "A_s" = some (some P.A_s) ∧ st.derived.lookup "n_s" = some (some P.n_s) ∧ st.derived.lookup "n_run" = some (some P.n_run) ∧
      st.derived.lookup "n_runrun" = some (some P.n_runrun) ∧ st.derived.lookup "A_t" = some (some P.A_t) ∧ st.derived.lookup "n_t" = some (some P.n_t) ∧
      st.derived.lookup "r" = some (some P.r) := by
  obtain ⟨Lambda, phi, b, hb, hr⟩ := calculate_ok h
  obtain ⟨st', S, P, hst, hkeys, hlook, hP, hpiv, h1, h2⟩ := report_ok ks hb
  rw [hr] at hst
  cases hst
  obtain ⟨-, ⟨A, hA, hAs⟩, -⟩ := C58_success hb
  have hA : A = P.A_s := by simp [backend, hP] at hA; exact hA.symm
  refine ⟨Approx.valueOf S Approx.Spectrum.s, Approx.valueOf S Approx.Spectrum.t, P, fun k => ⟨exp_pos _, exp_pos _⟩, h1, h2, hkeys, hpiv, ?_, ?_, ?_, ?_, ?_, ?_, ?_, ?_⟩
  · rw [← hpiv.A_s, ← hA]; exact hAs
  all_goals
    rw [hlook _ (by simp [advertised])]
    simp [getattr, hP]

/-- **C70, reheating.**  Suppose a sampled reheating density is positive, and `V_end > 0` for every solution the integrator returns.  Whenever the reported reheating parameters are numbers they describe one consistent history between the reported
end of inflation and today (`N0 = 0`, `g_th = 100`), with `-1/3 < w_reh < 1`, a non-negative duration, and ending before today. -/
theorem C70_reheating {st : State} (h : calculate u spline kw solver fam phi0 run ks p = .ok st) (hrho : ∀ r, p.rho_reh_GeV = some r → 0 < r)
    (hV : ∀ phi L r I, run phi L = .ok r → r.infl = some I → 0 < I.V_end) {rG w d dm1 : ℝ} (h1 : st.derived.lookup "rho_reh_GeV" = some (some rG))
    (h2 : st.derived.lookup "w_reh" = some (some w)) (h3 : st.derived.lookup "DeltaN_reh" = some (some d)) (h4 : st.derived.lookup "DeltaN_minus1" = some (some dm1)) :
    ∃ V_end N_end N_reh rho, st.derived.lookup "V_end" = some (some V_end) ∧ st.derived.lookup "N_end" = some (some N_end) ∧ st.derived.lookup "N_reh" = some (some N_reh) ∧
      ReheatingHistory u 100 V_end N_end N_reh 0 rG rho w d dm1 ∧ -1 / 3 < w ∧ w < 1 ∧ 0 ≤ d ∧ N_reh ≤ 0 := by
  obtain ⟨Lambda, phi, b, hb, hr⟩ := calculate_ok h
  obtain ⟨st', S, P, hst, -, hlook, -⟩ := report_ok ks hb
  rw [hr] at hst
  cases hst
  obtain ⟨L, N, N', I, p0, a, -, -, -, hrun, hI, hist, hl, -, hcal, hK, hbg, hg⟩ := final hb
  obtain ⟨-, -, hw, hd, hN⟩ := C58_success hb
  rw [hlook _ (by simp [advertised])] at h1 h2 h3 h4
  simp only [getattr] at h1 h2 h3 h4
  obtain ⟨-, -, -, ⟨x, y, k1, k2, k3⟩, c, hc, hN0⟩ := flat_slots hK hbg hcal
  rw [k1] at h1
  cases h1
  obtain ⟨rho, rfl⟩ := Option.isSome_iff_exists.1 (k3 rfl)
  have hV0 : ∀ J, p0.st.infl = some J → 0 < J.V_end := by
    intro J hJ
    have hpos := hV phi L b.raw I hrun hI
    rcases hist.same.infl with k | ⟨I', k, k'⟩
    · rw [k] at hJ
      have : some J = some I := hJ.symm.trans hI
      cases this
      exact hpos
    · have : some I' = some I := k.symm.trans hI
      cases this
      rw [k'] at hJ
      cases hJ
      exact hpos
  have ha : ∀ r, a.rho_reh_GeV = some r → 0 < r := by
    intro r hr'
    cases hl with
    | reheating _ k => cases hr'; exact hrho r k
    | efolds _ _ => exact hrho r hr'
    | tilt _ _ _ => exact hrho r hr'
  have hist' : ∃ J c', p0.st.infl = some J ∧ b.sol.st.cal = some c' ∧ ∃ N_reh, c'.N_reh = some N_reh ∧
      ReheatingHistory u a.g_th J.V_end c'.N_end N_reh c'.N0 rG rho w d dm1 := by
    have hmeth : a.method = "reheating" ∨ a.method = "N_star" := by cases hl <;> simp
    rcases hmeth with hm | hm
    · obtain ⟨J, c', q1, q2, q3⟩ := C35_flat u p0.st b.sol.st a hK hm hbg (by rw [hg]; norm_num) ha hV0 hcal
      exact ⟨J, c', q1, q2, q3 rG rho w d dm1 k1 k2 h2 h3 h4⟩
    · obtain ⟨J, c', q1, q2, q3⟩ := C35_flat_N_star u p0.st b.sol.st a hK hm hbg (by rw [hg]; norm_num) ha hV0 hcal
      exact ⟨J, c', q1, q2, q3 rG rho w d dm1 k1 k2 h2 h3 h4⟩
  obtain ⟨J, c', q1, q2, N_reh, q3, q4⟩ := hist'
  rw [hc] at q2
  cases q2
  obtain ⟨-, -, -, -, J', j1, j2⟩ := calibrate_infl hcal
  rw [q1] at j1
  cases j1
  have j2 : b.sol.st.infl.map Infl.V_end = some J.V_end := by
    rcases j2 with j2 | ⟨bb, hbb, -⟩
    · rw [j2]; rfl
    · rw [hbg] at hbb; cases hbb
  refine ⟨J.V_end, c.N_end, N_reh, rho, ?_, ?_, ?_, ?_, (hw w (by simp [backend, h2])).1, (hw w (by simp [backend, h2])).2, hd d (by simp [backend, h3]), ?_⟩
  · rw [hlook _ (by simp [advertised])]; simp only [getattr, j2]
  · rw [hlook _ (by simp [advertised])]; simp only [getattr, hc, Option.map_some]
  · rw [hlook _ (by simp [advertised])]; simp only [getattr, hc, Option.map_some, q3]
  · rw [← hN0, ← hg]; exact q4
  · have := hN N_reh (by simp [backend, hc, q3])
    simpa [backend, hc, hN0] using this

/-- **C70, the background.**  The reported field, potential and Hubble rate at the end of inflation are those of a solution the integrator returned (for
the starting point and amplitude of the last pass), not of an earlier pass and not altered by the calibration. -/
theorem C70_end {st : State} (h : calculate u spline kw solver fam phi0 run ks p = .ok st) :
    ∃ phi L r I, run phi L = .ok r ∧ r.infl = some I ∧ st.derived.lookup "phi_end" = some (some r.phi_end) ∧
      st.derived.lookup "V_end" = some (some I.V_end) ∧ st.derived.lookup "H_end" = some (some I.H_end) := by
  obtain ⟨Lambda, phi, b, hb, hr⟩ := calculate_ok h
  obtain ⟨st', S, P, hst, -, hlook, -⟩ := report_ok ks hb
  rw [hr] at hst
  cases hst
  obtain ⟨L, N, N', I, p0, a, -, -, -, hrun, hI, hist, hl, -, hcal, hK, hbg, -⟩ := final hb
  have h0 : ∃ J, p0.st.infl = some J ∧ J.V_end = I.V_end ∧ J.H_end = I.H_end := by
    rcases hist.same.infl with k | ⟨I', k, k'⟩
    · exact ⟨I, k.trans hI, rfl, rfl⟩
    · have : some I' = some I := k.symm.trans hI
      cases this
      exact ⟨_, k', rfl, rfl⟩
  obtain ⟨J, j0, jV, jH⟩ := h0
  obtain ⟨-, -, -, -, J', j1, j2⟩ := calibrate_infl hcal
  have hf : ∃ J, b.sol.st.infl = some J ∧ J.V_end = I.V_end ∧ J.H_end = I.H_end := by
    rw [j0] at j1
    cases j1
    rcases j2 with j2 | ⟨bb, hbb, -⟩
    · exact ⟨_, j2, jV, jH⟩
    · rw [hbg] at hbb; cases hbb
  obtain ⟨J, hf, hV, hH⟩ := hf
  refine ⟨phi, L, b.raw, I, hrun, hI, ?_, ?_, ?_⟩ <;> rw [hlook _ (by simp [advertised])] <;> simp [getattr, hf, hV, hH]

/-- **C70, what was requested is what is reported.**  A sampled reheating density is reported unchanged; a sampled `w_reh` together with it too; without a density the three reheating parameters and the end of reheating are NaN
(whatever `w_reh` was sampled); and `N_star` is the requested one unless it is superseded by a requested tilt or by a complete reheating scenario. -/
theorem C70_requested {st : State} (h : calculate u spline kw solver fam phi0 run ks p = .ok st) :
    (∀ rho, p.rho_reh_GeV = some rho → st.derived.lookup "rho_reh_GeV" = some (some rho)) ∧
    (∀ w rho, p.w_reh = some w → p.rho_reh_GeV = some rho → st.derived.lookup "w_reh" = some (some w)) ∧
    (p.rho_reh_GeV = none → st.derived.lookup "rho_reh_GeV" = some none ∧ st.derived.lookup "w_reh" = some none ∧ st.derived.lookup "DeltaN_reh" = some none ∧
      st.derived.lookup "N_reh" = some none) ∧
    (p.n_s = none → p.w_reh = none ∨ p.rho_reh_GeV = none → st.derived.lookup "N_star" = some (some p.N_star)) := by
  obtain ⟨Lambda, phi, b, hb, hr⟩ := calculate_ok h
  obtain ⟨st', S, P, hst, -, hlook, -⟩ := report_ok ks hb
  rw [hr] at hst
  cases hst
  obtain ⟨L, N, N', I, p0, a, -, -, hN, -, -, -, hl, -, hcal, hK, hbg, -⟩ := final hb
  obtain ⟨k1, k2, k3, k4⟩ := flat_given hK hl hcal
  refine ⟨fun rho hrho => ?_, fun w rho hw hrho => ?_, fun hrho => ?_, fun hn hor => ?_⟩
  · rw [hlook _ (by simp [advertised])]; exact k1 rho hrho
  · rw [hlook _ (by simp [advertised])]; exact k2 w rho hw hrho
  · obtain ⟨m1, m2, m3, c, hc, m4⟩ := k3 hrho
    refine ⟨?_, ?_, ?_, ?_⟩ <;> rw [hlook _ (by simp [advertised])]
    · exact m1
    · exact m2
    · exact m3
    · simp only [getattr, hc, Option.map_some, m4]
  · rw [hlook _ (by simp [advertised])]
    cases hl with
    | reheating hw hrho =>
      rcases hor with q | q
      · rw [hw] at q; cases q
      · rw [hrho] at q; cases q
    | efolds _ _ =>
      obtain ⟨c, hc, hns⟩ := k4 N rfl rfl
      simp only [getattr, hc, Option.map_some, hns, hN hn]
    | tilt _ _ hn' => rw [hn] at hn'; cases hn'

/-- **C70, a requested tilt.**  If the root finder is correct on the solutions the integrator returns (and their grids do not repeat values of `aH`), a requested `n_s` -- without a complete reheating scenario -- is the one reported, and the
reported `N_star` lies between 20 and some `N_max` not above the requested `N_star`. -/
theorem C70_tilt {st : State} (h : calculate u spline kw solver fam phi0 run ks p = .ok st) {n_s : ℝ} (hn : p.n_s = some n_s)
    (hor : p.w_reh = none ∨ p.rho_reh_GeV = none)
    (hgrid : ∀ phi L r, run phi L = .ok r → Approx.SimpleGrid (fresh r).st)
    (hsolver : ∀ phi L r hi, run phi L = .ok r → Approx.FindsRoots (Approx.nsDev u spline r.sr kw n_s (fresh r).st) solver 20 hi) :
    st.derived.lookup "n_s" = some (some n_s) ∧ ∃ N_star N_max, st.derived.lookup "N_star" = some (some N_star) ∧ N_max ≤ p.N_star ∧
      N_star ∈ Set.uIcc 20 N_max := by
  obtain ⟨Lambda, phi, b, hb, hr⟩ := calculate_ok h
  obtain ⟨st', S, P, hst, -, hlook, -⟩ := report_ok ks hb
  rw [hr] at hst
  cases hst
  obtain ⟨L, N, N', I, p0, a, hpass, hdrift, -⟩ := final hb
  obtain ⟨r, q0, hrun, rfl, hist, hle, hset⟩ := pass_tilt hpass hor hn
  have hg := hgrid _ _ _ hrun
  have hs := hsolver _ _ _ N' hrun
  have hK : (fresh b.raw).st.K = 0 := rfl
  obtain ⟨r1, r2, r3⟩ := (Approx.C41_set_ns_refuses u spline b.raw.sr kw n_s 20 N' p.rho_reh_GeV (fresh b.raw).st hg solver q0 hist).2 hK
  cases h1 : Approx.nsDev u spline b.raw.sr kw n_s (fresh b.raw).st 20 with
  | error e => rw [r1 e h1] at hset; cases hset
  | ok d1 =>
    cases h2 : Approx.nsDev u spline b.raw.sr kw n_s (fresh b.raw).st N' with
    | error e => rw [r2 e d1 h1 h2] at hset; cases hset
    | ok d2 =>
      have hsign : d1 * d2 ≤ 0 := by
        by_contra hpos
        obtain ⟨m, hm⟩ := r3 d1 d2 h1 h2 (not_le.1 hpos)
        rw [hm] at hset
        cases hset
      obtain ⟨q, c, P', g, e1, e2, e3, e4, e5, -⟩ := Approx.C41_set_ns u spline b.raw.sr kw n_s 20 N' p.rho_reh_GeV (fresh b.raw).st hK hg solver hs q0 hist d1 d2 h1 h2 hsign
      rw [hset] at e1
      cases e1
      refine ⟨?_, c.N_star, N', ?_, hle.trans hdrift, e5⟩
      · rw [hlook _ (by simp [advertised])]; simp only [getattr, e3, Option.map_some, e4]
      · rw [hlook _ (by simp [advertised])]; simp only [getattr, e2, Option.map_some]


/-- **C70, the starting point of natural inflation.**  The guard `phi_i > phi0` never acts: the integration starts strictly between the end of inflation and the hilltop `phi0`, at the field from which slow-roll gives 90 e-folds. -/
theorem C70_start_natural {f : ℝ} (hf : 0 < f) : ∃ phi_i, (Natural.sr f 1).sr_N2phi 90 = .ok phi_i ∧ clampPhi (some f) phi_i = phi_i ∧
    (⟨1, f⟩ : Natural).phi_end < phi_i ∧ phi_i < f ∧ (Natural.sr f 1).sr_phi2N phi_i = .ok 90 := by
  have h := C07_natural ⟨1, f⟩ hf
  have hm := h.mapsFrom 90 (Set.mem_Ici.2 (by norm_num))
  have hr := h.right 90 (Set.mem_Ici.2 (by norm_num))
  refine ⟨(⟨1, f⟩ : Natural).sr_N2phi 90, rfl, ?_, ?_, hm.2, ?_⟩
  · exact if_neg (not_lt.2 hm.2.le)
  · refine lt_of_le_of_ne hm.1 fun he => ?_
    rw [← he] at hr
    simp [Natural.sr_phi2N] at hr
  · exact congrArg Except.ok hr

/-- **C70, the starting point of the double well.**  If the tabulated inverse answers at all, the guard does not act and the field starts strictly between the minimum at 0 and the hilltop `phi0`. -/
theorem C70_start_doublewell (root : RootScalar) {f q phi_i : ℝ} (hf : 0 < f) (hq : 0 < q) (h : (DoubleWell.sr root f q 1).sr_N2phi 90 = .ok phi_i) :
    clampPhi (some f) phi_i = phi_i ∧ 0 < phi_i ∧ phi_i < f := by
  have h' : ∃ φe, (⟨1, f, q⟩ : DoubleWell).sr_N2phi φe 90 = .ok phi_i := by
    simp only [DoubleWell.sr] at h
    cases he : (⟨1, f, q⟩ : DoubleWell).phi_end root with
    | error e => rw [he] at h; cases h
    | ok φe => rw [he] at h; exact ⟨φe, h⟩
  obtain ⟨φe, h'⟩ := h'
  obtain ⟨a, b⟩ := C07_doublewell_range ⟨1, f, q⟩ φe hf hq h'
  have k1 : 0 < phi_i := lt_of_lt_of_le (by positivity) a
  have k2 : phi_i < f := lt_of_le_of_lt b (by rw [div_lt_iff₀ (by norm_num)]; dsimp only; linarith)
  exact ⟨if_neg (not_lt.2 k2.le), k1, k2⟩

end

/-! ### Hypotheses met -/

/-- If one pass with given arguments calibrates, and the final check passes, `calculate` succeeds for a suitable target amplitude (and then reports the attributes of that solution). -/
theorem demo_ok {r : Raw} {p0 : SRParams} {b : Obj} {N' : ℝ} {P : Approx.PowerParams} (phi0 : Option ℝ) (ks : List ℝ) (hs : r.success = true) (hi : r.infl.isSome)
    (hrho : ¬ ∃ rho, p0.rho_reh_GeV = some rho ∧ rho_end_GeV u (backend u spline kw solver fun _ => .ok r) ⟨r, fresh r⟩ < rho)
    (hstep : calibrateStep (backend u spline kw solver fun _ => .ok r) p0 p0.N_star ⟨r, fresh r⟩ = .ok (b, N')) (hP : b.sol.pars = some P) (hA : 0 < P.A_s)
    (hfin : (∀ w, b.sol.st.sticky.w_reh = some (some w) → -1 / 3 < w ∧ w < 1) ∧ (∀ d, b.sol.st.sticky.DeltaN_reh = some (some d) → 0 ≤ d) ∧
      ∀ c n, b.sol.st.cal = some c → c.N_reh = some n → n ≤ c.N0) :
    ∃ A st, calculate u spline kw solver (Monomial.sr 2) phi0 (fun _ _ => .ok r) ks { p0 with A_s := A } = .ok st ∧ ∀ n ∈ advertised, st.derived.lookup n = getattr b n := by
  have hI : ∃ I, r.infl = some I := Option.isSome_iff_exists.1 hi
  obtain ⟨I, hI⟩ := hI
  have hpass : ∀ L, pass u (backend u spline kw solver fun _ => .ok r) { p0 with A_s := P.A_s } L p0.N_star = .ok (b, N') := by
    intro L
    unfold pass
    have hsol : (backend u spline kw solver fun _ => .ok r).solve L = .ok ⟨r, fresh r⟩ := by
      simp [backend, hI]
    rw [hsol]
    dsimp only
    rw [if_neg (by simp [backend, hs]), if_neg hrho]
    exact hstep
  have hsr : ∀ L, slowRoll u (backend u spline kw solver fun _ => .ok r) { p0 with A_s := P.A_s } L = .ok b := by
    intro L
    unfold slowRoll shoot
    dsimp only
    rw [hpass (some L)]
    dsimp only
    have hAs : (backend u spline kw solver fun _ => .ok r).A_s b = some P.A_s := by simp [backend, hP]
    rw [if_pos ⟨P.A_s, hAs, by rw [sub_self, abs_zero]; positivity⟩]
    dsimp only
    rw [if_neg]
    obtain ⟨f1, f2, f3⟩ := hfin
    have hw : ∀ x, (backend u spline kw solver fun _ => .ok r).w_reh b = some x → b.sol.st.sticky.w_reh = some (some x) := by
      intro x hx
      have hx : b.sol.st.sticky.w_reh.join = some x := hx
      exact Option.join_eq_some_iff.1 hx
    rintro (⟨x, y, h1, h2, h3⟩ | ⟨x, y, h1, h2, h3⟩ | ⟨x, y, h1, h2, h3⟩ | ⟨x, y, h1, h2, h3⟩)
    · cases h2; linarith [(f1 x (hw x h1)).1]
    · cases h1; linarith [(f1 y (hw y h2)).2]
    · cases h2
      have h1 : b.sol.st.sticky.DeltaN_reh.join = some x := h1
      linarith [f2 x (Option.join_eq_some_iff.1 h1)]
    · cases h1
      have h2 : b.sol.st.cal.bind Calib.N_reh = some y := h2
      obtain ⟨c, hc, hn⟩ := Option.bind_eq_some_iff.1 h2
      have := f3 c y hc hn
      have e : (backend u spline kw solver fun _ => .ok r).N0 b = c.N0 := by simp [backend, hc]
      rw [e] at h3
      linarith
  have hc : ∃ L, calculate u spline kw solver (Monomial.sr 2) phi0 (fun _ _ => .ok r) ks { p0 with A_s := P.A_s } =
      (match slowRoll u (backend u spline kw solver (fun _ => .ok r)) { p0 with A_s := P.A_s } L with
      | .error e => .error e
      | .ok b => report spline kw ks b) := ⟨_, rfl⟩
  obtain ⟨L, hc⟩ := hc
  rw [hsr L] at hc
  obtain ⟨st, S, P', hst, -, hlook, -⟩ := report_ok ks (hsr L)
  exact ⟨P.A_s, st, hc.trans hst, hlook⟩

/-- An integrated solution with 100 e-folds. -/
noncomputable def demoRaw (e : ℝ) : Raw where
  success := true
  N := [0, 10, 90, 100]
  logaH := [0, 10, 90, 100]
  H := [1, 1, 1, 1]
  infl := some ⟨0, 100, 100, 1, 1, 0, 100, [false, true, true, false]⟩
  phi_end := 1
  dphidt_last := 1
  V_last := 1
  sr := Approx.toySR e

theorem demoRaw_interp (x : ℝ) (h1 : 10 ≤ x) (h2 : x ≤ 90) : interpL [10, 90] [10, 90] x = .ok x := by
  rw [interpL_sorted (by simp; norm_num)]
  simp only [List.zip_cons_cons, List.zip_nil_right, interpSorted]
  rw [if_neg (by linarith), if_pos h2]
  congr 1; norm_num

theorem demoRaw_outside (x : ℝ) (h : x < 10 ∨ 90 < x) : ∃ e, interpL [10, 90] [10, 90] x = .error e := by
  rw [interpL_sorted (by simp; norm_num)]
  simp only [List.zip_cons_cons, List.zip_nil_right, interpSorted]
  by_cases h1 : x < 10
  · exact ⟨_, if_pos h1⟩
  · rw [if_neg h1, if_neg (by rcases h with h | h <;> linarith)]
    exact ⟨_, rfl⟩

theorem demoRaw_simple (e : ℝ) : Approx.SimpleGrid (fresh (demoRaw e)).st := by
  intro I hI
  simp only [fresh, demoRaw, Option.some.injEq] at hI
  subst hI
  refine ⟨rfl, ?_⟩
  intro i hi j hj
  rcases i with _ | _ | _ | _ | i <;> rcases j with _ | _ | _ | j <;>
    simp_all [fresh, demoRaw] <;> omega

/-- Calibrating it with `10 ≤ N_star ≤ 90`. -/
theorem demoRaw_grid (u : SI) (e x : ℝ) (h1 : 10 ≤ x) (h2 : x ≤ 90) : ∃ s c I,
    Cal.calibrate u (fresh (demoRaw e)).st { method := "N_star", N_star := some x } = .ok s ∧ s.cal = some c ∧ s.infl = some I ∧
    c.N_cross_ = 100 - x ∧ c.logk = [10 + log SI.K_STAR - (100 - x), 90 + log SI.K_STAR - (100 - x)] ∧
    I.mask = [false, true, true, false] ∧ s.sticky.w_reh = some none ∧ s.sticky.DeltaN_reh = some none ∧ c.N_reh = none := by
  have hi := demoRaw_interp (100 - x) (by linarith) (by linarith)
  have hsel : ∃ δ I st, Cal.flatSel u (fresh (demoRaw e)).st { method := "N_star", N_star := some x } =
      .ok (x, 100 - x, 100 - x, δ, none, I, st) ∧ I.mask = [false, true, true, false] ∧ st.w_reh = some none ∧ st.DeltaN_reh = some none := by
    unfold Cal.flatSel Cal.flatNstar
    dsimp only
    rw [if_pos rfl, if_neg (by linarith)]
    simp only [fresh, demoRaw, maskSel, List.zip_cons_cons, List.zip_nil_right, List.filterMap_cons,
      Bool.false_eq_true, if_false, if_true, List.filterMap_nil]
    rw [if_neg (by linarith), hi]
    exact ⟨_, _, _, rfl, rfl, rfl, rfl⟩
  obtain ⟨δ, I, st, hsel, hI, k1, k2⟩ := hsel
  have hm : andMask [false, true, true, false] (firstOccurrence ((fresh (demoRaw e)).st.logaH.map fun l => l + log SI.K_STAR - (100 - x))) =
      [false, true, true, false] := by
    rw [flat_mask]
    refine andMask_firstOccurrence rfl ?_
    intro i hi j hj
    rcases i with _ | _ | _ | _ | i <;> rcases j with _ | _ | _ | j <;>
      simp_all [fresh, demoRaw] <;> omega
  refine ⟨_, _, _, Cal.calibrate_flat_intro rfl rfl hsel, rfl, rfl, rfl, ?_, ?_, k1, k2, rfl⟩
  · simp only [Cal.flatPart, hI]
    rw [hm]
    simp [fresh, demoRaw, maskSel]
  · simp only [Cal.flatPart, hI]
    exact hm

/-- Its tilt is linear in `N_star`. -/
theorem demoRaw_nsDev {e : ℝ} (h1 : 0 < Approx.Ps0 ⟨1, e, 0, 0, 0, 0, 0, 0, 0⟩ * Approx.cgsS 3 ⟨1, e, 0, 0, 0, 0, 0, 0, 0⟩)
    (h2 : 0 < Approx.Pt0 ⟨1, e, 0, 0, 0, 0, 0, 0, 0⟩ * Approx.cgsT 3 ⟨1, e, 0, 0, 0, 0, 0, 0, 0⟩) (n_s x : ℝ) (hx1 : 10 ≤ x)
    (hx2 : x ≤ 90) : Approx.nsDev u Approx.toySpline (Approx.toySR e) () n_s (fresh (demoRaw e)).st x = .ok (x - 89 + log SI.K_STAR - n_s) := by
  obtain ⟨s, c, I, hc, k1, k2, k3, k4, k5, -⟩ := demoRaw_grid u e x hx1 hx2
  obtain ⟨g, q, e1, e2, e3, e4⟩ := Approx.calibrateP_CGS u Approx.toySpline (Approx.toySR e) (p := ⟨(fresh (demoRaw e)).st, Approx.Caches.empty, none⟩) () rfl hc
  unfold Approx.nsDev Approx.nsObjective
  rw [e2]
  dsimp only
  rw [e4]
  dsimp only [Except.map]
  unfold Approx.gridOf at e1
  rw [k2, k1] at e1
  dsimp only at e1
  rw [k4, k5] at e1
  simp only [Approx.toySR, List.replicate, maskSel, List.zip_cons_cons, List.zip_nil_right, List.filterMap_cons,
    Bool.false_eq_true, if_false, if_true, List.filterMap_nil, Option.some.injEq] at e1
  have hs : (Approx.specCGS Approx.toySpline () 3 g).s = fun y => (10 + log SI.K_STAR - (100 - x)) * y := by
    subst e1
    funext y
    simp [Approx.specCGS, Approx.fit, Approx.logTable, h1, h2, Approx.toySpline]
  simp only [Approx.params, hs, iteratedDeriv_one, deriv_const_mul_id']
  simp
  ring

/-- Outside that range the tilt cannot be evaluated. -/
theorem demoRaw_nsDev_ok {e n_s x d : ℝ} (h : Approx.nsDev u Approx.toySpline (Approx.toySR e) () n_s (fresh (demoRaw e)).st x = .ok d) : 10 ≤ x ∧ x ≤ 90 := by
  by_contra hc
  have hout : 100 - x < 10 ∨ 90 < 100 - x := by
    by_contra h'
    push Not at h'
    exact hc ⟨by linarith, by linarith⟩
  obtain ⟨err, he⟩ := demoRaw_outside (100 - x) hout
  obtain ⟨a, ha, -⟩ := exceptMap_ok h
  have hcal := calibrateP_st (hb := rfl) (nsObjective_calibrates (q := a.1) (d := a.2) ha)
  obtain ⟨p, hp, -⟩ := Cal.calibrate_flat (by rfl) hcal
  obtain ⟨-, ns, nc, ls, δ, nr, I, st, hs, -⟩ := Cal.flat_ok hp
  unfold Cal.flatSel Cal.flatNstar at hs
  dsimp only at hs
  rw [if_pos rfl] at hs
  by_cases c1 : x ≤ 0
  · rw [if_pos c1] at hs; cases hs
  rw [if_neg c1] at hs
  simp only [fresh, demoRaw, maskSel, List.zip_cons_cons, List.zip_nil_right, List.filterMap_cons,
      Bool.false_eq_true, if_false, if_true, List.filterMap_nil] at hs
  by_cases c2 : (100 : ℝ) < x
  · rw [if_pos c2] at hs; cases hs
  rw [if_neg c2, he] at hs
  cases hs

/-- Hypotheses of `C70_state` and `C70_requested` met: no tilt, no reheating parameters, `N_star = 75`. -/
example (ks : List ℝ) : ∃ (e A : ℝ) (st : State), calculate u Approx.toySpline () solver (Monomial.sr 2) none (fun _ _ => .ok (demoRaw e)) ks { A_s := A } = .ok st ∧
    st.derived.lookup "N_star" = some (some 75) := by
  obtain ⟨s, c, I, hc, k1, k2, k3, k4, k5, k6, k7, k8⟩ := demoRaw_grid u 1 75 (by norm_num) (by norm_num)
  obtain ⟨g, q, e1, e2, e3, e4⟩ := Approx.calibrateP_CGS u Approx.toySpline (demoRaw 1).sr (p := fresh (demoRaw 1)) () rfl hc
  obtain ⟨A, st, h, -⟩ := demo_ok (u := u) (spline := Approx.toySpline) (kw := ()) (solver := solver) (r := demoRaw 1) (p0 := { A_s := 0 }) (b := ⟨demoRaw 1, q⟩) (N' := 75)
    (P := Approx.params (Approx.specCGS Approx.toySpline () 3 g)) none ks rfl rfl
    (by rintro ⟨_, h, -⟩; cases h)
    (by
      simp only [calibrateStep, backend]
      rw [e2]
      rfl) e4 (exp_pos _)
    ⟨fun w hw => (by rw [e3, k6] at hw; cases hw), fun d hd => (by rw [e3, k7] at hd; cases hd), fun c' n hc' hn => (by rw [e3, k1] at hc'; cases hc'; rw [k8] at hn; cases hn)⟩
  exact ⟨1, A, st, h, (C70_requested h).2.2.2 rfl (.inl rfl)⟩

/-- Hypotheses of `C70_tilt` met. -/
example (ks : List ℝ) : ∃ (e A n_s : ℝ) (st : State) (solver : Approx.PSol → ℝ → ℝ → List ℝ × ℝ),
    calculate u Approx.toySpline () solver (Monomial.sr 2) none (fun _ _ => .ok (demoRaw e)) ks { A_s := A, n_s := some n_s } = .ok st ∧
    Approx.SimpleGrid (fresh (demoRaw e)).st ∧
    ∀ hi, Approx.FindsRoots (Approx.nsDev u Approx.toySpline (demoRaw e).sr () n_s (fresh (demoRaw e)).st) solver 20 hi := by
  obtain ⟨e, -, h1, h2⟩ := Approx.toy_positive
  have hdev := fun x a b => demoRaw_nsDev (u := u) h1 h2 (-39 + log SI.K_STAR) x a b
  have hfind : ∀ hi, Approx.FindsRoots (Approx.nsDev u Approx.toySpline (demoRaw e).sr () (-39 + log SI.K_STAR) (fresh (demoRaw e)).st)
      (fun _ _ _ => ([], 50)) 20 hi := by
    intro hi p d1 d2 k1 k2 k3
    obtain ⟨b1, b2⟩ := demoRaw_nsDev_ok k2
    have k1' : Except.ok d1 = Except.ok _ := k1.symm.trans (hdev 20 (by norm_num) (by norm_num))
    have k2' : Except.ok d2 = Except.ok _ := k2.symm.trans (hdev hi b1 b2)
    injection k1' with k1'
    injection k2' with k2'
    have : 50 ≤ hi := by
      by_contra hlt
      push Not at hlt
      have : 0 < d1 * d2 := mul_pos_of_neg_of_neg (by linarith) (by linarith)
      linarith
    refine ⟨by simp, ?_, ?_⟩
    · rw [Set.uIcc_of_le (by linarith)]
      exact ⟨by norm_num, this⟩
    · refine (hdev 50 (by norm_num) (by norm_num)).trans ?_
      congr 1; ring
  obtain ⟨s, c, I, hc, k1, k2, k3, k4, k5, k6, k7, k8⟩ := demoRaw_grid u e 75 (by norm_num) (by norm_num)
  obtain ⟨g, q, e1, e2, e3, e4⟩ := Approx.calibrateP_CGS u Approx.toySpline (demoRaw e).sr (p := fresh (demoRaw e)) () rfl hc
  have hist : CalHistory u (fresh (demoRaw e)).st q.st := calibrateP_hist rfl e2 .fresh
  obtain ⟨q', c', P', g', f1, f2, f3, f4, f5, -⟩ := Approx.C41_set_ns u Approx.toySpline (demoRaw e).sr () (-39 + log SI.K_STAR) 20 75 none (fresh (demoRaw e)).st rfl (demoRaw_simple e)
    _ (hfind 75) q hist _ _ (hdev 20 (by norm_num) (by norm_num)) (hdev 75 (by norm_num) (by norm_num)) (by nlinarith)
  obtain ⟨p0, x, m1, m2⟩ := setNs_last f1 hist
  have hK0 : p0.st.K = 0 := m1.same.K
  obtain ⟨-, -, t3, -⟩ := flat_given (p := { A_s := 0, n_s := some (-39 + log SI.K_STAR) }) (N := 75) hK0 (.tilt x (.inl rfl) rfl) (calibrateP_st rfl m2)
  obtain ⟨-, t4, t5, c'', t6, t7⟩ := t3 rfl
  obtain ⟨A, st, h, -⟩ := demo_ok (u := u) (spline := Approx.toySpline) (kw := ()) (solver := fun _ _ _ => ([], 50)) (r := demoRaw e)
    (p0 := { A_s := 0, n_s := some (-39 + log SI.K_STAR) }) (b := ⟨demoRaw e, q'⟩) (N' := 75) (P := P') none ks rfl rfl
    (by rintro ⟨_, h, -⟩; cases h)
    (by
      have hmin : min (75 : ℝ) (((fresh (demoRaw e)).st.infl).elim 0 Infl.N_tot - 0.1) = 75 := by
        simp only [fresh, demoRaw, Option.elim]
        exact min_eq_left (by norm_num)
      simp only [calibrateStep, backend]
      rw [hmin, e2]
      dsimp only [Except.map]
      rw [f1]) f3
    (by
      obtain ⟨g2, q2, -, n2, -, n4⟩ := Approx.calibrateP_CGS u Approx.toySpline (demoRaw e).sr () rfl (calibrateP_st rfl m2)
      have hq : q' = q2 := by
        have := m2.symm.trans n2
        injection this
      rw [← hq, f3] at n4
      injection n4 with n4
      rw [n4]
      exact exp_pos _)
    ⟨fun w hw => (by rw [t4] at hw; cases hw), fun d hd => (by rw [t5] at hd; cases hd), fun c' n hc' hn => (by rw [t6] at hc'; cases hc'; rw [t7] at hn; cases hn)⟩
  exact ⟨e, A, _, st, _, h, demoRaw_simple e, hfind⟩

/-- An integrated solution whose end has the density `3/2 V`, and whose comoving Hubble rate passes `exp x`. -/
noncomputable def demoReh (V x : ℝ) : Raw where
  success := true
  N := [0, 1, 2, 3]
  logaH := [x - 2, x - 1, x + 1, x + 2]
  H := [1, 1, 1, 1]
  infl := some ⟨0, 3, 3, V, 1, x - 2, x + 2, [false, true, true, false]⟩
  phi_end := 1
  dphidt_last := 0
  V_last := 3 * (3 / 2 * V * exp (-3))
  sr := Approx.toySR 1

/-- Hypotheses of `C70_reheating` met: matter-like reheating (`w_reh = 0`) of one e-fold. -/
example (ks : List ℝ) : ∃ (V x rho A dm1 : ℝ) (st : State), 0 < V ∧ 0 < rho ∧
    calculate u spline kw solver (Monomial.sr 2) none (fun _ _ => .ok (demoReh V x)) ks { A_s := A, rho_reh_GeV := some rho, w_reh := some 0 } = .ok st ∧
    st.derived.lookup "rho_reh_GeV" = some (some rho) ∧ st.derived.lookup "w_reh" = some (some 0) ∧ st.derived.lookup "DeltaN_reh" = some (some 1) ∧
    st.derived.lookup "DeltaN_minus1" = some (some dm1) := by
  obtain ⟨V, hVdef⟩ : ∃ V, V = u.T_CMB_Tp ^ 4 * exp (4 * (2 - Cal.logg 100)) := ⟨_, rfl⟩
  have hT := Cal.T_CMB_pos u
  have hV : 0 < V := by rw [hVdef]; positivity
  have hlog : log (V / u.T_CMB_Tp ^ 4) = 4 * (2 - Cal.logg 100) := by
    rw [hVdef, mul_div_cancel_left₀ _ (by positivity), log_exp]
  obtain ⟨y, hy⟩ : ∃ y, y = 3 / 2 * V * exp (-3) := ⟨_, rfl⟩
  have hy0 : 0 < y := by rw [hy]; positivity
  obtain ⟨rho, hrho⟩ : ∃ rho, rho = Cal.toGeV u y := ⟨_, rfl⟩
  have hrho0 : 0 < rho := by rw [hrho]; exact Cal.toGeV_pos u hy0
  have hpl : Cal.toPlanck u rho = y := by rw [hrho]; exact Cal.toPlanck_toGeV u hy0.le
  have hdN : log (3 / 2 * V / Cal.toPlanck u rho) / (3 * (1 + 0)) = 1 := by
    have : 3 / 2 * V / Cal.toPlanck u rho = exp 3 := by
      rw [hpl, hy, exp_neg]; field_simp
    rw [this, log_exp]; norm_num
  obtain ⟨x, hx⟩ : ∃ x, x = 0 + log u.K_STAR_lp - (-2 - 1 / 4 - 3) := ⟨_, rfl⟩
  obtain ⟨a, ha⟩ : ∃ a : CalArgs, a = { method := "reheating", rho_reh_GeV := some rho, w_reh := some 0 } := ⟨_, rfl⟩
  have hreh : Cal.flatReh u ⟨0, 3, 3, V, 1, x - 2, x + 2, [false, true, true, false]⟩ (-2) a (fresh (demoReh V x)).st.sticky =
      .ok (-2 - 1 / 4, some 1, ⟨none, some (some rho), some (some (Cal.toPlanck u rho)), some (some 0), some (some 1), some (some (1 / 4))⟩) := by
    have hin : is_instant_reheating none (some rho) (some 0) none none = .ok false := by
      refine (C32_table none (some rho) (some 0) none none).2.2.1.2 (.inr ⟨.inl ⟨rho, rfl⟩, ?_⟩)
      simp [SaysInstant]
    unfold Cal.flatReh
    rw [ha]
    dsimp only
    rw [hin]
    dsimp only
    rw [hdN]
    norm_num [fresh]
  have hsel : Cal.flatSel u (fresh (demoReh V x)).st a =
      .ok (3 - 3 / 2, 3 / 2, x, -2 - 1 / 4 - 3, some (3 + 1), ⟨0, 3, 3, V, 1, x - 2, x + 2, [false, true, true, false]⟩,
        ⟨none, some (some rho), some (some (Cal.toPlanck u rho)), some (some 0), some (some 1), some (some (1 / 4))⟩) := by
    unfold Cal.flatSel
    rw [show a.background = none by rw [ha]]
    dsimp only
    rw [if_neg (by rw [ha]; simp), if_pos (by rw [ha])]
    unfold Cal.flatReheating
    rw [if_neg (by rw [ha]; simp [Cal.badReheating]), show (fresh (demoReh V x)).st.infl = some
      ⟨0, 3, 3, V, 1, x - 2, x + 2, [false, true, true, false]⟩ from rfl]
    dsimp only
    have hend : 0 - Cal.logg a.g_th - log (V / u.T_CMB_Tp ^ 4) / 4 = -2 := by
      rw [hlog, ha]; ring
    rw [hend, hreh]
    dsimp only
    rw [← hx, if_neg (by rintro (h | h) <;> linarith)]
    simp only [fresh, demoReh, maskSel, List.zip_cons_cons, List.zip_nil_right, List.filterMap_cons,
      Bool.false_eq_true, if_false, if_true, List.filterMap_nil]
    rw [demoAt_interp]
    rfl
  have hc := Cal.calibrate_flat_intro (s := (fresh (demoReh V x)).st) rfl (by rw [ha]) hsel
  obtain ⟨g, q, e1, e2, e3, e4⟩ := Approx.calibrateP_CGS u spline (demoReh V x).sr (p := fresh (demoReh V x)) kw (by rw [ha]) hc
  obtain ⟨A, st, h, hl⟩ := demo_ok (u := u) (spline := spline) (kw := kw) (solver := solver) (r := demoReh V x)
    (p0 := { A_s := 0, rho_reh_GeV := some rho, w_reh := some 0 }) (b := ⟨demoReh V x, q⟩) (N' := 75)
    (P := Approx.params (Approx.specCGS spline kw 3 g)) none ks rfl rfl
    (by
      rintro ⟨r, hr, hlt⟩
      cases hr
      have : rho_end_GeV u (backend u spline kw solver fun _ => .ok (demoReh V x)) ⟨demoReh V x, fresh (demoReh V x)⟩ = rho := by
        rw [hrho, Cal.toGeV, hy]
        simp only [rho_end_GeV, backend, demoReh]
        congr 3
        ring
      rw [this] at hlt
      exact lt_irrefl _ hlt)
    (by
      simp only [calibrateStep, backend]
      rw [← ha, e2]
      rfl) e4 (exp_pos _)
    ⟨fun w hw => (by rw [e3] at hw; cases hw; norm_num), fun d hd => (by rw [e3] at hd; cases hd; norm_num),
      fun c' n hc' hn => (by
        rw [e3] at hc'
        cases hc'
        simp only [Cal.flatPart, Option.map_some, Option.some.injEq] at hn ⊢
        linarith)⟩
  refine ⟨V, x, rho, A, 1 / 4, st, hV, hrho0, h, ?_, ?_, ?_, ?_⟩ <;> rw [hl _ (by simp [advertised])] <;> simp only [getattr, e3] <;> rfl

/-- Hypotheses of `C70_start_doublewell` met. -/
example : ∃ (root : RootScalar) (f phi_i : ℝ), 0 < f ∧ (DoubleWell.sr root f 2 1).sr_N2phi 90 = .ok phi_i := by
  have hl : 3 / 8 < log 2 := by linarith [log_two_gt_d9]
  obtain ⟨c, hc⟩ : ∃ c, c = log 2 / 4 - 3 / 32 := ⟨_, rfl⟩
  have hc0 : 0 < c := by rw [hc]; linarith
  obtain ⟨f, hf, hf2⟩ : ∃ f : ℝ, 0 < f ∧ f ^ 2 = 90 / c := ⟨√(90 / c), by positivity, sq_sqrt (by positivity)⟩
  have h := (C07_doublewell_partial ⟨1, f, 2⟩ 0 hf two_pos).1 49999 (by norm_num)
  have hphi : (⟨1, f, 2⟩ : DoubleWell).phis 49999 = f / 2 := by simp only [DoubleWell.phis]; push_cast; ring
  have hN : (⟨1, f, 2⟩ : DoubleWell).sr_phi2N 0 (f / 2) = 90 := by
    unfold DoubleWell.sr_phi2N
    rw [if_pos rfl]
    dsimp only
    have e : log (f - f / 2) = log f - log 2 := by rw [← log_div hf.ne' two_ne_zero]; congr 1; ring
    rw [e, sub_zero]
    have : f ^ 2 * (-(log f - log 2) + log f) / 4 + (f - f / 2) ^ 2 / 8 - f ^ 2 / 8 = f ^ 2 * c := by rw [hc]; ring
    rw [this, hf2, div_mul_cancel₀ _ hc0.ne']
  rw [hphi, hN] at h
  exact ⟨fun _ _ _ => .ok 0, f, f / 2, hf, h⟩

end Wrap
end Primpy
