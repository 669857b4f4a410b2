import Verif.Props.C35

/-!
# C36 — the calibration with `N_star` and the calibration with reheating are inverse to each other
-/

namespace Primpy
open Real
open Cal

/-- What a solution of the background equations provides on its in-inflation grid points: `_N` and
`_logaH` strictly increase (the comoving Hubble horizon shrinks during inflation), both stay within
their values at begin and end of inflation. -/
structure GoodGrid (s : CalState) (I : Infl) : Prop where
  infl : s.infl = some I
  len : s.N.length = s.logaH.length
  incr : Increasing (maskSel (s.N.zip s.logaH) I.mask)
  rangeN : ∀ n ∈ maskSel s.N I.mask, I.N_beg < n ∧ n < I.N_end
  rangeL : ∀ l ∈ maskSel s.logaH I.mask, I.logaH_beg ≤ l ∧ l ≤ I.logaH_end
  tot : I.N_tot = I.N_end - I.N_beg
  V_pos : 0 < I.V_end

/-- The interpolant stays within every interval that contains all ordinates. -/
theorem interpSorted_range {l : List (ℝ × ℝ)} : ∀ {x y lo hi : ℝ}, 
    l.Pairwise (fun p q => p.1 < q.1) → (∀ p ∈ l, lo ≤ p.2 ∧ p.2 ≤ hi) → interpSorted l x = .ok y →
    lo ≤ y ∧ y ≤ hi := by
  induction l with
  | nil => intro x y lo hi _ _ h; cases h
  | cons p l ih =>
    intro x y lo hi hs hl h
    cases l with
    | nil => cases h
    | cons q l =>
      obtain ⟨hp, hs'⟩ := List.pairwise_cons.1 hs
      have hpq := hp q (by simp)
      rw [interpSorted] at h
      split_ifs at h with h1 h2
      · simp only [Except.ok.injEq] at h
        push Not at h1
        have hd : 0 < q.1 - p.1 := by linarith
        have h3 := hl p (by simp)
        have h4 := hl q (by simp)
        obtain ⟨t, ht⟩ : ∃ t, t = (x - p.1) / (q.1 - p.1) := ⟨_, rfl⟩
        have ht0 : 0 ≤ t := ht ▸ div_nonneg (by linarith) hd.le
        have ht1 : t ≤ 1 := by rw [ht, div_le_one hd]; linarith
        have hy : y = (1 - t) * p.2 + t * q.2 := by rw [← h, ht]; field_simp; ring
        rw [hy]
        constructor <;> nlinarith
      · exact ih hs' (fun r hr => hl r (by simp [hr])) h

/-- The same for open intervals. -/
theorem interpSorted_range_lt {l : List (ℝ × ℝ)} : ∀ {x y lo hi : ℝ}, 
    l.Pairwise (fun p q => p.1 < q.1) → (∀ p ∈ l, lo < p.2 ∧ p.2 < hi) → interpSorted l x = .ok y →
    lo < y ∧ y < hi := by
  induction l with
  | nil => intro x y lo hi _ _ h; cases h
  | cons p l ih =>
    intro x y lo hi hs hl h
    cases l with
    | nil => cases h
    | cons q l =>
      obtain ⟨hp, hs'⟩ := List.pairwise_cons.1 hs
      by_cases hx : x ≤ q.1
      · have h3 := hl p (by simp)
        have h4 := hl q (by simp)
        have h2 : interpSorted [p, q] x = .ok y := by
          rw [interpSorted] at h ⊢
          rw [if_pos hx] at h ⊢
          exact h
        have := interpSorted_range (lo := min p.2 q.2) (hi := max p.2 q.2)
          (List.pairwise_cons.2 ⟨fun r hr => hp r (by simp at hr; simp [hr]), by simp⟩) (by simp) h2
        exact ⟨lt_of_lt_of_le (lt_min h3.1 h4.1) this.1, lt_of_le_of_lt this.2 (max_lt h3.2 h4.2)⟩
      · rw [interpSorted] at h
        split_ifs at h with h1
        exact ih hs' (fun r hr => hl r (by simp [hr])) h

namespace GoodGrid
variable {s : CalState} {I : Infl} (G : GoodGrid s I)
include G

theorem zip : (maskSel s.N I.mask).zip (maskSel s.logaH I.mask) = maskSel (s.N.zip s.logaH) I.mask :=
  maskSel_zip _ _ G.len _

theorem zipIncr : Increasing ((maskSel s.N I.mask).zip (maskSel s.logaH I.mask)) := by
  rw [G.zip]; exact G.incr

theorem zipIncr' : Increasing ((maskSel s.logaH I.mask).zip (maskSel s.N I.mask)) := by
  rw [← zip_swap]; exact G.zipIncr.swap

theorem forth {x y : ℝ} (h : interpL (maskSel s.N I.mask) (maskSel s.logaH I.mask) x = .ok y) :
    interpL (maskSel s.logaH I.mask) (maskSel s.N I.mask) y = .ok x := interpL_inverse G.zipIncr h

theorem back {x y : ℝ} (h : interpL (maskSel s.logaH I.mask) (maskSel s.N I.mask) y = .ok x) :
    interpL (maskSel s.N I.mask) (maskSel s.logaH I.mask) x = .ok y := interpL_inverse G.zipIncr' h

theorem logaH_range {x y : ℝ} (h : interpL (maskSel s.N I.mask) (maskSel s.logaH I.mask) x = .ok y) :
    I.logaH_beg ≤ y ∧ y ≤ I.logaH_end := by
  rw [interpL_sorted (G.zipIncr.imp fun h => h.1)] at h
  exact interpSorted_range (G.zipIncr.imp fun h => h.1)
    (fun p hp => G.rangeL p.2 (List.of_mem_zip hp).2) h

theorem N_range {x y : ℝ} (h : interpL (maskSel s.logaH I.mask) (maskSel s.N I.mask) y = .ok x) :
    I.N_beg < x ∧ x < I.N_end := by
  rw [interpL_sorted (G.zipIncr'.imp fun h => h.1)] at h
  exact interpSorted_range_lt (G.zipIncr'.imp fun h => h.1)
    (fun p hp => G.rangeN p.2 (List.of_mem_zip hp).2) h

end GoodGrid

/-- The offset of the end of inflation from instantaneous reheating, which the 'N_star' method reports
as `DeltaN_minus1`, reproduces the same e-fold calibration. -/
theorem offset_eq {u : SI} {I : Infl} {g ns nc ls δ m : ℝ} (hnc : nc = I.N_end - ns)
    (hδ : δ = 0 - ls + log u.K_STAR_lp)
    (hm : m = 0 - ns - log (u.K_STAR_lp / exp (ls - nc)) - logg g - log (I.V_end / u.T_CMB_Tp ^ 4) / 4) :
    0 - logg g - log (I.V_end / u.T_CMB_Tp ^ 4) / 4 - m = I.N_end + δ := by
  rw [hm, hδ, log_div (C56_pivot u).2.ne' (exp_pos _).ne', log_exp, hnc]; ring

/-- **C36, there and back (reheating-agnostic).**  Calibrate with `N_star`; read off `DeltaN_minus1`;
calibrate the same solution with `calibration_method='reheating'` and that `DeltaN_minus1`.  The second
call succeeds and produces the same calibrated attributes, all of them (`N_star`, `N_dagg`, `a0_Mpc`,
calibrated e-folds, wavenumbers, Hubble horizons). -/
theorem C36_N_star_to_DeltaN_minus1 (u : SI) (s s₁ : CalState) (I : Infl) (G : GoodGrid s I)
    (hK : s.K = 0) (ns g dm1 : ℝ)
    (hok : calibrate u s { method := "N_star", N_star := some ns, g_th := g } = .ok s₁)
    (hdm : s₁.sticky.DeltaN_minus1 = some (some dm1)) (hne : dm1 ≠ 0) :
    ∃ s₂, calibrate u s { method := "reheating", DeltaN_minus1 := some dm1, g_th := g } = .ok s₂ ∧
      s₂.cal = s₁.cal ∧ s₂.sticky.DeltaN_minus1 = s₁.sticky.DeltaN_minus1 := by
  obtain ⟨p, hp, rfl⟩ := calibrate_flat hK hok
  obtain ⟨-, ns', nc, ls, δ, nr, J, st, hs, rfl⟩ := flat_ok hp
  unfold flatSel at hs
  dsimp only at hs
  rw [if_pos rfl] at hs
  obtain ⟨h1, h2, h3, h4, h5, h6, h7, m, h8, h9⟩ := flatNstar_ok hs
  rw [G.infl] at h3
  obtain rfl := Option.some.inj h3
  unfold flatNstarReh at h9
  simp only [Except.ok.injEq, Prod.mk.injEq] at h9
  obtain ⟨rfl, rfl⟩ := h9
  simp only [finish, Option.some.injEq] at hdm
  subst hdm
  have hoff := offset_eq h5 h7 h8
  have hls : 0 + log u.K_STAR_lp - δ = ls := by rw [h7]; ring
  have hinst : is_instant_reheating none none none none (some m) = .ok false := by
    refine (C32_table _ _ _ _ _).2.2.1.2 (.inr ⟨.inr (.inr (.inr ⟨m, rfl, hne⟩)), ?_⟩)
    rintro (h | h | h)
    · cases h
    · cases h
    · exact hne (Option.some.inj h)
  have hr := G.logaH_range h6
  have key : flatSel u s { method := "reheating", DeltaN_minus1 := some m, g_th := g } =
      .ok (I.N_end - nc, nc, ls, δ, none, I, ⟨s.sticky.H_star, some none, some none, some none, some none,
        some (some m)⟩) := by
    unfold flatSel
    dsimp only
    rw [if_neg (by simp), if_pos rfl]
    unfold flatReheating
    rw [if_neg (by unfold badReheating; simp), G.infl]
    dsimp only
    unfold flatReh
    simp only [hinst]
    dsimp only at hoff
    simp only [Option.isSome_none, Bool.or_self, Bool.false_eq_true, if_false, hoff, add_sub_cancel_left,
      hls]
    rw [if_neg (by push Not; exact hr), G.forth h6]
    rfl
  refine ⟨_, calibrate_flat_intro hK rfl key, ?_, ?_⟩
  · simp only [finish, flatPart, h5, sub_sub_cancel]
    simp
  · rfl

/-- **C36, there and back (explicit reheating).**  Calibrate with `N_star` and `w_reh`; read off
`DeltaN_reh`; calibrate with `calibration_method='reheating'`, that `w_reh` and that `DeltaN_reh`.
The second call succeeds and reproduces every calibrated attribute and every reheating attribute. -/
theorem C36_N_star_to_reheating (u : SI) (s s₁ : CalState) (I : Infl) (G : GoodGrid s I)
    (hK : s.K = 0) (ns g w d : ℝ)
    (hok : calibrate u s { method := "N_star", N_star := some ns, w_reh := some w, g_th := g } = .ok s₁)
    (hd : s₁.sticky.DeltaN_reh = some (some d)) (hne : d ≠ 0) :
    ∃ s₂, calibrate u s { method := "reheating", w_reh := some w, DeltaN_reh := some d, g_th := g } =
        .ok s₂ ∧
      s₂.cal = s₁.cal ∧ { s₂.sticky with H_star := s₁.sticky.H_star } = s₁.sticky := by
  obtain ⟨p, hp, rfl⟩ := calibrate_flat hK hok
  obtain ⟨-, ns', nc, ls, δ, nr, J, st, hs, rfl⟩ := flat_ok hp
  unfold flatSel at hs
  dsimp only at hs
  rw [if_pos rfl] at hs
  obtain ⟨h1, h2, h3, h4, h5, h6, h7, m, h8, h9⟩ := flatNstar_ok hs
  rw [G.infl] at h3
  obtain rfl := Option.some.inj h3
  unfold flatNstarReh at h9
  dsimp only at h9
  split_ifs at h9 with hw3 hneg
  push Not at hneg
  simp only [Except.ok.injEq, Prod.mk.injEq] at h9
  obtain ⟨rfl, rfl⟩ := h9
  simp only [finish, Option.some.injEq] at hd
  have hw3' : 1 - 3 * w ≠ 0 := fun h => hw3 (by linear_combination -(1 / 3) * h)
  have hm : d / 4 * (1 - 3 * w) = m := by rw [← hd]; field_simp
  have hoff := offset_eq h5 h7 h8
  have hls : 0 + log u.K_STAR_lp - δ = ls := by rw [h7]; ring
  have hinst : is_instant_reheating none none (some w) (some d) none = .ok false := by
    refine (C32_table _ _ _ _ _).2.2.1.2 (.inr ⟨.inr (.inl ⟨w, rfl, hw3⟩), ?_⟩)
    rintro (h | h | h)
    · exact hw3 (Option.some.inj h)
    · exact hne (Option.some.inj h)
    · cases h
  have hr := G.logaH_range h6
  have key : flatSel u s { method := "reheating", w_reh := some w, DeltaN_reh := some d, g_th := g } =
      .ok (I.N_end - nc, nc, ls, δ, some (I.N_end + d), I,
        ⟨s.sticky.H_star, some (some (toGeV u (3 / 2 * I.V_end * exp (-3 * (1 + w) * d)))),
          some (some (3 / 2 * I.V_end * exp (-3 * (1 + w) * d))), some (some w), some (some d),
          some (some m)⟩) := by
    unfold flatSel
    dsimp only
    rw [if_neg (by simp), if_pos rfl]
    unfold flatReheating
    rw [if_neg (by
      unfold badReheating
      rw [decide_eq_true_iff]
      rintro (⟨_, h, h'⟩ | ⟨_, h, h'⟩) <;> cases h
      · rw [← hd] at h'; exact absurd h' (not_lt.2 hneg.1)
      · exact absurd h' (not_lt.2 hneg.2)), G.infl]
    dsimp only
    unfold flatReh
    simp only [hinst]
    dsimp only at hoff
    simp only [hm, hoff, add_sub_cancel_left, hls]
    rw [if_neg (by push Not; exact hr), G.forth h6]
    rfl
  refine ⟨_, calibrate_flat_intro hK rfl key, ?_, ?_⟩
  · subst hd
    simp only [finish, flatPart, h5, sub_sub_cancel]
    rfl
  · simp only [finish, flatPart, hd]

/-- **C36, and the other way round.**  Whatever reheating arguments were used (as long as no background
is copied): calibrating again with the resulting `N_star` gives the same scale-factor calibration
(`N_star`, `_N_cross`, `_logaH_star`, `a0_Mpc`, calibrated e-folds, wavenumbers, Hubble horizons), and the
`DeltaN_minus1` derived from `N_star` is the offset that was used. -/
theorem C36_reheating_to_N_star (u : SI) (s s₁ : CalState) (I : Infl) (G : GoodGrid s I)
    (hK : s.K = 0) (a : CalArgs) (hm : a.method = "reheating") (hb : a.background = none)
    (hok : calibrate u s a = .ok s₁) :
    ∃ c₁, s₁.cal = some c₁ ∧ ∃ s₂ c₂, calibrate u s
        { method := "N_star", N_star := some c₁.N_star, g_th := a.g_th } = .ok s₂ ∧ s₂.cal = some c₂ ∧
      c₂ = { c₁ with N_reh_ := none, N_reh := none, warning := 0 } ∧
      ∀ dm1, s₁.sticky.DeltaN_minus1 = some (some dm1) → s₂.sticky.DeltaN_minus1 = some (some dm1) := by
  obtain ⟨p, hp, rfl⟩ := calibrate_flat hK hok
  obtain ⟨-, ns, nc, ls, δ, nr, J, st, hs, rfl⟩ := flat_ok hp
  unfold flatSel at hs
  rw [hb] at hs
  dsimp only at hs
  rw [if_neg (by rw [hm]; simp), if_pos hm] at hs
  obtain ⟨-, h2, N_end, dN, h4, h5, h6, h7, h8, h9, h10, -⟩ := flatReheating_ok hs
  rw [G.infl] at h2
  obtain rfl := Option.some.inj h2
  have hN := G.N_range h9
  have hnc : I.N_end - ns = nc := by rw [h10]; ring
  have hδ : 0 - ls + log u.K_STAR_lp = δ := by rw [h6]; ring
  obtain ⟨m, hmm⟩ : ∃ m, m = 0 - ns - log (u.K_STAR_lp / exp (ls - nc)) - logg a.g_th -
    log (I.V_end / u.T_CMB_Tp ^ 4) / 4 := ⟨_, rfl⟩
  have key : flatSel u s { method := "N_star", N_star := some ns, g_th := a.g_th } =
      .ok (ns, nc, ls, δ, none, I, ⟨some (some (exp (ls - nc))), some none, some none, some none, some none,
        some (some m)⟩) := by
    unfold flatSel
    dsimp only
    rw [if_pos rfl]
    unfold flatNstar
    dsimp only
    rw [if_neg (by linarith), G.infl]
    dsimp only
    rw [if_neg (by rw [G.tot]; linarith), hnc, G.back h9]
    dsimp only
    unfold flatNstarReh
    dsimp only
    rw [hδ, ← hmm]
  refine ⟨_, rfl, _, _, calibrate_flat_intro hK rfl key, rfl, ?_, ?_⟩
  · simp [finish, flatPart]
  · intro dm1 h
    obtain ⟨d', hd', hE⟩ := flatReh_offset h4
    simp only [finish] at h
    rw [h] at hd'
    obtain rfl : dm1 = d' := by simpa using hd'
    have hoff := offset_eq (g := a.g_th) hnc.symm hδ.symm hmm
    have : m = dm1 := by linarith
    rw [← this]
    rfl

/-- Hypotheses met: the demonstration solution has a good grid, for every position of the pivot. -/
theorem demoAt_good (x : ℝ) :
    GoodGrid (demoAt 0 x) ⟨0, 3, 3, 1, 1, x - 2, x + 2, [false, true, true, false]⟩ where
  infl := rfl
  len := rfl
  incr := by
    simp [Increasing, demoAt, maskSel]
    linarith
  rangeN := by
    simp only [demoAt, maskSel, List.zip_cons_cons, List.zip_nil_right, List.filterMap_cons,
      Bool.false_eq_true, if_false, if_true, List.filterMap_nil, List.mem_cons, List.not_mem_nil, or_false]
    rintro n (rfl | rfl) <;> norm_num
  rangeL := by
    simp only [demoAt, maskSel, List.zip_cons_cons, List.zip_nil_right, List.filterMap_cons,
      Bool.false_eq_true, if_false, if_true, List.filterMap_nil, List.mem_cons, List.not_mem_nil, or_false]
    rintro n (rfl | rfl) <;> constructor <;> linarith
  tot := by norm_num
  V_pos := one_pos

/-- Hypotheses met: this solution, at a suitable position of the pivot, calibrated with `N_star = 3/2`, has
the non-zero reheating offset `DeltaN_minus1 = 1`; with `w_reh = 0` it has `DeltaN_reh = 4`. -/
example (u : SI) : ∃ x s₁ s₂,
    calibrate u (demoAt 0 x) { method := "N_star", N_star := some (3 / 2), g_th := 100 } = .ok s₁ ∧
    s₁.sticky.DeltaN_minus1 = some (some 1) ∧
    calibrate u (demoAt 0 x) { method := "N_star", N_star := some (3 / 2), w_reh := some 0, g_th := 100 } =
      .ok s₂ ∧ s₂.sticky.DeltaN_reh = some (some 4) := by
  obtain ⟨x, hx⟩ : ∃ x, x = 1 + 3 + log u.K_STAR_lp + logg 100 + log (1 / u.T_CMB_Tp ^ 4) / 4 := ⟨_, rfl⟩
  have hm : 0 - 3 / 2 - log (u.K_STAR_lp / exp (x - 3 / 2)) - logg 100 - log (1 / u.T_CMB_Tp ^ 4) / 4 = 1 := by
    rw [log_div (C56_pivot u).2.ne' (exp_pos _).ne', log_exp, hx]; ring
  have hi : interpL (maskSel (demoAt 0 x).N [false, true, true, false])
      (maskSel (demoAt 0 x).logaH [false, true, true, false]) (3 / 2) = .ok x := by
    have := (demoAt_good x).back (x := 3 / 2) (y := x) (by
      simp only [demoAt, maskSel, List.zip_cons_cons, List.zip_nil_right, List.filterMap_cons,
        Bool.false_eq_true, if_false, if_true, List.filterMap_nil]
      exact demoAt_interp x)
    exact this
  have key : ∀ w : Option ℝ, w = none ∨ w = some 0 → ∃ nr st, flatSel u (demoAt 0 x)
      { method := "N_star", N_star := some (3 / 2), w_reh := w, g_th := 100 } =
      .ok (3 / 2, 3 / 2, x, 0 - x + log u.K_STAR_lp, nr,
        ⟨0, 3, 3, 1, 1, x - 2, x + 2, [false, true, true, false]⟩, st) ∧
      st.DeltaN_minus1 = some (some 1) ∧ (w = some 0 → st.DeltaN_reh = some (some 4)) := by
    intro w hw
    unfold flatSel
    dsimp only
    rw [if_pos rfl]
    unfold flatNstar
    dsimp only
    rw [if_neg (by norm_num), show (demoAt 0 x).infl = some
      ⟨0, 3, 3, 1, 1, x - 2, x + 2, [false, true, true, false]⟩ from rfl]
    dsimp only
    rw [if_neg (by norm_num), show (3:ℝ) - 3 / 2 = 3 / 2 by norm_num, hi]
    dsimp only
    rw [hm]
    unfold flatNstarReh
    rcases hw with rfl | rfl
    · exact ⟨_, _, rfl, rfl, fun h => by cases h⟩
    · dsimp only
      rw [if_neg (by norm_num), if_neg (by norm_num)]
      exact ⟨_, _, rfl, rfl, fun _ => by norm_num⟩
  obtain ⟨nr, st, h1, h2, -⟩ := key none (.inl rfl)
  obtain ⟨nr', st', h1', -, h2'⟩ := key (some 0) (.inr rfl)
  exact ⟨x, _, _, calibrate_flat_intro rfl rfl h1, h2, calibrate_flat_intro rfl rfl h1', h2' rfl⟩

end Primpy
