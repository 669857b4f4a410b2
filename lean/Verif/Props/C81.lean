import Verif.Props.C45
import Verif.Props.C65
import Verif.Lemmas.Exact

/-!
# C81: the horizon problem

`conformal_time_ratio` for runs of the background equations with tracked conformal time.
-/

namespace Primpy
open Real Set Spec BB

section
variable {S Sf Sb : Set ℝ}

/-- conformal time elapsed along a cosmic-time run -/
theorem InflT.eta_elapsed {e : InflT} (he : e.track_eta = true) {y : ℝ → ℕ → ℝ} (hc : Convex ℝ S) (sol : SolvesODE S e.rows e.call y) {a b : ℝ} (ha : a ∈ S) (hb : b ∈ S) :
    y b 3 - y a 3 = ∫ t in a..b, exp (-InflT._N (y t)) := by
  have r : e.rows = 4 := by rw [InflT.rows_eq, he]; rfl
  have hsub : uIcc a b ⊆ S := hc.ordConnected.uIcc_subset ha hb
  have hd : ∀ t ∈ uIcc a b, HasDerivAt (fun t => y t 3) (exp (-InflT._N (y t))) t := fun t ht =>
    (sol t (hsub ht) 3 (by omega)).congr_deriv (InflT.call3 e he t (y t))
  have hcont : ContinuousOn (fun t => exp (-InflT._N (y t))) (uIcc a b) := fun t ht => by
    have : HasDerivAt (fun t => InflT._N (y t)) _ t := sol t (hsub ht) 2 (by omega)
    exact (this.continuousAt.neg.rexp).continuousWithinAt
  exact (intervalIntegral.integral_eq_sub_of_hasDerivAt hd hcont.intervalIntegrable).symm

/-- conformal time elapsed along an e-fold run -/
theorem InflN.eta_elapsed {e : InflN} (he : e.track_eta = true) {y : ℝ → ℕ → ℝ} (hS : IsOpen S) (hc : Convex ℝ S) (sol : SolvesODE S e.rows e.call y)
    (hH : ∀ n ∈ S, 0 < e.H2 n (y n)) {D : Set ℝ} (hV : IsDerivOn D e.pot.V e.pot.dV) (hφ : ∀ n ∈ S, InflN.phi (y n) ∈ D) {a b : ℝ} (ha : a ∈ S) (hb : b ∈ S) :
    y b e.etaRow - y a e.etaRow = ∫ n in a..b, exp (-n) / e.H n (y n) := by
  have r : e.etaRow < e.rows := by rw [InflN.rows_eq, he]; unfold InflN.etaRow; cases e.track_time <;> simp
  have hsub : uIcc a b ⊆ S := hc.ordConnected.uIcc_subset ha hb
  have hd : ∀ t ∈ uIcc a b, HasDerivAt (fun t => y t e.etaRow) (exp (-t) / e.H t (y t)) t := fun t ht =>
    (sol t (hsub ht) _ r).congr_deriv (InflN.call_eta e he t (y t))
  have hcont : ContinuousOn (fun n => exp (-n) / e.H n (y n)) (uIcc a b) :=
    (continuous_exp.comp continuous_neg).continuousOn.div (fun t ht => (InflN.hasDerivAt_H hS sol hH hV hφ t (hsub ht)).continuousAt.continuousWithinAt)
      fun t ht => (sqrt_pos.2 (hH t (hsub ht))).ne'
  exact (intervalIntegral.integral_eq_sub_of_hasDerivAt hd hcont.intervalIntegrable).symm

theorem getLast_map {t0 : ℝ} (ts : List ℝ) (f : ℝ → ℝ) {l : ℝ} (hl : (t0 :: ts).getLast? = some l) : (f t0 :: ts.map f).getLast? = some (f l) := by
  rw [← List.map_cons, List.getLast?_map, hl]; rfl

theorem getLast_mem {t0 : ℝ} {ts : List ℝ} {l : ℝ} (hl : (t0 :: ts).getLast? = some l) : l ∈ t0 :: ts := List.mem_of_getLast? hl

/-- **C81, cosmic time.**  A forward run from `t0` to `l` and a backward run from the same initial state (in particular the same conformal time) to `l' < t0`, both with
tracked conformal time; the standard-model parameters are accepted, `a0` is the scale factor today, and inflation ends before today.  Then `conformal_time_ratio`
without the backward run is `∫_{t0}^{l} dt/a` divided by the conformal time from the end of inflation until today, with it `∫_{l'}^{l} dt/a` divided by the same; the
latter is larger. -/
theorem C81_time {e : InflT} (he : e.track_eta = true) {yf yb : ℝ → ℕ → ℝ} (cf : Convex ℝ Sf) (cb : Convex ℝ Sb) (solf : SolvesODE Sf e.rows e.call yf)
    (solb : SolvesODE Sb e.rows e.call yb) {t0 l l' : ℝ} {tf tb : List ℝ} (hf : ∀ t ∈ t0 :: tf, t ∈ Sf) (hb : ∀ t ∈ t0 :: tb, t ∈ Sb) (hinit : yb t0 = yf t0)
    (hl : (t0 :: tf).getLast? = some l) (hl' : (t0 :: tb).getLast? = some l') (hback : l' < t0)
    (u : SI) (m ΩK h a0 N_end : ℝ) (hm : 0 ≤ m) (hh : 0 < h) (r : Option ℝ × Bool) (N' : ℝ) (hok : Hubble_parameter u N' m ΩK h "planck" = .ok r)
    (ha : get_a0 u h ΩK "planck" = .ok a0) (hN : N_end < log a0) :
    ∃ after ρ1 ρ2, 0 < after ∧ (∀ err, conformal_time u err N_end (.scalar (log a0)) m ΩK h = .ok (.pair after err)) ∧
      conformal_time_ratio u m ΩK h (yf t0 3) (tf.map fun t => yf t 3) none N_end a0 = .ok ρ1 ∧
      conformal_time_ratio u m ΩK h (yf t0 3) (tf.map fun t => yf t 3) (some (yb t0 3, tb.map fun t => yb t 3)) N_end a0 = .ok ρ2 ∧
      ρ1 = (∫ t in t0..l, exp (-InflT._N (yf t))) / after ∧
      ρ2 = ((∫ t in l'..t0, exp (-InflT._N (yb t))) + ∫ t in t0..l, exp (-InflT._N (yf t))) / after ∧ ρ1 < ρ2 := by
  obtain ⟨after, beg, ρ1, hpos, hA, h1, -, hρ1, fin, hfin, e1, -⟩ := C45_ratio u m ΩK h a0 N_end (yf t0 3) (tf.map fun t => yf t 3) none hm hh r N' hok ha hN
  obtain ⟨after', beg', ρ2, -, hA', -, h2, hρ2, fin', hfin', e2, -⟩ :=
    C45_ratio u m ΩK h a0 N_end (yf t0 3) (tf.map fun t => yf t 3) (some (yb t0 3, tb.map fun t => yb t 3)) hm hh r N' hok ha hN
  obtain rfl : after' = after := by
    have := (hA' 0).symm.trans (hA 0)
    simp only [Except.ok.injEq, ConfTime.pair.injEq] at this
    exact this.1
  have hlf := getLast_map tf (fun t => yf t 3) hl
  have hlb := getLast_map tb (fun t => yb t 3) hl'
  obtain rfl : fin = yf l 3 := Option.some.inj (hfin.symm.trans hlf)
  obtain rfl : fin' = yf l 3 := Option.some.inj (hfin'.symm.trans hlf)
  obtain rfl := h1 rfl
  obtain rfl : beg' = yb l' 3 := Option.some.inj ((h2 _ _ rfl).symm.trans hlb)
  have i1 := InflT.eta_elapsed he cf solf (hf t0 (by simp)) (hf l (getLast_mem hl))
  have i2 := InflT.eta_elapsed he cb solb (hb l' (getLast_mem hl')) (hb t0 (by simp))
  have hp : 0 < ∫ t in l'..t0, exp (-InflT._N (yb t)) := by
    refine intervalIntegral.intervalIntegral_pos_of_pos_on ?_ (fun _ _ => exp_pos _) hback
    have hsub : uIcc l' t0 ⊆ Sb := cb.ordConnected.uIcc_subset (hb l' (getLast_mem hl')) (hb t0 (by simp))
    have r : e.rows = 4 := by rw [InflT.rows_eq, he]; rfl
    refine ContinuousOn.intervalIntegrable fun t ht => ?_
    have : HasDerivAt (fun t => InflT._N (yb t)) _ t := solb t (hsub ht) 2 (by omega)
    exact (this.continuousAt.neg.rexp).continuousWithinAt
  have q1 : ρ1 = (∫ t in t0..l, exp (-InflT._N (yf t))) / after' := by rw [← i1, eq_div_iff hpos.ne', e1]
  have q2 : ρ2 = ((∫ t in l'..t0, exp (-InflT._N (yb t))) + ∫ t in t0..l, exp (-InflT._N (yf t))) / after' := by
    rw [← i1, ← i2, eq_div_iff hpos.ne', e2, hinit]; ring
  refine ⟨after', ρ1, ρ2, hpos, hA, hρ1, hρ2, q1, q2, ?_⟩
  rw [q1, q2]
  exact div_lt_div_of_pos_right (by linarith) hpos

/-- **C81, e-folds.**  The same with `dt/a = dN/(aH)`. -/
theorem C81_efolds {e : InflN} (he : e.track_eta = true) {D : Set ℝ} (hV : IsDerivOn D e.pot.V e.pot.dV) {yf yb : ℝ → ℕ → ℝ} (of : IsOpen Sf) (ob : IsOpen Sb)
    (cf : Convex ℝ Sf) (cb : Convex ℝ Sb) (solf : SolvesODE Sf e.rows e.call yf) (solb : SolvesODE Sb e.rows e.call yb) (hHf : ∀ n ∈ Sf, 0 < e.H2 n (yf n))
    (hHb : ∀ n ∈ Sb, 0 < e.H2 n (yb n)) (hφf : ∀ n ∈ Sf, InflN.phi (yf n) ∈ D) (hφb : ∀ n ∈ Sb, InflN.phi (yb n) ∈ D) {n0 l l' : ℝ} {nf nb : List ℝ}
    (hf : ∀ n ∈ n0 :: nf, n ∈ Sf) (hb : ∀ n ∈ n0 :: nb, n ∈ Sb) (hinit : yb n0 = yf n0) (hl : (n0 :: nf).getLast? = some l) (hl' : (n0 :: nb).getLast? = some l')
    (hback : l' < n0) (u : SI) (m ΩK h a0 N_end : ℝ) (hm : 0 ≤ m) (hh : 0 < h) (r : Option ℝ × Bool) (N' : ℝ)
    (hok : Hubble_parameter u N' m ΩK h "planck" = .ok r) (ha : get_a0 u h ΩK "planck" = .ok a0) (hN : N_end < log a0) :
    ∃ after ρ1 ρ2, 0 < after ∧ (∀ err, conformal_time u err N_end (.scalar (log a0)) m ΩK h = .ok (.pair after err)) ∧
      conformal_time_ratio u m ΩK h (yf n0 e.etaRow) (nf.map fun n => yf n e.etaRow) none N_end a0 = .ok ρ1 ∧
      conformal_time_ratio u m ΩK h (yf n0 e.etaRow) (nf.map fun n => yf n e.etaRow) (some (yb n0 e.etaRow, nb.map fun n => yb n e.etaRow)) N_end a0 = .ok ρ2 ∧
      ρ1 = (∫ n in n0..l, exp (-n) / e.H n (yf n)) / after ∧
      ρ2 = ((∫ n in l'..n0, exp (-n) / e.H n (yb n)) + ∫ n in n0..l, exp (-n) / e.H n (yf n)) / after ∧ ρ1 < ρ2 := by
  obtain ⟨after, beg, ρ1, hpos, hA, h1, -, hρ1, fin, hfin, e1, -⟩ :=
    C45_ratio u m ΩK h a0 N_end (yf n0 e.etaRow) (nf.map fun t => yf t e.etaRow) none hm hh r N' hok ha hN
  obtain ⟨after', beg', ρ2, -, hA', -, h2, hρ2, fin', hfin', e2, -⟩ :=
    C45_ratio u m ΩK h a0 N_end (yf n0 e.etaRow) (nf.map fun t => yf t e.etaRow) (some (yb n0 e.etaRow, nb.map fun t => yb t e.etaRow)) hm hh r N' hok ha hN
  obtain rfl : after' = after := by
    have := (hA' 0).symm.trans (hA 0)
    simp only [Except.ok.injEq, ConfTime.pair.injEq] at this
    exact this.1
  have hlf := getLast_map nf (fun t => yf t e.etaRow) hl
  have hlb := getLast_map nb (fun t => yb t e.etaRow) hl'
  obtain rfl : fin = yf l e.etaRow := Option.some.inj (hfin.symm.trans hlf)
  obtain rfl : fin' = yf l e.etaRow := Option.some.inj (hfin'.symm.trans hlf)
  obtain rfl := h1 rfl
  obtain rfl : beg' = yb l' e.etaRow := Option.some.inj ((h2 _ _ rfl).symm.trans hlb)
  have i1 := InflN.eta_elapsed he of cf solf hHf hV hφf (hf n0 (by simp)) (hf l (getLast_mem hl))
  have i2 := InflN.eta_elapsed he ob cb solb hHb hV hφb (hb l' (getLast_mem hl')) (hb n0 (by simp))
  have hsub : uIcc l' n0 ⊆ Sb := cb.ordConnected.uIcc_subset (hb l' (getLast_mem hl')) (hb n0 (by simp))
  have hp : 0 < ∫ n in l'..n0, exp (-n) / e.H n (yb n) := by
    refine intervalIntegral.intervalIntegral_pos_of_pos_on ?_ (fun n hn => div_pos (exp_pos _) (sqrt_pos.2 (hHb n (hsub ?_)))) hback
    · exact ((continuous_exp.comp continuous_neg).continuousOn.div (fun t ht => (InflN.hasDerivAt_H ob solb hHb hV hφb t (hsub ht)).continuousAt.continuousWithinAt)
        fun t ht => (sqrt_pos.2 (hHb t (hsub ht))).ne').intervalIntegrable
    · rw [uIcc_of_le hback.le]; exact Ioo_subset_Icc_self hn
  have q1 : ρ1 = (∫ n in n0..l, exp (-n) / e.H n (yf n)) / after' := by rw [← i1, eq_div_iff hpos.ne', e1]
  have q2 : ρ2 = ((∫ n in l'..n0, exp (-n) / e.H n (yb n)) + ∫ n in n0..l, exp (-n) / e.H n (yf n)) / after' := by
    rw [← i1, ← i2, eq_div_iff hpos.ne', e2, hinit]; ring
  refine ⟨after', ρ1, ρ2, hpos, hA, hρ1, hρ2, q1, q2, ?_⟩
  rw [q1, q2]
  exact div_lt_div_of_pos_right (by linarith) hpos

/-- **C81, flat universes: the reported ratio is arbitrary.**  In a flat universe `a0 = 1` is set by the calibration while `_N_end` and `eta` keep the arbitrary
normalisation of the scale factor with which the integration was started (`N_i`).  For every flat run of positive duration and every number `M` there is
a shift `c` of the initial e-folds — the shifted run solves the same equations, has the same field, velocity and Hubble rate at every time — for which
`conformal_time_ratio` reports more than `M`. -/
theorem C81_flat_arbitrary {e : InflT} (he : e.track_eta = true) (hK : e.K = 0) {y : ℝ → ℕ → ℝ} (hc : Convex ℝ S) (sol : SolvesODE S e.rows e.call y)
    {t0 l : ℝ} {ts : List ℝ} (hts : ∀ t ∈ t0 :: ts, t ∈ S) (hl : (t0 :: ts).getLast? = some l) (hlt : t0 < l)
    (u : SI) (m h : ℝ) (hm : 0 ≤ m) (hh : 0 < h) (r : Option ℝ × Bool) (N' : ℝ) (hok : Hubble_parameter u N' m 0 h "planck" = .ok r) (M : ℝ) :
    get_a0 u h 0 "planck" = .ok 1 ∧ ∃ (c : ℝ) (z : ℝ → ℕ → ℝ) (ρ : ℝ), SolvesODE S e.rows e.call z ∧
      (∀ t, InflT.phi (z t) = InflT.phi (y t) ∧ InflT.dphidt (z t) = InflT.dphidt (y t) ∧ InflT._N (z t) = InflT._N (y t) + c ∧ e.H (z t) = e.H (y t)) ∧
      conformal_time_ratio u m 0 h (z t0 3) (ts.map fun t => z t 3) none (InflT._N (z l)) 1 = .ok ρ ∧ M < ρ := by
  have ha : get_a0 u h 0 "planck" = .ok 1 := by unfold get_a0; rw [if_pos rfl]
  refine ⟨ha, ?_⟩
  obtain ⟨hcont, hval⟩ := C45.integrand_pos u m 0 h 1 hm hh r N' hok ha
  rw [log_one] at hcont hval
  obtain ⟨B, hB⟩ := (isCompact_Icc (a := (-1 : ℝ)) (b := 0)).exists_bound_of_continuousOn (hcont.mono fun x hx => hx.2)
  -- the conformal time of the given run
  obtain ⟨E, hE⟩ : ∃ E, E = y l 3 - y t0 3 := ⟨_, rfl⟩
  have hEpos : 0 < E := by
    rw [hE, InflT.eta_elapsed he hc sol (hts t0 (by simp)) (hts l (getLast_mem hl))]
    refine intervalIntegral.intervalIntegral_pos_of_pos_on ?_ (fun _ _ => exp_pos _) hlt
    have hsub : uIcc t0 l ⊆ S := hc.ordConnected.uIcc_subset (hts t0 (by simp)) (hts l (getLast_mem hl))
    have r : e.rows = 4 := by rw [InflT.rows_eq, he]; rfl
    refine ContinuousOn.intervalIntegrable fun t ht => ?_
    have : HasDerivAt (fun t => InflT._N (y t)) _ t := sol t (hsub ht) 2 (by omega)
    exact (this.continuousAt.neg.rexp).continuousWithinAt
  obtain ⟨Ne, hNe⟩ : ∃ Ne, Ne = InflT._N (y l) := ⟨_, rfl⟩
  obtain ⟨M', hM'⟩ : ∃ M', M' = |M| + 1 := ⟨_, rfl⟩
  have hMpos : 0 < M' := by rw [hM']; positivity
  have hB0 : 0 ≤ B := (norm_nonneg _).trans (hB 0 (by norm_num))
  -- distance of the end of inflation from today
  obtain ⟨δ, hδ⟩ : ∃ δ, δ = min 1 (E * exp Ne / (M' * (B + 1))) := ⟨_, rfl⟩
  have hδpos : 0 < δ := by rw [hδ]; exact lt_min one_pos (by positivity)
  have hδ1 : δ ≤ 1 := by rw [hδ]; exact min_le_left _ _
  have hδ2 : δ * (M' * (B + 1)) ≤ E * exp Ne := by
    rw [← le_div_iff₀ (by positivity), hδ]; exact min_le_right _ _
  obtain ⟨c, hcdef⟩ : ∃ c, c = -δ - Ne := ⟨_, rfl⟩
  obtain ⟨z, hz⟩ : ∃ z : ℝ → ℕ → ℝ, z = fun t => stateT 1 c (y t) := ⟨_, rfl⟩
  have esc : e.scaled 1 = e := by simp [InflT.scaled, PotFns.scaled]
  have solz : SolvesODE S e.rows e.call z := by
    have := C65_time one_pos (c := c) e (Or.inl hK) sol
    rw [esc] at this
    simpa [hz] using this
  have hH : ∀ t, e.H (z t) = e.H (y t) := fun t => by
    have := InflT.H2_scaled one_pos (c := c) e (Or.inl hK) (y t)
    rw [esc, one_pow, one_mul] at this
    simp only [InflT.H, hz]
    rw [this]
  have hNz : InflT._N (z l) = -δ := by rw [hz]; simp only [InflT._N, stateT]; rw [hcdef, hNe, InflT._N]; ring
  obtain ⟨after, beg, ρ, hpos, hA, h1, -, hρ, fin, hfin, e1, -⟩ :=
    C45_ratio u m 0 h 1 (InflT._N (z l)) (z t0 3) (ts.map fun t => z t 3) none hm hh r N' hok ha (by rw [hNz, log_one]; linarith)
  obtain rfl : fin = z l 3 := Option.some.inj (hfin.symm.trans (getLast_map ts (fun t => z t 3) hl))
  obtain rfl := h1 rfl
  refine ⟨c, z, ρ, solz, fun t => ⟨by rw [hz]; rfl, by rw [hz]; simp [InflT.dphidt, stateT], by rw [hz]; rfl, hH t⟩, hρ, ?_⟩
  have hafter : after ≤ B * δ := by
    have hq := hA 0
    rw [hNz, log_one] at hq
    obtain ⟨H, w, hH0, -⟩ := hval (-δ) (by linarith)
    have hi : conformal_time u 0 (-δ) (.scalar 0) m 0 h = .ok (.pair (∫ n in (-δ)..0, integrandFn u m 0 h n) 0) := by
      unfold conformal_time quadValue integrand
      rw [hH0]
      rfl
    rw [hi] at hq
    simp only [Except.ok.injEq, ConfTime.pair.injEq, and_true] at hq
    have := intervalIntegral.norm_integral_le_of_norm_le_const (a := -δ) (b := 0) (f := integrandFn u m 0 h) (C := B) (fun x hx => by
      rw [uIoc_of_le (by linarith)] at hx
      exact hB x ⟨by linarith [hx.1], hx.2⟩)
    rw [hq, norm_of_nonneg hpos.le] at this
    rwa [zero_sub, neg_neg, abs_of_pos hδpos] at this
  have hnum : z l 3 - z t0 3 = E * exp (δ + Ne) := by
    rw [hz, hE, show δ + Ne = -c by rw [hcdef]; ring, exp_neg]
    simp only [stateT, one_mul]
    have := (exp_pos c).ne'
    field_simp
  have hge : E * exp Ne ≤ ρ * after := by
    rw [e1, hnum]
    exact mul_le_mul_of_nonneg_left (exp_le_exp.2 (by linarith)) hEpos.le
  have hρM : M' ≤ ρ := by
    by_contra hcon
    push Not at hcon
    have h2 : M' * after ≤ M' * (B * δ) := mul_le_mul_of_nonneg_left hafter hMpos.le
    have h3 : ρ * after < M' * after := mul_lt_mul_of_pos_right hcon hpos
    have h4 : 0 < M' * δ := by positivity
    nlinarith
  have := le_abs_self M
  linarith

end

/-! ## Non-vacuity -/

private theorem accepted (u : SI) (N ΩK : ℝ) (hΩ : -OmegaR u 1 ≤ ΩK) : ∃ r, Hubble_parameter u N 0 ΩK 1 "planck" = .ok r := by
  obtain ⟨nbb, hn, -, h⟩ := (C42_errors u N 0 ΩK 1 one_pos "planck").2.2 (Or.inl rfl) le_rfl
  refine h ?_
  have : nbb = 1 := by
    have : no_Big_Bang_line 0 = .ok 1 := by simp [no_Big_Bang_line]
    rw [hn] at this; exact Except.ok.inj this
  rw [this]; linarith

/-- A closed universe with `a = t`: forward from `t = 1` to `2`, backward to `1/2`; without matter, `Ω_K = -Ω_r/2`, any constants. -/
example (u : SI) : ∃ N_end a0 ρ1 ρ2, get_a0 u 1 (-(OmegaR u 1 / 2)) "planck" = .ok a0 ∧
    conformal_time_ratio u 0 (-(OmegaR u 1 / 2)) 1 (Exact.yCurvedT 1 3) ([2].map fun t => Exact.yCurvedT t 3) none N_end a0 = .ok ρ1 ∧
    conformal_time_ratio u 0 (-(OmegaR u 1 / 2)) 1 (Exact.yCurvedT 1 3) ([2].map fun t => Exact.yCurvedT t 3) (some (Exact.yCurvedT 1 3, [1 / 2].map fun t => Exact.yCurvedT t 3))
      N_end a0 = .ok ρ2 ∧ ρ1 < ρ2 := by
  obtain ⟨a0, ha, -⟩ := get_a0_total u one_pos (-(OmegaR u 1 / 2))
  have hΩ : 0 < OmegaR u 1 := OmegaR_pos u one_pos
  obtain ⟨r, hr⟩ := accepted u 0 (-(OmegaR u 1 / 2)) (by linarith)
  have mem : ∀ t ∈ [(1 : ℝ), 2], t ∈ Ioi (0 : ℝ) := by simp
  have mem' : ∀ t ∈ [(1 : ℝ), 1 / 2], t ∈ Ioi (0 : ℝ) := by simp
  obtain ⟨after, ρ1, ρ2, -, -, h1, h2, -, -, h3⟩ := C81_time (e := Exact.curvedT) rfl (convex_Ioi 0) (convex_Ioi 0) Exact.curvedT_sol Exact.curvedT_sol mem mem' rfl
    (l := 2) (l' := 1 / 2) rfl rfl (by norm_num) u 0 (-(OmegaR u 1 / 2)) 1 a0 (log a0 - 1) le_rfl one_pos r 0 hr ha (by linarith)
  exact ⟨_, a0, ρ1, ρ2, ha, h1, h2, h3⟩

/-- Power-law inflation in a flat universe: the ratio can be made to exceed a million. -/
example (u : SI) : ∃ (c : ℝ) (z : ℝ → ℕ → ℝ) (ρ : ℝ), SolvesODE (Ioi 0) Exact.flatT.rows Exact.flatT.call z ∧ InflT._N (z 1) = InflT._N (Exact.yFlatT 1) + c ∧
    conformal_time_ratio u 0 0 1 (z 1 3) ([2].map fun t => z t 3) none (InflT._N (z 2)) 1 = .ok ρ ∧ 1000000 < ρ := by
  obtain ⟨r, hr⟩ := accepted u 0 0 (by have := OmegaR_pos u one_pos; linarith)
  obtain ⟨-, c, z, ρ, h1, h2, h3, h4⟩ := C81_flat_arbitrary (e := Exact.flatT) rfl rfl (convex_Ioi 0) Exact.flatT_sol (t0 := 1) (l := 2) (ts := [2]) (by simp) rfl (by norm_num)
    u 0 1 le_rfl one_pos r 0 hr 1000000
  exact ⟨c, z, ρ, h1, (h2 1).2.2.1, h3, h4⟩

end Primpy
