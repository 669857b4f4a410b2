import Verif.Spec.Events
import Verif.Props.C25
import Verif.Props.C20

/-!
# C77: the reported inflationary phase is the phase of accelerated expansion

`inflation_mask`, `_N_beg`, `_N_end`, `N_tot` are computed from recorded events (C25).  Here the events are connected with the exact trajectory: if the
integrator samples a solution and records the sign changes of the tracked inflation events faithfully, the mask selects points of accelerated expansion, and
misses none if the end event is terminal.
-/

namespace Primpy
open Real Set Spec

section generic
variable {g : ℝ → ℝ} {x0 x1 : ℝ}

theorem Spec.Detects.first_le {s c d : ℝ} {l : List ℝ} (h : Detects g x0 x1 s (c :: l)) (hd : d ∈ c :: l) : c ≤ d := by
  rcases List.mem_cons.1 hd with rfl | hd
  · exact le_rfl
  · exact ((List.pairwise_cons.1 h.sorted).1 d hd).le

/-- between the beginning (accelerating, or starting to) and the first downward sign change nothing decelerates -/
theorem nonneg_until {c xb : ℝ} {l : List ℝ} (h : Detects g x0 x1 (-1) (c :: l)) (hb : x0 ≤ xb)
    (hpos : 0 < g xb ∨ ∀ x, xb < x → x ≤ x1 → g x < 0 → ∃ a, xb < a ∧ a < x ∧ 0 < g a) {x : ℝ} (h1 : xb ≤ x) (h2 : x < c) (hx : xb < x ∨ 0 ≤ g xb) : 0 ≤ g x := by
  by_contra hn
  push Not at hn
  have hc := (h.sound c (List.mem_cons_self ..)).before
  have lt : xb < x := by
    rcases hx with hx | hx
    · exact hx
    · rcases h1.lt_or_eq with k | k
      · exact k
      · rw [← k] at hn; linarith
  obtain ⟨a, ha, hax, hga⟩ : ∃ a, xb ≤ a ∧ a < x ∧ 0 < g a := by
    rcases hpos with k | k
    · exact ⟨xb, le_rfl, lt, k⟩
    · obtain ⟨a, p, q, r⟩ := k x lt (by linarith) hn
      exact ⟨a, p.le, q, r⟩
  obtain ⟨d, hd, -, hdx⟩ := h.complete a x (hb.trans ha) hax (by linarith) (by linarith) (by linarith)
  have := h.first_le hd
  linarith

/-- before the first upward sign change of a universe that starts decelerating nothing accelerates -/
theorem nonpos_before {c : ℝ} {l : List ℝ} (h : Detects g x0 x1 1 (c :: l)) (h0 : g x0 < 0) {x : ℝ} (h1 : x0 ≤ x) (h2 : x ≤ c) : g x ≤ 0 := by
  by_contra hn
  push Not at hn
  have lt : x0 < x := by
    rcases h1.lt_or_eq with k | k
    · exact k
    · rw [← k] at hn; linarith
  have hs := h.sound c (List.mem_cons_self ..)
  have hxc : x ≠ c := by rintro rfl; rw [hs.root] at hn; exact lt_irrefl _ hn
  have hb := hs.before
  obtain ⟨d, hd, -, hdx⟩ := h.complete x0 x le_rfl lt (by linarith) (by linarith) (by linarith)
  have := h.first_le hd
  exact hxc (le_antisymm h2 (by linarith))

/-- the first upward sign change of a universe that starts decelerating precedes the first downward one -/
theorem up_first {c d : ℝ} {l m : List ℝ} (h : Detects g x0 x1 1 (c :: l)) (h' : Detects g x0 x1 (-1) (d :: m)) (h0 : g x0 < 0) : c < d := by
  have hd := h'.sound d (List.mem_cons_self ..)
  obtain ⟨a, ha, had, hg⟩ := hd.left
  -- a point of acceleration before `d`
  have hz : 0 < g ((a + d) / 2) := by
    have := hg ((a + d) / 2) ⟨by linarith, by linarith⟩ (by linarith)
    linarith
  have hb := hd.before
  obtain ⟨e, he, -, hex⟩ := h.complete x0 ((a + d) / 2) le_rfl (by linarith) (by linarith) (by linarith) (by linarith)
  have := h.first_le he
  linarith
end generic

/-- The integrator sampled the trajectory `y` on `[x0, x1]` and recorded the tracked inflation events faithfully (external contract). -/
structure Faithful (Q : EqView) (y : ℝ → ℕ → ℝ) (x0 x1 : ℝ) (s : RawSol) : Prop where
  start : s.first = (x0, y x0)
  grid : ∀ p ∈ s.grid, p.1 ∈ Icc x0 x1 ∧ p.2 = y p.1
  events : ∀ key l, s.events.get? key = some l → ∀ p ∈ l, p.2 = y p.1
  begins : ∀ l, s.events.get? "Inflation_dir1_term0" = some l → Detects (fun x => Q.inflating x (y x)) x0 x1 1 (l.map Prod.fst)
  ends : ∀ key ∈ ["Inflation_dir-1_term1", "Inflation_dir-1_term0"], ∀ l, s.events.get? key = some l →
    Detects (fun x => Q.inflating x (y x)) x0 x1 (-1) (l.map Prod.fst)

/-- The universe does not start exactly at the end of an inflationary phase: if it starts on the boundary, it accelerates first. -/
def StartsCleanly (g : ℝ → ℝ) (x0 x1 : ℝ) : Prop :=
  g x0 = 0 → ∀ x, x0 < x → x ≤ x1 → g x < 0 → ∃ a, x0 < a ∧ a < x ∧ 0 < g a

theorem Faithful.endPoint {Q : EqView} {y : ℝ → ℕ → ℝ} {x0 x1 : ℝ} {s : RawSol} (hf : Faithful Q y x0 x1 s) {p : ℝ × (ℕ → ℝ)} (hp : EndPoint s p) :
    p.2 = y p.1 ∧ ∃ l, Detects (fun x => Q.inflating x (y x)) x0 x1 (-1) (p.1 :: l) := by
  rcases hp with ⟨l, hl⟩ | ⟨-, l, hl⟩
  · exact ⟨hf.events _ _ hl p (List.mem_cons_self ..), _, hf.ends _ (by simp) _ hl⟩
  · exact ⟨hf.events _ _ hl p (List.mem_cons_self ..), _, hf.ends _ (by simp) _ hl⟩

/-- Generic form: `g = inflating` along the trajectory. -/
theorem C77_generic {Q : EqView} {y : ℝ → ℕ → ℝ} {x0 x1 : ℝ} {s : RawSol} (V : ℝ → ℝ) (K : ℝ) (hf : Faithful Q y x0 x1 s)
    (hmono : StrictMonoOn (fun x => Q.N x (y x)) (Icc x0 x1)) (hstart : StartsInflating Q s ↔ 0 ≤ Q.inflating x0 (y x0))
    (hclean : StartsCleanly (fun x => Q.inflating x (y x)) x0 x1) {m : List Bool} (hm : (inflationSol Q V K s).inflation_mask = some m) :
    ∃ xb xe, x0 ≤ xb ∧ xb < xe ∧ xe ≤ x1 ∧ (inflationSol Q V K s).start.N_beg = some (Q.N xb (y xb)) ∧ (inflationSol Q V K s).fin.N_end = some (Q.N xe (y xe)) ∧
      (∀ x ∈ Icc xb xe, 0 ≤ Q.inflating x (y x)) ∧ (∀ x ∈ Icc x0 xb, x < xb → Q.inflating x (y x) ≤ 0) ∧
      (xb = x0 ∨ Q.inflating xb (y xb) = 0) ∧ Q.inflating xe (y xe) = 0 ∧ EndPoint s (xe, y xe) ∧
      m.length = s.grid.length ∧ ∀ i (hi : i < s.grid.length), m[i]? = some true ↔ s.grid[i].1 ∈ Ioo xb xe := by
  obtain ⟨g, hg⟩ : ∃ g : ℝ → ℝ, g = fun x => Q.inflating x (y x) := ⟨_, rfl⟩
  have hmask := C25_duration_mask Q V K s
  obtain ⟨hN, hnone, hsel⟩ := hmask
  -- both ends are numbers
  obtain ⟨d, hd⟩ : ∃ d, (inflationSol Q V K s).N_tot = some d := by
    cases hN' : (inflationSol Q V K s).N_tot with
    | none => rw [hnone.2 hN'] at hm; cases hm
    | some d => exact ⟨d, rfl⟩
  obtain ⟨b, e, hb, he, -⟩ := (hN d).1 hd
  obtain ⟨hlen, hsel⟩ := hsel m b e hb he hm
  -- the end
  obtain ⟨pe, hpe⟩ : ∃ p, EndPoint s p := by
    by_contra hc
    have := ((C25_end Q V K s).2 hc).1
    rw [he] at this; cases this
  have he' : e = Q.N pe.1 pe.2 := by
    have := ((C25_end Q V K s).1 pe hpe).1
    rw [he] at this; exact Option.some.inj this
  obtain ⟨hpe2, le, hle⟩ := hf.endPoint hpe
  have se := hle.sound _ (List.mem_cons_self ..)
  -- the start
  obtain ⟨-, pb, hb', -, hpb⟩ := (C25_start Q V K s b).1 hb
  have core : ∃ xb, pb = (xb, y xb) ∧ x0 ≤ xb ∧ xb < pe.1 ∧ (∀ x ∈ Icc xb pe.1, 0 ≤ g x) ∧ (∀ x ∈ Icc x0 xb, x < xb → g x ≤ 0) ∧ (xb = x0 ∨ g xb = 0) := by
    rw [← hg] at hle se hclean
    rcases hpb with ⟨hi, rfl⟩ | ⟨hi, l, hl⟩
    · rw [hstart] at hi
      have hi : 0 ≤ g x0 := by rw [hg]; exact hi
      refine ⟨x0, hf.start, le_rfl, se.after, fun x hx => ?_, fun x hx hlt => absurd hlt (not_lt.2 hx.1), Or.inl rfl⟩
      rcases hx.2.lt_or_eq with k | k
      · refine nonneg_until hle le_rfl ?_ hx.1 k (Or.inr hi)
        rcases hi.lt_or_eq with k' | k'
        · exact Or.inl k'
        · exact Or.inr (hclean k'.symm)
      · rw [k, se.root]
    · have hi : g x0 < 0 := by rw [hstart] at hi; rw [hg]; exact not_le.1 hi
      have hup := hf.begins _ hl
      rw [← hg, List.map_cons] at hup
      have su := hup.sound _ (List.mem_cons_self ..)
      have hlt := up_first hup hle hi
      refine ⟨pb.1, ?_, su.after.le, hlt, fun x hx => ?_, fun x hx _ => nonpos_before hup hi hx.1 hx.2, Or.inr su.root⟩
      · rw [← hf.events _ _ hl pb (List.mem_cons_self ..)]
      · rcases hx.2.lt_or_eq with k | k
        · refine nonneg_until hle su.after.le (Or.inr fun z hz hz1 hzn => ?_) hx.1 k (Or.inr su.root.ge)
          obtain ⟨q, hq, hqp⟩ := su.right (lt_of_lt_of_le hlt se.before)
          refine ⟨min q ((pb.1 + z) / 2), lt_min hq (by linarith), (min_le_right _ _).trans_lt (by linarith), ?_⟩
          have := hqp (min q ((pb.1 + z) / 2)) ⟨lt_min hq (by linarith), min_le_left _ _⟩
          linarith
        · rw [k, se.root]
  obtain ⟨xb, rfl, h0b, hbe, hpos, hneg, hbd⟩ := core
  have hpe' : pe = (pe.1, y pe.1) := by rw [← hpe2]
  rw [hpe2] at he'
  have hxb : xb ∈ Icc x0 x1 := ⟨h0b, by have := se.before; linarith⟩
  have hxe : pe.1 ∈ Icc x0 x1 := ⟨by linarith, se.before⟩
  refine ⟨xb, pe.1, h0b, hbe, se.before, by rw [hb, hb'], by rw [he, he'], ?_, ?_, ?_, ?_, ?_, hlen, fun i hi => ?_⟩
  · rw [hg] at hpos; exact hpos
  · rw [hg] at hneg; exact hneg
  · rw [hg] at hbd; exact hbd
  · exact se.root
  · rw [← hpe']; exact hpe
  · obtain ⟨hgi, hyi⟩ := hf.grid s.grid[i] (List.getElem_mem hi)
    rw [hsel i hi, hb', he', hyi, mem_Ioo]
    exact and_congr (hmono.lt_iff_lt hxb hgi) (hmono.lt_iff_lt hgi hxe)

/-- the end event is terminal: the integration stops where it was first seen -/
def StopsAtEnd (s : RawSol) (x1 : ℝ) : Prop := Seen s.events "Inflation_dir-1_term1" ∧ ∀ p, Observed s.events "Inflation_dir-1_term1" p → p.1 = x1

theorem StopsAtEnd.eq {s : RawSol} {x1 : ℝ} (h : StopsAtEnd s x1) {p : ℝ × (ℕ → ℝ)} (hp : EndPoint s p) : p.1 = x1 := by
  rcases hp with hp | ⟨hn, -⟩
  · exact h.2 p hp
  · exact absurd h.1 hn

/-- which grid points are left out if the end event is terminal -/
theorem unmasked {Q : EqView} {y : ℝ → ℕ → ℝ} {x0 x1 xb : ℝ} (hneg : ∀ x ∈ Icc x0 xb, x < xb → Q.inflating x (y x) ≤ 0)
    (hb : xb = x0 ∨ Q.inflating xb (y xb) = 0) (he : Q.inflating x1 (y x1) = 0) {x : ℝ} (hx : x ∈ Icc x0 x1) (hm : ¬ x ∈ Ioo xb x1) (h0 : x ≠ x0) :
    Q.inflating x (y x) ≤ 0 := by
  by_cases h1 : xb < x
  · have : x = x1 := le_antisymm hx.2 (not_lt.1 fun h => hm ⟨h1, h⟩)
    rw [this, he]
  · rcases (not_lt.1 h1).lt_or_eq with k | k
    · exact hneg x ⟨hx.1, k.le⟩ k
    · rcases hb with hb | hb
      · exact absurd (k.trans hb) h0
      · rw [k, hb]

/-- **C77, cosmic time.**  Let the integrator sample an expanding background with positive density at the start, and record the tracked inflation events
faithfully.  If a mask is reported there are times `tb < te` with: the scale factor `a = e^N` satisfies `ä ≥ 0` exactly as reported: throughout `[tb, te]`, and
`ä ≤ 0` before `tb`; `_N_beg`, `_N_end` are the e-folds at `tb`, `te`, `N_tot > 0` is their difference; the mask selects exactly the grid points strictly
between `tb` and `te`; the comoving Hubble radius does not grow between them; and if the end event is terminal every grid point that is not selected, except
possibly the first one, has `ä ≤ 0`. -/
theorem C77_time {S D : Set ℝ} {e : InflT} {y : ℝ → ℕ → ℝ} {t0 t1 : ℝ} {s : RawSol} (hS : IsOpen S) (hc : Convex ℝ S)
    (sol : SolvesODE S e.rows e.call y) (hH : ∀ t ∈ S, 0 < e.H2 (y t)) (hV : IsDerivOn D e.pot.V e.pot.dV) (hφ : ∀ t ∈ S, InflT.phi (y t) ∈ D)
    (hsub : Icc t0 t1 ⊆ S) (hρ : 0 < InflT.dphidt (y t0) ^ 2 / 2 + e.V (y t0)) (hf : Faithful e.view y t0 t1 s)
    (hclean : StartsCleanly (fun t => e.inflating (y t)) t0 t1) {m : List Bool} (hm : (inflationSol e.view e.pot.V e.K s).inflation_mask = some m) :
    ∃ tb te, ∃ adot addot : ℝ → ℝ, IsDerivOn S (fun t => exp (InflT._N (y t))) adot ∧ IsDerivOn S adot addot ∧ t0 ≤ tb ∧ tb < te ∧ te ≤ t1 ∧
      (∀ t ∈ Icc tb te, 0 ≤ addot t) ∧ (∀ t ∈ Icc t0 tb, t < tb → addot t ≤ 0) ∧ addot te = 0 ∧
      (inflationSol e.view e.pot.V e.K s).start.N_beg = some (InflT._N (y tb)) ∧ (inflationSol e.view e.pot.V e.K s).fin.N_end = some (InflT._N (y te)) ∧
      (inflationSol e.view e.pot.V e.K s).N_tot = some (InflT._N (y te) - InflT._N (y tb)) ∧ 0 < InflT._N (y te) - InflT._N (y tb) ∧
      (m.length = s.grid.length ∧ ∀ i (hi : i < s.grid.length), m[i]? = some true ↔ s.grid[i].1 ∈ Ioo tb te) ∧
      MonotoneOn (fun t => InflT._N (y t) + log (e.H (y t))) (Icc tb te) ∧
      (StopsAtEnd s t1 → ∀ i (hi : i < s.grid.length), m[i]? ≠ some true → s.grid[i].1 ≠ t0 → addot s.grid[i].1 ≤ 0) := by
  have u := InflT.universe sol hH
  have hmono : StrictMonoOn (fun x => e.view.N x (y x)) (Icc t0 t1) := (C20_N_T hS hc sol hH).mono hsub
  have hst : StartsInflating e.view s ↔ 0 ≤ e.view.inflating t0 (y t0) := by
    have := C25_starts_inflating_T e s (by rw [hf.start]; exact hρ)
    rw [this, hf.start]
    show _ ↔ 0 ≤ e.pot.V (InflT.phi (y t0)) - InflT.dphidt (y t0) ^ 2
    rw [sub_nonneg]
  obtain ⟨tb, te, h0b, hbe, he1, hNb, hNe, hpos, hneg, hbd, hz, hep, hlen, hsel⟩ := C77_generic e.pot.V e.K hf hmono hst hclean hm
  obtain ⟨adot, hadot, haddot⟩ := C17_acceleration_T hS sol hH hV hφ
  have sg : ∀ t, 0 ≤ e.inflating (y t) → 0 ≤ exp (InflT._N (y t)) * e.inflating (y t) / 3 := fun t h => by have := exp_pos (InflT._N (y t)); positivity
  have sg' : ∀ t, e.inflating (y t) ≤ 0 → exp (InflT._N (y t)) * e.inflating (y t) / 3 ≤ 0 := fun t h =>
    div_nonpos_of_nonpos_of_nonneg (mul_nonpos_of_nonneg_of_nonpos (exp_pos _).le h) (by norm_num)
  have hI : ∀ t ∈ Icc tb te, t ∈ S := fun t ht => hsub ⟨h0b.trans ht.1, ht.2.trans he1⟩
  refine ⟨tb, te, adot, _, hadot, haddot, h0b, hbe, he1, fun t ht => sg t (hpos t ht), fun t ht hlt => sg' t (hneg t ht hlt), ?_, hNb, hNe, ?_, ?_, ⟨hlen, hsel⟩, ?_, ?_⟩
  · have hz' : e.inflating (y te) = 0 := hz
    simp only [hz', mul_zero, zero_div]
  · exact ((C25_duration_mask e.view e.pot.V e.K s).1 _).2 ⟨_, _, hNb, hNe, rfl⟩
  · exact sub_pos.2 (hmono ⟨h0b, by linarith⟩ ⟨by linarith, he1⟩ hbe)
  · have key : MonotoneOn adot (Icc tb te) := monotoneOn_of_deriv_nonneg (convex_Icc _ _)
      (fun t ht => (haddot t (hI t ht)).continuousAt.continuousWithinAt)
      (fun t ht => (haddot t (hI t (interior_subset ht))).differentiableAt.differentiableWithinAt)
      (fun t ht => by rw [(haddot t (hI t (interior_subset ht))).deriv]; exact sg t (hpos t (interior_subset ht)))
    have hval : ∀ t ∈ Icc tb te, InflT._N (y t) + log (e.H (y t)) = log (adot t) := fun t ht => by
      have : adot t = exp (InflT._N (y t)) * e.H (y t) := (hadot t (hI t ht)).unique (u.hubble t (hI t ht)).exp
      rw [this, log_mul (exp_pos _).ne' (u.expanding t (hI t ht)).ne', log_exp]
    intro a ha b hb hab
    dsimp only
    rw [hval a ha, hval b hb]
    have pa : 0 < adot a := by
      rw [(hadot a (hI a ha)).unique (u.hubble a (hI a ha)).exp]; exact mul_pos (exp_pos _) (u.expanding a (hI a ha))
    exact log_le_log pa (key ha hb hab)
  · intro hstop i hi hmi hne
    have hte : te = t1 := hstop.eq hep
    subst hte
    obtain ⟨hgi, -⟩ := hf.grid _ (List.getElem_mem hi)
    exact sg' _ (unmasked (Q := e.view) hneg hbd hz hgi (fun h => hmi ((hsel i hi).2 h)) hne)

/-- **C77, e-folds.**  The same in the e-fold formulation; the sign of the acceleration is that of the growth of `aH` (`d(aH)/dN = ä/H`). -/
theorem C77_efolds {S D : Set ℝ} {e : InflN} {y : ℝ → ℕ → ℝ} {n0 n1 : ℝ} {s : RawSol} (hS : IsOpen S)
    (sol : SolvesODE S e.rows e.call y) (hH : ∀ n ∈ S, 0 < e.H2 n (y n)) (hV : IsDerivOn D e.pot.V e.pot.dV) (hφ : ∀ n ∈ S, InflN.phi (y n) ∈ D)
    (hsub : Icc n0 n1 ⊆ S) (hρ : 0 < e.H2 n0 (y n0) * InflN.dphidN (y n0) ^ 2 / 2 + e.V (y n0)) (hf : Faithful e.view y n0 n1 s)
    (hclean : StartsCleanly (fun n => e.inflating n (y n)) n0 n1) {m : List Bool} (hm : (inflationSol e.view e.pot.V e.K s).inflation_mask = some m) :
    ∃ nb ne, ∃ daH : ℝ → ℝ, IsDerivOn S (fun n => exp n * e.H n (y n)) daH ∧ n0 ≤ nb ∧ nb < ne ∧ ne ≤ n1 ∧
      (∀ n ∈ Icc nb ne, 0 ≤ daH n) ∧ (∀ n ∈ Icc n0 nb, n < nb → daH n ≤ 0) ∧ daH ne = 0 ∧
      (inflationSol e.view e.pot.V e.K s).start.N_beg = some nb ∧ (inflationSol e.view e.pot.V e.K s).fin.N_end = some ne ∧
      (inflationSol e.view e.pot.V e.K s).N_tot = some (ne - nb) ∧
      (m.length = s.grid.length ∧ ∀ i (hi : i < s.grid.length), m[i]? = some true ↔ s.grid[i].1 ∈ Ioo nb ne) ∧
      MonotoneOn (fun n => n + log (e.H n (y n))) (Icc nb ne) ∧
      (StopsAtEnd s n1 → ∀ i (hi : i < s.grid.length), m[i]? ≠ some true → s.grid[i].1 ≠ n0 → daH s.grid[i].1 ≤ 0) := by
  have hmono : StrictMonoOn (fun x => e.view.N x (y x)) (Icc n0 n1) := strictMonoOn_id
  have h01 : n0 ∈ Icc n0 n1 := (hf.grid s.first (by simp [RawSol.grid])).1 |> fun h => by rw [hf.start] at h; exact h
  have hst : StartsInflating e.view s ↔ 0 ≤ e.view.inflating n0 (y n0) := by
    have := C25_starts_inflating_N e s (by rw [hf.start]; exact hH n0 (hsub h01)) (by rw [hf.start]; exact hρ)
    rw [this, hf.start]
    show _ ↔ 0 ≤ e.inflating n0 (y n0)
    dsimp only
    rw [mul_pow, InflN.H_sq (hH n0 (hsub h01))]
    simp only [InflN.inflating, InflN.V, sub_nonneg]
  obtain ⟨nb, ne, h0b, hbe, he1, hNb, hNe, hpos, hneg, hbd, hz, hep, hlen, hsel⟩ := C77_generic e.pot.V e.K hf hmono hst hclean hm
  have hd := C17_acceleration_N hS sol hH hV hφ
  have hI : ∀ n ∈ Icc nb ne, n ∈ S := fun n hn => hsub ⟨h0b.trans hn.1, hn.2.trans he1⟩
  have hp : ∀ n ∈ S, 0 < e.H n (y n) := fun n hn => sqrt_pos.2 (hH n hn)
  have sg : ∀ n ∈ S, 0 ≤ e.inflating n (y n) → 0 ≤ exp n * e.inflating n (y n) / (3 * e.H n (y n)) := fun n hn h => by
    have := exp_pos n; have := hp n hn; positivity
  have sg' : ∀ n ∈ S, e.inflating n (y n) ≤ 0 → exp n * e.inflating n (y n) / (3 * e.H n (y n)) ≤ 0 := fun n hn h =>
    div_nonpos_of_nonpos_of_nonneg (mul_nonpos_of_nonneg_of_nonpos (exp_pos _).le h) (by have := hp n hn; positivity)
  refine ⟨nb, ne, _, hd, h0b, hbe, he1, fun n hn => sg n (hI n hn) (hpos n hn),
    fun n hn hlt => sg' n (hsub ⟨hn.1, by linarith [hn.2]⟩) (hneg n hn hlt), ?_, hNb, hNe, ?_, ⟨hlen, hsel⟩, ?_, ?_⟩
  · have hz' : e.inflating ne (y ne) = 0 := hz
    simp only [hz', mul_zero, zero_div]
  · exact ((C25_duration_mask e.view e.pot.V e.K s).1 _).2 ⟨_, _, hNb, hNe, rfl⟩
  · have key : MonotoneOn (fun n => exp n * e.H n (y n)) (Icc nb ne) := monotoneOn_of_deriv_nonneg (convex_Icc _ _)
      (fun n hn => (hd n (hI n hn)).continuousAt.continuousWithinAt)
      (fun n hn => (hd n (hI n (interior_subset hn))).differentiableAt.differentiableWithinAt)
      (fun n hn => by rw [(hd n (hI n (interior_subset hn))).deriv]; exact sg n (hI n (interior_subset hn)) (hpos n (interior_subset hn)))
    have hval : ∀ n ∈ Icc nb ne, n + log (e.H n (y n)) = log (exp n * e.H n (y n)) := fun n hn => by
      rw [log_mul (exp_pos _).ne' (hp n (hI n hn)).ne', log_exp]
    intro a ha b hb hab
    dsimp only
    rw [hval a ha, hval b hb]
    exact log_le_log (mul_pos (exp_pos _) (hp a (hI a ha))) (key ha hb hab)
  · intro hstop i hi hmi hne
    have hte : ne = n1 := hstop.eq hep
    subst hte
    obtain ⟨hgi, -⟩ := hf.grid _ (List.getElem_mem hi)
    exact sg' _ (hsub hgi) (unmasked (Q := e.view) hneg hbd hz hgi (fun h => hmi ((hsel i hi).2 h)) hne)

/-- **C77, nothing is missed.**  A run that does not collapse, tracks an end event, and passes from acceleration to deceleration reports a mask, provided it
starts accelerating or tracks the start event and passes from deceleration to acceleration. -/
theorem C77_found {Q : EqView} {y : ℝ → ℕ → ℝ} {x0 x1 : ℝ} {s : RawSol} (V : ℝ → ℝ) (K : ℝ) (hf : Faithful Q y x0 x1 s)
    (hcoll : ¬ Seen s.events "Collapse") (hend : ∃ key ∈ ["Inflation_dir-1_term1", "Inflation_dir-1_term0"], ∃ l, s.events.get? key = some l)
    {a b : ℝ} (ha : x0 ≤ a) (hab : a < b) (hb : b ≤ x1) (hga : 0 < Q.inflating a (y a)) (hgb : Q.inflating b (y b) < 0)
    (hstart : 0 ≤ Q.inflating x0 (y x0) ∨ (Q.inflating x0 (y x0) < 0 ∧ ∃ l, s.events.get? "Inflation_dir1_term0" = some l)) :
    ∃ m, (inflationSol Q V K s).inflation_mask = some m := by
  have hE : ∃ p, EndPoint s p := by
    obtain ⟨key, hk, l, hl⟩ := hend
    obtain ⟨c, hc, -⟩ := (hf.ends key hk l hl).complete a b ha hab hb (by linarith) (by linarith)
    obtain ⟨p, l', rfl⟩ : ∃ p l', l = p :: l' := by
      cases l with
      | nil => simp at hc
      | cons p l' => exact ⟨p, l', rfl⟩
    by_cases h1 : Seen s.events "Inflation_dir-1_term1"
    · obtain ⟨q, hq⟩ := h1; exact ⟨q, Or.inl hq⟩
    · simp only [List.mem_cons, List.not_mem_nil, or_false] at hk
      rcases hk with rfl | rfl
      · exact absurd ⟨p, l', hl⟩ h1
      · exact ⟨p, Or.inr ⟨h1, l', hl⟩⟩
  obtain ⟨pe, hpe⟩ := hE
  have hB : ∃ n, (inflationSol Q V K s).start.N_beg = some n := by
    have hH : ∀ p, ((StartsInflating Q s ∧ p = s.first) ∨ (¬ StartsInflating Q s ∧ Observed s.events "Inflation_dir1_term0" p)) →
        ∃ n, (inflationSol Q V K s).start.N_beg = some n := by
      intro p hp
      cases hn : (inflationSol Q V K s).start.N_beg with
      | some n => exact ⟨n, rfl⟩
      | none =>
        exfalso
        simp only [inflationSol, postStart] at hn
        rw [if_neg (fun h => hcoll (C25.firstEvent_isSome.1 h))] at hn
        rcases hp with ⟨hi, -⟩ | ⟨hi, ho⟩
        · unfold StartsInflating at hi
          rw [if_pos hi] at hn; cases hn
        · unfold StartsInflating at hi
          rw [if_neg hi, C25.firstEvent_eq_some.2 ho] at hn; cases hn
    by_cases hi : StartsInflating Q s
    · exact hH _ (Or.inl ⟨hi, rfl⟩)
    · rcases hstart with h0 | ⟨h0, l, hl⟩
      · exact absurd (Or.inl (by rw [hf.start]; exact h0)) hi
      · have hxa : x0 ≠ a := by rintro rfl; linarith
        obtain ⟨c, hc, -⟩ := (hf.begins l hl).complete x0 a le_rfl (lt_of_le_of_ne ha hxa) (by linarith) (by linarith) (by linarith)
        obtain ⟨p, l', rfl⟩ : ∃ p l', l = p :: l' := by
          cases l with
          | nil => simp at hc
          | cons p l' => exact ⟨p, l', rfl⟩
        exact hH p (Or.inr ⟨hi, l', hl⟩)
  obtain ⟨n, hn⟩ := hB
  have hne := ((C25_end Q V K s).1 pe hpe).1
  have hm := (C25_duration_mask Q V K s)
  cases h : (inflationSol Q V K s).inflation_mask with
  | some m => exact ⟨m, rfl⟩
  | none =>
    exfalso
    have h1 := hm.2.1.1 h
    rw [(hm.1 _).2 ⟨_, _, hn, hne, rfl⟩] at h1
    cases h1

/-! ## Non-vacuity: the Hamilton–Jacobi solution `H = φ`, which inflates until `t = -1/√2` -/

theorem hj_inflating (t : ℝ) : Exact.hjT.inflating (Exact.yHjT t) = 12 * t ^ 2 - 6 := by
  simp only [InflT.inflating, InflT.V, InflT.phi, InflT.dphidt, Exact.hjT, Exact.hjPot, Exact.yHjT]; ring

/-- a run from `t = -3` that stops at the end of inflation -/
noncomputable def hjRun : RawSol :=
  ⟨(-3, Exact.yHjT (-3)), [(-1, Exact.yHjT (-1)), (-√(1 / 2), Exact.yHjT (-√(1 / 2)))], [("Inflation_dir-1_term1", [(-√(1 / 2), Exact.yHjT (-√(1 / 2)))])]⟩

theorem hj_root : √(1 / 2 : ℝ) ^ 2 = 1 / 2 ∧ 0 < √(1 / 2 : ℝ) ∧ √(1 / 2 : ℝ) < 1 := by
  have h1 : √(1 / 2 : ℝ) ^ 2 = 1 / 2 := sq_sqrt (by norm_num)
  have h2 : 0 < √(1 / 2 : ℝ) := sqrt_pos.2 (by norm_num)
  exact ⟨h1, h2, by nlinarith⟩

theorem hj_faithful : Faithful Exact.hjT.view Exact.yHjT (-3) (-√(1 / 2)) hjRun := by
  obtain ⟨h1, h2, h3⟩ := hj_root
  have neg : ∀ x, x < -√(1 / 2) → 0 < 12 * x ^ 2 - 6 := fun x hx => by nlinarith
  refine ⟨rfl, fun p hp => ?_, fun key l hl p hp => ?_, fun l hl => ?_, fun key hk l hl => ?_⟩
  · simp only [RawSol.grid, hjRun, List.mem_cons, List.not_mem_nil, or_false] at hp
    rcases hp with rfl | rfl | rfl <;> refine ⟨⟨?_, ?_⟩, rfl⟩ <;> dsimp only <;> linarith
  · simp only [hjRun, Dict.get?_cons, Dict.get?_nil] at hl
    split_ifs at hl
    rw [← Option.some.inj hl, List.mem_singleton] at hp
    rw [hp]
  · simp [hjRun, Dict.get?_cons] at hl
  · simp only [hjRun, Dict.get?_cons, Dict.get?_nil] at hl
    split_ifs at hl
    rw [← Option.some.inj hl]
    simp only [List.map_cons, List.map_nil]
    have hg : (fun x => Exact.hjT.view.inflating x (Exact.yHjT x)) = fun x => 12 * x ^ 2 - 6 := funext hj_inflating
    rw [hg]
    refine ⟨by simp, fun c hc => ?_, fun a b ha hab hb hga hgb => ?_⟩
    · rw [List.mem_singleton] at hc
      subst hc
      refine ⟨by linarith, le_rfl, ?_, ⟨-3, le_rfl, by linarith, fun x hx _ => ?_⟩, fun h => absurd h (lt_irrefl _)⟩
      · rw [neg_sq, h1]; norm_num
      · have := neg x hx.2; linarith
    · exfalso
      rcases hb.lt_or_eq with k | k
      · have := neg b k; linarith
      · subst k
        rw [neg_sq, h1] at hgb
        norm_num at hgb

/-- All hypotheses of `C77_time` and `C77_found`-style conclusions hold for that run, and the middle grid point is selected. -/
example : ∃ m, (inflationSol Exact.hjT.view Exact.hjT.pot.V Exact.hjT.K hjRun).inflation_mask = some m ∧ m[1]? = some true ∧ m[2]? ≠ some true ∧ StopsAtEnd hjRun (-√(1 / 2)) := by
  obtain ⟨h1, h2, h3⟩ := hj_root
  have hc : ¬ Seen hjRun.events "Collapse" := by
    rintro ⟨p, l, hl⟩; simp [hjRun, Dict.get?_cons] at hl
  have hI : StartsInflating Exact.hjT.view hjRun := Or.inl (by
    show 0 ≤ Exact.hjT.inflating (Exact.yHjT (-3)); rw [hj_inflating]; norm_num)
  have hI' := hI
  unfold StartsInflating at hI'
  have hE : Observed hjRun.events "Inflation_dir-1_term1" (-√(1 / 2), Exact.yHjT (-√(1 / 2))) := ⟨[], by simp [hjRun, Dict.get?_cons]⟩
  have hm : ∃ m, (inflationSol Exact.hjT.view Exact.hjT.pot.V Exact.hjT.K hjRun).inflation_mask = some m := by
    have hN := ((C25_end Exact.hjT.view Exact.hjT.pot.V Exact.hjT.K hjRun).1 _ (Or.inl hE)).1
    have hB : (inflationSol Exact.hjT.view Exact.hjT.pot.V Exact.hjT.K hjRun).start.N_beg = some (Exact.hjT.view.N (-3) (Exact.yHjT (-3))) := by
      refine (C25_start _ _ _ _ _).2 ⟨hc, hjRun.first, rfl, ?_, Or.inl ⟨hI, rfl⟩⟩
      simp only [inflationSol, postStart]
      rw [if_neg (fun h => hc (C25.firstEvent_isSome.1 h)), if_pos hI']
    have hD := C25_duration_mask Exact.hjT.view Exact.hjT.pot.V Exact.hjT.K hjRun
    cases h : (inflationSol Exact.hjT.view Exact.hjT.pot.V Exact.hjT.K hjRun).inflation_mask with
    | some m => exact ⟨m, rfl⟩
    | none =>
      have h' := hD.2.1.1 h
      rw [(hD.1 _).2 ⟨_, _, hB, hN, rfl⟩] at h'
      cases h'
  obtain ⟨m, hm⟩ := hm
  have hstop : StopsAtEnd hjRun (-√(1 / 2)) := ⟨⟨_, hE⟩, fun p hp => by rw [C25.observed_unique hp hE]⟩
  obtain ⟨tb, te, adot, addot, -, -, h0b, hbe, he1, hpos, hneg, hz, hNb, hNe, -, -, ⟨-, hsel⟩, -, -⟩ :=
    C77_time (S := Iio 0) (D := univ) isOpen_Iio (convex_Iio 0) Exact.hjT_sol (fun t ht => by
      rw [Exact.hjT_H2]; have : t < 0 := ht; exact pow_pos (by linarith) 2) Exact.hjPot_chain.d1 (fun _ _ => mem_univ _)
      (fun t ht => by have := ht.2; show t < 0; linarith)
      (by simp only [InflT.V, InflT.phi, InflT.dphidt, Exact.hjT, Exact.hjPot, Exact.yHjT]; norm_num) hj_faithful
      (fun h => by simp only [hj_inflating] at h; norm_num at h) hm
  -- the phase is the whole run
  have hb : tb = -3 := by
    have : (inflationSol Exact.hjT.view Exact.hjT.pot.V Exact.hjT.K hjRun).start.N_beg = some (InflT._N (Exact.yHjT (-3))) := by
      simp only [inflationSol, postStart]
      rw [if_neg (fun h => hc (C25.firstEvent_isSome.1 h)), if_pos hI']
      rfl
    rw [hNb] at this
    have := Option.some.inj this
    simp only [InflT._N, Exact.yHjT] at this
    nlinarith
  have he : te = -√(1 / 2) := by
    have : (inflationSol Exact.hjT.view Exact.hjT.pot.V Exact.hjT.K hjRun).fin.N_end = some (InflT._N (Exact.yHjT (-√(1 / 2)))) :=
      ((C25_end Exact.hjT.view Exact.hjT.pot.V Exact.hjT.K hjRun).1 _ (Or.inl hE)).1
    rw [hNe] at this
    have := Option.some.inj this
    simp only [InflT._N, Exact.yHjT] at this
    nlinarith
  refine ⟨m, hm, (hsel 1 (by simp [hjRun, RawSol.grid])).2 ?_, fun h => ?_, hstop⟩
  · rw [hb, he]; simp only [hjRun, RawSol.grid]; exact ⟨by norm_num, by show (-1 : ℝ) < _; linarith⟩
  · have := (hsel 2 (by simp [hjRun, RawSol.grid])).1 h
    rw [he] at this
    exact lt_irrefl _ this.2

/-- a run that goes on after inflation: the end event is not terminal -/
noncomputable def hjRun2 : RawSol :=
  ⟨(-3, Exact.yHjT (-3)), [(-1, Exact.yHjT (-1)), (-1 / 10, Exact.yHjT (-1 / 10))], [("Inflation_dir-1_term0", [(-√(1 / 2), Exact.yHjT (-√(1 / 2)))])]⟩

theorem hj_faithful2 : Faithful Exact.hjT.view Exact.yHjT (-3) (-1 / 10) hjRun2 := by
  obtain ⟨h1, h2, h3⟩ := hj_root
  have neg : ∀ x, x < -√(1 / 2) → 0 < 12 * x ^ 2 - 6 := fun x hx => by nlinarith
  have pos : ∀ x, -√(1 / 2) < x → x ≤ -1 / 10 → 12 * x ^ 2 - 6 < 0 := fun x hx hx' => by nlinarith
  have h4 : -√(1 / 2) < -1 / 10 := by nlinarith
  refine ⟨rfl, fun p hp => ?_, fun key l hl p hp => ?_, fun l hl => ?_, fun key hk l hl => ?_⟩
  · simp only [RawSol.grid, hjRun2, List.mem_cons, List.not_mem_nil, or_false] at hp
    rcases hp with rfl | rfl | rfl <;> refine ⟨⟨?_, ?_⟩, rfl⟩ <;> norm_num
  · simp only [hjRun2, Dict.get?_cons, Dict.get?_nil] at hl
    split_ifs at hl
    rw [← Option.some.inj hl, List.mem_singleton] at hp
    rw [hp]
  · simp [hjRun2, Dict.get?_cons] at hl
  · simp only [hjRun2, Dict.get?_cons, Dict.get?_nil] at hl
    split_ifs at hl
    rw [← Option.some.inj hl]
    simp only [List.map_cons, List.map_nil]
    have hg : (fun x => Exact.hjT.view.inflating x (Exact.yHjT x)) = fun x => 12 * x ^ 2 - 6 := funext hj_inflating
    rw [hg]
    refine ⟨by simp, fun c hc => ?_, fun a b ha hab hb hga hgb => ⟨-√(1 / 2), List.mem_singleton_self _, ?_, ?_⟩⟩
    · rw [List.mem_singleton] at hc
      subst hc
      refine ⟨by linarith, h4.le, ?_, ⟨-3, le_rfl, by linarith, fun x hx _ => ?_⟩, fun _ => ⟨-1 / 10, h4, fun x hx => ?_⟩⟩
      · rw [neg_sq, h1]; norm_num
      · have := neg x hx.2; linarith
      · have := pos x hx.1 hx.2; linarith
    · by_contra hc
      have := pos a (not_le.1 hc) (by linarith)
      linarith
    · by_contra hc
      have := neg b (not_le.1 hc)
      linarith

/-- `C77_found` applies to that run. -/
example : ∃ m, (inflationSol Exact.hjT.view Exact.hjT.pot.V Exact.hjT.K hjRun2).inflation_mask = some m :=
  C77_found _ _ hj_faithful2 (by rintro ⟨p, l, hl⟩; simp [hjRun2, Dict.get?_cons] at hl)
    ⟨"Inflation_dir-1_term0", by simp, _, by simp [hjRun2, Dict.get?_cons]; rfl⟩ (a := -3) (b := -1 / 10) le_rfl (by norm_num) le_rfl
    (by show 0 < Exact.hjT.inflating (Exact.yHjT (-3)); rw [hj_inflating]; norm_num)
    (by show Exact.hjT.inflating (Exact.yHjT (-1 / 10)) < 0; rw [hj_inflating]; norm_num)
    (Or.inl (by show 0 ≤ Exact.hjT.inflating (Exact.yHjT (-3)); rw [hj_inflating]; norm_num))

end Primpy
