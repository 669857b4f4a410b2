import Verif.Props.C77
import Verif.Lemmas.Calibration
import Verif.Lemmas.Exact
import Verif.Props.C34
import Mathlib.Analysis.SpecialFunctions.Trigonometric.DerivHyp
import Mathlib.Analysis.SpecialFunctions.Arsinh

/-!
# C78: backward integrations, and calibrating them with a forward solution

`calibrate_scale_factor(background=...)` is documented for splitting a computation into a forward and a backward integration.  Here: what the copied calibration
guarantees (both halves share one e-fold and one length scale), and what it does not (a backward run never has points marked as inflating, so it gets no modes).
-/

namespace Primpy
open Real Set Spec

/-- The integrator ran from `x0` down to `x1`, sampled the trajectory `y`, and recorded the tracked inflation events faithfully along its own direction (the
direction of an event refers to the direction of integration, `scipy.integrate._ivp.ivp.find_active_events`): in the reflected variable `z = -x`. -/
structure FaithfulBack (Q : EqView) (y : ℝ → ℕ → ℝ) (x0 x1 : ℝ) (s : RawSol) : Prop where
  start : s.first = (x0, y x0)
  grid : ∀ p ∈ s.grid, p.1 ∈ Icc x1 x0 ∧ p.2 = y p.1
  events : ∀ key l, s.events.get? key = some l → ∀ p ∈ l, p.2 = y p.1
  begins : ∀ l, s.events.get? "Inflation_dir1_term0" = some l →
    Detects (fun z => Q.inflating (-z) (y (-z))) (-x0) (-x1) 1 (l.map fun p => -p.1)
  ends : ∀ key ∈ ["Inflation_dir-1_term1", "Inflation_dir-1_term0"], ∀ l, s.events.get? key = some l →
    Detects (fun z => Q.inflating (-z) (y (-z))) (-x0) (-x1) (-1) (l.map fun p => -p.1)

/-- Generic form: the point reported as the end of inflation is *earlier* than the one reported as its beginning. -/
theorem C78_generic {Q : EqView} {y : ℝ → ℕ → ℝ} {x0 x1 : ℝ} {s : RawSol} (V : ℝ → ℝ) (K : ℝ) (hf : FaithfulBack Q y x0 x1 s)
    (hmono : StrictMonoOn (fun x => Q.N x (y x)) (Icc x1 x0)) (hstart : StartsInflating Q s ↔ 0 ≤ Q.inflating x0 (y x0))
    {m : List Bool} (hm : (inflationSol Q V K s).inflation_mask = some m) :
    ∃ xb xe, x1 ≤ xe ∧ xe < xb ∧ xb ≤ x0 ∧ (inflationSol Q V K s).start.N_beg = some (Q.N xb (y xb)) ∧ (inflationSol Q V K s).fin.N_end = some (Q.N xe (y xe)) ∧
      Q.inflating xe (y xe) = 0 ∧ (∃ d, (inflationSol Q V K s).N_tot = some d ∧ d < 0) ∧ m = List.replicate s.grid.length false := by
  obtain ⟨hN, hnone, hsel⟩ := C25_duration_mask Q V K s
  obtain ⟨d, hd⟩ : ∃ d, (inflationSol Q V K s).N_tot = some d := by
    cases hN' : (inflationSol Q V K s).N_tot with
    | none => rw [hnone.2 hN'] at hm; cases hm
    | some d => exact ⟨d, rfl⟩
  obtain ⟨b, e, hb, he, hde⟩ := (hN d).1 hd
  obtain ⟨hlen, hsel⟩ := hsel m b e hb he hm
  obtain ⟨pe, hpe⟩ : ∃ p, EndPoint s p := by
    by_contra hc
    have := ((C25_end Q V K s).2 hc).1
    rw [he] at this; cases this
  have he' : e = Q.N pe.1 pe.2 := by
    have := ((C25_end Q V K s).1 pe hpe).1
    rw [he] at this; exact Option.some.inj this
  obtain ⟨hpe2, le, hle⟩ : pe.2 = y pe.1 ∧ ∃ l, Detects (fun z => Q.inflating (-z) (y (-z))) (-x0) (-x1) (-1) (-pe.1 :: l) := by
    rcases hpe with ⟨l, hl⟩ | ⟨-, l, hl⟩
    · exact ⟨hf.events _ _ hl pe (List.mem_cons_self ..), _, hf.ends _ (by simp) _ hl⟩
    · exact ⟨hf.events _ _ hl pe (List.mem_cons_self ..), _, hf.ends _ (by simp) _ hl⟩
  have se := hle.sound _ (List.mem_cons_self ..)
  have sr := se.root
  simp only [neg_neg] at sr
  have sa := se.after
  have sb := se.before
  obtain ⟨-, pb, hb', -, hpb⟩ := (C25_start Q V K s b).1 hb
  have core : ∃ xb, pb = (xb, y xb) ∧ xb ≤ x0 ∧ pe.1 < xb := by
    rcases hpb with ⟨-, rfl⟩ | ⟨hi, l, hl⟩
    · exact ⟨x0, hf.start, le_rfl, by linarith⟩
    · have hi : Q.inflating x0 (y x0) < 0 := by rw [hstart] at hi; exact not_le.1 hi
      have hup := hf.begins _ hl
      rw [List.map_cons] at hup
      have su := (hup.sound _ (List.mem_cons_self ..)).after
      have hlt := up_first hup hle (by rw [neg_neg]; exact hi)
      exact ⟨pb.1, by rw [← hf.events _ _ hl pb (List.mem_cons_self ..)], by linarith, by linarith⟩
  obtain ⟨xb, rfl, h0, hlt⟩ := core
  rw [hpe2] at he'
  have hx : Q.N pe.1 (y pe.1) < Q.N xb (y xb) := hmono ⟨by linarith, by linarith⟩ ⟨by linarith, h0⟩ hlt
  refine ⟨xb, pe.1, by linarith, hlt, h0, by rw [hb, hb'], by rw [he, he'], sr, ⟨d, hd, ?_⟩, ?_⟩
  · rw [hde, he', hb']; dsimp only; linarith
  · refine List.eq_replicate_iff.2 ⟨hlen, fun v hv => ?_⟩
    obtain ⟨i, hi, rfl⟩ := List.getElem_of_mem hv
    cases hmi : m[i] with
    | false => rfl
    | true =>
      exfalso
      have h1 := (hsel i (by rw [← hlen]; exact hi)).1 (by rw [List.getElem?_eq_getElem hi, hmi])
      rw [he', hb'] at h1
      dsimp only at h1
      linarith [h1.1, h1.2]

/-- **C78, backward runs in cosmic time.**  If the background equations are integrated backwards in time through an expanding universe, and the events are recorded
faithfully, then whenever a duration is reported it is negative, `_N_end < _N_beg`, and not a single point is marked as inflating. -/
theorem C78_backward_time {S : Set ℝ} {e : InflT} {y : ℝ → ℕ → ℝ} {t0 t1 : ℝ} {s : RawSol} (hS : IsOpen S) (hc : Convex ℝ S)
    (sol : SolvesODE S e.rows e.call y) (hH : ∀ t ∈ S, 0 < e.H2 (y t)) (hsub : Icc t1 t0 ⊆ S)
    (hρ : 0 < InflT.dphidt (y t0) ^ 2 / 2 + e.V (y t0)) (hf : FaithfulBack e.view y t0 t1 s) {m : List Bool}
    (hm : (inflationSol e.view e.pot.V e.K s).inflation_mask = some m) :
    (∃ d, (inflationSol e.view e.pot.V e.K s).N_tot = some d ∧ d < 0) ∧ m = List.replicate s.grid.length false ∧
      ∃ tb te, te < tb ∧ (inflationSol e.view e.pot.V e.K s).start.N_beg = some (InflT._N (y tb)) ∧ (inflationSol e.view e.pot.V e.K s).fin.N_end = some (InflT._N (y te)) := by
  have hst : StartsInflating e.view s ↔ 0 ≤ e.view.inflating t0 (y t0) := by
    have := C25_starts_inflating_T e s (by rw [hf.start]; exact hρ)
    rw [this, hf.start]
    show _ ↔ 0 ≤ e.pot.V (InflT.phi (y t0)) - InflT.dphidt (y t0) ^ 2
    rw [sub_nonneg]
  obtain ⟨tb, te, -, h1, -, h2, h3, -, h4, h5⟩ := C78_generic e.pot.V e.K hf ((C20_N_T hS hc sol hH).mono hsub) hst hm
  exact ⟨h4, h5, tb, te, h1, h2, h3⟩

/-- **C78, backward runs in e-folds.** -/
theorem C78_backward_efolds {e : InflN} {y : ℝ → ℕ → ℝ} {n0 n1 : ℝ} {s : RawSol} (hH : 0 < e.H2 n0 (y n0))
    (hρ : 0 < e.H2 n0 (y n0) * InflN.dphidN (y n0) ^ 2 / 2 + e.V (y n0)) (hf : FaithfulBack e.view y n0 n1 s) {m : List Bool}
    (hm : (inflationSol e.view e.pot.V e.K s).inflation_mask = some m) :
    (∃ d, (inflationSol e.view e.pot.V e.K s).N_tot = some d ∧ d < 0) ∧ m = List.replicate s.grid.length false ∧
      ∃ nb ne, ne < nb ∧ (inflationSol e.view e.pot.V e.K s).start.N_beg = some nb ∧ (inflationSol e.view e.pot.V e.K s).fin.N_end = some ne := by
  have hst : StartsInflating e.view s ↔ 0 ≤ e.view.inflating n0 (y n0) := by
    have := C25_starts_inflating_N e s (by rw [hf.start]; exact hH) (by rw [hf.start]; exact hρ)
    rw [this, hf.start]
    show _ ↔ 0 ≤ e.inflating n0 (y n0)
    dsimp only
    rw [mul_pow, InflN.H_sq hH]
    simp only [InflN.inflating, InflN.V, sub_nonneg]
  obtain ⟨nb, ne, -, h1, -, h2, h3, -, h4, h5⟩ := C78_generic e.pot.V e.K hf (fun a _ b _ h => h) hst hm
  exact ⟨h4, h5, nb, ne, h1, h2, h3⟩

namespace Cal

theorem maskSel_replicate_false {α : Type} (xs : List α) (n : ℕ) : maskSel xs (List.replicate n false) = [] := by
  unfold maskSel
  refine List.filterMap_eq_nil_iff.2 fun p hp => ?_
  have := (List.of_mem_zip hp).2
  rw [List.mem_replicate] at this
  rw [this.2]; rfl

theorem andMask_replicate_false (n : ℕ) (m : List Bool) : ∃ k, andMask (List.replicate n false) m = List.replicate k false := by
  refine ⟨(andMask (List.replicate n false) m).length, List.eq_replicate_iff.2 ⟨rfl, fun v hv => ?_⟩⟩
  unfold andMask at hv
  obtain ⟨i, hi, rfl⟩ := List.getElem_of_mem hv
  simp

/-- What `sol.calibrate_scale_factor(background=b)` reads from a calibrated solution `b`. -/
def asBackground (s : CalState) : Option Background :=
  match s.infl, s.cal with
  | some I, some c => some ⟨c.N_star, c.delta_N_calib, c.logaH_star, c.N_cross_, c.N_reh_, I.N_end⟩
  | _, _ => none

theorem flat_background {u : SI} {s s' : CalState} {a : CalArgs} {b : Background} (hK : s.K = 0) (hb : a.background = some b)
    (hok : calibrate u s a = .ok s') : ∃ I, s.infl = some I ∧ a.N_star = some b.N_star ∧ 0 < b.N_star ∧ ∃ mask, mask = andMask I.mask (firstOccurrence
      (s.logaH.map fun l => l + log SI.K_STAR - b.logaH_star)) ∧ s' = finish u s true
        { a0 := 1, N0 := 0, Omega_K0 := 0, a0_Mpc := exp b.logaH_star / SI.K_STAR, N_star := b.N_star,
          N_cross_ := b.N_cross_, logaH_star := b.logaH_star, delta_N_calib := b.delta_N_calib, N_reh_ := b.N_reh_,
          infl := { I with N_end := b.N_end, mask := mask },
          logk := maskSel (s.logaH.map fun l => l + log SI.K_STAR - b.logaH_star) mask, sticky := s.sticky } := by
  obtain ⟨p, hp, rfl⟩ := calibrate_flat hK hok
  obtain ⟨-, ns, nc, ls, δ, nr, I, st, hsel, rfl⟩ := flat_ok hp
  unfold flatSel at hsel
  rw [hb] at hsel
  dsimp only at hsel
  unfold flatBackground at hsel
  cases hN : a.N_star with
  | none => rw [hN] at hsel; cases hsel
  | some N =>
    rw [hN] at hsel
    dsimp only at hsel
    by_cases hc : N ≤ 0 ∨ N ≠ b.N_star
    · rw [if_pos hc] at hsel; cases hsel
    · rw [if_neg hc] at hsel
      push Not at hc
      cases hI : s.infl with
      | none => rw [hI] at hsel; cases hsel
      | some I' =>
        rw [hI] at hsel
        dsimp only at hsel
        have := Except.ok.inj hsel
        simp only [Prod.mk.injEq] at this
        obtain ⟨rfl, rfl, rfl, rfl, rfl, rfl, rfl⟩ := this
        exact ⟨I', rfl, by rw [hc.2], by rw [← hc.2]; exact hc.1, _, rfl, by rw [hb]; rfl⟩

end Cal

open Cal in
/-- **C78, one common scale.**  If a flat solution `s2` copies the calibration of a calibrated flat solution `s1` (`N_star` matching), both have the same `a0`, `N0`,
`a0_Mpc`, `N_star`, `N_cross`, `N_end`, `N_reh` and offset; points of the two integrations with the same `_N` have the same calibrated `N`, and with the same `_H` the
same comoving Hubble horizon.  The spectra and reheating attributes of `s2` are left as they were, and nothing is warned. -/
theorem C78_common_scale {u : SI} {s1 s2 s2' : CalState} {a : CalArgs} {b : Background} {c1 : Calib}
    (h1 : ∃ s0 a0, s0.K = 0 ∧ calibrate u s0 a0 = .ok s1) (hc1 : s1.cal = some c1) (hb : asBackground s1 = some b) (ha : a.background = some b)
    (hK : s2.K = 0) (hok : calibrate u s2 a = .ok s2') :
    ∃ c2, s2'.cal = some c2 ∧ c2.a0 = c1.a0 ∧ c2.N0 = c1.N0 ∧ c2.Omega_K0 = c1.Omega_K0 ∧ c2.a0_Mpc = c1.a0_Mpc ∧ c2.N_star = c1.N_star ∧ c2.N_cross = c1.N_cross ∧
      c2.N_end = c1.N_end ∧ c2.N_reh = c1.N_reh ∧ c2.delta_N_calib = c1.delta_N_calib ∧
      (∀ i j : ℕ, s1.N[i]? = s2.N[j]? → c1.N[i]? = c2.N[j]? ∧ (s1.H[i]? = s2.H[j]? → c1.cHH_Mpc[i]? = c2.cHH_Mpc[j]?)) ∧
      s2'.sticky = s2.sticky ∧ c2.warning = 0 ∧ a.N_star = some c1.N_star ∧ 0 < c1.N_star := by
  obtain ⟨s0, a0, hK0, hok0⟩ := h1
  obtain ⟨p, hp, rfl⟩ := calibrate_flat hK0 hok0
  obtain ⟨-, ns, nc, ls, δ, nr, I, st, -, rfl⟩ := flat_ok hp
  have hc1' := Option.some.inj hc1
  have hb' := Option.some.inj hb
  subst hc1'
  subst hb'
  obtain ⟨I2, -, hN, hpos, mask, -, rfl⟩ := flat_background hK ha hok
  refine ⟨_, rfl, rfl, rfl, rfl, rfl, rfl, rfl, rfl, rfl, rfl, fun i j hij => ?_, rfl, ?_, hN, hpos⟩
  · have hij : s0.N[i]? = s2.N[j]? := hij
    have key : (s0.N.map (· + δ))[i]? = (s2.N.map (· + δ))[j]? := by
      rw [List.getElem?_map, List.getElem?_map, hij]
    refine ⟨key, fun hH => ?_⟩
    have hH : s0.H[i]? = s2.H[j]? := hH
    show (List.zipWith _ _ s0.H)[i]? = (List.zipWith _ _ s2.H)[j]?
    simp only [List.getElem?_zipWith, List.getElem?_map]
    rw [hij, hH]
  · simp [finish]

open Cal in
/-- **C78, no modes.**  If a flat backward run (nothing marked as inflating) copies a calibration, the call succeeds for a matching `N_star > 0`, but the lists of modes
`logk`, `k_iMpc`, `_k` are empty: the mask is not recomputed although `_N_end` is overwritten.  If no mask exists the call raises an `AttributeError`. -/
theorem C78_no_modes (u : SI) (s : CalState) (a : CalArgs) (b : Background) (hK : s.K = 0) (hb : a.background = some b) (hΩ : ∀ Ω, a.Omega_K0 = some Ω → Ω = 0)
    (hN : a.N_star = some b.N_star) (hpos : 0 < b.N_star) :
    (s.infl = none → calibrate u s a = .error (.attributeError "inflation_mask")) ∧
    (∀ I n, s.infl = some I → I.mask = List.replicate n false →
      ∃ s' c, calibrate u s a = .ok s' ∧ s'.cal = some c ∧ c.logk = [] ∧ c.k_iMpc = [] ∧ c.k = [] ∧ ∃ I', s'.infl = some I' ∧ I'.N_end = b.N_end ∧ true ∉ I'.mask) := by
  have hc : ¬ (b.N_star ≤ 0 ∨ b.N_star ≠ b.N_star) := by
    rintro (h | h)
    · exact absurd hpos (not_lt.2 h)
    · exact h rfl
  have hΩ' : ¬ ∃ Ω, a.Omega_K0 = some Ω ∧ Ω ≠ 0 := fun ⟨Ω, h1, h2⟩ => h2 (hΩ Ω h1)
  constructor
  · intro hI
    unfold calibrate
    rw [if_pos hK]
    unfold flat
    rw [if_neg hΩ']
    unfold flatSel
    rw [hb]
    dsimp only
    unfold flatBackground
    rw [hN]
    dsimp only
    rw [if_neg hc, hI]
  · intro I n hI hmask
    obtain ⟨s', hs'⟩ : ∃ s', calibrate u s a = .ok s' := by
      unfold calibrate
      rw [if_pos hK]
      unfold flat
      rw [if_neg hΩ']
      unfold flatSel
      rw [hb]
      dsimp only
      unfold flatBackground
      rw [hN]
      dsimp only
      rw [if_neg hc, hI]
      exact ⟨_, rfl⟩
    obtain ⟨I2, hI2, -, -, mask, hm, rfl⟩ := flat_background hK hb hs'
    obtain rfl : I = I2 := Option.some.inj (hI.symm.trans hI2)
    rw [hmask] at hm
    obtain ⟨k, hk⟩ := andMask_replicate_false n (firstOccurrence (s.logaH.map fun l => l + log SI.K_STAR - b.logaH_star))
    rw [hk] at hm
    subst hm
    refine ⟨_, _, hs', rfl, ?_, ?_, ?_, _, rfl, rfl, ?_⟩
    · exact maskSel_replicate_false _ _
    · dsimp only; rw [maskSel_replicate_false]; rfl
    · dsimp only; rw [maskSel_replicate_false]; rfl
    · simp [List.mem_replicate]

/-! ## Non-vacuity: kinetic domination before a cosmological constant, `a³ = sinh 3t`, integrated backwards -/

namespace Exact

/-- flat, cosmic time, constant potential -/
noncomputable def kinT : InflT := ⟨0, ccPot, false⟩
/-- `φ = (√6/3) ln tanh(3t/2)`, `dφ/dt = √6/sinh 3t`, `N = (1/3) ln sinh 3t` -/
noncomputable def yKinT (t : ℝ) : ℕ → ℝ
  | 0 => √6 / 3 * (log (sinh (3 / 2 * t)) - log (cosh (3 / 2 * t))) | 1 => √6 / sinh (3 * t) | _ => 1 / 3 * log (sinh (3 * t))

theorem sinh_pos' {t : ℝ} (ht : 0 < t) : 0 < sinh (3 * t) := sinh_pos_iff.2 (by linarith)

theorem kinT_H2 {t : ℝ} (ht : 0 < t) : kinT.H2 (yKinT t) = (cosh (3 * t) / sinh (3 * t)) ^ 2 := by
  have h := (sinh_pos' ht).ne'
  have h6 : √6 ^ 2 = (6 : ℝ) := sq_sqrt (by norm_num)
  have hc := cosh_sq (3 * t)
  simp only [InflT.H2, T.get_H2, InflT.V, InflT.phi, InflT.dphidt, kinT, ccPot, yKinT, div_pow, h6, hc]
  field_simp
  ring

theorem kinT_H {t : ℝ} (ht : 0 < t) : kinT.H (yKinT t) = cosh (3 * t) / sinh (3 * t) := by
  rw [InflT.H, kinT_H2 ht, sqrt_sq (div_pos (cosh_pos _) (sinh_pos' ht)).le]

theorem kinT_sol : SolvesODE (Ioi 0) kinT.rows kinT.call yKinT := by
  intro t ht i hi
  have ht : 0 < t := ht
  have r : kinT.rows = 3 := by rw [InflT.rows_eq]; rfl
  rw [r] at hi
  have h3 : HasDerivAt (fun t : ℝ => 3 * t) 3 t := by simpa using (hasDerivAt_id t).const_mul (3 : ℝ)
  have h32 : HasDerivAt (fun t : ℝ => 3 / 2 * t) (3 / 2) t := by simpa using (hasDerivAt_id t).const_mul (3 / 2 : ℝ)
  have hs := (sinh_pos' ht).ne'
  have hs2 : sinh (3 / 2 * t) ≠ 0 := (sinh_pos_iff.2 (by linarith)).ne'
  have hc2 := (cosh_pos (3 / 2 * t)).ne'
  interval_cases i
  · rw [InflT.call0]
    refine hderiv (((h32.sinh.log hs2).fun_sub (h32.cosh.log hc2)).const_mul (√6 / 3)) ?_
    have e : sinh (3 * t) = 2 * sinh (3 / 2 * t) * cosh (3 / 2 * t) := by rw [← sinh_two_mul]; ring_nf
    have e2 := cosh_sq (3 * t / 2)
    simp only [InflT.dphidt, yKinT, e]
    field_simp
    rw [e2]; ring
  · rw [InflT.call1, kinT_H ht]
    refine hderiv ((hasDerivAt_const t √6).fun_div h3.sinh hs) ?_
    simp only [InflT.dphidt, InflT.dVdphi, kinT, ccPot, InflT.phi, yKinT]
    field_simp
    ring
  · rw [InflT.call2, kinT_H ht]
    refine hderiv ((h3.sinh.log hs).const_mul (1 / 3)) ?_
    field_simp

theorem kin_inflating {t : ℝ} (ht : 0 < t) : kinT.inflating (yKinT t) = 3 - 6 / sinh (3 * t) ^ 2 := by
  have h6 : √6 ^ 2 = (6 : ℝ) := sq_sqrt (by norm_num)
  simp only [InflT.inflating, InflT.V, InflT.phi, InflT.dphidt, kinT, ccPot, yKinT, div_pow, h6]

/-- the onset of inflation: `sinh² 3t = 2` -/
noncomputable def kinOn : ℝ := arsinh √2 / 3

theorem kinOn_spec : sinh (3 * kinOn) ^ 2 = 2 ∧ 0 < kinOn ∧ kinOn < 1 := by
  have h2 : √2 ^ 2 = (2 : ℝ) := sq_sqrt (by norm_num)
  have h0 : 0 < √(2 : ℝ) := sqrt_pos.2 (by norm_num)
  have e : 3 * kinOn = arsinh √2 := by unfold kinOn; ring
  refine ⟨by rw [e, sinh_arsinh, h2], ?_, ?_⟩
  · have : 0 < sinh (3 * kinOn) := by rw [e, sinh_arsinh]; exact h0
    have := sinh_pos_iff.1 this
    linarith
  · have h1 : sinh (3 * kinOn) < sinh 3 := by
      rw [e, sinh_arsinh]
      have := self_lt_sinh_iff.2 (show (0 : ℝ) < 3 by norm_num)
      nlinarith
    have := sinh_lt_sinh.1 h1
    linarith

/-- integrated backwards from `t = 1`, during inflation, to its onset -/
noncomputable def kinRun : RawSol :=
  ⟨(1, yKinT 1), [(kinOn, yKinT kinOn)], [("Inflation_dir-1_term1", [(kinOn, yKinT kinOn)])]⟩

theorem kin_pos {t : ℝ} (h : kinOn < t) : 0 < kinT.inflating (yKinT t) := by
  obtain ⟨h1, h2, h3⟩ := kinOn_spec
  have ht : 0 < t := by linarith
  rw [kin_inflating ht, sub_pos, div_lt_iff₀ (pow_pos (sinh_pos' ht) 2)]
  have : sinh (3 * kinOn) < sinh (3 * t) := sinh_lt_sinh.2 (by linarith)
  have := sinh_pos' h2
  nlinarith

theorem kin_faithful : FaithfulBack kinT.view yKinT 1 kinOn kinRun := by
  obtain ⟨h1, h2, h3⟩ := kinOn_spec
  refine ⟨rfl, fun p hp => ?_, fun key l hl p hp => ?_, fun l hl => ?_, fun key hk l hl => ?_⟩
  · simp only [RawSol.grid, kinRun, List.mem_cons, List.not_mem_nil, or_false] at hp
    rcases hp with rfl | rfl <;> refine ⟨⟨?_, ?_⟩, rfl⟩ <;> dsimp only <;> linarith
  · simp only [kinRun, Dict.get?_cons, Dict.get?_nil] at hl
    split_ifs at hl
    rw [← Option.some.inj hl, List.mem_singleton] at hp
    rw [hp]
  · simp [kinRun, Dict.get?_cons] at hl
  · simp only [kinRun, Dict.get?_cons, Dict.get?_nil] at hl
    split_ifs at hl
    rw [← Option.some.inj hl]
    simp only [List.map_cons, List.map_nil]
    have hz : kinT.inflating (yKinT kinOn) = 0 := by rw [kin_inflating h2, h1]; norm_num
    refine ⟨by simp, fun c hc => ?_, fun a b ha hab hb hga hgb => ?_⟩
    · rw [List.mem_singleton] at hc
      subst hc
      refine ⟨by linarith, le_rfl, ?_, ⟨-1, le_rfl, by linarith, fun x hx _ => ?_⟩, fun h => absurd h (lt_irrefl _)⟩
      · rw [neg_neg]; exact hz
      · have : 0 < kinT.view.inflating (-x) (yKinT (-x)) := kin_pos (by linarith [hx.2])
        linarith
    · exfalso
      rcases hb.lt_or_eq with k | k
      · have : 0 < kinT.view.inflating (-b) (yKinT (-b)) := kin_pos (by linarith)
        linarith
      · subst k
        have : kinT.view.inflating (- -kinOn) (yKinT (- -kinOn)) = 0 := by rw [neg_neg]; exact hz
        rw [this] at hgb
        norm_num at hgb

/-- All hypotheses of `C78_backward_time` hold for that run, which does report a duration. -/
example : ∃ m, (inflationSol kinT.view kinT.pot.V kinT.K kinRun).inflation_mask = some m ∧ m = [false, false] ∧
    ∃ d, (inflationSol kinT.view kinT.pot.V kinT.K kinRun).N_tot = some d ∧ d < 0 := by
  obtain ⟨h1, h2, h3⟩ := kinOn_spec
  have hc : ¬ Seen kinRun.events "Collapse" := by
    rintro ⟨p, l, hl⟩; simp [kinRun, Dict.get?_cons] at hl
  have hI : StartsInflating kinT.view kinRun := Or.inl (kin_pos h3).le
  have hI' := hI
  unfold StartsInflating at hI'
  have hE : Observed kinRun.events "Inflation_dir-1_term1" (kinOn, yKinT kinOn) := ⟨[], by simp [kinRun, Dict.get?_cons]⟩
  obtain ⟨m, hm⟩ : ∃ m, (inflationSol kinT.view kinT.pot.V kinT.K kinRun).inflation_mask = some m := by
    have hN := ((C25_end kinT.view kinT.pot.V kinT.K kinRun).1 _ (Or.inl hE)).1
    have hB : (inflationSol kinT.view kinT.pot.V kinT.K kinRun).start.N_beg = some (kinT.view.N 1 (yKinT 1)) := by
      simp only [inflationSol, postStart]
      rw [if_neg (fun h => hc (C25.firstEvent_isSome.1 h)), if_pos hI']
      rfl
    have hD := C25_duration_mask kinT.view kinT.pot.V kinT.K kinRun
    cases h : (inflationSol kinT.view kinT.pot.V kinT.K kinRun).inflation_mask with
    | some m => exact ⟨m, rfl⟩
    | none =>
      have h' := hD.2.1.1 h
      rw [(hD.1 _).2 ⟨_, _, hB, hN, rfl⟩] at h'
      cases h'
  obtain ⟨hd, hmm, -⟩ := C78_backward_time (S := Ioi 0) isOpen_Ioi (convex_Ioi 0) kinT_sol
    (fun t ht => by rw [kinT_H2 ht]; exact pow_pos (div_pos (cosh_pos _) (sinh_pos' ht)) 2)
    (fun t ht => by have := ht.1; show 0 < t; linarith)
    (by simp only [InflT.V, InflT.phi, kinT, ccPot]; positivity) kin_faithful hm
  exact ⟨m, hm, hmm, hd⟩

end Exact

open Cal in
/-- Hypotheses of `C78_common_scale` and `C78_no_modes` met: a forward solution calibrated with `N_star = 3/2`, and a backward one, with nothing marked as inflating,
that copies the result. -/
example (u : SI) : ∃ s1 c1 b s2' c2, calibrate u demoFlat { method := "N_star", N_star := some (3 / 2) } = .ok s1 ∧ s1.cal = some c1 ∧ asBackground s1 = some b ∧
    calibrate u { demoFlat with N := [0, -1], H := [1, 2], logaH := [0, -2], infl := some ⟨0, -1, -1, 1, 1, 0, -2, [false, false]⟩ }
      { method := "N_star", N_star := some (3 / 2), background := some b } = .ok s2' ∧ s2'.cal = some c2 ∧
    c2.logk = [] ∧ c2.N_cross = c1.N_cross ∧ c2.N_star = 3 / 2 := by
  obtain ⟨s1, h1⟩ := demoFlat_calibrates u
  obtain ⟨p, hp, he⟩ := calibrate_flat (s := demoFlat) rfl h1
  obtain ⟨b, hb⟩ : ∃ b, asBackground s1 = some b := by rw [he]; exact ⟨_, rfl⟩
  obtain ⟨-, c1, ns, -, -, hc1, hns, h0, -, hst, -⟩ := C34_flat_N_star u demoFlat s1 _ rfl rfl rfl h1
  obtain rfl : (3 / 2 : ℝ) = ns := Option.some.inj hns
  have hbN : b.N_star = c1.N_star := by
    rw [he] at hb hc1
    rw [← Option.some.inj hb, ← Option.some.inj hc1]
  obtain ⟨-, h⟩ := C78_no_modes u { demoFlat with N := [0, -1], H := [1, 2], logaH := [0, -2], infl := some ⟨0, -1, -1, 1, 1, 0, -2, [false, false]⟩ }
    { method := "N_star", N_star := some (3 / 2), background := some b } b rfl rfl (fun _ h => by cases h) (by rw [hbN, hst]) (by rw [hbN, hst]; exact h0)
  obtain ⟨s2', c2, h2, hc2, hlk, -⟩ := h _ 2 rfl rfl
  obtain ⟨c2', hc2', -, -, -, -, e1, e2, -⟩ := C78_common_scale ⟨demoFlat, _, rfl, h1⟩ hc1 hb rfl rfl h2
  obtain rfl : c2 = c2' := Option.some.inj (hc2.symm.trans hc2')
  exact ⟨s1, c1, b, s2', c2, h1, hc1, hb, h2, hc2, hlk, e2, by rw [e1, hst]⟩

end Primpy
