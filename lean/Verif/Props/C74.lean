import Verif.Props.C41
import Verif.Props.C37

/-!
# C74: the spectra at the wavenumbers of the integration grid

Every grid point inside inflation at which `aH` takes a new value belongs to the wavenumber `k = aH / a0` in 1/Mpc.
At these wavenumbers a calibrated solution returns the analytic expression itself: that of the local slow-roll
parameters for `CGS` and `STE`, that of the parameters at pivot-scale crossing for `LLMS` and `ARBDS`.
-/

namespace Primpy
open Real
namespace Approx

variable {κ : Type} (u : SI) (spline : κ → List (ℝ × ℝ) → ℝ → ℝ) (sr : SlowRoll)

/-! ### Masks and tables -/

theorem maskSel_zip_mem {α β : Type} : ∀ (xs : List α) (ys : List β) (m : List Bool) (i : ℕ) (x : α) (y : β),
    m[i]? = some true → xs[i]? = some x → ys[i]? = some y → (x, y) ∈ (maskSel xs m).zip (maskSel ys m) := by
  intro xs
  induction xs with
  | nil => intro ys m i x y _ hx; simp at hx
  | cons a xs ih =>
    intro ys m i x y hm hx hy
    cases ys with
    | nil => simp at hy
    | cons b ys =>
      cases m with
      | nil => simp at hm
      | cons c m =>
        cases i with
        | zero =>
          simp only [List.getElem?_cons_zero, Option.some.injEq] at hm hx hy
          subst hm hx hy
          simp [maskSel_cons]
        | succ i =>
          simp only [List.getElem?_cons_succ] at hm hx hy
          have := ih ys m i x y hm hx hy
          cases c <;> simp [maskSel_cons, this]

theorem zip_fst_nodup {α β : Type} {xs : List α} (ys : List β) (h : xs.Nodup) : ((xs.zip ys).map Prod.fst).Nodup := by
  refine h.sublist ?_
  clear h
  induction xs generalizing ys with
  | nil => simp
  | cons x xs ih =>
    cases ys with
    | nil => simp
    | cons y ys => simpa using ih ys

theorem logTable_nodup (Ps Pt : ℝ → SRPoint → ℝ) (g : Grid) (h : (g.pts.map Prod.fst).Nodup) :
    ((logTable Ps Pt g).map Prod.fst).Nodup := by
  refine h.sublist ?_
  unfold logTable
  induction g.pts with
  | nil => simp
  | cons q l ih =>
    by_cases hq : 0 < Ps q.1 q.2 ∧ 0 < Pt q.1 q.2
    · rw [List.filterMap_cons_some (by rw [if_pos hq])]
      simpa using ih
    · rw [List.filterMap_cons_none (by rw [if_neg hq])]
      exact ih.trans (by simp)

theorem logTable_mem (Ps Pt : ℝ → SRPoint → ℝ) (g : Grid) (x : ℝ) (p : SRPoint) (h : (x, p) ∈ g.pts)
    (h1 : 0 < Ps x p) (h2 : 0 < Pt x p) : (x, log (Ps x p), log (Pt x p)) ∈ logTable Ps Pt g := by
  unfold logTable
  exact List.mem_filterMap.2 ⟨(x, p), h, by rw [if_pos ⟨h1, h2⟩]⟩

theorem fit_t_node (hs : Interpolates spline) (kw : κ) (tab : List (ℝ × ℝ × ℝ)) (x y z : ℝ) (hm : (x, y, z) ∈ tab)
    (hn : (tab.map Prod.fst).Nodup) : (fit spline kw tab).t x = z := by
  refine hs kw _ x z (List.mem_map.2 ⟨_, hm, rfl⟩) ?_
  simpa [List.map_map, Function.comp_def] using hn

theorem fit_logTable (hs : Interpolates spline) (kw : κ) (Ps Pt : ℝ → SRPoint → ℝ) (g : Grid)
    (hn : (g.pts.map Prod.fst).Nodup) (k : ℝ) (p : SRPoint) (h : (log k, p) ∈ g.pts)
    (h1 : 0 < Ps (log k) p) (h2 : 0 < Pt (log k) p) :
    valueOf (fit spline kw (logTable Ps Pt g)) Spectrum.s k = Ps (log k) p ∧
    valueOf (fit spline kw (logTable Ps Pt g)) Spectrum.t k = Pt (log k) p := by
  have hm := logTable_mem Ps Pt g (log k) p h h1 h2
  have hd := logTable_nodup Ps Pt g hn
  unfold valueOf
  rw [fit_s_node spline hs kw _ _ _ _ hm hd, fit_t_node spline hs kw _ _ _ _ hm hd, exp_log h1, exp_log h2]
  exact ⟨rfl, rfl⟩

/-! ### The wavenumbers of a calibrated solution -/

/-- The data of the spectra of a calibrated solution: one point per new value of `aH` inside inflation, at `log k`
for `k = aH / a0`, with the parameters of that grid point; and the parameters at pivot-scale crossing. -/
theorem calibrated_grid {s s' : CalState} {a : CalArgs} (hK : s.K = 0 ∨ s.K = 1 ∨ s.K = -1)
    (h : Cal.calibrate u s a = .ok s') : ∃ I c g, s'.infl = some I ∧ s'.cal = some c ∧ gridOf sr s' = some g ∧
      0 < c.a0_Mpc ∧ (g.pts.map Prod.fst).Nodup ∧ g.star = sr.star I.mask c.N_cross_ ∧
      ∀ (i : ℕ) (l : ℝ) (pt : SRPoint), I.mask[i]? = some true → s'.logaH[i]? = some l → sr.grid[i]? = some pt →
        (log (exp l / c.a0_Mpc), pt) ∈ g.pts := by
  have hk : (0 : ℝ) < SI.K_STAR := by norm_num [SI.K_STAR]
  by_cases h0 : s.K = 0
  · obtain ⟨p, hp, rfl⟩ := Cal.calibrate_flat h0 h
    obtain ⟨-, ns, nc, ls, δ, nr, I, st, hs, rfl⟩ := Cal.flat_ok hp
    refine ⟨_, _, _, rfl, rfl, rfl, ?_, ?_, rfl, ?_⟩
    · exact div_pos (exp_pos _) hk
    · exact zip_fst_nodup _ (maskSel_firstOccurrence_nodup _ _)
    · intro i l pt hm hl hg
      refine maskSel_zip_mem _ _ _ i _ _ hm ?_ hg
      rw [List.getElem?_map]
      have hl' : s.logaH[i]? = some l := hl
      rw [hl']
      show some _ = some _
      congr 1
      show l + log SI.K_STAR - ls = log (exp l / (exp ls / SI.K_STAR))
      rw [log_div (exp_pos _).ne' (by positivity), log_div (exp_pos _).ne' hk.ne', log_exp, log_exp]
      ring
  · have hK' : s.K = 1 ∨ s.K = -1 := by tauto
    obtain ⟨p, hp, rfl⟩ := Cal.calibrate_curved h0 h
    obtain ⟨-, hh, Ω, aM, a0, N0, nr, st, I, nc, -, hpos, hsel, -, -, -, -, rfl⟩ := Cal.curved_ok hp
    obtain ⟨-, -, -, -, -, ha⟩ := curvedSel_a0 hK' hpos hsel
    refine ⟨_, _, _, rfl, rfl, rfl, ha, ?_, rfl, ?_⟩
    · exact zip_fst_nodup _ (maskSel_firstOccurrence_nodup _ _)
    · intro i l pt hm hl hg
      refine maskSel_zip_mem _ _ _ i _ _ hm ?_ hg
      rw [List.getElem?_map]
      have hl' : s.logaH[i]? = some l := hl
      rw [hl']
      show some _ = some _
      congr 1
      show l - log aM = log (exp l / aM)
      rw [log_div (exp_pos _).ne' ha.ne', log_exp]

/-- What the solution `q` answers to a request `P_s_approx(k, method, order)` (`Spectrum.s`) or `P_t_approx`
(`Spectrum.t`). -/
noncomputable def ask (q : PSol) (pick : Spectrum → ℝ → ℝ) (m : String) (o : ℕ) (kw : κ) (k : ℝ) : Except PyErr ℝ :=
  match gridOf sr q.st with
  | none => .error (.attributeError "logk")
  | some g => answer spline (g, q.caches) pick m o kw k

/-- Grid point `i` of a calibrated solution: it lies inside inflation, no earlier grid point has the same `aH`, its
comoving Hubble radius crosses the wavenumber `k` (in 1/Mpc), `pt` are its slow-roll parameters and `star` those at
pivot-scale crossing. -/
def Crosses (q : PSol) (i : ℕ) (k : ℝ) (pt star : SRPoint) : Prop :=
  ∃ I c l, q.st.infl = some I ∧ q.st.cal = some c ∧ I.mask[i]? = some true ∧ q.st.logaH[i]? = some l ∧
    sr.grid[i]? = some pt ∧ k = exp l / c.a0_Mpc ∧ star = sr.star I.mask c.N_cross_

theorem ask_node {p q : PSol} {a : CalArgs} {m : String} {o : ℕ} {kw : κ} (hb : a.background = none)
    (hK : p.st.K = 0 ∨ p.st.K = 1 ∨ p.st.K = -1) (hm : ∀ g, (named spline m o kw g).isSome)
    (hok : calibrateP u spline sr p a m kw o = .ok q) {i : ℕ} {k : ℝ} {pt star : SRPoint}
    (hx : Crosses sr q i k pt star) : ∃ g S, named spline m o kw g = some S ∧ g.star = star ∧
      (g.pts.map Prod.fst).Nodup ∧ (log k, pt) ∈ g.pts ∧
      ∀ pick k', ask spline sr q pick m o kw k' = .ok (valueOf S pick k') := by
  obtain ⟨g, S, P, hg, hS, -, -, hans⟩ := C41_parameters u spline sr p q a m o kw hb hm hok
  have hcal : Cal.calibrate u p.st a = .ok q.st := by
    unfold calibrateP at hok
    cases hc : Cal.calibrate u p.st a with
    | error e => rw [hc] at hok; cases hok
    | ok s =>
      rw [hc] at hok
      simp only [hb, Option.isSome_none, Bool.false_eq_true, if_false] at hok
      unfold deriveP at hok
      split at hok
      · cases hok
      · dsimp only at hok
        split at hok
        · cases hok
        · simp only [Except.ok.injEq] at hok
          subst hok
          rfl
  obtain ⟨I, c, g', hI, hc, hg', hpos, hnd, hst, hpt⟩ := calibrated_grid u sr hK hcal
  obtain ⟨I', c', l, hI', hc', hmask, hl, hgr, rfl, rfl⟩ := hx
  rw [hI] at hI'; cases hI'
  rw [hc] at hc'; cases hc'
  rw [hg] at hg'; cases hg'
  refine ⟨g, S, hS, hst, hnd, hpt i l pt hmask hl hgr, fun pick k' => ?_⟩
  unfold ask
  rw [hg]
  exact hans pick k'

/-! ### The claims -/

section
variable (hs : Interpolates spline) (p q : PSol) (a : CalArgs) (kw : κ) (hb : a.background = none)
  (hK : p.st.K = 0 ∨ p.st.K = 1 ∨ p.st.K = -1) (i : ℕ) (k : ℝ) (pt star : SRPoint)
include hs hb hK

/-- **C74, CGS.**  Order by order, the spectra at a grid wavenumber are the leading-order spectra of that grid point
times the Choe-Gong-Stewart correction of that grid point (where both corrected spectra are positive). -/
theorem C74_CGS (n : ℕ) (hn : n ≤ 3) (hok : calibrateP u spline sr p a "CGS" kw n = .ok q)
    (hx : Crosses sr q i k pt star)
    (hps : 0 < pt.H ^ 2 / (8 * π ^ 2 * pt.e1) * cgsS n pt) (hpt : 0 < 2 * (pt.H / π) ^ 2 * cgsT n pt) :
    ask spline sr q Spectrum.s "CGS" n kw k = .ok (pt.H ^ 2 / (8 * π ^ 2 * pt.e1) * cgsS n pt) ∧
    ask spline sr q Spectrum.t "CGS" n kw k = .ok (2 * (pt.H / π) ^ 2 * cgsT n pt) := by
  obtain ⟨g, S, hS, rfl, hnd, hmem, hans⟩ := ask_node u spline sr hb hK (by simp [named, hn]) hok hx
  simp only [named, if_true, if_pos hn, Option.some.injEq] at hS
  subst hS
  obtain ⟨h1, h2⟩ := fit_logTable spline hs kw (fun _ p => Ps0 p * cgsS n p) (fun _ p => Pt0 p * cgsT n p) g hnd k pt hmem hps hpt
  rw [hans, hans]
  exact ⟨congrArg Except.ok h1, congrArg Except.ok h2⟩

/-- **C74, leading order.**  With `order=0` a mode that leaves the horizon at a grid point has the power
`H²/(8π²ε₁)` and `2H²/π²` of that grid point. -/
theorem C74_leading_order (hok : calibrateP u spline sr p a "CGS" kw 0 = .ok q)
    (hx : Crosses sr q i k pt star) (hH : 0 < pt.H) (he : 0 < pt.e1) :
    ask spline sr q Spectrum.s "CGS" 0 kw k = .ok (pt.H ^ 2 / (8 * π ^ 2 * pt.e1)) ∧
    ask spline sr q Spectrum.t "CGS" 0 kw k = .ok (2 * pt.H ^ 2 / π ^ 2) := by
  have h := C74_CGS u spline sr hs p q a kw hb hK i k pt star 0 (by norm_num) hok hx
    (by simp only [cgsS]; positivity) (by simp only [cgsT]; positivity)
  simp only [cgsS, cgsT, mul_one] at h
  refine ⟨h.1, ?_⟩
  rw [h.2]
  congr 1
  ring

/-- **C74, STE.**  The same for Stewart's expressions. -/
theorem C74_STE (n : ℕ) (hok : calibrateP u spline sr p a "STE" kw n = .ok q) (hx : Crosses sr q i k pt star)
    (hps : 0 < pt.H ^ 2 / (8 * π ^ 2 * pt.e1) * steS pt) (hpt : 0 < 2 * (pt.H / π) ^ 2 * steT pt) :
    ask spline sr q Spectrum.s "STE" n kw k = .ok (pt.H ^ 2 / (8 * π ^ 2 * pt.e1) * steS pt) ∧
    ask spline sr q Spectrum.t "STE" n kw k = .ok (2 * (pt.H / π) ^ 2 * steT pt) := by
  obtain ⟨g, S, hS, rfl, hnd, hmem, hans⟩ := ask_node u spline sr hb hK (by simp [named]) hok hx
  simp only [named, if_true, String.reduceEq, if_false, Option.some.injEq] at hS
  subst hS
  obtain ⟨h1, h2⟩ := fit_logTable spline hs kw (fun _ p => Ps0 p * steS p) (fun _ p => Pt0 p * steT p) g hnd k pt hmem hps hpt
  rw [hans, hans]
  exact ⟨congrArg Except.ok h1, congrArg Except.ok h2⟩

/-- **C74, LLMS.**  At every grid wavenumber the log-spectra are the quadratic polynomials in `ln(k/k_*)` with the
amplitude, tilt and running of the parameters at pivot-scale crossing; there is no positivity condition. -/
theorem C74_LLMS (n : ℕ) (hok : calibrateP u spline sr p a "LLMS" kw n = .ok q) (hx : Crosses sr q i k pt star) :
    ask spline sr q Spectrum.s "LLMS" n kw k = .ok (exp (log (star.H ^ 2 / (8 * π ^ 2 * star.e1)) + bs0 star
      + (llms_ns star - 1) * (log k - log SI.K_STAR) + llms_nsrun star / 2 * (log k - log SI.K_STAR) ^ 2)) ∧
    ask spline sr q Spectrum.t "LLMS" n kw k = .ok (exp (log (2 * (star.H / π) ^ 2) + bt0 star
      + llms_nt star * (log k - log SI.K_STAR) + llms_ntrun star / 2 * (log k - log SI.K_STAR) ^ 2)) := by
  obtain ⟨g, S, hS, rfl, hnd, hmem, hans⟩ := ask_node u spline sr hb hK (by simp [named]) hok hx
  simp only [named, if_true, String.reduceEq, if_false, Option.some.injEq] at hS
  subst hS
  have hm : (log k, llmsS g.star (log k - log SI.K_STAR), llmsT g.star (log k - log SI.K_STAR)) ∈ g.pts.map fun q =>
      (q.1, llmsS g.star (q.1 - log SI.K_STAR), llmsT g.star (q.1 - log SI.K_STAR)) := List.mem_map.2 ⟨_, hmem, rfl⟩
  have hd : ((g.pts.map fun q => (q.1, llmsS g.star (q.1 - log SI.K_STAR),
      llmsT g.star (q.1 - log SI.K_STAR))).map Prod.fst).Nodup := by
    simpa [List.map_map, Function.comp_def] using hnd
  rw [hans, hans]
  constructor
  · refine congrArg Except.ok ?_
    unfold valueOf specLLMS
    rw [fit_s_node spline hs kw _ _ _ _ hm hd]
    rfl
  · refine congrArg Except.ok ?_
    unfold valueOf specLLMS
    rw [fit_t_node spline hs kw _ _ _ _ hm hd]
    rfl

/-- **C74, ARBDS.**  At every grid wavenumber the spectra are the leading-order ones at pivot-scale crossing times the
polynomial in `ln(k/k_*)` of the requested order (where both are positive). -/
theorem C74_ARBDS (n : ℕ) (h1n : 1 ≤ n) (hn : n ≤ 3) (hok : calibrateP u spline sr p a "ARBDS" kw n = .ok q)
    (hx : Crosses sr q i k pt star)
    (hps : 0 < star.H ^ 2 / (8 * π ^ 2 * star.e1) * arbdsS n star (log k - log SI.K_STAR))
    (hpt : 0 < 2 * (star.H / π) ^ 2 * arbdsT n star (log k - log SI.K_STAR)) :
    ask spline sr q Spectrum.s "ARBDS" n kw k =
      .ok (star.H ^ 2 / (8 * π ^ 2 * star.e1) * arbdsS n star (log k - log SI.K_STAR)) ∧
    ask spline sr q Spectrum.t "ARBDS" n kw k =
      .ok (2 * (star.H / π) ^ 2 * arbdsT n star (log k - log SI.K_STAR)) := by
  obtain ⟨g, S, hS, rfl, hnd, hmem, hans⟩ := ask_node u spline sr hb hK (by simp [named, hn, h1n]) hok hx
  simp only [named, if_true, String.reduceEq, if_false, if_pos (And.intro h1n hn), Option.some.injEq] at hS
  subst hS
  obtain ⟨h1, h2⟩ := fit_logTable spline hs kw (fun lk _ => Ps0 g.star * arbdsS n g.star (lk - log SI.K_STAR))
    (fun lk _ => Pt0 g.star * arbdsT n g.star (lk - log SI.K_STAR)) g hnd k pt hmem hps hpt
  rw [hans, hans]
  exact ⟨congrArg Except.ok h1, congrArg Except.ok h2⟩

end

/-- Hypotheses met: the demonstration solution with a look-up spline; its third grid point leaves the horizon during
inflation. -/
example : ∃ (spline : Unit → List (ℝ × ℝ) → ℝ → ℝ) (sr : SlowRoll) (p q : PSol) (a : CalArgs) (k : ℝ) (pt star : SRPoint),
    Interpolates spline ∧ a.background = none ∧ p.st.K = 0 ∧ calibrateP u spline sr p a "CGS" () 0 = .ok q ∧
    Crosses sr q 2 k pt star ∧ 0 < pt.H ∧ 0 < pt.e1 ∧
    ask spline sr q Spectrum.s "CGS" 0 () k = .ok (9 / (8 * π ^ 2 * (1 / 10))) := by
  obtain ⟨s, c, I, hc, h1, h2, h3, h4, h5⟩ := demoFlat_grid u (3 / 2) (by norm_num) (by norm_num)
  obtain ⟨sr, hsr⟩ : ∃ sr : SlowRoll, sr = ⟨[⟨1, 1 / 10, 0, 0, 0, 0, 0, 0, 0⟩, ⟨2, 1 / 10, 0, 0, 0, 0, 0, 0, 0⟩,
    ⟨3, 1 / 10, 0, 0, 0, 0, 0, 0, 0⟩, ⟨4, 1 / 10, 0, 0, 0, 0, 0, 0, 0⟩], fun _ _ => ⟨1, 1, 0, 0, 0, 0, 0, 0, 0⟩⟩ := ⟨_, rfl⟩
  obtain ⟨sp, hsp⟩ : ∃ sp : Unit → List (ℝ × ℝ) → ℝ → ℝ, Interpolates sp := ⟨_, interpolates_lookup⟩
  obtain ⟨g, hg⟩ := gridOf_calibrate u sr hc
  have hq : calibrateP u sp sr ⟨demoFlat, Caches.empty, none⟩ { method := "N_star", N_star := some (3 / 2) } "CGS" () 0 =
      .ok ⟨s, deriveCGS sp () 0 g Caches.empty, some (params (specCGS sp () 0 g))⟩ := by
    unfold calibrateP
    rw [hc]
    simp [deriveP, hg, derive, deriveCGS]
  have hl : s.logaH = demoFlat.logaH := by
    obtain ⟨p, -, rfl⟩ := Cal.calibrate_flat rfl hc
    rfl
  have hx : Crosses sr ⟨s, deriveCGS sp () 0 g Caches.empty, some (params (specCGS sp () 0 g))⟩ 2
      (exp 2 / c.a0_Mpc) ⟨3, 1 / 10, 0, 0, 0, 0, 0, 0, 0⟩ ⟨1, 1, 0, 0, 0, 0, 0, 0, 0⟩ := by
    refine ⟨I, c, 2, h2, h1, by rw [h5]; rfl, ?_, by rw [hsr]; rfl, rfl, by rw [hsr]⟩
    show s.logaH[2]? = some 2
    rw [hl]; rfl
  refine ⟨sp, sr, _, _, _, _, _, _, hsp, rfl, rfl, hq, hx, by norm_num, by norm_num, ?_⟩
  rw [(C74_leading_order u sp sr hsp _ _ _ () rfl (.inl rfl) 2 _ _ _ hq hx (by norm_num) (by norm_num)).1]
  norm_num

end Approx
end Primpy
