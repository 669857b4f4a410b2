import Verif.Props.C87
import Verif.Lemmas.LinearODE

/-!
# C88: from the requested amplitude to the numerical spectrum, end to end
-/

namespace Primpy
open Real Spec Set

namespace Pert

/-- An integrator that returns the exact late-time values of the solutions `sel` picks for its arguments. -/
noncomputable def selOsc (sel : List ℝ → (ℝ → ℂ) × (ℝ → ℂ)) (T : ℝ) : Oscode := fun A => lateOsc (sel A.g).1 (sel A.g).2 T A

theorem selOsc_samples (sel : List ℝ → (ℝ → ℂ) × (ℝ → ℂ)) {T : ℝ} {W : Set ℝ} (hT : T ∈ W) (a : OscArgs) {F G : ℝ → ℂ} (h : sel a.g = (F, G)) :
    SamplesExact (selOsc sel T) a F G W := by
  intro x0 dx0
  have := lateOsc_samples F G hT a x0 dx0
  unfold selOsc
  rw [h]
  exact this

theorem two_point_sel {k : ℝ} (hk : 0 < k) {b : Bg} {p0 p1 : Pt} (hi : b.indep ≠ .other) (hpts : b.pts = [p0, p1]) (h0 : p0.logaH ≤ log k)
    (h1 : log 100 < p1.logaH - log k) (hN : 10 ≤ p1.N - p0.N) (hic : b.perturbation_ic = (1, 0, 0, 1)) (sel : List ℝ → (ℝ → ℂ) × (ℝ → ℂ)) (T : ℝ) :
    idxBeg b 0 k = 0 ∧ idxEnd b 0 100 k = .ok 1 ∧ ∃ r, solveOscode1 (selOsc sel T) b k { vacuum := ["k", "HD", "RST"] } = .ok r := by
  have hbeg : idxBeg b 0 k = 0 := if_pos rfl
  have hend : idxEnd b 0 100 k = .ok 1 := by
    have a : argwhere (fun p => endTest k 100 p.logaH) b.pts = [1] := by
      have e0 : ¬ endTest k 100 p0.logaH := by
        rintro ⟨-, -, h | h | h⟩
        · linarith
        · norm_num at h
        · have : 0 < log 100 := log_pos (by norm_num)
          linarith
      have e1 : endTest k 100 p1.logaH := ⟨hk.le, by norm_num, Or.inr (Or.inr h1)⟩
      rw [hpts]
      simp [argwhere, e0, e1, List.range, List.range.loop]
    unfold idxEnd
    rw [a, hpts]
    simp
    intro h
    linarith
  refine ⟨hbeg, hend, ?_⟩
  obtain ⟨s, t, hst⟩ : ∃ s t, modes b k = some (s, t) := by
    unfold modes
    cases h : b.indep
    · exact ⟨_, _, rfl⟩
    · exact ⟨_, _, rfl⟩
    · exact absurd h hi
  have hv : ∀ v ∈ ["k", "HD", "RST"], (s.vacuum v).isSome ∧ (t.vacuum v).isSome := by
    unfold modes at hst
    intro v hv
    simp only [List.mem_cons, List.not_mem_nil, or_false] at hv
    cases h : b.indep <;> rw [h] at hst <;> cases hst <;> rcases hv with rfl | rfl | rfl <;> simp [byName]
  obtain ⟨s1, hs1⟩ := Option.isSome_iff_exists.1 (hv "k" (by simp)).1
  obtain ⟨s2, hs2⟩ := Option.isSome_iff_exists.1 (hv "HD" (by simp)).1
  obtain ⟨s3, hs3⟩ := Option.isSome_iff_exists.1 (hv "RST" (by simp)).1
  obtain ⟨t1, ht1⟩ := Option.isSome_iff_exists.1 (hv "k" (by simp)).2
  obtain ⟨t2, ht2⟩ := Option.isSome_iff_exists.1 (hv "HD" (by simp)).2
  obtain ⟨t3, ht3⟩ := Option.isSome_iff_exists.1 (hv "RST" (by simp)).2
  rw [single_eq]
  unfold oneMode
  dsimp only
  rw [hbeg, hend, hst]
  simp [runs, oscCall, hpts, hic, selOsc, lateOsc, pick, combineAll, hs1, hs2, hs3, ht1, ht2, ht3, combine, ab, Bind.bind, Except.bind, Pure.pure, Except.pure]

/-- complex solutions of the mode equation -/
theorem exists_mode {c d x0 : ℝ} (h0 : x0 ∈ Icc c d) {w g : ℝ → ℝ} (hw : ContinuousOn w (Icc c d)) (hg : ContinuousOn g (Icc c d)) (a0 a1 : ℝ) :
    ∃ F F1 F2 : ℝ → ℂ, Twice (Ioo c d) F F1 F2 ∧ (∀ τ ∈ Ioo c d, oscillator w g F F1 F2 τ = 0) ∧ F x0 = a0 ∧ F1 x0 = a1 := by
  obtain ⟨f, f1, h1, h2, h3⟩ := LinearODE.exists_solution h0 hw hg a0 a1
  refine ⟨fun t => (f t : ℂ), fun t => (f1 t : ℂ), fun t => ((-(w t * f t + 2 * g t * f1 t) : ℝ) : ℂ), ⟨fun t ht => (h3 t ht).1.ofReal_comp, fun t ht => (h3 t ht).2.ofReal_comp⟩,
    fun t _ => ?_, ?_, ?_⟩
  · unfold oscillator
    push_cast
    ring
  · show ((f x0 : ℝ) : ℂ) = _; rw [h1]
  · show ((f1 x0 : ℝ) : ℂ) = _; rw [h2]

section
variable {δ : ℝ} {S D : Set ℝ} {pot : PotFns} {e1 e2 d2 N φ q H : ℝ → ℝ}

/-- **Exact runs exist** on every slow-roll background (cosmic time), for every wavenumber that starts inside and ends outside the horizon. -/
theorem exists_slowrunT (hδ : δ ≤ 1 / 20) (hS : IsOpen S) (u : IsUniverse S pot.V pot.dV 0 N φ q H)
    (hV : IsDerivOn D pot.V pot.dV) (hV2 : IsDerivOn D pot.dV pot.d2V) (hφ : ∀ n ∈ S, φ n ∈ D) (sr : IsSlowRoll δ S H H e1 e2 d2)
    {c x0 x1 d k : ℝ} (hsub : Icc c d ⊆ S) (hc : c < x0) (h01 : x0 ≤ x1) (hd : x1 < d) (hk : 0 < k) (hin : exp (N x0) * H x0 ≤ δ * k) (hout : k ≤ δ * (exp (N x1) * H x1))
    (h100 : 100 * k < exp (N x1) * H x1) (h10 : 10 ≤ N x1 - N x0) (he2 : e2 x0 ≠ 0) :
    ∃ osc b r, SlowRunT δ (Ioo c d) pot N φ q H osc b { vacuum := ["k", "HD", "RST"] } k r ∧ b.pts = [ptT 0 N φ q H x0, ptT 0 N φ q H x1] := by
  have hx0 : x0 ∈ Ioo c d := ⟨hc, by linarith⟩
  have hx1 : x1 ∈ Ioo c d := ⟨by linarith, hd⟩
  have hI : Ioo c d ⊆ S := Ioo_subset_Icc_self.trans hsub
  have hH : ∀ t ∈ Icc c d, 0 < H t := fun t ht => u.expanding t (hsub ht)
  have j := slow_jetT hS u hV hV2 hφ sr
  have cN : ContinuousOn N (Icc c d) := fun t ht => (u.hubble t (hsub ht)).continuousAt.continuousWithinAt
  have cH : ContinuousOn H (Icc c d) := fun t ht => (j t (hsub ht)).2.2.1.continuousAt.continuousWithinAt
  have c1 : ContinuousOn e1 (Icc c d) := fun t ht => (sr.second t (hsub ht)).continuousAt.continuousWithinAt
  have c2 : ContinuousOn e2 (Icc c d) := fun t ht => (sr.third t (hsub ht)).continuousAt.continuousWithinAt
  have cw : ContinuousOn (fun τ => (H τ * (k / (exp (N τ) * H τ))) ^ 2) (Icc c d) :=
    (cH.mul (continuousOn_const.div (cN.rexp.mul cH) fun t ht => (mul_pos (exp_pos _) (hH t ht)).ne')).pow 2
  have cg1 : ContinuousOn (fun τ => -(e1 τ * H τ ^ 2) / H τ) (Icc c d) := ((c1.mul (cH.pow 2)).neg).div cH fun t ht => (hH t ht).ne'
  have cgs : ContinuousOn (fun τ => ((1 - e1 τ + 2 * (1 + e2 τ / 2)) * H τ - -(e1 τ * H τ ^ 2) / H τ) / 2) (Icc c d) :=
    ((((continuousOn_const.sub c1).add (continuousOn_const.mul (continuousOn_const.add (c2.div_const 2)))).mul cH).sub cg1).div_const 2
  have cgt : ContinuousOn (fun τ => ((1 - e1 τ + 2 * 1) * H τ - -(e1 τ * H τ ^ 2) / H τ) / 2) (Icc c d) :=
    ((((continuousOn_const.sub c1).add continuousOn_const).mul cH).sub cg1).div_const 2
  have hx0' := Ioo_subset_Icc_self hx0
  obtain ⟨F, F1, F2, tF, oF, F0, F10⟩ := exists_mode hx0' cw cgs 1 0
  obtain ⟨G, G1, G2, tG, oG, G0, G10⟩ := exists_mode hx0' cw cgs 0 1
  obtain ⟨F', F1', F2', tF', oF', F0', F10'⟩ := exists_mode hx0' cw cgt 1 0
  obtain ⟨G', G1', G2', tG', oG', G0', G10'⟩ := exists_mode hx0' cw cgt 0 1
  obtain ⟨p0, hp0⟩ : ∃ p, p = ptT 0 N φ q H x0 := ⟨_, rfl⟩
  obtain ⟨p1, hp1⟩ : ∃ p, p = ptT 0 N φ q H x1 := ⟨_, rfl⟩
  obtain ⟨b, hb⟩ : ∃ b : Bg, b = { indep := .t, K := 0, pot := pot, pts := [p0, p1], logaH_star := 0 } := ⟨_, rfl⟩
  have b0 : 0 < exp (N x0) * H x0 := mul_pos (exp_pos _) (hH _ hx0')
  have b1 : 0 < exp (N x1) * H x1 := mul_pos (exp_pos _) (hH _ (Ioo_subset_Icc_self hx1))
  have hl0 : p0.logaH ≤ log k := by
    rw [hp0]
    show log (exp (N x0) * H x0) ≤ log k
    exact log_le_log b0 (hin.trans (by nlinarith))
  have hl1 : log 100 < p1.logaH - log k := by
    rw [hp1]
    show log 100 < log (exp (N x1) * H x1) - log k
    rw [lt_sub_iff_add_lt, ← log_mul (by norm_num) hk.ne']
    exact log_lt_log (by positivity) h100
  have hNN : 10 ≤ p1.N - p0.N := by rw [hp0, hp1]; exact h10
  obtain ⟨s, t, hst⟩ : ∃ s t, modes b k = some (s, t) := by
    unfold modes
    rw [hb]
    exact ⟨_, _, rfl⟩
  have hvac : ∀ τ ∈ Ioo c d, _ := fun τ hτ => slow_vacT hδ hS u hV hV2 hφ sr (b := b) (by rw [hb]) (by rw [hb]) (by rw [hb]) hk hst (hI hτ)
  have hne : s.damping p0 ≠ t.damping p0 := by
    obtain ⟨v1, v2, -⟩ := hvac x0 hx0
    rw [hp0, v1.2, v2.2]
    intro h
    have := hH _ hx0'
    have h3 : e2 x0 * H x0 = 0 := by linarith
    rcases mul_eq_zero.1 h3 with h | h
    · exact he2 h
    · exact this.ne' h
  classical
  obtain ⟨sel, hsel⟩ : ∃ sel : List ℝ → (ℝ → ℂ) × (ℝ → ℂ), sel = fun l => if l.head? = some (s.damping p0) then (F, G) else (F', G') := ⟨_, rfl⟩
  obtain ⟨hbeg, hend, r, hr⟩ := two_point_sel hk (b := b) (by rw [hb]; simp) (by rw [hb]) hl0 hl1 hNN (by rw [hb]) sel x1
  have hg : ∀ stop m pb pe, (args b { vacuum := ["k", "HD", "RST"] } (idxBeg b 0 k) stop m pb pe 0 0).g.head? = some (m.damping p0) := by
    intro stop m pb pe
    unfold args slice
    rw [hbeg, hb]
    simp
  refine ⟨selOsc sel x1, b, r, ⟨by rw [hb], by rw [hb], by rw [hb], hk, ?_, by rw [hb]; rfl, hr, ?_, ?_⟩, by rw [hb, hp0, hp1]⟩
  · intro stop _ i p _ _ hp
    have hp := List.mem_of_getElem? hp
    rw [hb] at hp
    simp only [List.mem_cons, List.not_mem_nil, or_false] at hp
    rcases hp with h | h
    · exact ⟨_, hx0, h.trans hp0⟩
    · exact ⟨_, hx1, h.trans hp1⟩
  · intro p hp
    rw [hbeg, hb] at hp
    cases hp
    rw [hp0]
    show exp (log (exp (N x0) * H x0)) ≤ _
    rw [exp_log b0]
    exact hin
  · intro s' t' hst' m hm stop pb pe hs hpb hpe
    rw [hst] at hst'
    cases hst'
    rw [hbeg, hb] at hpb
    obtain rfl : p0 = pb := Option.some.inj hpb
    have hx : p0.x = x0 := by rw [hp0]; rfl
    have hW : x1 ∈ {t ∈ Ioo c d | k ≤ δ * (exp (N t) * H t)} := ⟨hx1, hout⟩
    rw [hx]
    simp only [List.mem_cons, List.not_mem_nil, or_false] at hm
    have tr : ∀ (m : Mode) (w g : ℝ → ℝ), (∀ τ ∈ Ioo c d, m.frequency2 (ptT 0 N φ q H τ) = w τ ∧ m.damping (ptT 0 N φ q H τ) = g τ) → ∀ A A1 A2 : ℝ → ℂ,
        (∀ τ ∈ Ioo c d, oscillator w g A A1 A2 τ = 0) →
        ∀ τ ∈ Ioo c d, oscillator (fun τ => m.frequency2 (ptT 0 N φ q H τ)) (fun τ => m.damping (ptT 0 N φ q H τ)) A A1 A2 τ = 0 := fun m w g h A A1 A2 hA τ hτ => by
      have := hA τ hτ
      unfold oscillator at this ⊢
      dsimp only
      rw [(h τ hτ).1, (h τ hτ).2]
      exact this
    rcases hm with rfl | rfl
    · have hm := tr m _ _ (fun τ hτ => (hvac τ hτ).1)
      exact ⟨F, F1, F2, G, G1, G2, tF, tG, hm _ _ _ oF, hm _ _ _ oG, by rw [F0, Complex.ofReal_one], by rw [F10, Complex.ofReal_zero], by rw [G0, Complex.ofReal_zero],
        by rw [G10, Complex.ofReal_one], selOsc_samples sel hW _ (by rw [hsel]; exact if_pos (hg stop m p0 pe))⟩
    · have hm := tr m _ _ (fun τ hτ => (hvac τ hτ).2.1)
      exact ⟨F', F1', F2', G', G1', G2', tF', tG', hm _ _ _ oF', hm _ _ _ oG', by rw [F0', Complex.ofReal_one], by rw [F10', Complex.ofReal_zero], by rw [G0', Complex.ofReal_zero],
        by rw [G10', Complex.ofReal_one], selOsc_samples sel hW _ (by
          rw [hsel]; refine if_neg ?_
          rw [hg stop m p0 pe]
          intro h
          exact hne (Option.some.inj h).symm)⟩

theorem _root_.Primpy.Spec.IsSlowRoll.mono {S' : Set ℝ} {rate : ℝ → ℝ} (h : IsSlowRoll δ S rate H e1 e2 d2) (hs : S' ⊆ S) : IsSlowRoll δ S' rate H e1 e2 d2 :=
  ⟨fun x hx => h.first x (hs hx), fun x hx => h.second x (hs hx), fun x hx => h.third x (hs hx), fun x hx => h.small x (hs hx)⟩

/-- `ln aH` grows at least `1 - δ` per e-fold. -/
theorem aH_growth (u : IsUniverse S pot.V pot.dV 0 N φ q H) (sr : IsSlowRoll δ S H H e1 e2 d2) {t1 t2 : ℝ} (h12 : t1 ≤ t2) (hsub : Icc t1 t2 ⊆ S) :
    (1 - δ) * (N t2 - N t1) ≤ log (exp (N t2) * H t2) - log (exp (N t1) * H t1) := by
  have hd : ∀ t ∈ Icc t1 t2, HasDerivAt (fun t => N t + log (H t) - (1 - δ) * N t) (H t * (δ - e1 t)) t := fun t ht =>
    (((u.hubble t (hsub ht)).fun_add (sr.first t (hsub ht))).fun_sub ((u.hubble t (hsub ht)).const_mul (1 - δ))).congr_deriv (by ring)
  have hm : MonotoneOn (fun t => N t + log (H t) - (1 - δ) * N t) (Icc t1 t2) := by
    refine monotoneOn_of_hasDerivWithinAt_nonneg (convex_Icc _ _) (fun t ht => (hd t ht).continuousAt.continuousWithinAt) (f' := fun t => H t * (δ - e1 t)) ?_ ?_
    · intro t ht
      exact (hd t (interior_subset ht)).hasDerivWithinAt
    · intro t ht
      have h := hsub (interior_subset ht)
      exact mul_nonneg (u.expanding t h).le (by linarith [(sr.small t h).2.1])
  have := hm (left_mem_Icc.2 h12) (right_mem_Icc.2 h12) h12
  dsimp only at this
  have l : ∀ t ∈ Icc t1 t2, log (exp (N t) * H t) = N t + log (H t) := fun t ht => by
    rw [log_mul (exp_pos _).ne' (u.expanding t (hsub ht)).ne', log_exp]
  rw [l _ (left_mem_Icc.2 h12), l _ (right_mem_Icc.2 h12)]
  linarith
end

/-- The number of e-folds before and after horizon crossing that the run needs for the accuracy `δ`. -/
noncomputable def enoughEfolds (δ : ℝ) : ℝ := 30 + 2 * log (1 / δ)

theorem enough {δ n m g : ℝ} (hδ0 : 0 < δ) (hδ : δ ≤ 1 / 20) (h : enoughEfolds δ ≤ m) (hm : |m - n| ≤ δ / 5 * n) (hg : (1 - δ) * n ≤ g) :
    log (1 / δ) ≤ g ∧ log 100 < g ∧ 10 ≤ n := by
  unfold enoughEfolds at h
  have h1 : 0 < log (1 / δ) := log_pos (by rw [lt_div_iff₀ hδ0]; linarith)
  have h2 := (abs_le.1 hm).2
  have hn0 : 0 ≤ n := by
    by_contra hn
    have := abs_nonneg (m - n)
    nlinarith
  have h3 : m ≤ 101 / 100 * n := by nlinarith
  have h4 : 19 / 20 * n ≤ g := by nlinarith
  have := log_hundred_ten
  exact ⟨by linarith, by linarith, by linarith⟩

/-- **C88, cosmic time.**  Flat universe, `SlowRollIC` at `phi_i`; between `phi_i` and `Φ` the potential is flat to accuracy `δ/16`, and the field value `φ*` in between is at
least `30 + 2 ln(1/δ)` slow-roll e-folds away from both.  Then every background integrated from this start passes `φ*`; exact runs for the wavenumber that crosses the horizon
there, starting with the background, exist; and every such run reports the potential's amplitudes at `φ*`. -/
theorem C88_time {δ : ℝ} (hδ0 : 0 < δ) (hδ : δ ≤ 1 / 20) (e : InflT) (hK : e.K = 0) {D : Set ℝ} {e1V e2V Nsr : ℝ → ℝ} {φe : ℝ}
    (hD : IsSlowRollPotential (δ / 16) D e.pot.V e.pot.dV e1V e2V) (hV : IsDerivOn D e.pot.V e.pot.dV) (hV2 : IsDerivOn D e.pot.dV e.pot.d2V)
    (hN : EfoldCount D e.pot.V e.pot.dV Nsr φe) {s Φ φs : ℝ} (hs : s = 1 ∨ s = -1) (hsl : ∀ φ ∈ D, 0 < s * e.pot.dV φ)
    (a : ICArgs) (n0 : ℝ) (hn : a.N_i = some n0) (hΩ : a.Omega_Ki = none) (hΦ : s * Φ < s * φs) (hφs : s * φs < s * a.phi_i) (hsub : uIcc Φ a.phi_i ⊆ D)
    (hafter : enoughEfolds δ ≤ Nsr φs - Nsr Φ) (hbefore : enoughEfolds δ ≤ Nsr a.phi_i - Nsr φs)
    (heta : e.track_eta = true → a.eta_i ≠ none) (y0 : ℕ → Option ℝ) :
    ∃ ic y, SlowRollIC.init (.T e) a = .ok ic ∧ SlowRollIC.call (.T e) ic y0 = .ok y ∧ (∃ z, Numbers y z 3 ∧ 0 < e.H2 z) ∧
      ∀ (Y : ℝ → ℕ → ℝ) (b t0 : ℝ), b < t0 → SolvesODE (Ioi b) e.rows e.call Y → (∀ t > b, 0 < e.H2 (Y t)) → Numbers y (Y t0) 3 →
        ∃ (S : Set ℝ) (ts : ℝ), t0 ∈ S ∧ ts ∈ S ∧ t0 < ts ∧ InflT.phi (Y ts) = φs ∧
          (∃ osc bg r, SlowRunT δ S e.pot (fun t => InflT._N (Y t)) (fun t => InflT.phi (Y t)) (fun t => InflT.dphidt (Y t)) (fun t => e.H (Y t)) osc bg
            { vacuum := ["k", "HD", "RST"] } (exp (InflT._N (Y ts)) * e.H (Y ts)) r ∧ ∃ p, bg.pts[0]? = some p ∧ p.x = t0) ∧
          ∀ osc bg kw r, SlowRunT δ S e.pot (fun t => InflT._N (Y t)) (fun t => InflT.phi (Y t)) (fun t => InflT.dphidt (Y t)) (fun t => e.H (Y t)) osc bg kw
              (exp (InflT._N (Y ts)) * e.H (Y ts)) r →
            ∀ vac ∈ kw.vacuum, ∃ Ps Pt : ℝ, r.P_s.get? vac = some (some Ps) ∧ r.P_t.get? vac = some (some Pt) ∧
              |Ps - e.pot.V φs / (24 * π ^ 2 * e1V φs)| ≤ (2 * slowP + 1) * δ * (e.pot.V φs / (24 * π ^ 2 * e1V φs)) ∧
              |Pt - 2 * e.pot.V φs / (3 * π ^ 2)| ≤ (2 * slowP + 1) * δ * (2 * e.pot.V φs / (3 * π ^ 2)) := by
  obtain ⟨ic, y, a1, a2, a3, a4⟩ := C86_slowrollic_time hδ0 hδ e hK hD hV hV2 hN hs hsl a n0 hn hΩ (hΦ.trans hφs) hsub heta y0
  refine ⟨ic, y, a1, a2, a3, fun Y b t0 hb sol hH hY => ?_⟩
  obtain ⟨hφ0, hN0, t1, h01, hφ1, -, ⟨η, hη, e1, e2, d2, sr, hin⟩, -⟩ := a4 Y b t0 hb sol hH hY
  have hφ1 : InflT.phi (Y t1) = Φ := hφ1
  have hφi : a.phi_i ∈ D := hsub right_mem_uIcc
  have hVi := hD.pos _ hφi
  obtain ⟨ic', y', z, h, b1, b2, b3, -, b5, b6, -, b8, b9, -, -, b12⟩ := C29_T e a n0 hn hΩ (by rw [hK, sub_zero]; positivity) heta y0
  obtain rfl : ic' = ic := Except.ok.inj (b1.symm.trans a1)
  obtain rfl : y' = y := Except.ok.inj (b2.symm.trans a2)
  have u := InflT.universe sol hH
  rw [hK] at u
  obtain ⟨c, hc⟩ : ∃ c, c = max b (t0 - η) := ⟨_, rfl⟩
  have hct : c < t0 := by rw [hc]; exact max_lt hb (by linarith)
  have hbc : b ≤ c := by rw [hc]; exact le_max_left _ _
  have hηc : t0 - η ≤ c := by rw [hc]; exact le_max_right _ _
  have i1 : Ioo c (t1 + η) ⊆ Ioi b := fun t ht => hbc.trans_lt ht.1
  have i2 : Ioo c (t1 + η) ⊆ Ioo (t0 - η) (t1 + η) := Ioo_subset_Ioo_left hηc
  have u' := u.mono i1
  have sr' := sr.mono i2
  have hφD : ∀ t ∈ Ioo c (t1 + η), InflT.phi (Y t) ∈ D := fun t ht => (hin t (i2 ht)).1
  have j := slow_jetT isOpen_Ioo u' hV hV2 hφD sr'
  have ht0 : t0 ∈ Ioo c (t1 + η) := ⟨hct, by linarith⟩
  -- the crossing
  have hcont : ContinuousOn (fun t => InflT.phi (Y t)) (Icc t0 t1) := fun t ht =>
    (u'.velocity t ⟨by linarith [ht.1], by linarith [ht.2]⟩).continuousAt.continuousWithinAt
  obtain ⟨ts, hts, hφts⟩ : ∃ ts ∈ Icc t0 t1, InflT.phi (Y ts) = φs := by
    have : φs ∈ uIcc (InflT.phi (Y t0)) (InflT.phi (Y t1)) := by
      rw [hφ0, hφ1, mem_uIcc]
      rcases hs with rfl | rfl
      · exact Or.inr ⟨by linarith, by linarith⟩
      · exact Or.inl ⟨by linarith, by linarith⟩
    have h2 := intermediate_value_uIcc (a := t0) (b := t1) (f := fun t => InflT.phi (Y t)) (by rw [uIcc_of_le h01.le]; exact hcont) this
    rw [uIcc_of_le h01.le] at h2
    exact h2
  have hts0 : t0 < ts := lt_of_le_of_ne hts.1 (by
    rintro rfl
    rw [hφts] at hφ0
    rw [hφ0] at hφs
    exact lt_irrefl _ hφs)
  have htsS : ts ∈ Ioo c (t1 + η) := ⟨by linarith, by linarith [hts.2]⟩
  have ht1 : t1 ∈ Ioo c (t1 + η) := ⟨by linarith, by linarith⟩
  have s1 : Icc t0 ts ⊆ Ioo c (t1 + η) := fun t ht => ⟨by linarith [ht.1], by linarith [ht.2, hts.2]⟩
  have s2 : Icc ts t1 ⊆ Ioo c (t1 + η) := fun t ht => ⟨by linarith [ht.1], by linarith [ht.2]⟩
  have n1 := C86_count_time hδ isOpen_Ioo u' hV hV2 hφD sr' hN hts0.le s1
  have n2 := C86_count_time hδ isOpen_Ioo u' hV hV2 hφD sr' hN hts.2 s2
  rw [hφ0, hφts] at n1
  rw [hφ1, hφts] at n2
  obtain ⟨g1, -, g3⟩ := enough hδ0 hδ hbefore n1 (aH_growth u' sr' hts0.le s1)
  obtain ⟨k1, k2, k3⟩ := enough hδ0 hδ hafter n2 (aH_growth u' sr' hts.2 s2)
  have hpos : ∀ t ∈ Ioo c (t1 + η), 0 < exp (InflT._N (Y t)) * e.H (Y t) := fun t ht => mul_pos (exp_pos _) (u'.expanding t ht)
  have p0 := hpos t0 ht0
  have ps := hpos ts htsS
  have p1 := hpos t1 ht1
  have e20 : e2 t0 ≠ 0 := by
    obtain ⟨h1, h2, -, -, h5, -⟩ := j t0 ht0
    have hv : 3 * h * InflT.dphidt (Y t0) = -e.pot.dV (InflT.phi (Y t0)) := by
      rw [hφ0]
      have : InflT.dphidt (Y t0) = InflT.dphidt z := by
        have := hY 1 (by norm_num)
        rw [b3 1 (by norm_num)] at this
        exact (Option.some.inj this).symm
      rw [this]; exact b9
    have hH2 : e.H2 (Y t0) = h ^ 2 + InflT.dphidt (Y t0) ^ 2 / 6 := by
      have e0 : Y t0 0 = z 0 := by
        have := hY 0 (by norm_num)
        rw [b3 0 (by norm_num)] at this
        exact (Option.some.inj this).symm
      have e1 : Y t0 1 = z 1 := by
        have := hY 1 (by norm_num)
        rw [b3 1 (by norm_num)] at this
        exact (Option.some.inj this).symm
      have e2 : Y t0 2 = z 2 := by
        have := hY 2 (by norm_num)
        rw [b3 2 (by norm_num)] at this
        exact (Option.some.inj this).symm
      unfold InflT.H2 InflT.V InflT.phi InflT.dphidt InflT._N at b12 ⊢
      rw [e0, e1, e2]
      exact b12
    have hHH : e.H (Y t0) ^ 2 = h ^ 2 + InflT.dphidt (Y t0) ^ 2 / 6 := by
      rw [← hH2]; unfold InflT.H; exact sq_sqrt (hH t0 hb).le
    have hHp := u'.expanding t0 ht0
    intro h0
    rw [h0] at h5
    have h6 : 3 * h = e.H (Y t0) * (3 - e1 t0) := by
      have : InflT.dphidt (Y t0) * (3 * h - e.H (Y t0) * (3 - e1 t0)) = 0 := by linear_combination hv - h5
      rcases mul_eq_zero.1 this with h7 | h7
      · exact absurd h7 h2
      · linarith
    obtain ⟨s1, s2, -⟩ := sr'.small t0 ht0
    have h7 : InflT.dphidt (Y t0) ^ 2 = 2 * e1 t0 * e.H (Y t0) ^ 2 := by rw [h1]; field_simp
    have h8 : e.H (Y t0) ^ 2 * (e1 t0 * (3 - e1 t0)) = 0 := by linear_combination 9 * hHH + 3 / 2 * h7 + (3 * h + e.H (Y t0) * (3 - e1 t0)) * h6
    have h9 : 0 < e.H (Y t0) ^ 2 * (e1 t0 * (3 - e1 t0)) := mul_pos (pow_pos hHp 2) (mul_pos s1 (by linarith))
    exact h9.ne' h8
  obtain ⟨S, hS⟩ : ∃ S, S = Ioo ((c + t0) / 2) (t1 + η / 2) := ⟨_, rfl⟩
  have hSS : S ⊆ Ioo c (t1 + η) := by rw [hS]; exact Ioo_subset_Ioo (by linarith) (by linarith)
  have htsS' : ts ∈ S := by rw [hS]; exact ⟨by linarith, by linarith [hts.2]⟩
  refine ⟨S, ts, by rw [hS]; exact ⟨by linarith, by linarith⟩, htsS', hts0, hφts, ?_, fun osc bg kw r R vac hvac => ?_⟩
  · obtain ⟨osc, bg, r, R, hpts⟩ := exists_slowrunT hδ isOpen_Ioo u' hV hV2 hφD sr' (c := (c + t0) / 2) (x0 := t0) (x1 := t1) (d := t1 + η / 2)
      (k := exp (InflT._N (Y ts)) * e.H (Y ts)) (fun t ht => ⟨by linarith [ht.1], by linarith [ht.2]⟩) (by linarith) h01.le (by linarith) ps
      (by
        rw [← log_div ps.ne' p0.ne', log_le_log_iff (by positivity) (by positivity), div_le_div_iff₀ hδ0 p0] at g1
        linarith)
      (by
        rw [← log_div p1.ne' ps.ne', log_le_log_iff (by positivity) (by positivity), div_le_div_iff₀ hδ0 ps] at k1
        linarith)
      (by
        rw [← log_div p1.ne' ps.ne', log_lt_log_iff (by norm_num) (by positivity), lt_div_iff₀ ps] at k2
        linarith) (by linarith) e20
    rw [← hS] at R
    exact ⟨osc, bg, r, R, _, by rw [hpts]; rfl, rfl⟩
  · obtain ⟨Ps, Pt, q1, q2, q3⟩ := C87_time hδ0 hδ (S := S) (by rw [hS]; exact isOpen_Ioo) (by rw [hS]; exact isPreconnected_Ioo) (u'.mono hSS) hV hV2
      (fun t ht => hφD t (hSS ht)) (sr'.mono hSS) hD.first R vac hvac
    have := q3 ts htsS' rfl
    simp only [hφts] at this
    exact ⟨Ps, Pt, q1, q2, this⟩

/-- **C88, shipped potentials.**  Quadratic and Starobinsky inflation, flat universe, cosmic time.  Ask `sr_As2Lambda` for the amplitude `A_s` at `N_star` (or `phi_star`), put the
resulting `Lambda` into the potential, start with `SlowRollIC` at least `30 + 2 ln(1/δ)` slow-roll e-folds earlier (and let `φ*` be as far above the end of the flat region `Φ`):
the background exists for ever and passes `phi_star`, exact runs for the mode that crosses there exist, and every one of them reports a scalar spectrum `A_s (1 ± C δ)`. -/
theorem C88_builtin {δ : ℝ} (hδ0 : 0 < δ) (hδ : δ ≤ 1 / 20) {fam : ℝ → SRMethods} {P : ℝ → PotFns} {Nsr : ℝ → ℝ} {Φ : ℝ}
    (hP : (fam = Quadratic.sr ∧ (P = fun L => (Quadratic.mk L).fns) ∧ 0 < Φ ∧ 64 < δ * Φ ^ 2) ∨
      (∃ W : ℝ → ℝ, fam = Starobinsky.sr W ∧ (P = fun L => (Starobinsky.mk L).fns) ∧ 1 + 64 / δ < exp (Starobinsky.gamma * Φ)))
    {L A Λ φs Ns : ℝ} (hNsr : ∀ φ, (fam L).sr_phi2N φ = .ok (Nsr φ)) (hL : L ≠ 0) (hA : 0 < A)
    (hset : sr_As2Lambda L (fam L) A none (some Ns) = .ok (Λ, φs, Ns) ∨ sr_As2Lambda L (fam L) A (some φs) none = .ok (Λ, φs, Ns))
    (track_eta : Bool) (a : ICArgs) (n0 : ℝ) (hn : a.N_i = some n0) (hΩ : a.Omega_Ki = none) (hΦ : Φ < φs) (hφs : φs < a.phi_i)
    (hafter : enoughEfolds δ ≤ Nsr φs - Nsr Φ) (hbefore : enoughEfolds δ ≤ Nsr a.phi_i - Nsr φs)
    (heta : track_eta = true → a.eta_i ≠ none) (t0 : ℝ) (y0 : ℕ → Option ℝ) :
    ∃ ic y, SlowRollIC.init (.T ⟨0, P Λ, track_eta⟩) a = .ok ic ∧ SlowRollIC.call (.T ⟨0, P Λ, track_eta⟩) ic y0 = .ok y ∧
      (∃ b < t0, ∃ Y : ℝ → ℕ → ℝ, SolvesODE (Ioi b) (InflT.mk 0 (P Λ) track_eta).rows (InflT.mk 0 (P Λ) track_eta).call Y ∧
        (∀ t > b, 0 < (InflT.mk 0 (P Λ) track_eta).H2 (Y t)) ∧ Numbers y (Y t0) 3) ∧
      ∀ (Y : ℝ → ℕ → ℝ), ∀ b < t0, SolvesODE (Ioi b) (InflT.mk 0 (P Λ) track_eta).rows (InflT.mk 0 (P Λ) track_eta).call Y →
        (∀ t > b, 0 < (InflT.mk 0 (P Λ) track_eta).H2 (Y t)) → Numbers y (Y t0) 3 →
        ∃ (S : Set ℝ) (ts : ℝ), t0 ∈ S ∧ ts ∈ S ∧ t0 < ts ∧ InflT.phi (Y ts) = φs ∧
          (∃ osc bg r, SlowRunT δ S (P Λ) (fun t => InflT._N (Y t)) (fun t => InflT.phi (Y t)) (fun t => InflT.dphidt (Y t)) (fun t => (InflT.mk 0 (P Λ) track_eta).H (Y t)) osc bg
            { vacuum := ["k", "HD", "RST"] } (exp (InflT._N (Y ts)) * (InflT.mk 0 (P Λ) track_eta).H (Y ts)) r ∧ ∃ p, bg.pts[0]? = some p ∧ p.x = t0) ∧
          ∀ osc bg kw r, SlowRunT δ S (P Λ) (fun t => InflT._N (Y t)) (fun t => InflT.phi (Y t)) (fun t => InflT.dphidt (Y t)) (fun t => (InflT.mk 0 (P Λ) track_eta).H (Y t)) osc bg kw
              (exp (InflT._N (Y ts)) * (InflT.mk 0 (P Λ) track_eta).H (Y ts)) r →
            ∀ vac ∈ kw.vacuum, ∃ Ps : ℝ, r.P_s.get? vac = some (some Ps) ∧ |Ps - A| ≤ (2 * slowP + 1) * δ * A := by
  have hfam : ScaleFree fam := by
    rcases hP with ⟨rfl, -⟩ | ⟨W, rfl, -⟩
    · exact C09_quadratic
    · exact C09_starobinsky W
  have flat : ∀ M : ℝ, M ≠ 0 → ∃ (R : ℝ) (e2V : ℝ → ℝ) (φe : ℝ), 0 < R ∧ R < Φ ∧ IsSlowRollPotential (δ / 16) (Ioi R) (P M).V (P M).dV (fam M).get_epsilon_1V e2V ∧
      IsDerivOn (Ioi R) (P M).V (P M).dV ∧ IsDerivOn (Ioi R) (P M).dV (P M).d2V ∧ EfoldCount (Ioi R) (P M).V (P M).dV Nsr φe ∧ ∀ φ ∈ Ioi R, 0 < (P M).dV φ := by
    intro M hM
    refine builtin_flat hδ0 hδ ?_
    rcases hP with ⟨rfl, rfl, h1, h2⟩ | ⟨W, rfl, rfl, h1⟩
    · exact Or.inl ⟨⟨M⟩, hM, rfl, rfl, funext fun φ => (Except.ok.inj (hNsr φ)).symm, h1, h2⟩
    · exact Or.inr ⟨⟨M⟩, hM, rfl, rfl, funext fun φ => (Except.ok.inj (hNsr φ)).symm, h1⟩
  have hVV : ∀ M, (P M).V = (fam M).V := by
    intro M
    rcases hP with ⟨rfl, rfl, -⟩ | ⟨W, rfl, rfl, -⟩ <;> rfl
  have hamp : slowRollAmplitude (fam Λ) φs = A := by
    obtain ⟨R, e2V, φe, hR, hRΦ, hD, -⟩ := flat L hL
    have hφR : φs ∈ Ioi R := hRΦ.trans hΦ
    refine As2Lambda_amplitude fam hfam hL hA hset (by rw [← hVV]; exact hD.pos _ hφR) ?_
    rw [hD.first _ hφR]
    have := hD.pos _ hφR
    have := hD.slope _ hφR
    positivity
  have hΛ : Λ ≠ 0 := by
    rintro rfl
    obtain ⟨v, hv⟩ := hfam.amplitude
    unfold slowRollAmplitude at hamp
    rw [hv] at hamp
    norm_num at hamp
    linarith
  obtain ⟨R, e2V, φe, hR, hRΦ, hD, hV, hV2, hN, hsl⟩ := flat Λ hΛ
  obtain ⟨ic, y, a1, a2, ⟨z, z1, z2⟩, a4⟩ := C88_time hδ0 hδ ⟨0, P Λ, track_eta⟩ rfl hD hV hV2 hN (s := 1) (Φ := Φ) (φs := φs) (Or.inl rfl)
    (fun φ hφ => by rw [one_mul]; exact hsl φ hφ) a n0 hn hΩ (by rw [one_mul, one_mul]; exact hΦ) (by rw [one_mul, one_mul]; exact hφs)
    (fun x hx => by rw [uIcc_of_le (hΦ.trans hφs).le] at hx; exact hRΦ.trans_le hx.1) hafter hbefore heta y0
  refine ⟨ic, y, a1, a2, ?_, fun Y b hb sol hH hY => ?_⟩
  · obtain ⟨b, hb, Y, hY0, sol, hH⟩ := C76_builtin (P Λ) (by
      rcases hP with ⟨-, rfl, -⟩ | ⟨-, -, rfl, -⟩
      · exact Or.inl ⟨_, rfl⟩
      · exact Or.inr (Or.inl ⟨_, rfl⟩)) (K := 0) le_rfl track_eta t0 z z2
    refine ⟨b, hb, Y, sol, hH, fun i hi => ?_⟩
    rw [hY0 i (by rw [InflT.rows_eq]; split <;> omega)]
    exact z1 i hi
  · obtain ⟨S, ts, q1, q2, q3, q4, q5, q6⟩ := a4 Y b t0 hb sol hH hY
    refine ⟨S, ts, q1, q2, q3, q4, q5, fun osc bg kw r R vac hvac => ?_⟩
    obtain ⟨Ps, Pt, r1, -, r3, -⟩ := q6 osc bg kw r R vac hvac
    have e : (InflT.mk 0 (P Λ) track_eta).pot.V φs / (24 * π ^ 2 * (fam Λ).get_epsilon_1V φs) = A := by
      show (P Λ).V φs / _ = A
      rw [hVV]
      exact hamp
    rw [e] at r3
    exact ⟨Ps, r1, r3⟩

/-- Hypotheses met for every accuracy `δ`, amplitude and `Lambda`: quadratic inflation, `N_star` and `phi_i` large enough. -/
example {δ A L : ℝ} (hδ0 : 0 < δ) (hA : 0 < A) (hL : L ≠ 0) : ∃ (Φ φs Ns Λ phi_i : ℝ), (0 < Φ ∧ 64 < δ * Φ ^ 2) ∧ Φ < φs ∧ φs < phi_i ∧
    sr_As2Lambda L (Quadratic.sr L) A none (some Ns) = .ok (Λ, φs, Ns) ∧ (∀ φ, (Quadratic.sr L).sr_phi2N φ = .ok ((Quadratic.mk L).sr_phi2N φ)) ∧
    enoughEfolds δ ≤ (Quadratic.mk L).sr_phi2N φs - (Quadratic.mk L).sr_phi2N Φ ∧ enoughEfolds δ ≤ (Quadratic.mk L).sr_phi2N phi_i - (Quadratic.mk L).sr_phi2N φs := by
  obtain ⟨X, hX⟩ : ∃ X, X = max (enoughEfolds δ) 0 + 1 := ⟨_, rfl⟩
  have hXE : enoughEfolds δ ≤ X := by rw [hX]; linarith [le_max_left (enoughEfolds δ) 0]
  have hX0 : 0 < X := by rw [hX]; linarith [le_max_right (enoughEfolds δ) 0]
  obtain ⟨Φ, hΦ⟩ : ∃ Φ, Φ = √(65 / δ) := ⟨_, rfl⟩
  have hΦ0 : 0 < Φ := by rw [hΦ]; positivity
  have hΦ2 : Φ ^ 2 = 65 / δ := by rw [hΦ]; exact sq_sqrt (by positivity)
  have n : ∀ φ, (Quadratic.mk L).sr_phi2N φ = -2 / 4 + φ ^ 2 / (2 * 2) := fun _ => rfl
  have m : ∀ N, (Quadratic.mk L).sr_N2phi N = √(2 * 2) * √(4 * N + 2) / 2 := fun _ => rfl
  have h4 : √(2 * 2) = (2 : ℝ) := by rw [sqrt_mul_self (by norm_num)]
  have e1 : (√(Φ ^ 2 + 4 * X)) ^ 2 = Φ ^ 2 + 4 * X := sq_sqrt (by positivity)
  have e2 : (√(Φ ^ 2 + 8 * X)) ^ 2 = Φ ^ 2 + 8 * X := sq_sqrt (by positivity)
  have hφs : (Quadratic.mk L).sr_N2phi (-1 / 2 + (Φ ^ 2 + 4 * X) / 4) = √(Φ ^ 2 + 4 * X) := by
    rw [m, h4, show 4 * (-1 / 2 + (Φ ^ 2 + 4 * X) / 4) + 2 = Φ ^ 2 + 4 * X by ring]; ring
  have hps : 0 < √(Φ ^ 2 + 4 * X) := sqrt_pos.2 (by positivity)
  have hε : 0 < (Quadratic.sr L).get_epsilon_1V (√(Φ ^ 2 + 4 * X)) := by
    show 0 < (Quadratic.mk L).get_epsilon_1V _
    rw [(C03_quadratic ⟨L⟩ hL).first _ (ne_of_gt hps)]
    have : (0 : ℝ) < L ^ 4 := by positivity
    have : (Quadratic.mk L).dV (√(Φ ^ 2 + 4 * X)) ≠ 0 := by
      show 2 * L ^ 4 * √(Φ ^ 2 + 4 * X) ≠ 0
      positivity
    have : 0 < (Quadratic.mk L).V (√(Φ ^ 2 + 4 * X)) := by
      show 0 < L ^ 4 * √(Φ ^ 2 + 4 * X) ^ 2
      positivity
    positivity
  obtain ⟨Λ, h, -⟩ := C09_from_Nstar Quadratic.sr C09_quadratic L A (-1 / 2 + (Φ ^ 2 + 4 * X) / 4) (√(Φ ^ 2 + 4 * X)) hL hA (by rw [← hφs]; rfl)
    (by show 0 < L ^ 4 * √(Φ ^ 2 + 4 * X) ^ 2; positivity) hε
  refine ⟨Φ, √(Φ ^ 2 + 4 * X), _, Λ, √(Φ ^ 2 + 8 * X), ⟨hΦ0, ?_⟩, ?_, ?_, h, fun _ => rfl, ?_, ?_⟩
  · rw [hΦ2, mul_div_cancel₀ _ hδ0.ne']; norm_num
  · exact lt_sqrt_of_sq_lt (by linarith)
  · exact sqrt_lt_sqrt (by positivity) (by linarith)
  · rw [n, n, e1]; linarith
  · rw [n, n, e1, e2]; linarith

end Pert
end Primpy
