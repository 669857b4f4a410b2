import Verif.Props.C82
import Verif.Props.C73

/-!
# C83: numerical and slow-roll spectra of power-law inflation agree
-/

namespace Primpy
open Real Spec Asymptotics Filter Topology Approx
namespace Pert

/-- The slow-roll methods that are evaluated at the horizon crossing of each mode: order of the error, scalar factor, tensor factor. -/
noncomputable def crossing : List (ℕ × (SRPoint → ℝ) × (SRPoint → ℝ)) :=
  [(1, cgsS 0, cgsT 0), (2, cgsS 1, cgsT 1), (3, cgsS 2, cgsT 2), (3, cgsS 3, cgsT 3), (3, steS, steT)]

/-- None of the factors depends on `H`, nor (for `ε₂ = 0`) on `ε₃`. -/
theorem crossing_factor {M : ℕ × (SRPoint → ℝ) × (SRPoint → ℝ)} (hM : M ∈ crossing) {p : SRPoint} {ε : ℝ}
    (h1 : p.e1 = ε) (h2 : p.e2 = 0) (d1 : p.d1 = -ε) (d2 : p.d2 = 2 * ε ^ 2) (d3 : p.d3 = -6 * ε ^ 3) (g2 : p.g2 = 0) (g3 : p.g3 = 0) :
    M.2.1 p = M.2.1 (plPoint 1 ε) ∧ M.2.2 p = M.2.2 (plPoint 1 ε) := by
  simp only [crossing, List.mem_cons, List.not_mem_nil, or_false] at hM
  rcases hM with rfl | rfl | rfl | rfl | rfl <;>
    simp [cgsS, cgsT, cgsS1, cgsS2, cgsS3, cgsT1, cgsT2, cgsT3, steS, steT, plPoint, h1, h2, d1, d2, d3, g2, g3]

theorem crossing_order {M : ℕ × (SRPoint → ℝ) × (SRPoint → ℝ)} (hM : M ∈ crossing) :
    ((fun ε => M.2.1 (plPoint 1 ε) - powerLaw ε 0) =O[𝓝 0] fun ε : ℝ => ε ^ M.1) ∧
    ((fun ε => M.2.2 (plPoint 1 ε) - powerLaw ε 0) =O[𝓝 0] fun ε : ℝ => ε ^ M.1) := by
  simp only [crossing, List.mem_cons, List.not_mem_nil, or_false] at hM
  rcases hM with rfl | rfl | rfl | rfl | rfl
  · have h2 : (fun t : ℝ => 1 - powerLaw t 0) =O[𝓝 0] fun t : ℝ => t ^ 1 := by
      have key := ((Jet.poly 1 (2 * alpha - 2 - 2 * 0) 0 0).sub (jet_powerLaw 0)).congr (a' := 0) (b' := 0) (by ring) (by ring) rfl rfl
      have k2 := key.isBigO2
      have k3 : (fun t : ℝ => t ^ 2) =O[𝓝 0] fun t : ℝ => t ^ 1 :=
        isBigO_of_factor (g := fun t => t) 1 (Eventually.of_forall fun t => by ring) (by fun_prop)
      have k4 : (fun t : ℝ => (2 * alpha - 2 - 2 * 0) * t) =O[𝓝 0] fun t : ℝ => t ^ 1 :=
        isBigO_of_factor (g := fun _ => 2 * alpha - 2 - 2 * 0) 1 (Eventually.of_forall fun t => by ring) (by fun_prop)
      refine ((k2.trans k3).sub k4).congr_left fun t => ?_
      ring
    exact ⟨h2, h2⟩
  · exact C73_CGS_powerLaw 1 le_rfl (by norm_num) 1
  · exact C73_CGS_powerLaw 2 (by norm_num) le_rfl 1
  · exact ⟨(C73_CGS3_powerLaw 1).1, (C73_CGS3_powerLaw 1).2.1⟩
  · exact ⟨(C73_STE 1).1, (C73_STE 1).2.1⟩

/-- Uniform constants for all methods. -/
theorem crossing_bound : ∃ C ε₀ : ℝ, 0 < C ∧ 0 < ε₀ ∧ ε₀ ≤ 1 / 2 ∧ ∀ ε, 0 < ε → ε < ε₀ → ∀ M ∈ crossing,
    |M.2.1 (plPoint 1 ε) - powerLaw ε 0| ≤ C * ε ^ M.1 ∧ |M.2.2 (plPoint 1 ε) - powerLaw ε 0| ≤ C * ε ^ M.1 := by
  have one : ∀ f : ℝ → ℝ, ∀ n : ℕ, f =O[𝓝 0] (fun ε : ℝ => ε ^ n) → ∃ C ε₀ : ℝ, 0 < C ∧ 0 < ε₀ ∧ ∀ ε, 0 < ε → ε < ε₀ → |f ε| ≤ C * ε ^ n := by
    intro f n h
    obtain ⟨C, hC, hb⟩ := h.exists_pos
    obtain ⟨r, hr, hball⟩ := Metric.eventually_nhds_iff.1 hb.bound
    refine ⟨C, r, hC, hr, fun ε h0 h1 => ?_⟩
    have := hball (y := ε) (by rw [dist_zero_right, norm_of_nonneg h0.le]; exact h1)
    rwa [norm_eq_abs, norm_of_nonneg (by positivity)] at this
  have gen : ∀ l : List (ℕ × (SRPoint → ℝ) × (SRPoint → ℝ)), (∀ M ∈ l, M ∈ crossing) → ∃ C ε₀ : ℝ, 0 < C ∧ 0 < ε₀ ∧ ε₀ ≤ 1 / 2 ∧
      ∀ ε, 0 < ε → ε < ε₀ → ∀ M ∈ l,
        |M.2.1 (plPoint 1 ε) - powerLaw ε 0| ≤ C * ε ^ M.1 ∧ |M.2.2 (plPoint 1 ε) - powerLaw ε 0| ≤ C * ε ^ M.1 := by
    intro l
    induction l with
    | nil => exact fun _ => ⟨1, 1 / 2, one_pos, by norm_num, le_rfl, by simp⟩
    | cons M l ih =>
      intro hl
      obtain ⟨C, e, hC, he, he2, h⟩ := ih fun M' hM' => hl M' (List.mem_cons_of_mem _ hM')
      obtain ⟨hs, ht⟩ := crossing_order (hl M List.mem_cons_self)
      obtain ⟨C1, e1, hC1, he1, h1⟩ := one _ _ hs
      obtain ⟨C2, e2, hC2, he2', h2⟩ := one _ _ ht
      refine ⟨C + C1 + C2, min e (min e1 e2), by positivity, by positivity, (min_le_left _ _).trans he2, fun ε h0 hlt M' hM' => ?_⟩
      have a0 : ε < e := hlt.trans_le (min_le_left _ _)
      have a1 : ε < e1 := hlt.trans_le ((min_le_right _ _).trans (min_le_left _ _))
      have a2 : ε < e2 := hlt.trans_le ((min_le_right _ _).trans (min_le_right _ _))
      have hp : 0 < ε ^ M'.1 := by positivity
      rcases List.mem_cons.1 hM' with rfl | hM'
      · have b1 := h1 ε h0 a1
        have b2 := h2 ε h0 a2
        exact ⟨by nlinarith, by nlinarith⟩
      · obtain ⟨b1, b2⟩ := h ε h0 a0 M' hM'
        exact ⟨by nlinarith, by nlinarith⟩
  exact gen crossing fun M hM => hM

theorem powerLaw_pos {ε : ℝ} (h0 : 0 < ε) (h1 : ε < 1) (L : ℝ) : 0 < powerLaw ε L := by
  have h2 : 0 < 1 - ε := by linarith
  unfold powerLaw bunchDavies
  have := Gamma_pos_of_pos (s := 3 / 2 + ε / (1 - ε)) (by positivity)
  have := Gamma_pos_of_pos (s := 3 / 2) (by norm_num)
  positivity

theorem near_near {P A E F r ρ B : ℝ} (hA : 0 < A) (h1 : |P - A * E| ≤ r * (A * E)) (h2 : |F - E| ≤ B) (hr : r * E ≤ ρ) :
    |P - A * F| ≤ (B + ρ) * A := by
  have : P - A * F = (P - A * E) - A * (F - E) := by ring
  rw [this]
  refine (abs_sub _ _).trans ?_
  rw [abs_mul, abs_of_pos hA]
  have : A * |F - E| ≤ A * B := mul_le_mul_of_nonneg_left h2 hA.le
  have : r * (A * E) ≤ ρ * A := by nlinarith
  linarith

/-- An exact numerical run, e-folds: the background grid lies on the universe `φ, H` with `dφ/dN = q`, the mode `k` starts `X` times
inside the horizon, both mode equations are integrated exactly and sampled at `k ≤ η aH`. -/
structure RunN (X η q : ℝ) (S : Set ℝ) (pot : PotFns) (φ H : ℝ → ℝ) (osc : Oscode) (b : Bg) (kw : OscKw) (k : ℝ) (r : ModeSpectra) : Prop where
  indep : b.indep = .N
  flat : b.K = 0
  potential : b.pot = pot
  pos : 0 < k
  grid : ∀ p ∈ b.pts, ∃ n ∈ S, p = ptN 0 φ (fun _ => q) H n
  ic : kw.y0.getD b.perturbation_ic = (1, 0, 0, 1)
  run : solveOscode1 osc b k kw = .ok r
  inside : ∀ p, b.pts[idxBeg b kw.fac_beg k]? = some p → X * exp p.logaH ≤ k
  exact : ∀ s t, modes b k = some (s, t) → ∀ m ∈ [s, t],
    ExactRun osc b kw k m (ptN 0 φ (fun _ => q) H) S {n ∈ S | k ≤ η * (exp n * H n)}

/-- The same for cosmic time, `dφ/dt = q H`. -/
structure RunT (X η q : ℝ) (S : Set ℝ) (pot : PotFns) (N φ H : ℝ → ℝ) (osc : Oscode) (b : Bg) (kw : OscKw) (k : ℝ) (r : ModeSpectra) : Prop where
  indep : b.indep = .t
  flat : b.K = 0
  potential : b.pot = pot
  pos : 0 < k
  grid : ∀ p ∈ b.pts, ∃ t ∈ S, p = ptT 0 N φ (fun t => q * H t) H t
  ic : kw.y0.getD b.perturbation_ic = (1, 0, 0, 1)
  run : solveOscode1 osc b k kw = .ok r
  inside : ∀ p, b.pts[idxBeg b kw.fac_beg k]? = some p → X * exp p.logaH ≤ k
  exact : ∀ s t, modes b k = some (s, t) → ∀ m ∈ [s, t],
    ExactRun osc b kw k m (ptT 0 N φ (fun t => q * H t) H) S {t ∈ S | k ≤ η * (exp (N t) * H t)}

/-- **C83, e-folds.**  At the horizon crossing of the mode the scalar and tensor power spectra of the numerical solution and of the
Gong-Stewart (CGS) and Schwarz-Terrero-Escalante (STE) approximations differ by the stated power of `ε₁` times a constant, up to an
arbitrarily small `ρ`; `p` is the slow-roll point the code evaluates there (`ε₃`, multiplied by `ε₂ = 0`, may have any value). -/
theorem C83_efolds : ∃ C ε₀ : ℝ, 0 < C ∧ 0 < ε₀ ∧ ∀ q ρ : ℝ, q ≠ 0 → q ^ 2 / 2 < ε₀ → 0 < ρ → ∃ X η : ℝ, 0 < X ∧ 0 < η ∧
    ∀ (S D : Set ℝ) (pot : PotFns) (φ H : ℝ → ℝ), IsOpen S → IsPreconnected S →
    IsUniverseN S pot.V pot.dV 0 φ (fun _ => q) H → IsDerivOn D pot.V pot.dV → IsDerivOn D pot.dV pot.d2V → (∀ n ∈ S, φ n ∈ D) →
    ∀ (osc : Oscode) (b : Bg) (kw : OscKw) (k : ℝ) (r : ModeSpectra), RunN X η q S pot φ H osc b kw k r →
    ∀ vac ∈ kw.vacuum, ∃ Ps Pt : ℝ, r.P_s.get? vac = some (some Ps) ∧ r.P_t.get? vac = some (some Pt) ∧
      ∀ n ∈ S, k = exp n * H n → ∀ (e3 : ℝ) (o : ℕ) (fS fT : SRPoint → ℝ), (o, fS, fT) ∈ crossing →
        let p : SRPoint := { N.srPoint n (H n) q 0 0 0 0 with e3 := e3 }
        |Ps - Ps0 p * fS p| ≤ (C * (q ^ 2 / 2) ^ o + ρ) * Ps0 p ∧ |Pt - Pt0 p * fT p| ≤ (C * (q ^ 2 / 2) ^ o + ρ) * Pt0 p := by
  obtain ⟨C, ε₀, hC, hε₀, hhalf, hb⟩ := crossing_bound
  refine ⟨C, ε₀, hC, hε₀, fun q ρ hq hqε hρ => ?_⟩
  have hε : 0 < q ^ 2 / 2 := by positivity
  have hE := powerLaw_pos hε (by linarith) 0
  obtain ⟨X, η, hX, hη, hl⟩ := C82_efolds hq (by linarith) (div_pos hρ hE)
  refine ⟨X, η, hX, hη, ?_⟩
  intro S D pot φ H hS hc u hV hV2 hφ osc b kw k r R vac hv
  obtain ⟨Ps, Pt, a1, a2, a3⟩ := hl S D pot φ H hS hc u hV hV2 hφ osc b kw k r R.indep R.flat R.potential R.pos R.grid R.ic R.run R.inside R.exact vac hv
  refine ⟨Ps, Pt, a1, a2, fun n hn hkn e3 o fS fT hM => ?_⟩
  obtain ⟨b1, b2⟩ := a3 n hn
  have hH : 0 < H n := u.expanding n hn
  have hL : log (k / (exp n * H n)) = 0 := by rw [← hkn, div_self R.pos.ne', log_one]
  rw [hL] at b1 b2
  have hh : N.get_dH n (H n) q 0 = -(q ^ 2 / 2 * H n) := by unfold N.get_dH; field_simp; ring
  have h2 : N.get_d2H n (H n) (-(q ^ 2 / 2 * H n)) q 0 0 = (q ^ 2 / 2) ^ 2 * H n := by unfold N.get_d2H; field_simp; ring
  have h3 : N.get_d3H n (H n) (-(q ^ 2 / 2 * H n)) ((q ^ 2 / 2) ^ 2 * H n) q 0 0 0 = -((q ^ 2 / 2) ^ 3 * H n) := by
    unfold N.get_d3H; field_simp; ring
  intro p
  have pH : p.H = H n := rfl
  have p1 : p.e1 = q ^ 2 / 2 := by
    show N.get_epsilon_1H _ _ = _
    rw [hh]; unfold N.get_epsilon_1H; field_simp
  have f := crossing_factor hM (p := p) (ε := q ^ 2 / 2) p1
    (by show N.get_epsilon_2H _ _ _ = _
        rw [hh, h2]; unfold N.get_epsilon_2H; field_simp; ring)
    (by show N.get_delta_1 _ _ _ _ = _
        rw [hh]; unfold N.get_delta_1; field_simp; ring)
    (by show N.get_delta_2 _ _ _ _ _ _ = _
        rw [hh, h2]; unfold N.get_delta_2; field_simp; ring)
    (by show N.get_delta_3 _ _ _ _ _ _ _ _ = _
        rw [hh, h2, h3]; unfold N.get_delta_3; field_simp; ring)
    (by show N.get_epsilon_2H_Gong _ _ _ = _
        rw [hh, h2]; unfold N.get_epsilon_2H_Gong; field_simp; ring)
    (by show N.get_epsilon_3H_Gong _ _ _ _ = _
        rw [hh, h2, h3]; unfold N.get_epsilon_3H_Gong; field_simp; ring)
  obtain ⟨c1, c2⟩ := hb (q ^ 2 / 2) hε hqε _ hM
  dsimp only at f c1 c2
  rw [f.1, f.2]
  have hPs : Ps0 p = H n ^ 2 / (8 * π ^ 2 * (q ^ 2 / 2)) := by rw [Ps0, pH, p1]
  have hPt : Pt0 p = 2 * H n ^ 2 / π ^ 2 := by rw [Pt0, pH, div_pow, mul_div_assoc]
  have hr : ρ / powerLaw (q ^ 2 / 2) 0 * powerLaw (q ^ 2 / 2) 0 ≤ ρ := (div_mul_cancel₀ _ hE.ne').le
  rw [hPs, hPt]
  exact ⟨near_near (by positivity) b1 c1 hr, near_near (by positivity) b2 c2 hr⟩

/-- **C83, cosmic time.**  With `ε = q²/2`: `dH/dt = -ε H²`, so the derivatives of `dφ/dt = q H` are `-q ε H²`, `2 q ε² H³`, `-6 q ε³ H⁴`. -/
theorem C83_time : ∃ C ε₀ : ℝ, 0 < C ∧ 0 < ε₀ ∧ ∀ q ρ : ℝ, q ≠ 0 → q ^ 2 / 2 < ε₀ → 0 < ρ → ∃ X η : ℝ, 0 < X ∧ 0 < η ∧
    ∀ (S D : Set ℝ) (pot : PotFns) (N φ H : ℝ → ℝ), IsOpen S → IsPreconnected S →
    IsUniverse S pot.V pot.dV 0 N φ (fun t => q * H t) H → IsDerivOn D pot.V pot.dV → IsDerivOn D pot.dV pot.d2V → (∀ t ∈ S, φ t ∈ D) →
    ∀ (osc : Oscode) (b : Bg) (kw : OscKw) (k : ℝ) (r : ModeSpectra), RunT X η q S pot N φ H osc b kw k r →
    ∀ vac ∈ kw.vacuum, ∃ Ps Pt : ℝ, r.P_s.get? vac = some (some Ps) ∧ r.P_t.get? vac = some (some Pt) ∧
      ∀ t ∈ S, k = exp (N t) * H t → ∀ (e3 : ℝ) (o : ℕ) (fS fT : SRPoint → ℝ), (o, fS, fT) ∈ crossing →
        let p : SRPoint := { T.srPoint (N t) (H t) (q * H t) (-(q * (q ^ 2 / 2) * H t ^ 2)) (2 * q * (q ^ 2 / 2) ^ 2 * H t ^ 3)
          (-(6 * q * (q ^ 2 / 2) ^ 3 * H t ^ 4)) 0 with e3 := e3 }
        |Ps - Ps0 p * fS p| ≤ (C * (q ^ 2 / 2) ^ o + ρ) * Ps0 p ∧ |Pt - Pt0 p * fT p| ≤ (C * (q ^ 2 / 2) ^ o + ρ) * Pt0 p := by
  obtain ⟨C, ε₀, hC, hε₀, hhalf, hb⟩ := crossing_bound
  refine ⟨C, ε₀, hC, hε₀, fun q ρ hq hqε hρ => ?_⟩
  have hε : 0 < q ^ 2 / 2 := by positivity
  have hE := powerLaw_pos hε (by linarith) 0
  obtain ⟨X, η, hX, hη, hl⟩ := C82_time hq (by linarith) (div_pos hρ hE)
  refine ⟨X, η, hX, hη, ?_⟩
  intro S D pot N φ H hS hc u hV hV2 hφ osc b kw k r R vac hv
  obtain ⟨Ps, Pt, a1, a2, a3⟩ := hl S D pot N φ H hS hc u hV hV2 hφ osc b kw k r R.indep R.flat R.potential R.pos R.grid R.ic R.run R.inside R.exact vac hv
  refine ⟨Ps, Pt, a1, a2, fun t ht hkn e3 o fS fT hM => ?_⟩
  obtain ⟨b1, b2⟩ := a3 t ht
  have hH : 0 < H t := u.expanding t ht
  have hL : log (k / (exp (N t) * H t)) = 0 := by rw [← hkn, div_self R.pos.ne', log_one]
  rw [hL] at b1 b2
  have hh : T.get_dH (N t) (H t) (q * H t) 0 = -(q ^ 2 / 2 * H t ^ 2) := by unfold T.get_dH; field_simp; ring
  have h2 : T.get_d2H (N t) (H t) (-(q ^ 2 / 2 * H t ^ 2)) (q * H t) (-(q * (q ^ 2 / 2) * H t ^ 2)) 0 = 2 * (q ^ 2 / 2) ^ 2 * H t ^ 3 := by
    unfold T.get_d2H; field_simp; ring
  have h3 : T.get_d3H (N t) (H t) (-(q ^ 2 / 2 * H t ^ 2)) (2 * (q ^ 2 / 2) ^ 2 * H t ^ 3) (q * H t) (-(q * (q ^ 2 / 2) * H t ^ 2))
      (2 * q * (q ^ 2 / 2) ^ 2 * H t ^ 3) 0 = -(6 * (q ^ 2 / 2) ^ 3 * H t ^ 4) := by
    unfold T.get_d3H; field_simp; ring
  intro p
  have pH : p.H = H t := rfl
  have p1 : p.e1 = q ^ 2 / 2 := by
    show T.get_epsilon_1H _ _ = _
    rw [hh]; unfold T.get_epsilon_1H; field_simp
  have f := crossing_factor hM (p := p) (ε := q ^ 2 / 2) p1
    (by show T.get_epsilon_2H _ _ _ = _
        rw [hh, h2]; unfold T.get_epsilon_2H; field_simp; ring)
    (by simp only [p, T.srPoint, T.get_delta_1]
        field_simp)
    (by simp only [p, T.srPoint, T.get_delta_2]
        field_simp)
    (by simp only [p, T.srPoint, T.get_delta_3]
        field_simp)
    (by show T.get_epsilon_2H_Gong _ _ _ = _
        rw [hh, h2]; unfold T.get_epsilon_2H_Gong; field_simp; ring)
    (by show T.get_epsilon_3H_Gong _ _ _ _ = _
        rw [hh, h2, h3]; unfold T.get_epsilon_3H_Gong; field_simp; ring)
  obtain ⟨c1, c2⟩ := hb (q ^ 2 / 2) hε hqε _ hM
  dsimp only at f c1 c2
  rw [f.1, f.2]
  have hPs : Ps0 p = H t ^ 2 / (8 * π ^ 2 * (q ^ 2 / 2)) := by rw [Ps0, pH, p1]
  have hPt : Pt0 p = 2 * H t ^ 2 / π ^ 2 := by rw [Pt0, pH, div_pow, mul_div_assoc]
  have hr : ρ / powerLaw (q ^ 2 / 2) 0 * powerLaw (q ^ 2 / 2) 0 ≤ ρ := (div_mul_cancel₀ _ hE.ne').le
  rw [hPs, hPt]
  exact ⟨near_near (by positivity) b1 c1 hr, near_near (by positivity) b2 c2 hr⟩

/-! ## Tensor-to-scalar ratio and tilt -/

theorem ratio_near {P Q E F r ρ : ℝ} (hE : 0 < E) (hF : 0 < F) (hr : 0 ≤ r) (hr2 : r ≤ 1 / 2) (hρ : 4 * r ≤ ρ) (h1 : |P - E| ≤ r * E) (h2 : |Q - F| ≤ r * F) :
    |P / Q - E / F| ≤ ρ * (E / F) := by
  obtain ⟨a1, a2⟩ := abs_le.1 h1
  obtain ⟨b1, b2⟩ := abs_le.1 h2
  have hQ : F / 2 ≤ Q := by nlinarith
  have hQ0 : 0 < Q := by linarith
  have e : P / Q - E / F = ((P - E) * F - E * (Q - F)) / (Q * F) := by field_simp; ring
  rw [e, abs_div, abs_of_pos (mul_pos hQ0 hF), div_le_iff₀ (mul_pos hQ0 hF)]
  have c : |(P - E) * F - E * (Q - F)| ≤ 2 * r * E * F := by
    refine (abs_sub _ _).trans ?_
    rw [abs_mul, abs_mul, abs_of_pos hE, abs_of_pos hF]
    nlinarith
  refine c.trans ?_
  have : ρ * (E / F) * (Q * F) = ρ * E * Q := by field_simp
  rw [this]
  have h3 : 2 * r * F ≤ ρ * Q := by nlinarith
  nlinarith

theorem ratio_algebra {ε r ρ k k' A H Ps Pt Ps' Pt' : ℝ} (hε : 0 < ε) (hε1 : ε < 1) (r0 : 0 ≤ r) (r1 : r ≤ 1 / 2) (r2 : 4 * r ≤ ρ) (hk : 0 < k) (hk' : 0 < k')
    (hA : 0 < A) (hH : 0 < H)
    (h : |Ps - H ^ 2 / (8 * π ^ 2 * ε) * powerLaw ε (log (k / A))| ≤ r * (H ^ 2 / (8 * π ^ 2 * ε) * powerLaw ε (log (k / A))) ∧
      |Pt - 2 * H ^ 2 / π ^ 2 * powerLaw ε (log (k / A))| ≤ r * (2 * H ^ 2 / π ^ 2 * powerLaw ε (log (k / A))))
    (h' : |Ps' - H ^ 2 / (8 * π ^ 2 * ε) * powerLaw ε (log (k' / A))| ≤ r * (H ^ 2 / (8 * π ^ 2 * ε) * powerLaw ε (log (k' / A))) ∧
      |Pt' - 2 * H ^ 2 / π ^ 2 * powerLaw ε (log (k' / A))| ≤ r * (2 * H ^ 2 / π ^ 2 * powerLaw ε (log (k' / A)))) :
    |Pt / Ps - 16 * ε| ≤ ρ * (16 * ε) ∧
      |Ps / Ps' - (k / k') ^ (-(2 * ε / (1 - ε)))| ≤ ρ * (k / k') ^ (-(2 * ε / (1 - ε))) ∧
      |Pt / Pt' - (k / k') ^ (-(2 * ε / (1 - ε)))| ≤ ρ * (k / k') ^ (-(2 * ε / (1 - ε))) := by
  have p1 := powerLaw_pos hε hε1 (log (k / A))
  have p2 := powerLaw_pos hε hε1 (log (k' / A))
  have hq : powerLaw ε (log (k / A)) / powerLaw ε (log (k' / A)) = (k / k') ^ (-(2 * ε / (1 - ε))) := by
    have hb : bunchDavies (3 / 2 + ε / (1 - ε)) * (1 - ε) ^ (2 * (3 / 2 + ε / (1 - ε)) - 1) ≠ 0 := fun h0 => by
      unfold powerLaw at p1
      rw [h0, zero_mul] at p1
      exact lt_irrefl _ p1
    unfold powerLaw
    rw [mul_div_mul_left _ _ hb, ← exp_sub, rpow_def_of_pos (by positivity), log_div hk.ne' hA.ne', log_div hk'.ne' hA.ne', log_div hk.ne' hk'.ne']
    congr 1
    ring
  have e1 : 2 * H ^ 2 / π ^ 2 * powerLaw ε (log (k / A)) / (H ^ 2 / (8 * π ^ 2 * ε) * powerLaw ε (log (k / A))) = 16 * ε := by
    have := pi_pos
    field_simp
    norm_num
  have e2 : ∀ c : ℝ, 0 < c → c * powerLaw ε (log (k / A)) / (c * powerLaw ε (log (k' / A))) = (k / k') ^ (-(2 * ε / (1 - ε))) := fun c hc => by
    rw [mul_div_mul_left _ _ hc.ne', hq]
  have := pi_pos
  refine ⟨?_, ?_, ?_⟩
  · have := ratio_near (by positivity) (by positivity) r0 r1 r2 h.2 h.1
    rwa [e1] at this
  · have := ratio_near (by positivity) (by positivity) r0 r1 r2 h.1 h'.1
    rwa [e2 _ (by positivity)] at this
  · have := ratio_near (by positivity) (by positivity) r0 r1 r2 h.2 h'.2
    rwa [e2 _ (by positivity)] at this

/-- **C83, e-folds: tensor-to-scalar ratio and tilt.**  `r = P_t/P_s = 16 ε₁` and, for two wavenumbers, `P(k)/P(k') = (k/k')^{n}` with
`n_s - 1 = n_t = -2ε₁/(1-ε₁)`, whichever of the vacua are used. -/
theorem C83_ratio_efolds (q ρ : ℝ) (hq : q ≠ 0) (hq2 : q ^ 2 < 2) (hρ : 0 < ρ) : ∃ X η : ℝ, 0 < X ∧ 0 < η ∧
    ∀ (S D : Set ℝ) (pot : PotFns) (φ H : ℝ → ℝ), IsOpen S → IsPreconnected S →
    IsUniverseN S pot.V pot.dV 0 φ (fun _ => q) H → IsDerivOn D pot.V pot.dV → IsDerivOn D pot.dV pot.d2V → (∀ n ∈ S, φ n ∈ D) →
    ∀ (osc osc' : Oscode) (b b' : Bg) (kw kw' : OscKw) (k k' : ℝ) (r r' : ModeSpectra), RunN X η q S pot φ H osc b kw k r →
    RunN X η q S pot φ H osc' b' kw' k' r' → ∀ vac ∈ kw.vacuum, ∀ vac' ∈ kw'.vacuum, ∃ Ps Pt Ps' Pt' : ℝ,
      r.P_s.get? vac = some (some Ps) ∧ r.P_t.get? vac = some (some Pt) ∧
      r'.P_s.get? vac' = some (some Ps') ∧ r'.P_t.get? vac' = some (some Pt') ∧
      |Pt / Ps - 16 * (q ^ 2 / 2)| ≤ ρ * (16 * (q ^ 2 / 2)) ∧
      |Ps / Ps' - (k / k') ^ (-(2 * (q ^ 2 / 2) / (1 - q ^ 2 / 2)))| ≤ ρ * (k / k') ^ (-(2 * (q ^ 2 / 2) / (1 - q ^ 2 / 2))) ∧
      |Pt / Pt' - (k / k') ^ (-(2 * (q ^ 2 / 2) / (1 - q ^ 2 / 2)))| ≤ ρ * (k / k') ^ (-(2 * (q ^ 2 / 2) / (1 - q ^ 2 / 2))) := by
  have hε : 0 < q ^ 2 / 2 := by positivity
  have hε1 : q ^ 2 / 2 < 1 := by linarith
  obtain ⟨ρ', hρ'⟩ : ∃ ρ', ρ' = min (1 / 2) (ρ / 4) := ⟨_, rfl⟩
  have r0 : 0 < ρ' := by rw [hρ']; positivity
  have r1 : ρ' ≤ 1 / 2 := by rw [hρ']; exact min_le_left _ _
  have r2 : 4 * ρ' ≤ ρ := by have : ρ' ≤ ρ / 4 := by rw [hρ']; exact min_le_right _ _
                             linarith
  obtain ⟨X, η, hX, hη, hl⟩ := C82_efolds hq hq2 r0
  refine ⟨X, η, hX, hη, ?_⟩
  intro S D pot φ H hS hc u hV hV2 hφ osc osc' b b' kw kw' k k' r r' R R' vac hv vac' hv'
  obtain ⟨Ps, Pt, a1, a2, a3⟩ := hl S D pot φ H hS hc u hV hV2 hφ osc b kw k r R.indep R.flat R.potential R.pos R.grid R.ic R.run R.inside R.exact vac hv
  obtain ⟨Ps', Pt', b1, b2, b3⟩ := hl S D pot φ H hS hc u hV hV2 hφ osc' b' kw' k' r' R'.indep R'.flat R'.potential R'.pos R'.grid R'.ic R'.run R'.inside R'.exact vac' hv'
  refine ⟨Ps, Pt, Ps', Pt', a1, a2, b1, b2, ?_⟩
  have hrun := R.run
  rw [single_eq] at hrun
  obtain ⟨-, -, -, pb, -, -, -, -, -, -, -, -, hb', -⟩ := oneMode_ok hrun
  obtain ⟨n, hn, -⟩ := R.grid pb (List.mem_of_getElem? hb')
  have hH : 0 < H n := u.expanding n hn
  have haH : 0 < exp n * H n := by positivity
  exact ratio_algebra hε hε1 r0.le r1 r2 R.pos R'.pos haH hH (a3 n hn) (b3 n hn)

/-- **C83, cosmic time: tensor-to-scalar ratio and tilt.** -/
theorem C83_ratio_time (q ρ : ℝ) (hq : q ≠ 0) (hq2 : q ^ 2 < 2) (hρ : 0 < ρ) : ∃ X η : ℝ, 0 < X ∧ 0 < η ∧
    ∀ (S D : Set ℝ) (pot : PotFns) (N φ H : ℝ → ℝ), IsOpen S → IsPreconnected S →
    IsUniverse S pot.V pot.dV 0 N φ (fun t => q * H t) H → IsDerivOn D pot.V pot.dV → IsDerivOn D pot.dV pot.d2V → (∀ t ∈ S, φ t ∈ D) →
    ∀ (osc osc' : Oscode) (b b' : Bg) (kw kw' : OscKw) (k k' : ℝ) (r r' : ModeSpectra), RunT X η q S pot N φ H osc b kw k r →
    RunT X η q S pot N φ H osc' b' kw' k' r' → ∀ vac ∈ kw.vacuum, ∀ vac' ∈ kw'.vacuum, ∃ Ps Pt Ps' Pt' : ℝ,
      r.P_s.get? vac = some (some Ps) ∧ r.P_t.get? vac = some (some Pt) ∧
      r'.P_s.get? vac' = some (some Ps') ∧ r'.P_t.get? vac' = some (some Pt') ∧
      |Pt / Ps - 16 * (q ^ 2 / 2)| ≤ ρ * (16 * (q ^ 2 / 2)) ∧
      |Ps / Ps' - (k / k') ^ (-(2 * (q ^ 2 / 2) / (1 - q ^ 2 / 2)))| ≤ ρ * (k / k') ^ (-(2 * (q ^ 2 / 2) / (1 - q ^ 2 / 2))) ∧
      |Pt / Pt' - (k / k') ^ (-(2 * (q ^ 2 / 2) / (1 - q ^ 2 / 2)))| ≤ ρ * (k / k') ^ (-(2 * (q ^ 2 / 2) / (1 - q ^ 2 / 2))) := by
  have hε : 0 < q ^ 2 / 2 := by positivity
  have hε1 : q ^ 2 / 2 < 1 := by linarith
  obtain ⟨ρ', hρ'⟩ : ∃ ρ', ρ' = min (1 / 2) (ρ / 4) := ⟨_, rfl⟩
  have r0 : 0 < ρ' := by rw [hρ']; positivity
  have r1 : ρ' ≤ 1 / 2 := by rw [hρ']; exact min_le_left _ _
  have r2 : 4 * ρ' ≤ ρ := by have : ρ' ≤ ρ / 4 := by rw [hρ']; exact min_le_right _ _
                             linarith
  obtain ⟨X, η, hX, hη, hl⟩ := C82_time hq hq2 r0
  refine ⟨X, η, hX, hη, ?_⟩
  intro S D pot N φ H hS hc u hV hV2 hφ osc osc' b b' kw kw' k k' r r' R R' vac hv vac' hv'
  obtain ⟨Ps, Pt, a1, a2, a3⟩ := hl S D pot N φ H hS hc u hV hV2 hφ osc b kw k r R.indep R.flat R.potential R.pos R.grid R.ic R.run R.inside R.exact vac hv
  obtain ⟨Ps', Pt', b1, b2, b3⟩ := hl S D pot N φ H hS hc u hV hV2 hφ osc' b' kw' k' r' R'.indep R'.flat R'.potential R'.pos R'.grid R'.ic R'.run R'.inside R'.exact vac' hv'
  refine ⟨Ps, Pt, Ps', Pt', a1, a2, b1, b2, ?_⟩
  have hrun := R.run
  rw [single_eq] at hrun
  obtain ⟨-, -, -, pb, -, -, -, -, -, -, -, -, hb', -⟩ := oneMode_ok hrun
  obtain ⟨n, hn, -⟩ := R.grid pb (List.mem_of_getElem? hb')
  have hH : 0 < H n := u.expanding n hn
  have haH : 0 < exp (N n) * H n := by positivity
  exact ratio_algebra hε hε1 r0.le r1 r2 R.pos R'.pos haH hH (a3 n hn) (b3 n hn)

/-! ## Hypotheses met -/

/-- `V = c e^{-qφ}` -/
noncomputable def expPotQ (q c : ℝ) : PotFns :=
  ⟨fun φ => c * exp (-(q * φ)), fun φ => -q * c * exp (-(q * φ)), fun φ => q ^ 2 * c * exp (-(q * φ)), fun φ => -q ^ 3 * c * exp (-(q * φ)),
   fun φ => q ^ 4 * c * exp (-(q * φ))⟩

theorem expPotQ_d1 (q c : ℝ) : IsDerivOn Set.univ (expPotQ q c).V (expPotQ q c).dV ∧ IsDerivOn Set.univ (expPotQ q c).dV (expPotQ q c).d2V := by
  have h : ∀ (a φ : ℝ), HasDerivAt (fun x : ℝ => a * exp (-(q * x))) (-q * a * exp (-(q * φ))) φ := fun a φ => by
    refine ((((hasDerivAt_id φ).const_mul q).fun_neg.exp).const_mul a).congr_deriv ?_
    simp only [id]
    ring
  refine ⟨fun φ _ => h c φ, fun φ _ => (h (-q * c) φ).congr_deriv ?_⟩
  simp only [expPotQ]
  ring

/-- `log 100 < 10` -/
theorem log_hundred_ten : log 100 < 10 := by
  rw [log_lt_iff_lt_exp (by norm_num)]
  have h1 : (2 : ℝ) ≤ exp 1 := by have := add_one_le_exp (1 : ℝ); linarith
  have h2 : exp 10 = exp 1 ^ 10 := by rw [← exp_nat_mul]; norm_num
  rw [h2]
  calc (100 : ℝ) < 2 ^ 10 := by norm_num
    _ ≤ exp 1 ^ 10 := pow_le_pow_left₀ (by norm_num) h1 10

/-- Two grid points, `aH = m/M` and `aH = m L`. -/
theorem two_point_run {k M L m : ℝ} (hk : 0 < k) (hM : 0 < M) (hm : 1 ≤ m) (hM1 : 1 ≤ M) (hMk : m / k ≤ M) (hL : exp 10 * max 1 k ≤ L) {b : Bg} {p0 p1 : Pt}
    (hi : b.indep ≠ .other) (hpts : b.pts = [p0, p1]) (h0 : p0.logaH = log (m * M⁻¹)) (h1 : p1.logaH = log (m * L)) (c : ℝ) (n0 : p0.N = -(m * log M) + c) (n1 : p1.N = m * log L + c)
    (hic : b.perturbation_ic = (1, 0, 0, 1)) (F G : ℝ → ℂ) (T : ℝ) :
    idxBeg b 0 k = 0 ∧ idxEnd b 0 100 k = .ok 1 ∧ ∃ r, solveOscode1 (lateOsc F G T) b k { vacuum := ["k", "HD", "RST"] } = .ok r := by
  have hbeg : idxBeg b 0 k = 0 := if_pos rfl
  have hm0 : 0 < m := by linarith
  have hL1 : exp 10 ≤ L := le_trans (le_mul_of_one_le_right (exp_pos 10).le (le_max_left 1 k)) hL
  have hL2 : exp 10 * k ≤ L := le_trans (mul_le_mul_of_nonneg_left (le_max_right 1 k) (exp_pos 10).le) hL
  have hL0 : 0 < L := (exp_pos 10).trans_le hL1
  have hlM : 0 ≤ log M := log_nonneg hM1
  have hlL : 10 ≤ log L := (le_log_iff_exp_le hL0).2 hL1
  have hlLk : 10 + log k ≤ log L := by
    rw [le_log_iff_exp_le hL0, exp_add, exp_log hk]; exact hL2
  have hend : idxEnd b 0 100 k = .ok 1 := by
    have h100 := log_hundred_ten
    have a : argwhere (fun p => endTest k 100 p.logaH) b.pts = [1] := by
      have e0 : ¬ endTest k 100 (log (m * M⁻¹)) := by
        rintro ⟨-, -, h | h | h⟩
        · linarith
        · norm_num at h
        · have h2 : log (m * M⁻¹) ≤ log k := log_le_log (by positivity) (by
            rw [div_le_iff₀ hk] at hMk
            rw [← div_eq_mul_inv, div_le_iff₀ hM]; linarith)
          have : 0 < log 100 := log_pos (by norm_num)
          linarith
      have e1 : endTest k 100 (log (m * L)) := by
        refine ⟨hk.le, by norm_num, Or.inr (Or.inr ?_)⟩
        have : log L ≤ log (m * L) := log_le_log hL0 (by nlinarith)
        linarith
      rw [hpts]
      simp [argwhere, h0, h1, e0, e1, List.range, List.range.loop]
    unfold idxEnd
    rw [a, hpts]
    have : ¬ m * log L + m * log M < 10 := by nlinarith
    simp [n0, n1]
    intro h
    linarith
  refine ⟨hbeg, hend, ?_⟩
  obtain ⟨s, t, hst⟩ : ∃ s t, modes b k = some (s, t) := by
    unfold modes
    cases h : b.indep
    · exact ⟨_, _, rfl⟩
    · exact ⟨_, _, rfl⟩
    · exact absurd h hi
  have hv : ∀ v ∈ ["k", "HD", "RST"], (s.vacuum v).isSome ∧ (t.vacuum v).isSome := by
    unfold modes at hst
    intro v hv
    simp only [List.mem_cons, List.not_mem_nil, or_false] at hv
    cases h : b.indep <;> rw [h] at hst <;> cases hst <;> rcases hv with rfl | rfl | rfl <;> simp [byName]
  obtain ⟨s1, hs1⟩ := Option.isSome_iff_exists.1 (hv "k" (by simp)).1
  obtain ⟨s2, hs2⟩ := Option.isSome_iff_exists.1 (hv "HD" (by simp)).1
  obtain ⟨s3, hs3⟩ := Option.isSome_iff_exists.1 (hv "RST" (by simp)).1
  obtain ⟨t1, ht1⟩ := Option.isSome_iff_exists.1 (hv "k" (by simp)).2
  obtain ⟨t2, ht2⟩ := Option.isSome_iff_exists.1 (hv "HD" (by simp)).2
  obtain ⟨t3, ht3⟩ := Option.isSome_iff_exists.1 (hv "RST" (by simp)).2
  rw [single_eq]
  unfold oneMode
  dsimp only
  rw [hbeg, hend, hst]
  simp [runs, oscCall, hpts, hic, lateOsc, pick, combineAll, hs1, hs2, hs3, ht1, ht2, ht3, combine, ab, Bind.bind, Except.bind, Pure.pure, Except.pure]

/-- **C82, C83 met, e-folds**: for every slope `q`, whatever `X` and `η` are, there is a universe in which every wavenumber has such
a run, with all three vacua, and crosses the horizon. -/
theorem exists_runN {q X η : ℝ} (hq : q ≠ 0) (hq2 : q ^ 2 < 2) (hη : 0 < η) : ∃ (pot : PotFns) (φ H : ℝ → ℝ),
    IsUniverseN Set.univ pot.V pot.dV 0 φ (fun _ => q) H ∧ IsDerivOn Set.univ pot.V pot.dV ∧ IsDerivOn Set.univ pot.dV pot.d2V ∧
    ∀ k, 0 < k → (∃ n, k = exp n * H n) ∧
      ∃ osc b r, RunN X η q Set.univ pot φ H osc b { vacuum := ["k", "HD", "RST"] } k r := by
  obtain ⟨m, hm⟩ : ∃ m, m = 1 / (1 - q ^ 2 / 2) := ⟨_, rfl⟩
  have h1ε : 0 < 1 - q ^ 2 / 2 := by linarith
  have hm1 : 1 ≤ m := by rw [hm, le_div_iff₀ h1ε]; nlinarith [sq_nonneg q]
  have hm0 : 0 < m := by linarith
  have hmi : 1 / m = 1 - q ^ 2 / 2 := by rw [hm]; field_simp
  obtain ⟨H, hH⟩ : ∃ H : ℝ → ℝ, H = fun n => m * exp (-(q ^ 2 / 2 * n)) := ⟨_, rfl⟩
  have haH : ∀ n : ℝ, exp n * H n = m * exp (n / m) := fun n => by
    rw [hH, mul_left_comm, ← exp_add, div_eq_mul_one_div n m, hmi]; congr 2; ring
  have hHp : ∀ n, 0 < H n := fun n => by rw [hH]; positivity
  have hHd : ∀ n, HasDerivAt H (-(q ^ 2 / 2 * H n)) n := fun n => by
    rw [hH]
    refine ((((hasDerivAt_id n).const_mul (q ^ 2 / 2)).fun_neg.exp).const_mul m).congr_deriv ?_
    simp only [id]
    ring
  have hV2 : ∀ n : ℝ, m ^ 2 * exp (-(q * (q * n))) = H n ^ 2 := fun n => by
    rw [hH, mul_pow, ← exp_nat_mul]; congr 2; push_cast; ring
  obtain ⟨V, hVd⟩ := expPotQ_d1 q ((3 - q ^ 2 / 2) * m ^ 2)
  have u : IsUniverseN Set.univ (expPotQ q ((3 - q ^ 2 / 2) * m ^ 2)).V (expPotQ q ((3 - q ^ 2 / 2) * m ^ 2)).dV 0 (fun n => q * n) (fun _ => q) H := by
    refine ⟨fun n _ => ((hasDerivAt_id n).const_mul q).congr_deriv (by ring), fun n _ => ?_, fun n _ => ?_, fun n _ => hHp n⟩
    · refine ((hHd n).mul_const q).congr_deriv ?_
      have := hHp n
      simp only [expPotQ]
      rw [show -q * ((3 - q ^ 2 / 2) * m ^ 2) * exp (-(q * (q * n))) = -q * (3 - q ^ 2 / 2) * (m ^ 2 * exp (-(q * (q * n)))) by ring, hV2]
      field_simp
      ring
    · simp only [expPotQ]
      rw [mul_assoc (3 - q ^ 2 / 2), hV2]
      ring
  refine ⟨_, _, H, u, V, hVd, fun k hk => ⟨⟨m * log (k / m), ?_⟩, ?_⟩⟩
  · rw [haH, mul_div_cancel_left₀ _ hm0.ne', exp_log (by positivity)]
    field_simp
  have c : Clock Set.univ m (k ^ (-m)) (fun n => n) (fun _ => 1) (fun _ => 0) (fun n => k * exp (-(n / m))) := by
    refine ⟨fun n _ => hasDerivAt_id n, fun n _ => hasDerivAt_const n 1, continuousOn_const, fun n _ => ⟨one_pos, by positivity⟩, fun n _ => ?_, fun n _ => ?_⟩
    · refine ((((hasDerivAt_id n).div_const m).fun_neg).exp.const_mul k).congr_deriv ?_
      simp only [id]
      ring
    · rw [mul_rpow hk.le (exp_pos _).le, ← mul_assoc, ← rpow_add hk, neg_add_cancel, rpow_zero, one_mul, ← exp_mul]
      congr 1
      field_simp
  obtain ⟨X1, hX1, hfun⟩ := fundamental hm1
  obtain ⟨M, hM⟩ : ∃ M, M = max (max 1 (X1 / k)) (max (m / k) (m * X / k)) := ⟨_, rfl⟩
  have hM1 : 1 ≤ M := by rw [hM]; exact (le_max_left _ _).trans (le_max_left _ _)
  have hM2 : X1 / k ≤ M := by rw [hM]; exact (le_max_right _ _).trans (le_max_left _ _)
  have hM3 : m / k ≤ M := by rw [hM]; exact (le_max_left _ _).trans (le_max_right _ _)
  have hM4 : m * X / k ≤ M := by rw [hM]; exact (le_max_right _ _).trans (le_max_right _ _)
  obtain ⟨L, hL⟩ : ∃ L, L = max (exp 10 * max 1 k) (k / η) := ⟨_, rfl⟩
  have hL1 : exp 10 * max 1 k ≤ L := by rw [hL]; exact le_max_left _ _
  have hL2 : k / η ≤ L := by rw [hL]; exact le_max_right _ _
  have hM0 : 0 < M := by linarith
  have hL0 : 0 < L := lt_of_lt_of_le (by positivity) hL1
  have ex0 : exp (-(-(m * log M) / m)) = M := by rw [neg_div, mul_div_cancel_left₀ _ hm0.ne', neg_neg, exp_log hM0]
  have ea0 : exp (-(m * log M) / m) = M⁻¹ := by rw [neg_div, mul_div_cancel_left₀ _ hm0.ne', exp_neg, exp_log hM0]
  have ea1 : exp (m * log L / m) = L := by rw [mul_div_cancel_left₀ _ hm0.ne', exp_log hL0]
  obtain ⟨F, F1, F2, G, G1, G2, tF, tG, i1, i2, i3, i4, hosc⟩ := hfun c (-(m * log M)) trivial (by
    rw [ex0]; rw [div_le_iff₀ hk] at hM2; linarith)
  obtain ⟨p0, hp0⟩ : ∃ p, p = ptN 0 (fun n => q * n) (fun _ => q) H (-(m * log M)) := ⟨_, rfl⟩
  obtain ⟨p1, hp1⟩ : ∃ p, p = ptN 0 (fun n => q * n) (fun _ => q) H (m * log L) := ⟨_, rfl⟩
  have hl0 : p0.logaH = log (m * M⁻¹) := by rw [hp0]; simp only [ptN, haH, ea0]
  have hl1 : p1.logaH = log (m * L) := by rw [hp1]; simp only [ptN, haH, ea1]
  have hN0 : p0.N = -(m * log M) + 0 := by rw [hp0, add_zero]; rfl
  have hN1 : p1.N = m * log L + 0 := by rw [hp1, add_zero]; rfl
  obtain ⟨b, hb⟩ : ∃ b : Bg, b = { indep := .N, K := 0, pot := expPotQ q ((3 - q ^ 2 / 2) * m ^ 2), pts := [p0, p1], logaH_star := 0 } := ⟨_, rfl⟩
  have hb0 : b.pts[0]? = some p0 := by rw [hb]; rfl
  obtain ⟨hbeg, hend, r, hr⟩ := two_point_run hk hM0 hm1 hM1 hM3 hL1 (b := b) (by rw [hb]; simp) (by rw [hb]) hl0 hl1 0 hN0 hN1 (by rw [hb]) F G (m * log L)
  refine ⟨lateOsc F G (m * log L), b, r, ?_⟩
  refine ⟨by rw [hb], by rw [hb], by rw [hb], hk, ?_, by rw [hb]; rfl, hr, ?_, ?_⟩
  · intro p hp
    rw [hb] at hp
    simp only [List.mem_cons, List.not_mem_nil, or_false] at hp
    rcases hp with h | h
    · exact ⟨_, trivial, h.trans hp0⟩
    · exact ⟨_, trivial, h.trans hp1⟩
  · intro p hp
    rw [hbeg, hb0] at hp
    cases hp
    rw [hl0, exp_log (by positivity), ← mul_assoc, ← div_eq_mul_inv, div_le_iff₀ hM0]
    rw [div_le_iff₀ hk] at hM4
    linarith
  · intro s t hst mm hmm stop pb pe hs hpb hpe
    rw [hbeg, hb0] at hpb
    obtain rfl : p0 = pb := Option.some.inj hpb
    obtain ⟨h1, h2⟩ := hosc (fun τ => mm.frequency2 (ptN 0 (fun n => q * n) (fun _ => q) H τ)) (fun τ => mm.damping (ptN 0 (fun n => q * n) (fun _ => q) H τ))
      (fun τ _ => by
        rw [((vacN hq hq2 isOpen_univ u V hVd (fun _ _ => trivial) (by rw [hb]) (by rw [hb]) (by rw [hb]) hk hst (Set.mem_univ τ)).1 mm hmm).1,
          haH, exp_neg]
        field_simp)
      (fun τ _ => by
        rw [((vacN hq hq2 isOpen_univ u V hVd (fun _ _ => trivial) (by rw [hb]) (by rw [hb]) (by rw [hb]) hk hst (Set.mem_univ τ)).1 mm hmm).2, hmi]
        ring)
    have hx0 : p0.x = -(m * log M) := by rw [hp0]; rfl
    rw [hx0]
    have hW : m * log L ∈ {n ∈ (Set.univ : Set ℝ) | k ≤ η * (exp n * H n)} := by
      refine ⟨trivial, ?_⟩
      rw [haH, ea1]
      rw [div_le_iff₀ hη] at hL2
      nlinarith [mul_pos hL0 hη]
    exact ⟨F, F1, F2, G, G1, G2, tF, tG, h1, h2, i1, i2, i3, i4, lateOsc_samples F G hW _⟩

/-- **C82, C83 met, cosmic time**: for every slope `q`, whatever `X` and `η` are, there is a universe in which every wavenumber has such
a run, with all three vacua, and crosses the horizon. -/
theorem exists_runT {q X η : ℝ} (hq : q ≠ 0) (hq2 : q ^ 2 < 2) (hη : 0 < η) : ∃ (pot : PotFns) (N φ H : ℝ → ℝ),
    IsUniverse (Set.Ioi 0) pot.V pot.dV 0 N φ (fun t => q * H t) H ∧ IsDerivOn Set.univ pot.V pot.dV ∧ IsDerivOn Set.univ pot.dV pot.d2V ∧
    ∀ k, 0 < k → (∃ t ∈ Set.Ioi (0 : ℝ), k = exp (N t) * H t) ∧
      ∃ osc b r, RunT X η q (Set.Ioi 0) pot N φ H osc b { vacuum := ["k", "HD", "RST"] } k r := by
  obtain ⟨m, hm⟩ : ∃ m, m = 1 / (1 - q ^ 2 / 2) := ⟨_, rfl⟩
  have h1ε : 0 < 1 - q ^ 2 / 2 := by linarith
  have hm1 : 1 ≤ m := by rw [hm, le_div_iff₀ h1ε]; nlinarith [sq_nonneg q]
  have hm0 : 0 < m := by linarith
  have hmi : 1 / m = 1 - q ^ 2 / 2 := by rw [hm]; field_simp
  have hε : 0 < q ^ 2 / 2 := by positivity
  obtain ⟨ε, hεd⟩ : ∃ ε, ε = q ^ 2 / 2 := ⟨_, rfl⟩
  have hε0 : 0 < ε := by rw [hεd]; exact hε
  obtain ⟨l, hl⟩ : ∃ l, l = 1 / (ε * m) := ⟨_, rfl⟩
  have hl0 : 0 < l := by rw [hl]; positivity
  have hlε : l = 1 / ε - 1 := by
    rw [hl, ← one_div_mul_one_div, hmi, ← hεd]; field_simp
  obtain ⟨N, hN⟩ : ∃ N : ℝ → ℝ, N = fun t => 1 / ε * log t + log (ε * m) := ⟨_, rfl⟩
  obtain ⟨H, hH⟩ : ∃ H : ℝ → ℝ, H = fun t => 1 / (ε * t) := ⟨_, rfl⟩
  have haH : ∀ t : ℝ, 0 < t → exp (N t) * H t = m * exp (l * log t) := fun t ht => by
    rw [hN, hH, hlε, sub_mul, one_mul, exp_sub, exp_add, exp_log ht, exp_log (by positivity)]
    field_simp
  have hHp : ∀ t ∈ Set.Ioi (0 : ℝ), 0 < H t := fun t ht => by have h0 : (0 : ℝ) < t := ht; rw [hH]; positivity
  have hNd : ∀ t ∈ Set.Ioi (0 : ℝ), HasDerivAt N (H t) t := fun t ht => by
    have h0 : (0 : ℝ) < t := ht
    rw [hN, hH]
    exact (((hasDerivAt_log h0.ne').const_mul (1 / ε)).add_const _).congr_deriv (by field_simp)
  have hHd : ∀ t ∈ Set.Ioi (0 : ℝ), HasDerivAt H (-(1 / (ε * t ^ 2))) t := fun t ht => by
    have h0 : (0 : ℝ) < t := ht
    rw [hH]
    have := (hasDerivAt_inv h0.ne').const_mul (1 / ε)
    refine (this.congr_deriv ?_).congr_of_eventuallyEq (Filter.Eventually.of_forall fun x => ?_)
    · field_simp
    · show 1 / (ε * x) = 1 / ε * x⁻¹
      rw [one_div_mul_eq_div, one_div, mul_inv, div_eq_inv_mul]
  obtain ⟨V, hVd⟩ := expPotQ_d1 q ((3 - ε) / ε ^ 2)
  have hexp : ∀ t : ℝ, 0 < t → exp (-(q * (2 / q * log t))) = (t ^ 2)⁻¹ := fun t ht => by
    rw [exp_neg, show q * (2 / q * log t) = ((2 : ℕ) : ℝ) * log t by push_cast; field_simp, exp_nat_mul, exp_log ht]
  have u : IsUniverse (Set.Ioi 0) (expPotQ q ((3 - ε) / ε ^ 2)).V (expPotQ q ((3 - ε) / ε ^ 2)).dV 0 N (fun t => 2 / q * log t) (fun t => q * H t) H := by
    refine ⟨hNd, fun t ht => ?_, fun t ht => ?_, fun t ht => ?_, hHp⟩
    · have h0 : (0 : ℝ) < t := ht
      refine ((hasDerivAt_log h0.ne').const_mul (2 / q)).congr_deriv ?_
      rw [hH, hεd]
      field_simp
    · have h0 : (0 : ℝ) < t := ht
      refine ((hHd t ht).const_mul q).congr_deriv ?_
      simp only [expPotQ]
      rw [hexp t h0, hH]
      field_simp
      ring
    · have h0 : (0 : ℝ) < t := ht
      simp only [expPotQ]
      rw [hexp t h0, hH]
      have : q ^ 2 = 2 * ε := by rw [hεd]; ring
      simp only [mul_pow, this]
      field_simp
      ring
  refine ⟨_, N, _, H, u, V, hVd, fun k hk => ⟨⟨exp (log (k / m) / l), exp_pos _, ?_⟩, ?_⟩⟩
  · rw [haH _ (exp_pos _), log_exp, mul_div_cancel₀ _ hl0.ne', exp_log (by positivity)]
    field_simp
  have c : Clock (Set.Ioi 0) m (k ^ (-m) / (ε * m)) N H (fun t => -(1 / (ε * t ^ 2))) (fun t => k * exp (-(l * log t))) := by
    refine ⟨hNd, hHd, ?_, fun t ht => ⟨hHp t ht, by positivity⟩, fun t ht => ?_, fun t ht => ?_⟩
    · exact (continuousOn_const.div (continuousOn_const.mul (continuousOn_id.pow 2)) fun t ht => by
        have h0 : (0 : ℝ) < t := ht
        have : (0 : ℝ) < ε * t ^ 2 := by positivity
        exact this.ne').neg
    · have h0 : (0 : ℝ) < t := ht
      refine ((((hasDerivAt_log h0.ne').const_mul l).fun_neg).exp.const_mul k).congr_deriv ?_
      rw [hH, hl]
      field_simp
    · have h0 : (0 : ℝ) < t := ht
      rw [mul_rpow hk.le (exp_pos _).le, ← mul_assoc, div_mul_eq_mul_div, ← rpow_add hk, neg_add_cancel, rpow_zero, ← exp_mul, hN, neg_add, exp_add,
        exp_neg (log (ε * m)), exp_log (by positivity), mul_comm, one_div (ε * m)]
      congr 2
      rw [hl]
      field_simp
  obtain ⟨X1, hX1, hfun⟩ := fundamental hm1
  obtain ⟨M, hM⟩ : ∃ M, M = max (max 1 (X1 / k)) (max (m / k) (m * X / k)) := ⟨_, rfl⟩
  have hM1 : 1 ≤ M := by rw [hM]; exact (le_max_left _ _).trans (le_max_left _ _)
  have hM2 : X1 / k ≤ M := by rw [hM]; exact (le_max_right _ _).trans (le_max_left _ _)
  have hM3 : m / k ≤ M := by rw [hM]; exact (le_max_left _ _).trans (le_max_right _ _)
  have hM4 : m * X / k ≤ M := by rw [hM]; exact (le_max_right _ _).trans (le_max_right _ _)
  obtain ⟨L, hL⟩ : ∃ L, L = max (exp 10 * max 1 k) (k / η) := ⟨_, rfl⟩
  have hL1 : exp 10 * max 1 k ≤ L := by rw [hL]; exact le_max_left _ _
  have hL2 : k / η ≤ L := by rw [hL]; exact le_max_right _ _
  have hM0 : 0 < M := by linarith
  have hL0 : 0 < L := lt_of_lt_of_le (by positivity) hL1
  have ex0 : exp (-(l * log (exp (-(log M / l))))) = M := by rw [log_exp, mul_neg, neg_neg, mul_div_cancel₀ _ hl0.ne', exp_log hM0]
  have ea0 : exp (l * log (exp (-(log M / l)))) = M⁻¹ := by rw [log_exp, mul_neg, mul_div_cancel₀ _ hl0.ne', exp_neg, exp_log hM0]
  have ea1 : exp (l * log (exp (log L / l))) = L := by rw [log_exp, mul_div_cancel₀ _ hl0.ne', exp_log hL0]
  have hlm : 1 / ε = m * l := by rw [hl]; field_simp
  obtain ⟨F, F1, F2, G, G1, G2, tF, tG, i1, i2, i3, i4, hosc⟩ := hfun c (exp (-(log M / l))) (exp_pos _) (by
    rw [ex0]; rw [div_le_iff₀ hk] at hM2; linarith)
  obtain ⟨p0, hp0⟩ : ∃ p, p = ptT 0 N (fun t => 2 / q * log t) (fun t => q * H t) H (exp (-(log M / l))) := ⟨_, rfl⟩
  obtain ⟨p1, hp1⟩ : ∃ p, p = ptT 0 N (fun t => 2 / q * log t) (fun t => q * H t) H (exp (log L / l)) := ⟨_, rfl⟩
  have hlo0 : p0.logaH = log (m * M⁻¹) := by rw [hp0]; simp only [ptT]; rw [haH _ (exp_pos _), ea0]
  have hlo1 : p1.logaH = log (m * L) := by rw [hp1]; simp only [ptT]; rw [haH _ (exp_pos _), ea1]
  have hN0 : p0.N = -(m * log M) + log (ε * m) := by rw [hp0, hN]; simp only [ptT]; rw [log_exp, hlm]; field_simp
  have hN1 : p1.N = m * log L + log (ε * m) := by rw [hp1, hN]; simp only [ptT]; rw [log_exp, hlm]; field_simp
  obtain ⟨b, hb⟩ : ∃ b : Bg, b = { indep := .t, K := 0, pot := expPotQ q ((3 - ε) / ε ^ 2), pts := [p0, p1], logaH_star := 0 } := ⟨_, rfl⟩
  have hb0 : b.pts[0]? = some p0 := by rw [hb]; rfl
  obtain ⟨hbeg, hend, r, hr⟩ := two_point_run hk hM0 hm1 hM1 hM3 hL1 (b := b) (by rw [hb]; simp) (by rw [hb]) hlo0 hlo1 (log (ε * m)) hN0 hN1 (by rw [hb]) F G (exp (log L / l))
  refine ⟨lateOsc F G (exp (log L / l)), b, r, ?_⟩
  refine ⟨by rw [hb], by rw [hb], by rw [hb], hk, ?_, by rw [hb]; rfl, hr, ?_, ?_⟩
  · intro p hp
    rw [hb] at hp
    simp only [List.mem_cons, List.not_mem_nil, or_false] at hp
    rcases hp with h | h
    · exact ⟨_, exp_pos _, h.trans hp0⟩
    · exact ⟨_, exp_pos _, h.trans hp1⟩
  · intro p hp
    rw [hbeg, hb0] at hp
    cases hp
    rw [hlo0, exp_log (by positivity), ← mul_assoc, ← div_eq_mul_inv, div_le_iff₀ hM0]
    rw [div_le_iff₀ hk] at hM4
    linarith
  · intro s t hst mm hmm stop pb pe hs hpb hpe
    rw [hbeg, hb0] at hpb
    obtain rfl : p0 = pb := Option.some.inj hpb
    obtain ⟨h1, h2⟩ := hosc (fun τ => mm.frequency2 (ptT 0 N (fun t => 2 / q * log t) (fun t => q * H t) H τ)) (fun τ => mm.damping (ptT 0 N (fun t => 2 / q * log t) (fun t => q * H t) H τ))
      (fun τ hτ => by
        rw [((vacT hq hq2 isOpen_Ioi u V hVd (D := Set.univ) (fun _ _ => trivial) (by rw [hb]) (by rw [hb]) (by rw [hb]) hk hst hτ).1 mm hmm).1,
          haH τ hτ, exp_neg]
        field_simp)
      (fun τ hτ => by
        rw [((vacT hq hq2 isOpen_Ioi u V hVd (D := Set.univ) (fun _ _ => trivial) (by rw [hb]) (by rw [hb]) (by rw [hb]) hk hst hτ).1 mm hmm).2, hmi, hH, ← hεd]
        have h0 : (0 : ℝ) < τ := hτ
        field_simp
        ring)
    have hx0 : p0.x = exp (-(log M / l)) := by rw [hp0]; rfl
    rw [hx0]
    have hW : exp (log L / l) ∈ {t ∈ Set.Ioi (0 : ℝ) | k ≤ η * (exp (N t) * H t)} := by
      refine ⟨exp_pos _, ?_⟩
      rw [haH _ (exp_pos _), ea1]
      rw [div_le_iff₀ hη] at hL2
      nlinarith [mul_pos hL0 hη]
    exact ⟨F, F1, F2, G, G1, G2, tF, tG, h1, h2, i1, i2, i3, i4, lateOsc_samples F G hW _⟩

end Pert
end Primpy
