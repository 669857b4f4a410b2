import Verif.Lemmas.Attractor
import Verif.Lemmas.Trajectory
import Verif.Props.C78

/-!
# C80: the inflationary attractor

Two integrations of a flat background in the same potential that pass through the same two field values in the same direction, whatever their initial velocities,
time variables and start times: the excess of the Hubble rate (that is, of the kinetic energy) of the faster one decays at least like `e^{-3 ΔN}`, and
the faster one never falls behind.
-/

namespace Primpy
open Real Set Spec

section
variable {S S1 S2 D : Set ℝ}

theorem InflT.rolling {e : InflT} {y : ℝ → ℕ → ℝ} (hK : e.K = 0) (hS : IsOpen S) (sol : SolvesODE S e.rows e.call y) (hH : ∀ t ∈ S, 0 < e.H2 (y t))
    (hV : IsDerivOn D e.pot.V e.pot.dV) (hφ : ∀ t ∈ S, InflT.phi (y t) ∈ D) :
    Rolling S e.pot.V (fun t => InflT._N (y t)) (fun t => InflT.phi (y t)) (fun t => InflT.dphidt (y t)) (fun t => e.H (y t)) (fun _ => 1) := by
  have u := InflT.universe sol hH
  refine ⟨fun t ht => (u.velocity t ht).congr_deriv (by ring), fun t ht => (u.hubble t ht).congr_deriv (by ring), fun t ht => (u.dH hS hV hφ t ht).congr_deriv ?_,
    fun t ht => ?_, u.expanding, fun _ _ => one_pos, fun t ht => (u.kleinGordon t ht).continuousAt.continuousWithinAt, continuousOn_const⟩
  · rw [hK]; ring
  · have := u.friedmann t ht; rw [hK] at this; linarith

theorem InflN.rolling {e : InflN} {y : ℝ → ℕ → ℝ} (hK : e.K = 0) (hS : IsOpen S) (sol : SolvesODE S e.rows e.call y) (hH : ∀ n ∈ S, 0 < e.H2 n (y n))
    (hV : IsDerivOn D e.pot.V e.pot.dV) (hφ : ∀ n ∈ S, InflN.phi (y n) ∈ D) :
    Rolling S e.pot.V (fun n => n) (fun n => InflN.phi (y n)) (fun n => e.H n (y n) * InflN.dphidN (y n)) (fun n => e.H n (y n)) (fun n => 1 / e.H n (y n)) := by
  have r : 2 ≤ e.rows := by rw [InflN.rows_eq]; omega
  have hp : ∀ n ∈ S, 0 < e.H n (y n) := fun n hn => sqrt_pos.2 (hH n hn)
  have dH := InflN.hasDerivAt_H hS sol hH hV hφ
  have dq : ∀ n ∈ S, HasDerivAt (fun n => InflN.dphidN (y n)) _ n := fun n hn => sol n hn 1 (by omega)
  have cH : ContinuousOn (fun n => e.H n (y n)) S := fun n hn => (dH n hn).continuousAt.continuousWithinAt
  have cq : ContinuousOn (fun n => InflN.dphidN (y n)) S := fun n hn => (dq n hn).continuousAt.continuousWithinAt
  refine ⟨fun n hn => ?_, fun n hn => ?_, fun n hn => (dH n hn).congr_deriv ?_, fun n hn => ?_, hp, fun n hn => one_div_pos.2 (hp n hn), cH.mul cq,
    continuousOn_const.div cH fun n hn => (hp n hn).ne'⟩
  · refine (sol n hn 0 (by omega)).congr_deriv ?_
    rw [InflN.call0]
    have := (hp n hn).ne'
    field_simp
  · refine (hasDerivAt_id n).congr_deriv ?_
    have := (hp n hn).ne'
    field_simp
  · have := (hp n hn).ne'
    simp only [Primpy.N.get_dH, hK]
    field_simp
    ring
  · have h6 := InflN.six_ne (hH n hn)
    have e1 : e.H2 n (y n) * (6 - InflN.dphidN (y n) ^ 2) = 2 * e.pot.V (InflN.phi (y n)) := by
      simp only [InflN.H2, Primpy.N.get_H2, hK, InflN.V]
      field_simp
      ring
    rw [mul_pow, InflN.H_sq (hH n hn)]
    linarith

/-- **C80, cosmic time.**  Two integrations `y1`, `y2` of the same flat background equations, rolling in the same direction, pass through the same field value at
`a1`, `a2` and later through another common one at `b1`, `b2`; the potential is not negative in between.  If the first has the larger (or the same) Hubble rate at the
beginning, it has the larger one at the end, the difference having shrunk to at most `e^{-3 ΔN}` of what it was, it is still the faster one, and it has needed
at most as many e-folds as the second. -/
theorem C80_time {e : InflT} (hK : e.K = 0) (hV : IsDerivOn D e.pot.V e.pot.dV) {y1 y2 : ℝ → ℕ → ℝ} (o1 : IsOpen S1) (c1 : Convex ℝ S1) (o2 : IsOpen S2)
    (c2 : Convex ℝ S2) (sol1 : SolvesODE S1 e.rows e.call y1) (sol2 : SolvesODE S2 e.rows e.call y2) (hH1 : ∀ t ∈ S1, 0 < e.H2 (y1 t)) (hH2 : ∀ t ∈ S2, 0 < e.H2 (y2 t))
    (hφ1 : ∀ t ∈ S1, InflT.phi (y1 t) ∈ D) (hφ2 : ∀ t ∈ S2, InflT.phi (y2 t) ∈ D)
    (dir : ((∀ t ∈ S1, InflT.dphidt (y1 t) < 0) ∧ ∀ t ∈ S2, InflT.dphidt (y2 t) < 0) ∨ ((∀ t ∈ S1, 0 < InflT.dphidt (y1 t)) ∧ ∀ t ∈ S2, 0 < InflT.dphidt (y2 t)))
    {a1 b1 a2 b2 : ℝ} (ha1 : a1 ∈ S1) (hb1 : b1 ∈ S1) (ha2 : a2 ∈ S2) (hb2 : b2 ∈ S2) (hab : a1 ≤ b1) (ea : InflT.phi (y1 a1) = InflT.phi (y2 a2))
    (eb : InflT.phi (y1 b1) = InflT.phi (y2 b2)) (hpos : ∀ t ∈ Icc a1 b1, 0 ≤ e.V (y1 t)) (h0 : e.H (y2 a2) ≤ e.H (y1 a1)) :
    e.H (y2 b2) ≤ e.H (y1 b1) ∧ e.H (y1 b1) - e.H (y2 b2) ≤ exp (-3 * (InflT._N (y1 b1) - InflT._N (y1 a1))) * (e.H (y1 a1) - e.H (y2 a2)) ∧
      |InflT.dphidt (y2 b2)| ≤ |InflT.dphidt (y1 b1)| ∧ InflT._N (y1 b1) - InflT._N (y1 a1) ≤ InflT._N (y2 b2) - InflT._N (y2 a2) :=
  (InflT.rolling hK o1 sol1 hH1 hV hφ1).attractor' o1 c1 o2 c2 (InflT.rolling hK o2 sol2 hH2 hV hφ2) dir ha1 hb1 ha2 hb2 hab ea eb hpos h0

/-- **C80, e-folds.** -/
theorem C80_efolds {e : InflN} (hK : e.K = 0) (hV : IsDerivOn D e.pot.V e.pot.dV) {y1 y2 : ℝ → ℕ → ℝ} (o1 : IsOpen S1) (c1 : Convex ℝ S1) (o2 : IsOpen S2)
    (c2 : Convex ℝ S2) (sol1 : SolvesODE S1 e.rows e.call y1) (sol2 : SolvesODE S2 e.rows e.call y2) (hH1 : ∀ n ∈ S1, 0 < e.H2 n (y1 n))
    (hH2 : ∀ n ∈ S2, 0 < e.H2 n (y2 n)) (hφ1 : ∀ n ∈ S1, InflN.phi (y1 n) ∈ D) (hφ2 : ∀ n ∈ S2, InflN.phi (y2 n) ∈ D)
    (dir : ((∀ n ∈ S1, InflN.dphidN (y1 n) < 0) ∧ ∀ n ∈ S2, InflN.dphidN (y2 n) < 0) ∨ ((∀ n ∈ S1, 0 < InflN.dphidN (y1 n)) ∧ ∀ n ∈ S2, 0 < InflN.dphidN (y2 n)))
    {a1 b1 a2 b2 : ℝ} (ha1 : a1 ∈ S1) (hb1 : b1 ∈ S1) (ha2 : a2 ∈ S2) (hb2 : b2 ∈ S2) (hab : a1 ≤ b1) (ea : InflN.phi (y1 a1) = InflN.phi (y2 a2))
    (eb : InflN.phi (y1 b1) = InflN.phi (y2 b2)) (hpos : ∀ n ∈ Icc a1 b1, 0 ≤ e.V (y1 n)) (h0 : e.H a2 (y2 a2) ≤ e.H a1 (y1 a1)) :
    e.H b2 (y2 b2) ≤ e.H b1 (y1 b1) ∧ e.H b1 (y1 b1) - e.H b2 (y2 b2) ≤ exp (-3 * (b1 - a1)) * (e.H a1 (y1 a1) - e.H a2 (y2 a2)) ∧
      |e.H b2 (y2 b2) * InflN.dphidN (y2 b2)| ≤ |e.H b1 (y1 b1) * InflN.dphidN (y1 b1)| ∧ b1 - a1 ≤ b2 - a2 := by
  have p1 : ∀ n ∈ S1, 0 < e.H n (y1 n) := fun n hn => sqrt_pos.2 (hH1 n hn)
  have p2 : ∀ n ∈ S2, 0 < e.H n (y2 n) := fun n hn => sqrt_pos.2 (hH2 n hn)
  refine (InflN.rolling hK o1 sol1 hH1 hV hφ1).attractor' o1 c1 o2 c2 (InflN.rolling hK o2 sol2 hH2 hV hφ2) (dir.imp ?_ ?_) ha1 hb1 ha2 hb2 hab ea eb hpos h0
  · exact fun h => ⟨fun n hn => mul_neg_of_pos_of_neg (p1 n hn) (h.1 n hn), fun n hn => mul_neg_of_pos_of_neg (p2 n hn) (h.2 n hn)⟩
  · exact fun h => ⟨fun n hn => mul_pos (p1 n hn) (h.1 n hn), fun n hn => mul_pos (p2 n hn) (h.2 n hn)⟩

/-- **C80, one run in cosmic time against one in e-folds**, same potential. -/
theorem C80_mixed {e : InflT} {f : InflN} (hK : e.K = 0) (hKf : f.K = 0) (hpot : f.pot = e.pot) (hV : IsDerivOn D e.pot.V e.pot.dV) {y1 y2 : ℝ → ℕ → ℝ}
    (o1 : IsOpen S1) (c1 : Convex ℝ S1) (o2 : IsOpen S2) (c2 : Convex ℝ S2) (sol1 : SolvesODE S1 e.rows e.call y1) (sol2 : SolvesODE S2 f.rows f.call y2)
    (hH1 : ∀ t ∈ S1, 0 < e.H2 (y1 t)) (hH2 : ∀ n ∈ S2, 0 < f.H2 n (y2 n)) (hφ1 : ∀ t ∈ S1, InflT.phi (y1 t) ∈ D) (hφ2 : ∀ n ∈ S2, InflN.phi (y2 n) ∈ D)
    (dir : ((∀ t ∈ S1, InflT.dphidt (y1 t) < 0) ∧ ∀ n ∈ S2, InflN.dphidN (y2 n) < 0) ∨ ((∀ t ∈ S1, 0 < InflT.dphidt (y1 t)) ∧ ∀ n ∈ S2, 0 < InflN.dphidN (y2 n)))
    {a1 b1 a2 b2 : ℝ} (ha1 : a1 ∈ S1) (hb1 : b1 ∈ S1) (ha2 : a2 ∈ S2) (hb2 : b2 ∈ S2) (hab : a1 ≤ b1) (ea : InflT.phi (y1 a1) = InflN.phi (y2 a2))
    (eb : InflT.phi (y1 b1) = InflN.phi (y2 b2)) (hpos : ∀ t ∈ Icc a1 b1, 0 ≤ e.V (y1 t)) (h0 : f.H a2 (y2 a2) ≤ e.H (y1 a1)) :
    f.H b2 (y2 b2) ≤ e.H (y1 b1) ∧ e.H (y1 b1) - f.H b2 (y2 b2) ≤ exp (-3 * (InflT._N (y1 b1) - InflT._N (y1 a1))) * (e.H (y1 a1) - f.H a2 (y2 a2)) ∧
      |f.H b2 (y2 b2) * InflN.dphidN (y2 b2)| ≤ |InflT.dphidt (y1 b1)| ∧ InflT._N (y1 b1) - InflT._N (y1 a1) ≤ b2 - a2 := by
  have p2 : ∀ n ∈ S2, 0 < f.H n (y2 n) := fun n hn => sqrt_pos.2 (hH2 n hn)
  have u2 := InflN.rolling hKf o2 sol2 hH2 (by rw [hpot]; exact hV) hφ2
  rw [hpot] at u2
  refine (InflT.rolling hK o1 sol1 hH1 hV hφ1).attractor' o1 c1 o2 c2 u2 (dir.imp ?_ ?_) ha1 hb1 ha2 hb2 hab ea eb hpos h0
  · exact fun h => ⟨h.1, fun n hn => mul_neg_of_pos_of_neg (p2 n hn) (h.2 n hn)⟩
  · exact fun h => ⟨h.1, fun n hn => mul_pos (p2 n hn) (h.2 n hn)⟩
end

/-! ## Non-vacuity: two kinetically dominated universes in a constant potential, `φ1 = (√6/3) ln tanh(3t/2)` and `φ2 = φ1 - (√6/3) ln 2` -/

namespace Exact

/-- `yKinT` with the field shifted by `-(√6/3) ln 2` -/
noncomputable def yKinShift (t : ℝ) : ℕ → ℝ := Function.update (yKinT t) 0 (yKinT t 0 - √6 / 3 * log 2)

theorem kinShift_sol : SolvesODE (Ioi 0) kinT.rows kinT.call yKinShift := by
  intro t ht i hi
  have h := kinT_sol t ht i hi
  have r : kinT.rows = 3 := by rw [InflT.rows_eq]; rfl
  have eH : kinT.H (yKinShift t) = kinT.H (yKinT t) := rfl
  rw [r] at hi
  interval_cases i
  · rw [InflT.call0] at h ⊢
    exact h.sub_const _
  · rw [InflT.call1] at h ⊢
    exact h
  · rw [InflT.call2] at h ⊢
    exact h

theorem kin_phi {x : ℝ} (hx : 1 < x) : InflT.phi (yKinT (log x / 3)) = √6 / 3 * log ((x - 1) / (x + 1)) := by
  have h0 : (0 : ℝ) < x := by linarith
  have e : 3 / 2 * (log x / 3) = log x / 2 := by ring
  have h1 : (0 : ℝ) < log x / 2 := by have := log_pos hx; linarith
  have hs := sinh_pos_iff.2 h1
  have hc := cosh_pos (log x / 2)
  simp only [InflT.phi, yKinT, e]
  rw [← log_div hs.ne' hc.ne']
  congr 2
  rw [div_eq_div_iff hc.ne' (by linarith), sinh_eq, cosh_eq]
  have e3 : exp (log x / 2) = x * exp (-(log x / 2)) := by rw [← exp_log h0, log_exp, ← exp_add]; ring_nf
  rw [e3]
  ring

theorem kin_H {x : ℝ} (hx : 1 < x) : kinT.H (yKinT (log x / 3)) = (x ^ 2 + 1) / (x ^ 2 - 1) := by
  have h0 : (0 : ℝ) < x := by linarith
  have : x ^ 2 - 1 ≠ 0 := by nlinarith
  rw [kinT_H (by have := log_pos hx; linarith), mul_div_cancel₀ _ three_ne_zero, cosh_log h0, sinh_log h0]
  have : x - x⁻¹ ≠ 0 := by
    have := inv_lt_one_of_one_lt₀ hx
    linarith
  field_simp

end Exact

/-- From `φ = -(√6/3) ln 4` to `-(√6/3) ln 3`: `H` goes from `17/8` to `5/3` and from `5/4` to `13/12`; the difference shrinks from `7/8` to `7/12`. -/
example : InflT.phi (Exact.yKinT (log (5 / 3) / 3)) = InflT.phi (Exact.yKinShift (log 3 / 3)) ∧ InflT.phi (Exact.yKinT (log 2 / 3)) = InflT.phi (Exact.yKinShift (log 5 / 3)) ∧
    Exact.kinT.H (Exact.yKinShift (log 3 / 3)) < Exact.kinT.H (Exact.yKinT (log (5 / 3) / 3)) ∧
    Exact.kinT.H (Exact.yKinT (log 2 / 3)) - Exact.kinT.H (Exact.yKinShift (log 5 / 3)) ≤
      exp (-3 * (InflT._N (Exact.yKinT (log 2 / 3)) - InflT._N (Exact.yKinT (log (5 / 3) / 3)))) *
        (Exact.kinT.H (Exact.yKinT (log (5 / 3) / 3)) - Exact.kinT.H (Exact.yKinShift (log 3 / 3))) := by
  have sh : ∀ t, InflT.phi (Exact.yKinShift t) = InflT.phi (Exact.yKinT t) - √6 / 3 * log 2 := fun _ => rfl
  have sH : ∀ t, Exact.kinT.H (Exact.yKinShift t) = Exact.kinT.H (Exact.yKinT t) := fun _ => rfl
  have ea : InflT.phi (Exact.yKinT (log (5 / 3) / 3)) = InflT.phi (Exact.yKinShift (log 3 / 3)) := by
    rw [sh, Exact.kin_phi (by norm_num), Exact.kin_phi (by norm_num), ← mul_sub, ← log_div (by norm_num) (by norm_num)]
    norm_num
  have eb : InflT.phi (Exact.yKinT (log 2 / 3)) = InflT.phi (Exact.yKinShift (log 5 / 3)) := by
    rw [sh, Exact.kin_phi (by norm_num), Exact.kin_phi (by norm_num), ← mul_sub, ← log_div (by norm_num) (by norm_num)]
    norm_num
  have h0 : Exact.kinT.H (Exact.yKinShift (log 3 / 3)) < Exact.kinT.H (Exact.yKinT (log (5 / 3) / 3)) := by
    rw [sH, Exact.kin_H (by norm_num), Exact.kin_H (by norm_num)]; norm_num
  have mem : ∀ x : ℝ, 1 < x → log x / 3 ∈ Ioi (0 : ℝ) := fun x hx => by have := log_pos hx; rw [mem_Ioi]; linarith
  have hH : ∀ t ∈ Ioi (0 : ℝ), 0 < Exact.kinT.H2 (Exact.yKinT t) := fun t ht => by
    rw [Exact.kinT_H2 ht]; exact pow_pos (div_pos (cosh_pos _) (Exact.sinh_pos' ht)) 2
  have dir : ∀ t ∈ Ioi (0 : ℝ), 0 < InflT.dphidt (Exact.yKinT t) := fun t ht => div_pos (sqrt_pos.2 (by norm_num)) (Exact.sinh_pos' ht)
  refine ⟨ea, eb, h0, (C80_time (D := univ) (e := Exact.kinT) rfl Exact.ccPot_chain.d1 isOpen_Ioi (convex_Ioi 0) isOpen_Ioi (convex_Ioi 0) Exact.kinT_sol Exact.kinShift_sol
    hH hH (fun _ _ => mem_univ _) (fun _ _ => mem_univ _) (Or.inr ⟨dir, dir⟩) (mem _ (by norm_num)) (mem _ (by norm_num)) (mem _ (by norm_num)) (mem _ (by norm_num))
    ?_ ea eb (fun t _ => ?_) h0.le).2.1⟩
  · have : log (5 / 3) ≤ log (2 : ℝ) := log_le_log (by norm_num) (by norm_num)
    linarith
  · simp [InflT.V, Exact.kinT, Exact.ccPot]

end Primpy
