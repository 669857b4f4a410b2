import Verif.Lemmas.BigBang

/-!
# C44 — the recollapse criterion

Specification: with `x = a0/a`, the universe recollapses if `H²` becomes negative somewhere in the
future, i.e. for some `0 < x ≤ 1`.
-/

namespace Primpy
open Real
open BB

/-- Going forward in time from today, `H²` (in units of `H0²`) becomes negative. -/
def Recollapses (Ωr Ωm ΩL : ℝ) : Prop :=
  ∃ x : ℝ, 0 < x ∧ x ≤ 1 ∧ Ωr * x ^ 4 + Ωm * x ^ 3 + (1 - Ωr - Ωm - ΩL) * x ^ 2 + ΩL < 0

/-- A negative cosmological constant always recollapses. -/
theorem C44.neg (m L : ℝ) (hm : 0 ≤ m) (hL : L < 0) : Recollapses 0 m L := by
  -- choose x with x² (m + 1 - L) < -L, e.g. x = min 1 …
  have hB : 0 < m + 1 - L := by linarith
  obtain ⟨q, hq⟩ : ∃ q, q = -L / (2 * (m + 1 - L)) := ⟨_, rfl⟩
  have hq0 : 0 < q := by rw [hq]; exact div_pos (by linarith) (by linarith)
  have hqB : q * (2 * (m + 1 - L)) = -L := by rw [hq]; field_simp
  have hq1 : q ≤ 1 := by nlinarith
  refine ⟨q, hq0, hq1, ?_⟩
  have h2 : q ^ 2 ≤ q := by nlinarith
  have h3 : q ^ 3 ≤ q := by nlinarith
  nlinarith [mul_le_mul_of_nonneg_left h3 hm, mul_le_mul_of_nonneg_left h2 (by linarith : (0:ℝ) ≤ 1 - L)]

/-- **C44, the line.**  Without radiation, `Omega_L0` below the line is *equivalent* to recollapse. -/
theorem C44_line_iff (m L : ℝ) (hm : 0 ≤ m) :
    ∃ line, expand_recollapse_line m = .ok line ∧ (L < line ↔ Recollapses 0 m L) := by
  by_cases h1 : m < 1
  · refine ⟨0, by simp [expand_recollapse_line, hm, h1], C44.neg m L hm, ?_⟩
    rintro ⟨x, hx, hx1, hneg⟩
    by_contra hc
    have h2 : 0 ≤ L * (1 - x ^ 2) := mul_nonneg (not_lt.1 hc) (by nlinarith)
    have h3 : 0 ≤ m * x ^ 3 := by positivity
    have h4 : 0 < (1 - m) * x ^ 2 := mul_pos (by linarith) (by positivity)
    nlinarith
  · obtain ⟨c, hc0, hc, hc3, hl⟩ := expand_recollapse_line_ge (not_lt.1 h1)
    have hd := fun x => double_root m c L x hc3
    simp only [radicand] at hd
    refine ⟨_, hl, fun hL => ?_, ?_⟩
    · rcases hc0.eq_or_lt with h0 | h0
      · rw [← h0] at hL
        exact C44.neg m L hm (by linarith)
      · refine ⟨2 * c, by linarith, by linarith, ?_⟩
        rw [hd]
        have h1 : (2 * c) ^ 2 < 1 := by nlinarith
        have : (L - 4 * m * c ^ 3) * (1 - (2 * c) ^ 2) < 0 :=
          mul_neg_of_neg_of_pos (by linarith) (by linarith)
        nlinarith
    · rintro ⟨x, hx, hx1, hneg⟩
      rw [hd] at hneg
      by_contra hle
      have h1 : 0 ≤ m * (x - 2 * c) ^ 2 * (x + c) := by positivity
      have h2 : 0 ≤ (L - 4 * m * c ^ 3) * (1 - x ^ 2) :=
        mul_nonneg (by linarith [not_lt.1 hle]) (by nlinarith)
      linarith

/-- **C44, the line is continuous with the flat part.**  It vanishes for `Ω_m ≤ 1` and is positive for
`Ω_m > 1`. -/
theorem C44_sign (m : ℝ) (hm : 0 ≤ m) :
    ∃ line, expand_recollapse_line m = .ok line ∧ 0 ≤ line ∧ (line = 0 ↔ m ≤ 1) := by
  by_cases h1 : m < 1
  · exact ⟨0, by simp [expand_recollapse_line, hm, h1], le_rfl, by simp [h1.le]⟩
  · obtain ⟨c, hc0, hc, hc3, hl⟩ := expand_recollapse_line_ge (not_lt.1 h1)
    have hm1 := not_lt.1 h1
    refine ⟨_, hl, by positivity, fun h => ?_, fun h => ?_⟩
    · have : c = 0 := by
        rcases mul_eq_zero.1 h with h | h
        · exact absurd h (by positivity)
        · exact pow_eq_zero_iff (by norm_num) |>.1 h
      rw [this] at hc3; linarith
    · have hm' : m = 1 := le_antisymm h hm1
      subst hm'
      have : c * (4 * c ^ 2 - 3) = 0 := by linear_combination hc3
      rcases mul_eq_zero.1 this with h | h
      · rw [h]; ring
      · nlinarith

/-- **C44, the warning is sound.**  Whenever `Hubble_parameter` warns "Universe recollapses", `H²` of
the universe described — radiation included — does become negative in the future. -/
theorem C44_warning_sound (u : SI) (N m ΩK h : ℝ) (hm : 0 ≤ m) (hh : 0 < h) (v : Option ℝ)
    (hok : Hubble_parameter u N m ΩK h "planck" = .ok (v, true)) :
    Recollapses (OmegaR u h) m (1 - OmegaR u h - m - ΩK) := by
  obtain ⟨⟨nbb, hn⟩, erl, he⟩ := lines_ok hm
  obtain ⟨a0, ha, -⟩ := get_a0_total u hh ΩK
  have hR := OmegaR_pos u hh
  have hL : ¬ nbb < 1 - OmegaR u h - m - ΩK := fun hL => by
    rw [Hubble_error u N m ΩK h "planck" (get_H0_planck u h) hn hL] at hok; cases hok
  rw [Hubble_eq u N m ΩK h "planck" (get_H0_planck u h) hn he ha (not_lt.1 hL)] at hok
  simp only [Except.ok.injEq, Prod.mk.injEq, decide_eq_true_eq] at hok
  obtain ⟨line, hl, hiff⟩ := C44_line_iff m (1 - OmegaR u h - m - ΩK) hm
  rw [he] at hl
  obtain rfl := Except.ok.inj hl
  obtain ⟨x, hx, hx1, hneg⟩ := hiff.1 hok.2
  refine ⟨x, hx, hx1, ?_⟩
  have : 0 ≤ OmegaR u h * (x ^ 2 * (1 - x ^ 2)) :=
    mul_nonneg hR.le (mul_nonneg (sq_nonneg x) (by nlinarith))
  nlinarith

/-- **C44, no warning.**  If no warning is issued the radiation-free universe expands for ever. -/
theorem C44_no_warning_partial (u : SI) (N m ΩK h : ℝ) (hm : 0 ≤ m) (hh : 0 < h) (v : Option ℝ)
    (hok : Hubble_parameter u N m ΩK h "planck" = .ok (v, false)) :
    ¬ Recollapses 0 m (1 - OmegaR u h - m - ΩK) := by
  obtain ⟨⟨nbb, hn⟩, erl, he⟩ := lines_ok hm
  obtain ⟨a0, ha, -⟩ := get_a0_total u hh ΩK
  have hL : ¬ nbb < 1 - OmegaR u h - m - ΩK := fun hL => by
    rw [Hubble_error u N m ΩK h "planck" (get_H0_planck u h) hn hL] at hok; cases hok
  rw [Hubble_eq u N m ΩK h "planck" (get_H0_planck u h) hn he ha (not_lt.1 hL)] at hok
  simp only [Except.ok.injEq, Prod.mk.injEq, decide_eq_false_iff_not] at hok
  obtain ⟨line, hl, hiff⟩ := C44_line_iff m (1 - OmegaR u h - m - ΩK) hm
  rw [he] at hl
  obtain rfl := Except.ok.inj hl
  exact fun hr => hok.2 (hiff.2 hr)

/-- **C44, a missed recollapse.**  For every `h` there are parameters without warning whose universe,
with the radiation `primpy` includes, does recollapse: `Ω_m` just below one and `Ω_Λ = 0`. -/
theorem C44_missed_recollapse (u : SI) (h : ℝ) (hh : 0 < h) (hR1 : OmegaR u h ≤ 1) :
    ∃ m ΩK, 0 ≤ m ∧ Recollapses (OmegaR u h) m (1 - OmegaR u h - m - ΩK) ∧
      ∀ N, ∃ v, Hubble_parameter u N m ΩK h "planck" = .ok (v, false) := by
  have hR := OmegaR_pos u hh
  obtain ⟨m, hm⟩ : ∃ m, m = 1 - OmegaR u h / 2 := ⟨_, rfl⟩
  have hm0 : 0 < m := by linarith
  have hm1 : m < 1 := by linarith
  refine ⟨m, 1 - OmegaR u h - m, hm0.le, ?_, fun N => ?_⟩
  · obtain ⟨x, hx⟩ : ∃ x, x = OmegaR u h / 8 := ⟨_, rfl⟩
    have hx0 : 0 < x := by linarith
    refine ⟨x, hx0, by linarith, ?_⟩
    have e : OmegaR u h * x ^ 4 + m * x ^ 3 + (1 - OmegaR u h - m - (1 - OmegaR u h - m - (1 - OmegaR u h - m))) * x ^ 2 +
        (1 - OmegaR u h - m - (1 - OmegaR u h - m)) =
        x ^ 2 * (OmegaR u h * x ^ 2 + m * x + (1 - OmegaR u h - m)) := by ring
    rw [e]
    refine mul_neg_of_pos_of_neg (by positivity) ?_
    have : OmegaR u h = 8 * x := by linarith
    rw [hm, this]
    nlinarith
  · obtain ⟨⟨nbb, hn⟩, erl, he⟩ := lines_ok hm0.le
    obtain ⟨a0, ha, -⟩ := get_a0_total u hh (1 - OmegaR u h - m)
    have hnbb : 0 ≤ nbb := by
      obtain ⟨c, hc, -, hl⟩ := no_Big_Bang_line_pos hm0
      rw [hn] at hl
      rw [Except.ok.inj hl]; positivity
    have herl : erl = 0 := by
      have : expand_recollapse_line m = .ok 0 := by simp [expand_recollapse_line, hm0.le, hm1]
      rw [he] at this; exact Except.ok.inj this
    have hd : decide (1 - OmegaR u h - m - (1 - OmegaR u h - m) < erl) = false := by
      rw [herl]; simp
    rw [Hubble_eq u N m _ h "planck" (get_H0_planck u h) hn he ha (by linarith), hd]
    exact ⟨_, rfl⟩

/-- The hypothesis `OmegaR ≤ 1` is met, for every value of the physical constants, by any large enough
`h`. -/
example (u : SI) : ∃ h, 0 < h ∧ OmegaR u h ≤ 1 := by
  have h1 := OmegaR_pos u one_pos
  have hM := u.Mpc_pos; have hG := u.G_pos
  refine ⟨1 + OmegaR u 1, by linarith, ?_⟩
  have : OmegaR u (1 + OmegaR u 1) = OmegaR u 1 / (1 + OmegaR u 1) ^ 2 := by
    have hs : ∀ h : ℝ, 0 < h → OmegaR u h = OmegaR u 1 / h ^ 2 := fun h hh => by
      unfold OmegaR; field_simp
    exact hs _ (by linarith)
  rw [this, div_le_one (by positivity)]
  nlinarith

/-- Hypotheses met on both sides. -/
example : Recollapses 0 0 (-1) := ⟨1/2, by norm_num, by norm_num, by norm_num⟩
example : ¬ Recollapses 0 0 (1/2) := by
  rintro ⟨x, h0, h1, h⟩; nlinarith

end Primpy
