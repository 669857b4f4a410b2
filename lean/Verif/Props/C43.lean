import Verif.Lemmas.BigBang

/-!
# C43 — the no-Big-Bang criterion

Specification: with `x = a0/a`, the universe has a Big Bang if `H²` stays positive all the way to
`a → 0`, i.e. for all `x ≥ 1`; it has a bounce in the past if `H²` becomes negative for some `x ≥ 1`.
-/

namespace Primpy
open Real
open BB

/-- Going back in time from today, `H²` (in units of `H0²`, densities summing to one) becomes
negative: there is no Big Bang. -/
def Bounces (Ωr Ωm ΩL : ℝ) : Prop :=
  ∃ x : ℝ, 1 ≤ x ∧ Ωr * x ^ 4 + Ωm * x ^ 3 + (1 - Ωr - Ωm - ΩL) * x ^ 2 + ΩL < 0

/-- **C43, the line.**  Without radiation, `Omega_L0` above the line is *equivalent* to a bounce, for
every matter density `≥ 0`. -/
theorem C43_line_iff (m L : ℝ) (hm : 0 ≤ m) :
    ∃ line, no_Big_Bang_line m = .ok line ∧ (line < L ↔ Bounces 0 m L) := by
  rcases hm.eq_or_lt with h | h
  · subst h
    refine ⟨1, by simp [no_Big_Bang_line], fun hL => ?_, fun ⟨x, hx, hneg⟩ => ?_⟩
    · have hL1 : 0 < L - 1 := by linarith
      refine ⟨1 + L / (L - 1), ?_, ?_⟩
      · have : 0 < L / (L - 1) := by positivity
        linarith
      · obtain ⟨q, hq⟩ : ∃ q, q = L / (L - 1) := ⟨_, rfl⟩
        have hqL : q * (L - 1) = L := by rw [hq]; field_simp
        have hq0 : 0 < q := by rw [hq]; positivity
        rw [← hq]
        nlinarith [mul_pos hq0 hL1]
    · by_contra hc
      nlinarith [mul_nonneg (sub_nonneg.2 (not_lt.1 hc)) (by nlinarith : (0:ℝ) ≤ x ^ 2 - 1)]
  · obtain ⟨c, hc, hc3, hl⟩ := no_Big_Bang_line_pos h
    have hd := fun x => double_root m c L x hc3
    simp only [radicand] at hd
    refine ⟨_, hl, fun hL => ⟨2 * c, by linarith, ?_⟩, fun ⟨x, hx, hneg⟩ => ?_⟩
    · rw [hd]
      have h1 : 1 < (2 * c) ^ 2 := by nlinarith
      have : (L - 4 * m * c ^ 3) * (1 - (2 * c) ^ 2) < 0 := mul_neg_of_pos_of_neg (by linarith) (by linarith)
      nlinarith
    · rw [hd] at hneg
      by_contra hle
      have h1 : 0 ≤ m * (x - 2 * c) ^ 2 * (x + c) := by
        have : 0 < x + c := by linarith
        positivity
      have h2 : 0 ≤ (L - 4 * m * c ^ 3) * (1 - x ^ 2) :=
        mul_nonneg_of_nonpos_of_nonpos (by linarith [not_lt.1 hle]) (by nlinarith)
      linarith

/-- **C43, closed form.**  The line is the solution with `x > 1` of the double-root conditions:
`27 Ω_m² L = 4 (Ω_m + L - 1)³`, and `Ω_m < 2 L`. -/
theorem C43_discriminant (m : ℝ) (hm : 0 < m) :
    ∃ L, no_Big_Bang_line m = .ok L ∧ 27 * m ^ 2 * L = 4 * (m + L - 1) ^ 3 ∧ m < 2 * L := by
  obtain ⟨c, hc, hc3, hl⟩ := no_Big_Bang_line_pos hm
  refine ⟨_, hl, ?_, ?_⟩
  · have : m + 4 * m * c ^ 3 - 1 = 3 * m * c := by linear_combination hc3
    rw [this]; ring
  · have : (1 / 2 : ℝ) ^ 3 < c ^ 3 := pow_lt_pow_left₀ hc (by norm_num) (by norm_num)
    nlinarith

/-- If the matter-only universe does not bounce, then with any radiation `H²` is positive up to today. -/
theorem C43.pos (r m L x : ℝ) (hr : 0 < r) (hx : 1 ≤ x) (hb : ¬ Bounces 0 m L) :
    0 < r * x ^ 4 + m * x ^ 3 + (1 - r - m - L) * x ^ 2 + L := by
  have h0 : 0 ≤ 0 * x ^ 4 + m * x ^ 3 + (1 - 0 - m - L) * x ^ 2 + L := by
    by_contra hneg
    exact hb ⟨x, hx, not_le.1 hneg⟩
  rcases hx.eq_or_lt with h1 | h1
  · rw [← h1]; linarith
  · have : 0 < x ^ 2 * (x ^ 2 - 1) := mul_pos (by positivity) (by nlinarith)
    have := mul_pos hr this
    nlinarith

/-- **C43, soundness of the function.**  If `Hubble_parameter` does not raise `BigBangError`, then for
every `N` up to today it returns a positive real number (never NaN), whatever the radiation density:
the universe described does reach back to a Big Bang. -/
theorem C43_no_error_no_nan (u : SI) (m ΩK h : ℝ) (hm : 0 ≤ m) (hh : 0 < h) (N' : ℝ)
    (r : Option ℝ × Bool) (hok : Hubble_parameter u N' m ΩK h "planck" = .ok r) :
    ∃ a0, get_a0 u h ΩK "planck" = .ok a0 ∧
      ∀ N ≤ log a0, ∃ H w, Hubble_parameter u N m ΩK h "planck" = .ok (some H, w) ∧ 0 < H := by
  obtain ⟨⟨nbb, hn⟩, erl, he⟩ := lines_ok hm
  obtain ⟨a0, ha, hapos⟩ := get_a0_total u hh ΩK
  have hR := OmegaR_pos u hh
  have hH0 := H0_pos u hh
  have hL : ¬ nbb < 1 - OmegaR u h - m - ΩK := fun hL => by
    rw [Hubble_error u N' m ΩK h "planck" (get_H0_planck u h) hn hL] at hok; cases hok
  refine ⟨a0, ha, fun N hN => ?_⟩
  have hx : 1 ≤ exp (log a0 - N) := by rw [← exp_zero]; exact exp_le_exp.2 (by linarith)
  obtain ⟨line, hline, hiff⟩ := C43_line_iff m (1 - OmegaR u h - m - ΩK) hm
  rw [hn] at hline
  obtain rfl := Except.ok.inj hline
  have hpos := C43.pos (OmegaR u h) m (1 - OmegaR u h - m - ΩK) (exp (log a0 - N)) hR hx
    (fun hb => hL (hiff.2 hb))
  rw [show 1 - OmegaR u h - m - (1 - OmegaR u h - m - ΩK) = ΩK by ring] at hpos
  change 0 < radicand (OmegaR u h) m ΩK (1 - OmegaR u h - m - ΩK) (exp (log a0 - N)) at hpos
  rw [Hubble_eq u N m ΩK h "planck" (get_H0_planck u h) hn he ha (not_lt.1 hL), nanSqrt,
    if_pos hpos.le]
  exact ⟨_, _, rfl, mul_pos hH0 (sqrt_pos.2 hpos)⟩

/-- **C43, completeness of the error.**  If the universe described (radiation included) bounces, the
function raises `BigBangError`, at every `N` and in every known unit. -/
theorem C43_bounce_raises (u : SI) (N m ΩK h : ℝ) (hm : 0 ≤ m) (hh : 0 < h) (units : String)
    (hu : units = "planck" ∨ units = "H0" ∨ units = "SI")
    (hb : Bounces (OmegaR u h) m (1 - OmegaR u h - m - ΩK)) :
    Hubble_parameter u N m ΩK h units = .error (.primpyError "BigBangError: no Big Bang") := by
  obtain ⟨line, hn, hiff⟩ := C43_line_iff m (1 - OmegaR u h - m - ΩK) hm
  have hb0 : Bounces 0 m (1 - OmegaR u h - m - ΩK) := by
    by_contra hc
    obtain ⟨x, hx, hneg⟩ := hb
    exact absurd (C43.pos _ _ _ x (OmegaR_pos u hh) hx hc) (not_lt.2 hneg.le)
  have hH : ∃ H0, get_H0 u h units = .ok H0 := by
    rcases hu with rfl | rfl | rfl
    exacts [⟨_, get_H0_planck u h⟩, ⟨_, get_H0_H0 u h⟩, ⟨_, get_H0_SI u h⟩]
  obtain ⟨H0, hH⟩ := hH
  exact Hubble_error u N m ΩK h units hH hn (hiff.2 hb0)

/-- **C43, the criterion ignores radiation.**  For every `h` and every matter density there is a
curvature for which `BigBangError` is raised although, with the radiation `primpy` itself includes, `H²`
is positive throughout the past: the error is conservative, not exact. -/
theorem C43_radiation_gap (u : SI) (m h : ℝ) (hm : 0 ≤ m) (hh : 0 < h) :
    ∃ ΩK, (∀ N, Hubble_parameter u N m ΩK h "planck" =
        .error (.primpyError "BigBangError: no Big Bang")) ∧
      ¬ Bounces (OmegaR u h) m (1 - OmegaR u h - m - ΩK) := by
  obtain ⟨⟨line, hn⟩, -⟩ := lines_ok hm
  have hR := OmegaR_pos u hh
  refine ⟨1 - OmegaR u h - m - (line + OmegaR u h / 2), fun N => ?_, ?_⟩
  · exact Hubble_error u N m _ h "planck" (get_H0_planck u h) hn (by linarith)
  · rintro ⟨x, hx, hneg⟩
    obtain ⟨l, hl, hiff⟩ := C43_line_iff m line hm
    rw [hn] at hl
    obtain rfl := Except.ok.inj hl
    have h0 : 0 ≤ 0 * x ^ 4 + m * x ^ 3 + (1 - 0 - m - line) * x ^ 2 + line := by
      by_contra hc
      exact lt_irrefl _ (hiff.2 ⟨x, hx, not_le.1 hc⟩)
    have hx2 : 0 ≤ x ^ 2 - 1 := by nlinarith
    have h1 : 0 ≤ OmegaR u h * (x ^ 2 - 1) := by positivity
    have h2 : 0 ≤ OmegaR u h * (x ^ 2 - 1) * (x ^ 2 - 1) := by positivity
    nlinarith

/-- Hypotheses met on both sides: `Ω_m = 0`. -/
example : Bounces 0 0 2 := ⟨2, by norm_num, by norm_num⟩
example : ¬ Bounces 0 0 (1/2) := by
  rintro ⟨x, hx, h⟩; nlinarith

end Primpy
