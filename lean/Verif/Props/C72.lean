import Verif.Props.C71

/-!
# C72: CGS and ARBDS at second and third order

ARBDS expands around `k_* = -1/η`, CGS, STE and LLMS around `k = aH`.  At the moment when the slow-roll parameters
are read off, the wavenumber that crosses `k = aH` has `ln(k/k_*) = ln(aH|η|) = ε₁ + ε₁²/2 + ε₁ε₂ + ...`, so that
is where the expansions are to be compared.
-/

namespace Primpy
open Real Asymptotics Filter Topology Approx

namespace Pivot

/-- order `t ^ 4` of the difference (expanded by a script, checked by `ring`) -/
noncomputable def gapS4 (x1 x2 x3 : ℝ) : ℝ :=
    ((1) * alpha) * (x1 * x2 ^ 2 * x3)
    + ((-1) * alpha) * (x1 * x2 ^ 3)
    + ((1 / 2) * alpha) * (x1 ^ 2 * x2 * x3)
    + ((-1) + (-5 / 2) * alpha) * (x1 ^ 2 * x2 ^ 2)
    + ((3 / 2) + (-5) * alpha) * (x1 ^ 3 * x2)
    + ((1) + (-2) * alpha) * (x1 ^ 4)

/-- order `t ^ 5` of the difference (expanded by a script, checked by `ring`) -/
noncomputable def gapS5 (x1 x2 x3 : ℝ) : ℝ :=
    ((1 / 24) * π ^ 2 + (-1 / 2) * alpha ^ 2) * (x1 * x2 ^ 2 * x3 ^ 2)
    + ((-2) + (5 / 24) * π ^ 2 + (3 / 2) * alpha ^ 2) * (x1 * x2 ^ 3 * x3)
    + ((1) + (-1 / 8) * π ^ 2 + (-1 / 2) * alpha ^ 2) * (x1 * x2 ^ 4)
    + ((1 / 48) * π ^ 2 + (-1 / 4) * alpha ^ 2) * (x1 ^ 2 * x2 * x3 ^ 2)
    + ((-8) + (29 / 48) * π ^ 2 + (2) * alpha + (11 / 4) * alpha ^ 2) * (x1 ^ 2 * x2 ^ 2 * x3)
    + ((5 / 2) + (-5 / 16) * π ^ 2 + (-1) * alpha + (-5 / 4) * alpha ^ 2) * (x1 ^ 2 * x2 ^ 3)
    + ((-7 / 2) + (1 / 4) * π ^ 2 + (1) * alpha + (1) * alpha ^ 2) * (x1 ^ 3 * x2 * x3)
    + ((9) + (-19 / 24) * π ^ 2 + (-13 / 2) * alpha + (-1 / 2) * alpha ^ 2) * (x1 ^ 3 * x2 ^ 2)
    + ((16) + (-4 / 3) * π ^ 2 + (-3) * alpha + (-4) * alpha ^ 2) * (x1 ^ 4 * x2)
    + ((6) + (-1 / 2) * π ^ 2 + (-2) * alpha ^ 2) * (x1 ^ 5)

/-- order `t ^ 6` of the difference (expanded by a script, checked by `ring`) -/
noncomputable def gapS6 (x1 x2 x3 : ℝ) : ℝ :=
    ((1) * alpha) * (x1 ^ 2 * x2 ^ 2 * x3 ^ 2)
    + ((-1 / 2) + (-3) * alpha) * (x1 ^ 2 * x2 ^ 3 * x3)
    + ((1 / 2) + (1) * alpha) * (x1 ^ 2 * x2 ^ 4)
    + ((1 / 2) * alpha) * (x1 ^ 3 * x2 * x3 ^ 2)
    + ((-5 / 2) + (-11 / 2) * alpha) * (x1 ^ 3 * x2 ^ 2 * x3)
    + ((5 / 2) + (5 / 2) * alpha) * (x1 ^ 3 * x2 ^ 3)
    + ((-9 / 8) + (-2) * alpha) * (x1 ^ 4 * x2 * x3)
    + ((77 / 8) + (1) * alpha) * (x1 ^ 4 * x2 ^ 2)
    + ((21 / 4) + (8) * alpha) * (x1 ^ 5 * x2)
    + ((1 / 2) + (4) * alpha) * (x1 ^ 6)

/-- order `t ^ 7` of the difference (expanded by a script, checked by `ring`) -/
noncomputable def gapS7 (x1 x2 x3 : ℝ) : ℝ :=
    ((1 / 2) * alpha) * (x1 ^ 2 * x2 ^ 3 * x3 ^ 2)
    + ((-3 / 2) * alpha) * (x1 ^ 2 * x2 ^ 4 * x3)
    + ((1 / 2) * alpha) * (x1 ^ 2 * x2 ^ 5)
    + ((-1 / 2) + (1 / 2) * alpha) * (x1 ^ 3 * x2 ^ 2 * x3 ^ 2)
    + ((1 / 2) + (-7 / 2) * alpha) * (x1 ^ 3 * x2 ^ 3 * x3)
    + ((3 / 2) * alpha) * (x1 ^ 3 * x2 ^ 4)
    + ((-1 / 4) + (1 / 8) * alpha) * (x1 ^ 4 * x2 * x3 ^ 2)
    + ((7 / 4) + (-19 / 8) * alpha) * (x1 ^ 4 * x2 ^ 2 * x3)
    + ((9 / 4) + (9 / 8) * alpha) * (x1 ^ 4 * x2 ^ 3)
    + ((3 / 4) + (-1 / 2) * alpha) * (x1 ^ 5 * x2 * x3)
    + ((21 / 8) + (17 / 4) * alpha) * (x1 ^ 5 * x2 ^ 2)
    + ((-13 / 4) + (4) * alpha) * (x1 ^ 6 * x2)
    + ((-2) + (1) * alpha) * (x1 ^ 7)

/-- order `t ^ 8` of the difference (expanded by a script, checked by `ring`) -/
noncomputable def gapS8 (x1 x2 x3 : ℝ) : ℝ :=
    ((-1 / 2)) * (x1 ^ 3 * x2 ^ 3 * x3 ^ 2)
    + ((3 / 2)) * (x1 ^ 3 * x2 ^ 4 * x3)
    + ((-1 / 2)) * (x1 ^ 3 * x2 ^ 5)
    + ((-1 / 2)) * (x1 ^ 4 * x2 ^ 2 * x3 ^ 2)
    + ((7 / 2)) * (x1 ^ 4 * x2 ^ 3 * x3)
    + ((-3 / 2)) * (x1 ^ 4 * x2 ^ 4)
    + ((-1 / 8)) * (x1 ^ 5 * x2 * x3 ^ 2)
    + ((19 / 8)) * (x1 ^ 5 * x2 ^ 2 * x3)
    + ((-9 / 8)) * (x1 ^ 5 * x2 ^ 3)
    + ((1 / 2)) * (x1 ^ 6 * x2 * x3)
    + ((-17 / 4)) * (x1 ^ 6 * x2 ^ 2)
    + ((-4)) * (x1 ^ 7 * x2)
    + ((-1)) * (x1 ^ 8)

/-- order `t ^ 9` of the difference (expanded by a script, checked by `ring`) -/
noncomputable def gapS9 (x1 x2 x3 : ℝ) : ℝ :=
    ((-1 / 6)) * (x1 ^ 3 * x2 ^ 4 * x3 ^ 2)
    + ((1 / 2)) * (x1 ^ 3 * x2 ^ 5 * x3)
    + ((-1 / 6)) * (x1 ^ 3 * x2 ^ 6)
    + ((-1 / 4)) * (x1 ^ 4 * x2 ^ 3 * x3 ^ 2)
    + ((17 / 12)) * (x1 ^ 4 * x2 ^ 4 * x3)
    + ((-7 / 12)) * (x1 ^ 4 * x2 ^ 5)
    + ((-1 / 8)) * (x1 ^ 5 * x2 ^ 2 * x3 ^ 2)
    + ((11 / 8)) * (x1 ^ 5 * x2 ^ 3 * x3)
    + ((-5 / 8)) * (x1 ^ 5 * x2 ^ 4)
    + ((-1 / 48)) * (x1 ^ 6 * x2 * x3 ^ 2)
    + ((9 / 16)) * (x1 ^ 6 * x2 ^ 2 * x3)
    + ((-77 / 48)) * (x1 ^ 6 * x2 ^ 3)
    + ((1 / 12)) * (x1 ^ 7 * x2 * x3)
    + ((-49 / 24)) * (x1 ^ 7 * x2 ^ 2)
    + ((-1)) * (x1 ^ 8 * x2)
    + ((-1 / 6)) * (x1 ^ 9)

/-- order `t ^ 4` of the difference (expanded by a script, checked by `ring`) -/
noncomputable def gapT4 (x1 x2 x3 : ℝ) : ℝ :=
    ((-2) + (2) * alpha) * (x1 ^ 2 * x2 ^ 2)
    + ((1) + (-3) * alpha) * (x1 ^ 3 * x2)
    + ((1) + (-2) * alpha) * (x1 ^ 4)

/-- order `t ^ 5` of the difference (expanded by a script, checked by `ring`) -/
noncomputable def gapT5 (x1 x2 x3 : ℝ) : ℝ :=
    ((-2) + (1 / 12) * π ^ 2 + (2) * alpha + (-1) * alpha ^ 2) * (x1 ^ 2 * x2 ^ 2 * x3)
    + ((-2) + (1 / 12) * π ^ 2 + (2) * alpha + (-1) * alpha ^ 2) * (x1 ^ 2 * x2 ^ 3)
    + ((-1) + (1 / 24) * π ^ 2 + (1) * alpha + (-1 / 2) * alpha ^ 2) * (x1 ^ 3 * x2 * x3)
    + ((-9) + (7 / 8) * π ^ 2 + (-5) * alpha + (11 / 2) * alpha ^ 2) * (x1 ^ 3 * x2 ^ 2)
    + ((8) + (-7 / 12) * π ^ 2 + (-3) * alpha + (-1) * alpha ^ 2) * (x1 ^ 4 * x2)
    + ((6) + (-1 / 2) * π ^ 2 + (-2) * alpha ^ 2) * (x1 ^ 5)

/-- order `t ^ 6` of the difference (expanded by a script, checked by `ring`) -/
noncomputable def gapT6 (x1 x2 x3 : ℝ) : ℝ :=
    ((-2) + (2) * alpha) * (x1 ^ 3 * x2 ^ 2 * x3)
    + ((-3) + (2) * alpha) * (x1 ^ 3 * x2 ^ 3)
    + ((-1) + (1) * alpha) * (x1 ^ 4 * x2 * x3)
    + ((6) + (-11) * alpha) * (x1 ^ 4 * x2 ^ 2)
    + ((19 / 4) + (2) * alpha) * (x1 ^ 5 * x2)
    + ((1 / 2) + (4) * alpha) * (x1 ^ 6)

/-- order `t ^ 7` of the difference (expanded by a script, checked by `ring`) -/
noncomputable def gapT7 (x1 x2 x3 : ℝ) : ℝ :=
    ((-1) + (1) * alpha) * (x1 ^ 3 * x2 ^ 3 * x3)
    + ((-1) + (1) * alpha) * (x1 ^ 3 * x2 ^ 4)
    + ((-2) + (1) * alpha) * (x1 ^ 4 * x2 ^ 2 * x3)
    + ((1) + (-5) * alpha) * (x1 ^ 4 * x2 ^ 3)
    + ((-3 / 4) + (1 / 4) * alpha) * (x1 ^ 5 * x2 * x3)
    + ((33 / 4) + (-7 / 4) * alpha) * (x1 ^ 5 * x2 ^ 2)
    + ((-1 / 4) + (5 / 2) * alpha) * (x1 ^ 6 * x2)
    + ((-2) + (1) * alpha) * (x1 ^ 7)

/-- order `t ^ 8` of the difference (expanded by a script, checked by `ring`) -/
noncomputable def gapT8 (x1 x2 x3 : ℝ) : ℝ :=
    ((-1)) * (x1 ^ 4 * x2 ^ 3 * x3)
    + ((-1)) * (x1 ^ 4 * x2 ^ 4)
    + ((-1)) * (x1 ^ 5 * x2 ^ 2 * x3)
    + ((5)) * (x1 ^ 5 * x2 ^ 3)
    + ((-1 / 4)) * (x1 ^ 6 * x2 * x3)
    + ((7 / 4)) * (x1 ^ 6 * x2 ^ 2)
    + ((-5 / 2)) * (x1 ^ 7 * x2)
    + ((-1)) * (x1 ^ 8)

/-- order `t ^ 9` of the difference (expanded by a script, checked by `ring`) -/
noncomputable def gapT9 (x1 x2 x3 : ℝ) : ℝ :=
    ((-1 / 3)) * (x1 ^ 4 * x2 ^ 4 * x3)
    + ((-1 / 3)) * (x1 ^ 4 * x2 ^ 5)
    + ((-1 / 2)) * (x1 ^ 5 * x2 ^ 3 * x3)
    + ((3 / 2)) * (x1 ^ 5 * x2 ^ 4)
    + ((-1 / 4)) * (x1 ^ 6 * x2 ^ 2 * x3)
    + ((17 / 12)) * (x1 ^ 6 * x2 ^ 3)
    + ((-1 / 24)) * (x1 ^ 7 * x2 * x3)
    + ((-13 / 24)) * (x1 ^ 7 * x2 ^ 2)
    + ((-3 / 4)) * (x1 ^ 8 * x2)
    + ((-1 / 6)) * (x1 ^ 9)

end Pivot

/-- Replacing `ln(k/k_*)` by something that agrees with it through order `m` changes ARBDS at order `m+2`. -/
theorem arbds_shift (p : SRPoint) (n m : ℕ) {l l' : ℝ → ℝ} (hc : ContinuousAt l 0) (hc' : ContinuousAt l' 0)
    (h : (fun t => l t - l' t) =O[𝓝 0] fun t => t ^ m) :
    ((fun t => arbdsS n (p.at t) (l t) - arbdsS n (p.at t) (l' t)) =O[𝓝 0] fun t => t ^ (m + 1)) ∧
    ((fun t => arbdsT n (p.at t) (l t) - arbdsT n (p.at t) (l' t)) =O[𝓝 0] fun t => t ^ (m + 1)) := by
  have key : ∀ (F : ℝ → ℝ → ℝ) (A1 A2 A3 : ℝ → ℝ), Continuous A1 → Continuous A2 → Continuous A3 →
      (∀ t x y, F t x - F t y = (x - y) * (t * (A1 t + A2 t * (x + y) + A3 t * (x ^ 2 + x * y + y ^ 2)))) →
      (fun t => F t (l t) - F t (l' t)) =O[𝓝 0] fun t => t ^ (m + 1) := by
    intro F A1 A2 A3 h1 h2 h3 hF
    have hA : ContinuousAt (fun t => A1 t + A2 t * (l t + l' t)
        + A3 t * (l t ^ 2 + l t * l' t + l' t ^ 2)) 0 := by
      have := h1.continuousAt (x := (0:ℝ))
      have := h2.continuousAt (x := (0:ℝ))
      have := h3.continuousAt (x := (0:ℝ))
      fun_prop
    have b2 : (fun t => t * (A1 t + A2 t * (l t + l' t) + A3 t * (l t ^ 2 + l t * l' t + l' t ^ 2)))
        =O[𝓝 0] fun t : ℝ => t ^ 1 :=
      isBigO_of_factor 1 (Eventually.of_forall fun t => by rw [pow_one]) hA
    exact (h.mul b2).congr (fun t => (hF t _ _).symm) (fun t => by ring)
  constructor
  · match n with
    | 1 =>
      refine key (fun t x => arbdsS 1 (p.at t) x) (fun _ => as1_1 p) (fun _ => 0) (fun _ => 0)
        (by fun_prop) (by fun_prop) (by fun_prop) fun t x y => ?_
      simp only [arbdsS, as1_1, SRPoint.at]; ring
    | 2 =>
      refine key (fun t x => arbdsS 2 (p.at t) x) (fun t => as1_1 p + t * as1_2 p) (fun t => t * as2_2 p)
        (fun _ => 0) (by fun_prop) (by fun_prop) (by fun_prop) fun t x y => ?_
      simp only [arbdsS, as1_1, as1_2, as2_2, SRPoint.at]; ring
    | 0 =>
      refine key (fun t x => arbdsS 0 (p.at t) x) (fun t => as1_1 p + t * as1_2 p + t ^ 2 * as1_3 p)
        (fun t => t * as2_2 p + t ^ 2 * as2_3 p)
        (fun t => t ^ 2 * as3_3 p) (by fun_prop) (by fun_prop) (by fun_prop) fun t x y => ?_
      simp only [arbdsS, as1_1, as1_2, as1_3, as2_2, as2_3, as3_3, SRPoint.at]; ring
    | k + 3 =>
      refine key (fun t x => arbdsS (k + 3) (p.at t) x) (fun t => as1_1 p + t * as1_2 p + t ^ 2 * as1_3 p)
        (fun t => t * as2_2 p + t ^ 2 * as2_3 p)
        (fun t => t ^ 2 * as3_3 p) (by fun_prop) (by fun_prop) (by fun_prop) fun t x y => ?_
      simp only [arbdsS, as1_1, as1_2, as1_3, as2_2, as2_3, as3_3, SRPoint.at]; ring
  · match n with
    | 1 =>
      refine key (fun t x => arbdsT 1 (p.at t) x) (fun _ => at1_1 p) (fun _ => 0) (fun _ => 0)
        (by fun_prop) (by fun_prop) (by fun_prop) fun t x y => ?_
      simp only [arbdsT, at1_1, SRPoint.at]; ring
    | 2 =>
      refine key (fun t x => arbdsT 2 (p.at t) x) (fun t => at1_1 p + t * at1_2 p) (fun t => t * at2_2 p)
        (fun _ => 0) (by fun_prop) (by fun_prop) (by fun_prop) fun t x y => ?_
      simp only [arbdsT, at1_1, at1_2, at2_2, SRPoint.at]; ring
    | 0 =>
      refine key (fun t x => arbdsT 0 (p.at t) x) (fun t => at1_1 p + t * at1_2 p + t ^ 2 * at1_3 p)
        (fun t => t * at2_2 p + t ^ 2 * at2_3 p)
        (fun t => t ^ 2 * at3_3 p) (by fun_prop) (by fun_prop) (by fun_prop) fun t x y => ?_
      simp only [arbdsT, at1_1, at1_2, at1_3, at2_2, at2_3, at3_3, SRPoint.at]; ring
    | k + 3 =>
      refine key (fun t x => arbdsT (k + 3) (p.at t) x) (fun t => at1_1 p + t * at1_2 p + t ^ 2 * at1_3 p)
        (fun t => t * at2_2 p + t ^ 2 * at2_3 p)
        (fun t => t ^ 2 * at3_3 p) (by fun_prop) (by fun_prop) (by fun_prop) fun t x y => ?_
      simp only [arbdsT, at1_1, at1_2, at1_3, at2_2, at2_3, at3_3, SRPoint.at]; ring

/-- **C72, second order.**  Read at the wavenumber that crosses the horizon `k = aH` at the moment the parameters
belong to (`ln(k/k_*) = ε₁ + O(t²)`), ARBDS of order 2 and 3 agrees with STE through second order; with C55 also
with CGS and LLMS.  The second-order mismatch of C55 is entirely the choice of `k_*`. -/
theorem C72_second_order (p : SRPoint) (n : ℕ) (hn : 2 ≤ n) (l : ℝ → ℝ) (hc : ContinuousAt l 0)
    (hl : (fun t => l t - t * p.e1) =O[𝓝 0] fun t => t ^ 2) :
    ((fun t => arbdsS n (p.at t) (l t) - steS (p.at t)) =O[𝓝 0] fun t => t ^ 3) ∧
    ((fun t => arbdsT n (p.at t) (l t) - steT (p.at t)) =O[𝓝 0] fun t => t ^ 3) := by
  have hs := arbds_shift p n 2 hc (by fun_prop) hl
  constructor
  · have : (fun t => arbdsS n (p.at t) (t * p.e1) - steS (p.at t)) =O[𝓝 0] fun t => t ^ 3 := by
      match n, hn with
      | 2, _ =>
        refine isBigO_of_factor (g := fun t => as1_2 p * p.e1 + t * as2_2 p * p.e1 ^ 2) 3
          (Eventually.of_forall fun t => ?_) (by fun_prop)
        simp only [arbdsS, as0_1, as0_2, as1_1, as1_2, as2_2, steS, SRPoint.at, C_eq]; ring
      | k + 3, _ =>
        refine isBigO_of_factor (g := fun t => as0_3 p + as1_2 p * p.e1 + t * (as1_3 p * p.e1)
            + t * ((as2_2 p + t * as2_3 p) * p.e1 ^ 2) + t ^ 3 * as3_3 p * p.e1 ^ 3) 3
          (Eventually.of_forall fun t => ?_) (by fun_prop)
        simp only [arbdsS, as0_1, as0_2, as0_3, as1_1, as1_2, as1_3, as2_2, as2_3, as3_3, steS, SRPoint.at,
          C_eq]
        ring
    exact (hs.1.add this).congr_left fun t => by ring
  · have : (fun t => arbdsT n (p.at t) (t * p.e1) - steT (p.at t)) =O[𝓝 0] fun t => t ^ 3 := by
      match n, hn with
      | 2, _ =>
        refine isBigO_of_factor (g := fun t => at1_2 p * p.e1 + t * at2_2 p * p.e1 ^ 2) 3
          (Eventually.of_forall fun t => ?_) (by fun_prop)
        simp only [arbdsT, at0_1, at0_2, at1_1, at1_2, at2_2, steT, SRPoint.at, C_eq]; ring
      | k + 3, _ =>
        refine isBigO_of_factor (g := fun t => at0_3 p + at1_2 p * p.e1 + t * (at1_3 p * p.e1)
            + t * ((at2_2 p + t * at2_3 p) * p.e1 ^ 2) + t ^ 3 * at3_3 p * p.e1 ^ 3) 3
          (Eventually.of_forall fun t => ?_) (by fun_prop)
        simp only [arbdsT, at0_1, at0_2, at0_3, at1_1, at1_2, at1_3, at2_2, at2_3, at3_3, steT, SRPoint.at,
          C_eq]
        ring
    exact (hs.2.add this).congr_left fun t => by ring

/-- The exact relations in a flat universe including third order, for histories with `ε₄ = 0` (the value the code
gives ARBDS): the derivative of `ε₂ε₃` expressed through `δ_n' = δ_{n+1} + δ_n(nε₁ - δ₁)`, and Gong's
`ε₃ = ε̈₁/H²`. -/
structure FlatRelations3 (p : SRPoint) : Prop extends FlatRelations p where
  e4 : p.e2 * p.e3 ^ 2 = 16 * p.e1 ^ 2 * (p.e1 + p.d1) + 12 * p.e1 * (p.e1 + p.d1) * p.d1
    + 6 * p.e1 * (p.d2 + p.d1 * (p.e1 - p.d1)) + 2 * (p.d3 + p.d2 * (2 * p.e1 - p.d1))
    - 4 * p.d1 * (p.d2 + p.d1 * (p.e1 - p.d1))
  g3 : p.g3 = p.e1 * p.e2 * (p.e2 + p.e3 - p.e1)

/-- Third-order part of ARBDS minus CGS, scalar. -/
noncomputable def gapS (p : SRPoint) : ℝ :=
  -(p.e1 * (2 * p.e1 + p.e2) * (p.e1 / 2 + p.e2)) - 2 * zeta3 * (p.e2 * (p.e3 ^ 2 + 2 * p.e1 * (p.e2 + p.e3)))
/-- Third-order part of ARBDS minus CGS, tensor. -/
noncomputable def gapT (p : SRPoint) : ℝ :=
  -(2 * p.e1 ^ 2 * (p.e1 / 2 + p.e2)) - 4 * zeta3 * (p.e1 * p.e2 * (p.e2 + p.e3))

open Pivot in
/-- **C72, third order.**  Read at the same wavenumber the third-order versions of CGS and ARBDS do not agree at
third order; they differ by exactly `gapS`, `gapT`. -/
theorem C72_third_order_gap (p : SRPoint) (h : FlatRelations3 p) (l : ℝ → ℝ) (hc : ContinuousAt l 0)
    (hl : (fun t => l t - (t * p.e1 + t ^ 2 * (p.e1 ^ 2 / 2 + p.e1 * p.e2))) =O[𝓝 0] fun t => t ^ 3) :
    ((fun t => arbdsS 3 (p.at t) (l t) - cgsS 3 (p.at t) - t ^ 3 * gapS p) =O[𝓝 0] fun t => t ^ 4) ∧
    ((fun t => arbdsT 3 (p.at t) (l t) - cgsT 3 (p.at t) - t ^ 3 * gapT p) =O[𝓝 0] fun t => t ^ 4) := by
  have hs := arbds_shift p 3 3 hc (by fun_prop) hl
  have h1 : p.d1 = p.e2 / 2 - p.e1 := by linear_combination -1 / 2 * h.e2
  have h2 : p.d2 = p.e2 * p.e3 / 2 - 2 * p.e1 ^ 2 - 3 * p.e1 * (p.e2 / 2 - p.e1) + (p.e2 / 2 - p.e1) ^ 2 := by
    have := h.e3
    rw [h1] at this
    linear_combination -1 / 2 * this
  have h3 : p.d3 = p.e2 * p.e3 ^ 2 / 2 - 8 * p.e1 ^ 2 * (p.e1 + p.d1) - 6 * p.e1 * (p.e1 + p.d1) * p.d1
    - 3 * p.e1 * (p.d2 + p.d1 * (p.e1 - p.d1)) - p.d2 * (2 * p.e1 - p.d1)
    + 2 * p.d1 * (p.d2 + p.d1 * (p.e1 - p.d1)) := by linear_combination -1 / 2 * h.e4
  rw [h2, h1] at h3
  constructor
  · have : (fun t => arbdsS 3 (p.at t) (t * p.e1 + t ^ 2 * (p.e1 ^ 2 / 2 + p.e1 * p.e2)) - cgsS 3 (p.at t)
        - t ^ 3 * gapS p) =O[𝓝 0] fun t => t ^ 4 := by
      refine isBigO_of_factor (g := fun t => gapS4 p.e1 p.e2 p.e3 + t * gapS5 p.e1 p.e2 p.e3
        + t ^ 2 * gapS6 p.e1 p.e2 p.e3 + t ^ 3 * gapS7 p.e1 p.e2 p.e3 + t ^ 4 * gapS8 p.e1 p.e2 p.e3
        + t ^ 5 * gapS9 p.e1 p.e2 p.e3) 4 (Eventually.of_forall fun t => ?_) (by fun_prop)
      simp only [arbdsS, as0_1, as0_2, as0_3, as1_1, as1_2, as1_3, as2_2, as2_3, as3_3, cgsS, cgsS1, cgsS2, cgsS3,
        SRPoint.at, gapS, gapS4, gapS5, gapS6, gapS7, gapS8, gapS9, Z]
      rw [h3, h2, h1]
      ring
    exact (hs.1.add this).congr_left fun t => by ring
  · have : (fun t => arbdsT 3 (p.at t) (t * p.e1 + t ^ 2 * (p.e1 ^ 2 / 2 + p.e1 * p.e2)) - cgsT 3 (p.at t)
        - t ^ 3 * gapT p) =O[𝓝 0] fun t => t ^ 4 := by
      refine isBigO_of_factor (g := fun t => gapT4 p.e1 p.e2 p.e3 + t * gapT5 p.e1 p.e2 p.e3
        + t ^ 2 * gapT6 p.e1 p.e2 p.e3 + t ^ 3 * gapT7 p.e1 p.e2 p.e3 + t ^ 4 * gapT8 p.e1 p.e2 p.e3
        + t ^ 5 * gapT9 p.e1 p.e2 p.e3) 4 (Eventually.of_forall fun t => ?_) (by fun_prop)
      simp only [arbdsT, at0_1, at0_2, at0_3, at1_1, at1_2, at1_3, at2_2, at2_3, at3_3, cgsT, cgsT1, cgsT2, cgsT3,
        SRPoint.at, gapT, gapT4, gapT5, gapT6, gapT7, gapT8, gapT9, Z]
      rw [h.g3, h.g2]
      ring
    exact (hs.2.add this).congr_left fun t => by ring

/-- **C72.**  So CGS and ARBDS are not the same third-order approximation, whenever the gap is not zero. -/
theorem C72_not_third_order (p : SRPoint) (h : FlatRelations3 p) (l : ℝ → ℝ) (hc : ContinuousAt l 0)
    (hl : (fun t => l t - (t * p.e1 + t ^ 2 * (p.e1 ^ 2 / 2 + p.e1 * p.e2))) =O[𝓝 0] fun t => t ^ 3) :
    (gapS p ≠ 0 → ¬ (fun t => arbdsS 3 (p.at t) (l t) - cgsS 3 (p.at t)) =O[𝓝 0] fun t => t ^ 4) ∧
    (gapT p ≠ 0 → ¬ (fun t => arbdsT 3 (p.at t) (l t) - cgsT 3 (p.at t)) =O[𝓝 0] fun t => t ^ 4) := by
  have key : ∀ (f : ℝ → ℝ) (c : ℝ), c ≠ 0 → (fun t => f t - t ^ 3 * c) =O[𝓝 0] (fun t => t ^ 4) →
      ¬ f =O[𝓝 0] fun t => t ^ 4 := by
    intro f c hc0 h1 h2
    have h3 : (fun t : ℝ => t ^ 3 * c) =O[𝓝 0] fun t => t ^ 4 := (h2.sub h1).congr_left fun t => by ring
    have h4 : (fun t : ℝ => t ^ 4) =o[𝓝 0] fun t => t ^ 3 := isLittleO_pow_pow (by norm_num)
    have h5 : (fun t : ℝ => t ^ 3) =o[𝓝 0] fun t : ℝ => t ^ 3 := by
      refine ((h3.trans_isLittleO h4).const_mul_left c⁻¹).congr_left fun t => ?_
      rw [mul_comm (t ^ 3), inv_mul_cancel_left₀ hc0]
    refine isLittleO_irrefl' (f' := fun t : ℝ => t ^ 3) (l := 𝓝 0) ?_ h5
    have : ∃ᶠ t : ℝ in 𝓝[≠] (0 : ℝ), t ^ 3 ≠ 0 :=
      (eventually_nhdsWithin_of_forall (s := {(0 : ℝ)}ᶜ) fun t ht => pow_ne_zero 3 ht).frequently
    exact (this.filter_mono nhdsWithin_le_nhds).mono fun t ht => by simpa using ht
  have := C72_third_order_gap p h l hc hl
  exact ⟨fun hg => key _ _ hg this.1, fun hg => key _ _ hg this.2⟩

/-! ### The wavenumber shift -/

/-- `ln(aH|η|)` for `aH|η| = 1 + ε₁ + ε₁² + ε₁ε₂ + O(t³)`. -/
theorem log_shift (a b : ℝ) :
    (fun t => log (1 + t * a + t ^ 2 * b) - (t * a + t ^ 2 * (b - a ^ 2 / 2))) =O[𝓝 0] fun t => t ^ 3 := by
  obtain ⟨x, hx⟩ : ∃ x : ℝ → ℝ, ∀ t, x t = -(t * a + t ^ 2 * b) := ⟨_, fun _ => rfl⟩
  have hxc : Continuous x := by
    have : x = fun t => -(t * a + t ^ 2 * b) := funext hx
    rw [this]; fun_prop
  have hx0 : x 0 = 0 := by rw [hx]; ring
  have near : ∀ᶠ t in 𝓝 (0:ℝ), |x t| < 1 / 2 := by
    have : Tendsto (fun t => |x t|) (𝓝 0) (𝓝 |x 0|) := (hxc.abs).tendsto 0
    rw [hx0, abs_zero] at this
    exact this.eventually (gt_mem_nhds (by norm_num))
  have hx1 : x =O[𝓝 0] fun t : ℝ => t ^ 1 :=
    isBigO_of_factor (g := fun t => -(a + t * b)) 1
      (Eventually.of_forall fun t => by rw [hx]; ring) (by fun_prop)
  have h3 : (fun t => x t ^ 3) =O[𝓝 0] fun t : ℝ => t ^ 3 := (hx1.pow 3).congr_right fun t => by ring
  have hlog : (fun t => log (1 - x t) + x t + x t ^ 2 / 2) =O[𝓝 0] fun t : ℝ => x t ^ 3 := by
    refine IsBigO.of_bound 2 ?_
    filter_upwards [near] with t ht
    have k := Real.abs_log_sub_add_sum_range_le (x := x t) (by linarith) 2
    simp only [Finset.sum_range_succ, Finset.sum_range_zero] at k
    rw [Real.norm_eq_abs, Real.norm_eq_abs, abs_pow]
    have e : log (1 - x t) + x t + x t ^ 2 / 2 = 0 + x t ^ (0 + 1) / ((0:ℕ) + 1) + x t ^ (1 + 1) / ((1:ℕ) + 1)
        + log (1 - x t) := by push_cast; ring
    rw [e]
    refine k.trans ?_
    have hp : 0 ≤ |x t| ^ 3 := by positivity
    rw [div_le_iff₀ (by linarith)]
    norm_num
    nlinarith [mul_nonneg hp (by linarith : (0:ℝ) ≤ 1 / 2 - |x t|)]
  have hrest : (fun t => -(x t) - x t ^ 2 / 2 - (t * a + t ^ 2 * (b - a ^ 2 / 2))) =O[𝓝 0] fun t : ℝ => t ^ 3 :=
    isBigO_of_factor (g := fun t => -(a * b) - t * b ^ 2 / 2) 3
      (Eventually.of_forall fun t => by rw [hx]; ring) (by fun_prop)
  refine ((hlog.trans h3).add hrest).congr_left fun t => ?_
  rw [show 1 + t * a + t ^ 2 * b = 1 - x t by rw [hx]; ring]
  ring

/-- The shift that the comparison needs: `ln(aH|η|)` meets the hypotheses of `C72_second_order` and
`C72_third_order_gap`. -/
theorem C72_shift (p : SRPoint) :
    ContinuousAt (fun t => log (1 + t * p.e1 + t ^ 2 * (p.e1 ^ 2 + p.e1 * p.e2))) 0 ∧
    ((fun t => log (1 + t * p.e1 + t ^ 2 * (p.e1 ^ 2 + p.e1 * p.e2)) - t * p.e1) =O[𝓝 0] fun t => t ^ 2) ∧
    (fun t => log (1 + t * p.e1 + t ^ 2 * (p.e1 ^ 2 + p.e1 * p.e2))
      - (t * p.e1 + t ^ 2 * (p.e1 ^ 2 / 2 + p.e1 * p.e2))) =O[𝓝 0] fun t => t ^ 3 := by
  have h := log_shift p.e1 (p.e1 ^ 2 + p.e1 * p.e2)
  have h3 : (fun t => log (1 + t * p.e1 + t ^ 2 * (p.e1 ^ 2 + p.e1 * p.e2))
      - (t * p.e1 + t ^ 2 * (p.e1 ^ 2 / 2 + p.e1 * p.e2))) =O[𝓝 0] fun t : ℝ => t ^ 3 :=
    h.congr_left fun t => by ring
  refine ⟨ContinuousAt.log (by fun_prop) (by simp), ?_, h3⟩
  have up : (fun t : ℝ => t ^ 3) =O[𝓝 0] fun t => t ^ 2 :=
    isBigO_of_factor (g := fun t => t) 2 (Eventually.of_forall fun t => by ring) (by fun_prop)
  have q : (fun t : ℝ => t ^ 2 * (p.e1 ^ 2 / 2 + p.e1 * p.e2)) =O[𝓝 0] fun t => t ^ 2 :=
    isBigO_of_factor (g := fun _ => p.e1 ^ 2 / 2 + p.e1 * p.e2) 2 (Eventually.of_forall fun t => rfl)
      (by fun_prop)
  exact ((h3.trans up).add q).congr_left fun t => by ring

/-! ### The relations hold for the code's slow-roll parameters -/

/-- In a flat universe with `ε₂ ≠ 0`, whatever `φ, φ̇, φ̈, φ⃛` are, exactly one value of the fourth derivative makes
the cosmic-time parameters of the code satisfy the third-order relations with `ε₄ = 0`. -/
theorem C72_relations_T (N H dphi d2phi d3phi : ℝ) (hH : H ≠ 0) (hd : dphi ≠ 0)
    (hne : (T.srPoint N H dphi d2phi d3phi 0 0).e2 ≠ 0) :
    ∃! d4phi, FlatRelations3 (T.srPoint N H dphi d2phi d3phi d4phi 0) := by
  have hne' : ∀ d4, (T.srPoint N H dphi d2phi d3phi d4 0).e2 ≠ 0 := fun d4 => hne
  have hg3 : ∀ d4, (T.srPoint N H dphi d2phi d3phi d4 0).g3 = (T.srPoint N H dphi d2phi d3phi d4 0).e1 *
      (T.srPoint N H dphi d2phi d3phi d4 0).e2 * ((T.srPoint N H dphi d2phi d3phi d4 0).e2
        + (T.srPoint N H dphi d2phi d3phi d4 0).e3 - (T.srPoint N H dphi d2phi d3phi d4 0).e1) := by
    intro d4
    have r := (C55_flat_relations_T N H dphi d2phi d3phi d4 hH hd (hne' d4))
    have r2 := r.e2
    have r3 := r.e3
    have e : (T.srPoint N H dphi d2phi d3phi d4 0).e1 * (T.srPoint N H dphi d2phi d3phi d4 0).e2 *
        ((T.srPoint N H dphi d2phi d3phi d4 0).e2 + (T.srPoint N H dphi d2phi d3phi d4 0).e3
          - (T.srPoint N H dphi d2phi d3phi d4 0).e1) =
        (T.srPoint N H dphi d2phi d3phi d4 0).e1 * ((T.srPoint N H dphi d2phi d3phi d4 0).e2 *
          ((T.srPoint N H dphi d2phi d3phi d4 0).e2 - (T.srPoint N H dphi d2phi d3phi d4 0).e1)
          + (T.srPoint N H dphi d2phi d3phi d4 0).e2 * (T.srPoint N H dphi d2phi d3phi d4 0).e3) := by ring
    rw [e, r3, r2]
    simp only [T.srPoint, T.get_epsilon_1H, T.get_epsilon_3H_Gong, T.get_delta_1, T.get_delta_2, T.get_dH,
      T.get_d2H, T.get_d3H, zero_mul, mul_zero, add_zero, sub_zero]
    field_simp
    ring
  obtain ⟨q, hq⟩ : ∃ q, q = T.srPoint N H dphi d2phi d3phi 0 0 := ⟨_, rfl⟩
  have hp : ∀ d4, T.srPoint N H dphi d2phi d3phi d4 0 = { q with d3 := d4 / (H ^ 3 * dphi) } := fun d4 => by
    rw [hq]; simp only [T.srPoint, T.get_delta_3]
  obtain ⟨r, hr⟩ : ∃ r, r = (q.e2 * q.e3 ^ 2 - (16 * q.e1 ^ 2 * (q.e1 + q.d1) + 12 * q.e1 * (q.e1 + q.d1) * q.d1
    + 6 * q.e1 * (q.d2 + q.d1 * (q.e1 - q.d1)) + 2 * (q.d2 * (2 * q.e1 - q.d1))
    - 4 * q.d1 * (q.d2 + q.d1 * (q.e1 - q.d1)))) / 2 := ⟨_, rfl⟩
  refine ⟨r * (H ^ 3 * dphi), ⟨C55_flat_relations_T N H dphi d2phi d3phi _ hH hd (hne' _), ?_, hg3 _⟩, ?_⟩
  · rw [hp]
    dsimp only
    rw [mul_div_assoc, div_self (by positivity), mul_one]
    linear_combination -2 * hr
  · intro d4 h4
    have := h4.e4
    rw [hp] at this
    dsimp only at this
    have h5 : d4 / (H ^ 3 * dphi) = r := by linear_combination -1 / 2 * this - hr
    rw [← h5, div_mul_cancel₀ _ (by positivity)]

/-- The same for e-folds: in a flat universe with `ε₂ ≠ 0`, whatever `φ', φ'', φ'''` are, exactly one value of the fourth derivative makes
the e-fold parameters of the code satisfy the third-order relations with `ε₄ = 0`. -/
theorem C72_relations_N (x H dphi d2phi d3phi : ℝ) (hH : H ≠ 0) (hd : dphi ≠ 0)
    (hne : (N.srPoint x H dphi d2phi d3phi 0 0).e2 ≠ 0) :
    ∃! d4phi, FlatRelations3 (N.srPoint x H dphi d2phi d3phi d4phi 0) := by
  have hne' : ∀ d4, (N.srPoint x H dphi d2phi d3phi d4 0).e2 ≠ 0 := fun d4 => hne
  have hg3 : ∀ d4, (N.srPoint x H dphi d2phi d3phi d4 0).g3 = (N.srPoint x H dphi d2phi d3phi d4 0).e1 *
      (N.srPoint x H dphi d2phi d3phi d4 0).e2 * ((N.srPoint x H dphi d2phi d3phi d4 0).e2
        + (N.srPoint x H dphi d2phi d3phi d4 0).e3 - (N.srPoint x H dphi d2phi d3phi d4 0).e1) := by
    intro d4
    have r := (C55_flat_relations_N x H dphi d2phi d3phi d4 hH hd (hne' d4))
    have r2 := r.e2
    have r3 := r.e3
    have e : (N.srPoint x H dphi d2phi d3phi d4 0).e1 * (N.srPoint x H dphi d2phi d3phi d4 0).e2 *
        ((N.srPoint x H dphi d2phi d3phi d4 0).e2 + (N.srPoint x H dphi d2phi d3phi d4 0).e3
          - (N.srPoint x H dphi d2phi d3phi d4 0).e1) =
        (N.srPoint x H dphi d2phi d3phi d4 0).e1 * ((N.srPoint x H dphi d2phi d3phi d4 0).e2 *
          ((N.srPoint x H dphi d2phi d3phi d4 0).e2 - (N.srPoint x H dphi d2phi d3phi d4 0).e1)
          + (N.srPoint x H dphi d2phi d3phi d4 0).e2 * (N.srPoint x H dphi d2phi d3phi d4 0).e3) := by ring
    rw [e, r3, r2]
    simp only [N.srPoint, N.get_epsilon_1H, N.get_epsilon_3H_Gong, N.get_delta_1, N.get_delta_2, N.get_dH,
      N.get_d2H, N.get_d3H, zero_mul, zero_div, mul_zero, add_zero, sub_zero]
    field_simp
    ring
  obtain ⟨q, hq⟩ : ∃ q, q = N.srPoint x H dphi d2phi d3phi 0 0 := ⟨_, rfl⟩
  have hp : ∀ d4, N.srPoint x H dphi d2phi d3phi d4 0 = { q with d3 := q.d3 + d4 / dphi } := fun d4 => by
    rw [hq]; simp only [N.srPoint, N.get_delta_3, zero_div, SRPoint.mk.injEq, true_and, and_true]; ring
  obtain ⟨r, hr⟩ : ∃ r, r = (q.e2 * q.e3 ^ 2 - (16 * q.e1 ^ 2 * (q.e1 + q.d1) + 12 * q.e1 * (q.e1 + q.d1) * q.d1
    + 6 * q.e1 * (q.d2 + q.d1 * (q.e1 - q.d1)) + 2 * (q.d3 + q.d2 * (2 * q.e1 - q.d1))
    - 4 * q.d1 * (q.d2 + q.d1 * (q.e1 - q.d1)))) / 2 := ⟨_, rfl⟩
  refine ⟨r * dphi, ⟨C55_flat_relations_N x H dphi d2phi d3phi _ hH hd (hne' _), ?_, hg3 _⟩, ?_⟩
  · rw [hp]
    dsimp only
    rw [mul_div_assoc, div_self hd, mul_one]
    linear_combination -2 * hr
  · intro d4 h4
    have := h4.e4
    rw [hp] at this
    dsimp only at this
    have h5 : d4 / dphi = r := by linear_combination -1 / 2 * this - hr
    rw [← h5, div_mul_cancel₀ _ hd]

/-- A point with `ε₁ = 1/100`, `ε₂ = 1/50`, `ε₃ = 1/30`, `ε₄ = 0`. -/
noncomputable def demoPoint : SRPoint :=
  { H := 1, e1 := 1 / 100, e2 := 1 / 50, e3 := 1 / 30, d1 := 0, d2 := 1 / 7500, d3 := -1 / 281250
    g2 := 1 / 5000, g3 := 13 / 1500000 }

theorem demoPoint_rel : FlatRelations3 demoPoint := by
  refine ⟨⟨?_, ?_, ?_⟩, ?_, ?_⟩ <;> simp only [demoPoint] <;> norm_num

/-- Hypotheses met, and at this point the third-order methods disagree. -/
example : ¬ (fun t => arbdsS 3 (demoPoint.at t) (log (1 + t * demoPoint.e1
      + t ^ 2 * (demoPoint.e1 ^ 2 + demoPoint.e1 * demoPoint.e2))) - cgsS 3 (demoPoint.at t)) =O[𝓝 0]
    fun t => t ^ 4 := by
  refine (C72_not_third_order demoPoint demoPoint_rel _ (C72_shift demoPoint).1 (C72_shift demoPoint).2.2).1 ?_
  have hz : 0 ≤ zeta3 := tsum_nonneg fun n => by positivity
  simp only [gapS, demoPoint]
  norm_num
  nlinarith

end Primpy
