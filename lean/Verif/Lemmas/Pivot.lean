import Verif.Props.C55

/-!
# Polynomial bookkeeping for C71: the ARBDS coefficients along the Hubble flow

`d_c` is the derivative of the coefficient `c` along `ε₁' = ε₁ε₂`, `ε₂' = ε₂ε₃`, `ε₃' = ε₃ε₄`, expanded by a
script; `ring` checks each one.
-/

namespace Primpy.Pivot
open Real Asymptotics Filter Topology Approx

/-- derivative of `as0_1` along the flow -/
noncomputable def d_as0_1 (a1 a2 a3 a4 : ℝ) : ℝ :=
    ((1) * alpha) * (a2 * a3)
     + ((-2) + (2) * alpha) * (a1 * a2)

/-- derivative of `as1_1` along the flow -/
noncomputable def d_as1_1 (a1 a2 a3 a4 : ℝ) : ℝ :=
    ((-1)) * (a2 * a3)
     + ((-2)) * (a1 * a2)

/-- derivative of `as0_2` along the flow -/
noncomputable def d_as0_2 (a1 a2 a3 a4 : ℝ) : ℝ :=
    ((1 / 24) * π ^ 2 + (-1 / 2) * alpha ^ 2) * (a2 * a3 * a4)
     + ((1 / 24) * π ^ 2 + (-1 / 2) * alpha ^ 2) * (a2 * a3 ^ 2)
     + ((-2) + (1 / 4) * π ^ 2 + (1) * alpha ^ 2) * (a2 ^ 2 * a3)
     + ((-6) + (7 / 12) * π ^ 2 + (1) * alpha + (1) * alpha ^ 2) * (a1 * a2 * a3)
     + ((-6) + (7 / 12) * π ^ 2 + (1) * alpha + (1) * alpha ^ 2) * (a1 * a2 ^ 2)
     + ((-6) + (1) * π ^ 2 + (-4) * alpha + (4) * alpha ^ 2) * (a1 ^ 2 * a2)

/-- derivative of `as1_2` along the flow -/
noncomputable def d_as1_2 (a1 a2 a3 a4 : ℝ) : ℝ :=
    ((1) * alpha) * (a2 * a3 * a4)
     + ((1) * alpha) * (a2 * a3 ^ 2)
     + ((-2) * alpha) * (a2 ^ 2 * a3)
     + ((-1) + (-2) * alpha) * (a1 * a2 * a3)
     + ((-1) + (-2) * alpha) * (a1 * a2 ^ 2)
     + ((4) + (-8) * alpha) * (a1 ^ 2 * a2)

/-- derivative of `as2_2` along the flow -/
noncomputable def d_as2_2 (a1 a2 a3 a4 : ℝ) : ℝ :=
    ((-1 / 2)) * (a2 * a3 * a4)
     + ((-1 / 2)) * (a2 * a3 ^ 2)
     + ((1)) * (a2 ^ 2 * a3)
     + ((1)) * (a1 * a2 * a3)
     + ((1)) * (a1 * a2 ^ 2)
     + ((4)) * (a1 ^ 2 * a2)

/-- derivative of `as0_3` along the flow -/
noncomputable def d_as0_3 (a1 a2 a3 a4 : ℝ) : ℝ :=
    ((4 / 3) + (-2) * Z + (-1 / 12) * alpha * π ^ 2 + (1 / 3) * alpha ^ 3) * (a2 * a3 ^ 2 * a4)
     + ((2 / 3) + (-1) * Z + (-1 / 24) * alpha * π ^ 2 + (1 / 6) * alpha ^ 3) * (a2 * a3 ^ 3)
     + ((2) * alpha + (-5 / 24) * alpha * π ^ 2 + (-1 / 2) * alpha ^ 3) * (a2 ^ 2 * a3 * a4)
     + ((4) * alpha + (-5 / 12) * alpha * π ^ 2 + (-1) * alpha ^ 3) * (a2 ^ 2 * a3 ^ 2)
     + ((2) + (-3 / 4) * Z + (-3) * alpha + (3 / 8) * alpha * π ^ 2 + (1 / 2) * alpha ^ 3) * (a2 ^ 3 * a3)
     + ((-2 / 3) + (-2) * Z + (1 / 12) * π ^ 2 + (6) * alpha + (-1 / 2) * alpha * π ^ 2 + (-1) * alpha ^ 2 + (-2 / 3) * alpha ^ 3) * (a1 * a2 * a3 * a4)
     + ((-2 / 3) + (-2) * Z + (1 / 12) * π ^ 2 + (6) * alpha + (-1 / 2) * alpha * π ^ 2 + (-1) * alpha ^ 2 + (-2 / 3) * alpha ^ 3) * (a1 * a2 * a3 ^ 2)
     + ((-2) + (-9) * Z + (4 / 3) * π ^ 2 + (4) * alpha) * (a1 * a2 ^ 2 * a3)
     + ((-2 / 3) + (-7 / 2) * Z + (5 / 8) * π ^ 2 + (-1) * alpha + (1 / 4) * alpha * π ^ 2 + (1 / 2) * alpha ^ 2 + (1 / 3) * alpha ^ 3) * (a1 * a2 ^ 3)
     + ((-3) * Z + (13 / 12) * π ^ 2 + (-6) * alpha + (2 / 3) * alpha * π ^ 2 + (3) * alpha ^ 2) * (a1 ^ 2 * a2 * a3)
     + ((-6) * Z + (13 / 6) * π ^ 2 + (-12) * alpha + (4 / 3) * alpha * π ^ 2 + (6) * alpha ^ 2) * (a1 ^ 2 * a2 ^ 2)
     + ((16) + (-6) * Z + (-24) * alpha + (3) * alpha * π ^ 2 + (4) * alpha ^ 3) * (a1 ^ 3 * a2)

/-- derivative of `as1_3` along the flow -/
noncomputable def d_as1_3 (a1 a2 a3 a4 : ℝ) : ℝ :=
    ((1 / 12) * π ^ 2 + (-1) * alpha ^ 2) * (a2 * a3 ^ 2 * a4)
     + ((1 / 24) * π ^ 2 + (-1 / 2) * alpha ^ 2) * (a2 * a3 ^ 3)
     + ((-2) + (5 / 24) * π ^ 2 + (3 / 2) * alpha ^ 2) * (a2 ^ 2 * a3 * a4)
     + ((-4) + (5 / 12) * π ^ 2 + (3) * alpha ^ 2) * (a2 ^ 2 * a3 ^ 2)
     + ((3) + (-3 / 8) * π ^ 2 + (-3 / 2) * alpha ^ 2) * (a2 ^ 3 * a3)
     + ((-6) + (1 / 2) * π ^ 2 + (2) * alpha + (2) * alpha ^ 2) * (a1 * a2 * a3 * a4)
     + ((-6) + (1 / 2) * π ^ 2 + (2) * alpha + (2) * alpha ^ 2) * (a1 * a2 * a3 ^ 2)
     + ((-4)) * (a1 * a2 ^ 2 * a3)
     + ((1) + (-1 / 4) * π ^ 2 + (-1) * alpha + (-1) * alpha ^ 2) * (a1 * a2 ^ 3)
     + ((6) + (-2 / 3) * π ^ 2 + (-6) * alpha) * (a1 ^ 2 * a2 * a3)
     + ((12) + (-4 / 3) * π ^ 2 + (-12) * alpha) * (a1 ^ 2 * a2 ^ 2)
     + ((24) + (-3) * π ^ 2 + (-12) * alpha ^ 2) * (a1 ^ 3 * a2)

/-- derivative of `as2_3` along the flow -/
noncomputable def d_as2_3 (a1 a2 a3 a4 : ℝ) : ℝ :=
    ((1) * alpha) * (a2 * a3 ^ 2 * a4)
     + ((1 / 2) * alpha) * (a2 * a3 ^ 3)
     + ((-3 / 2) * alpha) * (a2 ^ 2 * a3 * a4)
     + ((-3) * alpha) * (a2 ^ 2 * a3 ^ 2)
     + ((3 / 2) * alpha) * (a2 ^ 3 * a3)
     + ((-1) + (-2) * alpha) * (a1 * a2 * a3 * a4)
     + ((-1) + (-2) * alpha) * (a1 * a2 * a3 ^ 2)
     + ((1 / 2) + (1) * alpha) * (a1 * a2 ^ 3)
     + ((3)) * (a1 ^ 2 * a2 * a3)
     + ((6)) * (a1 ^ 2 * a2 ^ 2)
     + ((12) * alpha) * (a1 ^ 3 * a2)

/-- derivative of `as3_3` along the flow -/
noncomputable def d_as3_3 (a1 a2 a3 a4 : ℝ) : ℝ :=
    ((-1 / 3)) * (a2 * a3 ^ 2 * a4)
     + ((-1 / 6)) * (a2 * a3 ^ 3)
     + ((1 / 2)) * (a2 ^ 2 * a3 * a4)
     + ((1)) * (a2 ^ 2 * a3 ^ 2)
     + ((-1 / 2)) * (a2 ^ 3 * a3)
     + ((2 / 3)) * (a1 * a2 * a3 * a4)
     + ((2 / 3)) * (a1 * a2 * a3 ^ 2)
     + ((-1 / 3)) * (a1 * a2 ^ 3)
     + ((-4)) * (a1 ^ 3 * a2)

/-- derivative of `at0_1` along the flow -/
noncomputable def d_at0_1 (a1 a2 a3 a4 : ℝ) : ℝ :=
    ((-2) + (2) * alpha) * (a1 * a2)

/-- derivative of `at1_1` along the flow -/
noncomputable def d_at1_1 (a1 a2 a3 a4 : ℝ) : ℝ :=
    ((-2)) * (a1 * a2)

/-- derivative of `at0_2` along the flow -/
noncomputable def d_at0_2 (a1 a2 a3 a4 : ℝ) : ℝ :=
    ((-2) + (1 / 12) * π ^ 2 + (2) * alpha + (-1) * alpha ^ 2) * (a1 * a2 * a3)
     + ((-2) + (1 / 12) * π ^ 2 + (2) * alpha + (-1) * alpha ^ 2) * (a1 * a2 ^ 2)
     + ((-6) + (1) * π ^ 2 + (-4) * alpha + (4) * alpha ^ 2) * (a1 ^ 2 * a2)

/-- derivative of `at1_2` along the flow -/
noncomputable def d_at1_2 (a1 a2 a3 a4 : ℝ) : ℝ :=
    ((-2) + (2) * alpha) * (a1 * a2 * a3)
     + ((-2) + (2) * alpha) * (a1 * a2 ^ 2)
     + ((4) + (-8) * alpha) * (a1 ^ 2 * a2)

/-- derivative of `at2_2` along the flow -/
noncomputable def d_at2_2 (a1 a2 a3 a4 : ℝ) : ℝ :=
    ((-1)) * (a1 * a2 * a3)
     + ((-1)) * (a1 * a2 ^ 2)
     + ((4)) * (a1 ^ 2 * a2)

/-- derivative of `at0_3` along the flow -/
noncomputable def d_at0_3 (a1 a2 a3 a4 : ℝ) : ℝ :=
    ((-2 / 3) + (-2) * Z + (1 / 12) * π ^ 2 + (2) * alpha + (-1 / 12) * alpha * π ^ 2 + (-1) * alpha ^ 2 + (1 / 3) * alpha ^ 3) * (a1 * a2 * a3 * a4)
     + ((-2 / 3) + (-2) * Z + (1 / 12) * π ^ 2 + (2) * alpha + (-1 / 12) * alpha * π ^ 2 + (-1) * alpha ^ 2 + (1 / 3) * alpha ^ 3) * (a1 * a2 * a3 ^ 2)
     + ((-2) + (-6) * Z + (1 / 4) * π ^ 2 + (6) * alpha + (-1 / 4) * alpha * π ^ 2 + (-3) * alpha ^ 2 + (1) * alpha ^ 3) * (a1 * a2 ^ 2 * a3)
     + ((-2 / 3) + (-2) * Z + (1 / 12) * π ^ 2 + (2) * alpha + (-1 / 12) * alpha * π ^ 2 + (-1) * alpha ^ 2 + (1 / 3) * alpha ^ 3) * (a1 * a2 ^ 3)
     + ((-8) + (13 / 12) * π ^ 2 + (6) * alpha + (-5 / 6) * alpha * π ^ 2 + (3) * alpha ^ 2 + (-2) * alpha ^ 3) * (a1 ^ 2 * a2 * a3)
     + ((-16) + (13 / 6) * π ^ 2 + (12) * alpha + (-5 / 3) * alpha * π ^ 2 + (6) * alpha ^ 2 + (-4) * alpha ^ 3) * (a1 ^ 2 * a2 ^ 2)
     + ((16) + (-6) * Z + (-24) * alpha + (3) * alpha * π ^ 2 + (4) * alpha ^ 3) * (a1 ^ 3 * a2)

/-- derivative of `at1_3` along the flow -/
noncomputable def d_at1_3 (a1 a2 a3 a4 : ℝ) : ℝ :=
    ((-2) + (1 / 12) * π ^ 2 + (2) * alpha + (-1) * alpha ^ 2) * (a1 * a2 * a3 * a4)
     + ((-2) + (1 / 12) * π ^ 2 + (2) * alpha + (-1) * alpha ^ 2) * (a1 * a2 * a3 ^ 2)
     + ((-6) + (1 / 4) * π ^ 2 + (6) * alpha + (-3) * alpha ^ 2) * (a1 * a2 ^ 2 * a3)
     + ((-2) + (1 / 12) * π ^ 2 + (2) * alpha + (-1) * alpha ^ 2) * (a1 * a2 ^ 3)
     + ((-6) + (5 / 6) * π ^ 2 + (-6) * alpha + (6) * alpha ^ 2) * (a1 ^ 2 * a2 * a3)
     + ((-12) + (5 / 3) * π ^ 2 + (-12) * alpha + (12) * alpha ^ 2) * (a1 ^ 2 * a2 ^ 2)
     + ((24) + (-3) * π ^ 2 + (-12) * alpha ^ 2) * (a1 ^ 3 * a2)

/-- derivative of `at2_3` along the flow -/
noncomputable def d_at2_3 (a1 a2 a3 a4 : ℝ) : ℝ :=
    ((-1) + (1) * alpha) * (a1 * a2 * a3 * a4)
     + ((-1) + (1) * alpha) * (a1 * a2 * a3 ^ 2)
     + ((-3) + (3) * alpha) * (a1 * a2 ^ 2 * a3)
     + ((-1) + (1) * alpha) * (a1 * a2 ^ 3)
     + ((3) + (-6) * alpha) * (a1 ^ 2 * a2 * a3)
     + ((6) + (-12) * alpha) * (a1 ^ 2 * a2 ^ 2)
     + ((12) * alpha) * (a1 ^ 3 * a2)

/-- derivative of `at3_3` along the flow -/
noncomputable def d_at3_3 (a1 a2 a3 a4 : ℝ) : ℝ :=
    ((-1 / 3)) * (a1 * a2 * a3 * a4)
     + ((-1 / 3)) * (a1 * a2 * a3 ^ 2)
     + ((-1)) * (a1 * a2 ^ 2 * a3)
     + ((-1 / 3)) * (a1 * a2 ^ 3)
     + ((2)) * (a1 ^ 2 * a2 * a3)
     + ((4)) * (a1 ^ 2 * a2 ^ 2)
     + ((-4)) * (a1 ^ 3 * a2)

theorem hasDeriv_as0_1 {H e1 e2 e3 : ℝ → ℝ} {N t a1 a2 a3 a4 : ℝ} (h : HubbleFlow H e1 e2 e3 N (t * a4))
    (h1 : e1 N = t * a1) (h2 : e2 N = t * a2) (h3 : e3 N = t * a3) :
    HasDerivAt (fun x => as0_1 (flowPoint H e1 e2 e3 x)) (t ^ 2 * d_as0_1 a1 a2 a3 a4) N := by
  have g1 := h.e1
  have g2 := h.e2
  have g3 := h.e3
  rw [h1, h2] at g1
  rw [h2, h3] at g2
  rw [h3] at g3
  simp only [as0_1, flowPoint]
  refine HasDerivAt.congr_deriv (by
    repeat' first
      | exact hasDerivAt_const _ _
      | exact g1
      | exact g2
      | exact g3
      | with_reducible apply HasDerivAt.fun_pow
      | with_reducible apply HasDerivAt.fun_add
      | with_reducible apply HasDerivAt.fun_sub
      | with_reducible apply HasDerivAt.fun_mul
      | with_reducible apply HasDerivAt.fun_neg
      | with_reducible apply HasDerivAt.div_const) ?_
  simp only [d_as0_1, h1, h2, h3]
  push_cast
  ring

theorem scale_as0_1 (H t a1 a2 a3 : ℝ) : as0_1 { H := H, e1 := t * a1, e2 := t * a2, e3 := t * a3 } =
    1 + t * (as0_1 { H := 1, e1 := a1, e2 := a2, e3 := a3 } - 1) := by
  simp only [as0_1]
  ring

theorem hasDeriv_as1_1 {H e1 e2 e3 : ℝ → ℝ} {N t a1 a2 a3 a4 : ℝ} (h : HubbleFlow H e1 e2 e3 N (t * a4))
    (h1 : e1 N = t * a1) (h2 : e2 N = t * a2) (h3 : e3 N = t * a3) :
    HasDerivAt (fun x => as1_1 (flowPoint H e1 e2 e3 x)) (t ^ 2 * d_as1_1 a1 a2 a3 a4) N := by
  have g1 := h.e1
  have g2 := h.e2
  have g3 := h.e3
  rw [h1, h2] at g1
  rw [h2, h3] at g2
  rw [h3] at g3
  simp only [as1_1, flowPoint]
  refine HasDerivAt.congr_deriv (by
    repeat' first
      | exact hasDerivAt_const _ _
      | exact g1
      | exact g2
      | exact g3
      | with_reducible apply HasDerivAt.fun_pow
      | with_reducible apply HasDerivAt.fun_add
      | with_reducible apply HasDerivAt.fun_sub
      | with_reducible apply HasDerivAt.fun_mul
      | with_reducible apply HasDerivAt.fun_neg
      | with_reducible apply HasDerivAt.div_const) ?_
  simp only [d_as1_1, h1, h2, h3]
  push_cast
  ring

theorem scale_as1_1 (H t a1 a2 a3 : ℝ) : as1_1 { H := H, e1 := t * a1, e2 := t * a2, e3 := t * a3 } =
    t ^ 1 * as1_1 { H := 1, e1 := a1, e2 := a2, e3 := a3 } := by
  simp only [as1_1]
  ring

theorem hasDeriv_as0_2 {H e1 e2 e3 : ℝ → ℝ} {N t a1 a2 a3 a4 : ℝ} (h : HubbleFlow H e1 e2 e3 N (t * a4))
    (h1 : e1 N = t * a1) (h2 : e2 N = t * a2) (h3 : e3 N = t * a3) :
    HasDerivAt (fun x => as0_2 (flowPoint H e1 e2 e3 x)) (t ^ 3 * d_as0_2 a1 a2 a3 a4) N := by
  have g1 := h.e1
  have g2 := h.e2
  have g3 := h.e3
  rw [h1, h2] at g1
  rw [h2, h3] at g2
  rw [h3] at g3
  simp only [as0_2, flowPoint]
  refine HasDerivAt.congr_deriv (by
    repeat' first
      | exact hasDerivAt_const _ _
      | exact g1
      | exact g2
      | exact g3
      | with_reducible apply HasDerivAt.fun_pow
      | with_reducible apply HasDerivAt.fun_add
      | with_reducible apply HasDerivAt.fun_sub
      | with_reducible apply HasDerivAt.fun_mul
      | with_reducible apply HasDerivAt.fun_neg
      | with_reducible apply HasDerivAt.div_const) ?_
  simp only [d_as0_2, h1, h2, h3]
  push_cast
  ring

theorem scale_as0_2 (H t a1 a2 a3 : ℝ) : as0_2 { H := H, e1 := t * a1, e2 := t * a2, e3 := t * a3 } =
    t ^ 2 * as0_2 { H := 1, e1 := a1, e2 := a2, e3 := a3 } := by
  simp only [as0_2]
  ring

theorem hasDeriv_as1_2 {H e1 e2 e3 : ℝ → ℝ} {N t a1 a2 a3 a4 : ℝ} (h : HubbleFlow H e1 e2 e3 N (t * a4))
    (h1 : e1 N = t * a1) (h2 : e2 N = t * a2) (h3 : e3 N = t * a3) :
    HasDerivAt (fun x => as1_2 (flowPoint H e1 e2 e3 x)) (t ^ 3 * d_as1_2 a1 a2 a3 a4) N := by
  have g1 := h.e1
  have g2 := h.e2
  have g3 := h.e3
  rw [h1, h2] at g1
  rw [h2, h3] at g2
  rw [h3] at g3
  simp only [as1_2, flowPoint]
  refine HasDerivAt.congr_deriv (by
    repeat' first
      | exact hasDerivAt_const _ _
      | exact g1
      | exact g2
      | exact g3
      | with_reducible apply HasDerivAt.fun_pow
      | with_reducible apply HasDerivAt.fun_add
      | with_reducible apply HasDerivAt.fun_sub
      | with_reducible apply HasDerivAt.fun_mul
      | with_reducible apply HasDerivAt.fun_neg
      | with_reducible apply HasDerivAt.div_const) ?_
  simp only [d_as1_2, h1, h2, h3]
  push_cast
  ring

theorem scale_as1_2 (H t a1 a2 a3 : ℝ) : as1_2 { H := H, e1 := t * a1, e2 := t * a2, e3 := t * a3 } =
    t ^ 2 * as1_2 { H := 1, e1 := a1, e2 := a2, e3 := a3 } := by
  simp only [as1_2]
  ring

theorem hasDeriv_as2_2 {H e1 e2 e3 : ℝ → ℝ} {N t a1 a2 a3 a4 : ℝ} (h : HubbleFlow H e1 e2 e3 N (t * a4))
    (h1 : e1 N = t * a1) (h2 : e2 N = t * a2) (h3 : e3 N = t * a3) :
    HasDerivAt (fun x => as2_2 (flowPoint H e1 e2 e3 x)) (t ^ 3 * d_as2_2 a1 a2 a3 a4) N := by
  have g1 := h.e1
  have g2 := h.e2
  have g3 := h.e3
  rw [h1, h2] at g1
  rw [h2, h3] at g2
  rw [h3] at g3
  simp only [as2_2, flowPoint]
  refine HasDerivAt.congr_deriv (by
    repeat' first
      | exact hasDerivAt_const _ _
      | exact g1
      | exact g2
      | exact g3
      | with_reducible apply HasDerivAt.fun_pow
      | with_reducible apply HasDerivAt.fun_add
      | with_reducible apply HasDerivAt.fun_sub
      | with_reducible apply HasDerivAt.fun_mul
      | with_reducible apply HasDerivAt.fun_neg
      | with_reducible apply HasDerivAt.div_const) ?_
  simp only [d_as2_2, h1, h2, h3]
  push_cast
  ring

theorem scale_as2_2 (H t a1 a2 a3 : ℝ) : as2_2 { H := H, e1 := t * a1, e2 := t * a2, e3 := t * a3 } =
    t ^ 2 * as2_2 { H := 1, e1 := a1, e2 := a2, e3 := a3 } := by
  simp only [as2_2]
  ring

theorem hasDeriv_as0_3 {H e1 e2 e3 : ℝ → ℝ} {N t a1 a2 a3 a4 : ℝ} (h : HubbleFlow H e1 e2 e3 N (t * a4))
    (h1 : e1 N = t * a1) (h2 : e2 N = t * a2) (h3 : e3 N = t * a3) :
    HasDerivAt (fun x => as0_3 (flowPoint H e1 e2 e3 x)) (t ^ 4 * d_as0_3 a1 a2 a3 a4) N := by
  have g1 := h.e1
  have g2 := h.e2
  have g3 := h.e3
  rw [h1, h2] at g1
  rw [h2, h3] at g2
  rw [h3] at g3
  simp only [as0_3, flowPoint]
  refine HasDerivAt.congr_deriv (by
    repeat' first
      | exact hasDerivAt_const _ _
      | exact g1
      | exact g2
      | exact g3
      | with_reducible apply HasDerivAt.fun_pow
      | with_reducible apply HasDerivAt.fun_add
      | with_reducible apply HasDerivAt.fun_sub
      | with_reducible apply HasDerivAt.fun_mul
      | with_reducible apply HasDerivAt.fun_neg
      | with_reducible apply HasDerivAt.div_const) ?_
  simp only [d_as0_3, h1, h2, h3]
  push_cast
  ring

theorem scale_as0_3 (H t a1 a2 a3 : ℝ) : as0_3 { H := H, e1 := t * a1, e2 := t * a2, e3 := t * a3 } =
    t ^ 3 * as0_3 { H := 1, e1 := a1, e2 := a2, e3 := a3 } := by
  simp only [as0_3]
  ring

theorem hasDeriv_as1_3 {H e1 e2 e3 : ℝ → ℝ} {N t a1 a2 a3 a4 : ℝ} (h : HubbleFlow H e1 e2 e3 N (t * a4))
    (h1 : e1 N = t * a1) (h2 : e2 N = t * a2) (h3 : e3 N = t * a3) :
    HasDerivAt (fun x => as1_3 (flowPoint H e1 e2 e3 x)) (t ^ 4 * d_as1_3 a1 a2 a3 a4) N := by
  have g1 := h.e1
  have g2 := h.e2
  have g3 := h.e3
  rw [h1, h2] at g1
  rw [h2, h3] at g2
  rw [h3] at g3
  simp only [as1_3, flowPoint]
  refine HasDerivAt.congr_deriv (by
    repeat' first
      | exact hasDerivAt_const _ _
      | exact g1
      | exact g2
      | exact g3
      | with_reducible apply HasDerivAt.fun_pow
      | with_reducible apply HasDerivAt.fun_add
      | with_reducible apply HasDerivAt.fun_sub
      | with_reducible apply HasDerivAt.fun_mul
      | with_reducible apply HasDerivAt.fun_neg
      | with_reducible apply HasDerivAt.div_const) ?_
  simp only [d_as1_3, h1, h2, h3]
  push_cast
  ring

theorem scale_as1_3 (H t a1 a2 a3 : ℝ) : as1_3 { H := H, e1 := t * a1, e2 := t * a2, e3 := t * a3 } =
    t ^ 3 * as1_3 { H := 1, e1 := a1, e2 := a2, e3 := a3 } := by
  simp only [as1_3]
  ring

theorem hasDeriv_as2_3 {H e1 e2 e3 : ℝ → ℝ} {N t a1 a2 a3 a4 : ℝ} (h : HubbleFlow H e1 e2 e3 N (t * a4))
    (h1 : e1 N = t * a1) (h2 : e2 N = t * a2) (h3 : e3 N = t * a3) :
    HasDerivAt (fun x => as2_3 (flowPoint H e1 e2 e3 x)) (t ^ 4 * d_as2_3 a1 a2 a3 a4) N := by
  have g1 := h.e1
  have g2 := h.e2
  have g3 := h.e3
  rw [h1, h2] at g1
  rw [h2, h3] at g2
  rw [h3] at g3
  simp only [as2_3, flowPoint]
  refine HasDerivAt.congr_deriv (by
    repeat' first
      | exact hasDerivAt_const _ _
      | exact g1
      | exact g2
      | exact g3
      | with_reducible apply HasDerivAt.fun_pow
      | with_reducible apply HasDerivAt.fun_add
      | with_reducible apply HasDerivAt.fun_sub
      | with_reducible apply HasDerivAt.fun_mul
      | with_reducible apply HasDerivAt.fun_neg
      | with_reducible apply HasDerivAt.div_const) ?_
  simp only [d_as2_3, h1, h2, h3]
  push_cast
  ring

theorem scale_as2_3 (H t a1 a2 a3 : ℝ) : as2_3 { H := H, e1 := t * a1, e2 := t * a2, e3 := t * a3 } =
    t ^ 3 * as2_3 { H := 1, e1 := a1, e2 := a2, e3 := a3 } := by
  simp only [as2_3]
  ring

theorem hasDeriv_as3_3 {H e1 e2 e3 : ℝ → ℝ} {N t a1 a2 a3 a4 : ℝ} (h : HubbleFlow H e1 e2 e3 N (t * a4))
    (h1 : e1 N = t * a1) (h2 : e2 N = t * a2) (h3 : e3 N = t * a3) :
    HasDerivAt (fun x => as3_3 (flowPoint H e1 e2 e3 x)) (t ^ 4 * d_as3_3 a1 a2 a3 a4) N := by
  have g1 := h.e1
  have g2 := h.e2
  have g3 := h.e3
  rw [h1, h2] at g1
  rw [h2, h3] at g2
  rw [h3] at g3
  simp only [as3_3, flowPoint]
  refine HasDerivAt.congr_deriv (by
    repeat' first
      | exact hasDerivAt_const _ _
      | exact g1
      | exact g2
      | exact g3
      | with_reducible apply HasDerivAt.fun_pow
      | with_reducible apply HasDerivAt.fun_add
      | with_reducible apply HasDerivAt.fun_sub
      | with_reducible apply HasDerivAt.fun_mul
      | with_reducible apply HasDerivAt.fun_neg
      | with_reducible apply HasDerivAt.div_const) ?_
  simp only [d_as3_3, h1, h2, h3]
  push_cast
  ring

theorem scale_as3_3 (H t a1 a2 a3 : ℝ) : as3_3 { H := H, e1 := t * a1, e2 := t * a2, e3 := t * a3 } =
    t ^ 3 * as3_3 { H := 1, e1 := a1, e2 := a2, e3 := a3 } := by
  simp only [as3_3]
  ring

theorem hasDeriv_at0_1 {H e1 e2 e3 : ℝ → ℝ} {N t a1 a2 a3 a4 : ℝ} (h : HubbleFlow H e1 e2 e3 N (t * a4))
    (h1 : e1 N = t * a1) (h2 : e2 N = t * a2) (h3 : e3 N = t * a3) :
    HasDerivAt (fun x => at0_1 (flowPoint H e1 e2 e3 x)) (t ^ 2 * d_at0_1 a1 a2 a3 a4) N := by
  have g1 := h.e1
  have g2 := h.e2
  have g3 := h.e3
  rw [h1, h2] at g1
  rw [h2, h3] at g2
  rw [h3] at g3
  simp only [at0_1, flowPoint]
  refine HasDerivAt.congr_deriv (by
    repeat' first
      | exact hasDerivAt_const _ _
      | exact g1
      | exact g2
      | exact g3
      | with_reducible apply HasDerivAt.fun_pow
      | with_reducible apply HasDerivAt.fun_add
      | with_reducible apply HasDerivAt.fun_sub
      | with_reducible apply HasDerivAt.fun_mul
      | with_reducible apply HasDerivAt.fun_neg
      | with_reducible apply HasDerivAt.div_const) ?_
  simp only [d_at0_1, h1, h2, h3]
  push_cast
  ring

theorem scale_at0_1 (H t a1 a2 a3 : ℝ) : at0_1 { H := H, e1 := t * a1, e2 := t * a2, e3 := t * a3 } =
    1 + t * (at0_1 { H := 1, e1 := a1, e2 := a2, e3 := a3 } - 1) := by
  simp only [at0_1]
  ring

theorem hasDeriv_at1_1 {H e1 e2 e3 : ℝ → ℝ} {N t a1 a2 a3 a4 : ℝ} (h : HubbleFlow H e1 e2 e3 N (t * a4))
    (h1 : e1 N = t * a1) (h2 : e2 N = t * a2) (h3 : e3 N = t * a3) :
    HasDerivAt (fun x => at1_1 (flowPoint H e1 e2 e3 x)) (t ^ 2 * d_at1_1 a1 a2 a3 a4) N := by
  have g1 := h.e1
  have g2 := h.e2
  have g3 := h.e3
  rw [h1, h2] at g1
  rw [h2, h3] at g2
  rw [h3] at g3
  simp only [at1_1, flowPoint]
  refine HasDerivAt.congr_deriv (by
    repeat' first
      | exact hasDerivAt_const _ _
      | exact g1
      | exact g2
      | exact g3
      | with_reducible apply HasDerivAt.fun_pow
      | with_reducible apply HasDerivAt.fun_add
      | with_reducible apply HasDerivAt.fun_sub
      | with_reducible apply HasDerivAt.fun_mul
      | with_reducible apply HasDerivAt.fun_neg
      | with_reducible apply HasDerivAt.div_const) ?_
  simp only [d_at1_1, h1, h2, h3]
  push_cast
  ring

theorem scale_at1_1 (H t a1 a2 a3 : ℝ) : at1_1 { H := H, e1 := t * a1, e2 := t * a2, e3 := t * a3 } =
    t ^ 1 * at1_1 { H := 1, e1 := a1, e2 := a2, e3 := a3 } := by
  simp only [at1_1]
  ring

theorem hasDeriv_at0_2 {H e1 e2 e3 : ℝ → ℝ} {N t a1 a2 a3 a4 : ℝ} (h : HubbleFlow H e1 e2 e3 N (t * a4))
    (h1 : e1 N = t * a1) (h2 : e2 N = t * a2) (h3 : e3 N = t * a3) :
    HasDerivAt (fun x => at0_2 (flowPoint H e1 e2 e3 x)) (t ^ 3 * d_at0_2 a1 a2 a3 a4) N := by
  have g1 := h.e1
  have g2 := h.e2
  have g3 := h.e3
  rw [h1, h2] at g1
  rw [h2, h3] at g2
  rw [h3] at g3
  simp only [at0_2, flowPoint]
  refine HasDerivAt.congr_deriv (by
    repeat' first
      | exact hasDerivAt_const _ _
      | exact g1
      | exact g2
      | exact g3
      | with_reducible apply HasDerivAt.fun_pow
      | with_reducible apply HasDerivAt.fun_add
      | with_reducible apply HasDerivAt.fun_sub
      | with_reducible apply HasDerivAt.fun_mul
      | with_reducible apply HasDerivAt.fun_neg
      | with_reducible apply HasDerivAt.div_const) ?_
  simp only [d_at0_2, h1, h2, h3]
  push_cast
  ring

theorem scale_at0_2 (H t a1 a2 a3 : ℝ) : at0_2 { H := H, e1 := t * a1, e2 := t * a2, e3 := t * a3 } =
    t ^ 2 * at0_2 { H := 1, e1 := a1, e2 := a2, e3 := a3 } := by
  simp only [at0_2]
  ring

theorem hasDeriv_at1_2 {H e1 e2 e3 : ℝ → ℝ} {N t a1 a2 a3 a4 : ℝ} (h : HubbleFlow H e1 e2 e3 N (t * a4))
    (h1 : e1 N = t * a1) (h2 : e2 N = t * a2) (h3 : e3 N = t * a3) :
    HasDerivAt (fun x => at1_2 (flowPoint H e1 e2 e3 x)) (t ^ 3 * d_at1_2 a1 a2 a3 a4) N := by
  have g1 := h.e1
  have g2 := h.e2
  have g3 := h.e3
  rw [h1, h2] at g1
  rw [h2, h3] at g2
  rw [h3] at g3
  simp only [at1_2, flowPoint]
  refine HasDerivAt.congr_deriv (by
    repeat' first
      | exact hasDerivAt_const _ _
      | exact g1
      | exact g2
      | exact g3
      | with_reducible apply HasDerivAt.fun_pow
      | with_reducible apply HasDerivAt.fun_add
      | with_reducible apply HasDerivAt.fun_sub
      | with_reducible apply HasDerivAt.fun_mul
      | with_reducible apply HasDerivAt.fun_neg
      | with_reducible apply HasDerivAt.div_const) ?_
  simp only [d_at1_2, h1, h2, h3]
  push_cast
  ring

theorem scale_at1_2 (H t a1 a2 a3 : ℝ) : at1_2 { H := H, e1 := t * a1, e2 := t * a2, e3 := t * a3 } =
    t ^ 2 * at1_2 { H := 1, e1 := a1, e2 := a2, e3 := a3 } := by
  simp only [at1_2]
  ring

theorem hasDeriv_at2_2 {H e1 e2 e3 : ℝ → ℝ} {N t a1 a2 a3 a4 : ℝ} (h : HubbleFlow H e1 e2 e3 N (t * a4))
    (h1 : e1 N = t * a1) (h2 : e2 N = t * a2) (h3 : e3 N = t * a3) :
    HasDerivAt (fun x => at2_2 (flowPoint H e1 e2 e3 x)) (t ^ 3 * d_at2_2 a1 a2 a3 a4) N := by
  have g1 := h.e1
  have g2 := h.e2
  have g3 := h.e3
  rw [h1, h2] at g1
  rw [h2, h3] at g2
  rw [h3] at g3
  simp only [at2_2, flowPoint]
  refine HasDerivAt.congr_deriv (by
    repeat' first
      | exact hasDerivAt_const _ _
      | exact g1
      | exact g2
      | exact g3
      | with_reducible apply HasDerivAt.fun_pow
      | with_reducible apply HasDerivAt.fun_add
      | with_reducible apply HasDerivAt.fun_sub
      | with_reducible apply HasDerivAt.fun_mul
      | with_reducible apply HasDerivAt.fun_neg
      | with_reducible apply HasDerivAt.div_const) ?_
  simp only [d_at2_2, h1, h2, h3]
  push_cast
  ring

theorem scale_at2_2 (H t a1 a2 a3 : ℝ) : at2_2 { H := H, e1 := t * a1, e2 := t * a2, e3 := t * a3 } =
    t ^ 2 * at2_2 { H := 1, e1 := a1, e2 := a2, e3 := a3 } := by
  simp only [at2_2]
  ring

theorem hasDeriv_at0_3 {H e1 e2 e3 : ℝ → ℝ} {N t a1 a2 a3 a4 : ℝ} (h : HubbleFlow H e1 e2 e3 N (t * a4))
    (h1 : e1 N = t * a1) (h2 : e2 N = t * a2) (h3 : e3 N = t * a3) :
    HasDerivAt (fun x => at0_3 (flowPoint H e1 e2 e3 x)) (t ^ 4 * d_at0_3 a1 a2 a3 a4) N := by
  have g1 := h.e1
  have g2 := h.e2
  have g3 := h.e3
  rw [h1, h2] at g1
  rw [h2, h3] at g2
  rw [h3] at g3
  simp only [at0_3, flowPoint]
  refine HasDerivAt.congr_deriv (by
    repeat' first
      | exact hasDerivAt_const _ _
      | exact g1
      | exact g2
      | exact g3
      | with_reducible apply HasDerivAt.fun_pow
      | with_reducible apply HasDerivAt.fun_add
      | with_reducible apply HasDerivAt.fun_sub
      | with_reducible apply HasDerivAt.fun_mul
      | with_reducible apply HasDerivAt.fun_neg
      | with_reducible apply HasDerivAt.div_const) ?_
  simp only [d_at0_3, h1, h2, h3]
  push_cast
  ring

theorem scale_at0_3 (H t a1 a2 a3 : ℝ) : at0_3 { H := H, e1 := t * a1, e2 := t * a2, e3 := t * a3 } =
    t ^ 3 * at0_3 { H := 1, e1 := a1, e2 := a2, e3 := a3 } := by
  simp only [at0_3]
  ring

theorem hasDeriv_at1_3 {H e1 e2 e3 : ℝ → ℝ} {N t a1 a2 a3 a4 : ℝ} (h : HubbleFlow H e1 e2 e3 N (t * a4))
    (h1 : e1 N = t * a1) (h2 : e2 N = t * a2) (h3 : e3 N = t * a3) :
    HasDerivAt (fun x => at1_3 (flowPoint H e1 e2 e3 x)) (t ^ 4 * d_at1_3 a1 a2 a3 a4) N := by
  have g1 := h.e1
  have g2 := h.e2
  have g3 := h.e3
  rw [h1, h2] at g1
  rw [h2, h3] at g2
  rw [h3] at g3
  simp only [at1_3, flowPoint]
  refine HasDerivAt.congr_deriv (by
    repeat' first
      | exact hasDerivAt_const _ _
      | exact g1
      | exact g2
      | exact g3
      | with_reducible apply HasDerivAt.fun_pow
      | with_reducible apply HasDerivAt.fun_add
      | with_reducible apply HasDerivAt.fun_sub
      | with_reducible apply HasDerivAt.fun_mul
      | with_reducible apply HasDerivAt.fun_neg
      | with_reducible apply HasDerivAt.div_const) ?_
  simp only [d_at1_3, h1, h2, h3]
  push_cast
  ring

theorem scale_at1_3 (H t a1 a2 a3 : ℝ) : at1_3 { H := H, e1 := t * a1, e2 := t * a2, e3 := t * a3 } =
    t ^ 3 * at1_3 { H := 1, e1 := a1, e2 := a2, e3 := a3 } := by
  simp only [at1_3]
  ring

theorem hasDeriv_at2_3 {H e1 e2 e3 : ℝ → ℝ} {N t a1 a2 a3 a4 : ℝ} (h : HubbleFlow H e1 e2 e3 N (t * a4))
    (h1 : e1 N = t * a1) (h2 : e2 N = t * a2) (h3 : e3 N = t * a3) :
    HasDerivAt (fun x => at2_3 (flowPoint H e1 e2 e3 x)) (t ^ 4 * d_at2_3 a1 a2 a3 a4) N := by
  have g1 := h.e1
  have g2 := h.e2
  have g3 := h.e3
  rw [h1, h2] at g1
  rw [h2, h3] at g2
  rw [h3] at g3
  simp only [at2_3, flowPoint]
  refine HasDerivAt.congr_deriv (by
    repeat' first
      | exact hasDerivAt_const _ _
      | exact g1
      | exact g2
      | exact g3
      | with_reducible apply HasDerivAt.fun_pow
      | with_reducible apply HasDerivAt.fun_add
      | with_reducible apply HasDerivAt.fun_sub
      | with_reducible apply HasDerivAt.fun_mul
      | with_reducible apply HasDerivAt.fun_neg
      | with_reducible apply HasDerivAt.div_const) ?_
  simp only [d_at2_3, h1, h2, h3]
  push_cast
  ring

theorem scale_at2_3 (H t a1 a2 a3 : ℝ) : at2_3 { H := H, e1 := t * a1, e2 := t * a2, e3 := t * a3 } =
    t ^ 3 * at2_3 { H := 1, e1 := a1, e2 := a2, e3 := a3 } := by
  simp only [at2_3]
  ring

theorem hasDeriv_at3_3 {H e1 e2 e3 : ℝ → ℝ} {N t a1 a2 a3 a4 : ℝ} (h : HubbleFlow H e1 e2 e3 N (t * a4))
    (h1 : e1 N = t * a1) (h2 : e2 N = t * a2) (h3 : e3 N = t * a3) :
    HasDerivAt (fun x => at3_3 (flowPoint H e1 e2 e3 x)) (t ^ 4 * d_at3_3 a1 a2 a3 a4) N := by
  have g1 := h.e1
  have g2 := h.e2
  have g3 := h.e3
  rw [h1, h2] at g1
  rw [h2, h3] at g2
  rw [h3] at g3
  simp only [at3_3, flowPoint]
  refine HasDerivAt.congr_deriv (by
    repeat' first
      | exact hasDerivAt_const _ _
      | exact g1
      | exact g2
      | exact g3
      | with_reducible apply HasDerivAt.fun_pow
      | with_reducible apply HasDerivAt.fun_add
      | with_reducible apply HasDerivAt.fun_sub
      | with_reducible apply HasDerivAt.fun_mul
      | with_reducible apply HasDerivAt.fun_neg
      | with_reducible apply HasDerivAt.div_const) ?_
  simp only [d_at3_3, h1, h2, h3]
  push_cast
  ring

theorem scale_at3_3 (H t a1 a2 a3 : ℝ) : at3_3 { H := H, e1 := t * a1, e2 := t * a2, e3 := t * a3 } =
    t ^ 3 * at3_3 { H := 1, e1 := a1, e2 := a2, e3 := a3 } := by
  simp only [at3_3]
  ring

end Primpy.Pivot
