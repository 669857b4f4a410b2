import Verif.Lemmas.SlowRollOrder
import Verif.Spec.Background
import Mathlib.Analysis.Calculus.Deriv.Mul
import Mathlib.Analysis.Calculus.Deriv.Inv
import Mathlib.Analysis.Calculus.Deriv.Add
import Mathlib.Analysis.SpecialFunctions.Log.Deriv

/-!
# Derivatives along the Hubble flow (C13)
-/

namespace Primpy
namespace SR
section
variable {a b c d e f x : ℝ → ℝ} {n : ℝ}

theorem hv (ha : HasDerivAt a (a n * b n) n) (hb : HasDerivAt b (b n * c n) n) (hx : HasDerivAt x (a n * b n * x n * x n) n) :
    HasDerivAt (fun n => a n * b n * x n) (v1 (a n) (b n) (c n) (x n)) n :=
  ((ha.fun_mul hb).fun_mul hx).congr_deriv (by simp only [v1]; ring)

theorem hv1 (ha : HasDerivAt a (a n * b n) n) (hb : HasDerivAt b (b n * c n) n) (hc : HasDerivAt c (c n * d n) n)
    (hx : HasDerivAt x (a n * b n * x n * x n) n) :
    HasDerivAt (fun n => v1 (a n) (b n) (c n) (x n)) (v2 (a n) (b n) (c n) (d n) (x n)) n := by
  have h := (hv ha hb hx).fun_mul ((hb.fun_add hc).fun_add (hv ha hb hx))
  exact h.congr_deriv (by simp only [v2])

theorem hv2 (ha : HasDerivAt a (a n * b n) n) (hb : HasDerivAt b (b n * c n) n) (hc : HasDerivAt c (c n * d n) n) (hd : HasDerivAt d (d n * e n) n)
    (hx : HasDerivAt x (a n * b n * x n * x n) n) :
    HasDerivAt (fun n => v2 (a n) (b n) (c n) (d n) (x n)) (v3 (a n) (b n) (c n) (d n) (e n) (x n)) n := by
  have h := ((hv1 ha hb hc hx).fun_mul ((hb.fun_add hc).fun_add (hv ha hb hx))).fun_add
    ((hv ha hb hx).fun_mul (((hb.fun_mul hc).fun_add (hc.fun_mul hd)).fun_add (hv1 ha hb hc hx)))
  exact h.congr_deriv (by simp only [v3]; ring)

theorem hs (hb : HasDerivAt b (b n * c n) n) (hx : HasDerivAt x (a n * b n * x n * x n) n) :
    HasDerivAt (fun n => s (b n) (x n)) (ds (a n) (b n) (c n) (x n)) n :=
  (((hb.fun_mul hx).div_const 2).const_add 1).congr_deriv (by simp only [ds]; ring)

theorem hds (ha : HasDerivAt a (a n * b n) n) (hb : HasDerivAt b (b n * c n) n) (hc : HasDerivAt c (c n * d n) n)
    (hx : HasDerivAt x (a n * b n * x n * x n) n) :
    HasDerivAt (fun n => ds (a n) (b n) (c n) (x n)) (d2s (a n) (b n) (c n) (d n) (x n)) n :=
  ((hx.fun_mul (((hv ha hb hx).fun_mul hb).fun_add (hb.fun_mul hc))).div_const 2).congr_deriv (by simp only [d2s, v1]; ring)

theorem hu0 (ha : HasDerivAt a (a n * b n) n) (hb : HasDerivAt b (b n * c n) n) (hc : HasDerivAt c (c n * d n) n)
    (hx : HasDerivAt x (a n * b n * x n * x n) n) :
    HasDerivAt (fun n => u0 (a n) (b n) (c n) (x n)) (du0 (a n) (b n) (c n) (d n) (x n)) n :=
  (((hb.div_const 2).fun_add hc).fun_add (hv ha hb hx)).congr_deriv (by simp only [du0])

theorem hdu0 (ha : HasDerivAt a (a n * b n) n) (hb : HasDerivAt b (b n * c n) n) (hc : HasDerivAt c (c n * d n) n) (hd : HasDerivAt d (d n * e n) n)
    (hx : HasDerivAt x (a n * b n * x n * x n) n) :
    HasDerivAt (fun n => du0 (a n) (b n) (c n) (d n) (x n)) (d2u0 (a n) (b n) (c n) (d n) (e n) (x n)) n :=
  ((((hb.fun_mul hc).div_const 2).fun_add (hc.fun_mul hd)).fun_add (hv1 ha hb hc hx)).congr_deriv (by simp only [d2u0]; ring)

theorem hd2u0 (ha : HasDerivAt a (a n * b n) n) (hb : HasDerivAt b (b n * c n) n) (hc : HasDerivAt c (c n * d n) n) (hd : HasDerivAt d (d n * e n) n)
    (he : HasDerivAt e (e n * f n) n) (hx : HasDerivAt x (a n * b n * x n * x n) n) :
    HasDerivAt (fun n => d2u0 (a n) (b n) (c n) (d n) (e n) (x n)) (d3u0 (a n) (b n) (c n) (d n) (e n) (f n) (x n)) n :=
  (((((hb.fun_mul hc).fun_mul (hc.fun_add hd)).div_const 2).fun_add ((hc.fun_mul hd).fun_mul (hd.fun_add he))).fun_add
    (hv2 ha hb hc hd hx)).congr_deriv (by simp only [d3u0]; ring)

theorem hu1 (ha : HasDerivAt a (a n * b n) n) (hb : HasDerivAt b (b n * c n) n) (hc : HasDerivAt c (c n * d n) n) (hd : HasDerivAt d (d n * e n) n)
    (hx : HasDerivAt x (a n * b n * x n * x n) n) :
    HasDerivAt (fun n => u1 (a n) (b n) (c n) (d n) (x n)) (du1 (a n) (b n) (c n) (d n) (e n) (x n)) n :=
  (((hv ha hb hx).fun_mul (hu0 ha hb hc hx)).fun_add (hdu0 ha hb hc hd hx)).congr_deriv (by simp only [du1])

theorem hdu1 (ha : HasDerivAt a (a n * b n) n) (hb : HasDerivAt b (b n * c n) n) (hc : HasDerivAt c (c n * d n) n) (hd : HasDerivAt d (d n * e n) n)
    (he : HasDerivAt e (e n * f n) n) (hx : HasDerivAt x (a n * b n * x n * x n) n) :
    HasDerivAt (fun n => du1 (a n) (b n) (c n) (d n) (e n) (x n)) (d2u1 (a n) (b n) (c n) (d n) (e n) (f n) (x n)) n :=
  ((((hv1 ha hb hc hx).fun_mul (hu0 ha hb hc hx)).fun_add ((hv ha hb hx).fun_mul (hdu0 ha hb hc hd hx))).fun_add
    (hd2u0 ha hb hc hd he hx)).congr_deriv (by simp only [d2u1]; ring)

theorem hu2 (ha : HasDerivAt a (a n * b n) n) (hb : HasDerivAt b (b n * c n) n) (hc : HasDerivAt c (c n * d n) n) (hd : HasDerivAt d (d n * e n) n)
    (he : HasDerivAt e (e n * f n) n) (hx : HasDerivAt x (a n * b n * x n * x n) n) :
    HasDerivAt (fun n => u2 (a n) (b n) (c n) (d n) (e n) (x n)) (du2 (a n) (b n) (c n) (d n) (e n) (f n) (x n)) n :=
  (((hv ha hb hx).fun_mul (hu1 ha hb hc hd hx)).fun_add (hdu1 ha hb hc hd he hx)).congr_deriv (by simp only [du2])

theorem hw (ha : HasDerivAt a (a n * b n) n) (hb : HasDerivAt b (b n * c n) n) (hc : HasDerivAt c (c n * d n) n)
    (hx : HasDerivAt x (a n * b n * x n * x n) n) :
    HasDerivAt (fun n => w (a n) (b n) (c n) (x n)) (x n * u1 (a n) (b n) (c n) (d n) (x n)) n :=
  ((hx.fun_mul (hu0 ha hb hc hx)).const_add 1).congr_deriv (by simp only [u1]; ring)

theorem hxu1 (ha : HasDerivAt a (a n * b n) n) (hb : HasDerivAt b (b n * c n) n) (hc : HasDerivAt c (c n * d n) n) (hd : HasDerivAt d (d n * e n) n)
    (hx : HasDerivAt x (a n * b n * x n * x n) n) :
    HasDerivAt (fun n => x n * u1 (a n) (b n) (c n) (d n) (x n)) (x n * u2 (a n) (b n) (c n) (d n) (e n) (x n)) n :=
  (hx.fun_mul (hu1 ha hb hc hd hx)).congr_deriv (by simp only [u2]; ring)

theorem hxu2 (ha : HasDerivAt a (a n * b n) n) (hb : HasDerivAt b (b n * c n) n) (hc : HasDerivAt c (c n * d n) n) (hd : HasDerivAt d (d n * e n) n)
    (he : HasDerivAt e (e n * f n) n) (hx : HasDerivAt x (a n * b n * x n * x n) n) :
    HasDerivAt (fun n => x n * u2 (a n) (b n) (c n) (d n) (e n) (x n)) (x n * u3 (a n) (b n) (c n) (d n) (e n) (f n) (x n)) n :=
  (hx.fun_mul (hu2 ha hb hc hd he hx)).congr_deriv (by simp only [u3]; ring)

/-- `y = 1/w` -/
theorem hy {y : ℝ → ℝ} (hyw : ∀ n, y n = (w (a n) (b n) (c n) (x n))⁻¹) (h0 : w (a n) (b n) (c n) (x n) ≠ 0)
    (ha : HasDerivAt a (a n * b n) n) (hb : HasDerivAt b (b n * c n) n) (hc : HasDerivAt c (c n * d n) n)
    (hx : HasDerivAt x (a n * b n * x n * x n) n) :
    HasDerivAt y (-(x n * u1 (a n) (b n) (c n) (d n) (x n)) * y n ^ 2) n := by
  have h := (hw ha hb hc hx).fun_inv h0
  rw [← funext hyw] at h
  exact h.congr_deriv (by rw [hyw]; field_simp)

theorem hk {y : ℝ → ℝ} (hy : HasDerivAt y (-(x n * u1 (a n) (b n) (c n) (d n) (x n)) * y n ^ 2) n)
    (ha : HasDerivAt a (a n * b n) n) (hb : HasDerivAt b (b n * c n) n) (hc : HasDerivAt c (c n * d n) n) (hd : HasDerivAt d (d n * e n) n)
    (hx : HasDerivAt x (a n * b n * x n * x n) n) :
    HasDerivAt (fun n => k (a n) (b n) (c n) (d n) (x n) (y n)) (dk (a n) (b n) (c n) (d n) (e n) (x n) (y n)) n :=
  (hc.fun_add ((hxu1 ha hb hc hd hx).fun_mul hy)).congr_deriv (by simp only [dk]; ring)

theorem hdk {y : ℝ → ℝ} (hy : HasDerivAt y (-(x n * u1 (a n) (b n) (c n) (d n) (x n)) * y n ^ 2) n)
    (ha : HasDerivAt a (a n * b n) n) (hb : HasDerivAt b (b n * c n) n) (hc : HasDerivAt c (c n * d n) n) (hd : HasDerivAt d (d n * e n) n)
    (he : HasDerivAt e (e n * f n) n) (hx : HasDerivAt x (a n * b n * x n * x n) n) :
    HasDerivAt (fun n => dk (a n) (b n) (c n) (d n) (e n) (x n) (y n)) (d2k (a n) (b n) (c n) (d n) (e n) (f n) (x n) (y n)) n :=
  (((hc.fun_mul hd).fun_add ((hxu2 ha hb hc hd he hx).fun_mul hy)).fun_sub
    (((hxu1 ha hb hc hd hx).fun_pow 2).fun_mul (hy.fun_pow 2))).congr_deriv (by simp only [d2k]; push_cast; ring)

theorem hdE3 {y : ℝ → ℝ} (hy : HasDerivAt y (-(x n * u1 (a n) (b n) (c n) (d n) (x n)) * y n ^ 2) n)
    (ha : HasDerivAt a (a n * b n) n) (hb : HasDerivAt b (b n * c n) n) (hc : HasDerivAt c (c n * d n) n) (hd : HasDerivAt d (d n * e n) n)
    (hx : HasDerivAt x (a n * b n * x n * x n) n) :
    HasDerivAt (fun n => E3 (a n) (b n) (c n) (d n) (x n) (y n)) (dE3 (a n) (b n) (c n) (d n) (e n) (x n) (y n)) n :=
  ((hs hb hx).fun_mul (hk hy ha hb hc hd hx)).congr_deriv (by simp only [dE3])

/-- `s dP/dN = ε₃V ε₄V (ε₄V + ε₅V)` for `P = ε₃V ε₄V` -/
theorem hdE34 {y : ℝ → ℝ} (hy : HasDerivAt y (-(x n * u1 (a n) (b n) (c n) (d n) (x n)) * y n ^ 2) n)
    (ha : HasDerivAt a (a n * b n) n) (hb : HasDerivAt b (b n * c n) n) (hc : HasDerivAt c (c n * d n) n) (hd : HasDerivAt d (d n * e n) n)
    (he : HasDerivAt e (e n * f n) n) (hx : HasDerivAt x (a n * b n * x n * x n) n) (h0 : s (b n) (x n) ≠ 0) :
    HasDerivAt (fun n => E34 (a n) (b n) (c n) (d n) (e n) (x n) (y n)) (E345 (a n) (b n) (c n) (d n) (e n) (f n) (x n) (y n) / s (b n) (x n)) n := by
  have h := (hs hb hx).fun_mul (((hds ha hb hc hx).fun_mul (hk hy ha hb hc hd hx)).fun_add ((hs hb hx).fun_mul (hdk hy ha hb hc hd he hx)))
  refine h.congr_deriv ?_
  simp only [E345, dE3]
  field_simp
  ring
end
end SR
end Primpy
