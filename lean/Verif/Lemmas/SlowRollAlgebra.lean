import Mathlib.Tactic.Ring
import Mathlib.Tactic.LinearCombination
import Mathlib.Data.Real.Basic

/-!
# Polynomial identities for C13

Generated (tools/c13).  `a, b, c, d, e, f` are the Hubble-flow parameters `ε₁ … ε₆`, `x = 1/(3 - ε₁)`, `y = 1/w`, `σ = s - 1`.
-/

namespace Primpy
namespace SR
noncomputable section

/-- `√(ε₁V/ε₁)`, i.e. the ratio of potential to true e-folds, and its first two derivatives along the flow -/
def s (b x : ℝ) : ℝ := 1 + b*x/2
def ds (a b c x : ℝ) : ℝ := x*(a*b*x*b + b*c)/2
def d2s (a b c d x : ℝ) : ℝ := x*(a*b*x*(a*b*x*b + b*c) + (a*b*x*(b + c + a*b*x)*b + a*b*x*(b*c) + b*c*(c + d)))/2

/-- `ε₂V/ε₂ = w = 1 + x u₀`, its derivatives `x u₁, x u₂, x u₃` -/
def u0 (a b c x : ℝ) : ℝ := b/2 + c + a*b*x
def v1 (a b c x : ℝ) : ℝ := a*b*x*(b + c + a*b*x)
def v2 (a b c d x : ℝ) : ℝ := v1 a b c x*(b + c + a*b*x) + a*b*x*(b*c + c*d + v1 a b c x)
def v3 (a b c d e x : ℝ) : ℝ := v2 a b c d x*(b + c + a*b*x) + 2*v1 a b c x*(b*c + c*d + v1 a b c x) + a*b*x*(b*c*(c + d) + c*d*(d + e) + v2 a b c d x)
def w (a b c x : ℝ) : ℝ := 1 + x*u0 a b c x
def du0 (a b c d x : ℝ) : ℝ := b*c/2 + c*d + v1 a b c x
def d2u0 (a b c d e x : ℝ) : ℝ := b*c*(c + d)/2 + c*d*(d + e) + v2 a b c d x
def d3u0 (a b c d e f x : ℝ) : ℝ := b*c*((c + d)^2 + c*d + d*e)/2 + c*d*((d + e)^2 + d*e + e*f) + v3 a b c d e x
def u1 (a b c d x : ℝ) : ℝ := a*b*x*u0 a b c x + du0 a b c d x
def du1 (a b c d e x : ℝ) : ℝ := v1 a b c x*u0 a b c x + a*b*x*du0 a b c d x + d2u0 a b c d e x
def d2u1 (a b c d e f x : ℝ) : ℝ := v2 a b c d x*u0 a b c x + 2*v1 a b c x*du0 a b c d x + a*b*x*d2u0 a b c d e x + d3u0 a b c d e f x
def u2 (a b c d e x : ℝ) : ℝ := a*b*x*u1 a b c d x + du1 a b c d e x
def du2 (a b c d e f x : ℝ) : ℝ := v1 a b c x*u1 a b c d x + a*b*x*du1 a b c d e x + d2u1 a b c d e f x
def u3 (a b c d e f x : ℝ) : ℝ := a*b*x*u2 a b c d e x + du2 a b c d e f x

/-- `ε₃V = s k` and the derivatives of `k` -/
def k (a b c d x y : ℝ) : ℝ := c + x*u1 a b c d x*y
def dk (a b c d e x y : ℝ) : ℝ := c*d + x*u2 a b c d e x*y - (x*u1 a b c d x)^2*y^2
def d2k (a b c d e f x y : ℝ) : ℝ := c*d*(d + e) + x*u3 a b c d e f x*y - 3*(x*u1 a b c d x)*(x*u2 a b c d e x)*y^2 + 2*(x*u1 a b c d x)^3*y^3

/-- The potential slow-roll parameters as functions of the Hubble-flow parameters: `ε₁V`, `ε₂V`, `ε₂V ε₃V`, `ε₃V`, `ε₃V ε₄V`, `ε₃V ε₄V (ε₄V + ε₅V)` -/
def E1 (a b x : ℝ) : ℝ := a*s b x^2
def E2 (a b c x : ℝ) : ℝ := b*w a b c x
def E23 (a b c d x : ℝ) : ℝ := s b x*(b*(c*w a b c x + x*u1 a b c d x))
def E3 (a b c d x y : ℝ) : ℝ := s b x*k a b c d x y
def dE3 (a b c d e x y : ℝ) : ℝ := ds a b c x*k a b c d x y + s b x*dk a b c d e x y
def E34 (a b c d e x y : ℝ) : ℝ := s b x*dE3 a b c d e x y
def E345 (a b c d e f x y : ℝ) : ℝ := s b x*(ds a b c x*dE3 a b c d e x y + s b x*(d2s a b c d x*k a b c d x y + 2*ds a b c x*dk a b c d e x y + s b x*d2k a b c d e f x y))

set_option maxHeartbeats 4000000 in
theorem alg1 {E23 E2 E1 s w u1 σ u0 a b c x : ℝ}
    (hE23 : E23 = s*(b*(c*w + x*u1)))
    (hE2 : E2 = b*w)
    (hE1 : E1 = a*s^2)
    (hs : s = 1 + σ)
    (hw : w = 1 + x*u0)
    (hσ : σ = b*x/2)
    (hu0 : u0 = b/2 + c + a*b*x)
    (hx : 3 * x = 1 + a * x)
    :
    E1 - E1*E2/3 - E1^2*E2/9 + 5/36*E1*E2^2 + E1*E23/9 - a =
      (1/9) * (E1 * s * u1 * b * x) + (-1/9) * (s * s * s * w * σ * a * a * b) + (-1/9) * (s * s * w * σ * a * a * b) + (1/9) * (s * s * w * σ * a * b * c) + (5/36) * (s
      * w * w * σ * a * b * b) + (-1/9) * (s * w * σ * a * a * b) + (1/9) * (s * w * σ * a * b * c) + (5/36) * (w * w * σ * a * b * b) + (-1/3) * (w * σ * σ * a * b) +
      (-1/9) * (w * σ * a * a * b) + (1/9) * (w * σ * a * b * c) + (5/36) * (w * u0 * a * b * b * x) + (-2/3) * (σ * u0 * a * b * x) + (-1/9) * (u0 * a * a * b * x) +
      (5/36) * (u0 * a * b * b * x) + (1/9) * (u0 * a * b * c * x) + (1/9) * (a * a * a * b * x) + (-1/4) * (a * a * b * b * x * x) + (-5/36) * (a * a * b * b * x) +
      (-1/9) * (a * a * b * c * x) := by
  linear_combination
    ((1/9) * (E1)) * hE23 + ((5/36) * (E2 * E1) + (-1/9) * (E1 * E1) + (5/36) * (E1 * w * b) + (-1/3) * (E1)) * hE2 + ((-1/9) * (E1 * w * b) + (-1/9) * (s * s * w * a *
    b) + (1/9) * (s * w * b * c) + (5/36) * (w * w * b * b) + (-1/3) * (w * b) + (1)) * hE1 + ((-1/9) * (s * s * s * w * a * a * b) + (-1/9) * (s * s * w * a * a * b) +
    (1/9) * (s * s * w * a * b * c) + (5/36) * (s * w * w * a * b * b) + (-1/9) * (s * w * a * a * b) + (1/9) * (s * w * a * b * c) + (-1/3) * (s * w * a * b) + (1) * (s
    * a) + (5/36) * (w * w * a * b * b) + (-1/3) * (w * σ * a * b) + (-1/9) * (w * a * a * b) + (1/9) * (w * a * b * c) + (-1/3) * (w * a * b) + (1) * (σ * a) + (1) *
    (a)) * hs + ((5/36) * (w * a * b * b) + (-2/3) * (σ * a * b) + (-1/9) * (a * a * b) + (5/36) * (a * b * b) + (1/9) * (a * b * c) + (-1/3) * (a * b)) * hw + ((1) * (σ
    * a) + (1/2) * (a * b * x) + (-2/3) * (a * b) + (2) * (a)) * hσ + ((-1/3) * (a * b * x)) * hu0 + ((1/9) * (a * a * b) + (1/12) * (a * b * b * x) + (-5/36) * (a * b *
    b) + (-1/9) * (a * b * c) + (1/3) * (a * b)) * hx

set_option maxHeartbeats 4000000 in
theorem alg2 {E34 E23 E3 E2 E1 dk k s w u2 u1 ds σ u0 a b c d x y : ℝ}
    (hE34 : E34 = s*(ds*k + s*dk))
    (hE23 : E23 = s*(b*(c*w + x*u1)))
    (hE3 : E3 = s*k)
    (hE2 : E2 = b*w)
    (hE1 : E1 = a*s^2)
    (hdk : dk = c*d + x*u2*y - (x*u1)^2*y^2)
    (hk : k = c + x*u1*y)
    (hs : s = 1 + σ)
    (hw : w = 1 + x*u0)
    (hu1 : u1 = a*b*x*u0 + (b*c/2 + c*d + a*b*x*(b + c + a*b*x)))
    (hσ : σ = b*x/2)
    (hu0 : u0 = b/2 + c + a*b*x)
    (hx : 3 * x = 1 + a * x)
    :
    E2 - 1/6*E2^2 - 1/3*E23 - 1/6*E1*E2^2 + 1/18*E2^3 - 1/9*E1*E23 + 5/18*E2*E23 + 1/9*(E23*E3) + 1/9*(E2*E34) - b =
      (1/9) * (E3 * s * u1 * b * x) + (1/9) * (E2 * k * s * ds) + (5/18) * (E2 * s * u1 * b * x) + (-1/9) * (E1 * s * u1 * b * x) + (1/9) * (s * s * w * u2 * b * x * y) +
      (-1/9) * (s * s * w * u1 * u1 * b * x * x * y * y) + (1/9) * (s * s * w * u1 * b * c * x * y) + (-1/9) * (s * s * w * σ * a * b * c) + (-1/6) * (s * w * w * σ * a *
      b * b) + (-1/9) * (s * w * σ * a * b * c) + (1/9) * (s * w * σ * b * c * c) + (1/9) * (s * w * σ * b * c * d) + (-1/6) * (w * w * σ * a * b * b) + (5/18) * (w * w *
      σ * b * b * c) + (1/18) * (w * w * u0 * b * b * b * x) + (-1/9) * (w * σ * a * b * c) + (1/9) * (w * σ * b * c * c) + (1/9) * (w * σ * b * c * d) + (-1/6) * (w * u0
      * a * b * b * x) + (1/18) * (w * u0 * b * b * b * x) + (5/18) * (w * u0 * b * b * c * x) + (-1/3) * (u1 * σ * b * x) + (-1/3) * (σ * u0 * b * c * x) + (-1/6) * (u0
      * u0 * b * b * x * x) + (-1/3) * (u0 * a * b * b * x * x) + (-1/6) * (u0 * a * b * b * x) + (-1/9) * (u0 * a * b * c * x) + (1/18) * (u0 * b * b * b * x) + (5/18) *
      (u0 * b * b * c * x) + (1/9) * (u0 * b * c * c * x) + (1/9) * (u0 * b * c * d * x) + (-1/3) * (a * a * b * b * b * x * x * x) + (1/3) * (a * a * b * b * x * x) +
      (1/6) * (a * a * b * b * x) + (1/9) * (a * a * b * c * x) + (-2/3) * (a * b * b * b * x * x) + (-1/18) * (a * b * b * b * x) + (-2/3) * (a * b * b * c * x * x) +
      (-5/18) * (a * b * b * c * x) + (-1/9) * (a * b * c * c * x) + (-1/9) * (a * b * c * d * x) := by
  linear_combination
    ((1/9) * (E2)) * hE34 + ((1/9) * (E3) + (5/18) * (E2) + (-1/9) * (E1) + (-1/3)) * hE23 + ((1/9) * (s * w * b * c)) * hE3 + ((1/18) * (E2 * E2) + (-1/6) * (E2 * E1) +
    (1/18) * (E2 * w * b) + (-1/6) * (E2) + (-1/6) * (E1 * w * b) + (1/9) * (dk * s * s) + (5/18) * (s * w * b * c) + (1/18) * (w * w * b * b) + (-1/6) * (w * b) + (1)) *
    hE2 + ((-1/9) * (s * w * b * c) + (-1/6) * (w * w * b * b)) * hE1 + ((1/9) * (s * s * w * b)) * hdk + ((1/9) * (s * s * w * b * c)) * hk + ((-1/9) * (s * s * w * a *
    b * c) + (-1/6) * (s * w * w * a * b * b) + (-1/9) * (s * w * a * b * c) + (1/9) * (s * w * b * c * c) + (1/9) * (s * w * b * c * d) + (-1/6) * (w * w * a * b * b) +
    (5/18) * (w * w * b * b * c) + (-1/9) * (w * a * b * c) + (1/9) * (w * b * c * c) + (1/9) * (w * b * c * d) + (-1/3) * (w * b * c) + (-1/3) * (u1 * b * x)) * hs +
    ((1/18) * (w * w * b * b * b) + (-1/6) * (w * a * b * b) + (1/18) * (w * b * b * b) + (5/18) * (w * b * b * c) + (-1/6) * (w * b * b) + (-1/3) * (σ * b * c) + (-1/6)
    * (u0 * b * b * x) + (-1/6) * (a * b * b) + (-1/9) * (a * b * c) + (1/18) * (b * b * b) + (5/18) * (b * b * c) + (-1/6) * (b * b) + (1/9) * (b * c * c) + (1/9) * (b *
    c * d) + (-1/3) * (b * c) + (1) * (b)) * hw + ((-1/3) * (b * x)) * hu1 + ((-1/3) * (b * c)) * hσ + ((-1/3) * (b * b * x) + (-1/3) * (b * c * x) + (1) * (b * x)) * hu0
    + ((1/3) * (a * b * b * x) + (1/6) * (a * b * b) + (1/9) * (a * b * c) + (-1/18) * (b * b * b) + (-5/18) * (b * b * c) + (1/6) * (b * b) + (-1/9) * (b * c * c) +
    (-1/9) * (b * c * d) + (1/3) * (b * c)) * hx

set_option maxHeartbeats 4000000 in
theorem alg3 {E345 E34 E23 E3 E2 E1 d2k dk k s w u3 u2 d2s u1 ds σ u0 a b c d e x y : ℝ}
    (hE345 : E345 = s*(ds*(ds*k + s*dk) + s*(d2s*k + 2*ds*dk + s*d2k)))
    (hE34 : E34 = s*(ds*k + s*dk))
    (hE23 : E23 = s*(b*(c*w + x*u1)))
    (hE3 : E3 = s*k)
    (hE2 : E2 = b*w)
    (hE1 : E1 = a*s^2)
    (hd2k : d2k = c*d*(d + e) + x*u3*y - 3*(x*u1)*(x*u2)*y^2 + 2*(x*u1)^3*y^3)
    (hdk : dk = c*d + x*u2*y - (x*u1)^2*y^2)
    (hk : k = c + x*u1*y)
    (hs : s = 1 + σ)
    (hw : w = 1 + x*u0)
    (hu2 : u2 = a*b*x*u1 + (a*b*x*(b + c + a*b*x)*u0 + a*b*x*(b*c/2 + c*d + a*b*x*(b + c + a*b*x)) + (b*c*(c + d)/2 + c*d*(d + e) + (a*b*x*(b + c + a*b*x)*(b + c + a*b*x) + a*b*x*(b*c + c*d + a*b*x*(b + c + a*b*x))))))
    (hu1 : u1 = a*b*x*u0 + (b*c/2 + c*d + a*b*x*(b + c + a*b*x)))
    (hds : ds = x*(a*b*x*b + b*c)/2)
    (hσ : σ = b*x/2)
    (hu0 : u0 = b/2 + c + a*b*x)
    (hx : 3 * x = 1 + a * x)
    (hy : y * w = 1)
    :
    E3 - 1/3*E23 - 1/3*E34 - 1/6*E1*E2^2 - 1/3*E1*E23 + 1/6*E2*E23 + 5/18*(E23*E3) - 1/9*E1*E34 + 5/18*(E2*E34) + 1/9*(E3*E34) + 1/9*E345 - c =
      (1/9) * (E3 * k * s * ds) + (5/18) * (E3 * s * u1 * b * x) + (5/18) * (E2 * k * s * ds) + (1/6) * (E2 * s * u1 * b * x) + (-1/9) * (E1 * k * s * ds) + (-1/3) * (E1
      * s * u1 * b * x) + (1/3) * (dk * s * s * ds) + (1/9) * (k * s * s * s * u2 * x * y) + (-1/9) * (k * s * s * s * u1 * u1 * x * x * y * y) + (1/9) * (k * s * s *
      d2s) + (1/9) * (k * s * ds * ds) + (-1/9) * (s * s * s * s * u2 * a * x * y) + (1/9) * (s * s * s * s * u1 * u1 * a * x * x * y * y) + (1/9) * (s * s * s * u3 * x *
      y) + (-1/3) * (s * s * s * u2 * u1 * x * x * y * y) + (2/9) * (s * s * s * u1 * u1 * u1 * x * x * x * y * y * y) + (1/9) * (s * s * s * u1 * c * d * x * y) + (-1/9)
      * (s * s * s * σ * a * c * d) + (5/18) * (s * s * w * u2 * b * x * y) + (-5/18) * (s * s * w * u1 * u1 * b * x * x * y * y) + (5/18) * (s * s * w * u1 * b * c * x *
      y) + (-1/3) * (s * s * w * σ * a * b * c) + (1/3) * (s * s * u1 * u1 * x * x * y * y) + (-1/9) * (s * s * σ * a * c * d) + (1/9) * (s * s * σ * c * c * d) + (1/9) *
      (s * s * σ * c * d * d) + (1/9) * (s * s * σ * c * d * e) + (-1/6) * (s * w * w * σ * a * b * b) + (-1/3) * (s * w * σ * a * b * c) + (5/18) * (s * w * σ * b * c *
      c) + (5/18) * (s * w * σ * b * c * d) + (-1/3) * (s * u2 * σ * x * y) + (-1/3) * (s * u1 * ds * x * y) + (-1/9) * (s * σ * a * c * d) + (1/9) * (s * σ * c * c * d)
      + (1/9) * (s * σ * c * d * d) + (1/9) * (s * σ * c * d * e) + (-1/6) * (w * w * σ * a * b * b) + (1/6) * (w * w * σ * b * b * c) + (-1/3) * (w * σ * a * b * c) +
      (5/18) * (w * σ * b * c * c) + (5/18) * (w * σ * b * c * d) + (-1/6) * (w * u0 * a * b * b * x) + (1/6) * (w * u0 * b * b * c * x) + (-1/3) * (u2 * σ * x * y) +
      (-1/3) * (u1 * σ * b * x) + (-1/3) * (u1 * a * b * x * x * y) + (-1/3) * (ds * σ * c) + (-1/3) * (σ * σ * c * d) + (1) * (σ * u0 * a * b * x * x * y) + (-1/3) * (σ
      * u0 * b * c * x) + (1) * (σ * a * a * b * b * x * x * x * y) + (1) * (σ * a * b * b * x * x * y) + (1) * (σ * a * b * c * x * x * y) + (-1/9) * (σ * a * c * d) +
      (1/9) * (σ * c * c * d) + (1/9) * (σ * c * d * d) + (1/9) * (σ * c * d * e) + (-1/3) * (u0 * a * a * b * b * x * x * x * y) + (-3/2) * (u0 * a * b * b * x * x * x *
      y) + (-1/3) * (u0 * a * b * b * x * x * y) + (-1/3) * (u0 * a * b * b * x * x) + (-1/6) * (u0 * a * b * b * x) + (-2) * (u0 * a * b * c * x * x * x * y) + (-1/3) *
      (u0 * a * b * c * x * x * y) + (-1/3) * (u0 * a * b * c * x) + (1/6) * (u0 * b * b * c * x) + (1/2) * (u0 * b * c * c * x * x * x * y) + (1/6) * (u0 * b * c * c * x
      * x * y) + (5/18) * (u0 * b * c * c * x) + (1/6) * (u0 * b * c * d * x * x * y) + (5/18) * (u0 * b * c * d * x) + (1) * (u0 * c * c * d * x * x * x * y) + (1/3) *
      (u0 * c * d * d * x * x * y) + (1/3) * (u0 * c * d * e * x * x * y) + (-1) * (a * a * a * b * b * b * x * x * x * x * y) + (-4/3) * (a * a * b * b * b * x * x * x *
      y) + (-1/3) * (a * a * b * b * b * x * x * x) + (-4/3) * (a * a * b * b * c * x * x * x * y) + (2) * (a * a * b * b * x * x * x * y) + (1/2) * (a * a * b * b * x *
      x) + (1/6) * (a * a * b * b * x) + (2/3) * (a * a * b * c * x * x) + (1/3) * (a * a * b * c * x) + (1/9) * (a * a * c * d * x) + (-1/3) * (a * b * b * b * x * x *
      y) + (-1/3) * (a * b * b * b * x * x) + (-1/2) * (a * b * b * c * x * x * x * y) + (-7/6) * (a * b * b * c * x * x * y) + (-5/6) * (a * b * b * c * x * x) + (-1/6)
      * (a * b * b * c * x) + (-1/3) * (a * b * c * c * x * x * y) + (-1/6) * (a * b * c * c * x * x) + (-5/18) * (a * b * c * c * x) + (-1) * (a * b * c * d * x * x * x
      * y) + (-2/3) * (a * b * c * d * x * x * y) + (-5/18) * (a * b * c * d * x) + (-1/3) * (a * c * c * d * x * x) + (-1/9) * (a * c * c * d * x) + (-1/9) * (a * c * d
      * d * x) + (-1/9) * (a * c * d * e * x) := by
  linear_combination
    ((1/9)) * hE345 + ((1/9) * (E3) + (5/18) * (E2) + (-1/9) * (E1) + (-1/3)) * hE34 + ((5/18) * (E3) + (1/6) * (E2) + (-1/3) * (E1) + (-1/3)) * hE23 + ((1/9) * (dk * s *
    s) + (5/18) * (s * w * b * c) + (1)) * hE3 + ((-1/6) * (E2 * E1) + (-1/6) * (E1 * w * b) + (5/18) * (dk * s * s) + (1/6) * (s * w * b * c)) * hE2 + ((-1/9) * (dk * s
    * s) + (-1/3) * (s * w * b * c) + (-1/6) * (w * w * b * b)) * hE1 + ((1/9) * (s * s * s)) * hd2k + ((1/9) * (k * s * s * s) + (-1/9) * (s * s * s * s * a) + (5/18) *
    (s * s * w * b) + (-1/3) * (s * s)) * hdk + ((1/9) * (s * s * s * c * d) + (5/18) * (s * s * w * b * c) + (-1/3) * (s * ds) + (1) * (s)) * hk + ((-1/9) * (s * s * s *
    a * c * d) + (-1/3) * (s * s * w * a * b * c) + (-1/9) * (s * s * a * c * d) + (1/9) * (s * s * c * c * d) + (1/9) * (s * s * c * d * d) + (1/9) * (s * s * c * d * e)
    + (-1/6) * (s * w * w * a * b * b) + (-1/3) * (s * w * a * b * c) + (5/18) * (s * w * b * c * c) + (5/18) * (s * w * b * c * d) + (-1/3) * (s * u2 * x * y) + (-1/9) *
    (s * a * c * d) + (1/9) * (s * c * c * d) + (1/9) * (s * c * d * d) + (1/9) * (s * c * d * e) + (-1/3) * (s * c * d) + (-1/6) * (w * w * a * b * b) + (1/6) * (w * w *
    b * b * c) + (-1/3) * (w * a * b * c) + (5/18) * (w * b * c * c) + (5/18) * (w * b * c * d) + (-1/3) * (w * b * c) + (-1/3) * (u2 * x * y) + (-1/3) * (u1 * b * x) +
    (1) * (u1 * x * y) + (-1/3) * (ds * c) + (-1/3) * (σ * c * d) + (-1/9) * (a * c * d) + (1/9) * (c * c * d) + (1/9) * (c * d * d) + (1/9) * (c * d * e) + (-1/3) * (c *
    d) + (1) * (c)) * hs + ((-1/6) * (w * a * b * b) + (1/6) * (w * b * b * c) + (-1/3) * (σ * b * c) + (-3/2) * (a * b * b * x * x * y) + (-1/6) * (a * b * b) + (-2) *
    (a * b * c * x * x * y) + (-1/3) * (a * b * c) + (1/6) * (b * b * c) + (1/2) * (b * c * c * x * x * y) + (1/6) * (b * c * c * x * y) + (5/18) * (b * c * c) + (1/6) *
    (b * c * d * x * y) + (5/18) * (b * c * d) + (-1/2) * (b * c * x * y) + (-1/3) * (b * c) + (1) * (c * c * d * x * x * y) + (1/3) * (c * d * d * x * y) + (1/3) * (c *
    d * e * x * y) + (-1) * (c * d * x * y)) * hw + ((-1/3) * (x * y)) * hu2 + ((1) * (σ * x * y) + (-1/3) * (b * x) + (1) * (x * y)) * hu1 + ((-1/3) * (c)) * hds +
    ((1/2) * (b * c * x * y) + (-1/3) * (b * c) + (1) * (c * d * x * y) + (-2/3) * (c * d) + (1) * (c)) * hσ + ((1) * (a * b * x * x * y) + (-1/2) * (b * c * x * x * y) +
    (-1/3) * (b * c * x) + (-1) * (c * d * x * x * y)) * hu0 + ((1/2) * (a * b * b * x) + (1/6) * (a * b * b) + (2/3) * (a * b * c * x) + (1/3) * (a * b * c) + (1/9) * (a
    * c * d) + (-1/6) * (b * b * c) + (-1/6) * (b * c * c * x) + (-5/18) * (b * c * c) + (-5/18) * (b * c * d) + (1/3) * (b * c) + (-1/3) * (c * c * d * x) + (-1/9) * (c
    * c * d) + (-1/9) * (c * d * d) + (-1/9) * (c * d * e) + (1/3) * (c * d)) * hx + ((3/2) * (a * b * b * x * x) + (2) * (a * b * c * x * x) + (-1/2) * (b * c * c * x *
    x) + (-1/6) * (b * c * c * x) + (-1/6) * (b * c * d * x) + (1/2) * (b * c * x) + (-1) * (c * c * d * x * x) + (-1/3) * (c * d * d * x) + (-1/3) * (c * d * e * x) +
    (1) * (c * d * x)) * hy

set_option maxHeartbeats 4000000 in
theorem alg4 {E345 E34 E23 E3 E2 d2k dk k s w u3 u2 d2s u1 ds σ u0 a b c d e x y : ℝ}
    (hE345 : E345 = s*(ds*(ds*k + s*dk) + s*(d2s*k + 2*ds*dk + s*d2k)))
    (hE34 : E34 = s*(ds*k + s*dk))
    (hE23 : E23 = s*(b*(c*w + x*u1)))
    (hE3 : E3 = s*k)
    (hE2 : E2 = b*w)
    (hd2k : d2k = c*d*(d + e) + x*u3*y - 3*(x*u1)*(x*u2)*y^2 + 2*(x*u1)^3*y^3)
    (hdk : dk = c*d + x*u2*y - (x*u1)^2*y^2)
    (hk : k = c + x*u1*y)
    (hs : s = 1 + σ)
    (hw : w = 1 + x*u0)
    (hu2 : u2 = a*b*x*u1 + (a*b*x*(b + c + a*b*x)*u0 + a*b*x*(b*c/2 + c*d + a*b*x*(b + c + a*b*x)) + (b*c*(c + d)/2 + c*d*(d + e) + (a*b*x*(b + c + a*b*x)*(b + c + a*b*x) + a*b*x*(b*c + c*d + a*b*x*(b + c + a*b*x))))))
    (hu1 : u1 = a*b*x*u0 + (b*c/2 + c*d + a*b*x*(b + c + a*b*x)))
    (hds : ds = x*(a*b*x*b + b*c)/2)
    (hσ : σ = b*x/2)
    (hx : 3 * x = 1 + a * x)
    (hy : y * w = 1)
    :
    E34 - 1/6*(E34*E2) - 1/3*(E23*E3) - 1/3*E345 + 1/3*(d*E34) - E3*d =
      (-1/3) * (E3 * s * u1 * b * x) + (-1/6) * (E2 * k * s * ds) + (-1) * (dk * s * s * ds) + (-1/3) * (k * s * s * d2s) + (-1/3) * (k * s * ds * ds) + (1/3) * (k * s *
      ds * d) + (-1/3) * (s * s * s * u3 * x * y) + (1) * (s * s * s * u2 * u1 * x * x * y * y) + (-2/3) * (s * s * s * u1 * u1 * u1 * x * x * x * y * y * y) + (-1/6) *
      (s * s * w * u2 * b * x * y) + (1/6) * (s * s * w * u1 * u1 * b * x * x * y * y) + (-1/3) * (s * s * w * u1 * b * c * x * y) + (1/3) * (s * s * u2 * d * x * y) +
      (-1/3) * (s * s * u1 * u1 * d * x * x * y * y) + (-1) * (s * s * u1 * u1 * x * x * y * y) + (-1/3) * (s * s * σ * c * d * d) + (-1/3) * (s * s * σ * c * d * e) +
      (-1/3) * (s * w * σ * b * c * c) + (-1/6) * (s * w * σ * b * c * d) + (1) * (s * u2 * σ * x * y) + (1) * (s * u1 * ds * x * y) + (-1/3) * (s * σ * c * d * e) +
      (-1/3) * (w * σ * b * c * c) + (-1/6) * (w * σ * b * c * d) + (1) * (u2 * σ * x * y) + (-1) * (u1 * σ * d * x * y) + (1) * (u1 * a * b * x * x * y) + (1) * (ds * σ
      * c) + (1) * (σ * σ * c * d) + (-1/3) * (σ * c * d * e) + (1) * (u0 * a * a * b * b * x * x * x * y) + (1) * (u0 * a * b * b * x * x * y) + (1) * (u0 * a * b * c *
      x * x * y) + (-1) * (u0 * a * b * d * x * x * y) + (-1/2) * (u0 * b * c * c * x * x * y) + (-1/3) * (u0 * b * c * c * x) + (-1/6) * (u0 * b * c * d * x) + (-1) *
      (u0 * c * d * e * x * x * y) + (3) * (a * a * a * b * b * b * x * x * x * x * y) + (4) * (a * a * b * b * b * x * x * x * y) + (4) * (a * a * b * b * c * x * x * x
      * y) + (-1) * (a * a * b * b * d * x * x * x * y) + (1) * (a * b * b * b * x * x * y) + (7/2) * (a * b * b * c * x * x * y) + (1/2) * (a * b * b * c * x * x) + (-1)
      * (a * b * b * d * x * x * y) + (1) * (a * b * c * c * x * x * y) + (1/3) * (a * b * c * c * x) + (1) * (a * b * c * d * x * x * y) + (1/6) * (a * b * c * d * x) +
      (1/3) * (a * c * d * e * x) := by
  linear_combination
    ((-1/3)) * hE345 + ((-1/6) * (E2) + (1/3) * (d) + (1)) * hE34 + ((-1/3) * (E3)) * hE23 + ((-1/3) * (s * w * b * c) + (-1) * (d)) * hE3 + ((-1/6) * (dk * s * s)) * hE2
    + ((-1/3) * (s * s * s)) * hd2k + ((-1/6) * (s * s * w * b) + (1/3) * (s * s * d) + (1) * (s * s)) * hdk + ((-1/3) * (s * s * w * b * c) + (1) * (s * ds) + (-1) * (s
    * d)) * hk + ((-1/3) * (s * s * c * d * d) + (-1/3) * (s * s * c * d * e) + (-1/3) * (s * w * b * c * c) + (-1/6) * (s * w * b * c * d) + (1) * (s * u2 * x * y) +
    (-1/3) * (s * c * d * e) + (1) * (s * c * d) + (-1/3) * (w * b * c * c) + (-1/6) * (w * b * c * d) + (1) * (u2 * x * y) + (-1) * (u1 * d * x * y) + (1) * (ds * c) +
    (1) * (σ * c * d) + (-1/3) * (c * d * e)) * hs + ((-1/2) * (b * c * c * x * y) + (-1/3) * (b * c * c) + (-1/6) * (b * c * d) + (-1) * (c * d * e * x * y)) * hw + ((1)
    * (x * y)) * hu2 + ((-1) * (d * x * y)) * hu1 + ((1) * (c)) * hds + ((1) * (c * d)) * hσ + ((1/3) * (b * c * c) + (1/6) * (b * c * d) + (1/3) * (c * d * e)) * hx +
    ((1/2) * (b * c * c * x) + (1) * (c * d * e * x)) * hy

set_option maxHeartbeats 4000000 in
theorem algP {E34 dk k s u2 u1 ds σ c d x y : ℝ}
    (hE34 : E34 = s*(ds*k + s*dk))
    (hdk : dk = c*d + x*u2*y - (x*u1)^2*y^2)
    (hs : s = 1 + σ)
    :
    E34 - c*d =
      (1) * (k * s * ds) + (1) * (s * s * u2 * x * y) + (-1) * (s * s * u1 * u1 * x * x * y * y) + (1) * (s * σ * c * d) + (1) * (σ * c * d) := by
  linear_combination
    ((1)) * hE34 + ((1) * (s * s)) * hdk + ((1) * (s * c * d) + (1) * (c * d)) * hs

set_option maxHeartbeats 4000000 in
theorem algE {E3 k s u1 σ c x y : ℝ}
    (hE3 : E3 = s*k)
    (hk : k = c + x*u1*y)
    (hs : s = 1 + σ)
    :
    E3 - c =
      (1) * (s * u1 * x * y) + (1) * (σ * c) := by
  linear_combination
    ((1)) * hE3 + ((1) * (s)) * hk + ((1) * (c)) * hs

end
end SR
end Primpy
