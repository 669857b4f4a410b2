import Mathlib.Tactic.Ring
import Mathlib.Tactic.LinearCombination
import Mathlib.Data.Real.Basic

/-!
# Polynomial identities for C13

Generated (tools/c13).  `a, b, c, d, e, f` are the Hubble-flow parameters `ε₁ … ε₆`, `x = 1/(3 - ε₁)`, `y = 1/w`, `σ = s - 1`.
-/

namespace Primpy
namespace SR
noncomputable section

/-- `√(ε₁V/ε₁)`, i.e. the ratio of potential to true e-folds, and its first two derivatives along the flow -/
def s (b x : ℝ) : ℝ := 1 + b*x/2
def ds (a b c x : ℝ) : ℝ := x*(a*b*x*b + b*c)/2
def d2s (a b c d x : ℝ) : ℝ := x*(a*b*x*(a*b*x*b + b*c) + (a*b*x*(b + c + a*b*x)*b + a*b*x*(b*c) + b*c*(c + d)))/2

/-- `ε₂V/ε₂ = w = 1 + x u₀`, its derivatives `x u₁, x u₂, x u₃` -/
def u0 (a b c x : ℝ) : ℝ := b/2 + c + a*b*x
def v1 (a b c x : ℝ) : ℝ := a*b*x*(b + c + a*b*x)
def v2 (a b c d x : ℝ) : ℝ := v1 a b c x*(b + c + a*b*x) + a*b*x*(b*c + c*d + v1 a b c x)
def v3 (a b c d e x : ℝ) : ℝ := v2 a b c d x*(b + c + a*b*x) + 2*v1 a b c x*(b*c + c*d + v1 a b c x) + a*b*x*(b*c*(c + d) + c*d*(d + e) + v2 a b c d x)
def w (a b c x : ℝ) : ℝ := 1 + x*u0 a b c x
def du0 (a b c d x : ℝ) : ℝ := b*c/2 + c*d + v1 a b c x
def d2u0 (a b c d e x : ℝ) : ℝ := b*c*(c + d)/2 + c*d*(d + e) + v2 a b c d x
def d3u0 (a b c d e f x : ℝ) : ℝ := b*c*((c + d)^2 + c*d + d*e)/2 + c*d*((d + e)^2 + d*e + e*f) + v3 a b c d e x
def u1 (a b c d x : ℝ) : ℝ := a*b*x*u0 a b c x + du0 a b c d x
def du1 (a b c d e x : ℝ) : ℝ := v1 a b c x*u0 a b c x + a*b*x*du0 a b c d x + d2u0 a b c d e x
def d2u1 (a b c d e f x : ℝ) : ℝ := v2 a b c d x*u0 a b c x + 2*v1 a b c x*du0 a b c d x + a*b*x*d2u0 a b c d e x + d3u0 a b c d e f x
def u2 (a b c d e x : ℝ) : ℝ := a*b*x*u1 a b c d x + du1 a b c d e x
def du2 (a b c d e f x : ℝ) : ℝ := v1 a b c x*u1 a b c d x + a*b*x*du1 a b c d e x + d2u1 a b c d e f x
def u3 (a b c d e f x : ℝ) : ℝ := a*b*x*u2 a b c d e x + du2 a b c d e f x

/-- `ε₃V = s k` and the derivatives of `k` -/
def k (a b c d x y : ℝ) : ℝ := c + x*u1 a b c d x*y
def dk (a b c d e x y : ℝ) : ℝ := c*d + x*u2 a b c d e x*y - (x*u1 a b c d x)^2*y^2
def d2k (a b c d e f x y : ℝ) : ℝ := c*d*(d + e) + x*u3 a b c d e f x*y - 3*(x*u1 a b c d x)*(x*u2 a b c d e x)*y^2 + 2*(x*u1 a b c d x)^3*y^3

/-- The potential slow-roll parameters as functions of the Hubble-flow parameters: `ε₁V`, `ε₂V`, `ε₂V ε₃V`, `ε₃V`, `ε₃V ε₄V`, `ε₃V ε₄V (ε₄V + ε₅V)` -/
def E1 (a b x : ℝ) : ℝ := a*s b x^2
def E2 (a b c x : ℝ) : ℝ := b*w a b c x
def E23 (a b c d x : ℝ) : ℝ := s b x*(b*(c*w a b c x + x*u1 a b c d x))
def E3 (a b c d x y : ℝ) : ℝ := s b x*k a b c d x y
def dE3 (a b c d e x y : ℝ) : ℝ := ds a b c x*k a b c d x y + s b x*dk a b c d e x y
def E34 (a b c d e x y : ℝ) : ℝ := s b x*dE3 a b c d e x y
def E345 (a b c d e f x y : ℝ) : ℝ := s b x*(ds a b c x*dE3 a b c d e x y + s b x*(d2s a b c d x*k a b c d x y + 2*ds a b c x*dk a b c d e x y + s b x*d2k a b c d e f x y))

