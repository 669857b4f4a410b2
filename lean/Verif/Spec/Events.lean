import Mathlib.Order.Interval.Set.Basic
import Mathlib.Data.Real.Basic

/-!
# Specification of faithful event detection

Stated on a bare function `g : ℝ → ℝ`, without reference to the model of primpy.
-/

namespace Primpy.Spec
open Set

/-- `g` changes sign at `c ∈ (x0, x1]` in direction `s` (`s = 1`: from negative to positive, `s = -1`: from positive to negative). -/
structure ChangesSign (g : ℝ → ℝ) (x0 x1 s c : ℝ) : Prop where
  after : x0 < c
  before : c ≤ x1
  root : g c = 0
  left : ∃ a, x0 ≤ a ∧ a < c ∧ ∀ x ∈ Ico a c, x0 < x → s * g x < 0
  right : c < x1 → ∃ b, c < b ∧ ∀ x ∈ Ioc c b, 0 < s * g x

/-- The list `l` is a faithful record of the sign changes of `g` in direction `s` on `[x0, x1]`: increasing, only sign changes, and none missing between
two points on either side of zero. -/
structure Detects (g : ℝ → ℝ) (x0 x1 s : ℝ) (l : List ℝ) : Prop where
  sorted : l.Pairwise (· < ·)
  sound : ∀ c ∈ l, ChangesSign g x0 x1 s c
  complete : ∀ a b, x0 ≤ a → a < b → b ≤ x1 → s * g a < 0 → 0 < s * g b → ∃ c ∈ l, a ≤ c ∧ c ≤ b

end Primpy.Spec
