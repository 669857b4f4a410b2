import Verif.Lemmas.SlowRollAlgebra
import Mathlib.Analysis.Asymptotics.Lemmas
import Mathlib.Analysis.Normed.Group.Constructions
import Mathlib.Analysis.Normed.Field.Lemmas
import Mathlib.Topology.Algebra.Field

/-!
# Orders of smallness in the slow-roll parameters (C13)

`O n f`: `|f ε| ≤ C ‖ε‖ⁿ` for all small parameter vectors `ε = (ε₁ … ε₆)`.
-/

namespace Primpy
namespace SR
open Filter Topology Asymptotics

abbrev Eps := Fin 6 → ℝ

/-- `f = O(‖ε‖ⁿ)` at `0` -/
def O (n : ℕ) (f : Eps → ℝ) : Prop := f =O[𝓝 0] fun ε => ‖ε‖ ^ n

namespace O
variable {n m : ℕ} {f g : Eps → ℝ}

theorem add (hf : O n f) (hg : O n g) : O n fun ε => f ε + g ε := IsBigO.add hf hg
theorem sub (hf : O n f) (hg : O n g) : O n fun ε => f ε - g ε := IsBigO.sub hf hg
theorem mul (hf : O n f) (hg : O m g) : O (n + m) fun ε => f ε * g ε := by
  have := IsBigO.mul hf hg
  simp only [← pow_add] at this
  exact this
theorem cmul (hf : O n f) (c : ℝ) : O n fun ε => c * f ε := IsBigO.const_mul_left hf c
theorem le (hf : O n f) (h : m ≤ n) : O m f := by
  refine IsBigO.trans hf ?_
  refine IsBigO.of_bound 1 ?_
  have : ∀ᶠ ε : Eps in 𝓝 0, ‖ε‖ < 1 := by
    have := Metric.ball_mem_nhds (0 : Eps) one_pos
    filter_upwards [this] with ε hε
    simpa using hε
  filter_upwards [this] with ε hε
  rw [one_mul, norm_pow, norm_pow, norm_norm]
  exact pow_le_pow_of_le_one (norm_nonneg _) hε.le h
theorem coord (i : Fin 6) : O 1 fun ε => ε i := by
  refine IsBigO.of_bound 1 (Eventually.of_forall fun ε => ?_)
  rw [pow_one, norm_norm, one_mul]
  exact norm_le_pi_norm ε i
theorem cont (hf : ContinuousAt f 0) : O 0 f := by
  have := hf.norm.isBoundedUnder_le.isBigO_one ℝ
  unfold O
  simpa using this
theorem const (c : ℝ) : O 0 fun _ => c := cont continuousAt_const
theorem congr {f' : Eps → ℝ} (hf : O n f) (h : ∀ᶠ ε in 𝓝 0, f' ε = f ε) : O n f' :=
  IsBigO.congr' hf (h.mono fun _ h => h.symm) EventuallyEq.rfl
end O

