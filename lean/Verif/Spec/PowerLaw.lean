import Mathlib.Analysis.SpecialFunctions.Gamma.Basic
import Mathlib.Analysis.SpecialFunctions.Pow.Real

/-!
# Two exactly solvable spectra

Independent specification (no reference to the code).  For `z''/z = (ν²-1/4)/η²` the mode equation
`u'' + (k² - z''/z) u = 0` with Bunch-Davies initial conditions is solved by a Hankel function of order `ν`, whose
late-time limit makes the spectrum the lowest-order slow-roll value times the factors below.

* Power-law inflation `a ∝ t^{1/ε}` (Abbott & Wise 1984; Lyth & Stewart 1992): `ε₁ = ε` constant, `aH|η| = 1/(1-ε)`,
  `ν = 3/2 + ε/(1-ε)` for scalars and tensors.
* Constant roll in the de Sitter limit (`ε₁ → 0`, `φ̈ = δ H φ̇`): `ν = 3/2 + δ` for scalars, `aH|η| = 1`.
-/

namespace Primpy.Spec
open Real

/-- `2^{2ν-3} (Γ(ν)/Γ(3/2))²` -/
noncomputable def bunchDavies (ν : ℝ) : ℝ := 2 ^ (2 * ν - 3) * (Gamma ν / Gamma (3 / 2)) ^ 2

/-- Power-law inflation: exact spectrum at `ln(k/(aH)) = L`, divided by the lowest-order slow-roll value
(`H²/(8π²ε)` or `2H²/π²`) at the moment when `aH` is taken. -/
noncomputable def powerLaw (ε L : ℝ) : ℝ :=
  bunchDavies (3 / 2 + ε / (1 - ε)) * (1 - ε) ^ (2 * (3 / 2 + ε / (1 - ε)) - 1)
    * exp ((3 - 2 * (3 / 2 + ε / (1 - ε))) * L)

/-- Constant roll in de Sitter: exact scalar spectrum at `ln(k/(aH)) = L`, divided by the lowest-order value. -/
noncomputable def constantRoll (δ L : ℝ) : ℝ :=
  bunchDavies (3 / 2 + δ) * exp ((3 - 2 * (3 / 2 + δ)) * L)

end Primpy.Spec
