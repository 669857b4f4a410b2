import Verif.Model.BigBang

/-!
# C46 — effective equation of state of reheating

During an epoch with constant `w` the comoving Hubble horizon grows as `a^{(1+3w)/2}`.
-/

namespace Primpy
open Real
open BB

/-- **C46.**  If the comoving Hubble horizon `1/(aH)` follows the power law of a constant equation of
state `w` between `N_end` and `N_reh`, `get_w_delta_reh` returns exactly `w` and the duration; and
conversely the returned `w` is the only one whose power law joins the two given horizons. -/
theorem C46_recovers (N_end N_reh L_end L_reh : ℝ) (hne : N_reh ≠ N_end) :
    (get_w_delta_reh N_end N_reh L_end L_reh).2 = N_reh - N_end ∧
    ∀ w : ℝ, (get_w_delta_reh N_end N_reh L_end L_reh).1 = some w ↔
      L_reh = L_end + (1 + 3 * w) / 2 * (N_reh - N_end) := by
  have h : N_reh - N_end ≠ 0 := sub_ne_zero.2 hne
  refine ⟨rfl, fun w => ?_⟩
  simp only [get_w_delta_reh, if_neg h, Option.some.injEq]
  constructor
  · rintro rfl; field_simp; ring
  · rintro rfl; field_simp; ring

/-- **C46, physical form.**  With Hubble rates: if `H_reh = H_end e^{-3(1+w)ΔN/2}` (energy density
diluting as `a^{-3(1+w)}`) and the arguments are the logs of `1/(aH)`, the returned value is `w`. -/
theorem C46_dilution (N_end N_reh H_end w : ℝ) (hne : N_reh ≠ N_end) (hH : 0 < H_end) :
    get_w_delta_reh N_end N_reh (log (1 / (exp N_end * H_end)))
      (log (1 / (exp N_reh * (H_end * exp (-3 * (1 + w) / 2 * (N_reh - N_end)))))) =
      (some w, N_reh - N_end) := by
  have h := (C46_recovers N_end N_reh (log (1 / (exp N_end * H_end)))
      (log (1 / (exp N_reh * (H_end * exp (-3 * (1 + w) / 2 * (N_reh - N_end)))))) hne)
  have h1 := (h.2 w).2 (by
    rw [one_div, one_div, log_inv, log_inv, log_mul (exp_pos _).ne' hH.ne', log_exp,
      log_mul (exp_pos _).ne' (mul_pos hH (exp_pos _)).ne', log_mul hH.ne' (exp_pos _).ne', log_exp,
      log_exp]
    ring)
  exact Prod.ext h1 h.1

/-- **C46, instant reheating.**  With coinciding scale factors there is no equation of state: the
result is not a number (division by zero), never an arbitrary value. -/
theorem C46_instant (N L_end L_reh : ℝ) : get_w_delta_reh N N L_end L_reh = (none, 0) := by
  simp [get_w_delta_reh]

/-- Hypotheses met: radiation, one e-fold. -/
example : get_w_delta_reh 0 1 0 1 = (some (1/3), 1) := by
  norm_num [get_w_delta_reh]

end Primpy
