import Verif.Model.Reheating

/-!
# C32 — is_instant_reheating

Specification in terms of the *given* arguments: an argument "says instant" if it is given with its
instant value (`w_reh = 1/3`, `DeltaN_reh = 0`, `DeltaN_minus1 = 0`); it "says extended" if it is given
with another value, and a given `rho_reh_GeV` always counts as extended.
-/

namespace Primpy

/-- Some argument is given with its instantaneous-reheating value. -/
def SaysInstant (w d dm : Option ℝ) : Prop := w = some (1/3) ∨ d = some 0 ∨ dm = some 0

/-- Some argument is given that does not fit instantaneous reheating. -/
def SaysExtended (rho w d dm : Option ℝ) : Prop :=
  (∃ x, rho = some x) ∨ (∃ x, w = some x ∧ x ≠ 1/3) ∨ (∃ x, d = some x ∧ x ≠ 0) ∨
    (∃ x, dm = some x ∧ x ≠ 0)

/-- **C32.**  The complete decision table, for every subset of the arguments and all values:
* `True` iff `N_star` is absent and nothing given contradicts instantaneous reheating
  (in particular when nothing is given);
* `ValueError` iff `N_star` is absent and the arguments contradict each other;
* `False` iff `N_star` is given, or something extended is given and nothing says instant.
Every input falls in exactly one case, and no other exception can occur. -/
theorem C32_table (N_star rho w d dm : Option ℝ) :
    (is_instant_reheating N_star rho w d dm = .ok true ↔
      N_star = none ∧ ¬ SaysExtended rho w d dm) ∧
    ((∃ e, is_instant_reheating N_star rho w d dm = .error e) ↔
      N_star = none ∧ SaysInstant w d dm ∧ SaysExtended rho w d dm) ∧
    (is_instant_reheating N_star rho w d dm = .ok false ↔
      N_star ≠ none ∨ (SaysExtended rho w d dm ∧ ¬ SaysInstant w d dm)) ∧
    (∀ e, is_instant_reheating N_star rho w d dm = .error e → ∃ m, e = .valueError m) := by
  unfold is_instant_reheating SaysInstant SaysExtended
  cases N_star <;> cases rho <;> cases w <;> cases d <;> cases dm <;> simp
  all_goals
    repeat' first
      | split_ifs
      | constructor
    all_goals simp_all
    all_goals try tauto

/-- **C32, agreement is required in pairs.**  In particular two instant markers agree, and an instant
marker together with a reheating density is rejected even if the density equals the one at the end of
inflation. -/
theorem C32_examples (x : ℝ) :
    is_instant_reheating none none none none none = .ok true ∧
    is_instant_reheating none none (some (1/3)) (some 0) (some 0) = .ok true ∧
    is_instant_reheating none none none (some 0) none = .ok true ∧
    (∃ m, is_instant_reheating none (some x) (some (1/3)) none none = .error (.valueError m)) ∧
    (x ≠ 0 → ∃ m, is_instant_reheating none none (some (1/3)) (some x) none = .error (.valueError m)) ∧
    is_instant_reheating none (some x) none none none = .ok false ∧
    is_instant_reheating (some x) none none (some 0) none = .ok false := by
  simp [is_instant_reheating]
  exact fun h => ⟨_, if_neg h⟩

end Primpy
