import Verif.Model.InitialConditions
import Verif.Lemmas.Dict

/-!
# C26 — initial conditions fill the whole state vector
-/

namespace Primpy
open Real

/-- What the row of a registered variable has to contain, given the attributes stored on the
initial-condition object and the velocity it stores. -/
def RowSpec (ic : IC) (dphidt dphidN : Option ℝ) (name : String) (v : Option ℝ) : Prop :=
  (name = "phi" → v = some ic.phi_i) ∧ (name = "_N" → v = ic.N_i) ∧ (name = "t" → v = ic.t_i) ∧
  (name = "eta" → v = ic.eta_i) ∧ (name = "dphidt" → v = dphidt) ∧ (name = "dphidN" → v = dphidN)

/-- The time and conformal time of the start are given if the equations track them. -/
def GivesTracked (E : Eqs) (ic : IC) : Prop :=
  match E with
  | .T e => e.track_eta = true → ic.eta_i ≠ none
  | .N e => (e.track_time = true → ic.t_i ≠ none) ∧ (e.track_eta = true → ic.eta_i ≠ none)
  | .other _ _ => False

theorem C26.fill (E : Eqs) (ic : IC) (vt vN : Option ℝ) (hg : GivesTracked E ic)
    (y0 : ℕ → Option ℝ) : ∃ y, writeY0 E ic vt vN y0 = .ok y ∧
      (∀ name i, E.idx.get? name = some i → RowSpec ic vt vN name (y i)) ∧
      (∀ i, E.idx.length ≤ i → y i = y0 i) := by
  cases E with
  | other K p => exact absurd hg (by simp [GivesTracked])
  | T e =>
    obtain ⟨K, pot, te⟩ := e
    cases te with
    | false =>
      have hidx : Eqs.idx (.T ⟨K, pot, false⟩) = [("phi", 0), ("dphidt", 1), ("_N", 2)] := rfl
      refine ⟨Function.update (Function.update (Function.update y0 1 vt) 2 ic.N_i) 0 (some ic.phi_i),
        ?_, ?_, ?_⟩
      · rfl
      · intro name i h
        rw [hidx] at h
        simp only [Dict.get?_cons, Dict.get?_nil] at h
        split_ifs at h with h1 h2 h3 <;> (obtain rfl := Option.some.inj h) <;> subst_vars <;>
          simp [RowSpec, Function.update]
      · intro i hi
        have : 3 ≤ i := hi
        simp only [Function.update]
        split_ifs <;> first | omega | rfl
    | true =>
      have hidx : Eqs.idx (.T ⟨K, pot, true⟩) = [("phi", 0), ("dphidt", 1), ("_N", 2), ("eta", 3)] :=
        rfl
      obtain ⟨v, hv⟩ : ∃ v, ic.eta_i = some v := Option.ne_none_iff_exists'.1 (hg rfl)
      refine ⟨Function.update (Function.update (Function.update (Function.update y0 1 vt) 2 ic.N_i) 0
        (some ic.phi_i)) 3 ic.eta_i, ?_, ?_, ?_⟩
      · simp only [writeY0, hidx, writeRow, Dict.get?_cons, Eqs.track_eta, hv]
        rfl
      · intro name i h
        rw [hidx] at h
        simp only [Dict.get?_cons, Dict.get?_nil] at h
        split_ifs at h with h1 h2 h3 h4 <;> (obtain rfl := Option.some.inj h) <;> subst_vars <;>
          simp [RowSpec, Function.update]
      · intro i hi
        have : 4 ≤ i := hi
        simp only [Function.update]
        split_ifs <;> first | omega | rfl
  | N e =>
    obtain ⟨K, pot, tt, te⟩ := e
    obtain ⟨ht, he⟩ := hg
    cases tt <;> cases te
    · have hidx : Eqs.idx (.N ⟨K, pot, false, false⟩) = [("phi", 0), ("dphidN", 1)] := rfl
      refine ⟨Function.update (Function.update y0 1 vN) 0 (some ic.phi_i), rfl, ?_, ?_⟩
      · intro name i h
        rw [hidx] at h
        simp only [Dict.get?_cons, Dict.get?_nil] at h
        split_ifs at h with h1 h2 <;> (obtain rfl := Option.some.inj h) <;> subst_vars <;>
          simp [RowSpec, Function.update]
      · intro i hi
        have : 2 ≤ i := hi
        simp only [Function.update]
        split_ifs <;> first | omega | rfl
    · have hidx : Eqs.idx (.N ⟨K, pot, false, true⟩) = [("phi", 0), ("dphidN", 1), ("eta", 2)] := rfl
      obtain ⟨v, hv⟩ : ∃ v, ic.eta_i = some v := Option.ne_none_iff_exists'.1 (he rfl)
      refine ⟨Function.update (Function.update (Function.update y0 1 vN) 0 (some ic.phi_i)) 2 ic.eta_i,
        ?_, ?_, ?_⟩
      · simp only [writeY0, hidx, writeRow, Dict.get?_cons, Eqs.track_eta, hv]
        rfl
      · intro name i h
        rw [hidx] at h
        simp only [Dict.get?_cons, Dict.get?_nil] at h
        split_ifs at h with h1 h2 h3 <;> (obtain rfl := Option.some.inj h) <;> subst_vars <;>
          simp [RowSpec, Function.update]
      · intro i hi
        have : 3 ≤ i := hi
        simp only [Function.update]
        split_ifs <;> first | omega | rfl
    · have hidx : Eqs.idx (.N ⟨K, pot, true, false⟩) = [("phi", 0), ("dphidN", 1), ("t", 2)] := rfl
      obtain ⟨v, hv⟩ : ∃ v, ic.t_i = some v := Option.ne_none_iff_exists'.1 (ht rfl)
      refine ⟨Function.update (Function.update (Function.update y0 1 vN) 2 ic.t_i) 0 (some ic.phi_i),
        ?_, ?_, ?_⟩
      · simp only [writeY0, hidx, writeRow, Dict.get?_cons, Eqs.track_eta, hv]
        rfl
      · intro name i h
        rw [hidx] at h
        simp only [Dict.get?_cons, Dict.get?_nil] at h
        split_ifs at h with h1 h2 h3 <;> (obtain rfl := Option.some.inj h) <;> subst_vars <;>
          simp [RowSpec, Function.update]
      · intro i hi
        have : 3 ≤ i := hi
        simp only [Function.update]
        split_ifs <;> first | omega | rfl
    · have hidx : Eqs.idx (.N ⟨K, pot, true, true⟩) =
        [("phi", 0), ("dphidN", 1), ("t", 2), ("eta", 3)] := rfl
      obtain ⟨v, hv⟩ : ∃ v, ic.t_i = some v := Option.ne_none_iff_exists'.1 (ht rfl)
      obtain ⟨v', hv'⟩ : ∃ v, ic.eta_i = some v := Option.ne_none_iff_exists'.1 (he rfl)
      refine ⟨Function.update (Function.update (Function.update (Function.update y0 1 vN) 2 ic.t_i) 0
        (some ic.phi_i)) 3 ic.eta_i, ?_, ?_, ?_⟩
      · simp only [writeY0, hidx, writeRow, Dict.get?_cons, Eqs.track_eta, hv, hv']
        rfl
      · intro name i h
        rw [hidx] at h
        simp only [Dict.get?_cons, Dict.get?_nil] at h
        split_ifs at h with h1 h2 h3 h4 <;> (obtain rfl := Option.some.inj h) <;> subst_vars <;>
          simp [RowSpec, Function.update]
      · intro i hi
        have : 4 ≤ i := hi
        simp only [Function.update]
        split_ifs <;> first | omega | rfl

/-- **C26, `SlowRollIC`.**  For both formulations, with and without tracking, calling the initial
condition writes into every registered row the stored attribute of that name, whatever the vector
contained before, and touches no other row. -/
theorem C26_slowroll (E : Eqs) (ic : IC) (hg : GivesTracked E ic) (y0 : ℕ → Option ℝ) :
    ∃ y, SlowRollIC.call E ic y0 = .ok y ∧
      (∀ name i, E.idx.get? name = some i →
        RowSpec ic (SlowRollIC.dphidt_i ic) (SlowRollIC.dphidN_i ic) name (y i)) ∧
      (∀ i, E.idx.length ≤ i → y i = y0 i) :=
  C26.fill E ic _ _ hg y0

/-- **C26, `InflationStartIC`.** -/
theorem C26_inflationstart (E : Eqs) (ic : IC) (hg : GivesTracked E ic) (y0 : ℕ → Option ℝ) :
    ∃ y, InflationStartIC.call E ic y0 = .ok y ∧
      (∀ name i, E.idx.get? name = some i →
        RowSpec ic (InflationStartIC.dphidt_i ic) (InflationStartIC.dphidN_i ic) name (y i)) ∧
      (∀ i, E.idx.length ≤ i → y i = y0 i) :=
  C26.fill E ic _ _ hg y0

/-- **C26, every row is determined.**  Every row below `len(idx)` belongs to one of the six names
that `RowSpec` determines, so none keeps its initial content. -/
theorem C26_rows_covered (E : Eqs) (hE : ∀ K p, E ≠ .other K p) (i : ℕ) (hi : i < E.idx.length) :
    ∃ name ∈ ["phi", "_N", "t", "eta", "dphidt", "dphidN"], E.idx.get? name = some i := by
  cases E with
  | other K p => exact absurd rfl (hE K p)
  | T e =>
    obtain ⟨K, pot, te⟩ := e
    cases te with
    | false =>
      have hidx : Eqs.idx (.T ⟨K, pot, false⟩) = [("phi", 0), ("dphidt", 1), ("_N", 2)] := rfl
      rw [hidx] at hi ⊢
      simp only [List.length_cons, List.length_nil] at hi
      match i, hi with
      | 0, _ => exact ⟨"phi", by simp, rfl⟩
      | 1, _ => exact ⟨"dphidt", by simp, rfl⟩
      | 2, _ => exact ⟨"_N", by simp, rfl⟩
    | true =>
      have hidx : Eqs.idx (.T ⟨K, pot, true⟩) = [("phi", 0), ("dphidt", 1), ("_N", 2), ("eta", 3)] :=
        rfl
      rw [hidx] at hi ⊢
      simp only [List.length_cons, List.length_nil] at hi
      match i, hi with
      | 0, _ => exact ⟨"phi", by simp, rfl⟩
      | 1, _ => exact ⟨"dphidt", by simp, rfl⟩
      | 2, _ => exact ⟨"_N", by simp, rfl⟩
      | 3, _ => exact ⟨"eta", by simp, rfl⟩
  | N e =>
    obtain ⟨K, pot, tt, te⟩ := e
    cases tt <;> cases te
    · have hidx : Eqs.idx (.N ⟨K, pot, false, false⟩) = [("phi", 0), ("dphidN", 1)] := rfl
      rw [hidx] at hi ⊢
      simp only [List.length_cons, List.length_nil] at hi
      match i, hi with
      | 0, _ => exact ⟨"phi", by simp, rfl⟩
      | 1, _ => exact ⟨"dphidN", by simp, rfl⟩
    · have hidx : Eqs.idx (.N ⟨K, pot, false, true⟩) = [("phi", 0), ("dphidN", 1), ("eta", 2)] := rfl
      rw [hidx] at hi ⊢
      simp only [List.length_cons, List.length_nil] at hi
      match i, hi with
      | 0, _ => exact ⟨"phi", by simp, rfl⟩
      | 1, _ => exact ⟨"dphidN", by simp, rfl⟩
      | 2, _ => exact ⟨"eta", by simp, rfl⟩
    · have hidx : Eqs.idx (.N ⟨K, pot, true, false⟩) = [("phi", 0), ("dphidN", 1), ("t", 2)] := rfl
      rw [hidx] at hi ⊢
      simp only [List.length_cons, List.length_nil] at hi
      match i, hi with
      | 0, _ => exact ⟨"phi", by simp, rfl⟩
      | 1, _ => exact ⟨"dphidN", by simp, rfl⟩
      | 2, _ => exact ⟨"t", by simp, rfl⟩
    · have hidx : Eqs.idx (.N ⟨K, pot, true, true⟩) =
        [("phi", 0), ("dphidN", 1), ("t", 2), ("eta", 3)] := rfl
      rw [hidx] at hi ⊢
      simp only [List.length_cons, List.length_nil] at hi
      match i, hi with
      | 0, _ => exact ⟨"phi", by simp, rfl⟩
      | 1, _ => exact ⟨"dphidN", by simp, rfl⟩
      | 2, _ => exact ⟨"t", by simp, rfl⟩
      | 3, _ => exact ⟨"eta", by simp, rfl⟩

/-- Hypothesis met: e-folds with both tracked quantities given. -/
example (K : ℝ) (pot : PotFns) (ic : IC) (h1 : ic.t_i = some 0) (h2 : ic.eta_i = some 0) :
    GivesTracked (.N ⟨K, pot, true, true⟩) ic := by simp [GivesTracked, h1, h2]

end Primpy
