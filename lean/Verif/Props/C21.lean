import Verif.Lemmas.Dict
import Verif.Model.Background

/-!
# C21 — variable registration

A *history* is any interleaving of `_set_independent_variable(name)` and `add_variable(*names)`
calls on a freshly created `Equations` object.
-/

namespace Primpy

/-- One registration call. -/
inductive RegCall where
  | indep (name : String)
  | add (names : List String)

/-- Run one registration call. -/
def RegCall.run (e : Equations) : RegCall → Equations
  | .indep n => e.set_independent_variable n
  | .add ns => e.add_variable ns

/-- The object after a history of registration calls. -/
def afterCalls (h : List RegCall) : Equations := h.foldl RegCall.run Equations.new

/-- The variable names in the order in which a history adds them. -/
def addedNames : List RegCall → List String
  | [] => []
  | .indep _ :: h => addedNames h
  | .add ns :: h => ns ++ addedNames h

namespace C21

theorem add1_idx (e : Equations) (names : List String) (a : String) (h : e.idx = names.zipIdx)
    (ha : a ∉ names) : (e.add_variable1 a).idx = (names ++ [a]).zipIdx := by
  unfold Equations.add_variable1
  simp only [h]
  rw [Dict.set_of_not_mem (by simpa using ha)]
  simp [List.zipIdx_append]

theorem add_idx (ns : List String) : ∀ (e : Equations) (names : List String),
    e.idx = names.zipIdx → (names ++ ns).Nodup →
    (e.add_variable ns).idx = (names ++ ns).zipIdx := by
  induction ns with
  | nil => intro e names h _; simpa [Equations.add_variable] using h
  | cons a ns ih =>
    intro e names h hnd
    have ha : a ∉ names := by
      intro hmem
      rw [List.nodup_append] at hnd
      exact hnd.2.2 a hmem a (by simp) rfl
    have := ih (e.add_variable1 a) (names ++ [a]) (add1_idx e names a h ha) (by simpa using hnd)
    simpa [Equations.add_variable] using this

theorem run_idx (h : List RegCall) : ∀ (e : Equations) (names : List String),
    e.idx = names.zipIdx → (names ++ addedNames h).Nodup →
    (h.foldl RegCall.run e).idx = (names ++ addedNames h).zipIdx := by
  induction h with
  | nil => intro e names hi _; simpa [addedNames] using hi
  | cons c h ih =>
    intro e names hi hnd
    cases c with
    | indep n => exact ih _ names hi hnd
    | add ns =>
      simp only [addedNames, ← List.append_assoc] at hnd ⊢
      refine ih _ (names ++ ns) (add_idx ns e names hi ?_) hnd
      rw [List.nodup_append] at hnd
      exact hnd.1

theorem idx_eq (h : List RegCall) (hnd : (addedNames h).Nodup) :
    (afterCalls h).idx = (addedNames h).zipIdx := by
  have := run_idx h Equations.new [] (by simp [Equations.new]) (by simpa using hnd)
  simpa [afterCalls] using this

theorem get?_zipIdx {names : List String} (hnd : names.Nodup) (a : String) (i : ℕ) :
    Dict.get? names.zipIdx a = some i ↔ names[i]? = some a := by
  rw [Dict.get?_eq_some_of_nodup (by simpa using hnd)]
  rw [List.mem_zipIdx_iff_getElem?]

/-- accessors installed by `add_variable` -/
theorem add_methods (ns : List String) : ∀ (e : Equations) (a : String),
    (e.add_variable ns).methods.get? a =
      if a ∈ ns then some (.row a) else e.methods.get? a := by
  induction ns with
  | nil => intro e a; simp [Equations.add_variable]
  | cons b ns ih =>
    intro e a
    have := ih (e.add_variable1 b) a
    simp only [Equations.add_variable, List.foldl_cons] at this ⊢
    rw [this]
    by_cases h : a ∈ ns
    · simp [h]
    · simp only [h, if_false, Equations.add_variable1, Dict.get?_set, List.mem_cons, or_false]
      by_cases hb : a = b
      · subst hb; simp
      · simp [hb]

theorem run_methods (h : List RegCall) (a : String) (hi : ∀ n, RegCall.indep n ∈ h → n ≠ a) :
    ∀ e : Equations, (h.foldl RegCall.run e).methods.get? a =
      if a ∈ addedNames h then some (.row a) else e.methods.get? a := by
  induction h with
  | nil => intro e; simp [addedNames]
  | cons c h ih =>
    intro e
    have ih' := ih (fun n hn => hi n (List.mem_cons_of_mem _ hn)) (c.run e)
    rw [List.foldl_cons, ih']
    cases c with
    | indep n =>
      have hn : n ≠ a := hi n (by simp)
      simp only [addedNames, RegCall.run, Equations.set_independent_variable, Dict.get?_set,
        Ne.symm hn, if_false]
      by_cases h1 : a ∈ addedNames h <;> simp [h1]
    | add ns =>
      simp only [addedNames, RegCall.run, add_methods, List.mem_append]
      by_cases h1 : a ∈ addedNames h <;> by_cases h2 : a ∈ ns <;> simp [h1, h2]

theorem run_indep (h : List RegCall) (n : String) (hn : n ∉ addedNames h)
    (hi : ∀ m, RegCall.indep m ∈ h → m = n) :
    ∀ e : Equations, ((RegCall.indep n ∈ h) ∨ e.methods.get? n = some .indep) →
      (h.foldl RegCall.run e).methods.get? n = some .indep := by
  induction h with
  | nil => intro e h; simpa using h
  | cons c h ih =>
    intro e he
    rw [List.foldl_cons]
    cases c with
    | indep m =>
      have hm : m = n := hi m (by simp)
      subst hm
      refine ih hn (fun m' hm' => hi m' (List.mem_cons_of_mem _ hm')) _ (Or.inr ?_)
      simp [RegCall.run, Equations.set_independent_variable, Dict.get?_set]
    | add ns =>
      simp only [addedNames, List.mem_append, not_or] at hn
      refine ih hn.2 (fun m' hm' => hi m' (List.mem_cons_of_mem _ hm')) _ ?_
      rcases he with he | he
      · left; simpa using he
      · right; simp [RegCall.run, add_methods, hn.1, he]

end C21

/-- **C21, bijection.**  After any history of calls that adds pairwise distinct names, `idx` is a
bijection between those names and `0 … n-1`, in the order in which they were added. -/
theorem C21_bijection (h : List RegCall) (hnd : (addedNames h).Nodup) :
    (afterCalls h).idx.length = (addedNames h).length ∧
    (∀ a i, (afterCalls h).idx.get? a = some i ↔ (addedNames h)[i]? = some a) ∧
    (∀ a ∈ addedNames h, ∃! i, i < (addedNames h).length ∧ (afterCalls h).idx.get? a = some i) ∧
    (∀ i < (addedNames h).length, ∃! a, (afterCalls h).idx.get? a = some i) := by
  have key : ∀ a i, (afterCalls h).idx.get? a = some i ↔ (addedNames h)[i]? = some a := by
    intro a i; rw [C21.idx_eq h hnd]; exact C21.get?_zipIdx hnd a i
  refine ⟨by rw [C21.idx_eq h hnd]; simp, key, ?_, ?_⟩
  · intro a ha
    obtain ⟨i, hi, hia⟩ := List.getElem_of_mem ha
    refine ⟨i, ⟨hi, (key a i).2 (by simp [List.getElem?_eq_getElem hi, hia])⟩, ?_⟩
    rintro j ⟨_, hj⟩
    have := (key a i).2 (by simp [List.getElem?_eq_getElem hi, hia])
    rw [this] at hj
    exact (Option.some.inj hj).symm
  · intro i hi
    refine ⟨(addedNames h)[i], (key _ i).2 (by simp [List.getElem?_eq_getElem hi]), ?_⟩
    intro b hb
    have := (key b i).1 hb
    rw [List.getElem?_eq_getElem hi] at this
    exact (Option.some.inj this).symm

/-- **C21, accessors.**  In such a history every accessor returns exactly its own row of any
solution vector of the right length, and the accessor of the independent variable returns the
independent variable (for a history that sets one independent variable, whose name is not also
the name of a variable). -/
theorem C21_accessors {α : Type} (h : List RegCall) (hnd : (addedNames h).Nodup) (xname : String)
    (hset : RegCall.indep xname ∈ h) (honly : ∀ m, RegCall.indep m ∈ h → m = xname)
    (hx : xname ∉ addedNames h) (x : α) (y : List α) (hy : y.length = (afterCalls h).idx.length) :
    (∀ i (hi : i < y.length) a, (addedNames h)[i]? = some a →
      (afterCalls h).call a x y = some y[i]) ∧
    (afterCalls h).call xname x y = some x ∧
    (∀ a, a ∉ addedNames h → a ≠ xname → (afterCalls h).call a x y = none) := by
  have key := (C21_bijection h hnd).2.1
  refine ⟨?_, ?_, ?_⟩
  · intro i hi a ha
    have hmem : a ∈ addedNames h := List.mem_of_getElem? ha
    have hne : ∀ n, RegCall.indep n ∈ h → n ≠ a := by
      intro n hn e; subst e; exact hx (honly _ hn ▸ hmem)
    unfold Equations.call
    have hm := C21.run_methods h a hne Equations.new
    rw [if_pos hmem] at hm
    rw [show (afterCalls h).methods.get? a = some (.row a) from hm]
    simp [(key a i).2 ha, hi]
  · unfold Equations.call
    rw [show (afterCalls h).methods.get? xname = some .indep from
      C21.run_indep h xname hx honly Equations.new (Or.inl hset)]
  · intro a ha hax
    have hne : ∀ n, RegCall.indep n ∈ h → n ≠ a := by
      intro n hn e; exact hax (e ▸ honly n hn)
    unfold Equations.call
    have hm := C21.run_methods h a hne Equations.new
    rw [if_neg ha] at hm
    rw [show (afterCalls h).methods.get? a = none from hm]

/-- **C21, re-adding a name (no further name).**  The index of the re-added name is one past the
end of the vector of `len(idx)` numbers the solver allocates: reading it fails. -/
theorem C21_readd_out_of_range {α : Type} (h : List RegCall) (hnd : (addedNames h).Nodup)
    (a : String) (ha : a ∈ addedNames h) (x : α) (y : List α)
    (hy : y.length = (afterCalls (h ++ [.add [a]])).idx.length) :
    (afterCalls (h ++ [.add [a]])).call a x y = none := by
  have hidx := C21.idx_eq h hnd
  have hrun : afterCalls (h ++ [.add [a]]) = (afterCalls h).add_variable1 a := by
    simp [afterCalls, RegCall.run, Equations.add_variable]
  rw [hrun] at hy ⊢
  have hk : a ∈ ((afterCalls h).idx).map Prod.fst := by rw [hidx]; simpa using ha
  have hlen : y.length = (afterCalls h).idx.length := by
    rw [hy]; exact Dict.length_set_of_mem hk
  unfold Equations.call
  simp [Equations.add_variable1, Dict.get?_set, hlen]

/-- **C21, re-adding a name and then adding a fresh one.**  Two names share the last row and the
old row of the re-added name is no longer the row of any name. -/
theorem C21_readd_collision (h : List RegCall) (hnd : (addedNames h).Nodup)
    (a c : String) (i : ℕ) (ha : (addedNames h)[i]? = some a) (hc : c ∉ addedNames h) :
    let e := afterCalls (h ++ [.add [a, c]])
    e.idx.get? a = some (addedNames h).length ∧ e.idx.get? c = some (addedNames h).length ∧
    e.idx.length = (addedNames h).length + 1 ∧
    ∀ b, e.idx.get? b ≠ some i := by
  have hidx := C21.idx_eq h hnd
  have hmem : a ∈ addedNames h := List.mem_of_getElem? ha
  have hi : i < (addedNames h).length := by
    by_contra hcon
    rw [List.getElem?_eq_none (by omega)] at ha
    exact absurd ha (by simp)
  have hrun : afterCalls (h ++ [.add [a, c]]) =
      ((afterCalls h).add_variable1 a).add_variable1 c := by
    simp [afterCalls, RegCall.run, Equations.add_variable]
  have hk : a ∈ ((afterCalls h).idx).map Prod.fst := by rw [hidx]; simpa using hmem
  have hac : a ≠ c := fun e => hc (e ▸ hmem)
  have hl0 : (afterCalls h).idx.length = (addedNames h).length := by rw [hidx]; simp
  have hl : ((afterCalls h).add_variable1 a).idx.length = (addedNames h).length := by
    rw [← hl0]; exact Dict.length_set_of_mem hk
  have hck : c ∉ (((afterCalls h).add_variable1 a).idx).map Prod.fst := by
    rw [show ((afterCalls h).add_variable1 a).idx = (afterCalls h).idx.set a _ from rfl,
      Dict.keys_set_of_mem hk, hidx]
    simpa using hc
  intro e
  have he : e = ((afterCalls h).add_variable1 a).add_variable1 c := hrun
  have hget : ∀ b, e.idx.get? b = if b = c then some (addedNames h).length else
      if b = a then some (addedNames h).length else (afterCalls h).idx.get? b := by
    intro b
    rw [he]
    rw [show (((afterCalls h).add_variable1 a).add_variable1 c).idx =
      ((afterCalls h).add_variable1 a).idx.set c ((afterCalls h).add_variable1 a).idx.length from rfl,
      Dict.get?_set, hl]
    rw [show ((afterCalls h).add_variable1 a).idx =
      (afterCalls h).idx.set a (afterCalls h).idx.length from rfl, Dict.get?_set, hl0]
  refine ⟨?_, ?_, ?_, ?_⟩
  · rw [hget]; simp [hac]
  · rw [hget]; simp
  · rw [he]
    rw [show (((afterCalls h).add_variable1 a).add_variable1 c).idx =
      ((afterCalls h).add_variable1 a).idx.set c ((afterCalls h).add_variable1 a).idx.length from rfl,
      Dict.set_of_not_mem hck]
    simp [hl]
  · intro b
    rw [hget]
    split_ifs with h1 h2
    · simp; omega
    · simp; omega
    · rw [Ne, (C21_bijection h hnd).2.1 b i, ha]
      simpa using fun e => h2 e.symm

/-- **C21, shipped classes.**  The registered rows of the two shipped inflation classes: the
histories their constructors perform add distinct names. -/
theorem C21_shipped_T (Q : InflT) :
    Q.eqs.independent_variable = some "t" ∧
    Q.eqs.idx = (["phi", "dphidt", "_N"] ++ if Q.track_eta then ["eta"] else []).zipIdx := by
  unfold InflT.eqs
  cases Q.track_eta <;> exact ⟨rfl, rfl⟩

/-- **C21, shipped classes** (e-folds). -/
theorem C21_shipped_N (Q : InflN) :
    Q.eqs.independent_variable = some "_N" ∧
    Q.eqs.idx = (["phi", "dphidN"] ++ (if Q.track_time then ["t"] else [])
      ++ if Q.track_eta then ["eta"] else []).zipIdx := by
  unfold InflN.eqs
  cases Q.track_time <;> cases Q.track_eta <;> exact ⟨rfl, rfl⟩

/-- **C21, shipped classes: accessors.**  `equations.phi`, `.dphidt`, `._N`, `.eta`, `.t` read the
rows that the right-hand side (`__call__`) writes the corresponding derivatives to. -/
theorem C21_shipped_rows_T (Q : InflT) (x : ℝ) (y : List ℝ) (hy : y.length = Q.eqs.idx.length) :
    Q.eqs.call "t" x y = some x ∧
    Q.eqs.call "phi" x y = some (InflT.phi fun i => y.getD i 0) ∧
    Q.eqs.call "dphidt" x y = some (InflT.dphidt fun i => y.getD i 0) ∧
    Q.eqs.call "_N" x y = some (InflT._N fun i => y.getD i 0) ∧
    (Q.track_eta = true → Q.eqs.call "eta" x y = some (y.getD 3 0)) := by
  unfold InflT.eqs at hy ⊢
  cases h : Q.track_eta
  · rw [h] at hy
    obtain ⟨a, b, c, rfl⟩ : ∃ a b c, y = [a, b, c] := by
      match y, hy with
      | [a, b, c], _ => exact ⟨a, b, c, rfl⟩
    exact ⟨rfl, rfl, rfl, rfl, by simp⟩
  · rw [h] at hy
    obtain ⟨a, b, c, d, rfl⟩ : ∃ a b c d, y = [a, b, c, d] := by
      match y, hy with
      | [a, b, c, d], _ => exact ⟨a, b, c, d, rfl⟩
    exact ⟨rfl, rfl, rfl, rfl, fun _ => rfl⟩

/-- **C21, shipped classes: accessors** (e-folds). -/
theorem C21_shipped_rows_N (Q : InflN) (x : ℝ) (y : List ℝ) (hy : y.length = Q.eqs.idx.length) :
    Q.eqs.call "_N" x y = some x ∧
    Q.eqs.call "phi" x y = some (InflN.phi fun i => y.getD i 0) ∧
    Q.eqs.call "dphidN" x y = some (InflN.dphidN fun i => y.getD i 0) ∧
    (Q.track_time = true → Q.eqs.call "t" x y = some (y.getD 2 0)) ∧
    (Q.track_eta = true → Q.eqs.call "eta" x y = some (y.getD Q.etaRow 0)) := by
  unfold InflN.eqs InflN.etaRow at *
  cases h : Q.track_time <;> cases h' : Q.track_eta <;> rw [h, h'] at hy
  · match y, hy with
    | [a, b], _ => exact ⟨rfl, rfl, rfl, by simp, by simp⟩
  · match y, hy with
    | [a, b, c], _ => exact ⟨rfl, rfl, rfl, by simp, fun _ => rfl⟩
  · match y, hy with
    | [a, b, c], _ => exact ⟨rfl, rfl, rfl, fun _ => rfl, by simp⟩
  · match y, hy with
    | [a, b, c, d], _ => exact ⟨rfl, rfl, rfl, fun _ => rfl, fun _ => rfl⟩

/-- Hypotheses met: the history of `InflationEquationsT.__init__` with conformal time tracked. -/
example : (addedNames [.indep "t", .add ["phi", "dphidt", "_N"], .add ["eta"]]).Nodup ∧
    RegCall.indep "t" ∈ [RegCall.indep "t", .add ["phi", "dphidt", "_N"], .add ["eta"]] ∧
    "t" ∉ addedNames [.indep "t", .add ["phi", "dphidt", "_N"], .add ["eta"]] := by
  simp [addedNames]

example : (addedNames [.add ["phi", "dphidt"]])[0]? = some "phi" ∧
    "_N" ∉ addedNames [.add ["phi", "dphidt"]] := by simp [addedNames]

end Primpy
