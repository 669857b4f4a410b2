import Verif.Model.Equations

/-! # Facts about Python dictionaries -/

namespace Primpy
namespace Dict
variable {α : Type}

@[simp] theorem get?_nil (k : String) : get? ([] : Dict α) k = none := rfl

theorem get?_cons (k' : String) (v : α) (d : Dict α) (k : String) :
    get? ((k', v) :: d) k = if k = k' then some v else get? d k := by
  unfold get?
  by_cases h : k = k'
  · subst h; simp [List.lookup]
  · have : (k == k') = false := by simpa using h
    simp [List.lookup, this, h]

theorem get?_set (d : Dict α) (k : String) (v : α) (k' : String) :
    (d.set k v).get? k' = if k' = k then some v else d.get? k' := by
  induction d with
  | nil => simp [set, get?_cons]
  | cons p d ih =>
    obtain ⟨q, w⟩ := p
    unfold set
    by_cases h : k = q
    · subst h
      simp only [if_true, get?_cons]
      split_ifs <;> rfl
    · simp only [h, if_false, get?_cons, ih]
      by_cases h' : k' = q
      · subst h'
        simp [Ne.symm h]
      · simp [h']

theorem get?_del (d : Dict α) (k k' : String) :
    (d.del k).get? k' = if k' = k then none else d.get? k' := by
  induction d with
  | nil => simp [del]
  | cons p d ih =>
    obtain ⟨q, w⟩ := p
    unfold del at ih ⊢
    by_cases h : q = k
    · subst h
      simp only [ne_eq, not_true_eq_false, decide_false, Bool.false_eq_true, not_false_eq_true,
        List.filter_cons_of_neg, get?_cons]
      rw [ih]
      split_ifs <;> rfl
    · rw [List.filter_cons_of_pos (by simpa using h), get?_cons, get?_cons, ih]
      by_cases h' : k' = q
      · subst h'; simp [h]
      · simp [h']

theorem get?_eq_none {d : Dict α} {k : String} : d.get? k = none ↔ k ∉ d.map Prod.fst := by
  induction d with
  | nil => simp
  | cons p d ih =>
    obtain ⟨q, w⟩ := p
    rw [get?_cons]
    by_cases h : k = q
    · simp [h]
    · simp [h, ih]

theorem contains_iff {d : Dict α} {k : String} : d.contains k = true ↔ k ∈ d.map Prod.fst := by
  simp [contains]

theorem set_of_not_mem {d : Dict α} {k : String} {v : α} (h : k ∉ d.map Prod.fst) :
    d.set k v = d ++ [(k, v)] := by
  induction d with
  | nil => rfl
  | cons p d ih =>
    obtain ⟨q, w⟩ := p
    simp only [List.map_cons, List.mem_cons, not_or] at h
    simp [set, h.1, ih h.2]

theorem length_set_of_mem {d : Dict α} {k : String} {v : α} (h : k ∈ d.map Prod.fst) :
    (d.set k v).length = d.length := by
  induction d with
  | nil => simp at h
  | cons p d ih =>
    obtain ⟨q, w⟩ := p
    by_cases hk : k = q
    · simp [set, hk]
    · simp only [List.map_cons, List.mem_cons, hk, false_or] at h
      simp [set, hk, ih h]

theorem keys_set_of_mem {d : Dict α} {k : String} {v : α} (h : k ∈ d.map Prod.fst) :
    (d.set k v).map Prod.fst = d.map Prod.fst := by
  induction d with
  | nil => simp at h
  | cons p d ih =>
    obtain ⟨q, w⟩ := p
    by_cases hk : k = q
    · simp [set, hk]
    · simp only [List.map_cons, List.mem_cons, hk, false_or] at h
      simp [set, hk, ih h]

theorem get?_eq_some_of_nodup {d : Dict α} (hd : (d.map Prod.fst).Nodup) {k : String} {v : α} :
    d.get? k = some v ↔ (k, v) ∈ d := by
  induction d with
  | nil => simp
  | cons p d ih =>
    obtain ⟨q, w⟩ := p
    simp only [List.map_cons, List.nodup_cons] at hd
    rw [get?_cons]
    by_cases h : k = q
    · subst h
      simp only [if_true, Option.some.injEq, List.mem_cons, Prod.mk.injEq, true_and]
      constructor
      · intro h; exact Or.inl h.symm
      · rintro (h | h)
        · exact h.symm
        · exact absurd (List.mem_map_of_mem h) hd.1
    · simp [h, ih hd.2]

end Dict
end Primpy
