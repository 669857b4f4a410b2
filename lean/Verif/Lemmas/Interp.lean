import Verif.Model.Calibration

/-! Facts about the interpolation and masks used by the calibration. -/

namespace Primpy

/-- Strictly increasing in both coordinates. -/
def Increasing (l : List (ℝ × ℝ)) : Prop := l.Pairwise fun p q => p.1 < q.1 ∧ p.2 < q.2

theorem Increasing.swap {l : List (ℝ × ℝ)} (h : Increasing l) : Increasing (l.map Prod.swap) := by
  unfold Increasing at *
  rw [List.pairwise_map]
  exact h.imp fun hp => ⟨hp.2, hp.1⟩

/-- The interpolant stays above the first node's ordinate. -/
theorem interpSorted_lower {l : List (ℝ × ℝ)} : ∀ {p : ℝ × ℝ} {x y : ℝ}, Increasing (p :: l) →
    interpSorted (p :: l) x = .ok y → p.1 ≤ x ∧ p.2 ≤ y := by
  induction l with
  | nil => intro p x y _ h; simp [interpSorted] at h
  | cons q l ih =>
    intro p x y hinc h
    obtain ⟨hp, hl⟩ := List.pairwise_cons.1 hinc
    have hpq := hp q (by simp)
    rw [interpSorted] at h
    split_ifs at h with h1 h2
    · simp only [Except.ok.injEq] at h
      refine ⟨not_lt.1 h1, ?_⟩
      rw [← h]
      have : 0 ≤ (q.2 - p.2) / (q.1 - p.1) * (x - p.1) :=
        mul_nonneg (div_nonneg (by linarith) (by linarith)) (by linarith)
      linarith
    · have := ih (p := q) hl h
      exact ⟨by linarith, by linarith⟩

/-- **Inverse interpolation.**  Interpolating the swapped data at the interpolated value returns the
abscissa: for strictly increasing data the two `interp1d` objects are exact inverses. -/
theorem interpSorted_swap {l : List (ℝ × ℝ)} : ∀ {x y : ℝ}, Increasing l →
    interpSorted l x = .ok y → interpSorted (l.map Prod.swap) y = .ok x := by
  induction l with
  | nil => intro x y _ h; simp [interpSorted] at h
  | cons p l ih =>
    intro x y hinc h
    cases l with
    | nil => simp [interpSorted] at h
    | cons q l =>
      obtain ⟨hp, hl⟩ := List.pairwise_cons.1 hinc
      have hpq := hp q (by simp)
      have h0 := interpSorted_lower hinc h
      rw [interpSorted] at h
      simp only [List.map_cons, interpSorted, Prod.fst_swap, Prod.snd_swap]
      rw [if_neg (not_lt.2 h0.2)]
      split_ifs at h with h1 h2
      · simp only [Except.ok.injEq] at h
        have hd1 : 0 < q.1 - p.1 := by linarith
        have hd2 : 0 < q.2 - p.2 := by linarith
        have hyq : y ≤ q.2 := by
          rw [← h]
          have : (q.2 - p.2) / (q.1 - p.1) * (x - p.1) ≤ (q.2 - p.2) / (q.1 - p.1) * (q.1 - p.1) :=
            mul_le_mul_of_nonneg_left (by linarith) (div_nonneg hd2.le hd1.le)
          rw [div_mul_cancel₀ _ hd1.ne'] at this
          linarith
        rw [if_pos hyq]
        congr 1
        rw [← h]
        field_simp
        ring
      · have hq := interpSorted_lower hl h
        rcases hq.2.eq_or_lt with he | he
        · -- the value is exactly the node's ordinate: then x is the node's abscissa, contradiction
          exfalso
          push Not at h2
          have hx := ih hl h
          cases l with
          | nil => simp [interpSorted] at h
          | cons r l =>
            simp only [List.map_cons, interpSorted, Prod.fst_swap, Prod.snd_swap] at hx
            have hqr := (List.pairwise_cons.1 hl).1 r (by simp)
            rw [if_neg (not_lt.2 he.le), if_pos (by linarith)] at hx
            simp only [Except.ok.injEq] at hx
            rw [← he, sub_self, mul_zero, zero_add] at hx
            linarith
        · rw [if_neg (not_le.2 he)]
          have := ih hl h
          simpa using this

/-- Between first and last abscissa there is a value. -/
theorem interpSorted_total {l : List (ℝ × ℝ)} : ∀ {p q : ℝ × ℝ} {x : ℝ}, p.1 ≤ x → 
    (∃ r ∈ q :: l, x ≤ r.1) → ∃ y, interpSorted (p :: q :: l) x = .ok y := by
  induction l with
  | nil =>
    intro p q x h1 ⟨r, hr, h2⟩
    simp only [List.mem_singleton] at hr
    subst hr
    rw [interpSorted, if_neg (not_lt.2 h1), if_pos h2]
    exact ⟨_, rfl⟩
  | cons t l ih =>
    intro p q x h1 ⟨r, hr, h2⟩
    rw [interpSorted, if_neg (not_lt.2 h1)]
    split_ifs with h3
    · exact ⟨_, rfl⟩
    · rcases List.mem_cons.1 hr with rfl | hr
      · exact absurd h2 h3
      · exact ih (not_le.1 h3).le ⟨r, hr, h2⟩

/-- Below the first node the evaluation raises. -/
theorem interpSorted_below {l : List (ℝ × ℝ)} {p : ℝ × ℝ} {x : ℝ} (h : x < p.1) :
    ∃ m, interpSorted (p :: l) x = .error (.valueError m) := by
  cases l with
  | nil => exact ⟨_, rfl⟩
  | cons q l => rw [interpSorted, if_pos h]; exact ⟨_, rfl⟩

/-- The interpolant passes through the nodes. -/
theorem interpSorted_node {l : List (ℝ × ℝ)} : ∀ {p r : ℝ × ℝ}, 
    (p :: l).Pairwise (fun a b => a.1 < b.1) → l ≠ [] → r ∈ p :: l → interpSorted (p :: l) r.1 = .ok r.2 := by
  induction l with
  | nil => intro p r _ h; exact absurd rfl h
  | cons q l ih =>
    intro p r hs _ hr
    obtain ⟨hp, hl⟩ := List.pairwise_cons.1 hs
    have hpq := hp q (by simp)
    have hd : q.1 - p.1 ≠ 0 := by linarith
    rw [interpSorted]
    rcases List.mem_cons.1 hr with rfl | hr
    · rw [if_neg (lt_irrefl _), if_pos hpq.le]; simp
    · have h1 := hp r hr
      rw [if_neg (by linarith)]
      rcases List.mem_cons.1 hr with rfl | hr'
      · rw [if_pos le_rfl, div_mul_cancel₀ _ hd]; simp
      · have h2 := (List.pairwise_cons.1 hl).1 r hr'
        rw [if_neg (by linarith)]
        exact ih hl (List.ne_nil_of_mem hr') hr

/-- Data already sorted by abscissa is not reordered. -/
theorem interpL_sorted {xs ys : List ℝ} (h : (xs.zip ys).Pairwise fun a b => a.1 < b.1) (x : ℝ) :
    interpL xs ys x = interpSorted (xs.zip ys) x := by
  unfold interpL
  rw [List.Pairwise.insertionSort_eq]
  exact h.imp fun h => h.le

theorem zip_swap (xs ys : List ℝ) : (xs.zip ys).map Prod.swap = ys.zip xs := by
  simp [List.zip_swap]

/-- `interp1d(ys, xs)` inverts `interp1d(xs, ys)` on strictly increasing data. -/
theorem interpL_inverse {xs ys : List ℝ} (h : Increasing (xs.zip ys)) {x y : ℝ}
    (hxy : interpL xs ys x = .ok y) : interpL ys xs y = .ok x := by
  rw [interpL_sorted (h.imp fun h => h.1)] at hxy
  have h' : Increasing (ys.zip xs) := by rw [← zip_swap]; exact h.swap
  rw [interpL_sorted (h'.imp fun h => h.1), ← zip_swap]
  exact interpSorted_swap h hxy

/-! ### masks -/

theorem firstOccurrence_map {f : ℝ → ℝ} (hf : Function.Injective f) (l : List ℝ) :
    firstOccurrence (l.map f) = firstOccurrence l := by
  unfold firstOccurrence
  rw [List.length_map]
  apply List.map_congr_left
  intro i _
  congr 1
  simp only [List.getElem?_map, eq_iff_iff]
  refine forall₂_congr fun j _ => ?_
  rw [ne_eq, ne_eq, not_iff_not]
  exact ⟨fun h => Option.map_injective hf h, fun h => by rw [h]⟩

theorem andMask_idem (m f : List Bool) : andMask (andMask m f) f = andMask m f := by
  unfold andMask
  induction m generalizing f with
  | nil => simp
  | cons a m ih =>
    cases f with
    | nil => simp
    | cons b f => simp [ih]

theorem maskSel_map {α β : Type} (f : α → β) (xs : List α) (m : List Bool) :
    maskSel (xs.map f) m = (maskSel xs m).map f := by
  unfold maskSel
  induction xs generalizing m with
  | nil => simp
  | cons x xs ih =>
    cases m with
    | nil => simp
    | cons b m => cases b <;> simp [ih]

theorem maskSel_cons {α : Type} (x : α) (xs : List α) (b : Bool) (m : List Bool) :
    maskSel (x :: xs) (b :: m) = if b then x :: maskSel xs m else maskSel xs m := by
  unfold maskSel
  cases b <;> simp

theorem maskSel_zip (xs ys : List ℝ) (h : xs.length = ys.length) (m : List Bool) :
    (maskSel xs m).zip (maskSel ys m) = maskSel (xs.zip ys) m := by
  induction xs generalizing ys m with
  | nil => simp [maskSel]
  | cons x xs ih =>
    cases ys with
    | nil => simp at h
    | cons y ys =>
      cases m with
      | nil => simp [maskSel]
      | cons b m =>
        simp only [List.length_cons, Nat.add_right_cancel_iff] at h
        cases b <;> simp [maskSel_cons, ih ys h]

/-- `andMask` with first occurrences does not change the mask if no selected point repeats an earlier
value. -/
theorem andMask_firstOccurrence {l : List ℝ} {m : List Bool} (hlen : m.length = l.length)
    (h : ∀ i : ℕ, m[i]? = some true → ∀ j < i, l[j]? ≠ l[i]?) : andMask m (firstOccurrence l) = m := by
  apply List.ext_getElem
  · simp [andMask, firstOccurrence, hlen]
  · intro i h1 h2
    simp only [andMask, firstOccurrence, List.getElem_zipWith, List.getElem_map, List.getElem_range]
    cases hm : m[i] with
    | false => simp
    | true =>
      have := h i (by rw [List.getElem?_eq_getElem h2, hm])
      simp only [Bool.true_and, decide_eq_true_eq]
      exact this

end Primpy

namespace Primpy

/-- Shifting abscissae and ordinates shifts the interpolant. -/
theorem interpSorted_shift (d e : ℝ) {l : List (ℝ × ℝ)} : ∀ {x : ℝ},
    interpSorted (l.map fun p => (p.1 + d, p.2 + e)) (x + d) = (interpSorted l x).map (· + e) := by
  induction l with
  | nil => intro x; rfl
  | cons p l ih =>
    intro x
    cases l with
    | nil => rfl
    | cons q l =>
      simp only [List.map_cons, interpSorted]
      by_cases h1 : x < p.1
      · rw [if_pos (by linarith), if_pos h1]; rfl
      · rw [if_neg (by linarith), if_neg h1]
        by_cases h2 : x ≤ q.1
        · rw [if_pos (by linarith), if_pos h2]
          simp only [Except.map, Except.ok.injEq]
          rw [show q.2 + e - (p.2 + e) = q.2 - p.2 by ring, show q.1 + d - (p.1 + d) = q.1 - p.1 by ring]
          ring
        · rw [if_neg (by linarith), if_neg h2]
          exact ih

theorem zip_map_map (f g : ℝ → ℝ) (xs ys : List ℝ) :
    (xs.map f).zip (ys.map g) = (xs.zip ys).map fun p => (f p.1, g p.2) := by
  rw [List.zip_map]; rfl

open Classical in
theorem interpL_shift (d e : ℝ) (xs ys : List ℝ) (x : ℝ) :
    interpL (xs.map (· + d)) (ys.map (· + e)) (x + d) = (interpL xs ys x).map (· + e) := by
  unfold interpL
  rw [zip_map_map, ← interpSorted_shift d e]
  congr 1
  symm
  apply List.map_insertionSort
  intro a _ b _
  simp

/-- Selected first occurrences are pairwise distinct. -/
theorem maskSel_firstOccurrence_nodup (l : List ℝ) (m : List Bool) :
    (maskSel l (andMask m (firstOccurrence l))).Nodup := by
  have key : ∀ (l : List ℝ) (m : List Bool),
      (∀ i : ℕ, m[i]? = some true → ∀ j < i, l[j]? ≠ l[i]?) → (maskSel l m).Nodup := by
    intro l
    induction l with
    | nil => intro m _; simp [maskSel]
    | cons x l ih =>
      intro m hm
      cases m with
      | nil => simp [maskSel]
      | cons b m =>
        rw [maskSel_cons]
        have htail : (maskSel l m).Nodup := by
          refine ih m fun i hi j hj => ?_
          have := hm (i + 1) (by simpa using hi) (j + 1) (by omega)
          simpa using this
        split_ifs
        · refine List.nodup_cons.2 ⟨fun hx => ?_, htail⟩
          have : ∃ i : ℕ, m[i]? = some true ∧ l[i]? = some x := by
            unfold maskSel at hx
            rw [List.mem_filterMap] at hx
            obtain ⟨⟨y, c⟩, hmem, hy⟩ := hx
            obtain ⟨i, hi, hEq⟩ := List.mem_iff_getElem.1 hmem
            rw [List.getElem_zip, Prod.mk.injEq] at hEq
            rw [List.length_zip] at hi
            cases c with
            | false => simp at hy
            | true =>
              simp only [if_true, Option.some.injEq] at hy
              subst hy
              refine ⟨i, ?_, ?_⟩
              · rw [List.getElem?_eq_getElem (by omega), hEq.2]
              · rw [List.getElem?_eq_getElem (by omega), hEq.1]
          obtain ⟨i, h1, h2⟩ := this
          have := hm (i + 1) (by simpa using h1) 0 (by omega)
          simp [h2] at this
        · exact htail
  refine key l _ fun i hi => ?_
  unfold andMask firstOccurrence at hi
  rw [List.getElem?_zipWith] at hi
  cases h1 : m[i]? with
  | none => simp [h1] at hi
  | some b =>
    rw [h1, List.getElem?_map] at hi
    cases h2 : (List.range l.length)[i]? with
    | none => simp [h2] at hi
    | some k =>
      have hk : k = i := by
        rw [List.getElem?_eq_some_iff] at h2
        obtain ⟨h3, h4⟩ := h2
        rw [List.getElem_range] at h4
        exact h4.symm
      subst hk
      rw [h2] at hi
      simp only [Option.map_some, Option.some.injEq, Bool.and_eq_true, decide_eq_true_eq] at hi
      exact hi.2

end Primpy
