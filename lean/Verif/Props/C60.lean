import Verif.Model.Version
import Mathlib.Data.List.Basic
import Mathlib.Tactic.Common

/-!
# C60: version bumping
-/

namespace Primpy
namespace Version

/-- Contract for `packaging.version.parse`: a plain `M.m.n` is read as such. -/
def Faithful (parse : Parser) : Prop := ∀ M m n : ℕ, parse (dotted [M, m, n]) = .ok { release := [M, m, n] }

/-- Specification: `new` is `old` with exactly one of the three components incremented by one and the following ones reset. -/
def UnitIncrement (old new : ℕ × ℕ × ℕ) : Prop :=
  new = (old.1, old.2.1, old.2.2 + 1) ∨ new = (old.1, old.2.1 + 1, 0) ∨ new = (old.1 + 1, 0, 0)

/-- the triple of a version -/
def V.triple (v : V) : ℕ × ℕ × ℕ := (v.major, v.minor, v.micro)

/-- **C60, the check on final releases.**  Without pre-release segments, `unit_incremented` accepts exactly the three unit increments. -/
theorem C60_accepts_iff {a b : V} (ha : a.pre = none) (hb : b.pre = none) :
    unitIncremented a b = true ↔ UnitIncrement b.triple a.triple := by
  unfold unitIncremented UnitIncrement V.triple
  rw [ha, hb]
  simp only [decide_eq_true_eq, Prod.mk.injEq]
  tauto

/-- **C60, bumping.**  For every current final release, `bump_version.py micro | minor | major` (and no argument: micro) produces exactly the named unit increment, and `unit_incremented` accepts it. -/
theorem C60_bump {b : V} (hb : b.pre = none) :
    bumped none b = [b.major, b.minor, b.micro + 1] ∧ bumped (some "micro") b = [b.major, b.minor, b.micro + 1] ∧
      bumped (some "minor") b = [b.major, b.minor + 1, 0] ∧ bumped (some "major") b = [b.major + 1, 0, 0] ∧
      ∀ t ∈ [none, some "micro", some "minor", some "major"], unitIncremented { release := bumped t b } b = true := by
  refine ⟨rfl, rfl, rfl, rfl, ?_⟩
  intro t ht
  rw [C60_accepts_iff rfl hb]
  simp only [List.mem_cons, List.not_mem_nil, or_false] at ht
  rcases ht with rfl | rfl | rfl | rfl
  · exact Or.inl rfl
  · exact Or.inl rfl
  · exact Or.inr (Or.inl rfl)
  · exact Or.inr (Or.inr rfl)

/-- **C60, short and long version numbers.**  Missing components count as zero and components beyond the third are ignored: bumping `M`, `M.m` or
`M.m.n.…` gives the increment of `M.0.0`, `M.m.0` or `M.m.n`. -/
theorem C60_components (M m n : ℕ) (l : List ℕ) (pre : Option (Text × ℕ)) :
    bumped none { release := [M], pre := pre } = [M, 0, 1] ∧ bumped none { release := [M, m], pre := pre } = [M, m, 1] ∧
    bumped none { release := M :: m :: n :: l, pre := pre } = [M, m, n + 1] ∧
    bumped (some "minor") { release := [M], pre := pre } = [M, 1, 0] ∧
    bumped (some "minor") { release := M :: m :: l, pre := pre } = [M, m + 1, 0] ∧
    bumped (some "major") { release := M :: l, pre := pre } = [M + 1, 0, 0] := ⟨rfl, rfl, rfl, rfl, rfl, rfl⟩

/-- **C60, mistyped argument.**  Any other argument leaves the triple unchanged, and the check rejects it. -/
theorem C60_unknown_type {b : V} {t : String} (hb : b.pre = none) (ht : t ∉ ["micro", "minor", "major"]) :
    bumped (some t) b = [b.major, b.minor, b.micro] ∧ unitIncremented { release := bumped (some t) b } b = false := by
  have h : bumped (some t) b = [b.major, b.minor, b.micro] := by
    simp only [List.mem_cons, List.not_mem_nil, or_false, not_or] at ht
    unfold bumped
    split
    next h => exact absurd h ht.1
    next h => exact absurd h ht.2.1
    next h => exact absurd h ht.2.2
    next => rfl
  refine ⟨h, ?_⟩
  rw [h, ← Bool.not_eq_true, C60_accepts_iff rfl hb]
  unfold UnitIncrement V.triple V.major V.minor V.micro
  simp

/-! ## Strings -/

theorem str_digit {n : ℕ} {c : Char} (h : c ∈ str n) : c.isDigit = true := Nat.isDigit_of_mem_toDigits (by decide) (by decide) h

theorem str_inj {m n : ℕ} (h : str m = str n) : m = n := by
  have := congrArg (fun t => Nat.ofDigitChars 10 t 0) h
  simpa [str] using this

theorem str_ne (n : ℕ) : str n ≠ [] := Nat.toDigits_ne_nil

theorem append_sep {a b a' b' : Text} {c : Char} (ha : c ∉ a) (ha' : c ∉ a') (h : a ++ c :: b = a' ++ c :: b') : a = a' ∧ b = b' := by
  induction a generalizing a' with
  | nil =>
    cases a' with
    | nil => simpa using h
    | cons x t => simp at h ha'; exact absurd h.1 ha'.1
  | cons x t ih =>
    cases a' with
    | nil => simp at h ha; exact absurd h.1.symm ha.1
    | cons y s =>
      simp only [List.cons_append, List.cons.injEq] at h
      simp only [List.mem_cons, not_or] at ha ha'
      obtain ⟨h1, h2⟩ := ih ha.2 ha'.2 h.2
      exact ⟨by rw [h.1, h1], h2⟩

theorem dot_str (n : ℕ) : '.' ∉ str n := fun h => absurd (str_digit h) (by decide)

theorem dotted_inj {M m n M' m' n' : ℕ} (h : dotted [M, m, n] = dotted [M', m', n']) : M = M' ∧ m = m' ∧ n = n' := by
  simp only [dotted] at h
  obtain ⟨h1, h⟩ := append_sep (dot_str _) (dot_str _) h
  obtain ⟨h2, h⟩ := append_sep (dot_str _) (dot_str _) h
  exact ⟨str_inj h1, str_inj h2, str_inj h⟩

theorem dotted_chars : ∀ {ns : List ℕ} {c : Char}, c ∈ dotted ns → c.isDigit = true ∨ c = '.'
  | [], _, h => by simp [dotted] at h
  | [n], _, h => Or.inl (str_digit h)
  | n :: m :: ns, c, h => by
    simp only [dotted, List.mem_append, List.mem_cons] at h
    rcases h with h | h | h
    · exact Or.inl (str_digit h)
    · exact Or.inr h
    · exact dotted_chars (ns := m :: ns) h

/-- **C60, pre-releases.**  Bumping from a pre-release `M.m.n{a,b,rc}k` is never accepted: the check then wants the final release with the same numbers, which `bump_version.py` produces only for a mistyped argument. -/
theorem C60_from_prerelease {M m n k : ℕ} {l : Text} {t : Option String} (ht : t ∈ [none, some "micro", some "minor", some "major"]) :
    unitIncremented { release := bumped t { release := [M, m, n], pre := some (l, k) } } { release := [M, m, n], pre := some (l, k) } = false := by
  simp only [unitIncremented, V.base, if_true, decide_eq_false_iff_not]
  simp only [List.mem_cons, List.not_mem_nil, or_false] at ht
  rcases ht with rfl | rfl | rfl | rfl <;>
  · intro h
    have := dotted_inj h
    simp [V.major, V.minor, V.micro] at this

/-- **C60, pre-releases to final.**  Accepted exactly if the base version is unchanged. -/
theorem C60_finalise {a b : V} {q : Text × ℕ} (ha : a.pre = none) (hb : b.pre = some q) : unitIncremented a b = true ↔ a.base = b.base := by
  unfold unitIncremented
  rw [ha, hb]
  simp

/-- **C60, negation: string comparison.**  Going from a final release to the first release candidate of the next minor version is rejected when the minor number goes from 9 to 10, for every major number. -/
theorem C60_string_reject (M : ℕ) (l : Text) : unitIncremented { release := [M, 10, 0], pre := some (l, 0) } { release := [M, 9, 0] } = false := by
  have key : ∀ t : Text, ¬ (t ++ ".9.0".toList < t ++ ".10.0".toList) := by
    intro t
    induction t with
    | nil => decide
    | cons c t ih =>
      rw [List.cons_append, List.cons_append, List.cons_lt_cons_iff]
      rintro (h | h)
      · exact absurd h (Char.lt_irrefl c)
      · exact ih h.2
  have : ¬ (dotted [M, 9, 0] < dotted [M, 10, 0]) := by
    have h := key (str M)
    exact h
  simp [unitIncremented, V.base, this]

/-- **C60, negation: skipped versions.**  The first release candidate of a version that skips eight major versions is accepted. -/
theorem C60_string_accept : unitIncremented { release := [9, 0, 0], pre := some ("rc".toList, 0) } { release := [1, 0, 0] } = true := by decide

/-! ## The two scripts -/

theorem replaceAll_nil (pat new : Text) : replaceAll pat new [] = [] := by unfold replaceAll; rfl

theorem replaceAll_cons (pat new : Text) (c : Char) (t : Text) : replaceAll pat new (c :: t) =
    if pat.isPrefixOf (c :: t) then new ++ replaceAll pat new (t.drop (pat.length - 1)) else c :: replaceAll pat new t := by
  conv_lhs => unfold replaceAll

/-- A character outside the pattern cuts the line into two independent parts. -/
theorem replaceAll_sep {pat new : Text} {c : Char} (hp : pat ≠ []) (hc : c ∉ pat) (b : Text) : ∀ n (a : Text), a.length = n →
    replaceAll pat new (a ++ c :: b) = replaceAll pat new a ++ c :: replaceAll pat new b := by
  have hmem : ∀ {x y : Text}, pat <+: x ++ c :: y → pat <+: x := by
    rintro x y ⟨s, hs⟩
    rcases List.append_eq_append_iff.1 hs with ⟨z, h1, -⟩ | ⟨z, h1, h2⟩
    · exact ⟨z, h1.symm⟩
    · cases z with
      | nil => rw [h1, List.append_nil]
      | cons w z =>
        rw [List.cons_append, List.cons.injEq] at h2
        exact absurd (by rw [h1, ← h2.1]; simp) hc
  intro n
  induction n using Nat.strong_induction_on with
  | _ n ih =>
    intro a ha
    cases a with
    | nil =>
      rw [List.nil_append, replaceAll_nil, List.nil_append, replaceAll_cons, if_neg]
      rw [List.isPrefixOf_iff_prefix]
      intro h
      cases pat with
      | nil => exact hp rfl
      | cons x p =>
        rw [List.cons_prefix_cons] at h
        exact hc (by rw [h.1]; simp)
    | cons x t =>
      rw [List.cons_append, replaceAll_cons, replaceAll_cons]
      have hiff : pat.isPrefixOf (x :: (t ++ c :: b)) = pat.isPrefixOf (x :: t) := by
        rw [Bool.eq_iff_iff, List.isPrefixOf_iff_prefix, List.isPrefixOf_iff_prefix]
        constructor
        · intro h
          exact hmem (x := x :: t) h
        · rintro ⟨s, hs⟩
          exact ⟨s ++ c :: b, by rw [← List.append_assoc, hs]; rfl⟩
      rw [hiff]
      by_cases h : pat.isPrefixOf (x :: t) = true
      · rw [if_pos h, if_pos h]
        have hl : pat.length ≤ t.length + 1 := by
          rw [List.isPrefixOf_iff_prefix] at h
          simpa using h.length_le
        rw [List.drop_append_of_le_length (by omega), ih _ (by simp at ha ⊢; omega) _ rfl]
        simp
      · rw [if_neg h, if_neg h, ih _ (by simp at ha; omega) _ rfl]
        rfl

/-- The pattern itself is replaced. -/
theorem replaceAll_self {pat new : Text} (hp : pat ≠ []) : replaceAll pat new pat = new := by
  cases pat with
  | nil => exact absurd rfl hp
  | cons x p =>
    rw [replaceAll_cons, if_pos (by rw [List.isPrefixOf_iff_prefix])]
    simp [replaceAll_nil]

/-- A text without the first character of the pattern is left alone. -/
theorem replaceAll_none {x : Char} {p new : Text} : ∀ {t : Text}, x ∉ t → replaceAll (x :: p) new t = t
  | [], _ => replaceAll_nil _ _
  | c :: t, h => by
    simp only [List.mem_cons, not_or] at h
    rw [replaceAll_cons, if_neg, replaceAll_none h.2]
    rw [List.isPrefixOf_iff_prefix, List.cons_prefix_cons]
    exact fun h' => h.1 h'.1

/-- A word disjoint from the replacement text occurs after the replacement only where it occurred before. -/
theorem prefix_replaceAll {pat new : Text} (hn : new ≠ []) : ∀ (n : ℕ) (t w : Text), t.length = n → (∀ c ∈ w, c ∉ new) →
    w <+: replaceAll pat new t → w <+: t := by
  intro n
  induction n with
  | zero =>
    intro t w ht _ h
    rw [List.length_eq_zero_iff] at ht
    rw [ht, replaceAll_nil] at h
    rw [ht]
    exact h
  | succ n ih =>
    intro t w ht hw h
    cases t with
    | nil => cases ht
    | cons x t =>
      cases w with
      | nil => exact List.nil_prefix
      | cons y w =>
        rw [replaceAll_cons] at h
        split_ifs at h with hpre
        · cases new with
          | nil => exact absurd rfl hn
          | cons z s =>
            rw [List.cons_append, List.cons_prefix_cons] at h
            exact absurd (by rw [h.1]; simp) (hw y (by simp))
        · rw [List.cons_prefix_cons] at h ⊢
          exact ⟨h.1, ih _ _ (by simpa using ht) (fun c hc => hw c (List.mem_cons_of_mem _ hc)) h.2⟩

theorem infix_append_disjoint {w a b : Text} (hw : w ≠ []) (h : ∀ c ∈ w, c ∉ a) (H : w <:+: a ++ b) : w <:+: b := by
  induction a with
  | nil => exact H
  | cons x a ih =>
    rw [List.cons_append, List.infix_cons_iff] at H
    rcases H with H | H
    · cases w with
      | nil => exact absurd rfl hw
      | cons y w =>
        rw [List.cons_prefix_cons] at H
        exact absurd (by rw [H.1]; simp) (h y (by simp))
    · exact ih (fun c hc hc' => h c hc (List.mem_cons_of_mem _ hc')) H

@[inherit_doc prefix_replaceAll]
theorem infix_replaceAll {pat new : Text} (hn : new ≠ []) {w : Text} (hne : w ≠ []) (hw : ∀ c ∈ w, c ∉ new) : ∀ (n : ℕ) (t : Text), t.length = n →
    w <:+: replaceAll pat new t → w <:+: t := by
  intro n
  induction n using Nat.strong_induction_on with
  | _ n ih =>
    intro t ht h
    cases t with
    | nil => rw [replaceAll_nil] at h; exact h
    | cons x t =>
      by_cases hpre : pat.isPrefixOf (x :: t) = true
      · rw [replaceAll_cons, if_pos hpre] at h
        have := ih _ (by simp at ht ⊢; omega) _ rfl (infix_append_disjoint hne hw h)
        exact (this.trans (List.drop_suffix _ _).isInfix).trans (List.suffix_cons _ _).isInfix
      · have h' := h
        rw [replaceAll_cons, if_neg hpre, List.infix_cons_iff] at h
        rcases h with h | h
        · exact (prefix_replaceAll hn (n := (x :: t).length) (x :: t) w rfl hw (by rw [replaceAll_cons, if_neg hpre]; exact h)).isInfix
        · exact (ih _ (by simp at ht; omega) _ rfl h).trans (List.suffix_cons _ _).isInfix

theorem afterLast_append {c : Char} {a b : Text} (hb : c ∉ b) : afterLast c (a ++ c :: b) = b := by
  unfold afterLast
  have : ∀ (s : Text) (r : Text), c ∉ s → (s ++ c :: r).takeWhile (· ≠ c) = s := by
    intro s
    induction s with
    | nil => intro r _; simp
    | cons x s ih =>
      intro r h
      simp only [List.mem_cons, not_or] at h
      rw [List.cons_append, List.takeWhile_cons, if_pos (by simpa using fun e => h.1 e.symm), ih r h.2]
  rw [List.reverse_append, List.reverse_cons, List.append_assoc]
  rw [show [c] ++ a.reverse = c :: a.reverse from rfl, this _ _ (by simpa using hb), List.reverse_reverse]

/-- `strip` removes a prefix and a suffix of stripped characters around a text that has none. -/
theorem strip_around {p : Char → Bool} {a v b : Text} (ha : ∀ c ∈ a, p c = true) (hb : ∀ c ∈ b, p c = true) (hv : ∀ c ∈ v, p c = false) (hne : v ≠ []) :
    strip p (a ++ v ++ b) = v := by
  have drop : ∀ (a v : Text), (∀ c ∈ a, p c = true) → v ≠ [] → (∀ c ∈ v.head?, p c = false) → (a ++ v).dropWhile p = v := by
    intro a
    induction a with
    | nil =>
      intro v _ hne h
      cases v with
      | nil => exact absurd rfl hne
      | cons x v => rw [List.nil_append, List.dropWhile_cons, if_neg (by simp [h x (by simp)])]
    | cons x a ih =>
      intro v h hne hv
      rw [List.cons_append, List.dropWhile_cons, if_pos (h x (by simp)), ih v (fun c hc => h c (List.mem_cons_of_mem _ hc)) hne hv]
  unfold strip
  rw [List.append_assoc, drop a (v ++ b) ha (by simp [hne]), List.reverse_append, drop b.reverse v.reverse (by simpa using hb) (by simpa using hne), List.reverse_reverse]
  · intro c hc
    exact hv c (by
      have := List.mem_of_mem_head? hc
      simpa using this)
  · intro c hc
    cases v with
    | nil => exact absurd rfl hne
    | cons x v => simp at hc; subst hc; exact hv _ (by simp)

/-- Specification: a version file, `... = 'v'` in its last line. -/
def IsVersionFile (v : Text) (file : List Text) : Prop := ∃ ls pre, file = ls ++ [pre ++ "= '".toList ++ v ++ "'".toList]

/-- Specification: a README with exactly one line mentioning `:Version:`, which is `:Version: v`. -/
def IsReadme (v : Text) (file : List Text) : Prop := ∃ ls ls', file = ls ++ [":Version: ".toList ++ v] ++ ls' ∧
  ∀ l ∈ ls ++ ls', ¬ ":Version:".toList <:+: l

theorem dotted_not {ns : List ℕ} {c : Char} (h : c.isDigit = false) (h' : c ≠ '.') : c ∉ dotted ns := by
  intro hc
  rcases dotted_chars hc with h1 | h1
  · rw [h1] at h; cases h
  · exact h' h1

theorem dotted_ne {n : ℕ} {ns : List ℕ} : dotted (n :: ns) ≠ [] := by
  cases ns with
  | nil => exact str_ne n
  | cons m ns => simp [dotted]

theorem digit_not_space {c : Char} (h : c.isDigit = true ∨ c = '.') : c.isWhitespace = false := by
  rcases h with h | rfl
  · by_contra hw
    simp only [Char.isWhitespace, Bool.not_eq_false, Bool.or_eq_true, decide_eq_true_eq] at hw
    rcases hw with ((rfl | rfl) | rfl) | rfl <;> revert h <;> decide
  · decide

theorem readVersion_eq {n : ℕ} {ns : List ℕ} {file : List Text} (h : IsVersionFile (dotted (n :: ns)) file) : readVersion file = dotted (n :: ns) := by
  obtain ⟨ls, pre, rfl⟩ := h
  unfold readVersion cat
  have hcat : ((ls ++ [pre ++ "= '".toList ++ dotted (n :: ns) ++ "'".toList]).map (· ++ ['\n'])).flatten =
      ((ls.map (· ++ ['\n'])).flatten ++ pre) ++ '=' :: ([' '] ++ (['\''] ++ dotted (n :: ns) ++ ['\'']) ++ ['\n']) := by
    simp
  rw [hcat, afterLast_append, strip_around, strip_around]
  · simp
  · simp
  · intro c hc
    by_contra h
    simp only [Bool.not_eq_false, decide_eq_true_eq] at h
    subst h
    exact dotted_not (by decide) (by decide) hc
  · exact dotted_ne
  · intro c hc
    simp only [List.mem_singleton] at hc
    subst hc
    decide
  · intro c hc
    simp only [List.mem_singleton] at hc
    subst hc
    decide
  · intro c hc
    simp only [List.mem_append, List.mem_singleton] at hc
    rcases hc with (rfl | hc) | rfl
    · decide
    · exact digit_not_space (dotted_chars hc)
    · decide
  · simp
  · have : '=' ∉ dotted (n :: ns) := dotted_not (by decide) (by decide)
    simp [this]

theorem readmeVersion_eq {n : ℕ} {ns : List ℕ} {file : List Text} (h : IsReadme (dotted (n :: ns)) file) : readmeVersion file = dotted (n :: ns) := by
  obtain ⟨ls, ls', rfl, hno⟩ := h
  unfold readmeVersion cat
  have hf : ∀ l : List Text, (∀ x ∈ l, ¬ ":Version:".toList <:+: x) → l.filter (fun l => decide (":Version:".toList <:+: l)) = [] := by
    intro l hl
    rw [List.filter_eq_nil_iff]
    intro x hx
    rw [decide_eq_true_eq]
    exact hl x hx
  rw [List.filter_append, List.filter_append, hf ls (fun x hx => hno x (List.mem_append_left _ hx)), hf ls' (fun x hx => hno x (List.mem_append_right _ hx)),
    List.filter_cons_of_pos (by
      rw [decide_eq_true_eq]
      exact ⟨[], [' '] ++ dotted (n :: ns), by simp⟩)]
  have hcat : (([] ++ (":Version: ".toList ++ dotted (n :: ns)) :: List.filter (fun l => decide (":Version:".toList <:+: l)) [] ++ []).map (· ++ ['\n'])).flatten =
      ":Version".toList ++ ':' :: ([' '] ++ dotted (n :: ns) ++ ['\n']) := by
    simp
  rw [hcat, afterLast_append, strip_around]
  · intro c hc
    simp only [List.mem_singleton] at hc
    subst hc
    decide
  · intro c hc
    simp only [List.mem_singleton] at hc
    subst hc
    decide
  · intro c hc
    exact digit_not_space (dotted_chars hc)
  · exact dotted_ne
  · have : ':' ∉ dotted (n :: ns) := dotted_not (by decide) (by decide)
    simp [this]

theorem dotted_head {n : ℕ} {ns : List ℕ} : ∃ x p, dotted (n :: ns) = x :: p ∧ (x.isDigit = true ∨ x = '.') := by
  cases h : dotted (n :: ns) with
  | nil => exact absurd h dotted_ne
  | cons x p => exact ⟨x, p, rfl, dotted_chars (by rw [h]; simp)⟩

theorem replaceAll_other {n : ℕ} {ns : List ℕ} {new t : Text} (h : ∀ c ∈ t, c.isDigit = false ∧ c ≠ '.') : replaceAll (dotted (n :: ns)) new t = t := by
  obtain ⟨x, p, hx, hd⟩ := dotted_head (n := n) (ns := ns)
  rw [hx]
  refine replaceAll_none fun hm => ?_
  obtain ⟨h1, h2⟩ := h x hm
  rcases hd with hd | hd
  · rw [hd] at h1; cases h1
  · exact h2 hd

/-- `sed` turns a version file / README for one version into one for the new version. -/
theorem sed_vfile {n n' : ℕ} {ns ns' : List ℕ} {file : List Text} (h : IsVersionFile (dotted (n :: ns)) file) :
    IsVersionFile (dotted (n' :: ns')) (file.map (replaceAll (dotted (n :: ns)) (dotted (n' :: ns')))) := by
  obtain ⟨ls, pre, rfl⟩ := h
  refine ⟨ls.map (replaceAll (dotted (n :: ns)) (dotted (n' :: ns'))), replaceAll (dotted (n :: ns)) (dotted (n' :: ns')) pre, ?_⟩
  rw [List.map_append, List.map_cons, List.map_nil]
  congr 2
  rw [show pre ++ "= '".toList ++ dotted (n :: ns) ++ "'".toList = pre ++ '=' :: ([' '] ++ '\'' :: (dotted (n :: ns) ++ '\'' :: [])) by simp,
    replaceAll_sep dotted_ne (dotted_not (by decide) (by decide)) _ _ _ rfl,
    replaceAll_sep dotted_ne (dotted_not (by decide) (by decide)) _ _ _ rfl,
    replaceAll_sep dotted_ne (dotted_not (by decide) (by decide)) _ _ _ rfl,
    replaceAll_self dotted_ne, replaceAll_nil, replaceAll_other (t := [' ']) (by decide)]
  simp

@[inherit_doc sed_vfile]
theorem sed_readme {n n' : ℕ} {ns ns' : List ℕ} {file : List Text} (h : IsReadme (dotted (n :: ns)) file) :
    IsReadme (dotted (n' :: ns')) (file.map (replaceAll (dotted (n :: ns)) (dotted (n' :: ns')))) := by
  obtain ⟨ls, ls', rfl, hno⟩ := h
  refine ⟨ls.map (replaceAll (dotted (n :: ns)) (dotted (n' :: ns'))), ls'.map (replaceAll (dotted (n :: ns)) (dotted (n' :: ns'))), ?_, ?_⟩
  · rw [List.map_append, List.map_append, List.map_cons, List.map_nil]
    congr 3
    rw [show ":Version: ".toList ++ dotted (n :: ns) = ":Version:".toList ++ ' ' :: dotted (n :: ns) by simp,
      replaceAll_sep dotted_ne (dotted_not (by decide) (by decide)) _ _ _ rfl, replaceAll_self dotted_ne, replaceAll_other (by decide)]
    simp
  · intro l hl
    rw [← List.map_append, List.mem_map] at hl
    obtain ⟨x, hx, rfl⟩ := hl
    intro hin
    refine hno x hx (infix_replaceAll dotted_ne (by decide) ?_ _ x rfl hin)
    intro c hc
    refine dotted_not ?_ ?_
    · revert c; decide
    · revert c; decide

/-- **C60, end to end.**  Starting from a version file and a README that state the same final release `M.m.n`, running `bump_version.py` (no argument, micro, minor or major) on a branch succeeds, leaves a version file and a README
that state the same unit increment of it, and the version check of the pull request against the old version file exits with 0. -/
theorem C60_end_to_end {parse : Parser} (hparse : Faithful parse) {M m n : ℕ} {vfile readme : List Text}
    (hv : IsVersionFile (dotted [M, m, n]) vfile) (hr : IsReadme (dotted [M, m, n]) readme) {t : Option String}
    (ht : t ∈ [none, some "micro", some "minor", some "major"]) :
    ∃ vfile' readme' M' m' n', bump parse t vfile readme = .ok (vfile', readme') ∧
      UnitIncrement (M, m, n) (M', m', n') ∧ IsVersionFile (dotted [M', m', n']) vfile' ∧ IsReadme (dotted [M', m', n']) readme' ∧
      check parse vfile' readme' vfile = .ok 0 := by
  have hb : ∃ M' m' n', bumped t { release := [M, m, n] } = [M', m', n'] ∧ UnitIncrement (M, m, n) (M', m', n') := by
    simp only [List.mem_cons, List.not_mem_nil, or_false] at ht
    rcases ht with rfl | rfl | rfl | rfl
    · exact ⟨M, m, n + 1, rfl, Or.inl rfl⟩
    · exact ⟨M, m, n + 1, rfl, Or.inl rfl⟩
    · exact ⟨M, m + 1, 0, rfl, Or.inr (Or.inl rfl)⟩
    · exact ⟨M + 1, 0, 0, rfl, Or.inr (Or.inr rfl)⟩
  obtain ⟨M', m', n', hb, hu⟩ := hb
  refine ⟨_, _, M', m', n', ?_, hu, sed_vfile hv, sed_readme hr, ?_⟩
  · unfold bump
    rw [readVersion_eq hv]
    dsimp only
    rw [hparse]
    dsimp only
    rw [hb, hparse]
  · unfold check
    rw [readVersion_eq (sed_vfile hv), readmeVersion_eq (sed_readme hr), readVersion_eq hv]
    dsimp only
    rw [hparse, hparse]
    dsimp only
    rw [if_neg (by simp [V.eqv])]
    rw [if_pos]
    rw [C60_accepts_iff rfl rfl]
    exact hu

theorem dropWhile_zeros (k : ℕ) (l : List ℕ) : (List.replicate k 0 ++ l).dropWhile (fun n => decide (n = 0)) = l.dropWhile (fun n => decide (n = 0)) := by
  induction k with
  | zero => simp
  | succ k ih => rw [List.replicate_succ, List.cons_append, List.dropWhile_cons, if_pos (by simp), ih]

theorem zeros_dropWhile (l : List ℕ) : ∃ k, l = List.replicate k 0 ++ l.dropWhile (fun n => decide (n = 0)) := by
  induction l with
  | nil => exact ⟨0, rfl⟩
  | cons a l ih =>
    by_cases ha : a = 0
    · obtain ⟨k, hk⟩ := ih
      refine ⟨k + 1, ?_⟩
      rw [List.dropWhile_cons, if_pos (by simp [ha]), List.replicate_succ, List.cons_append, ← hk, ha]
    · exact ⟨0, by rw [List.dropWhile_cons, if_neg (by simp [ha])]; rfl⟩

/-- **C60, equality.**  Two final releases of the same epoch count as the same version (README against version file) exactly if they agree
up to zeros at the end: `1.2` is `1.2.0`, and `1.2` is neither `1.2.1` nor `0.1.2`. -/
theorem C60_same_release (r r' : List ℕ) : V.eqv { release := r } { release := r' } ↔ ∃ i j, r ++ List.replicate i 0 = r' ++ List.replicate j 0 := by
  have htrim : ∀ (l : List ℕ) (k : ℕ), trim (l ++ List.replicate k 0) = trim l := by
    intro l k
    unfold trim
    rw [List.reverse_append, List.reverse_replicate, dropWhile_zeros]
  have hback : ∀ l : List ℕ, ∃ k, l = trim l ++ List.replicate k 0 := by
    intro l
    obtain ⟨k, hk⟩ := zeros_dropWhile l.reverse
    refine ⟨k, ?_⟩
    have := congrArg List.reverse hk
    rw [List.reverse_reverse, List.reverse_append, List.reverse_replicate] at this
    exact this
  constructor
  · rintro ⟨-, h, -, -⟩
    obtain ⟨k, hk⟩ := hback r
    obtain ⟨k', hk'⟩ := hback r'
    dsimp only at h
    refine ⟨k', k, ?_⟩
    rw [hk, hk', h, List.append_assoc, List.append_assoc, ← List.replicate_add, ← List.replicate_add, Nat.add_comm]
  · rintro ⟨i, j, h⟩
    have := congrArg trim h
    rw [htrim, htrim] at this
    exact ⟨rfl, this, rfl, rfl⟩

example : V.eqv { release := [1, 2] } { release := [1, 2, 0] } ∧ ¬ V.eqv { release := [1, 2] } { release := [1, 2, 1] } := by decide

/-- **C60, forgotten bump.**  A pull request that leaves the version file as it is fails the check, whatever the README. -/
theorem C60_unchanged_fails {parse : Parser} (hparse : Faithful parse) {M m n : ℕ} {vfile readme : List Text}
    (hv : IsVersionFile (dotted [M, m, n]) vfile) : check parse vfile readme vfile ≠ .ok 0 := by
  unfold check
  rw [readVersion_eq hv]
  dsimp only
  rw [hparse]
  cases parse (readmeVersion readme) with
  | error e => simp
  | ok r =>
    dsimp only
    split_ifs <;> simp
    rename_i h
    rw [C60_accepts_iff rfl rfl] at h
    simp [UnitIncrement, V.triple, V.major, V.minor, V.micro] at h

/-- The release parser `int(x) for x in s.split('.')`. -/
def demoParse (t : Text) : Except PyErr V :=
  let a := t.takeWhile (· ≠ '.')
  let r := (t.dropWhile (· ≠ '.')).drop 1
  let b := r.takeWhile (· ≠ '.')
  let c := (r.dropWhile (· ≠ '.')).drop 1
  .ok { release := [Nat.ofDigitChars 10 a 0, Nat.ofDigitChars 10 b 0, Nat.ofDigitChars 10 c 0] }

/-- Hypotheses met: a faithful parser exists, and the current files of the repository have the two shapes. -/
theorem demo_faithful : Faithful demoParse := by
  have htake : ∀ (s r : Text), '.' ∉ s → (s ++ '.' :: r).takeWhile (· ≠ '.') = s ∧ (s ++ '.' :: r).dropWhile (· ≠ '.') = '.' :: r := by
    intro s r
    induction s with
    | nil => intro _; simp
    | cons x s ih =>
      intro h
      simp only [List.mem_cons, not_or] at h
      have hx : decide (x ≠ '.') = true := by simpa using fun e => h.1 e.symm
      rw [List.cons_append, List.takeWhile_cons, if_pos hx, List.dropWhile_cons, if_pos hx, (ih h.2).1, (ih h.2).2]
      exact ⟨rfl, rfl⟩
  intro M m n
  unfold demoParse
  simp only [dotted]
  rw [(htake _ _ (dot_str M)).1, (htake _ _ (dot_str M)).2]
  simp only [List.drop_one, List.tail_cons]
  rw [(htake _ _ (dot_str m)).1, (htake _ _ (dot_str m)).2]
  simp [str]

example : IsVersionFile (dotted [2, 18, 3]) ["\"\"\"Version file for primpy.\"\"\"".toList, [], "__version__ = '2.18.3'".toList] ∧
    IsReadme (dotted [2, 18, 3]) [":primpy: calculations for the primordial Universe".toList, ":Author: Lukas Hergt".toList, ":Version: 2.18.3".toList,
      ":Homepage: https://github.com/lukashergt/primpy".toList] ∧
    ∃ f r, bump demoParse none ["__version__ = '2.18.3'".toList] [":Version: 2.18.3".toList] = .ok (f, r) ∧ check demoParse f r ["__version__ = '2.18.3'".toList] = .ok 0 := by
  refine ⟨⟨["\"\"\"Version file for primpy.\"\"\"".toList, []], "__version__ ".toList, by decide⟩,
    ⟨[":primpy: calculations for the primordial Universe".toList, ":Author: Lukas Hergt".toList], [":Homepage: https://github.com/lukashergt/primpy".toList], by decide, by decide⟩, ?_⟩
  obtain ⟨f, r, -, -, -, h1, -, -, -, h2⟩ := C60_end_to_end demo_faithful (M := 2) (m := 18) (n := 3) (vfile := ["__version__ = '2.18.3'".toList]) (readme := [":Version: 2.18.3".toList])
    ⟨[], "__version__ ".toList, by decide⟩ ⟨[], [], by decide, by simp⟩ (t := none) (by simp)
  exact ⟨f, r, h1, h2⟩

end Version
end Primpy
