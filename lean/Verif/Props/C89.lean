import Verif.Props.C10
import Verif.Model.PotentialCtor
import Verif.Lemmas.Dict

/-!
# C89: potentials are built from their documented keywords and from nothing else
-/

namespace Primpy
open Real Spec Set

/-- Specification: the keywords a class cannot do without (its documented shape parameters). -/
def PotClass.required : PotClass → List String
  | .monomial => ["p"]
  | .linear | .quadratic | .cubic | .quartic | .starobinsky => []
  | .natural | .doubleWell2 | .doubleWell4 => ["phi0"]
  | .doubleWell => ["phi0", "p"]
  | .tmodel | .radionGauge => ["p", "alpha"]
  | .radionGauge2 => ["alpha"]
  | .starobinskyGaussianDip | .starobinskyTanhStep => ["phi_feature", "a_feature", "b_feature"]

/-- Specification: the exponent that is part of the class's name. -/
def PotClass.exponent : PotClass → Option ℝ
  | .linear => some 1
  | .quadratic | .doubleWell2 | .radionGauge2 => some 2
  | .cubic => some 3
  | .quartic | .doubleWell4 => some 4
  | _ => none

/-- `getattr(pot, k)` -/
def Shape.get (s : Shape) (k : String) : Option ℝ :=
  if k = "p" then s.p else if k = "phi0" then s.phi0 else if k = "alpha" then s.alpha else if k = "phi_feature" then s.phi_feature
  else if k = "a_feature" then s.a_feature else if k = "b_feature" then s.b_feature else none

/-- Specification: `RadionGaugePotential` needs an exponent with which `alpha**(1/p)` exists. -/
def PotClass.fits : PotClass → Shape → Prop
  | .radionGauge, s => s.p ≠ some 0 ∧ ¬ (s.alpha = some 0 ∧ ∃ p, s.p = some p ∧ p < 0)
  | _, _ => True

/-- Specification: the keywords that set the amplitude. -/
def AmplitudeKey (kw : Ctor.Kwargs) (k : String) : Prop :=
  k = "Lambda" ∨ (kw.get? "A_s" ≠ none ∧ (k = "A_s" ∨ k = "N_star" ∨ k = "phi_star"))

namespace Ctor

theorem bind_ok {α β : Type} {a : Except PyErr α} {f : α → Except PyErr β} {y : β} : (a >>= f) = .ok y ↔ ∃ z, a = .ok z ∧ f z = .ok y := by
  cases a with
  | error e => simp [Bind.bind, Except.bind]
  | ok z => simp [Bind.bind, Except.bind]

theorem pop_ok {kw : Kwargs} {k : String} {r : ℝ × Kwargs} : pop kw k = .ok r ↔ kw.get? k = some (some r.1) ∧ r.2 = kw.del k := by
  unfold pop
  rcases h : kw.get? k with _ | _ | x
  · simp
  · simp
  · obtain ⟨a, b⟩ := r
    simp
    intro _
    exact eq_comm

theorem popOpt_ok {kw : Kwargs} {k : String} {r : Option ℝ} : popOpt kw k = .ok r ↔ kw.get? k = r.map some := by
  unfold popOpt
  rcases h : kw.get? k with _ | _ | x
  · cases r <;> simp
  · cases r <;> simp
  · cases r <;> simp

theorem contains_false {kw : Kwargs} {k : String} : ¬ kw.contains k = true ↔ kw.get? k = none := by
  rw [Dict.contains_iff, Dict.get?_eq_none]

theorem withP_ok {v : ℝ} {kw r : Kwargs} : withP v kw = .ok r ↔ kw.get? "p" = none ∧ r = ("p", some v) :: kw := by
  unfold withP
  by_cases h : kw.contains "p" = true
  · rw [if_pos h]
    have := mt contains_false.2 (not_not.2 h)
    simp [this]
  · rw [if_neg h]
    simp [contains_false.1 h, eq_comm]

/-- Only what the keywords map to matters, not their order. -/
theorem potInit_congr (fam : ℝ → SRMethods) (L A : Option ℝ) (N P : Option (Option ℝ)) {o1 o2 : List String} (h : o1 = [] ↔ o2 = []) :
    potInit fam ⟨L, A, N, P, o1⟩ = potInit fam ⟨L, A, N, P, o2⟩ := by
  have h' : (o1 ≠ []) = (o2 ≠ []) := by rw [ne_eq, ne_eq, h]
  simp only [potInit, h']

theorem other_nil {kw : Kwargs} : (kw.map Prod.fst).filter (· ∉ ["Lambda", "A_s", "N_star", "phi_star"]) = [] ↔
    ∀ k, kw.get? k ≠ none → k ∈ ["Lambda", "A_s", "N_star", "phi_star"] := by
  rw [List.filter_eq_nil_iff]
  constructor
  · intro h k hk
    have := mt Dict.get?_eq_none.2 hk
    have := h k (not_not.1 this)
    simp at this ⊢
    tauto
  · intro h k hk
    have := h k (fun e => Dict.get?_eq_none.1 e hk)
    simp at this ⊢
    tauto

theorem popOpt_congr {kw kw' : Kwargs} (h : ∀ k, kw.get? k = kw'.get? k) (k : String) : popOpt kw k = popOpt kw' k := by
  unfold popOpt; rw [h]

theorem base_congr {o : PotOracles} {c : PotClass} {s : Shape} {kw kw' : Kwargs} (h : ∀ k, kw.get? k = kw'.get? k) :
    base o c s kw = base o c s kw' := by
  have e : ((kw.map Prod.fst).filter (· ∉ ["Lambda", "A_s", "N_star", "phi_star"]) = []) ↔
      ((kw'.map Prod.fst).filter (· ∉ ["Lambda", "A_s", "N_star", "phi_star"]) = []) := by
    rw [other_nil, other_nil]; simp only [h]
  unfold base
  simp only [popOpt_congr h, h, fun L A => potInit_congr (c.methods o s) L A (kw'.get? "N_star") (kw'.get? "phi_star") e]

theorem base_ok {o : PotOracles} {c : PotClass} {s : Shape} {kw : Kwargs} {x : Pot} : base o c s kw = .ok x ↔
    ∃ L A, kw.get? "Lambda" = Option.map some L ∧ kw.get? "A_s" = Option.map some A ∧ x.cls = c ∧ x.shape = s ∧
      (∀ k, kw.get? k ≠ none → AmplitudeKey kw k) ∧
      potInit (c.methods o s) ⟨L, A, kw.get? "N_star", kw.get? "phi_star", []⟩ = .ok (x.Lambda, x.warned) := by
  unfold base
  rw [bind_ok]
  constructor
  · rintro ⟨L, hL, h⟩
    obtain ⟨A, hA, h⟩ := bind_ok.1 h
    obtain ⟨⟨L', w⟩, h1, h2⟩ := bind_ok.1 h
    rw [popOpt_ok] at hL hA
    simp only [Except.ok.injEq] at h2
    subst h2
    refine ⟨L, A, hL, hA, rfl, rfl, ?_, ?_⟩
    · intro k hk
      unfold AmplitudeKey
      by_cases ho : (kw.map Prod.fst).filter (· ∉ ["Lambda", "A_s", "N_star", "phi_star"]) = []
      · have hm := other_nil.1 ho k hk
        simp only [List.mem_cons, List.not_mem_nil, or_false] at hm
        rcases hm with rfl | hm
        · exact Or.inl rfl
        · refine Or.inr ⟨?_, hm⟩
          rcases A with _ | a
          · exfalso
            rcases hm with rfl | rfl | rfl
            · exact hk (by rw [hA]; rfl)
            · obtain ⟨m, e⟩ := C10_unknown_without_As (c.methods o s) ⟨L, none, kw.get? "N_star", kw.get? "phi_star", _⟩ rfl (Or.inl hk)
              rw [e] at h1; cases h1
            · obtain ⟨m, e⟩ := C10_unknown_without_As (c.methods o s) ⟨L, none, kw.get? "N_star", kw.get? "phi_star", _⟩ rfl (Or.inr (Or.inl hk))
              rw [e] at h1; cases h1
          · rw [hA]; simp
      · exfalso
        rcases A with _ | a
        · obtain ⟨m, e⟩ := C10_unknown_without_As (c.methods o s) ⟨L, none, kw.get? "N_star", kw.get? "phi_star", _⟩ rfl (Or.inr (Or.inr ho))
          rw [e] at h1; cases h1
        · obtain ⟨m, e⟩ := C10_unknown_with_As (c.methods o s) ⟨L, some a, kw.get? "N_star", kw.get? "phi_star", _⟩ a rfl ho
          rw [e] at h1; cases h1
    · by_cases ho : (kw.map Prod.fst).filter (· ∉ ["Lambda", "A_s", "N_star", "phi_star"]) = []
      · rw [ho] at h1; exact h1
      · exfalso
        rcases A with _ | a
        · obtain ⟨m, e⟩ := C10_unknown_without_As (c.methods o s) ⟨L, none, kw.get? "N_star", kw.get? "phi_star", _⟩ rfl (Or.inr (Or.inr ho))
          rw [e] at h1; cases h1
        · obtain ⟨m, e⟩ := C10_unknown_with_As (c.methods o s) ⟨L, some a, kw.get? "N_star", kw.get? "phi_star", _⟩ a rfl ho
          rw [e] at h1; cases h1
  · rintro ⟨L, A, hL, hA, hc, hs, hk, hp⟩
    refine ⟨L, popOpt_ok.2 hL, bind_ok.2 ⟨A, popOpt_ok.2 hA, bind_ok.2 ⟨(x.Lambda, x.warned), ?_, ?_⟩⟩⟩
    · rw [other_nil.2]
      · exact hp
      · intro k h
        rcases hk k h with rfl | ⟨-, rfl | rfl | rfl⟩ <;> simp
    · subst hc hs
      rfl

theorem monomial_ok {o : PotOracles} {c : PotClass} {kw : Kwargs} {x : Pot} : monomial o c kw = .ok x ↔
    ∃ p, kw.get? "p" = some (some p) ∧ base o c { p := some p } (kw.del "p") = .ok x := by
  unfold monomial
  simp only [bind_ok, pop_ok, Prod.exists]
  exact ⟨fun ⟨p, _, ⟨h, rfl⟩, e⟩ => ⟨p, h, e⟩, fun ⟨p, h, e⟩ => ⟨p, _, ⟨h, rfl⟩, e⟩⟩

theorem natural_ok {o : PotOracles} {c : PotClass} {kw : Kwargs} {x : Pot} : natural o c kw = .ok x ↔
    ∃ p, kw.get? "phi0" = some (some p) ∧ base o c { phi0 := some p } (kw.del "phi0") = .ok x := by
  unfold natural
  simp only [bind_ok, pop_ok, Prod.exists]
  exact ⟨fun ⟨p, _, ⟨h, rfl⟩, e⟩ => ⟨p, h, e⟩, fun ⟨p, h, e⟩ => ⟨p, _, ⟨h, rfl⟩, e⟩⟩

theorem doubleWell_ok {o : PotOracles} {c : PotClass} {kw : Kwargs} {x : Pot} : doubleWell o c kw = .ok x ↔
    ∃ f p, kw.get? "phi0" = some (some f) ∧ kw.get? "p" = some (some p) ∧ base o c { phi0 := some f, p := some p } ((kw.del "phi0").del "p") = .ok x := by
  unfold doubleWell
  simp only [bind_ok, pop_ok, Prod.exists]
  constructor
  · rintro ⟨f, _, ⟨h, rfl⟩, p, _, ⟨h', rfl⟩, e⟩
    exact ⟨f, p, h, by simpa [Dict.get?_del] using h', e⟩
  · rintro ⟨f, p, h, h', e⟩
    exact ⟨f, _, ⟨h, rfl⟩, p, _, ⟨by simpa [Dict.get?_del] using h', rfl⟩, e⟩

theorem tmodel_ok {o : PotOracles} {c : PotClass} {kw : Kwargs} {x : Pot} : tmodel o c kw = .ok x ↔
    ∃ p a, kw.get? "p" = some (some p) ∧ kw.get? "alpha" = some (some a) ∧ base o c { p := some p, alpha := some a } ((kw.del "p").del "alpha") = .ok x := by
  unfold tmodel
  simp only [bind_ok, pop_ok, Prod.exists]
  constructor
  · rintro ⟨f, _, ⟨h, rfl⟩, p, _, ⟨h', rfl⟩, e⟩
    exact ⟨f, p, h, by simpa [Dict.get?_del] using h', e⟩
  · rintro ⟨f, p, h, h', e⟩
    exact ⟨f, _, ⟨h, rfl⟩, p, _, ⟨by simpa [Dict.get?_del] using h', rfl⟩, e⟩

theorem radionGauge_ok {o : PotOracles} {c : PotClass} {kw : Kwargs} {x : Pot} : radionGauge o c kw = .ok x ↔
    ∃ p a, kw.get? "p" = some (some p) ∧ kw.get? "alpha" = some (some a) ∧ ¬ (p = 0 ∨ (a = 0 ∧ p < 0)) ∧
      base o c { p := some p, alpha := some a } ((kw.del "p").del "alpha") = .ok x := by
  unfold radionGauge
  simp only [bind_ok, pop_ok, Prod.exists]
  constructor
  · rintro ⟨f, _, ⟨h, rfl⟩, p, _, ⟨h', rfl⟩, e⟩
    by_cases hz : f = 0 ∨ (p = 0 ∧ f < 0)
    · rw [if_pos hz] at e; cases e
    · rw [if_neg hz] at e
      exact ⟨f, p, h, by simpa [Dict.get?_del] using h', hz, e⟩
  · rintro ⟨f, p, h, h', hz, e⟩
    exact ⟨f, _, ⟨h, rfl⟩, p, _, ⟨by simpa [Dict.get?_del] using h', rfl⟩, by rw [if_neg hz]; exact e⟩

theorem feature_ok {o : PotOracles} {c : PotClass} {kw : Kwargs} {x : Pot} : feature o c kw = .ok x ↔
    ∃ f a b, kw.get? "phi_feature" = some (some f) ∧ kw.get? "a_feature" = some (some a) ∧ kw.get? "b_feature" = some (some b) ∧
      base o c { phi_feature := some f, a_feature := some a, b_feature := some b } (((kw.del "phi_feature").del "a_feature").del "b_feature") = .ok x := by
  unfold feature
  simp only [bind_ok, pop_ok, Prod.exists]
  constructor
  · rintro ⟨f, _, ⟨h, rfl⟩, a, _, ⟨h', rfl⟩, b, _, ⟨h'', rfl⟩, e⟩
    exact ⟨f, a, b, h, by simpa [Dict.get?_del] using h', by simpa [Dict.get?_del] using h'', e⟩
  · rintro ⟨f, a, b, h, h', h'', e⟩
    exact ⟨f, _, ⟨h, rfl⟩, a, _, ⟨by simpa [Dict.get?_del] using h', rfl⟩, b, _, ⟨by simpa [Dict.get?_del] using h'', rfl⟩, e⟩

/-- the keywords that are left for the base class -/
def rest (c : PotClass) (kw : Kwargs) : Kwargs := c.required.foldl Dict.del kw

theorem get?_rest (c : PotClass) (kw : Kwargs) (k : String) : (rest c kw).get? k = if k ∈ c.required then none else kw.get? k := by
  have key : ∀ (l : List String) (d : Kwargs), (l.foldl Dict.del d).get? k = if k ∈ l then none else d.get? k := by
    intro l
    induction l with
    | nil => intro d; simp
    | cons a l ih =>
      intro d
      rw [List.foldl_cons, ih, Dict.get?_del]
      by_cases h1 : k ∈ l <;> by_cases h2 : k = a <;> simp [h1, h2]
  exact key _ _

end Ctor

open Ctor

/-- Specification: the attributes `s` are those the class takes from the keywords. -/
structure TakenFrom (c : PotClass) (kw : Kwargs) (s : Shape) : Prop where
  given : ∀ k ∈ c.required, ∃ v, kw.get? k = some (some v) ∧ s.get k = some v
  fixed : ∀ k ∉ c.required, s.get k = if k = "p" then c.exponent else none
  fits : c.fits s

theorem Shape.ext_get {s s' : Shape} (h : ∀ k, s.get k = s'.get k) : s = s' := by
  obtain ⟨a1, a2, a3, a4, a5, a6⟩ := s
  obtain ⟨b1, b2, b3, b4, b5, b6⟩ := s'
  have h1 := h "p"
  have h2 := h "phi0"
  have h3 := h "alpha"
  have h4 := h "phi_feature"
  have h5 := h "a_feature"
  have h6 := h "b_feature"
  simp [Shape.get] at h1 h2 h3 h4 h5 h6
  subst h1 h2 h3 h4 h5 h6
  rfl

/-- A class whose constructor takes exactly its required keywords. -/
theorem constructs_plain {o : PotOracles} {c : PotClass} {kw : Kwargs} {x : Pot} (s : Shape) (d : Kwargs) (hd : ∀ k, d.get? k = (rest c kw).get? k) :
    base o c s d = .ok x ↔ base o c s (rest c kw) = .ok x := by rw [base_congr hd]

theorem no_stray {o : PotOracles} {c : PotClass} {kw : Kwargs} {s : Shape} {x : Pot} (h : base o c s (rest c kw) = .ok x) {k : String} (hk : k ∉ c.required)
    (h1 : k ≠ "Lambda") (h2 : k ≠ "A_s") (h3 : k ≠ "N_star") (h4 : k ≠ "phi_star") : kw.get? k = none := by
  by_contra hn
  obtain ⟨L, A, -, -, -, -, hkey, -⟩ := base_ok.1 h
  rcases hkey k (by rw [get?_rest, if_neg hk]; exact hn) with e | ⟨-, e | e | e⟩
  · exact h1 e
  · exact h2 e
  · exact h3 e
  · exact h4 e

theorem TakenFrom.unique {c : PotClass} {kw : Kwargs} {s s' : Shape} (h : TakenFrom c kw s) (h' : TakenFrom c kw s') : s = s' := by
  refine Shape.ext_get fun k => ?_
  by_cases hk : k ∈ c.required
  · obtain ⟨v, e1, e2⟩ := h.given k hk
    obtain ⟨w, e3, e4⟩ := h'.given k hk
    rw [e1] at e3
    rw [e2, e4]
    simpa using e3
  · rw [h.fixed k hk, h'.fixed k hk]

/-- closes `TakenFrom c kw s` for a concrete class and attributes -/
macro "taken" : tactic => `(tactic| (
  refine ⟨?_, ?_, ?_⟩
  · intro k hk
    simp only [PotClass.required, List.mem_cons, List.not_mem_nil, or_false] at hk <;>
    first
      | (subst hk; exact ⟨_, by assumption, rfl⟩)
      | (rcases hk with hk | hk <;> (subst hk; exact ⟨_, by assumption, rfl⟩))
      | (rcases hk with hk | hk | hk <;> (subst hk; exact ⟨_, by assumption, rfl⟩))
  · intro k hk
    simp_all [PotClass.required, Shape.get, PotClass.exponent]
  · first | trivial | assumption))

/-- closes equality of the keyword dictionaries handed to the base class -/
macro "samekeys" : tactic => `(tactic| (
  apply base_congr
  intro k
  simp only [get?_rest, Dict.get?_del, Dict.get?_cons, PotClass.required, List.mem_cons, List.not_mem_nil, or_false]
  (try split_ifs) <;> first | rfl | simp_all))

theorem construct_iff {o : PotOracles} {c : PotClass} {kw : Kwargs} {x : Pot} :
    construct o c kw = .ok x ↔ ∃ s, TakenFrom c kw s ∧ base o c s (rest c kw) = .ok x := by
  cases c with
  | monomial =>
    show monomial o _ kw = .ok x ↔ _
    rw [monomial_ok]
    constructor
    · rintro ⟨v0, h0, h⟩
      exact ⟨_, by taken, h⟩
    · rintro ⟨s, hs, h⟩
      obtain ⟨v0, h0, gh0⟩ := hs.given "p" (by simp [PotClass.required])
      have e := hs.unique (s' := { p := some v0 }) (by taken)
      subst e
      exact ⟨v0, h0, h⟩
  | linear =>
    show (withP 1 kw >>= monomial o _) = .ok x ↔ _
    simp only [bind_ok, withP_ok, monomial_ok]
    constructor
    · rintro ⟨z, ⟨hp, rfl⟩, vp, hvp, h⟩
      have e : 1 = vp := by simpa [Dict.get?_cons] using hvp
      subst e
      refine ⟨{ p := some 1 }, by taken, ?_⟩
      rw [← h]
      samekeys
    · rintro ⟨s, hs, h⟩
      have hp : kw.get? "p" = none := no_stray h (by simp [PotClass.required]) (by decide) (by decide) (by decide) (by decide)
      have e := hs.unique (s' := { p := some 1 }) (by taken)
      subst e
      refine ⟨_, ⟨hp, rfl⟩, 1, by simp [Dict.get?_cons], ?_⟩
      rw [← h]
      samekeys
  | quadratic =>
    show (if kw.contains "mass" then Except.error _ else withP 2 kw >>= monomial o _) = .ok x ↔ _
    by_cases hm : kw.contains "mass" = true
    · rw [if_pos hm]
      refine ⟨fun h => (by cases h), ?_⟩
      rintro ⟨s, hs, h⟩
      have := no_stray h (k := "mass") (by simp [PotClass.required]) (by decide) (by decide) (by decide) (by decide)
      exact absurd hm (contains_false.2 this)
    rw [if_neg hm]
    simp only [bind_ok, withP_ok, monomial_ok]
    constructor
    · rintro ⟨z, ⟨hp, rfl⟩, vp, hvp, h⟩
      have e : 2 = vp := by simpa [Dict.get?_cons] using hvp
      subst e
      refine ⟨{ p := some 2 }, by taken, ?_⟩
      rw [← h]
      samekeys
    · rintro ⟨s, hs, h⟩
      have hp : kw.get? "p" = none := no_stray h (by simp [PotClass.required]) (by decide) (by decide) (by decide) (by decide)
      have e := hs.unique (s' := { p := some 2 }) (by taken)
      subst e
      refine ⟨_, ⟨hp, rfl⟩, 2, by simp [Dict.get?_cons], ?_⟩
      rw [← h]
      samekeys
  | cubic =>
    show (withP 3 kw >>= monomial o _) = .ok x ↔ _
    simp only [bind_ok, withP_ok, monomial_ok]
    constructor
    · rintro ⟨z, ⟨hp, rfl⟩, vp, hvp, h⟩
      have e : 3 = vp := by simpa [Dict.get?_cons] using hvp
      subst e
      refine ⟨{ p := some 3 }, by taken, ?_⟩
      rw [← h]
      samekeys
    · rintro ⟨s, hs, h⟩
      have hp : kw.get? "p" = none := no_stray h (by simp [PotClass.required]) (by decide) (by decide) (by decide) (by decide)
      have e := hs.unique (s' := { p := some 3 }) (by taken)
      subst e
      refine ⟨_, ⟨hp, rfl⟩, 3, by simp [Dict.get?_cons], ?_⟩
      rw [← h]
      samekeys
  | quartic =>
    show (withP 4 kw >>= monomial o _) = .ok x ↔ _
    simp only [bind_ok, withP_ok, monomial_ok]
    constructor
    · rintro ⟨z, ⟨hp, rfl⟩, vp, hvp, h⟩
      have e : 4 = vp := by simpa [Dict.get?_cons] using hvp
      subst e
      refine ⟨{ p := some 4 }, by taken, ?_⟩
      rw [← h]
      samekeys
    · rintro ⟨s, hs, h⟩
      have hp : kw.get? "p" = none := no_stray h (by simp [PotClass.required]) (by decide) (by decide) (by decide) (by decide)
      have e := hs.unique (s' := { p := some 4 }) (by taken)
      subst e
      refine ⟨_, ⟨hp, rfl⟩, 4, by simp [Dict.get?_cons], ?_⟩
      rw [← h]
      samekeys
  | starobinsky =>
    show base o _ {} kw = .ok x ↔ _
    constructor
    · intro h; exact ⟨{}, by taken, h⟩
    · rintro ⟨s, h1, h2⟩
      rw [h1.unique (s' := {}) (by taken)] at h2
      exact h2
  | natural =>
    show natural o _ kw = .ok x ↔ _
    rw [natural_ok]
    constructor
    · rintro ⟨v0, h0, h⟩
      exact ⟨_, by taken, h⟩
    · rintro ⟨s, hs, h⟩
      obtain ⟨v0, h0, gh0⟩ := hs.given "phi0" (by simp [PotClass.required])
      have e := hs.unique (s' := { phi0 := some v0 }) (by taken)
      subst e
      exact ⟨v0, h0, h⟩
  | doubleWell =>
    show doubleWell o _ kw = .ok x ↔ _
    rw [doubleWell_ok]
    constructor
    · rintro ⟨v0, v1, h0, h1, h⟩
      exact ⟨_, by taken, h⟩
    · rintro ⟨s, hs, h⟩
      obtain ⟨v0, h0, gh0⟩ := hs.given "phi0" (by simp [PotClass.required])
      obtain ⟨v1, h1, gh1⟩ := hs.given "p" (by simp [PotClass.required])
      have e := hs.unique (s' := { phi0 := some v0, p := some v1 }) (by taken)
      subst e
      exact ⟨v0, v1, h0, h1, h⟩
  | doubleWell2 =>
    show (withP 2 kw >>= doubleWell o _) = .ok x ↔ _
    simp only [bind_ok, withP_ok, doubleWell_ok]
    constructor
    · rintro ⟨z, ⟨hp, rfl⟩, v0, vp, h0, hvp, h⟩
      have e : 2 = vp := by simpa [Dict.get?_cons] using hvp
      subst e
      have h0 : kw.get? "phi0" = some (some v0) := by simpa [Dict.get?_cons] using h0
      refine ⟨{ phi0 := some v0, p := some 2 }, by taken, ?_⟩
      rw [← h]
      samekeys
    · rintro ⟨s, hs, h⟩
      have hp : kw.get? "p" = none := no_stray h (by simp [PotClass.required]) (by decide) (by decide) (by decide) (by decide)
      obtain ⟨v0, h0, -⟩ := hs.given "phi0" (by simp [PotClass.required])
      have e := hs.unique (s' := { phi0 := some v0, p := some 2 }) (by taken)
      subst e
      refine ⟨_, ⟨hp, rfl⟩, v0, 2, by simp [Dict.get?_cons, h0], by simp [Dict.get?_cons], ?_⟩
      rw [← h]
      samekeys
  | doubleWell4 =>
    show (withP 4 kw >>= doubleWell o _) = .ok x ↔ _
    simp only [bind_ok, withP_ok, doubleWell_ok]
    constructor
    · rintro ⟨z, ⟨hp, rfl⟩, v0, vp, h0, hvp, h⟩
      have e : 4 = vp := by simpa [Dict.get?_cons] using hvp
      subst e
      have h0 : kw.get? "phi0" = some (some v0) := by simpa [Dict.get?_cons] using h0
      refine ⟨{ phi0 := some v0, p := some 4 }, by taken, ?_⟩
      rw [← h]
      samekeys
    · rintro ⟨s, hs, h⟩
      have hp : kw.get? "p" = none := no_stray h (by simp [PotClass.required]) (by decide) (by decide) (by decide) (by decide)
      obtain ⟨v0, h0, -⟩ := hs.given "phi0" (by simp [PotClass.required])
      have e := hs.unique (s' := { phi0 := some v0, p := some 4 }) (by taken)
      subst e
      refine ⟨_, ⟨hp, rfl⟩, v0, 4, by simp [Dict.get?_cons, h0], by simp [Dict.get?_cons], ?_⟩
      rw [← h]
      samekeys
  | tmodel =>
    show tmodel o _ kw = .ok x ↔ _
    rw [tmodel_ok]
    constructor
    · rintro ⟨v0, v1, h0, h1, h⟩
      exact ⟨_, by taken, h⟩
    · rintro ⟨s, hs, h⟩
      obtain ⟨v0, h0, gh0⟩ := hs.given "p" (by simp [PotClass.required])
      obtain ⟨v1, h1, gh1⟩ := hs.given "alpha" (by simp [PotClass.required])
      have e := hs.unique (s' := { p := some v0, alpha := some v1 }) (by taken)
      subst e
      exact ⟨v0, v1, h0, h1, h⟩
  | radionGauge =>
    show radionGauge o _ kw = .ok x ↔ _
    rw [radionGauge_ok]
    constructor
    · rintro ⟨v0, v1, h0, h1, hz, h⟩
      have hf : PotClass.radionGauge.fits { p := some v0, alpha := some v1 } := by
        refine ⟨fun e => hz (Or.inl (by simpa using e)), ?_⟩
        rintro ⟨e1, p, e2, e3⟩
        simp only [Option.some.injEq] at e1 e2
        exact hz (Or.inr ⟨e1, e2 ▸ e3⟩)
      exact ⟨_, by taken, h⟩
    · rintro ⟨s, hs, h⟩
      obtain ⟨v0, h0, gh0⟩ := hs.given "p" (by simp [PotClass.required])
      obtain ⟨v1, h1, gh1⟩ := hs.given "alpha" (by simp [PotClass.required])
      have e : s = { p := some v0, alpha := some v1 } := Shape.ext_get fun k => by
        by_cases a : k = "p"
        · subst a; exact gh0
        · by_cases b : k = "alpha"
          · subst b; exact gh1
          · rw [hs.fixed k (by simp [PotClass.required, a, b])]; simp [Shape.get, a, b]
      subst e
      refine ⟨v0, v1, h0, h1, ?_, h⟩
      rintro (rfl | ⟨rfl, hn⟩)
      · exact hs.fits.1 rfl
      · exact hs.fits.2 ⟨rfl, v0, rfl, hn⟩
  | radionGauge2 =>
    show (withP 2 kw >>= radionGauge o _) = .ok x ↔ _
    simp only [bind_ok, withP_ok, radionGauge_ok]
    constructor
    · rintro ⟨z, ⟨hp, rfl⟩, vp, v1, hvp, h1, hz, h⟩
      have e : 2 = vp := by simpa [Dict.get?_cons] using hvp
      subst e
      have h1 : kw.get? "alpha" = some (some v1) := by simpa [Dict.get?_cons] using h1
      refine ⟨{ p := some 2, alpha := some v1 }, by taken, ?_⟩
      rw [← h]
      samekeys
    · rintro ⟨s, hs, h⟩
      have hp : kw.get? "p" = none := no_stray h (by simp [PotClass.required]) (by decide) (by decide) (by decide) (by decide)
      obtain ⟨v1, h1, -⟩ := hs.given "alpha" (by simp [PotClass.required])
      have e := hs.unique (s' := { p := some 2, alpha := some v1 }) (by taken)
      subst e
      refine ⟨_, ⟨hp, rfl⟩, 2, v1, by simp [Dict.get?_cons], by simp [Dict.get?_cons, h1], by norm_num, ?_⟩
      rw [← h]
      samekeys
  | starobinskyGaussianDip =>
    show feature o _ kw = .ok x ↔ _
    rw [feature_ok]
    constructor
    · rintro ⟨v0, v1, v2, h0, h1, h2, h⟩
      exact ⟨_, by taken, h⟩
    · rintro ⟨s, hs, h⟩
      obtain ⟨v0, h0, gh0⟩ := hs.given "phi_feature" (by simp [PotClass.required])
      obtain ⟨v1, h1, gh1⟩ := hs.given "a_feature" (by simp [PotClass.required])
      obtain ⟨v2, h2, gh2⟩ := hs.given "b_feature" (by simp [PotClass.required])
      have e := hs.unique (s' := { phi_feature := some v0, a_feature := some v1, b_feature := some v2 }) (by taken)
      subst e
      exact ⟨v0, v1, v2, h0, h1, h2, h⟩
  | starobinskyTanhStep =>
    show feature o _ kw = .ok x ↔ _
    rw [feature_ok]
    constructor
    · rintro ⟨v0, v1, v2, h0, h1, h2, h⟩
      exact ⟨_, by taken, h⟩
    · rintro ⟨s, hs, h⟩
      obtain ⟨v0, h0, gh0⟩ := hs.given "phi_feature" (by simp [PotClass.required])
      obtain ⟨v1, h1, gh1⟩ := hs.given "a_feature" (by simp [PotClass.required])
      obtain ⟨v2, h2, gh2⟩ := hs.given "b_feature" (by simp [PotClass.required])
      have e := hs.unique (s' := { phi_feature := some v0, a_feature := some v1, b_feature := some v2 }) (by taken)
      subst e
      exact ⟨v0, v1, v2, h0, h1, h2, h⟩

/-- the methods of the classes are scale-free -/
theorem scaleFree_methods (o : PotOracles) (c : PotClass) (s : Shape) : ScaleFree (c.methods o s) := by
  cases c with
  | monomial => exact C09_monomial _
  | linear => exact C09_monomial _
  | quadratic => exact C09_quadratic
  | cubic => exact C09_monomial _
  | quartic => exact C09_monomial _
  | starobinsky => exact C09_starobinsky _
  | natural => exact C09_natural _
  | doubleWell => exact C09_doublewell _ _ _
  | doubleWell2 => exact C09_doublewell2 _
  | doubleWell4 => exact C09_doublewell _ _ _
  | tmodel => exact C09_tmodel _ _
  | radionGauge => exact C09_radiongauge _ _ _
  | radionGauge2 => exact C09_radiongauge2 _
  | starobinskyGaussianDip => exact C09_feature _ _
  | starobinskyTanhStep => exact C09_feature _ _

theorem amplitudeKey_rest {c : PotClass} {kw : Kwargs} {k : String} (h : AmplitudeKey (rest c kw) k) : AmplitudeKey kw k := by
  rcases h with h | ⟨h, e⟩
  · exact Or.inl h
  · refine Or.inr ⟨?_, e⟩
    rw [get?_rest] at h
    by_cases hm : "A_s" ∈ c.required
    · rw [if_pos hm] at h; exact absurd rfl h
    · rwa [if_neg hm] at h

theorem amplitude_not_required (c : PotClass) : "A_s" ∉ c.required ∧ "Lambda" ∉ c.required ∧ "N_star" ∉ c.required ∧ "phi_star" ∉ c.required := by
  cases c <;> simp [PotClass.required]

/-- **C89, nothing else**: whatever the keywords, a potential that could be built has the class that was called, takes every required shape parameter
from the keyword of that name, has the exponent of its name, and no keyword was ignored: every one of them is a shape parameter of the class,
`Lambda`, or (only together with `A_s`) one of `A_s`, `N_star`, `phi_star`. -/
theorem C89_accepts {o : PotOracles} {c : PotClass} {kw : Kwargs} {x : Pot} (h : construct o c kw = .ok x) :
    x.cls = c ∧ TakenFrom c kw x.shape ∧ ∀ k, kw.get? k ≠ none → k ∈ c.required ∨ AmplitudeKey kw k := by
  obtain ⟨s, hs, h⟩ := construct_iff.1 h
  obtain ⟨L, A, hL, hA, hc, rfl, hk, -⟩ := base_ok.1 h
  refine ⟨hc, hs, fun k h' => ?_⟩
  by_cases hm : k ∈ c.required
  · exact Or.inl hm
  · exact Or.inr (amplitudeKey_rest (hk k (by rwa [get?_rest, if_neg hm])))

/-- **C89, the documented keywords suffice**: with the required parameters, an optional `Lambda` and nothing else, construction succeeds, without a
warning, and stores exactly what was passed (`Lambda = 1` by default). -/
theorem C89_builds {o : PotOracles} {c : PotClass} {kw : Kwargs} {s : Shape} (hs : TakenFrom c kw s) {L : Option ℝ} (hL : kw.get? "Lambda" = L.map some)
    (ho : ∀ k, kw.get? k ≠ none → k ∈ c.required ∨ k = "Lambda") : construct o c kw = .ok ⟨c, s, L.getD 1, false⟩ := by
  obtain ⟨n1, n2, n3, n4⟩ := amplitude_not_required c
  have none' : ∀ k, k ∉ c.required → k ≠ "Lambda" → kw.get? k = none := fun k h1 h2 => by
    by_contra hn
    exact (ho k hn).elim h1 h2
  refine construct_iff.2 ⟨s, hs, base_ok.2 ⟨L, none, ?_, ?_, rfl, rfl, ?_, ?_⟩⟩
  · rw [get?_rest, if_neg n2, hL]
  · rw [get?_rest, if_neg n1]; exact none' _ n1 (by decide)
  · intro k hk
    rw [get?_rest] at hk
    by_cases hm : k ∈ c.required
    · rw [if_pos hm] at hk; exact absurd rfl hk
    · rw [if_neg hm] at hk
      exact Or.inl ((ho k hk).resolve_left hm)
  · rw [get?_rest, get?_rest, if_neg n3, if_neg n4, none' _ n3 (by decide), none' _ n4 (by decide)]
    exact C10_Lambda_only _ _

/-- **C89, the amplitude**: built with `A_s = A > 0`, the potential has the slow-roll amplitude `A` at the field `phi_star` that was passed, or at the field
`sr_N2phi` answers for the `N_star` that was passed (where the potential and its first slow-roll parameter are positive); exactly one of the two was
passed.  The constructor warns if and only if a `Lambda` other than 1 was passed as well. -/
theorem C89_amplitude {o : PotOracles} {c : PotClass} {kw : Kwargs} {x : Pot} (h : construct o c kw = .ok x) {A : ℝ} (hA : kw.get? "A_s" = some (some A))
    (hA0 : 0 < A) (hL : kw.get? "Lambda" ≠ some (some 0)) :
    ∃ φ, (kw.get? "phi_star" = some (some φ) ∧ kw.get? "N_star" ∈ [none, some none] ∨
        ∃ N, kw.get? "N_star" = some (some N) ∧ kw.get? "phi_star" ∈ [none, some none] ∧ (c.methods o x.shape 1).sr_N2phi N = .ok φ) ∧
      (0 < (c.methods o x.shape 1).V φ → 0 < (c.methods o x.shape 1).get_epsilon_1V φ → slowRollAmplitude (c.methods o x.shape x.Lambda) φ = A) ∧
      (x.warned = true ↔ ∃ L, kw.get? "Lambda" = some (some L) ∧ L ≠ 1) := by
  obtain ⟨n1, n2, n3, n4⟩ := amplitude_not_required c
  obtain ⟨s, hs, h⟩ := construct_iff.1 h
  obtain ⟨L, A', hL', hA', hc, rfl, hk, hp⟩ := base_ok.1 h
  rw [get?_rest, if_neg n1, hA] at hA'
  rw [get?_rest, if_neg n2] at hL'
  rw [get?_rest, if_neg n3, get?_rest, if_neg n4] at hp
  obtain rfl : A' = some A := by
    cases A' with
    | none => simp at hA'
    | some a => simpa using hA'.symm
  have sf := scaleFree_methods o c x.shape
  have hL0 : L.getD 1 ≠ 0 := by
    cases L with
    | none => simp
    | some l =>
      intro e
      apply hL
      rw [hL']
      simp at e
      simp [e]
  have pos : ∀ φ, 0 < (c.methods o x.shape 1).V φ → 0 < (c.methods o x.shape (L.getD 1)).V φ := by
    intro φ h
    obtain ⟨v, hv⟩ := sf.amplitude
    rw [hv] at h ⊢
    have : 0 < v φ := by simpa using h
    positivity
  have eps := sf.eps 1 _ one_ne_zero hL0
  have n2p := sf.N2phi 1 _ one_ne_zero hL0
  have p2n := sf.phi2N 1 _ one_ne_zero hL0
  have warn : ∀ w : Bool, (w = true ↔ ∃ l, L = some l ∧ l ≠ 1) → (w = true ↔ ∃ l, kw.get? "Lambda" = some (some l) ∧ l ≠ 1) := by
    intro w hw
    rw [hw, hL']
    cases L <;> simp
  have warn' : x.warned = decide (L.getD 1 ≠ 1) := by
    unfold potInit at hp
    simp only at hp
    split at hp
    · cases hp
    · obtain ⟨⟨a, b, d⟩, -, h2⟩ := bind_ok.1 hp
      have h3 : decide (L.getD 1 ≠ 1) = x.warned := by
        rw [if_neg (by simp)] at h2
        exact congrArg Prod.snd (Except.ok.inj h2)
      exact h3.symm
  have warn2 : x.warned = true ↔ ∃ l, kw.get? "Lambda" = some (some l) ∧ l ≠ 1 := by
    apply warn
    rw [warn']
    cases L <;> simp
  rcases eN : kw.get? "N_star" with _ | _ | N <;> rcases eP : kw.get? "phi_star" with _ | _ | φ
  · rw [eN, eP] at hp
    obtain ⟨m, e⟩ := C10_As_alone (c.methods o x.shape) ⟨L, some A, none, none, []⟩ A rfl rfl rfl
    rw [e] at hp; cases hp
  · rw [eN, eP] at hp
    simp [potInit, sr_As2Lambda, Bind.bind, Except.bind] at hp
  · refine ⟨φ, Or.inl ⟨rfl, by simp⟩, fun h1 h2 => ?_, warn2⟩
    rw [eN, eP] at hp
    rcases e : (c.methods o x.shape (L.getD 1)).sr_phi2N φ with m | N
    · simp [potInit, sr_As2Lambda, Bind.bind, Except.bind, e] at hp
    · obtain ⟨L1, w, e1, e2, -⟩ := C10_As_phistar _ sf ⟨L, some A, none, some (some φ), []⟩ A N φ rfl hA0 (Or.inl rfl) rfl rfl hL0 e (pos _ h1) (eps ▸ h2)
      rw [e1] at hp
      obtain ⟨rfl, rfl⟩ : L1 = x.Lambda ∧ w = x.warned := by simpa using hp
      exact e2
  · rw [eN, eP] at hp
    simp [potInit, sr_As2Lambda, Bind.bind, Except.bind] at hp
  · rw [eN, eP] at hp
    simp [potInit, sr_As2Lambda, Bind.bind, Except.bind] at hp
  · refine ⟨φ, Or.inl ⟨rfl, by simp⟩, fun h1 h2 => ?_, warn2⟩
    rw [eN, eP] at hp
    rcases e : (c.methods o x.shape (L.getD 1)).sr_phi2N φ with m | N
    · simp [potInit, sr_As2Lambda, Bind.bind, Except.bind, e] at hp
    · obtain ⟨L1, w, e1, e2, -⟩ := C10_As_phistar _ sf ⟨L, some A, some none, some (some φ), []⟩ A N φ rfl hA0 (Or.inr rfl) rfl rfl hL0 e (pos _ h1) (eps ▸ h2)
      rw [e1] at hp
      obtain ⟨rfl, rfl⟩ : L1 = x.Lambda ∧ w = x.warned := by simpa using hp
      exact e2
  · rw [eN, eP] at hp
    rcases e : (c.methods o x.shape (L.getD 1)).sr_N2phi N with m | φ
    · simp [potInit, sr_As2Lambda, Bind.bind, Except.bind, e] at hp
    · refine ⟨φ, Or.inr ⟨N, rfl, by simp, by rw [n2p, e]⟩, fun h1 h2 => ?_, warn2⟩
      obtain ⟨L1, w, e1, e2, -⟩ := C10_As_Nstar _ sf ⟨L, some A, some (some N), none, []⟩ A N φ rfl hA0 rfl (Or.inl rfl) rfl hL0 e (pos _ h1) (eps ▸ h2)
      rw [e1] at hp
      obtain ⟨rfl, rfl⟩ : L1 = x.Lambda ∧ w = x.warned := by simpa using hp
      exact e2
  · rw [eN, eP] at hp
    rcases e : (c.methods o x.shape (L.getD 1)).sr_N2phi N with m | φ
    · simp [potInit, sr_As2Lambda, Bind.bind, Except.bind, e] at hp
    · refine ⟨φ, Or.inr ⟨N, rfl, by simp, by rw [n2p, e]⟩, fun h1 h2 => ?_, warn2⟩
      obtain ⟨L1, w, e1, e2, -⟩ := C10_As_Nstar _ sf ⟨L, some A, some (some N), some none, []⟩ A N φ rfl hA0 rfl (Or.inr rfl) rfl hL0 e (pos _ h1) (eps ▸ h2)
      rw [e1] at hp
      obtain ⟨rfl, rfl⟩ : L1 = x.Lambda ∧ w = x.warned := by simpa using hp
      exact e2
  · rw [eN, eP] at hp
    simp [potInit, sr_As2Lambda, Bind.bind, Except.bind] at hp

theorem pop_bind_congr {kw kw' : Kwargs} (h : ∀ k, kw.get? k = kw'.get? k) (k : String) {g g' : ℝ × Kwargs → Except PyErr Pot}
    (hg : ∀ v d d', (∀ k, Dict.get? d k = Dict.get? d' k) → g (v, d) = g' (v, d')) : (pop kw k >>= g) = (pop kw' k >>= g') := by
  unfold pop
  rw [h]
  rcases kw'.get? k with _ | _ | v
  · rfl
  · rfl
  · exact hg v _ _ fun q => by rw [Dict.get?_del, Dict.get?_del, h]

theorem withP_bind_congr {kw kw' : Kwargs} (h : ∀ k, kw.get? k = kw'.get? k) (v : ℝ) {g : Kwargs → Except PyErr Pot}
    (hg : ∀ d d', (∀ k, Dict.get? d k = Dict.get? d' k) → g d = g d') : (withP v kw >>= g) = (withP v kw' >>= g) := by
  have hc : kw.contains "p" = kw'.contains "p" := by
    rw [Bool.eq_iff_iff, ← not_iff_not, contains_false, contains_false, h]
  unfold withP
  rw [hc]
  by_cases hp : kw'.contains "p" = true
  · rw [if_pos hp, if_pos hp]
  · rw [if_neg hp, if_neg hp]
    exact hg _ _ fun q => by rw [Dict.get?_cons, Dict.get?_cons, h]

theorem monomial_congr {o : PotOracles} {c : PotClass} {kw kw' : Kwargs} (h : ∀ k, kw.get? k = kw'.get? k) : monomial o c kw = monomial o c kw' :=
  pop_bind_congr h _ fun _ _ _ e => base_congr e
theorem doubleWell_congr {o : PotOracles} {c : PotClass} {kw kw' : Kwargs} (h : ∀ k, kw.get? k = kw'.get? k) : doubleWell o c kw = doubleWell o c kw' :=
  pop_bind_congr h _ fun _ _ _ e => pop_bind_congr e _ fun _ _ _ e => base_congr e
theorem radionGauge_congr {o : PotOracles} {c : PotClass} {kw kw' : Kwargs} (h : ∀ k, kw.get? k = kw'.get? k) : radionGauge o c kw = radionGauge o c kw' :=
  pop_bind_congr h _ fun v _ _ e => pop_bind_congr e _ fun a _ _ e => by
    show (if v = 0 ∨ (a = 0 ∧ v < 0) then _ else _) = (if v = 0 ∨ (a = 0 ∧ v < 0) then _ else _)
    rw [base_congr e]

/-- **C89, order**: keyword order does not matter, for the result or for the error. -/
theorem C89_order {o : PotOracles} {c : PotClass} {kw kw' : Kwargs} (h : ∀ k, kw.get? k = kw'.get? k) : construct o c kw = construct o c kw' := by
  cases c with
  | monomial => exact monomial_congr h
  | linear => exact withP_bind_congr h _ fun _ _ e => monomial_congr e
  | quadratic =>
    have hc : kw.contains "mass" = kw'.contains "mass" := by
      rw [Bool.eq_iff_iff, ← not_iff_not, contains_false, contains_false, h]
    show (if kw.contains "mass" then _ else _) = (if kw'.contains "mass" then _ else _)
    rw [hc, withP_bind_congr h _ fun _ _ e => monomial_congr e]
  | cubic => exact withP_bind_congr h _ fun _ _ e => monomial_congr e
  | quartic => exact withP_bind_congr h _ fun _ _ e => monomial_congr e
  | starobinsky => exact base_congr h
  | natural => exact pop_bind_congr h _ fun _ _ _ e => base_congr e
  | doubleWell => exact doubleWell_congr h
  | doubleWell2 => exact withP_bind_congr h _ fun _ _ e => doubleWell_congr e
  | doubleWell4 => exact withP_bind_congr h _ fun _ _ e => doubleWell_congr e
  | tmodel => exact pop_bind_congr h _ fun _ _ _ e => pop_bind_congr e _ fun _ _ _ e => base_congr e
  | radionGauge => exact radionGauge_congr h
  | radionGauge2 => exact withP_bind_congr h _ fun _ _ e => radionGauge_congr e
  | starobinskyGaussianDip =>
    exact pop_bind_congr h _ fun _ _ _ e => pop_bind_congr e _ fun _ _ _ e => pop_bind_congr e _ fun _ _ _ e => base_congr e
  | starobinskyTanhStep =>
    exact pop_bind_congr h _ fun _ _ _ e => pop_bind_congr e _ fun _ _ _ e => pop_bind_congr e _ fun _ _ _ e => base_congr e

/-- The keywords that describe a potential: its required parameters and its `Lambda`. -/
def Pot.kwargs (x : Pot) : Kwargs := ("Lambda", some x.Lambda) :: x.cls.required.map fun k => (k, x.shape.get k)

theorem get?_kwargs (x : Pot) (k : String) :
    x.kwargs.get? k = if k = "Lambda" then some (some x.Lambda) else if k ∈ x.cls.required then some (x.shape.get k) else none := by
  have key : ∀ l : List String, Dict.get? (l.map fun k => (k, x.shape.get k)) k = if k ∈ l then some (x.shape.get k) else none := by
    intro l
    induction l with
    | nil => rfl
    | cons a l ih =>
      rw [List.map_cons, Dict.get?_cons, ih]
      by_cases e : k = a
      · subst e; simp
      · simp [e]
  unfold Pot.kwargs
  rw [Dict.get?_cons, key]

/-- **C89, round trip**: a potential built in any way (in particular from `A_s`) is rebuilt from its attributes, without a warning. -/
theorem C89_rebuild {o : PotOracles} {c : PotClass} {kw : Kwargs} {x : Pot} (h : construct o c kw = .ok x) :
    construct o c x.kwargs = .ok { x with warned := false } := by
  obtain ⟨rfl, hs, -⟩ := C89_accepts h
  have n2 := (amplitude_not_required x.cls).2.1
  refine C89_builds (s := x.shape) (L := some x.Lambda) ⟨?_, hs.fixed, hs.fits⟩ ?_ ?_
  · intro k hk
    obtain ⟨v, -, e⟩ := hs.given k hk
    refine ⟨v, ?_, e⟩
    rw [get?_kwargs, if_neg (show k ≠ "Lambda" from fun q => n2 (q ▸ hk)), if_pos hk, e]
  · rw [get?_kwargs, if_pos rfl]; rfl
  · intro k hk
    rw [get?_kwargs] at hk
    by_cases e : k = "Lambda"
    · exact Or.inr e
    · rw [if_neg e] at hk
      by_contra hn
      push Not at hn
      rw [if_neg hn.1] at hk
      exact hk rfl

/-- the call reports a missing keyword among `R` -/
def Misses (R : List String) (kw : Kwargs) (e : Except PyErr Pot) : Prop := ∃ k ∈ R, kw.get? k = none ∧ e = .error (.keyError k)

theorem Misses.step {R : List String} {kw d : Kwargs} {k : String} {g : ℝ × Kwargs → Except PyErr Pot} (hd : d.get? k ≠ some none)
    (h1 : d.get? k = none → Misses R kw (.error (.keyError k))) (h2 : ∀ v, d.get? k = some (some v) → Misses R kw (g (v, d.del k))) :
    Misses R kw (pop d k >>= g) := by
  unfold pop
  rcases e : d.get? k with _ | _ | v
  · exact h1 e
  · exact absurd e hd
  · exact h2 v e

/-- **C89, errors**: a missing required parameter is reported by a `KeyError` with its name (if the others are numbers and no exponent is passed to a class
that has one in its name); an exponent passed to such a class is a `TypeError`; the retired `mass` of `QuadraticPotential` is a `ValueError`. -/
theorem C89_errors (o : PotOracles) (c : PotClass) (kw : Kwargs) :
    ((∀ k ∈ c.required, kw.get? k ≠ some none) → (∃ k ∈ c.required, kw.get? k = none) → (c.exponent ≠ none → kw.get? "p" = none) →
      ∃ k ∈ c.required, kw.get? k = none ∧ construct o c kw = .error (.keyError k)) ∧
    (c.exponent ≠ none → kw.get? "p" ≠ none → (c = .quadratic → kw.get? "mass" = none) → ∃ m, construct o c kw = .error (.typeError m)) ∧
    (c = .quadratic → kw.get? "mass" ≠ none → ∃ m, construct o c kw = .error (.valueError m)) := by
  have cont : ∀ k, kw.get? k ≠ none → kw.contains k = true := fun k h => by
    by_contra hn
    exact h (contains_false.1 hn)
  have ncont : ∀ k, kw.get? k = none → kw.contains k = false := fun k h => by
    simpa using contains_false.2 h
  refine ⟨?_, ?_, ?_⟩
  · intro hnum hmiss hexp
    have wp : ∀ (v : ℝ) (g : Kwargs → Except PyErr Pot), kw.get? "p" = none → (withP v kw >>= g) = g (("p", some v) :: kw) := by
      intro v g h
      unfold withP
      rw [ncont _ h, if_neg (by simp)]
      rfl
    show Misses c.required kw (construct o c kw)
    cases c with
    | monomial =>
      have n_p := hnum "p" (by simp [PotClass.required])
      show Misses _ _ (monomial o _ kw)
      unfold monomial
      refine Misses.step (by simpa [Dict.get?_del, Dict.get?_cons] using n_p) (fun e => ⟨"p", by simp [PotClass.required], by simpa [Dict.get?_del, Dict.get?_cons] using e, rfl⟩) fun v0 e0 => ?_
      have m0 : kw.get? "p" = some (some v0) := by simpa [Dict.get?_del, Dict.get?_cons] using e0
      dsimp only
      exfalso
      obtain ⟨k, hk, hn⟩ := hmiss
      simp only [PotClass.required, List.mem_cons, List.not_mem_nil, or_false] at hk
      subst hk; simp_all
    | linear =>
      obtain ⟨k, hk, -⟩ := hmiss; exact absurd hk (by simp [PotClass.required])
    | quadratic =>
      obtain ⟨k, hk, -⟩ := hmiss; exact absurd hk (by simp [PotClass.required])
    | cubic =>
      obtain ⟨k, hk, -⟩ := hmiss; exact absurd hk (by simp [PotClass.required])
    | quartic =>
      obtain ⟨k, hk, -⟩ := hmiss; exact absurd hk (by simp [PotClass.required])
    | starobinsky =>
      obtain ⟨k, hk, -⟩ := hmiss; exact absurd hk (by simp [PotClass.required])
    | natural =>
      have n_phi0 := hnum "phi0" (by simp [PotClass.required])
      show Misses _ _ (natural o _ kw)
      unfold natural
      refine Misses.step (by simpa [Dict.get?_del, Dict.get?_cons] using n_phi0) (fun e => ⟨"phi0", by simp [PotClass.required], by simpa [Dict.get?_del, Dict.get?_cons] using e, rfl⟩) fun v0 e0 => ?_
      have m0 : kw.get? "phi0" = some (some v0) := by simpa [Dict.get?_del, Dict.get?_cons] using e0
      dsimp only
      exfalso
      obtain ⟨k, hk, hn⟩ := hmiss
      simp only [PotClass.required, List.mem_cons, List.not_mem_nil, or_false] at hk
      subst hk; simp_all
    | doubleWell =>
      have n_phi0 := hnum "phi0" (by simp [PotClass.required])
      have n_p := hnum "p" (by simp [PotClass.required])
      show Misses _ _ (doubleWell o _ kw)
      unfold doubleWell
      refine Misses.step (by simpa [Dict.get?_del, Dict.get?_cons] using n_phi0) (fun e => ⟨"phi0", by simp [PotClass.required], by simpa [Dict.get?_del, Dict.get?_cons] using e, rfl⟩) fun v0 e0 => ?_
      have m0 : kw.get? "phi0" = some (some v0) := by simpa [Dict.get?_del, Dict.get?_cons] using e0
      dsimp only
      refine Misses.step (by simpa [Dict.get?_del, Dict.get?_cons] using n_p) (fun e => ⟨"p", by simp [PotClass.required], by simpa [Dict.get?_del, Dict.get?_cons] using e, rfl⟩) fun v1 e1 => ?_
      have m1 : kw.get? "p" = some (some v1) := by simpa [Dict.get?_del, Dict.get?_cons] using e1
      dsimp only
      exfalso
      obtain ⟨k, hk, hn⟩ := hmiss
      simp only [PotClass.required, List.mem_cons, List.not_mem_nil, or_false] at hk
      rcases hk with rfl | rfl <;> simp_all
    | doubleWell2 =>
      have n_phi0 := hnum "phi0" (by simp [PotClass.required])
      have hp := hexp (by simp [PotClass.exponent])
      show Misses _ _ (withP 2 kw >>= doubleWell o _)
      rw [wp 2 _ hp]
      unfold doubleWell
      refine Misses.step (by simpa [Dict.get?_del, Dict.get?_cons] using n_phi0) (fun e => ⟨"phi0", by simp [PotClass.required], by simpa [Dict.get?_del, Dict.get?_cons] using e, rfl⟩) fun v0 e0 => ?_
      have m0 : kw.get? "phi0" = some (some v0) := by simpa [Dict.get?_del, Dict.get?_cons] using e0
      dsimp only
      refine Misses.step (by simp [Dict.get?_del, Dict.get?_cons]) (fun e => by simp [Dict.get?_del, Dict.get?_cons] at e) fun v1 e1 => ?_
      dsimp only
      exfalso
      obtain ⟨k, hk, hn⟩ := hmiss
      simp only [PotClass.required, List.mem_cons, List.not_mem_nil, or_false] at hk
      subst hk; simp_all
    | doubleWell4 =>
      have n_phi0 := hnum "phi0" (by simp [PotClass.required])
      have hp := hexp (by simp [PotClass.exponent])
      show Misses _ _ (withP 4 kw >>= doubleWell o _)
      rw [wp 4 _ hp]
      unfold doubleWell
      refine Misses.step (by simpa [Dict.get?_del, Dict.get?_cons] using n_phi0) (fun e => ⟨"phi0", by simp [PotClass.required], by simpa [Dict.get?_del, Dict.get?_cons] using e, rfl⟩) fun v0 e0 => ?_
      have m0 : kw.get? "phi0" = some (some v0) := by simpa [Dict.get?_del, Dict.get?_cons] using e0
      dsimp only
      refine Misses.step (by simp [Dict.get?_del, Dict.get?_cons]) (fun e => by simp [Dict.get?_del, Dict.get?_cons] at e) fun v1 e1 => ?_
      dsimp only
      exfalso
      obtain ⟨k, hk, hn⟩ := hmiss
      simp only [PotClass.required, List.mem_cons, List.not_mem_nil, or_false] at hk
      subst hk; simp_all
    | tmodel =>
      have n_p := hnum "p" (by simp [PotClass.required])
      have n_alpha := hnum "alpha" (by simp [PotClass.required])
      show Misses _ _ (tmodel o _ kw)
      unfold tmodel
      refine Misses.step (by simpa [Dict.get?_del, Dict.get?_cons] using n_p) (fun e => ⟨"p", by simp [PotClass.required], by simpa [Dict.get?_del, Dict.get?_cons] using e, rfl⟩) fun v0 e0 => ?_
      have m0 : kw.get? "p" = some (some v0) := by simpa [Dict.get?_del, Dict.get?_cons] using e0
      dsimp only
      refine Misses.step (by simpa [Dict.get?_del, Dict.get?_cons] using n_alpha) (fun e => ⟨"alpha", by simp [PotClass.required], by simpa [Dict.get?_del, Dict.get?_cons] using e, rfl⟩) fun v1 e1 => ?_
      have m1 : kw.get? "alpha" = some (some v1) := by simpa [Dict.get?_del, Dict.get?_cons] using e1
      dsimp only
      exfalso
      obtain ⟨k, hk, hn⟩ := hmiss
      simp only [PotClass.required, List.mem_cons, List.not_mem_nil, or_false] at hk
      rcases hk with rfl | rfl <;> simp_all
    | radionGauge =>
      have n_p := hnum "p" (by simp [PotClass.required])
      have n_alpha := hnum "alpha" (by simp [PotClass.required])
      show Misses _ _ (radionGauge o _ kw)
      unfold radionGauge
      refine Misses.step (by simpa [Dict.get?_del, Dict.get?_cons] using n_p) (fun e => ⟨"p", by simp [PotClass.required], by simpa [Dict.get?_del, Dict.get?_cons] using e, rfl⟩) fun v0 e0 => ?_
      have m0 : kw.get? "p" = some (some v0) := by simpa [Dict.get?_del, Dict.get?_cons] using e0
      dsimp only
      refine Misses.step (by simpa [Dict.get?_del, Dict.get?_cons] using n_alpha) (fun e => ⟨"alpha", by simp [PotClass.required], by simpa [Dict.get?_del, Dict.get?_cons] using e, rfl⟩) fun v1 e1 => ?_
      have m1 : kw.get? "alpha" = some (some v1) := by simpa [Dict.get?_del, Dict.get?_cons] using e1
      dsimp only
      exfalso
      obtain ⟨k, hk, hn⟩ := hmiss
      simp only [PotClass.required, List.mem_cons, List.not_mem_nil, or_false] at hk
      rcases hk with rfl | rfl <;> simp_all
    | radionGauge2 =>
      have n_alpha := hnum "alpha" (by simp [PotClass.required])
      have hp := hexp (by simp [PotClass.exponent])
      show Misses _ _ (withP 2 kw >>= radionGauge o _)
      rw [wp 2 _ hp]
      unfold radionGauge
      refine Misses.step (by simp [Dict.get?_del, Dict.get?_cons]) (fun e => by simp [Dict.get?_del, Dict.get?_cons] at e) fun v0 e0 => ?_
      dsimp only
      refine Misses.step (by simpa [Dict.get?_del, Dict.get?_cons] using n_alpha) (fun e => ⟨"alpha", by simp [PotClass.required], by simpa [Dict.get?_del, Dict.get?_cons] using e, rfl⟩) fun v1 e1 => ?_
      have m1 : kw.get? "alpha" = some (some v1) := by simpa [Dict.get?_del, Dict.get?_cons] using e1
      dsimp only
      exfalso
      obtain ⟨k, hk, hn⟩ := hmiss
      simp only [PotClass.required, List.mem_cons, List.not_mem_nil, or_false] at hk
      subst hk; simp_all
    | starobinskyGaussianDip =>
      have n_phi_feature := hnum "phi_feature" (by simp [PotClass.required])
      have n_a_feature := hnum "a_feature" (by simp [PotClass.required])
      have n_b_feature := hnum "b_feature" (by simp [PotClass.required])
      show Misses _ _ (feature o _ kw)
      unfold feature
      refine Misses.step (by simpa [Dict.get?_del, Dict.get?_cons] using n_phi_feature) (fun e => ⟨"phi_feature", by simp [PotClass.required], by simpa [Dict.get?_del, Dict.get?_cons] using e, rfl⟩) fun v0 e0 => ?_
      have m0 : kw.get? "phi_feature" = some (some v0) := by simpa [Dict.get?_del, Dict.get?_cons] using e0
      dsimp only
      refine Misses.step (by simpa [Dict.get?_del, Dict.get?_cons] using n_a_feature) (fun e => ⟨"a_feature", by simp [PotClass.required], by simpa [Dict.get?_del, Dict.get?_cons] using e, rfl⟩) fun v1 e1 => ?_
      have m1 : kw.get? "a_feature" = some (some v1) := by simpa [Dict.get?_del, Dict.get?_cons] using e1
      dsimp only
      refine Misses.step (by simpa [Dict.get?_del, Dict.get?_cons] using n_b_feature) (fun e => ⟨"b_feature", by simp [PotClass.required], by simpa [Dict.get?_del, Dict.get?_cons] using e, rfl⟩) fun v2 e2 => ?_
      have m2 : kw.get? "b_feature" = some (some v2) := by simpa [Dict.get?_del, Dict.get?_cons] using e2
      dsimp only
      exfalso
      obtain ⟨k, hk, hn⟩ := hmiss
      simp only [PotClass.required, List.mem_cons, List.not_mem_nil, or_false] at hk
      rcases hk with rfl | rfl | rfl <;> simp_all
    | starobinskyTanhStep =>
      have n_phi_feature := hnum "phi_feature" (by simp [PotClass.required])
      have n_a_feature := hnum "a_feature" (by simp [PotClass.required])
      have n_b_feature := hnum "b_feature" (by simp [PotClass.required])
      show Misses _ _ (feature o _ kw)
      unfold feature
      refine Misses.step (by simpa [Dict.get?_del, Dict.get?_cons] using n_phi_feature) (fun e => ⟨"phi_feature", by simp [PotClass.required], by simpa [Dict.get?_del, Dict.get?_cons] using e, rfl⟩) fun v0 e0 => ?_
      have m0 : kw.get? "phi_feature" = some (some v0) := by simpa [Dict.get?_del, Dict.get?_cons] using e0
      dsimp only
      refine Misses.step (by simpa [Dict.get?_del, Dict.get?_cons] using n_a_feature) (fun e => ⟨"a_feature", by simp [PotClass.required], by simpa [Dict.get?_del, Dict.get?_cons] using e, rfl⟩) fun v1 e1 => ?_
      have m1 : kw.get? "a_feature" = some (some v1) := by simpa [Dict.get?_del, Dict.get?_cons] using e1
      dsimp only
      refine Misses.step (by simpa [Dict.get?_del, Dict.get?_cons] using n_b_feature) (fun e => ⟨"b_feature", by simp [PotClass.required], by simpa [Dict.get?_del, Dict.get?_cons] using e, rfl⟩) fun v2 e2 => ?_
      have m2 : kw.get? "b_feature" = some (some v2) := by simpa [Dict.get?_del, Dict.get?_cons] using e2
      dsimp only
      exfalso
      obtain ⟨k, hk, hn⟩ := hmiss
      simp only [PotClass.required, List.mem_cons, List.not_mem_nil, or_false] at hk
      rcases hk with rfl | rfl | rfl <;> simp_all
  · intro h1 h2 h3
    have hw : ∀ (v : ℝ) (g : Kwargs → Except PyErr Pot), ∃ m, (withP v kw >>= g) = .error (.typeError m) := fun v g =>
      ⟨_, by unfold withP; rw [if_pos (cont _ h2)]; rfl⟩
    cases c with
    | linear => exact hw _ _
    | cubic => exact hw _ _
    | quartic => exact hw _ _
    | doubleWell2 => exact hw _ _
    | doubleWell4 => exact hw _ _
    | radionGauge2 => exact hw _ _
    | quadratic =>
      obtain ⟨m, e⟩ := hw 2 (monomial o .quadratic)
      refine ⟨m, ?_⟩
      show (if kw.contains "mass" then _ else _) = _
      rw [ncont _ (h3 rfl), if_neg (by simp), e]
    | _ => exact absurd rfl h1
  · rintro rfl h
    exact ⟨"'mass' was dropped use 'Lambda' instead", if_pos (cont _ h)⟩

/-- Non-vacuity: `TmodelPotential(alpha=1, p=2, Lambda=1/100)` is built, in either order of the keywords, and can be rebuilt from its attributes. -/
example (o : PotOracles) : ∃ x, construct o .tmodel [("alpha", some 1), ("p", some 2), ("Lambda", some (1/100))] = .ok x ∧ x.shape.p = some 2 ∧ x.shape.alpha = some 1 ∧
    x.Lambda = 1/100 ∧ construct o .tmodel [("p", some 2), ("Lambda", some (1/100)), ("alpha", some 1)] = .ok x ∧ construct o .tmodel x.kwargs = .ok x := by
  have hs : TakenFrom .tmodel [("alpha", some 1), ("p", some 2), ("Lambda", some (1/100))] { p := some 2, alpha := some 1 } := by
    have h0 : Dict.get? [("alpha", some (1:ℝ)), ("p", some 2), ("Lambda", some (1/100))] "p" = some (some 2) := by simp [Dict.get?_cons]
    have h1 : Dict.get? [("alpha", some (1:ℝ)), ("p", some 2), ("Lambda", some (1/100))] "alpha" = some (some 1) := by simp [Dict.get?_cons]
    taken
  have hb := C89_builds (o := o) hs (L := some (1/100)) (by simp [Dict.get?_cons]) (fun k hk => by
    simp only [Dict.get?_cons, Dict.get?_nil] at hk
    simp only [PotClass.required, List.mem_cons, List.not_mem_nil, or_false]
    by_contra hn
    push Not at hn
    simp [hn.1.1, hn.1.2, hn.2] at hk)
  refine ⟨_, hb, rfl, rfl, rfl, ?_, C89_rebuild hb⟩
  rw [← hb]
  refine C89_order fun k => ?_
  simp only [Dict.get?_cons, Dict.get?_nil]
  split_ifs <;> simp_all

/-- `StarobinskyPotential(A_s=2e-9, phi_star=5)`: the hypotheses of `C89_amplitude` are met. -/
example (o : PotOracles) : ∃ x, construct o .starobinsky [("A_s", some (2/10^9)), ("phi_star", some 5)] = .ok x ∧
    slowRollAmplitude (PotClass.methods o .starobinsky x.shape x.Lambda) 5 = 2/10^9 := by
  have hg : 0 < Starobinsky.gamma := sqrt_pos.mpr (by norm_num)
  have hE : 1 < exp (Starobinsky.gamma * 5) := by rw [one_lt_exp_iff]; positivity
  have hE' : exp (-Starobinsky.gamma * 5) < 1 := by rw [exp_lt_one_iff]; linarith
  obtain ⟨L', w, h1, -⟩ := C10_As_phistar (Starobinsky.sr o.W) (C09_starobinsky o.W) ⟨none, some (2/10^9), none, some (some 5), []⟩ (2/10^9) _ 5 rfl
    (by norm_num) (Or.inl rfl) rfl rfl (by simp) rfl
    (by
      show 0 < (1:ℝ)^4 * (1 - exp (-Starobinsky.gamma * 5))^2
      have : 0 < 1 - exp (-Starobinsky.gamma * 5) := by linarith
      positivity)
    (by
      show 0 < 2 * Starobinsky.gamma^2 / (1 - exp (Starobinsky.gamma * 5))^2
      have : 1 - exp (Starobinsky.gamma * 5) ≠ 0 := by linarith
      positivity)
  have hx : construct o .starobinsky [("A_s", some (2/10^9)), ("phi_star", some 5)] = .ok ⟨.starobinsky, {}, L', w⟩ := by
    refine construct_iff.2 ⟨{}, by taken, base_ok.2 ⟨none, some (2/10^9), by simp [get?_rest, Dict.get?_cons, PotClass.required],
      by simp [get?_rest, Dict.get?_cons, PotClass.required], rfl, rfl, ?_, ?_⟩⟩
    · intro k hk
      simp only [get?_rest, Dict.get?_cons, Dict.get?_nil, PotClass.required, List.not_mem_nil, if_false] at hk
      refine Or.inr ⟨by simp [get?_rest, Dict.get?_cons, PotClass.required], ?_⟩
      by_contra hn
      push Not at hn
      simp [hn.1, hn.2.2] at hk
    · have h2 : potInit (PotClass.methods o .starobinsky {}) ⟨none, some (2/10^9), none, some (some 5), []⟩ = .ok (L', w) := h1
      simpa [get?_rest, Dict.get?_cons, PotClass.required] using h2
  refine ⟨_, hx, ?_⟩
  obtain ⟨φ, hφ, ha, -⟩ := C89_amplitude hx (A := 2/10^9) (by simp [Dict.get?_cons]) (by norm_num) (by simp [Dict.get?_cons])
  obtain rfl : φ = 5 := by
    rcases hφ with ⟨h, -⟩ | ⟨N, h, -⟩
    · simpa [Dict.get?_cons] using h.symm
    · simp [Dict.get?_cons] at h
  refine ha ?_ ?_
  · show 0 < (1:ℝ)^4 * (1 - exp (-Starobinsky.gamma * 5))^2
    have : 0 < 1 - exp (-Starobinsky.gamma * 5) := by linarith
    positivity
  · show 0 < 2 * Starobinsky.gamma^2 / (1 - exp (Starobinsky.gamma * 5))^2
    have : 1 - exp (Starobinsky.gamma * 5) ≠ 0 := by linarith
    positivity

end Primpy
