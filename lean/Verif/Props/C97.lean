import Verif.Props.C02
import Verif.Props.C89
import Verif.Model.Background

/-!
# C97: a potential built from keywords evaluates its documented formula, and its derivatives
-/

namespace Primpy
open Real Spec Set Ctor

/-! ## Specification -/

/-- The number passed for the keyword `k` -/
noncomputable def Ctor.value (kw : Kwargs) (k : String) : ℝ := ((kw.get? k).getD none).getD 0

/-- The documented formula of each class, in terms of the keywords passed (`g k` for the keyword `k`), the amplitude `Λ` and the field `φ`. -/
noncomputable def PotClass.formula (g : String → ℝ) (Λ φ : ℝ) : PotClass → ℝ
  | .monomial => Λ ^ 4 * |φ| ^ g "p"
  | .linear => Λ ^ 4 * |φ|
  | .quadratic => Λ ^ 4 * φ ^ 2
  | .cubic => Λ ^ 4 * |φ| ^ 3
  | .quartic => Λ ^ 4 * φ ^ 4
  | .starobinsky => Λ ^ 4 * (1 - exp (-√(2 / 3) * φ)) ^ 2
  | .natural => Λ ^ 4 / 2 * (1 - cos (π * φ / g "phi0"))
  | .doubleWell => Λ ^ 4 * (1 - (1 - φ / g "phi0") ^ g "p") ^ 2
  | .doubleWell2 => Λ ^ 4 * (1 - (1 - φ / g "phi0") ^ 2) ^ 2
  | .doubleWell4 => Λ ^ 4 * (1 - (1 - φ / g "phi0") ^ 4) ^ 2
  | .tmodel => Λ ^ 4 * tanh (φ / √(6 * g "alpha")) ^ (2 * g "p")
  | .radionGauge => Λ ^ 4 * φ ^ g "p" / (g "alpha" + φ ^ g "p")
  | .radionGauge2 => Λ ^ 4 * φ ^ 2 / (g "alpha" + φ ^ 2)
  | .starobinskyGaussianDip => Λ ^ 4 * (1 - exp (-√(2 / 3) * φ)) ^ 2 * (1 - g "a_feature" * exp (-(φ - g "phi_feature") ^ 2 / (2 * g "b_feature" ^ 2)))
  | .starobinskyTanhStep => Λ ^ 4 * (1 - exp (-√(2 / 3) * φ)) ^ 2 * (1 + g "a_feature" * tanh ((φ - g "phi_feature") / g "b_feature"))

/-- Parameters with which the formula makes sense -/
def PotClass.sensible (g : String → ℝ) : PotClass → Prop
  | .doubleWell | .doubleWell2 | .doubleWell4 => 0 < g "phi0"
  | .tmodel | .radionGauge | .radionGauge2 => 0 < g "alpha"
  | .starobinskyGaussianDip | .starobinskyTanhStep => g "b_feature" ≠ 0
  | _ => True

/-- The fields at which the formula is smooth for every (also fractional) exponent -/
def PotClass.domain (g : String → ℝ) : PotClass → Set ℝ
  | .monomial | .linear | .cubic | .quartic | .radionGauge2 => {φ | φ ≠ 0}
  | .quadratic | .starobinsky | .natural | .starobinskyGaussianDip | .starobinskyTanhStep => univ
  | .doubleWell => Iio (g "phi0")
  | .doubleWell2 | .doubleWell4 => {φ | φ ≠ g "phi0"}
  | .tmodel | .radionGauge => Ioi 0

/-- The classes that multiply another potential by a feature -/
def PotClass.isFeature : PotClass → Prop
  | .starobinskyGaussianDip | .starobinskyTanhStep => True
  | _ => False

namespace C97

theorem shape_value {c : PotClass} {kw : Kwargs} {s : Shape} (h : TakenFrom c kw s) {k : String} (hk : k ∈ c.required) : (s.get k).getD 0 = value kw k := by
  obtain ⟨v, h1, h2⟩ := h.given k hk
  rw [h2, value, h1]; rfl

theorem exponent {c : PotClass} {kw : Kwargs} {s : Shape} (h : TakenFrom c kw s) (hk : "p" ∉ c.required) : s.p = c.exponent := by
  have := h.fixed "p" hk
  simpa [Shape.get] using this

end C97

/-- **C97, the formula**: if `cls(**kwargs)` returns, `V(phi)` of the object is, at every field, the documented formula of the class with the keyword values
that were passed and the object's `Lambda`. -/
theorem C97_formula {o : PotOracles} {c : PotClass} {kw : Kwargs} {x : Pot} (h : construct o c kw = .ok x) (φ : ℝ) :
    x.fns.V φ = c.formula (value kw) x.Lambda φ := by
  obtain ⟨hc, hs, -⟩ := C89_accepts h
  obtain ⟨c', s, L, w⟩ := x
  obtain rfl : c' = c := hc
  have hs : TakenFrom c' kw s := hs
  cases c' with
  | monomial =>
    have e := C97.shape_value hs (k := "p") (by simp [PotClass.required])
    have e : s.p.getD 0 = value kw "p" := e
    show L ^ 4 * |φ| ^ s.p.getD 0 = _
    rw [e]; rfl
  | linear =>
    have e : s.p = some 1 := C97.exponent hs (by simp [PotClass.required])
    show L ^ 4 * |φ| ^ s.p.getD 0 = L ^ 4 * |φ|
    rw [e, Option.getD_some, rpow_one]
  | quadratic => rfl
  | cubic =>
    have e : s.p = some 3 := C97.exponent hs (by simp [PotClass.required])
    show L ^ 4 * |φ| ^ s.p.getD 0 = L ^ 4 * |φ| ^ 3
    rw [e, Option.getD_some, show (3 : ℝ) = ((3 : ℕ) : ℝ) by norm_num, rpow_natCast]
  | quartic =>
    have e : s.p = some 4 := C97.exponent hs (by simp [PotClass.required])
    show L ^ 4 * |φ| ^ s.p.getD 0 = L ^ 4 * φ ^ 4
    rw [e, Option.getD_some, show (4 : ℝ) = ((4 : ℕ) : ℝ) by norm_num, rpow_natCast, Even.pow_abs (by decide)]
  | starobinsky => rfl
  | natural =>
    have e : s.phi0.getD 0 = value kw "phi0" := C97.shape_value hs (k := "phi0") (by simp [PotClass.required])
    show L ^ 4 / 2 * (1 - cos (π * φ / s.phi0.getD 0)) = _
    rw [e]; rfl
  | doubleWell =>
    have e : s.phi0.getD 0 = value kw "phi0" := C97.shape_value hs (k := "phi0") (by simp [PotClass.required])
    have e' : s.p.getD 0 = value kw "p" := C97.shape_value hs (k := "p") (by simp [PotClass.required])
    show L ^ 4 * (1 - (1 - φ / s.phi0.getD 0) ^ s.p.getD 0) ^ 2 = _
    rw [e, e']; rfl
  | doubleWell2 =>
    have e : s.phi0.getD 0 = value kw "phi0" := C97.shape_value hs (k := "phi0") (by simp [PotClass.required])
    have e' : s.p = some 2 := C97.exponent hs (by simp [PotClass.required])
    show L ^ 4 * (1 - (1 - φ / s.phi0.getD 0) ^ s.p.getD 0) ^ 2 = L ^ 4 * (1 - (1 - φ / value kw "phi0") ^ 2) ^ 2
    rw [e, e', Option.getD_some, rpow_two]
  | doubleWell4 =>
    have e : s.phi0.getD 0 = value kw "phi0" := C97.shape_value hs (k := "phi0") (by simp [PotClass.required])
    have e' : s.p = some 4 := C97.exponent hs (by simp [PotClass.required])
    show L ^ 4 * (1 - (1 - φ / s.phi0.getD 0) ^ s.p.getD 0) ^ 2 = L ^ 4 * (1 - (1 - φ / value kw "phi0") ^ 4) ^ 2
    rw [e, e', Option.getD_some, show (4 : ℝ) = ((4 : ℕ) : ℝ) by norm_num, rpow_natCast]
  | tmodel =>
    have e : s.alpha.getD 0 = value kw "alpha" := C97.shape_value hs (k := "alpha") (by simp [PotClass.required])
    have e' : s.p.getD 0 = value kw "p" := C97.shape_value hs (k := "p") (by simp [PotClass.required])
    show L ^ 4 * tanh (φ / √(6 * s.alpha.getD 0)) ^ (2 * s.p.getD 0) = _
    rw [e, e']; rfl
  | radionGauge =>
    have e : s.alpha.getD 0 = value kw "alpha" := C97.shape_value hs (k := "alpha") (by simp [PotClass.required])
    have e' : s.p.getD 0 = value kw "p" := C97.shape_value hs (k := "p") (by simp [PotClass.required])
    show L ^ 4 * φ ^ s.p.getD 0 / (s.alpha.getD 0 + φ ^ s.p.getD 0) = _
    rw [e, e']; rfl
  | radionGauge2 =>
    have e : s.alpha.getD 0 = value kw "alpha" := C97.shape_value hs (k := "alpha") (by simp [PotClass.required])
    have e' : s.p = some 2 := C97.exponent hs (by simp [PotClass.required])
    show L ^ 4 * φ ^ s.p.getD 0 / (s.alpha.getD 0 + φ ^ s.p.getD 0) = L ^ 4 * φ ^ 2 / (value kw "alpha" + φ ^ 2)
    rw [e, e', Option.getD_some, rpow_two]
  | starobinskyGaussianDip =>
    have e1 : s.phi_feature.getD 0 = value kw "phi_feature" := C97.shape_value hs (k := "phi_feature") (by simp [PotClass.required])
    have e2 : s.a_feature.getD 0 = value kw "a_feature" := C97.shape_value hs (k := "a_feature") (by simp [PotClass.required])
    have e3 : s.b_feature.getD 0 = value kw "b_feature" := C97.shape_value hs (k := "b_feature") (by simp [PotClass.required])
    show L ^ 4 * (1 - exp (-√(2 / 3) * φ)) ^ 2 * (1 + -s.a_feature.getD 0 * exp (-(φ - s.phi_feature.getD 0) ^ 2 / (2 * s.b_feature.getD 0 ^ 2))) =
      L ^ 4 * (1 - exp (-√(2 / 3) * φ)) ^ 2 * (1 - value kw "a_feature" * exp (-(φ - value kw "phi_feature") ^ 2 / (2 * value kw "b_feature" ^ 2)))
    rw [e1, e2, e3]; ring
  | starobinskyTanhStep =>
    have e1 : s.phi_feature.getD 0 = value kw "phi_feature" := C97.shape_value hs (k := "phi_feature") (by simp [PotClass.required])
    have e2 : s.a_feature.getD 0 = value kw "a_feature" := C97.shape_value hs (k := "a_feature") (by simp [PotClass.required])
    have e3 : s.b_feature.getD 0 = value kw "b_feature" := C97.shape_value hs (k := "b_feature") (by simp [PotClass.required])
    show L ^ 4 * (1 - exp (-√(2 / 3) * φ)) ^ 2 * (1 + s.a_feature.getD 0 * tanh ((φ - s.phi_feature.getD 0) / s.b_feature.getD 0)) = _
    rw [e1, e2, e3]; rfl

namespace C97

theorem mono {A B : Set ℝ} {f0 f1 f2 f3 f4 : ℝ → ℝ} (h : IsDerivChain B f0 f1 f2 f3 f4) (hAB : A ⊆ B) : IsDerivChain A f0 f1 f2 f3 f4 :=
  ⟨fun φ hφ => h.d1 φ (hAB hφ), fun φ hφ => h.d2 φ (hAB hφ), fun φ hφ => h.d3 φ (hAB hφ), fun φ hφ => h.d4 φ (hAB hφ)⟩

/-- the methods of a constructed object form a chain of derivatives -/
theorem chain {c : PotClass} {kw : Kwargs} {s : Shape} {L : ℝ} {w : Bool} (hs : TakenFrom c kw s) (hg : c.sensible (value kw)) :
    (let P := (Pot.mk c s L w).fns; IsDerivOn (c.domain (value kw)) P.V P.dV ∧ IsDerivOn (c.domain (value kw)) P.dV P.d2V ∧
      IsDerivOn (c.domain (value kw)) P.d2V P.d3V ∧ (¬ c.isFeature → IsDerivOn (c.domain (value kw)) P.d3V P.d4V)) := by
  have fin : ∀ {A : Set ℝ} {f0 f1 f2 f3 f4 : ℝ → ℝ} {q : Prop}, IsDerivChain A f0 f1 f2 f3 f4 →
    IsDerivOn A f0 f1 ∧ IsDerivOn A f1 f2 ∧ IsDerivOn A f2 f3 ∧ (q → IsDerivOn A f3 f4) := fun h => ⟨h.d1, h.d2, h.d3, fun _ => h.d4⟩
  cases c with
  | monomial => exact fin (C01_monomial ⟨L, s.p.getD 0⟩)
  | linear => exact fin (C01_monomial ⟨L, s.p.getD 0⟩)
  | cubic => exact fin (C01_monomial ⟨L, s.p.getD 0⟩)
  | quartic => exact fin (C01_monomial ⟨L, s.p.getD 0⟩)
  | quadratic => exact fin (C01_quadratic ⟨L⟩)
  | starobinsky => exact fin (C01_starobinsky ⟨L⟩)
  | natural => exact fin (C01_natural ⟨L, s.phi0.getD 0⟩)
  | doubleWell =>
    have e : s.phi0.getD 0 = value kw "phi0" := shape_value hs (k := "phi0") (by simp [PotClass.required])
    have h0 : 0 < value kw "phi0" := hg
    refine fin (mono (C01_doublewell ⟨L, s.phi0.getD 0, s.p.getD 0⟩ (by show s.phi0.getD 0 ≠ 0; rw [e]; exact h0.ne')) fun φ hφ => Or.inl ?_)
    show 0 < 1 - φ / s.phi0.getD 0
    have hφ : φ < value kw "phi0" := hφ
    rw [e, sub_pos, div_lt_one h0]; exact hφ
  | doubleWell2 =>
    have e : s.phi0.getD 0 = value kw "phi0" := shape_value hs (k := "phi0") (by simp [PotClass.required])
    have e' : s.p = some 2 := exponent hs (by simp [PotClass.required])
    have h0 : 0 < value kw "phi0" := hg
    have := (C01_doublewell2_4 L (value kw "phi0") h0.ne').1
    show IsDerivOn _ (DoubleWell.mk L (s.phi0.getD 0) (s.p.getD 0)).fns.V _ ∧ _
    dsimp only [Pot.fns]
    rw [e, e']
    exact fin this
  | doubleWell4 =>
    have e : s.phi0.getD 0 = value kw "phi0" := shape_value hs (k := "phi0") (by simp [PotClass.required])
    have e' : s.p = some 4 := exponent hs (by simp [PotClass.required])
    have h0 : 0 < value kw "phi0" := hg
    have := (C01_doublewell2_4 L (value kw "phi0") h0.ne').2
    dsimp only [Pot.fns]
    rw [e, e']
    exact fin this
  | tmodel =>
    have e : s.alpha.getD 0 = value kw "alpha" := shape_value hs (k := "alpha") (by simp [PotClass.required])
    have h0 : 0 < value kw "alpha" := hg
    refine fin (mono (C01_tmodel ⟨L, s.p.getD 0, s.alpha.getD 0⟩ (by show 0 < s.alpha.getD 0; rw [e]; exact h0)) fun φ hφ => Or.inl ?_)
    show 0 < tanh (φ / √(6 * s.alpha.getD 0))
    have hφ : 0 < φ := hφ
    rw [e, tanh_eq_sinh_div_cosh]
    exact div_pos (sinh_pos_iff.2 (by positivity)) (cosh_pos _)
  | radionGauge =>
    have e : s.alpha.getD 0 = value kw "alpha" := shape_value hs (k := "alpha") (by simp [PotClass.required])
    have h0 : 0 < value kw "alpha" := hg
    refine fin (mono (C01_radiongauge ⟨L, s.p.getD 0, s.alpha.getD 0⟩) fun φ hφ => ⟨Or.inl hφ, ?_⟩)
    show s.alpha.getD 0 + φ ^ s.p.getD 0 ≠ 0
    have hφ : 0 < φ := hφ
    rw [e]
    have := rpow_pos_of_pos hφ (s.p.getD 0)
    positivity
  | radionGauge2 =>
    have e : s.alpha.getD 0 = value kw "alpha" := shape_value hs (k := "alpha") (by simp [PotClass.required])
    have e' : s.p = some 2 := exponent hs (by simp [PotClass.required])
    have h0 : 0 < value kw "alpha" := hg
    have := C01_radiongauge2 L (value kw "alpha") h0
    dsimp only [Pot.fns]
    rw [e, e']
    exact fin this
  | starobinskyGaussianDip =>
    have e3 : s.b_feature.getD 0 = value kw "b_feature" := shape_value hs (k := "b_feature") (by simp [PotClass.required])
    obtain ⟨a, b, d⟩ := C02_starobinsky_gaussian_partial L (s.phi_feature.getD 0) (s.a_feature.getD 0) (s.b_feature.getD 0) (by rw [e3]; exact hg)
    exact ⟨a, b, d, fun h => absurd trivial h⟩
  | starobinskyTanhStep =>
    have e3 : s.b_feature.getD 0 = value kw "b_feature" := shape_value hs (k := "b_feature") (by simp [PotClass.required])
    obtain ⟨a, b, d⟩ := C02_starobinsky_tanh_partial L (s.phi_feature.getD 0) (s.a_feature.getD 0) (s.b_feature.getD 0) (by rw [e3]; exact hg)
    exact ⟨a, b, d, fun h => absurd trivial h⟩

end C97

/-- **C97, the derivatives**: for parameters with which the documented formula makes sense, `dV`, `d2V`, `d3V` of the object are its first three derivatives
wherever it is smooth, and so is `d4V` except in the classes with a feature (for those see `C02_gaussian_d4V_wrong`, `C02_tanh_d4V_wrong`). -/
theorem C97_derivatives {o : PotOracles} {c : PotClass} {kw : Kwargs} {x : Pot} (h : construct o c kw = .ok x) (hg : c.sensible (value kw)) :
    IsDerivOn (c.domain (value kw)) (fun φ => c.formula (value kw) x.Lambda φ) x.fns.dV ∧ IsDerivOn (c.domain (value kw)) x.fns.dV x.fns.d2V ∧
      IsDerivOn (c.domain (value kw)) x.fns.d2V x.fns.d3V ∧ (¬ c.isFeature → IsDerivOn (c.domain (value kw)) x.fns.d3V x.fns.d4V) := by
  obtain ⟨hc, hs, -⟩ := C89_accepts h
  have e : (fun φ => c.formula (value kw) x.Lambda φ) = x.fns.V := funext fun φ => (C97_formula h φ).symm
  rw [e]
  obtain ⟨c', s, L, w⟩ := x
  obtain rfl : c' = c := hc
  exact C97.chain hs hg

namespace C97

theorem first_doublewell (d : DoubleWell) {φ : ℝ} (hx : d.x φ ≠ 0) (hpow : d.x φ ^ (2 * d.p - 2) = (d.x φ ^ (d.p - 1)) ^ 2) (hd : d.dV φ ≠ 0) :
    d.get_epsilon_1V φ = (d.dV φ / d.V φ) ^ 2 / 2 := by
  have hL : d.Lambda ≠ 0 := by intro e; apply hd; simp [DoubleWell.dV, e]
  have h0 : d.phi0 ≠ 0 := by intro e; apply hd; simp [DoubleWell.dV, e]
  have hu : 1 - d.x φ ^ d.p ≠ 0 := by intro e; apply hd; simp [DoubleWell.dV, e]
  have hu' : d.x φ ^ d.p - 1 ≠ 0 := by intro e; apply hu; linarith
  unfold DoubleWell.get_epsilon_1V DoubleWell.dV DoubleWell.V
  rw [hpow, show (d.x φ ^ d.p - 1) ^ 2 = (1 - d.x φ ^ d.p) ^ 2 by ring]
  field_simp

theorem first_radion (g : RadionGauge) {φ : ℝ} (hφ : φ ≠ 0) (hp : φ ^ (g.p - 1) = φ ^ g.p / φ) (hu : φ ^ g.p ≠ 0) (hd : g.dV φ ≠ 0) :
    g.get_epsilon_1V φ = (g.dV φ / g.V φ) ^ 2 / 2 := by
  have hL : g.Lambda ≠ 0 := by intro e; apply hd; simp [RadionGauge.dV, e]
  have hA : g.alpha + φ ^ g.p ≠ 0 := by intro e; apply hd; simp [RadionGauge.dV, e]
  unfold RadionGauge.get_epsilon_1V RadionGauge.dV RadionGauge.V
  rw [hp]
  field_simp

/-- the first slow-roll parameter the constructor uses is the one of the potential it builds -/
theorem epsilon (o : PotOracles) {c : PotClass} {kw : Kwargs} {s : Shape} {L : ℝ} {w : Bool} (hs : TakenFrom c kw s) (hg : c.sensible (value kw)) (hf : ¬ c.isFeature)
    {φ : ℝ} (hφ : φ ∈ c.domain (value kw)) (hV : (Pot.mk c s L w).fns.V φ ≠ 0) (hd : (Pot.mk c s L w).fns.dV φ ≠ 0) :
    (c.methods o s L).V φ = (Pot.mk c s L w).fns.V φ ∧
      (c.methods o s L).get_epsilon_1V φ = ((Pot.mk c s L w).fns.dV φ / (Pot.mk c s L w).fns.V φ) ^ 2 / 2 := by
  have mon : ∀ p : ℝ, φ ≠ 0 → (Monomial.mk L p).dV φ ≠ 0 → (Monomial.mk L p).get_epsilon_1V φ = ((Monomial.mk L p).dV φ / (Monomial.mk L p).V φ) ^ 2 / 2 :=
    fun p h0 hd => (C03_monomial ⟨L, p⟩ (by intro e; apply hd; have e : p = 0 := e; simp [Monomial.dV, e])
      (by intro e; apply hd; have e : L = 0 := e; simp [Monomial.dV, e])).first φ h0
  cases c with
  | monomial => exact ⟨rfl, mon _ hφ hd⟩
  | linear => exact ⟨rfl, mon _ hφ hd⟩
  | cubic => exact ⟨rfl, mon _ hφ hd⟩
  | quartic => exact ⟨rfl, mon _ hφ hd⟩
  | quadratic =>
    have hd : (Quadratic.mk L).dV φ ≠ 0 := hd
    exact ⟨rfl, (C03_quadratic ⟨L⟩ (by intro e; apply hd; have e : L = 0 := e; simp [Quadratic.dV, e])).first φ
      (by intro e; apply hd; simp [Quadratic.dV, e])⟩
  | starobinsky =>
    have hd : (Starobinsky.mk L).dV φ ≠ 0 := hd
    exact ⟨rfl, (C03_starobinsky ⟨L⟩ (by intro e; apply hd; have e : L = 0 := e; simp [Starobinsky.dV, e])).first φ
      (by intro e; apply hd; simp [Starobinsky.dV, e])⟩
  | natural =>
    have hd : (Natural.mk L (s.phi0.getD 0)).dV φ ≠ 0 := hd
    exact ⟨rfl, (C03_natural ⟨L, s.phi0.getD 0⟩ (by intro e; apply hd; have e : s.phi0.getD 0 = 0 := e; simp [Natural.dV, e])
      (by intro e; apply hd; have e : L = 0 := e; simp [Natural.dV, e])).first φ (by intro e; apply hd; simp [Natural.dV, e])⟩
  | doubleWell =>
    have e : s.phi0.getD 0 = value kw "phi0" := shape_value hs (k := "phi0") (by simp [PotClass.required])
    have h0 : 0 < value kw "phi0" := hg
    have hφ : φ < value kw "phi0" := hφ
    have hx : 0 < (DoubleWell.mk L (s.phi0.getD 0) (s.p.getD 0)).x φ := by
      show 0 < 1 - φ / s.phi0.getD 0
      rw [e, sub_pos, div_lt_one h0]; exact hφ
    refine ⟨rfl, first_doublewell ⟨L, s.phi0.getD 0, s.p.getD 0⟩ hx.ne' ?_ hd⟩
    rw [← rpow_natCast, ← rpow_mul hx.le]; congr 1; push_cast; ring
  | doubleWell2 =>
    have e : s.phi0.getD 0 = value kw "phi0" := shape_value hs (k := "phi0") (by simp [PotClass.required])
    have e' : s.p = some 2 := exponent hs (by simp [PotClass.required])
    have h0 : 0 < value kw "phi0" := hg
    have hφ : φ ≠ value kw "phi0" := hφ
    have hx : (DoubleWell2 L (s.phi0.getD 0)).x φ ≠ 0 := by
      show 1 - φ / s.phi0.getD 0 ≠ 0
      rw [e]; intro h; apply hφ; field_simp at h; linarith
    have hd : (DoubleWell.mk L (s.phi0.getD 0) (s.p.getD 0)).dV φ ≠ 0 := hd
    rw [e', Option.getD_some] at hd
    have k := first_doublewell (DoubleWell2 L (s.phi0.getD 0)) hx (by
      show _ ^ ((2 : ℝ) * 2 - 2) = (_ ^ ((2 : ℝ) - 1)) ^ 2
      rw [show (2 : ℝ) * 2 - 2 = 2 by norm_num, show (2 : ℝ) - 1 = 1 by norm_num, rpow_one, rpow_two]) hd
    dsimp only [Pot.fns]
    rw [e', Option.getD_some]
    exact ⟨rfl, k⟩
  | doubleWell4 =>
    have e : s.phi0.getD 0 = value kw "phi0" := shape_value hs (k := "phi0") (by simp [PotClass.required])
    have e' : s.p = some 4 := exponent hs (by simp [PotClass.required])
    have h0 : 0 < value kw "phi0" := hg
    have hφ : φ ≠ value kw "phi0" := hφ
    have hx : (DoubleWell4 L (s.phi0.getD 0)).x φ ≠ 0 := by
      show 1 - φ / s.phi0.getD 0 ≠ 0
      rw [e]; intro h; apply hφ; field_simp at h; linarith
    have hd : (DoubleWell.mk L (s.phi0.getD 0) (s.p.getD 0)).dV φ ≠ 0 := hd
    rw [e', Option.getD_some] at hd
    have k := first_doublewell (DoubleWell4 L (s.phi0.getD 0)) hx (by
      show _ ^ ((2 : ℝ) * 4 - 2) = (_ ^ ((4 : ℝ) - 1)) ^ 2
      rw [show (2 : ℝ) * 4 - 2 = ((6 : ℕ) : ℝ) by norm_num, show (4 : ℝ) - 1 = ((3 : ℕ) : ℝ) by norm_num, rpow_natCast, rpow_natCast, ← pow_mul]) hd
    dsimp only [Pot.fns, PotClass.methods]
    rw [e', Option.getD_some]
    exact ⟨rfl, k⟩
  | tmodel =>
    have e : s.alpha.getD 0 = value kw "alpha" := shape_value hs (k := "alpha") (by simp [PotClass.required])
    have h0 : 0 < value kw "alpha" := hg
    have hd : (Tmodel.mk L (s.p.getD 0) (s.alpha.getD 0)).dV φ ≠ 0 := hd
    refine ⟨rfl, (C03_tmodel ⟨L, s.p.getD 0, s.alpha.getD 0⟩ (by show 0 < s.alpha.getD 0; rw [e]; exact h0)
      (by intro e; apply hd; have e : s.p.getD 0 = 0 := e; simp [Tmodel.dV, e]) (by intro e; apply hd; have e : L = 0 := e; simp [Tmodel.dV, e])).first φ (Or.inl ?_)⟩
    show 0 < tanh (φ / √(6 * s.alpha.getD 0))
    have hφ : 0 < φ := hφ
    rw [e, tanh_eq_sinh_div_cosh]
    exact div_pos (sinh_pos_iff.2 (by positivity)) (cosh_pos _)
  | radionGauge =>
    have hφ : 0 < φ := hφ
    exact ⟨rfl, first_radion ⟨L, s.p.getD 0, s.alpha.getD 0⟩ hφ.ne' (rpow_sub_one hφ.ne' _) (rpow_pos_of_pos hφ _).ne' hd⟩
  | radionGauge2 =>
    have e' : s.p = some 2 := exponent hs (by simp [PotClass.required])
    have hφ : φ ≠ 0 := hφ
    have hd : (RadionGauge.mk L (s.p.getD 0) (s.alpha.getD 0)).dV φ ≠ 0 := hd
    rw [e', Option.getD_some] at hd
    have k := first_radion (RadionGauge2 L (s.alpha.getD 0)) hφ (rpow_sub_one hφ _) (by show φ ^ (2 : ℝ) ≠ 0; rw [rpow_two]; exact pow_ne_zero 2 hφ) hd
    dsimp only [Pot.fns]
    rw [e', Option.getD_some]
    exact ⟨rfl, k⟩
  | starobinskyGaussianDip => exact absurd trivial hf
  | starobinskyTanhStep => exact absurd trivial hf

end C97

/-- **C97, the amplitude**: built with `A_s = A > 0` and `phi_star` or `N_star`, the object's documented formula `V` satisfies the slow-roll relation
`A = V³ / (12 π² V'²)` at `phi_star`, or at the field that `sr_N2phi` answers for `N_star` (in the classes without a feature; `V > 0` and `V' ≠ 0` there). -/
theorem C97_amplitude {o : PotOracles} {c : PotClass} {kw : Kwargs} {x : Pot} (h : construct o c kw = .ok x) (hg : c.sensible (value kw)) (hf : ¬ c.isFeature)
    {A : ℝ} (hA : kw.get? "A_s" = some (some A)) (hA0 : 0 < A) (hL : kw.get? "Lambda" ≠ some (some 0)) :
    ∃ φ, (kw.get? "phi_star" = some (some φ) ∨ ∃ N, kw.get? "N_star" = some (some N) ∧ (c.methods o x.shape 1).sr_N2phi N = .ok φ) ∧
      ∀ V' : ℝ, φ ∈ c.domain (value kw) → 0 < c.formula (value kw) x.Lambda φ → HasDerivAt (fun φ => c.formula (value kw) x.Lambda φ) V' φ → V' ≠ 0 →
        A = c.formula (value kw) x.Lambda φ ^ 3 / (12 * π ^ 2 * V' ^ 2) := by
  obtain ⟨hc, hs, -⟩ := C89_accepts h
  obtain ⟨φ, hφ, ha, -⟩ := C89_amplitude h hA hA0 hL
  refine ⟨φ, hφ.imp (fun h => h.1) (fun ⟨N, h1, _, h3⟩ => ⟨N, h1, h3⟩), fun V' hd hV hV' hne => ?_⟩
  have e' := hV'.unique ((C97_derivatives h hg).1 φ hd)
  rw [← C97_formula h] at hV ⊢
  have sf := scaleFree_methods o c x.shape
  obtain ⟨c', s, L, w⟩ := x
  obtain rfl : c' = c := hc
  have hs : TakenFrom c' kw s := hs
  rw [e'] at hne ⊢
  obtain ⟨E1, E2⟩ := C97.epsilon o hs hg hf hd hV.ne' hne
  obtain ⟨v, hv⟩ := sf.amplitude
  have hv : ∀ L φ, (c'.methods o s L).V φ = L ^ 4 * v φ := hv
  have E1' : L ^ 4 * v φ = (Pot.mk c' s L w).fns.V φ := by rw [← hv]; exact E1
  have hL0 : L ≠ 0 := by
    rintro rfl
    rw [← E1'] at hV
    simp at hV
  have hv0 : 0 < v φ := by
    rw [← E1'] at hV
    exact pos_of_mul_pos_right hV (by positivity)
  have eps : (c'.methods o s 1).get_epsilon_1V φ = (c'.methods o s L).get_epsilon_1V φ := congrFun (sf.eps 1 L one_ne_zero hL0) φ
  have key : slowRollAmplitude (c'.methods o s L) φ = A := ha (by show 0 < (c'.methods o s 1).V φ; rw [hv]; simpa using hv0)
    (by show 0 < (c'.methods o s 1).get_epsilon_1V φ; rw [eps, E2]; have := sq_pos_of_ne_zero (div_ne_zero hne hV.ne'); linarith)
  rw [← key, slowRollAmplitude, E1, E2]
  have hV := hV.ne'
  field_simp
  norm_num

/-- **C97, along a history**: `V`, `dVdphi` and `d2Vdphi2` of both equation objects, evaluated on states with a changing field, are the potential and its derivatives there:
each one's rate of change is the next one times the velocity of the field. -/
theorem C97_along {D : Set ℝ} {pot : PotFns} (h1 : IsDerivOn D pot.V pot.dV) (h2 : IsDerivOn D pot.dV pot.d2V) (K : ℝ) (b c : Bool) {Y : ℝ → ℕ → ℝ} {x v : ℝ}
    (hY : HasDerivAt (fun x => Y x 0) v x) (hx : Y x 0 ∈ D) :
    (let e : InflT := ⟨K, pot, b⟩
     e.V (Y x) = pot.V (Y x 0) ∧ HasDerivAt (fun x => e.V (Y x)) (e.dVdphi (Y x) * v) x ∧ HasDerivAt (fun x => e.dVdphi (Y x)) (e.d2Vdphi2 (Y x) * v) x) ∧
    (let e : InflN := ⟨K, pot, b, c⟩
     e.V (Y x) = pot.V (Y x 0) ∧ HasDerivAt (fun x => e.V (Y x)) (e.dVdphi (Y x) * v) x ∧ HasDerivAt (fun x => e.dVdphi (Y x)) (e.d2Vdphi2 (Y x) * v) x) :=
  have a := HasDerivAt.comp (h₂ := pot.V) (h := fun x => Y x 0) x (h1 _ hx) hY
  have b := HasDerivAt.comp (h₂ := pot.dV) (h := fun x => Y x 0) x (h2 _ hx) hY
  ⟨⟨rfl, a, b⟩, ⟨rfl, a, b⟩⟩

/-! ## Non-vacuity -/

namespace C97.Ex

/-- `TmodelPotential(p=2, alpha=1, Lambda=1/100)` -/
example (o : PotOracles) : ∃ x, construct o .tmodel [("p", some 2), ("alpha", some 1), ("Lambda", some (1 / 100))] = .ok x ∧
    x.fns.V 3 = (1 / 100) ^ 4 * tanh (3 / √6) ^ (4 : ℝ) ∧ HasDerivAt x.fns.dV (x.fns.d2V 3) 3 ∧ HasDerivAt x.fns.d3V (x.fns.d4V 3) 3 := by
  obtain ⟨kw, hkw⟩ : ∃ kw : Kwargs, kw = [("p", some 2), ("alpha", some 1), ("Lambda", some (1 / 100))] := ⟨_, rfl⟩
  have h0 : kw.get? "p" = some (some 2) := by simp [hkw, Dict.get?_cons]
  have h1 : kw.get? "alpha" = some (some 1) := by simp [hkw, Dict.get?_cons]
  have hs : TakenFrom .tmodel kw { p := some 2, alpha := some 1 } := by taken
  have hb := C89_builds (o := o) hs (L := some (1 / 100)) (by simp [hkw, Dict.get?_cons]) (fun k hk => by
    rw [hkw] at hk
    simp only [Dict.get?_cons, Dict.get?_nil] at hk
    simp only [PotClass.required, List.mem_cons, List.not_mem_nil, or_false]
    by_contra hn
    push Not at hn
    simp [hn.1.1, hn.1.2, hn.2] at hk)
  have v0 : value kw "p" = 2 := by rw [value, h0]; rfl
  have v1 : value kw "alpha" = 1 := by rw [value, h1]; rfl
  obtain ⟨-, d2, -, d4⟩ := C97_derivatives hb (by show 0 < value kw "alpha"; rw [v1]; norm_num)
  rw [← hkw]
  refine ⟨_, hb, ?_, d2 3 (by show (0 : ℝ) < 3; norm_num), d4 (fun h => h) 3 (by show (0 : ℝ) < 3; norm_num)⟩
  rw [C97_formula hb]
  show (1 / 100 : ℝ) ^ 4 * tanh (3 / √(6 * value kw "alpha")) ^ (2 * value kw "p") = _
  rw [v0, v1]; norm_num

/-- `QuadraticPotential(A_s=A, phi_star=φ)` has `A = V³/(12 π² V'²) = Λ⁴ φ⁴/(48 π²)`, in particular a solution exists -/
example (o : PotOracles) (φ : ℝ) (hφ : 0 < φ) (A : ℝ) (hA : 0 < A) : ∃ x, construct o .quadratic [("A_s", some A), ("phi_star", some φ)] = .ok x ∧
    (x.Lambda ≠ 0 → A = x.Lambda ^ 4 * φ ^ 4 / (48 * π ^ 2)) := by
  obtain ⟨kw, hkw⟩ : ∃ kw : Kwargs, kw = [("A_s", some A), ("phi_star", some φ)] := ⟨_, rfl⟩
  obtain ⟨L', w, h1, -⟩ := C10_As_phistar Quadratic.sr C09_quadratic ⟨none, some A, none, some (some φ), []⟩ A _ φ rfl hA (Or.inl rfl) rfl rfl (by simp) rfl
    (by show 0 < (1 : ℝ) ^ 4 * φ ^ 2; positivity) (by show (0 : ℝ) < 2 ^ 2 / (2 * φ ^ 2); positivity)
  have hx : construct o .quadratic kw = .ok ⟨.quadratic, { p := some 2 }, L', w⟩ := by
    refine construct_iff.2 ⟨{ p := some 2 }, by taken, base_ok.2 ⟨none, some A, by simp [hkw, get?_rest, Dict.get?_cons, PotClass.required],
      by simp [hkw, get?_rest, Dict.get?_cons, PotClass.required], rfl, rfl, ?_, ?_⟩⟩
    · intro k hk
      rw [hkw] at hk ⊢
      simp only [get?_rest, Dict.get?_cons, Dict.get?_nil, PotClass.required, List.not_mem_nil, if_false] at hk
      refine Or.inr ⟨by simp [get?_rest, Dict.get?_cons, PotClass.required], ?_⟩
      by_contra hn
      push Not at hn
      simp [hn.1, hn.2.2] at hk
    · have h2 : potInit (PotClass.methods o .quadratic { p := some 2 }) ⟨none, some A, none, some (some φ), []⟩ = .ok (L', w) := h1
      simpa [hkw, get?_rest, Dict.get?_cons, PotClass.required] using h2
  rw [← hkw]
  refine ⟨_, hx, fun hL => ?_⟩
  have hL : L' ≠ 0 := hL
  obtain ⟨φ', h', hA'⟩ := C97_amplitude hx trivial (fun h => h) (A := A) (by simp [hkw, Dict.get?_cons]) hA (by simp [hkw, Dict.get?_cons])
  obtain rfl : φ' = φ := by
    rcases h' with h | ⟨N, h, -⟩
    · rw [hkw] at h; simpa [Dict.get?_cons] using h.symm
    · rw [hkw] at h; simp [Dict.get?_cons] at h
  have k := hA' (L' ^ 4 * (2 * φ')) (mem_univ _) (by show 0 < L' ^ 4 * φ' ^ 2; positivity)
    (by show HasDerivAt (fun φ => L' ^ 4 * φ ^ 2) _ _; exact ((hasDerivAt_pow 2 φ').const_mul (L' ^ 4)).congr_deriv (by norm_num)) (by positivity)
  have k : A = (L' ^ 4 * φ' ^ 2) ^ 3 / (12 * π ^ 2 * (L' ^ 4 * (2 * φ')) ^ 2) := k
  show A = L' ^ 4 * φ' ^ 4 / (48 * π ^ 2)
  rw [k]
  field_simp
  norm_num

/-- `C97_along` for the quadratic potential and a linearly rolling field -/
example (x : ℝ) : HasDerivAt (fun x => (InflT.mk 0 (Quadratic.mk 1).fns false).dVdphi (fun _ => 3 - 2 * x)) (2 * 1 ^ 4 * -2) x := by
  have hY : HasDerivAt (fun x : ℝ => (fun (x : ℝ) (_ : ℕ) => 3 - 2 * x) x 0) (-2) x := (((hasDerivAt_id x).const_mul 2).const_sub 3).congr_deriv (by norm_num)
  exact (C97_along (C01_quadratic ⟨1⟩).d1 (C01_quadratic ⟨1⟩).d2 0 false false hY (mem_univ _)).1.2.2

end C97.Ex
end Primpy
