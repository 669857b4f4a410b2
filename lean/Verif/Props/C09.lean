import Verif.Model.PotentialInit
import Verif.Props.C08

/-!
# C09 — `sr_As2Lambda` hits the requested amplitude and only the amplitude depends on `Lambda`
-/

namespace Primpy
open Real Spec Set

/-- A family of potentials, indexed by `Lambda`, in which `Lambda⁴` is an overall factor of the
potential and nothing slow-roll depends on it. -/
structure ScaleFree (fam : ℝ → SRMethods) : Prop where
  amplitude : ∃ v : ℝ → ℝ, ∀ L φ, (fam L).V φ = L^4 * v φ
  eps : ∀ L L' : ℝ, L ≠ 0 → L' ≠ 0 → (fam L).get_epsilon_1V = (fam L').get_epsilon_1V
  phi2N : ∀ L L' : ℝ, L ≠ 0 → L' ≠ 0 → (fam L).sr_phi2N = (fam L').sr_phi2N
  N2phi : ∀ L L' : ℝ, L ≠ 0 → L' ≠ 0 → (fam L).sr_N2phi = (fam L').sr_N2phi

/-- Leading-order slow-roll amplitude of the scalar spectrum, `V / (24 π² ε₁V)` (in reduced Planck
units). -/
noncomputable def slowRollAmplitude (P : SRMethods) (φ : ℝ) : ℝ :=
  P.V φ / (24 * π^2 * P.get_epsilon_1V φ)

private theorem As_core (fam : ℝ → SRMethods) (h : ScaleFree fam) (L A φ : ℝ) (hL : L ≠ 0) (hA : 0 < A)
    (hV : 0 < (fam L).V φ) (he : 0 < (fam L).get_epsilon_1V φ) :
    slowRollAmplitude (fam (L * (A / ((fam L).V φ / 3 / (8 * π^2 * (fam L).get_epsilon_1V φ))) ^ (1/4 : ℝ))) φ
      = A := by
  have hpi := pi_pos
  obtain ⟨v, hv⟩ := h.amplitude
  obtain ⟨q, hq⟩ : ∃ q, q = A / ((fam L).V φ / 3 / (8 * π^2 * (fam L).get_epsilon_1V φ)) := ⟨_, rfl⟩
  have hq0 : 0 < q := by rw [hq]; positivity
  rw [← hq]
  have h4 : (q ^ (1/4 : ℝ))^4 = q := by
    rw [← rpow_natCast, ← rpow_mul hq0.le]; norm_num
  have hne : L * q ^ (1/4 : ℝ) ≠ 0 := mul_ne_zero hL (rpow_pos_of_pos hq0 _).ne'
  unfold slowRollAmplitude
  rw [h.eps _ L hne hL, hv, mul_pow, h4]
  have e : L^4 * q * v φ = q * (fam L).V φ := by rw [hv]; ring
  rw [e, hq]; field_simp; norm_num

/-- Given `N_star`: `phi_star` is `sr_N2phi(N_star)` and the amplitude there is `A_s`. -/
theorem C09_from_Nstar (fam : ℝ → SRMethods) (h : ScaleFree fam) (L A N φ : ℝ) (hL : L ≠ 0)
    (hA : 0 < A) (hφ : (fam L).sr_N2phi N = .ok φ) (hV : 0 < (fam L).V φ)
    (he : 0 < (fam L).get_epsilon_1V φ) :
    ∃ L', sr_As2Lambda L (fam L) A none (some N) = .ok (L', φ, N) ∧
      slowRollAmplitude (fam L') φ = A ∧ (0 < L → 0 < L') := by
  refine ⟨_, ?_, As_core fam h L A φ hL hA hV he, fun hp => ?_⟩
  · simp only [sr_As2Lambda, hφ]; rfl
  · have hpi := pi_pos
    exact mul_pos hp (rpow_pos_of_pos (by positivity) _)

/-- Given `phi_star`: `N_star` is `sr_phi2N(phi_star)` and the amplitude there is `A_s`. -/
theorem C09_from_phistar (fam : ℝ → SRMethods) (h : ScaleFree fam) (L A N φ : ℝ) (hL : L ≠ 0)
    (hA : 0 < A) (hN : (fam L).sr_phi2N φ = .ok N) (hV : 0 < (fam L).V φ)
    (he : 0 < (fam L).get_epsilon_1V φ) :
    ∃ L', sr_As2Lambda L (fam L) A (some φ) none = .ok (L', φ, N) ∧
      slowRollAmplitude (fam L') φ = A ∧ (0 < L → 0 < L') := by
  refine ⟨_, ?_, As_core fam h L A φ hL hA hV he, fun hp => ?_⟩
  · simp only [sr_As2Lambda, hN]; rfl
  · have hpi := pi_pos
    exact mul_pos hp (rpow_pos_of_pos (by positivity) _)

/-- Giving both, or neither, is an error. -/
theorem C09_bad_arguments (P : SRMethods) (L A N φ : ℝ) :
    (∃ m, sr_As2Lambda L P A (some φ) (some N) = .error (.exception m)) ∧
    (∃ m, sr_As2Lambda L P A none none = .error (.typeError m)) :=
  ⟨⟨_, rfl⟩, ⟨_, rfl⟩⟩

/-- The result does not depend on the `Lambda > 0` the potential had before. -/
theorem C09_forgets_Lambda (fam : ℝ → SRMethods) (h : ScaleFree fam) (L1 L2 A : ℝ) (h1 : 0 < L1)
    (h2 : 0 < L2) (hA : 0 < A) (phi_star N_star : Option ℝ)
    (hpos : ∀ φ, 0 < (fam L1).get_epsilon_1V φ → 0 < (fam L1).V φ)
    (heps : ∀ φ, 0 < (fam L1).get_epsilon_1V φ) :
    sr_As2Lambda L1 (fam L1) A phi_star N_star = sr_As2Lambda L2 (fam L2) A phi_star N_star := by
  have hpi := pi_pos
  obtain ⟨v, hv⟩ := h.amplitude
  have e1 := h.eps L1 L2 h1.ne' h2.ne'
  have e2 := h.phi2N L1 L2 h1.ne' h2.ne'
  have e3 := h.N2phi L1 L2 h1.ne' h2.ne'
  have key : ∀ φ, L1 * (A / ((fam L1).V φ / 3 / (8 * π^2 * (fam L1).get_epsilon_1V φ))) ^ (1/4 : ℝ)
      = L2 * (A / ((fam L2).V φ / 3 / (8 * π^2 * (fam L2).get_epsilon_1V φ))) ^ (1/4 : ℝ) := by
    intro φ
    have hE := heps φ
    have hV1 := hpos φ hE
    have hvφ : 0 < v φ := by
      rw [hv] at hV1; exact pos_of_mul_pos_right hV1 (by positivity)
    rw [← e1]
    rw [hv, hv]
    generalize (fam L1).get_epsilon_1V φ = E at *
    have form : ∀ L : ℝ, 0 < L → L * (A / (L^4 * v φ / 3 / (8 * π^2 * E))) ^ (1/4 : ℝ) =
        (A * (24 * π^2 * E) / v φ) ^ (1/4 : ℝ) := by
      intro L hL
      have e : A / (L^4 * v φ / 3 / (8 * π^2 * E)) = (A * (24 * π^2 * E) / v φ) / L^4 := by
        field_simp; norm_num
      have hL4 : (L^4) ^ (1/4 : ℝ) = L := by
        rw [← rpow_natCast, ← rpow_mul hL.le]; norm_num
      rw [e, div_rpow (by positivity) (by positivity), hL4]; field_simp
    rw [form L1 h1, form L2 h2]
  simp only [sr_As2Lambda, ← e2, ← e3]
  cases N_star with
  | none =>
    cases phi_star with
    | none => rfl
    | some φ =>
      simp only
      cases (fam L1).sr_phi2N φ with
      | error e => rfl
      | ok N => simp only [bind, Except.bind, key]
  | some N =>
    cases phi_star with
    | some φ => rfl
    | none =>
      simp only
      cases (fam L1).sr_N2phi N with
      | error e => rfl
      | ok φ => simp only [bind, Except.bind, key]

/-! ## Every class is scale-free -/

theorem C09_monomial (p : ℝ) : ScaleFree (Monomial.sr p) :=
  ⟨⟨fun φ => |φ| ^ p, fun _ _ => rfl⟩, fun _ _ _ _ => rfl, fun _ _ _ _ => rfl, fun _ _ _ _ => rfl⟩
theorem C09_quadratic : ScaleFree Quadratic.sr :=
  ⟨⟨fun φ => φ^2, fun _ _ => rfl⟩, fun _ _ _ _ => rfl, fun _ _ _ _ => rfl, fun _ _ _ _ => rfl⟩
theorem C09_starobinsky (W : ℝ → ℝ) : ScaleFree (Starobinsky.sr W) :=
  ⟨⟨fun φ => (1 - exp (-Starobinsky.gamma * φ))^2, fun _ _ => rfl⟩, fun _ _ _ _ => rfl,
   fun _ _ _ _ => rfl, fun _ _ _ _ => rfl⟩
theorem C09_natural (phi0 : ℝ) : ScaleFree (Natural.sr phi0) :=
  ⟨⟨fun φ => 1 / 2 * (1 - cos (π * φ / phi0)), fun L φ => by
      simp only [Natural.sr, Natural.V]; ring⟩, fun _ _ _ _ => rfl,
   fun _ _ _ _ => rfl, fun _ _ _ _ => rfl⟩
theorem C09_doublewell (root : RootScalar) (phi0 p : ℝ) : ScaleFree (DoubleWell.sr root phi0 p) :=
  ⟨⟨fun φ => (1 - (1 - φ / phi0) ^ p)^2, fun _ _ => rfl⟩, fun _ _ _ _ => rfl, fun _ _ _ _ => rfl,
   fun _ _ _ _ => rfl⟩
theorem C09_doublewell2 (phi0 : ℝ) : ScaleFree (DoubleWell2.sr phi0) :=
  ⟨⟨fun φ => (1 - (1 - φ / phi0) ^ (2:ℝ))^2, fun _ _ => rfl⟩, fun _ _ _ _ => rfl, fun _ _ _ _ => rfl,
   fun _ _ _ _ => rfl⟩
theorem C09_tmodel (p alpha : ℝ) : ScaleFree (Tmodel.sr p alpha) :=
  ⟨⟨fun φ => tanh (φ / √(6 * alpha)) ^ (2 * p), fun _ _ => rfl⟩, fun _ _ _ _ => rfl,
   fun _ _ _ _ => rfl, fun _ _ _ _ => rfl⟩
/-- The bracket of the two root searches is computed from `Lambda⁴ (1-ε)` through `inv_V`, in which
`Lambda` cancels. -/
theorem C09_radiongauge (root : RootScalar) (p alpha : ℝ) : ScaleFree (RadionGauge.sr root p alpha) := by
  have inv : ∀ L : ℝ, L ≠ 0 → ∀ c : ℝ, (RadionGauge.mk L p alpha).inv_V (L^4 * c) =
      (alpha / (1 / c - 1)) ^ (1 / p) := by
    intro L hL c
    have : L^4 / (L^4 * c) = 1 / c := by
      rw [div_mul_eq_div_div, div_self (pow_ne_zero 4 hL)]
    simp only [RadionGauge.inv_V, this]
  have pe : ∀ L L' : ℝ, L ≠ 0 → L' ≠ 0 → (RadionGauge.mk L p alpha).phi_end root =
      (RadionGauge.mk L' p alpha).phi_end root := by
    intro L L' hL hL'
    simp only [RadionGauge.phi_end, inv L hL, inv L' hL']; rfl
  refine ⟨⟨fun φ => φ ^ p / (alpha + φ ^ p), fun L φ => by
    simp only [RadionGauge.sr, RadionGauge.V, mul_div_assoc]⟩, fun _ _ _ _ => rfl, ?_, ?_⟩
  · intro L L' hL hL'; simp only [RadionGauge.sr, pe L L' hL hL']; rfl
  · intro L L' hL hL'
    simp only [RadionGauge.sr, pe L L' hL hL', RadionGauge.sr_N2phi, inv L hL, inv L' hL']; rfl
theorem C09_radiongauge2 (alpha : ℝ) : ScaleFree (RadionGauge2.sr alpha) :=
  ⟨⟨fun φ => φ ^ (2:ℝ) / (alpha + φ ^ (2:ℝ)), fun L φ => by
    simp only [RadionGauge2.sr, RadionGauge2, RadionGauge.V, mul_div_assoc]⟩, fun _ _ _ _ => rfl,
   fun _ _ _ _ => rfl, fun _ _ _ _ => rfl⟩
theorem C09_feature (W : ℝ → ℝ) (f : FeatureFns) : ScaleFree (Starobinsky.featureSr W f) :=
  ⟨⟨fun φ => (1 - exp (-Starobinsky.gamma * φ))^2 * (1 + f.F φ), fun L φ => by
    simp only [Starobinsky.featureSr, FeaturePotential, Starobinsky.fns, Starobinsky.V]; ring⟩,
   fun _ _ _ _ => rfl, fun _ _ _ _ => rfl, fun _ _ _ _ => rfl⟩

/-! ## The methods of one object belong together

So that the amplitude of `sr_As2Lambda` is the slow-roll amplitude `V³/(12π²V'²)` *of the potential itself*, `N_star` e-folds before the end. -/

/-- Specification: on `dom` the potential is differentiable, and `get_epsilon_1V` is `(V'/V)²/2` of that very potential. -/
def EpsilonOf (P : SRMethods) (dom : Set ℝ) : Prop :=
  ∀ φ ∈ dom, ∃ d, HasDerivAt P.V d φ ∧ P.get_epsilon_1V φ = (d / P.V φ) ^ 2 / 2

/-- Specification: for every number of e-folds `N ≥ 0`, `sr_N2phi` answers a field in `dom` from which `sr_phi2N` counts `N` again. -/
def CountsBack (P : SRMethods) (dom : Set ℝ) : Prop :=
  ∀ N, 0 ≤ N → ∃ φ ∈ dom, P.sr_N2phi N = .ok φ ∧ P.sr_phi2N φ = .ok N

theorem EpsilonOf.of_chain {P : SRMethods} {dom dom' : Set ℝ} {V dV d2 d3 d4 e1 e2 e3 e4 : ℝ → ℝ}
    (hV : P.V = V) (he : P.get_epsilon_1V = e1) (hc : IsDerivChain dom V dV d2 d3 d4)
    (hs : IsSlowRollHierarchy dom' V dV e1 e2 e3 e4) : EpsilonOf P (dom ∩ dom') := by
  intro φ hφ
  rw [hV, he]
  exact ⟨_, hc.d1 φ hφ.1, hs.first φ hφ.2⟩

theorem EpsilonOf.mono {P : SRMethods} {A B : Set ℝ} (h : EpsilonOf P B) (hAB : A ⊆ B) : EpsilonOf P A :=
  fun φ hφ => h φ (hAB hφ)

theorem CountsBack.of_inverse {P : SRMethods} {A : Set ℝ} {f g : ℝ → ℝ} (h : InverseOn A (Ici 0) f g)
    (h1 : ∀ φ, P.sr_phi2N φ = .ok (f φ)) (h2 : ∀ N, P.sr_N2phi N = .ok (g N)) : CountsBack P A :=
  fun N hN => ⟨g N, h.mapsFrom N hN, h2 N, by rw [h1, h.right N hN]⟩

/-- Specification: asked for an amplitude `A > 0` at `N ≥ 0` e-folds before the end, `sr_As2Lambda` answers a field in `dom` from which `N` e-folds
are left, and a `Lambda > 0` with which `V³/(12π²V'²) = A` there, `V'` being the derivative of the potential with that `Lambda`. -/
def HitsAmplitude (fam : ℝ → SRMethods) (dom : Set ℝ) : Prop :=
  ∀ L A N, 0 < L → 0 < A → 0 ≤ N → ∃ L' φ d, sr_As2Lambda L (fam L) A none (some N) = .ok (L', φ, N) ∧ 0 < L' ∧ φ ∈ dom ∧
    HasDerivAt (fam L').V d φ ∧ (fam L').V φ ^ 3 / (12 * π ^ 2 * d ^ 2) = A ∧ (fam L').sr_phi2N φ = .ok N

theorem hitsAmplitude {fam : ℝ → SRMethods} (h : ScaleFree fam) {dom : Set ℝ} (hE : ∀ L, 0 < L → EpsilonOf (fam L) dom)
    (hC : ∀ L, 0 < L → CountsBack (fam L) dom) (hV : ∀ L φ, 0 < L → φ ∈ dom → 0 < (fam L).V φ)
    (he : ∀ L φ, 0 < L → φ ∈ dom → 0 < (fam L).get_epsilon_1V φ) : HitsAmplitude fam dom := by
  intro L A N hL hA hN
  obtain ⟨φ, hφ, h1, h2⟩ := hC L hL N hN
  obtain ⟨L', e1, e2, e3⟩ := C09_from_Nstar fam h L A N φ hL.ne' hA h1 (hV L φ hL hφ) (he L φ hL hφ)
  have hL' := e3 hL
  obtain ⟨d, hd, hed⟩ := hE L' hL' φ hφ
  have hV' := hV L' φ hL' hφ
  have he' := he L' φ hL' hφ
  have hd0 : d ≠ 0 := by
    rintro rfl
    rw [hed] at he'
    simp at he'
  refine ⟨L', φ, d, e1, hL', hφ, hd, ?_, ?_⟩
  · rw [← e2, slowRollAmplitude, hed]
    have := pi_pos
    field_simp
    norm_num
  · rw [h.phi2N L' L hL'.ne' hL.ne']; exact h2

/-- positivity of `ε₁` follows from a nonzero derivative -/
theorem EpsilonOf.pos {P : SRMethods} {dom : Set ℝ} {dV : ℝ → ℝ} (h : EpsilonOf P dom) {φ : ℝ} (hφ : φ ∈ dom) (hd : HasDerivAt P.V (dV φ) φ)
    (hV : P.V φ ≠ 0) (h0 : dV φ ≠ 0) : 0 < P.get_epsilon_1V φ := by
  obtain ⟨d, h1, h2⟩ := h φ hφ
  rw [h2, h1.unique hd]
  positivity

/-- **C09, monomials**, for every exponent `p > 0`. -/
theorem C09_hits_monomial {p : ℝ} (hp : 0 < p) : HitsAmplitude (Monomial.sr p) (Ici (√2 * p / 2)) := by
  have pe : 0 < √2 * p / 2 := (C05_monomial ⟨1, p⟩ hp).mem
  have hpos : ∀ φ ∈ Ici (√2 * p / 2), 0 < φ := fun φ h => pe.trans_le h
  refine hitsAmplitude (C09_monomial p)
    (fun L hL => (EpsilonOf.of_chain (P := Monomial.sr p L) rfl rfl (C01_monomial ⟨L, p⟩) (C03_monomial ⟨L, p⟩ hp.ne' hL.ne')).mono
      fun φ h => ⟨(hpos φ h).ne', (hpos φ h).ne'⟩)
    (fun L _ => CountsBack.of_inverse (C07_monomial ⟨L, p⟩ hp) (fun _ => rfl) fun _ => rfl)
    (fun L φ hL h => ?_) (fun L φ hL h => ?_)
  · have := hpos φ h
    show 0 < L ^ 4 * |φ| ^ p
    rw [abs_of_pos this]
    have := rpow_pos_of_pos this p
    positivity
  · have := hpos φ h
    show 0 < p ^ 2 / (2 * φ ^ 2)
    positivity

/-- **C09, quadratic**: the class with its own closed forms of the potential. -/
theorem C09_hits_quadratic : HitsAmplitude Quadratic.sr (Ici (√2 * 2 / 2)) := by
  have pe : 0 < √2 * 2 / 2 := (C05_monomial ⟨1, 2⟩ two_pos).mem
  have hpos : ∀ φ ∈ Ici (√2 * 2 / 2), 0 < φ := fun φ h => pe.trans_le h
  refine hitsAmplitude C09_quadratic
    (fun L hL => (EpsilonOf.of_chain (P := Quadratic.sr L) rfl rfl (C01_quadratic ⟨L⟩) (C03_quadratic ⟨L⟩ hL.ne')).mono
      fun φ h => ⟨trivial, (hpos φ h).ne'⟩)
    (fun L _ => CountsBack.of_inverse (C07_monomial_subclasses L).1 (fun _ => rfl) fun _ => rfl)
    (fun L φ hL h => ?_) (fun L φ hL h => ?_)
  · have := hpos φ h
    show 0 < L ^ 4 * φ ^ 2
    positivity
  · have := hpos φ h
    show 0 < 2 ^ 2 / (2 * φ ^ 2)
    positivity

/-- **C09, Starobinsky**, with any function `W` solving `W e^W = x` on the branch used. -/
theorem C09_hits_starobinsky (W : ℝ → ℝ) (hW : LambertContract W) : HitsAmplitude (Starobinsky.sr W) (Ici (⟨1⟩ : Starobinsky).phi_end) := by
  have hg : 0 < Starobinsky.gamma := sqrt_pos.mpr (by norm_num)
  have pe : 0 < (⟨1⟩ : Starobinsky).phi_end := (C05_starobinsky ⟨1⟩).mem
  have hpos : ∀ φ ∈ Ici (⟨1⟩ : Starobinsky).phi_end, 0 < φ := fun φ h => pe.trans_le h
  have hx : ∀ φ ∈ Ici (⟨1⟩ : Starobinsky).phi_end, exp (-Starobinsky.gamma * φ) < 1 := fun φ h => by
    rw [exp_lt_one_iff]; have := hpos φ h; nlinarith
  refine hitsAmplitude (C09_starobinsky W)
    (fun L hL => (EpsilonOf.of_chain (P := Starobinsky.sr W L) rfl rfl (C01_starobinsky ⟨L⟩) (C03_starobinsky ⟨L⟩ hL.ne')).mono
      fun φ h => ⟨trivial, (hpos φ h).ne'⟩)
    (fun L _ => CountsBack.of_inverse (C07_starobinsky W hW ⟨L⟩) (fun _ => rfl) fun _ => rfl)
    (fun L φ hL h => ?_) (fun L φ hL h => ?_)
  · have := hx φ h
    show 0 < L ^ 4 * (1 - exp (-Starobinsky.gamma * φ)) ^ 2
    have : 0 < 1 - exp (-Starobinsky.gamma * φ) := by linarith
    positivity
  · have : 1 < exp (Starobinsky.gamma * φ) := by rw [one_lt_exp_iff]; have := hpos φ h; positivity
    show 0 < 2 * Starobinsky.gamma ^ 2 / (1 - exp (Starobinsky.gamma * φ)) ^ 2
    have h1 : 1 - exp (Starobinsky.gamma * φ) ≠ 0 := by linarith
    positivity

/-- **C09, natural inflation**, for every `phi0 > 0`. -/
theorem C09_hits_natural {phi0 : ℝ} (h0 : 0 < phi0) : HitsAmplitude (Natural.sr phi0) (Ico (⟨1, phi0⟩ : Natural).phi_end phi0) := by
  have pe := (C05_natural ⟨1, phi0⟩ h0).mem
  have hs : ∀ φ ∈ Ico (⟨1, phi0⟩ : Natural).phi_end phi0, 0 < sin (π * φ / phi0) := fun φ h => by
    have hφ : 0 < φ := pe.1.trans_le h.1
    refine sin_pos_of_pos_of_lt_pi (by have := pi_pos; positivity) ?_
    rw [div_lt_iff₀ h0]
    exact mul_lt_mul_of_pos_left h.2 pi_pos
  have hc : ∀ φ ∈ Ico (⟨1, phi0⟩ : Natural).phi_end phi0, cos (π * φ / phi0) < 1 := fun φ h => by
    refine lt_of_le_of_ne (cos_le_one _) fun e => ?_
    have := sin_sq_add_cos_sq (π * φ / phi0)
    rw [e] at this
    have := hs φ h
    nlinarith
  have hE : ∀ L, 0 < L → EpsilonOf (Natural.sr phi0 L) (Ico (⟨1, phi0⟩ : Natural).phi_end phi0) := fun L hL =>
    (EpsilonOf.of_chain (P := Natural.sr phi0 L) rfl rfl (C01_natural ⟨L, phi0⟩) (C03_natural ⟨L, phi0⟩ h0.ne' hL.ne')).mono
      fun φ h => ⟨trivial, (hs φ h).ne'⟩
  have hV : ∀ L φ, 0 < L → φ ∈ Ico (⟨1, phi0⟩ : Natural).phi_end phi0 → 0 < (Natural.sr phi0 L).V φ := fun L φ hL h => by
    show 0 < L ^ 4 / 2 * (1 - cos (π * φ / phi0))
    have := hc φ h
    have : 0 < 1 - cos (π * φ / phi0) := by linarith
    positivity
  refine hitsAmplitude (C09_natural phi0) hE
    (fun L _ => CountsBack.of_inverse (C07_natural ⟨L, phi0⟩ h0) (fun _ => rfl) fun _ => rfl) hV (fun L φ hL h => ?_)
  refine (hE L hL).pos h ((C01_natural ⟨L, phi0⟩).d1 φ trivial) (hV L φ hL h).ne' ?_
  have := hs φ h
  have := pi_pos
  show L ^ 4 / 2 * sin (π * φ / phi0) * π / phi0 ≠ 0
  positivity

/-- **C09, T-models**, for every `p > 0`, `alpha > 0`. -/
theorem C09_hits_tmodel {p alpha : ℝ} (hp : 0 < p) (ha : 0 < alpha) : HitsAmplitude (Tmodel.sr p alpha) (Ici (⟨1, p, alpha⟩ : Tmodel).phi_end) := by
  have pe := (C05_tmodel ⟨1, p, alpha⟩ ha hp).mem
  have hs6 : 0 < √(6 * alpha) := sqrt_pos.2 (by positivity)
  have ht : ∀ φ ∈ Ici (⟨1, p, alpha⟩ : Tmodel).phi_end, 0 < tanh (φ / √(6 * alpha)) := fun φ h => by
    have hφ : 0 < φ := lt_of_lt_of_le pe h
    rw [tanh_eq_sinh_div_cosh]
    have := sinh_pos_iff.2 (div_pos hφ hs6)
    have := cosh_pos (φ / √(6 * alpha))
    positivity
  have hE : ∀ L, 0 < L → EpsilonOf (Tmodel.sr p alpha L) (Ici (⟨1, p, alpha⟩ : Tmodel).phi_end) := fun L hL =>
    (EpsilonOf.of_chain (P := Tmodel.sr p alpha L) rfl rfl (C01_tmodel ⟨L, p, alpha⟩ ha) (C03_tmodel ⟨L, p, alpha⟩ ha hp.ne' hL.ne')).mono
      fun φ h => ⟨Or.inl (ht φ h), Or.inl (ht φ h)⟩
  have hV : ∀ L φ, 0 < L → φ ∈ Ici (⟨1, p, alpha⟩ : Tmodel).phi_end → 0 < (Tmodel.sr p alpha L).V φ := fun L φ hL h => by
    show 0 < L ^ 4 * tanh (φ / √(6 * alpha)) ^ (2 * p)
    have := rpow_pos_of_pos (ht φ h) (2 * p)
    positivity
  refine hitsAmplitude (C09_tmodel p alpha) hE
    (fun L _ => CountsBack.of_inverse (C07_tmodel ⟨L, p, alpha⟩ ha hp) (fun _ => rfl) fun _ => rfl) hV (fun L φ hL h => ?_)
  have hφ : 0 < φ := lt_of_lt_of_le pe h
  show 0 < (Tmodel.mk L p alpha).get_epsilon_1V φ
  unfold Tmodel.get_epsilon_1V
  have hs : 0 < sinh (2 * φ / (Tmodel.mk L p alpha).s_6_a) := sinh_pos_iff.2 (div_pos (by linarith) hs6)
  positivity

/-- **C09, radion gauge inflation with `p = 2`** (the class with closed forms), for every `alpha > 0`. -/
theorem C09_hits_radiongauge2 {alpha : ℝ} (ha : 0 < alpha) : HitsAmplitude (RadionGauge2.sr alpha) (Ici (RadionGauge2.phi_end alpha)) := by
  have pe := (C05_radiongauge2 1 alpha ha).mem
  have hpos : ∀ φ ∈ Ici (RadionGauge2.phi_end alpha), 0 < φ := fun φ h => lt_of_lt_of_le pe h
  refine hitsAmplitude (C09_radiongauge2 alpha) (fun L hL φ h => ?_)
    (fun L _ => CountsBack.of_inverse (C07_radiongauge2 L alpha ha) (fun _ => rfl) fun _ => rfl) (fun L φ hL h => ?_) (fun L φ hL h => ?_)
  · have hφ := hpos φ h
    refine ⟨_, (C01_radiongauge2 L alpha ha).d1 φ hφ.ne', ?_⟩
    have hP := rpow_pos_of_pos hφ 2
    show (RadionGauge2 L alpha).get_epsilon_1V φ = ((RadionGauge2 L alpha).dV φ / (RadionGauge2 L alpha).V φ) ^ 2 / 2
    simp only [RadionGauge2, RadionGauge.get_epsilon_1V, RadionGauge.dV, RadionGauge.V, rpow_sub1 hφ.ne']
    field_simp
  · have hφ := hpos φ h
    have hP := rpow_pos_of_pos hφ 2
    show 0 < L ^ 4 * φ ^ (2:ℝ) / (alpha + φ ^ (2:ℝ))
    positivity
  · have hφ := hpos φ h
    have hP := rpow_pos_of_pos hφ 2
    show 0 < (RadionGauge2 L alpha).get_epsilon_1V φ
    simp only [RadionGauge2, RadionGauge.get_epsilon_1V]
    positivity

/-- **C09, double wells and radion gauge inflation with any exponent**: `sr_N2phi` searches for the field (and may raise), but whenever it answers one
inside the well, respectively a positive one, the requested amplitude is that of the potential itself. -/
theorem C09_hits_searched (root : RootScalar) {p : ℝ} (hp : 0 < p) {L A N : ℝ} (hL : 0 < L) (hA : 0 < A) :
    (∀ phi0 φ, 0 < phi0 → φ ∈ Ioo 0 phi0 → (DoubleWell.sr root phi0 p L).sr_N2phi N = .ok φ →
      ∃ L' d, sr_As2Lambda L (DoubleWell.sr root phi0 p L) A none (some N) = .ok (L', φ, N) ∧ 0 < L' ∧
        HasDerivAt (DoubleWell.sr root phi0 p L').V d φ ∧ (DoubleWell.sr root phi0 p L').V φ ^ 3 / (12 * π ^ 2 * d ^ 2) = A) ∧
    (∀ alpha φ, 0 < alpha → 0 < φ → (RadionGauge.sr root p alpha L).sr_N2phi N = .ok φ →
      ∃ L' d, sr_As2Lambda L (RadionGauge.sr root p alpha L) A none (some N) = .ok (L', φ, N) ∧ 0 < L' ∧
        HasDerivAt (RadionGauge.sr root p alpha L').V d φ ∧ (RadionGauge.sr root p alpha L').V φ ^ 3 / (12 * π ^ 2 * d ^ 2) = A) := by
  constructor
  · intro phi0 φ h0 hφ hN
    have hx : 0 < 1 - φ / phi0 := by rw [sub_pos, div_lt_one h0]; exact hφ.2
    have hx1 : 1 - φ / phi0 < 1 := by have := div_pos hφ.1 h0; linarith
    have hP := rpow_pos_of_pos hx p
    have hP1 : (1 - φ / phi0) ^ p < 1 := rpow_lt_one hx.le hx1 hp
    have hV : ∀ L, 0 < L → 0 < (DoubleWell.sr root phi0 p L).V φ := fun L hL => by
      show 0 < L ^ 4 * (1 - (1 - φ / phi0) ^ p) ^ 2
      have : 0 < 1 - (1 - φ / phi0) ^ p := by linarith
      positivity
    have hd : ∀ L, HasDerivAt (DoubleWell.sr root phi0 p L).V ((⟨L, phi0, p⟩ : DoubleWell).dV φ) φ := fun L =>
      (C01_doublewell ⟨L, phi0, p⟩ h0.ne').d1 φ (Or.inl hx)
    have heps : ∀ L, 0 < L → (DoubleWell.sr root phi0 p L).get_epsilon_1V φ =
        ((⟨L, phi0, p⟩ : DoubleWell).dV φ / (DoubleWell.sr root phi0 p L).V φ) ^ 2 / 2 := fun L hL => by
      have h2 : (1 - φ / phi0) ^ (2 * p - 2) = ((1 - φ / phi0) ^ p) ^ 2 / (1 - φ / phi0) ^ 2 := by
        rw [rpow_sub2 hx.ne', (show PowDom (1 - φ / phi0) p from Or.inl hx).two_mul]
      show (⟨L, phi0, p⟩ : DoubleWell).get_epsilon_1V φ = ((⟨L, phi0, p⟩ : DoubleWell).dV φ / (⟨L, phi0, p⟩ : DoubleWell).V φ) ^ 2 / 2
      have hu : 1 - (1 - φ / phi0) ^ p ≠ 0 := by linarith
      have hu' : (1 - φ / phi0) ^ p - 1 ≠ 0 := by linarith
      simp only [DoubleWell.get_epsilon_1V, DoubleWell.dV, DoubleWell.V, DoubleWell.x, h2, rpow_sub1 hx.ne']
      have : ((1 - φ / phi0) ^ p - 1) ^ 2 = (1 - (1 - φ / phi0) ^ p) ^ 2 := by ring
      rw [this]
      obtain ⟨u, hu⟩ : ∃ u, u = (1 - φ / phi0) ^ p := ⟨_, rfl⟩
      obtain ⟨x, hx'⟩ : ∃ x, x = 1 - φ / phi0 := ⟨_, rfl⟩
      rw [← hu] at *
      rw [← hx'] at *
      have hx0 := hx.ne'
      field_simp
    have he : 0 < (DoubleWell.sr root phi0 p L).get_epsilon_1V φ := by
      rw [heps L hL]
      have h1 := hV L hL
      have h2 : (⟨L, phi0, p⟩ : DoubleWell).dV φ ≠ 0 := by
        have : 1 - (1 - φ / phi0) ^ p ≠ 0 := by linarith
        have := rpow_pos_of_pos hx (p - 1)
        simp only [DoubleWell.dV, DoubleWell.x]
        positivity
      positivity
    obtain ⟨L', e1, e2, e3⟩ := C09_from_Nstar _ (C09_doublewell root phi0 p) L A N φ hL.ne' hA hN (hV L hL) he
    have hL' := e3 hL
    refine ⟨L', _, e1, hL', hd L', ?_⟩
    rw [← e2, slowRollAmplitude, heps L' hL']
    have h1 := hV L' hL'
    have h2 : (⟨L', phi0, p⟩ : DoubleWell).dV φ ≠ 0 := by
      have : 1 - (1 - φ / phi0) ^ p ≠ 0 := by linarith
      have := rpow_pos_of_pos hx (p - 1)
      simp only [DoubleWell.dV, DoubleWell.x]
      positivity
    have := pi_pos
    field_simp
    norm_num
  · intro alpha φ ha hφ hN
    have hP := rpow_pos_of_pos hφ p
    have hV : ∀ L, 0 < L → 0 < (RadionGauge.sr root p alpha L).V φ := fun L hL => by
      show 0 < L ^ 4 * φ ^ p / (alpha + φ ^ p)
      positivity
    have hd : ∀ L, HasDerivAt (RadionGauge.sr root p alpha L).V ((⟨L, p, alpha⟩ : RadionGauge).dV φ) φ := fun L =>
      (C01_radiongauge ⟨L, p, alpha⟩).d1 φ ⟨Or.inl hφ, by show alpha + φ ^ p ≠ 0; positivity⟩
    have hdpos : ∀ L, 0 < L → (⟨L, p, alpha⟩ : RadionGauge).dV φ ≠ 0 := fun L hL => by
      have := rpow_pos_of_pos hφ (p - 1)
      simp only [RadionGauge.dV]
      positivity
    have heps : ∀ L, 0 < L → (RadionGauge.sr root p alpha L).get_epsilon_1V φ =
        ((⟨L, p, alpha⟩ : RadionGauge).dV φ / (RadionGauge.sr root p alpha L).V φ) ^ 2 / 2 := fun L hL => by
      show (⟨L, p, alpha⟩ : RadionGauge).get_epsilon_1V φ = ((⟨L, p, alpha⟩ : RadionGauge).dV φ / (⟨L, p, alpha⟩ : RadionGauge).V φ) ^ 2 / 2
      simp only [RadionGauge.get_epsilon_1V, RadionGauge.dV, RadionGauge.V, rpow_sub1 hφ.ne']
      field_simp
    have he : 0 < (RadionGauge.sr root p alpha L).get_epsilon_1V φ := by
      rw [heps L hL]
      have h1 := hV L hL
      have h2 := hdpos L hL
      positivity
    obtain ⟨L', e1, e2, e3⟩ := C09_from_Nstar _ (C09_radiongauge root p alpha) L A N φ hL.ne' hA hN (hV L hL) he
    have hL' := e3 hL
    refine ⟨L', _, e1, hL', hd L', ?_⟩
    rw [← e2, slowRollAmplitude, heps L' hL']
    have h1 := hV L' hL'
    have h2 := hdpos L' hL'
    have := pi_pos
    field_simp
    norm_num

/-- Hypotheses of `C09_hits_searched` met: a quadratic double well, the field half way up. -/
example : (⟨1, 10, 2⟩ : DoubleWell).phis 49999 ∈ Ioo 0 10 ∧ ∃ N, (DoubleWell.sr (fun _ _ _ => .ok 1) 10 2 1).sr_N2phi N =
    .ok ((⟨1, 10, 2⟩ : DoubleWell).phis 49999) := by
  refine ⟨?_, _, (C07_doublewell_partial ⟨1, 10, 2⟩ 1 (by norm_num) two_pos).1 49999 (by norm_num)⟩
  simp only [DoubleWell.phis]; norm_num

/-- The specification is met by concrete models: `A_s = 2·10⁻⁹` at 60 e-folds. -/
example : ∃ L' φ d, sr_As2Lambda 1 (Natural.sr 10 1) (2 / 10 ^ 9) none (some 60) = .ok (L', φ, 60) ∧ 0 < L' ∧
    φ ∈ Ico (⟨1, 10⟩ : Natural).phi_end 10 ∧ HasDerivAt (Natural.sr 10 L').V d φ ∧
    (Natural.sr 10 L').V φ ^ 3 / (12 * π ^ 2 * d ^ 2) = 2 / 10 ^ 9 ∧ (Natural.sr 10 L').sr_phi2N φ = .ok 60 :=
  C09_hits_natural (by norm_num) 1 _ _ one_pos (by norm_num) (by norm_num)

/-- A concrete instance of all hypotheses: quartic inflation, `A_s = 2·10⁻⁹`, `N_star = 60`. -/
example : ∃ L' φ, sr_As2Lambda 1 (Monomial.sr 4 1) (2 / 10^9) none (some 60) = .ok (L', φ, 60) ∧
    slowRollAmplitude (Monomial.sr 4 L') φ = 2 / 10^9 ∧ 0 < L' := by
  have hφ : 0 < (Monomial.mk 1 4).sr_N2phi 60 := by
    unfold Monomial.sr_N2phi; positivity
  obtain ⟨L', h1, h2, h3⟩ := C09_from_Nstar (Monomial.sr 4) (C09_monomial 4) 1 (2/10^9) 60 _ one_ne_zero
    (by norm_num) rfl
    (by show 0 < (1:ℝ)^4 * |(Monomial.mk 1 4).sr_N2phi 60| ^ (4:ℝ)
        rw [abs_of_pos hφ]; have := rpow_pos_of_pos hφ 4; positivity)
    (by show 0 < (4:ℝ)^2 / (2 * ((Monomial.mk 1 4).sr_N2phi 60)^2); positivity)
  exact ⟨L', _, h1, h2, h3 one_pos⟩

end Primpy
