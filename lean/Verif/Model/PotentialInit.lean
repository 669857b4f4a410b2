import Verif.Model.Potentials

/-!
# Constructor of the potentials and `sr_As2Lambda` — primpy/potentials.py

The base-class constructor is modelled once, over the methods it calls on `self`.
-/

namespace Primpy
open Real

/-- The bound methods `sr_As2Lambda` calls on `self` (for the current value of `self.Lambda`). -/
structure SRMethods where
  V : ℝ → ℝ
  get_epsilon_1V : ℝ → ℝ
  sr_phi2N : ℝ → Except PyErr ℝ
  sr_N2phi : ℝ → Except PyErr ℝ

/-- `InflationaryPotential.sr_As2Lambda`, potentials.py:231-276. `None` is `none`; with both arguments
`None` the call `self.sr_phi2N(None)` fails with a `TypeError`. Returns `(Lambda, phi_star, N_star)`. -/
noncomputable def sr_As2Lambda (Lambda : ℝ) (P : SRMethods) (A_s : ℝ)
    (phi_star N_star : Option ℝ) : Except PyErr (ℝ × ℝ × ℝ) :=
  let finish (phi N : ℝ) : Except PyErr (ℝ × ℝ × ℝ) :=
    let e1 := P.get_epsilon_1V phi
    let H2 := P.V phi / 3
    let A_s0 := H2 / (8 * π^2 * e1)
    .ok (Lambda * (A_s / A_s0) ^ (1/4 : ℝ), phi, N)
  match N_star with
  | none =>
    match phi_star with
    | none => .error (.typeError "sr_phi2N(None)")
    | some phi => do
      let N ← P.sr_phi2N phi
      finish phi N
  | some N =>
    match phi_star with
    | none => do
      let phi ← P.sr_N2phi N
      finish phi N
    | some _ => .error (.exception "Need to specify either N_star or phi_star")

/-- The keyword arguments that reach `InflationaryPotential.__init__` (after the subclass has popped its
own): absent arguments are `none`; `N_star`/`phi_star` may be passed explicitly as `None`
(`some none`); `other` are the names of all further keyword arguments. -/
structure PotKwargs where
  Lambda : Option ℝ
  A_s : Option ℝ
  N_star : Option (Option ℝ)
  phi_star : Option (Option ℝ)
  other : List String

open Classical in
/-- `InflationaryPotential.__init__`, potentials.py:21-36: the value of `self.Lambda` afterwards and
whether the "`Lambda` will be ignored" warning was issued.  `fam L` are the methods of `self` when
`self.Lambda = L`. -/
noncomputable def potInit (fam : ℝ → SRMethods) (kw : PotKwargs) : Except PyErr (ℝ × Bool) :=
  let L0 := kw.Lambda.getD 1
  match kw.A_s with
  | none =>
    -- N_star / phi_star were not popped, so they count as unknown keywords
    if kw.N_star.isSome ∨ kw.phi_star.isSome ∨ kw.other ≠ [] then
      .error (.exception "does not accept kwarg")
    else .ok (L0, false)
  | some A_s =>
    if kw.N_star = none ∧ kw.phi_star = none then
      .error (.primpyError "need to also specify either N_star or phi_star")
    else do
      let (L, _, _) ← sr_As2Lambda L0 (fam L0) A_s (kw.phi_star.getD none) (kw.N_star.getD none)
      if kw.other ≠ [] then .error (.exception "does not accept kwarg")
      else .ok (L, decide (L0 ≠ 1))

/-! The families of bound methods, one per class. -/

noncomputable def Monomial.sr (p Λ : ℝ) : SRMethods :=
  let m : Monomial := ⟨Λ, p⟩
  ⟨m.V, m.get_epsilon_1V, fun φ => .ok (m.sr_phi2N φ), fun N => .ok (m.sr_N2phi N)⟩
noncomputable def Quadratic.sr (Λ : ℝ) : SRMethods :=
  let q : Quadratic := ⟨Λ⟩
  ⟨q.V, q.get_epsilon_1V, fun φ => .ok (q.sr_phi2N φ), fun N => .ok (q.sr_N2phi N)⟩
noncomputable def Starobinsky.sr (W : ℝ → ℝ) (Λ : ℝ) : SRMethods :=
  let s : Starobinsky := ⟨Λ⟩
  ⟨s.V, s.get_epsilon_1V, fun φ => .ok (s.sr_phi2N φ), fun N => .ok (s.sr_N2phi W N)⟩
noncomputable def Natural.sr (phi0 Λ : ℝ) : SRMethods :=
  let n : Natural := ⟨Λ, phi0⟩
  ⟨n.V, n.get_epsilon_1V, fun φ => .ok (n.sr_phi2N φ), fun N => .ok (n.sr_N2phi N)⟩
/-- `self.phi_end` is evaluated first, by root finding. -/
noncomputable def DoubleWell.sr (root : RootScalar) (phi0 p Λ : ℝ) : SRMethods :=
  let d : DoubleWell := ⟨Λ, phi0, p⟩
  ⟨d.V, d.get_epsilon_1V, fun φ => do let φe ← d.phi_end root; .ok (d.sr_phi2N φe φ),
    fun N => do let φe ← d.phi_end root; d.sr_N2phi φe N⟩
noncomputable def DoubleWell2.sr (phi0 Λ : ℝ) : SRMethods :=
  let d := DoubleWell2 Λ phi0
  ⟨d.V, d.get_epsilon_1V, fun φ => .ok (d.sr_phi2N (DoubleWell2.phi_end phi0) φ),
    fun N => d.sr_N2phi (DoubleWell2.phi_end phi0) N⟩
noncomputable def Tmodel.sr (p alpha Λ : ℝ) : SRMethods :=
  let t : Tmodel := ⟨Λ, p, alpha⟩
  ⟨t.V, t.get_epsilon_1V, fun φ => .ok (t.sr_phi2N φ), fun N => .ok (t.sr_N2phi N)⟩
noncomputable def RadionGauge.sr (root : RootScalar) (p alpha Λ : ℝ) : SRMethods :=
  let g : RadionGauge := ⟨Λ, p, alpha⟩
  ⟨g.V, g.get_epsilon_1V, fun φ => do let φe ← g.phi_end root; .ok (g.sr_phi2N φe φ),
    fun N => do let φe ← g.phi_end root; g.sr_N2phi root φe N⟩
noncomputable def RadionGauge2.sr (alpha Λ : ℝ) : SRMethods :=
  let g := RadionGauge2 Λ alpha
  ⟨g.V, g.get_epsilon_1V, fun φ => .ok (g.sr_phi2N (RadionGauge2.phi_end alpha) φ),
    fun N => .ok (RadionGauge2.sr_N2phi alpha N)⟩
/-- Feature potentials: `V` carries the feature, the slow-roll methods are the base class's. -/
noncomputable def Starobinsky.featureSr (W : ℝ → ℝ) (f : FeatureFns) (Λ : ℝ) : SRMethods :=
  let s : Starobinsky := ⟨Λ⟩
  ⟨(FeaturePotential s.fns f).V, s.get_epsilon_1V, fun φ => .ok (s.sr_phi2N φ),
    fun N => .ok (s.sr_N2phi W N)⟩

end Primpy
