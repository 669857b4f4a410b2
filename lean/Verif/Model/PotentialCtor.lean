import Verif.Model.PotentialInit
import Verif.Model.Equations

/-!
# The constructors of the potential classes — primpy/potentials.py

`cls(**pot_kwargs)` for each of the fifteen concrete classes.  A keyword dictionary has numbers or `None` as values.
Simplification: a `None` for any keyword but `N_star`/`phi_star` raises `TypeError` at once (Python raises it at the first
arithmetic operation with the value, which for some classes is after construction).
-/

namespace Primpy
open Real

/-- The concrete classes of potentials.py (`InflationaryPotential`, `FeaturePotential` are abstract). -/
inductive PotClass where
  | monomial | linear | quadratic | cubic | quartic | starobinsky | natural | doubleWell | doubleWell2 | doubleWell4
  | tmodel | radionGauge | radionGauge2 | starobinskyGaussianDip | starobinskyTanhStep
  deriving DecidableEq, Repr

/-- The shape attributes a constructor stores on `self`; `none` = attribute not set (then no method of the class reads it). -/
structure Shape where
  p : Option ℝ := none
  phi0 : Option ℝ := none
  alpha : Option ℝ := none
  phi_feature : Option ℝ := none
  a_feature : Option ℝ := none
  b_feature : Option ℝ := none

/-- A constructed potential: its class, its attributes, and whether the constructor issued the "`Lambda` will be ignored" warning. -/
structure Pot where
  cls : PotClass
  shape : Shape
  Lambda : ℝ
  warned : Bool

/-- scipy's `lambertw(·, -1)` and `root_scalar`, used by `sr_N2phi` and `phi_end` of some classes. -/
structure PotOracles where
  W : ℝ → ℝ
  root : RootScalar

/-- Method resolution: the methods `sr_As2Lambda` finds on an object of class `c` with attributes `s` and `Lambda = Λ`.  `QuadraticPotential`,
`DoubleWell2Potential`, `RadionGauge2Potential` override methods of their parents (potentials.py:399-415, 862-866, 1197-1216); the feature classes resolve
`V` to `FeaturePotential.V` and everything else to `StarobinskyPotential` (potentials.py:1353, 1414, 1422). -/
noncomputable def PotClass.methods (o : PotOracles) (c : PotClass) (s : Shape) (Λ : ℝ) : SRMethods :=
  match c with
  | .monomial | .linear | .cubic | .quartic => Monomial.sr (s.p.getD 0) Λ
  | .quadratic => Quadratic.sr Λ
  | .starobinsky => Starobinsky.sr o.W Λ
  | .natural => Natural.sr (s.phi0.getD 0) Λ
  | .doubleWell | .doubleWell4 => DoubleWell.sr o.root (s.phi0.getD 0) (s.p.getD 0) Λ
  | .doubleWell2 => DoubleWell2.sr (s.phi0.getD 0) Λ
  | .tmodel => Tmodel.sr (s.p.getD 0) (s.alpha.getD 0) Λ
  | .radionGauge => RadionGauge.sr o.root (s.p.getD 0) (s.alpha.getD 0) Λ
  | .radionGauge2 => RadionGauge2.sr (s.alpha.getD 0) Λ
  | .starobinskyGaussianDip => Starobinsky.featureSr o.W (GaussianDip.fns (s.phi_feature.getD 0) (s.a_feature.getD 0) (s.b_feature.getD 0)) Λ
  | .starobinskyTanhStep => Starobinsky.featureSr o.W (TanhStep.fns (s.phi_feature.getD 0) (s.a_feature.getD 0) (s.b_feature.getD 0)) Λ

/-- Method resolution for `V`, `dV`, `d2V`, `d3V`, `d4V`. -/
noncomputable def Pot.fns (x : Pot) : PotFns :=
  let s := x.shape
  match x.cls with
  | .monomial | .linear | .cubic | .quartic => (⟨x.Lambda, s.p.getD 0⟩ : Monomial).fns
  | .quadratic => (⟨x.Lambda⟩ : Quadratic).fns
  | .starobinsky => (⟨x.Lambda⟩ : Starobinsky).fns
  | .natural => (⟨x.Lambda, s.phi0.getD 0⟩ : Natural).fns
  | .doubleWell | .doubleWell4 | .doubleWell2 => (⟨x.Lambda, s.phi0.getD 0, s.p.getD 0⟩ : DoubleWell).fns
  | .tmodel => (⟨x.Lambda, s.p.getD 0, s.alpha.getD 0⟩ : Tmodel).fns
  | .radionGauge | .radionGauge2 => (⟨x.Lambda, s.p.getD 0, s.alpha.getD 0⟩ : RadionGauge).fns
  | .starobinskyGaussianDip => StarobinskyGaussianDip x.Lambda (s.phi_feature.getD 0) (s.a_feature.getD 0) (s.b_feature.getD 0)
  | .starobinskyTanhStep => StarobinskyTanhStep x.Lambda (s.phi_feature.getD 0) (s.a_feature.getD 0) (s.b_feature.getD 0)

namespace Ctor

/-- The keyword dictionary of a call. -/
abbrev Kwargs := Dict (Option ℝ)

/-- `pot_kwargs.pop(k)` for a number -/
def pop (kw : Kwargs) (k : String) : Except PyErr (ℝ × Kwargs) :=
  match kw.get? k with
  | none => .error (.keyError k)
  | some none => .error (.typeError k)
  | some (some x) => .ok (x, kw.del k)

/-- `pot_kwargs.pop(k, default)` of a number, as an optional value -/
def popOpt (kw : Kwargs) (k : String) : Except PyErr (Option ℝ) :=
  match kw.get? k with
  | none => .ok none
  | some none => .error (.typeError k)
  | some (some x) => .ok (some x)

/-- potentials.py:21-36 `InflationaryPotential.__init__` on an object of class `c` that has the attributes `s`. -/
noncomputable def base (o : PotOracles) (c : PotClass) (s : Shape) (kw : Kwargs) : Except PyErr Pot := do
  let Lambda ← popOpt kw "Lambda"
  let A_s ← popOpt kw "A_s"
  let other := (kw.map Prod.fst).filter (· ∉ ["Lambda", "A_s", "N_star", "phi_star"])
  let (L, w) ← potInit (c.methods o s) ⟨Lambda, A_s, kw.get? "N_star", kw.get? "phi_star", other⟩
  .ok ⟨c, s, L, w⟩

/-- potentials.py:287-289 `MonomialPotential.__init__` -/
noncomputable def monomial (o : PotOracles) (c : PotClass) (kw : Kwargs) : Except PyErr Pot := do
  let (p, kw) ← pop kw "p"
  base o c { p := some p } kw

/-- `super().__init__(p=v, **pot_kwargs)`: Python raises `TypeError` if `p` is passed twice (potentials.py:367, 397, 443, 471, 860, 909, 1195). -/
def withP (v : ℝ) (kw : Kwargs) : Except PyErr Kwargs :=
  if kw.contains "p" then .error (.typeError "got multiple values for keyword argument 'p'") else .ok (("p", some v) :: kw)

/-- potentials.py:626-628 `NaturalPotential.__init__` -/
noncomputable def natural (o : PotOracles) (c : PotClass) (kw : Kwargs) : Except PyErr Pot := do
  let (phi0, kw) ← pop kw "phi0"
  base o c { phi0 := some phi0 } kw

/-- potentials.py:751-754 `DoubleWellPotential.__init__` -/
noncomputable def doubleWell (o : PotOracles) (c : PotClass) (kw : Kwargs) : Except PyErr Pot := do
  let (phi0, kw) ← pop kw "phi0"
  let (p, kw) ← pop kw "p"
  base o c { phi0 := some phi0, p := some p } kw

/-- potentials.py:968-972 `TmodelPotential.__init__`; `s_6_a = np.sqrt(6 * alpha)` is `Tmodel.s_6_a`. -/
noncomputable def tmodel (o : PotOracles) (c : PotClass) (kw : Kwargs) : Except PyErr Pot := do
  let (p, kw) ← pop kw "p"
  let (alpha, kw) ← pop kw "alpha"
  base o c { p := some p, alpha := some alpha } kw

open Classical in
/-- potentials.py:1075-1079 `RadionGaugePotential.__init__`; `alpha**(1/p)` divides by zero for `p = 0`, and for `alpha = 0` with `p < 0`. -/
noncomputable def radionGauge (o : PotOracles) (c : PotClass) (kw : Kwargs) : Except PyErr Pot := do
  let (p, kw) ← pop kw "p"
  let (alpha, kw) ← pop kw "alpha"
  if p = 0 ∨ (alpha = 0 ∧ p < 0) then .error (.zeroDivision "alpha**(1/p)")
  else base o c { p := some p, alpha := some alpha } kw

/-- potentials.py:1356-1360 `FeaturePotential.__init__`, whose `super().__init__` is `StarobinskyPotential.__init__` (potentials.py:499-500). -/
noncomputable def feature (o : PotOracles) (c : PotClass) (kw : Kwargs) : Except PyErr Pot := do
  let (x, kw) ← pop kw "phi_feature"
  let (a, kw) ← pop kw "a_feature"
  let (b, kw) ← pop kw "b_feature"
  base o c { phi_feature := some x, a_feature := some a, b_feature := some b } kw

/-- `cls(**kw)` -/
noncomputable def construct (o : PotOracles) (c : PotClass) (kw : Kwargs) : Except PyErr Pot :=
  match c with
  | .monomial => monomial o c kw
  | .linear => withP 1 kw >>= monomial o c
  -- potentials.py:394-397
  | .quadratic => if kw.contains "mass" then .error (.valueError "'mass' was dropped use 'Lambda' instead") else withP 2 kw >>= monomial o c
  | .cubic => withP 3 kw >>= monomial o c
  | .quartic => withP 4 kw >>= monomial o c
  | .starobinsky => base o c {} kw
  | .natural => natural o c kw
  | .doubleWell => doubleWell o c kw
  | .doubleWell2 => withP 2 kw >>= doubleWell o c
  | .doubleWell4 => withP 4 kw >>= doubleWell o c
  | .tmodel => tmodel o c kw
  | .radionGauge => radionGauge o c kw
  | .radionGauge2 => withP 2 kw >>= radionGauge o c
  | .starobinskyGaussianDip => feature o c kw
  | .starobinskyTanhStep => feature o c kw

end Ctor
end Primpy
