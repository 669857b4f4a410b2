import Verif.Lemmas.Reheating
import Verif.Props.C58

/-!
# C59: the reheating density threshold of the slow-roll wrapper

`rho_reh_GeV` (a fourth root of an energy density, in GeV) should be accepted iff it is not above the density at the end of inflation, `ρ = φ̇²/2 + V` at the last grid point of inflation.  The code
divides `ρ` by three first.
-/

namespace Primpy
open Real
namespace Wrap
variable {B : Type} {u : SI} {d : Backend B} {p : SRParams}

/-- Specification: the energy density of the scalar field at the last grid point of inflation, in reduced Planck units. -/
noncomputable def rhoEnd (d : Backend B) (b : B) : ℝ := 1 / 2 * d.dphidt_last b ^ 2 + d.V_last b

/-- Specification: `r` (GeV) is the fourth root of the density `rho` (reduced Planck units): `r⁴ = rho * mp / lp³`. -/
def IsScale (u : SI) (r rho : ℝ) : Prop := 0 ≤ r ∧ r ^ 4 = rho * u.mp_GeV / u.lp_iGeV ^ 3

theorem toGeV_isScale {rho : ℝ} (hrho : 0 ≤ rho) : IsScale u (Cal.toGeV u rho) rho := by
  have h1 := Cal.mp_GeV_pos u; have h2 := Cal.lp_iGeV_pos u
  refine ⟨by unfold Cal.toGeV; positivity, ?_⟩
  unfold Cal.toGeV
  rw [← rpow_natCast, ← rpow_mul (by positivity)]
  norm_num

theorem rho_end_eq (b : B) : rho_end_GeV u d b = Cal.toGeV u (rhoEnd d b / 3) := by
  unfold rho_end_GeV Cal.toGeV rhoEnd
  congr 3
  ring

theorem scale_lt {r s rho sigma : ℝ} (h : IsScale u r rho) (h' : IsScale u s sigma) : r < s ↔ rho < sigma := by
  have h1 := Cal.mp_GeV_pos u; have h2 := Cal.lp_iGeV_pos u
  rw [← pow_lt_pow_iff_left₀ h.1 h'.1 (by norm_num : 4 ≠ 0), h.2, h'.2, div_lt_div_iff_of_pos_right (by positivity), mul_lt_mul_iff_left₀ h1]

/-- **C59, what the check does.**  A pass with a solution of density `rhoEnd ≥ 0` at the end of inflation raises the wrapper's `PrimpyError` iff three times the reheating density exceeds
`rhoEnd`; otherwise it proceeds to the calibration. -/
theorem C59_check {L : Option ℝ} {N r rho : ℝ} {b : B} (hs : d.solve L = .ok b) (hok : d.success b = true)
    (hr : p.rho_reh_GeV = some r) (hscale : IsScale u r rho) (hrho : 0 ≤ rhoEnd d b) :
    (rhoEnd d b < 3 * rho → pass u d p L N = .error (.primpyError "Unrealistic reheating scenario")) ∧
      (3 * rho ≤ rhoEnd d b → pass u d p L N = calibrateStep d p N b) := by
  have key : (∃ x, p.rho_reh_GeV = some x ∧ rho_end_GeV u d b < x) ↔ rhoEnd d b < 3 * rho := by
    rw [rho_end_eq]
    have := scale_lt (toGeV_isScale (u := u) (rho := rhoEnd d b / 3) (by positivity)) hscale
    constructor
    · rintro ⟨x, hx, h⟩
      rw [hr] at hx
      cases hx
      linarith [this.1 h]
    · intro h
      exact ⟨r, hr, this.2 (by linarith)⟩
  unfold pass
  rw [hs]
  dsimp only
  rw [if_neg (by rw [hok]; decide)]
  constructor
  · intro h
    rw [if_pos (key.2 h)]
  · intro h
    rw [if_neg (fun h' => absurd (key.1 h') (by linarith))]

/-- **C59, the sound half.**  A reheating density above the density at the end of inflation is always rejected. -/
theorem C59_partial {L : Option ℝ} {N r rho : ℝ} {b : B} (hs : d.solve L = .ok b) (hok : d.success b = true)
    (hr : p.rho_reh_GeV = some r) (hscale : IsScale u r rho) (hrho : 0 ≤ rhoEnd d b) (habove : rhoEnd d b < rho) :
    pass u d p L N = .error (.primpyError "Unrealistic reheating scenario") :=
  (C59_check hs hok hr hscale hrho).1 (by linarith)

/-- **C59, negation.**  Instant reheating -- reheating at exactly the density at the end of inflation -- is rejected by the first pass and hence by `calculate`, whatever that (positive) density is; so is every reheating
density above a third of it. -/
theorem C59_instant_rejected {Lambda0 r rho : ℝ} {b : B} (hs : d.solve (some Lambda0) = .ok b) (hok : d.success b = true)
    (hr : p.rho_reh_GeV = some r) (hscale : IsScale u r rho) (hrho : 0 < rhoEnd d b) (hwin : rho = rhoEnd d b ∨ rhoEnd d b / 3 < rho) :
    slowRoll u d p Lambda0 = .error (.primpyError "Unrealistic reheating scenario") := by
  have h := (C59_check (N := p.N_star) hs hok hr hscale hrho.le).1 (by rcases hwin with h | h <;> linarith)
  unfold slowRoll shoot
  rw [h]

/-- **C59, negation, end to end.**  The `rho_reh_GeV` that a flat `calibrate_scale_factor(calibration_method='reheating')` with instant reheating reports is rejected when it is sampled in the wrapper,
for every solution with the same end-of-inflation potential, whose end is at `ddot a = 0`, i.e. `dphidt² = V`. -/
theorem C59_roundtrip_rejected {Lambda0 n N_end r : ℝ} {b : B} {I : Infl} {a : CalArgs} {dN : Option ℝ} {st st' : Sticky}
    (hcal : Cal.flatReh u I n a st = .ok (N_end, dN, st'))
    (hinst : is_instant_reheating a.N_star a.rho_reh_GeV a.w_reh a.DeltaN_reh a.DeltaN_minus1 = .ok true)
    (hout : st'.rho_reh_GeV = some (some r))
    (hs : d.solve (some Lambda0) = .ok b) (hok : d.success b = true) (hr : p.rho_reh_GeV = some r)
    (hV : d.V_last b = I.V_end) (hpos : 0 < I.V_end) (hend : d.dphidt_last b ^ 2 = d.V_last b) :
    slowRoll u d p Lambda0 = .error (.primpyError "Unrealistic reheating scenario") := by
  have hrho : rhoEnd d b = 3 / 2 * I.V_end := by
    unfold rhoEnd
    rw [hend, hV]
    ring
  unfold Cal.flatReh at hcal
  rw [hinst] at hcal
  cases hcal
  dsimp only at hout
  cases hout
  exact C59_instant_rejected hs hok hr (toGeV_isScale (by positivity)) (by rw [hrho]; positivity) (Or.inl hrho.symm)

/-- Hypotheses met: the demo backend of C58 with `dphidt² = V = 1`, both above and below the threshold, and the
instant reheating calibration. -/
example (u : SI) (I : Infl) (hV : I.V_end = 1) (a : CalArgs) (ha : a.N_star = none) (ha1 : a.rho_reh_GeV = none) (ha2 : a.w_reh = none)
    (ha3 : a.DeltaN_reh = none) (ha4 : a.DeltaN_minus1 = none) (st : Sticky) :
    (∃ r, slowRoll u demoBackend { A_s := 2, rho_reh_GeV := some r } 1 = .error (.primpyError "Unrealistic reheating scenario")) ∧
      ∃ r, 0 < r ∧ pass u demoBackend { A_s := 2, rho_reh_GeV := some r } (some 1) 75 = .ok (1, 75) := by
  constructor
  · refine ⟨Cal.toGeV u (3 / 2 * I.V_end), ?_⟩
    have hinst : is_instant_reheating a.N_star a.rho_reh_GeV a.w_reh a.DeltaN_reh a.DeltaN_minus1 = .ok true := by
      rw [ha, ha1, ha2, ha3, ha4]
      simp [is_instant_reheating]
    have hcal : Cal.flatReh u I 0 a st = .ok (0, some 0, { st with
        DeltaN_reh := some (some 0), w_reh := some (some (1 / 3)), DeltaN_minus1 := some (some 0), rho_reh_mp4 := some (some (3 / 2 * I.V_end)),
        rho_reh_GeV := some (some (Cal.toGeV u (3 / 2 * I.V_end))) }) := by
      unfold Cal.flatReh
      rw [hinst]
    exact C59_roundtrip_rejected (b := (1 : ℝ)) hcal hinst rfl (by simp [demoBackend]) rfl rfl (by simp [demoBackend, hV]) (by rw [hV]; norm_num) (by simp [demoBackend])
  · refine ⟨Cal.toGeV u (1 / 2), Cal.toGeV_pos u (by norm_num), ?_⟩
    have hr : rhoEnd demoBackend 1 = 3 / 2 := by simp [rhoEnd, demoBackend]; norm_num
    rw [(C59_check (b := (1 : ℝ)) (by simp [demoBackend]) rfl rfl (toGeV_isScale (u := u) (rho := 1 / 2) (by norm_num)) (by rw [hr]; norm_num)).2 (by rw [hr]; norm_num)]
    simp [calibrateStep, demoBackend, Except.map]

end Wrap
end Primpy
