import Verif.Props.C08

/-!
# C11 — tensor-to-scalar ratio: `sr_Nstar2r(N) = 16 ε₁V(sr_N2phi(N))`
-/

namespace Primpy
open Real Spec Set

theorem C11_monomial (m : Monomial) (hp : 0 < m.p) (N : ℝ) (hN : 0 ≤ N) :
    Monomial.sr_Nstar2r m.p N = 16 * m.get_epsilon_1V (m.sr_N2phi N) := by
  have sq : m.sr_N2phi N ^ 2 = m.p * (4 * N + m.p) / 2 := by
    unfold Monomial.sr_N2phi
    rw [div_pow, mul_pow, sq_sqrt (by linarith), sq_sqrt (by linarith)]; ring
  have : 4 * N + m.p ≠ 0 := by positivity
  rw [Monomial.sr_Nstar2r, Monomial.get_epsilon_1V, sq]; field_simp

/-- the forwarding classes -/
theorem C11_monomial_subclasses (L N : ℝ) (hN : 0 ≤ N) :
    Linear.sr_Nstar2r N = 16 * (Linear L).get_epsilon_1V ((Linear L).sr_N2phi N) ∧
    Quadratic.sr_Nstar2r N = 16 * (Quadratic.mk L).get_epsilon_1V ((Quadratic.mk L).sr_N2phi N) ∧
    Cubic.sr_Nstar2r N = 16 * (Cubic L).get_epsilon_1V ((Cubic L).sr_N2phi N) ∧
    Quartic.sr_Nstar2r N = 16 * (Quartic L).get_epsilon_1V ((Quartic L).sr_N2phi N) :=
  ⟨C11_monomial ⟨L, 1⟩ (by norm_num) N hN, C11_monomial ⟨L, 2⟩ (by norm_num) N hN,
   C11_monomial ⟨L, 3⟩ (by norm_num) N hN, C11_monomial ⟨L, 4⟩ (by norm_num) N hN⟩

theorem C11_natural (n : Natural) (h0 : 0 < n.phi0) (N : ℝ) (hN : 0 ≤ N) :
    Natural.sr_Nstar2r n.phi0 N = 16 * n.get_epsilon_1V (n.sr_N2phi N) := by
  have hpi := pi_pos
  have inv := C07_natural n h0
  have hpe := (C05_natural n h0)
  have hmem := inv.mapsFrom N hN
  have hback := inv.right N hN
  obtain ⟨φ, hφ⟩ : ∃ φ, φ = n.sr_N2phi N := ⟨_, rfl⟩
  rw [← hφ] at hmem hback ⊢
  have hφ0 : 0 < φ := lt_of_lt_of_le hpe.mem.1 hmem.1
  obtain ⟨f, hf⟩ : ∃ f, f = n.phi0 / π := ⟨_, rfl⟩
  have hf0 : 0 < f := by rw [hf]; positivity
  have a : 0 < π * φ / (2 * n.phi0) := by positivity
  have b : π * φ / (2 * n.phi0) < π / 2 := by
    rw [div_lt_div_iff₀ (by positivity) (by norm_num)]; nlinarith [hmem.2]
  have hc : 0 < cos (π * φ / (2 * n.phi0)) := cos_pos_of_mem_Ioo ⟨by linarith, b⟩
  have hs : 0 < sin (π * φ / (2 * n.phi0)) := sin_pos_of_pos_of_lt_pi a (by linarith)
  -- the slow-roll parameter in terms of the half angle
  have heps : n.get_epsilon_1V φ = 1 / (2 * f^2 * tan (π * φ / (2 * n.phi0))^2) := by
    have e : π * φ / n.phi0 = 2 * (π * φ / (2 * n.phi0)) := by field_simp
    simp only [Natural.get_epsilon_1V, e, sin_two_mul, cos_two_mul, tan_eq_sin_div_cos, hf]
    have sc := sin_sq_add_cos_sq (π * φ / (2 * n.phi0))
    generalize sin (π * φ / (2 * n.phi0)) = S at *
    generalize cos (π * φ / (2 * n.phi0)) = C at *
    have e2 : 2 * C^2 - 1 - 1 = -2 * S^2 := by linarith
    rw [e2]; fsr
  -- the end of inflation
  have hte : tan (π*n.phi_end/(2*n.phi0)) = 1 / (√2 * f) := by
    have e : π * n.phi_end / (2*n.phi0) = arctan (√2 * π / (2 * n.phi0)) := by
      simp only [Natural.phi_end]; field_simp
    have h2 : √2 * √2 = (2:ℝ) := mul_self_sqrt (by norm_num)
    rw [e, tan_arctan, hf]
    have := sqrt_pos.mpr (by norm_num : (0:ℝ) < 2)
    field_simp; linarith
  have h2 : √2 ^ 2 = (2:ℝ) := sq_sqrt (by norm_num)
  have hlog : N / f^2 = log (tan (π*φ/(2*n.phi0))^2 + 1) - log ((1 / (√2 * f))^2 + 1) := by
    rw [← hback, Natural.sr_phi2N, hte, hf]; field_simp
  have hexp : exp (N / f^2) = (tan (π*φ/(2*n.phi0))^2 + 1) / ((1 / (√2 * f))^2 + 1) := by
    rw [hlog, exp_sub, exp_log (by positivity), exp_log (by positivity)]
  have ht : tan (π*φ/(2*n.phi0)) ≠ 0 := by rw [tan_eq_sin_div_cos]; positivity
  simp only [Natural.sr_Nstar2r, ← hf, heps, hexp, div_pow, mul_pow, h2]
  have : -2 * f^2 + (2*f^2+1) * ((tan (π*φ/(2*n.phi0))^2 + 1) / (1^2 / (2 * f^2) + 1)) =
      2 * f^2 * tan (π*φ/(2*n.phi0))^2 := by field_simp; ring
  rw [this]; fsr

/-- e.g. quartic inflation 60 e-folds before the end: `r = 16/61`. -/
example : Quartic.sr_Nstar2r 60 = 16 / 61 := by
  unfold Quartic.sr_Nstar2r Monomial.sr_Nstar2r; norm_num

end Primpy
