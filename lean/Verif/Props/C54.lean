import Verif.Props.C48

/-!
# C54: dropping closed large scales
-/

namespace Primpy
open Real
namespace Pert

/-- **C54 (partial: scalar `RST` only).**  In a closed universe, for every wavenumber `k < 1` of the requested array, the entry
of `P_s_RST` is exactly `1e-30`.  Missing: the documented "the PPS ... is set close to zero" fails for the tensor
spectra and for the scalar spectra of the other vacua, see `C54_others_untouched`, `C54_tensor_not_dropped`. -/
theorem C54_scalar_RST_partial {osc : Oscode} {b : Bg} {kw : OscKw} {ks : List ℝ} {P : PPS} (h : solveOscode osc b ks kw = .ok P)
    (hK : b.K = 1) (hdrop : kw.drop_closed_large_scales = true) (hvac : "RST" ∈ kw.vacuum) :
    ∃ arr, P.P_s.get? "RST" = some arr ∧
      ∀ (i : ℕ) (k : ℝ), ks[i]? = some k → k < 1 → arr[i]? = some (some (1 / 10 ^ 30)) := by
  obtain ⟨-, -, hf⟩ := C53_filled h
  obtain ⟨Ps, Pt, h1, -, -, -, h2⟩ := hf "RST" hvac
  refine ⟨Ps, h1, fun i k hk hk1 => ?_⟩
  obtain ⟨r, vs, vt, hr, hvs, -, hPs, -⟩ := h2 i k hk
  rw [single_eq] at hr
  obtain ⟨stop, s, t, pb, pe, s1, s2, t1, t2, Ps', -, -, -, -, -, -, -, hP⟩ := oneMode_ok hr
  rw [hP, if_pos ⟨hk1, hK, hdrop⟩, Dict.get?_set, if_pos rfl, Option.some.injEq] at hvs
  rw [hPs, ← hvs]

/-- Same run with the option on and off: what the option changes. -/
theorem drop_effect (osc : Oscode) (b : Bg) (kw : OscKw) (k : ℝ) :
    oneMode osc b { kw with drop_closed_large_scales := true } k =
      (oneMode osc b { kw with drop_closed_large_scales := false } k).map fun r =>
        open Classical in { r with P_s := if k < 1 ∧ b.K = 1 then r.P_s.set "RST" (some (1 / 10 ^ 30)) else r.P_s } := by
  classical
  unfold oneMode
  dsimp only
  have hr : ∀ beg stop y s t, runs osc b { kw with drop_closed_large_scales := true } beg stop y s t =
      runs osc b { kw with drop_closed_large_scales := false } beg stop y s t := fun _ _ _ _ _ => rfl
  split
  · rfl
  split
  · rfl
  rw [hr]
  split
  · rfl
  split
  · rfl
  split
  · split
    · dsimp only [Except.map]
      congr 1
      simp
    · rfl
    · rfl
  · rfl

/-- **C54, what is not dropped.**  Whatever the background, wavenumber, integrator: the option leaves the tensor spectra, all dense
spectra, and the scalar spectra of all vacua other than `RST` exactly as they are without it; the call succeeds in the same cases. -/
theorem C54_others_untouched (osc : Oscode) (b : Bg) (kw : OscKw) (k : ℝ) :
    (∀ e, solveOscode1 osc b k { kw with drop_closed_large_scales := true } = .error e ↔
      solveOscode1 osc b k { kw with drop_closed_large_scales := false } = .error e) ∧
    ∀ r, solveOscode1 osc b k { kw with drop_closed_large_scales := false } = .ok r →
      ∃ r', solveOscode1 osc b k { kw with drop_closed_large_scales := true } = .ok r' ∧
        r'.P_t = r.P_t ∧ r'.P_s_eval = r.P_s_eval ∧ r'.P_t_eval = r.P_t_eval ∧
        (∀ vac, vac ≠ "RST" → r'.P_s.get? vac = r.P_s.get? vac) ∧ (¬(k < 1 ∧ b.K = 1) → r' = r) := by
  rw [single_eq, single_eq, drop_effect]
  constructor
  · intro e
    cases oneMode osc b { kw with drop_closed_large_scales := false } k <;> simp [Except.map]
  · intro r hr
    rw [hr]
    refine ⟨_, rfl, rfl, rfl, rfl, ?_, ?_⟩
    · intro vac hv
      dsimp only
      split_ifs
      · rw [Dict.get?_set, if_neg hv]
      · rfl
    · intro hn
      dsimp only
      rw [if_neg hn]

/-- **C54 is false for the tensor spectrum**: a run in a closed universe with `k = 1/2 < 1` and the option on, whose `P_t_RST` is
`1 / (2 π²)`, far from zero. -/
theorem C54_tensor_not_dropped : ∃ (osc : Oscode) (b : Bg) (kw : OscKw) (r : ModeSpectra), b.K = 1 ∧
    kw.drop_closed_large_scales = true ∧ solveOscode1 osc b (1 / 2) kw = .ok r ∧
    r.P_s.get? "RST" = some (some (1 / 10 ^ 30)) ∧ r.P_t.get? "RST" = some (some (1 / (2 * π ^ 2))) := by
  obtain ⟨r, hr⟩ := demo_single 1 (1 / 2) le_rfl (by norm_num) true
  refine ⟨demoOsc, demoBg 1, { drop_closed_large_scales := true, vacuum := ["k", "RST"] }, r, rfl, rfl, hr, ?_, ?_⟩
  · rw [single_eq] at hr
    obtain ⟨stop, s, t, pb, pe, s1, s2, t1, t2, Ps', -, -, -, -, -, -, -, hP⟩ := oneMode_ok hr
    rw [hP, if_pos ⟨by norm_num, rfl, rfl⟩, Dict.get?_set, if_pos rfl]
  · have hb : idxBeg (demoBg 1) 0 (1 / 2) = 0 := if_pos rfl
    have hv := C48_value hr (1, 0, 0, 1) rfl (by norm_num) (stop := 1) (by rw [hb]; exact demo_idxEnd 1 _ le_rfl (by norm_num))
      (by unfold modes demoBg; rfl) (by rw [hb]; rfl) rfl (demo_frozen _) (demo_frozen _) (vac := "RST") (by simp)
    obtain ⟨vs, vt, -, hvt, -, hPt⟩ := hv
    rw [hPt]
    dsimp only [byName] at hvt
    simp only [String.reduceEq, if_false, if_true, Option.some.injEq] at hvt
    subst hvt
    have hs : √(2 * (1 / 2)) = 1 := by norm_num
    simp only [TensorN.vacRST]
    rw [if_pos (by norm_num), hs]
    simp
    have := pi_pos.ne'
    field_simp

/-- Hypotheses of the partial theorem met. -/
example : ∃ P, solveOscode demoOsc (demoBg 1) [1, 1 / 2] { drop_closed_large_scales := true, vacuum := ["k", "RST"] } = .ok P := by
  refine (C53_errors _ _ _ _).1.2 fun k hk => ?_
  have : k = 1 ∨ k = 1 / 2 := by simpa using hk
  rcases this with rfl | rfl
  · exact demo_single 1 1 (by norm_num) le_rfl true
  · exact demo_single 1 (1 / 2) le_rfl (by norm_num) true

end Pert
end Primpy
