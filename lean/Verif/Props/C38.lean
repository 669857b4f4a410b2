import Verif.Props.C34
import Verif.Props.C37

/-!
# C38 — the grid of modes after calibration; calibrating twice
-/

namespace Primpy
open Real
open Cal

/-- `_logaH = _N + log(H)` at every grid point and `H > 0` (inflation.py:456-457). -/
def HubbleGrid (s : CalState) : Prop :=
  s.H.length = s.N.length ∧ s.logaH = List.zipWith (fun n h => n + log h) s.N s.H ∧ ∀ h ∈ s.H, 0 < h

/-- For every grid point, the mode that crosses the horizon there times the comoving Hubble horizon is 1. -/
theorem modes_cross {N H : List ℝ} (hlen : H.length = N.length) (hH : ∀ h ∈ H, 0 < h) (d e A c : ℝ)
    (hA : exp e * A * c = exp d) (m : List Bool) :
    ∀ p ∈ ((maskSel ((List.zipWith (fun n h => n + log h) N H).map fun l => l + e) m).map exp).zip
        (maskSel (List.zipWith (fun n h => A / (exp n * h) * c) (N.map (· + d)) H) m), p.1 * p.2 = 1 := by
  induction N generalizing H m with
  | nil => cases H <;> simp [maskSel]
  | cons n N ih =>
    cases H with
    | nil => simp at hlen
    | cons h H =>
      cases m with
      | nil => simp [maskSel]
      | cons b m =>
        simp only [List.length_cons, Nat.add_right_cancel_iff] at hlen
        have hh : 0 < h := hH h (by simp)
        have ih' := ih hlen (fun x hx => hH x (by simp [hx])) m
        simp only [List.zipWith_cons_cons, List.map_cons, maskSel_cons]
        cases b with
        | false => simpa using ih'
        | true =>
          simp only [if_true, List.map_cons, List.zip_cons_cons, List.mem_cons, forall_eq_or_imp]
          refine ⟨?_, ih'⟩
          rw [exp_add, exp_add, exp_log hh, exp_add]
          have h1 := exp_pos n; have h2 := exp_pos d
          field_simp
          linarith

theorem maskSel_length {α β : Type} (xs : List α) (ys : List β) (h : xs.length = ys.length) (m : List Bool) :
    (maskSel xs m).length = (maskSel ys m).length := by
  induction xs generalizing ys m with
  | nil => cases ys <;> simp [maskSel] at h ⊢
  | cons x xs ih =>
    cases ys with
    | nil => simp at h
    | cons y ys =>
      cases m with
      | nil => simp [maskSel]
      | cons b m =>
        simp only [List.length_cons, Nat.add_right_cancel_iff] at h
        cases b <;> simp [maskSel_cons, ih ys h]

/-- **C38, the modes.**  After every successful calibration (not copied from a background) the stored modes
are exactly those that leave the horizon at the retained in-inflation grid points: at each of them the
wavenumber `k_iMpc` times the calibrated comoving Hubble horizon `cHH_Mpc` is exactly one.  No mode occurs
twice, `logk` is the logarithm of `k_iMpc`, and the mode grid is as long as the retained grid. -/
theorem C38_modes (u : SI) (s s' : CalState) (a : CalArgs) (hK : s.K = 0 ∨ s.K = 1 ∨ s.K = -1)
    (hb : a.background = none) (hG : HubbleGrid s) (hok : calibrate u s a = .ok s') :
    ∃ c I', s'.cal = some c ∧ s'.infl = some I' ∧
      (∀ p ∈ c.k_iMpc.zip (maskSel c.cHH_Mpc I'.mask), p.1 * p.2 = 1) ∧
      c.k_iMpc.length = (maskSel c.cHH_Mpc I'.mask).length ∧
      c.k_iMpc = c.logk.map exp ∧ c.logk.Nodup ∧ c.k_iMpc.Nodup := by
  obtain ⟨hlen, hlog, hpos⟩ := hG
  have hc := u.c_pos; have hM := u.Mpc_pos; have hl := u.lp_pos
  have hKs := (C56_pivot u).2
  have hKS : 0 < SI.K_STAR := by unfold SI.K_STAR; norm_num
  rcases hK with hK | hK
  · obtain ⟨p, hp, rfl⟩ := calibrate_flat hK hok
    obtain ⟨-, ns, nc, ls, δ, nr, I, st, hs, rfl⟩ := flat_ok hp
    have hδ : δ = log u.K_STAR_lp - ls := by
      unfold flatSel at hs
      rw [hb] at hs
      dsimp only at hs
      split_ifs at hs with h1 h2
      · obtain ⟨-, -, -, -, -, -, h7, -⟩ := flatNstar_ok hs; rw [h7]; ring
      · obtain ⟨-, -, _, _, -, -, h6, -⟩ := flatReheating_ok hs; rw [h6]; ring
    have hnd := maskSel_firstOccurrence_nodup (s.logaH.map fun l => l + log SI.K_STAR - ls) I.mask
    refine ⟨_, _, rfl, rfl, ?_, ?_, rfl, hnd, hnd.map exp_injective⟩
    · simp only [finish]
      generalize andMask I.mask _ = m
      have := modes_cross (N := s.N) hlen hpos δ (log SI.K_STAR - ls) 1 (u.lp_m / u.Mpc_m) ?_ m
      · rw [← hlog] at this
        simpa only [add_sub_assoc, mul_div_assoc] using this
      · rw [hδ, exp_sub, exp_sub, exp_log hKS, exp_log hKs]
        unfold SI.K_STAR_lp
        ring
    · simp only [finish, List.length_map]
      apply maskSel_length
      rw [hlog]; simp
  · have hK0 : s.K ≠ 0 := by rcases hK with h | h <;> rw [h] <;> norm_num
    obtain ⟨p, hp, rfl⟩ := calibrate_curved hK0 hok
    obtain ⟨-, h, Ω, aM, a0, N0, nr, st, I, nc, hh, h0, hs, -, -, -, -, rfl⟩ := curved_ok hp
    obtain ⟨-, -, -, ha0, -, haM⟩ := curvedSel_a0 hK h0 hs
    have hnd := maskSel_firstOccurrence_nodup (s.logaH.map fun l => l - log aM) I.mask
    refine ⟨_, _, rfl, rfl, ?_, ?_, rfl, hnd, hnd.map exp_injective⟩
    · simp only [finish]
      generalize andMask I.mask _ = m
      have := modes_cross (N := s.N) hlen hpos 0 (-log aM) a0 (u.lp_m / u.Mpc_m) ?_ m
      · rw [← hlog] at this
        simpa only [← sub_eq_add_neg, mul_div_assoc] using this
      · rw [exp_neg, exp_log haM, ha0, exp_zero]
        field_simp
    · simp only [finish, List.length_map]
      apply maskSel_length
      rw [hlog]; simp

/-- **C38, dimensionless modes.**  `k` is `k_iMpc` in units of the comoving curvature scale: mode by mode,
`k = a0_Mpc * k_iMpc` with one positive constant. -/
theorem C38_k (u : SI) (s s' : CalState) (a : CalArgs) (hK : s.K = 0 ∨ s.K = 1 ∨ s.K = -1)
    (hok : calibrate u s a = .ok s') :
    ∃ c, s'.cal = some c ∧ 0 < c.a0_Mpc ∧ c.k = c.k_iMpc.map (c.a0_Mpc * ·) := by
  have hKS : 0 < SI.K_STAR := by unfold SI.K_STAR; norm_num
  rcases hK with hK | hK
  · obtain ⟨p, hp, rfl⟩ := calibrate_flat hK hok
    obtain ⟨-, ns, nc, ls, δ, nr, I, st, hs, rfl⟩ := flat_ok hp
    refine ⟨_, rfl, by simp only; positivity, ?_⟩
    simp only [finish]
    rw [maskSel_map, List.map_map, List.map_map]
    refine List.map_congr_left fun l _ => ?_
    simp only [Function.comp]
    rw [add_sub_right_comm, exp_add, exp_sub, exp_log hKS]
    field_simp
  · have hK0 : s.K ≠ 0 := by rcases hK with h | h <;> rw [h] <;> norm_num
    obtain ⟨p, hp, rfl⟩ := calibrate_curved hK0 hok
    obtain ⟨-, h, Ω, aM, a0, N0, nr, st, I, nc, hh, h0, hs, -, -, -, -, rfl⟩ := curved_ok hp
    obtain ⟨-, -, -, ha0, -, haM⟩ := curvedSel_a0 hK h0 hs
    refine ⟨_, rfl, haM, ?_⟩
    simp only [finish]
    rw [maskSel_map, List.map_map, List.map_map]
    refine List.map_congr_left fun l _ => ?_
    simp only [Function.comp]
    rw [exp_sub, exp_log haM]
    field_simp

/-- **C38, the horizon at the end of inflation** is the value of `cHH_Mpc` there: if the end of inflation is a grid
point (`N_end`, `H_end` the values at index `i`), then `cHH_end_Mpc` is the entry of `cHH_Mpc` at that index.  The same
for the calibrated e-fold numbers. -/
theorem C38_horizon_end (u : SI) (s s' : CalState) (a : CalArgs) (hb : a.background = none)
    (hok : calibrate u s a = .ok s') (I : Infl) (hI : s.infl = some I) (i : ℕ) (hN : s.N[i]? = some I.N_end)
    (hH : s.H[i]? = some I.H_end) :
    ∃ c, s'.cal = some c ∧ c.cHH_Mpc[i]? = some c.cHH_end_Mpc ∧ c.N[i]? = some c.N_end ∧
      ∀ j : ℕ, s.N[j]? = some I.N_beg → c.N[j]? = some c.N_beg := by
  have key : ∀ (p : Part), p.infl.N_end = I.N_end → p.infl.H_end = I.H_end → p.infl.N_beg = I.N_beg →
      ∃ c, (finish u s a.background.isSome p).cal = some c ∧ c.cHH_Mpc[i]? = some c.cHH_end_Mpc ∧
        c.N[i]? = some c.N_end ∧ ∀ j : ℕ, s.N[j]? = some I.N_beg → c.N[j]? = some c.N_beg := by
    intro p h1 h2 h3
    refine ⟨_, rfl, ?_, ?_, fun j hj => ?_⟩
    · simp only [finish]
      rw [List.getElem?_zipWith, List.getElem?_map, hN, hH, h1, h2]
      rfl
    · simp only [finish]
      rw [List.getElem?_map, hN, h1]
      rfl
    · simp only [finish]
      rw [List.getElem?_map, hj, h3]
      rfl
  by_cases hK : s.K = 0
  · obtain ⟨p, hp, rfl⟩ := calibrate_flat hK hok
    obtain ⟨-, ns, nc, ls, δ, nr, J, st, hs, rfl⟩ := flat_ok hp
    have hJ : s.infl = some J := by
      unfold flatSel at hs
      rw [hb] at hs
      dsimp only at hs
      split_ifs at hs with h1 h2
      · exact (flatNstar_ok hs).2.2.1
      · exact (flatReheating_ok hs).2.1
    rw [hI] at hJ
    cases hJ
    exact key _ rfl rfl rfl
  · obtain ⟨p, hp, rfl⟩ := calibrate_curved hK hok
    obtain ⟨-, h, Ω, aM, a0, N0, nr, st, J, nc, hh, h0, hs, hJ, -, -, -, rfl⟩ := curved_ok hp
    rw [hI] at hJ
    cases hJ
    exact key _ rfl rfl rfl

theorem Pairwise_maskSel {α : Type} {R : α → α → Prop} (xs : List α) (m m' : List Bool)
    (h : (maskSel xs m).Pairwise R) : (maskSel xs (andMask m m')).Pairwise R := by
  refine List.Pairwise.sublist ?_ h
  induction xs generalizing m m' with
  | nil => simp [maskSel]
  | cons x xs ih =>
    cases m with
    | nil => simp [maskSel, andMask]
    | cons b m =>
      cases m' with
      | nil => simp [maskSel, andMask]
      | cons b' m' =>
        have hc : andMask (b :: m) (b' :: m') = (b && b') :: andMask m m' := rfl
        have h' : (maskSel xs m).Pairwise R := by
          rw [maskSel_cons] at h
          cases b
          · simpa using h
          · exact (List.pairwise_cons.1 (by simpa using h)).2
        have := ih m m' h'
        rw [hc, maskSel_cons, maskSel_cons]
        cases b <;> cases b'
        · simpa using this
        · simpa using this
        · simpa using this.cons x
        · simpa using this.cons₂ x

/-- **C38, order.**  If `aH` increases along the in-inflation grid points, the modes are strictly
increasing. -/
theorem C38_increasing (u : SI) (s s' : CalState) (a : CalArgs) (I : Infl) (hI : s.infl = some I)
    (hinc : (maskSel s.logaH I.mask).Pairwise (· < ·)) (hok : calibrate u s a = .ok s') :
    ∃ c, s'.cal = some c ∧ c.logk.Pairwise (· < ·) ∧ c.k_iMpc.Pairwise (· < ·) := by
  by_cases hK : s.K = 0
  · obtain ⟨p, hp, rfl⟩ := calibrate_flat hK hok
    obtain ⟨-, ns, nc, ls, δ, nr, J, st, hs, rfl⟩ := flat_ok hp
    have hJ : J.mask = I.mask := by
      unfold flatSel at hs
      cases hbb : a.background with
      | some b =>
        rw [hbb] at hs
        dsimp only at hs
        unfold flatBackground at hs
        split at hs
        · cases hs
        · split_ifs at hs
          rw [hI] at hs
          simp only [Except.ok.injEq, Prod.mk.injEq] at hs
          obtain ⟨-, -, -, -, -, rfl, -⟩ := hs
          rfl
      | none =>
        rw [hbb] at hs
        dsimp only at hs
        split_ifs at hs with h1 h2
        · obtain ⟨-, -, h3, -⟩ := flatNstar_ok hs; rw [hI] at h3; cases h3; rfl
        · obtain ⟨-, h3, -⟩ := flatReheating_ok hs; rw [hI] at h3; cases h3; rfl
    have : (maskSel (s.logaH.map fun l => l + log SI.K_STAR - ls) (andMask J.mask (firstOccurrence
        (s.logaH.map fun l => l + log SI.K_STAR - ls)))).Pairwise (· < ·) := by
      apply Pairwise_maskSel
      rw [maskSel_map, List.pairwise_map, hJ]
      exact hinc.imp fun h => by linarith
    refine ⟨_, rfl, this, ?_⟩
    exact List.pairwise_map.2 (this.imp fun h => exp_lt_exp.2 h)
  · obtain ⟨p, hp, rfl⟩ := calibrate_curved hK hok
    obtain ⟨-, h, Ω, aM, a0, N0, nr, st, J, nc, hh, h0, hs, hJ, -, -, -, rfl⟩ := curved_ok hp
    rw [hI] at hJ
    obtain rfl := Option.some.inj hJ
    have : (maskSel (s.logaH.map fun l => l - log aM) (andMask I.mask (firstOccurrence
        (s.logaH.map fun l => l - log aM)))).Pairwise (· < ·) := by
      apply Pairwise_maskSel
      rw [maskSel_map, List.pairwise_map]
      exact hinc.imp fun h => by linarith
    refine ⟨_, rfl, this, ?_⟩
    exact List.pairwise_map.2 (this.imp fun h => exp_lt_exp.2 h)

/-! ### calibrating twice -/

theorem flatNstarReh_again {u : SI} {I : Infl} {δ m : ℝ} {a : CalArgs} {st0 st : Sticky} {nr : Option ℝ}
    (h : flatNstarReh u I δ m a st0 = .ok (nr, st)) :
    st.H_star = st0.H_star ∧ st.DeltaN_minus1 = st0.DeltaN_minus1 ∧
      flatNstarReh u I δ m a st = .ok (nr, st) := by
  unfold flatNstarReh at h ⊢
  split at h
  · simp only [Except.ok.injEq, Prod.mk.injEq] at h
    obtain ⟨rfl, rfl⟩ := h
    exact ⟨rfl, rfl, rfl⟩
  · split_ifs at h with h1
    dsimp only at h
    split_ifs at h with h2
    simp only [Except.ok.injEq, Prod.mk.injEq] at h
    obtain ⟨rfl, rfl⟩ := h
    refine ⟨rfl, rfl, ?_⟩
    dsimp only
    rw [if_neg h1, if_neg h2]
  · simp only [Except.ok.injEq, Prod.mk.injEq] at h
    obtain ⟨rfl, rfl⟩ := h
    exact ⟨rfl, rfl, rfl⟩
  · cases h

theorem flatReh_again {u : SI} {I : Infl} {n N_end : ℝ} {a : CalArgs} {st0 st : Sticky} {dN : Option ℝ}
    (h : flatReh u I n a st0 = .ok (N_end, dN, st)) : flatReh u I n a st = .ok (N_end, dN, st) := by
  unfold flatReh at h ⊢
  split at h
  · cases h
  · simp only [Except.ok.injEq, Prod.mk.injEq] at h
    obtain ⟨rfl, rfl, rfl⟩ := h
    rfl
  · split at h
    · split_ifs at h with h1
      split at h
      all_goals
        simp only [Except.ok.injEq, Prod.mk.injEq] at h
        obtain ⟨rfl, rfl, rfl⟩ := h
        dsimp only
        rw [if_neg h1]
    · split at h
      · simp only [Except.ok.injEq, Prod.mk.injEq] at h
        obtain ⟨rfl, rfl, rfl⟩ := h
        rfl
      · simp only [Except.ok.injEq, Prod.mk.injEq] at h
        obtain ⟨rfl, rfl, rfl⟩ := h
        rfl
      · cases h

theorem curvedReh_again {u : SI} {I : Infl} {n N0 nr : ℝ} {a : CalArgs} {st0 st : Sticky}
    (h : curvedReh u I n a st0 = .ok (N0, nr, st)) : curvedReh u I n a st = .ok (N0, nr, st) := by
  unfold curvedReh at h ⊢
  split at h
  · cases h
  · simp only [Except.ok.injEq, Prod.mk.injEq] at h
    obtain ⟨rfl, rfl, rfl⟩ := h
    rfl
  · split at h
    · simp only [Except.ok.injEq, Prod.mk.injEq] at h
      obtain ⟨rfl, rfl, rfl⟩ := h
      rfl
    · simp only [Except.ok.injEq, Prod.mk.injEq] at h
      obtain ⟨rfl, rfl, rfl⟩ := h
      rfl
    · cases h

/-- The second flat call computes the same method-specific results, if the mask did not change. -/
theorem flatSel_again {u : SI} {s s' : CalState} {a : CalArgs} {ns nc ls δ : ℝ} {nr : Option ℝ} {I : Infl}
    {st : Sticky} (h : flatSel u s a = .ok (ns, nc, ls, δ, nr, I, st)) (hN : s'.N = s.N)
    (hL : s'.logaH = s.logaH) (hst : s'.sticky = st)
    (hI : s'.infl = some I) : flatSel u s' a = .ok (ns, nc, ls, δ, nr, I, st) := by
  unfold flatSel at h ⊢
  cases hb : a.background with
  | some b =>
    rw [hb] at h
    dsimp only at h ⊢
    unfold flatBackground at h ⊢
    split at h
    · cases h
    · next n hn =>
      split_ifs at h with h1
      rw [if_neg h1, hI]
      cases hJ : s.infl with
      | none => rw [hJ] at h; cases h
      | some J =>
        rw [hJ] at h
        simp only [Except.ok.injEq, Prod.mk.injEq] at h
        obtain ⟨rfl, rfl, rfl, rfl, rfl, rfl, rfl⟩ := h
        dsimp only
        rw [hst]
  | none =>
    rw [hb] at h
    dsimp only at h ⊢
    split_ifs at h ⊢ with h1 h2
    · obtain ⟨k1, k2, k3, k4, k5, k6, k7, m, k8, k9⟩ := flatNstar_ok h
      obtain ⟨q1, q2, q3⟩ := flatNstarReh_again k9
      unfold flatNstar
      rw [k1]
      dsimp only
      rw [if_neg (not_le.2 k2), hI]
      dsimp only
      rw [if_neg (not_lt.2 k4), hN, hL, ← k5, k6]
      dsimp only
      rw [← k8, ← k7, hst]
      have : ({ st with H_star := some (some (exp (ls - nc))), DeltaN_minus1 := some (some m) } : Sticky) =
          st := by
        dsimp only at q1 q2
        obtain ⟨⟩ := st
        dsimp only at q1 q2 ⊢
        rw [q1, q2]
      rw [this, q3]
    · obtain ⟨k1, k2, N_end, dN, k4, k5, k6, k7, k8, k9, k10, k11⟩ := flatReheating_ok h
      unfold flatReheating
      rw [if_neg (by rw [k1]; simp), hI]
      dsimp only
      rw [hst, flatReh_again k4]
      dsimp only
      rw [← k5, ← k6, if_neg (by push Not; exact ⟨k7, k8⟩), hN, hL, k9]
      dsimp only
      rw [k10, k11]

theorem firstOccurrence_shift (l : List ℝ) (e : ℝ) : firstOccurrence (l.map fun x => x + e) = firstOccurrence l :=
  firstOccurrence_map (add_left_injective e) l

/-- The retained mask: in-inflation points whose `aH` did not already occur at an earlier grid point. -/
theorem flat_mask (s : CalState) (ls : ℝ) (m : List Bool) :
    andMask m (firstOccurrence (s.logaH.map fun l => l + log SI.K_STAR - ls)) =
      andMask m (firstOccurrence s.logaH) := by
  rw [← firstOccurrence_shift s.logaH (log SI.K_STAR - ls)]
  simp only [add_sub_assoc]

/-- **C38, idempotence (flat).**  If no in-inflation grid point repeats the `aH` of an earlier grid point,
repeating the same calibration call changes nothing: the second call returns the very same state. -/
theorem C38_idempotent_flat (u : SI) (s s' : CalState) (a : CalArgs) (hK : s.K = 0)
    (hb : a.background = none) (I : Infl) (hI : s.infl = some I) (hlen : I.mask.length = s.logaH.length)
    (hfirst : ∀ i : ℕ, I.mask[i]? = some true → ∀ j < i, s.logaH[j]? ≠ s.logaH[i]?)
    (hok : calibrate u s a = .ok s') : calibrate u s' a = .ok s' := by
  have hok' := hok
  obtain ⟨p, hp, hs'⟩ := calibrate_flat hK hok
  obtain ⟨hΩ, ns, nc, ls, δ, nr, J, st, hs, hp'⟩ := flat_ok hp
  have hJ : J = I := by
    unfold flatSel at hs
    rw [hb] at hs
    dsimp only at hs
    split_ifs at hs with h1 h2
    · obtain ⟨-, -, h3, -⟩ := flatNstar_ok hs; rw [hI] at h3; cases h3; rfl
    · obtain ⟨-, h3, -⟩ := flatReheating_ok hs; rw [hI] at h3; cases h3; rfl
  subst hJ
  rw [flat_mask, andMask_firstOccurrence hlen hfirst] at hp'
  have hinf : s'.infl = some J := by rw [hs', hp']; rfl
  have hsel : flatSel u s' a = .ok (ns, nc, ls, δ, nr, J, st) :=
    flatSel_again hs (by rw [hs']; rfl) (by rw [hs']; rfl) (by rw [hs', hp']; rfl) hinf
  have hflat : flat u s' a = .ok p := by
    unfold flat
    rw [if_neg (by rintro ⟨Ω, h, hne⟩; exact hne (hΩ Ω h)), hsel]
    dsimp only
    have hL : s'.logaH = s.logaH := by rw [hs']; rfl
    rw [hL, flat_mask, andMask_firstOccurrence hlen hfirst, hp']
  unfold calibrate
  rw [if_pos (show s'.K = 0 by rw [hs']; exact hK), hflat]
  dsimp only
  rw [hs']
  rfl

/-- **C38, idempotence (copied background).**  Copying a background twice changes nothing, without
further conditions. -/
theorem C38_idempotent_background (u : SI) (s s' : CalState) (a : CalArgs) (hK : s.K = 0)
    (b : Background) (hb : a.background = some b) (hok : calibrate u s a = .ok s') :
    calibrate u s' a = .ok s' := by
  obtain ⟨p, hp, hs'⟩ := calibrate_flat hK hok
  obtain ⟨hΩ, ns, nc, ls, δ, nr, J, st, hs, hp'⟩ := flat_ok hp
  rw [flat_mask] at hp'
  have hmm := andMask_idem J.mask (firstOccurrence s.logaH)
  have hL : s'.logaH = s.logaH := by rw [hs']; rfl
  have hinf : s'.infl = some { J with mask := andMask J.mask (firstOccurrence s.logaH) } := by
    rw [hs', hp']; rfl
  have hst : s'.sticky = st := by rw [hs', hp']; rfl
  have hsel : flatSel u s' a = .ok (ns, nc, ls, δ, nr,
      { J with mask := andMask J.mask (firstOccurrence s.logaH) }, st) := by
    unfold flatSel at hs ⊢
    rw [hb] at hs ⊢
    dsimp only at hs ⊢
    unfold flatBackground at hs ⊢
    split at hs
    · cases hs
    · split_ifs at hs ⊢ with h1
      rw [hinf]
      split at hs
      · cases hs
      · simp only [Except.ok.injEq, Prod.mk.injEq] at hs
        obtain ⟨rfl, rfl, rfl, rfl, rfl, rfl, rfl⟩ := hs
        dsimp only
        rw [hst]
  have hflat : flat u s' a = .ok p := by
    unfold flat
    rw [if_neg (by rintro ⟨Ω, h, hne⟩; exact hne (hΩ Ω h)), hsel]
    dsimp only
    rw [hL, flat_mask, hmm, hp']
  unfold calibrate
  rw [if_pos (show s'.K = 0 by rw [hs']; exact hK), hflat]
  dsimp only
  rw [hs']
  rfl

/-- **C38, idempotence (curved).**  For curved universes repeating the call changes nothing, without
further conditions. -/
theorem C38_idempotent_curved (u : SI) (s s' : CalState) (a : CalArgs) (hK : s.K ≠ 0)
    (hok : calibrate u s a = .ok s') : calibrate u s' a = .ok s' := by
  obtain ⟨p, hp, hs'⟩ := calibrate_curved hK hok
  obtain ⟨hN, h, Ω, aM, a0, N0, nr, st, I, nc, hh, h0, hs, hI, ⟨x, hx, hxle⟩, ⟨y, hy, hyge⟩, hi, hp'⟩ :=
    curved_ok hp
  have hL : s'.logaH = s.logaH := by rw [hs']; rfl
  have hNN : s'.N = s.N := by rw [hs']; rfl
  have hKK : s'.K = s.K := by rw [hs']; rfl
  have hst : s'.sticky = st := by rw [hs', hp']; rfl
  obtain ⟨U, hU⟩ : ∃ U, U = firstOccurrence (s.logaH.map fun l => l - log aM) := ⟨_, rfl⟩
  rw [← hU] at hx hy hi hp'
  have hinf : s'.infl = some { I with mask := andMask I.mask U } := by rw [hs', hp']; rfl
  have hsel : curvedSel u s' a h = .ok (Ω, aM, a0, N0, nr, st) := by
    unfold curvedSel at hs ⊢
    split_ifs at hs ⊢ with h1 h2
    · unfold curvedOmega at hs ⊢
      rw [hKK]
      split at hs
      · cases hs
      · dsimp only
        split_ifs at hs ⊢ with h3 h4
        rw [hI] at hs
        rw [hinf, hst]
        split at hs
        · simp only [Except.ok.injEq, Prod.mk.injEq] at hs
          obtain ⟨rfl, rfl, rfl, rfl, rfl, rfl⟩ := hs
          rfl
        · simp only [Except.ok.injEq, Prod.mk.injEq] at hs
          obtain ⟨rfl, rfl, rfl, rfl, rfl, rfl⟩ := hs
          rfl
    · unfold curvedReheating at hs ⊢
      split_ifs at hs ⊢ with h3 h4
      rw [hI] at hs
      rw [hinf, hKK, hst]
      dsimp only at hs ⊢
      split at hs
      · cases hs
      · next n r st' hr =>
        simp only [Except.ok.injEq, Prod.mk.injEq] at hs
        obtain ⟨rfl, rfl, rfl, rfl, rfl, rfl⟩ := hs
        have : curvedReh u { I with mask := andMask I.mask U } (I.N_end + logg a.g_th +
            log (I.V_end / u.T_CMB_Tp ^ 4) / 4) a st' = .ok (n, r, st') := by
          have := curvedReh_again hr
          unfold curvedReh at this ⊢
          exact this
        rw [this]
  have hcur : curved u s' a = .ok p := by
    unfold curved
    rw [if_neg (by rw [hN]; simp), hh]
    dsimp only
    rw [if_neg (not_le.2 h0), hsel, hinf]
    dsimp only
    rw [hL, hNN, ← hU, andMask_idem, if_neg (by intro h; rw [h] at hx; cases hx), if_neg (by
      rintro (h | h)
      · exact absurd (h x hx) (not_lt.2 hxle)
      · exact absurd (h y hy) (not_lt.2 hyge)), hi, hp']
  unfold calibrate
  rw [if_neg (by rw [hKK]; exact hK), hcur]
  dsimp only
  rw [hs']
  rfl

/-- A flat solution in which the `aH` of an in-inflation point (the third) already occurred before
inflation (the first point); `aH` first decreases, then increases, as before and during inflation. -/
noncomputable def demoRepeat : CalState where
  K := 0
  N := [0, 1, 2, 3]
  logaH := [1, 0, 1, 5]
  H := [1, 1, 1, 1]
  infl := some ⟨1 / 2, 4, 7 / 2, 1, 1, 0, 6, [false, true, true, true]⟩
  sticky := ⟨none, none, none, none, none, none⟩
  cal := none

theorem repeat_interp (a b c d x : ℝ) (h1 : ¬ x < a) (h2 : x ≤ b) :
    interpSorted [(a, c), (b, d)] x = .ok ((d - c) / (b - a) * (x - a) + c) := by
  rw [interpSorted, if_neg h1, if_pos h2]

theorem demoRepeat_first : firstOccurrence [1, 0, 1, 5] = [true, true, false, true] := by
  unfold firstOccurrence
  simp only [List.length_cons, List.length_nil]
  simp only [List.range, List.range.loop, List.map_cons, List.map_nil, List.cons.injEq, and_true,
    decide_eq_true_eq, decide_eq_false_iff_not]
  refine ⟨by simp, ?_, ?_, ?_⟩
  · intro j hj
    interval_cases j
    simp
  · intro h
    exact h 0 (by norm_num) (by simp)
  · intro j hj
    interval_cases j <;> simp

/-- **C38 is false in general for flat universes.**  `np.unique` keeps the first index over the *whole*
grid, so an in-inflation point whose `aH` already occurred before inflation is dropped after the first
calibration; the second identical call then interpolates on a coarser grid and calibrates differently. -/
theorem C38_not_idempotent (u : SI) : ∃ s' s'' c' c'',
    calibrate u demoRepeat { method := "N_star", N_star := some (3 / 2) } = .ok s' ∧
    calibrate u s' { method := "N_star", N_star := some (3 / 2) } = .ok s'' ∧
    s'.cal = some c' ∧ s''.cal = some c'' ∧ c'.logaH_star = 3 ∧ c''.logaH_star = 15 / 4 ∧
    c'.delta_N_calib ≠ c''.delta_N_calib := by
  have key : ∀ (s : CalState) (m : List Bool) (ls : ℝ), s.infl = some ⟨1 / 2, 4, 7 / 2, 1, 1, 0, 6, m⟩ →
      interpL (maskSel s.N m) (maskSel s.logaH m) (5 / 2) = .ok ls →
      ∃ st, flatSel u s { method := "N_star", N_star := some (3 / 2) } =
        .ok (3 / 2, 5 / 2, ls, 0 - ls + log u.K_STAR_lp, none, ⟨1 / 2, 4, 7 / 2, 1, 1, 0, 6, m⟩, st) := by
    intro s m ls hI hi
    unfold flatSel
    dsimp only
    rw [if_pos rfl]
    unfold flatNstar
    dsimp only
    rw [if_neg (by norm_num), hI]
    dsimp only
    rw [if_neg (by norm_num), show (4:ℝ) - 3 / 2 = 5 / 2 by norm_num, hi]
    exact ⟨_, rfl⟩
  have i1 : interpL (maskSel demoRepeat.N [false, true, true, true])
      (maskSel demoRepeat.logaH [false, true, true, true]) (5 / 2) = .ok 3 := by
    simp only [demoRepeat, maskSel, List.zip_cons_cons, List.zip_nil_right, List.filterMap_cons,
      Bool.false_eq_true, if_false, if_true, List.filterMap_nil]
    rw [interpL_sorted (by norm_num)]
    simp only [List.zip_cons_cons, List.zip_nil_right]
    rw [interpSorted, if_neg (by norm_num), if_neg (by norm_num), repeat_interp _ _ _ _ _ (by norm_num)
      (by norm_num)]
    norm_num
  have i2 : interpL (maskSel demoRepeat.N [false, true, false, true])
      (maskSel demoRepeat.logaH [false, true, false, true]) (5 / 2) = .ok (15 / 4) := by
    simp only [demoRepeat, maskSel, List.zip_cons_cons, List.zip_nil_right, List.filterMap_cons,
      Bool.false_eq_true, if_false, if_true, List.filterMap_nil]
    rw [interpL_sorted (by norm_num)]
    simp only [List.zip_cons_cons, List.zip_nil_right]
    rw [repeat_interp _ _ _ _ _ (by norm_num) (by norm_num)]
    norm_num
  obtain ⟨st, h1⟩ := key demoRepeat [false, true, true, true] 3 rfl i1
  have e1 := calibrate_flat_intro (s := demoRepeat) rfl rfl h1
  have hm : andMask [false, true, true, true] (firstOccurrence demoRepeat.logaH) =
      [false, true, false, true] := by
    rw [show demoRepeat.logaH = [1, 0, 1, 5] from rfl, demoRepeat_first]; rfl
  obtain ⟨st', h2⟩ := key (finish u demoRepeat false (flatPart demoRepeat (3 / 2) (5 / 2) 3
      (0 - 3 + log u.K_STAR_lp) none ⟨1 / 2, 4, 7 / 2, 1, 1, 0, 6, [false, true, true, true]⟩ st))
    [false, true, false, true] (15 / 4) (by
      simp only [finish, flatPart]
      rw [flat_mask, hm]) i2
  have e2 := calibrate_flat_intro (s := finish u demoRepeat false (flatPart demoRepeat (3 / 2) (5 / 2) 3
      (0 - 3 + log u.K_STAR_lp) none ⟨1 / 2, 4, 7 / 2, 1, 1, 0, 6, [false, true, true, true]⟩ st)) rfl rfl h2
  refine ⟨_, _, _, _, e1, e2, rfl, rfl, rfl, rfl, ?_⟩
  simp only [flatPart]
  intro h
  linarith

/-- Hypotheses met: the mode theorem and idempotence apply to the demonstration solution. -/
example : HubbleGrid { demoFlat with logaH := [0, 1, 2, 3] } := by
  refine ⟨rfl, ?_, ?_⟩
  · simp [demoFlat]
  · simp [demoFlat]

example : ∀ i : ℕ, [false, true, true, false][i]? = some true →
    ∀ j < i, demoFlat.logaH[j]? ≠ demoFlat.logaH[i]? := by
  intro i hi j hj hEq
  have hnd : demoFlat.logaH.Nodup := by simp [demoFlat]
  have hil : i < demoFlat.logaH.length := by
    by_contra hge
    rw [List.getElem?_eq_none (by simpa [demoFlat] using hge)] at hi
    cases hi
  have := (List.getElem?_inj (by omega : j < demoFlat.logaH.length) hnd).1 hEq
  omega

/-- Hypotheses of `C38_k` and `C38_horizon_end` met: inflation of the demonstration solution begins and ends at grid points. -/
example (u : SI) : ∃ s' c, calibrate u demoFlat { method := "N_star", N_star := some (3 / 2) } = .ok s' ∧ s'.cal = some c ∧
    c.cHH_Mpc[3]? = some c.cHH_end_Mpc ∧ c.N[0]? = some c.N_beg := by
  obtain ⟨s', h⟩ := demoFlat_calibrates u
  obtain ⟨c, h1, h2, -, h4⟩ := C38_horizon_end u demoFlat s' _ rfl h _ rfl 3 rfl rfl
  exact ⟨s', c, h, h1, h2, h4 0 rfl⟩

end Primpy
