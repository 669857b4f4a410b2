import Verif.Props.C42
import Verif.Props.C43
import Mathlib.MeasureTheory.Integral.IntervalIntegral.FundThmCalculus

/-!
# C45 — comoving Hubble horizon and conformal time
-/

namespace Primpy
open Real
open BB

/-- **C45, horizon.**  Wherever the horizon is a number it is `1/(aH)` with the scale factor
normalised to today, `a = e^N/a0`, and `H` the Hubble parameter in Planck units. -/
theorem C45_horizon (u : SI) (N m ΩK h v : ℝ)
    (hv : comoving_Hubble_horizon u N m ΩK h "planck" = .ok (some v)) :
    ∃ a0 H w, get_a0 u h ΩK "planck" = .ok a0 ∧
      Hubble_parameter u N m ΩK h "planck" = .ok (some H, w) ∧ v * (exp N * H) = a0 ∧ H ≠ 0 := by
  unfold comoving_Hubble_horizon at hv
  cases ha : get_a0 u h ΩK "planck" with
  | error e => rw [ha] at hv; cases hv
  | ok a0 =>
    rw [ha] at hv
    simp only [bind, Except.bind, String.reduceEq, if_false, if_true] at hv
    cases hH : Hubble_parameter u N m ΩK h "planck" with
    | error e => rw [hH] at hv; cases hv
    | ok r =>
      obtain ⟨H, w⟩ := r
      rw [hH] at hv
      simp only [Except.ok.injEq] at hv
      cases H with
      | none => simp at hv
      | some H =>
        simp only [Option.bind_some, fdiv] at hv
        split_ifs at hv with h0
        refine ⟨a0, H, w, rfl, rfl, ?_, fun h => h0 (by rw [h, mul_zero])⟩
        rw [← Option.some.inj hv, div_mul_cancel₀ _ h0]

/-- **C45, today.**  Today the comoving Hubble horizon is `1/H0` (in Planck lengths), i.e. `c/H0`. -/
theorem C45_today (u : SI) (m ΩK h : ℝ) (hm : 0 ≤ m) (hh : 0 < h) (r : Option ℝ × Bool) (N' : ℝ)
    (hok : Hubble_parameter u N' m ΩK h "planck" = .ok r) :
    ∃ a0 H0, get_a0 u h ΩK "planck" = .ok a0 ∧ get_H0 u h "planck" = .ok H0 ∧
      comoving_Hubble_horizon u (log a0) m ΩK h "planck" = .ok (some (1 / H0)) := by
  obtain ⟨a0, ha, hex⟩ := C43_no_error_no_nan u m ΩK h hm hh N' r hok
  obtain ⟨H, w, hH, hHpos⟩ := hex _ le_rfl
  have h0 : some H = some (h * 100000 / u.Mpc_m * u.tp_s) :=
    C42_today u m ΩK h a0 _ "planck" _ w ha (get_H0_planck u h) hH
  obtain ⟨a0', ha', hapos⟩ := get_a0_total u hh ΩK
  rw [ha] at ha'
  obtain rfl := Except.ok.inj ha'
  refine ⟨a0, H, ha, by rw [get_H0_planck, Option.some.inj h0], ?_⟩
  unfold comoving_Hubble_horizon
  rw [ha]
  simp only [bind, Except.bind, String.reduceEq, if_false, if_true, hH, Option.bind_some, fdiv,
    exp_log hapos]
  rw [if_neg (by positivity)]
  congr 2
  field_simp

/-- **C45, units.**  Planck lengths, megaparsecs and metres describe the same length (errors and NaN
included). -/
theorem C45_units (u : SI) (N m ΩK h : ℝ) :
    comoving_Hubble_horizon u N m ΩK h "SI" =
      (comoving_Hubble_horizon u N m ΩK h "planck").map (·.map (· * u.lp_m)) ∧
    comoving_Hubble_horizon u N m ΩK h "SI" =
      (comoving_Hubble_horizon u N m ΩK h "Mpc").map (·.map (· * u.Mpc_m)) := by
  have hM := u.Mpc_pos; have ht := u.tp_pos; have hc := u.c_pos
  have e1 := C56.c_tp u
  obtain ⟨h1, h2⟩ := C42_units u N m ΩK h
  unfold comoving_Hubble_horizon
  cases get_a0 u h ΩK "planck" with
  | error e => exact ⟨rfl, rfl⟩
  | ok a0 =>
    simp only [bind, Except.bind, String.reduceEq, if_false, if_true]
    rw [h1, h2]
    cases Hubble_parameter u N m ΩK h "H0" with
    | error e => exact ⟨rfl, rfl⟩
    | ok r =>
      obtain ⟨H, w⟩ := r
      cases H with
      | none => exact ⟨rfl, rfl⟩
      | some H =>
        simp only [Except.map, Option.map_some, Option.bind_some, fdiv]
        by_cases hH : H = 0
        · simp [hH]
        · have hE := (exp_pos N).ne'
          rw [if_neg (by positivity), if_neg (by positivity), if_neg (by positivity)]
          simp only [Option.map_some, Except.ok.injEq, Option.some.injEq]
          rw [← e1]
          constructor <;> field_simp

/-- The integrand on the past of today, for accepted parameters: `1/(aH)`, continuous and positive. -/
theorem C45.integrand_pos (u : SI) (m ΩK h a0 : ℝ) (hm : 0 ≤ m) (hh : 0 < h) (r : Option ℝ × Bool)
    (N' : ℝ) (hok : Hubble_parameter u N' m ΩK h "planck" = .ok r)
    (ha : get_a0 u h ΩK "planck" = .ok a0) :
    ContinuousOn (integrandFn u m ΩK h) (Set.Iic (log a0)) ∧
    ∀ N ≤ log a0, ∃ H w, Hubble_parameter u N m ΩK h "planck" = .ok (some H, w) ∧ 0 < H ∧
      integrandFn u m ΩK h N = exp (-N) / H ∧ 0 < integrandFn u m ΩK h N := by
  obtain ⟨a0', ha', hex⟩ := C43_no_error_no_nan u m ΩK h hm hh N' r hok
  rw [ha] at ha'
  obtain rfl := Except.ok.inj ha'
  obtain ⟨⟨nbb, hn⟩, erl, he⟩ := lines_ok hm
  have hL : ¬ nbb < 1 - OmegaR u h - m - ΩK := fun hL => by
    rw [Hubble_error u N' m ΩK h "planck" (get_H0_planck u h) hn hL] at hok; cases hok
  have hval : ∀ N ≤ log a0, ∃ H w, Hubble_parameter u N m ΩK h "planck" = .ok (some H, w) ∧ 0 < H ∧
      integrandFn u m ΩK h N = exp (-N) / H := by
    intro N hN
    obtain ⟨H, w, hH, hpos⟩ := hex N hN
    refine ⟨H, w, hH, hpos, ?_⟩
    unfold integrandFn integrand
    rw [hH]
    simp only [Except.map, Option.bind_some, fdiv]
    rw [if_neg hpos.ne']
  refine ⟨?_, fun N hN => ?_⟩
  · have hcont : ContinuousOn (fun N => exp (-N) / (h * 100000 / u.Mpc_m * u.tp_s *
        √(radicand (OmegaR u h) m ΩK (1 - OmegaR u h - m - ΩK) (exp (log a0 - N)))))
        (Set.Iic (log a0)) := by
      refine ContinuousOn.div (by fun_prop) (by unfold radicand; fun_prop) ?_
      intro N hN
      obtain ⟨H, w, hH, hpos⟩ := hex N hN
      rw [Hubble_eq u N m ΩK h "planck" (get_H0_planck u h) hn he ha (not_lt.1 hL), nanSqrt] at hH
      split_ifs at hH with h0
      · simp only [Option.map_some, Except.ok.injEq, Prod.mk.injEq, Option.some.injEq] at hH
        rw [hH.1]; exact hpos.ne'
      · simp at hH
    refine hcont.congr fun N hN => ?_
    obtain ⟨H, w, hH, hpos, hi⟩ := hval N hN
    rw [hi]
    rw [Hubble_eq u N m ΩK h "planck" (get_H0_planck u h) hn he ha (not_lt.1 hL), nanSqrt] at hH
    split_ifs at hH with h0
    · simp only [Option.map_some, Except.ok.injEq, Prod.mk.injEq, Option.some.injEq] at hH
      show _ = exp (-N) / _
      rw [hH.1]
    · simp at hH
  · obtain ⟨H, w, hH, hpos, hi⟩ := hval N hN
    exact ⟨H, w, hH, hpos, hi, by rw [hi]; positivity⟩

/-- **C45, conformal time.**  For accepted parameters and any times up to today: `conformal_time` is the
integral of `dN/(aH)`; it is additive over adjacent intervals, vanishes on an empty interval, is
positive when the upper limit is later, and its derivative in the upper limit is `1/(aH)`. -/
theorem C45_conformal_time (u : SI) (err m ΩK h a0 : ℝ) (hm : 0 ≤ m) (hh : 0 < h)
    (r : Option ℝ × Bool) (N' : ℝ) (hok : Hubble_parameter u N' m ΩK h "planck" = .ok r)
    (ha : get_a0 u h ΩK "planck" = .ok a0) :
    ∃ η : ℝ → ℝ → ℝ,
      (∀ s N, s ≤ log a0 → conformal_time u err s (.scalar N) m ΩK h = .ok (.pair (η s N) err)) ∧
      (∀ s, η s s = 0) ∧
      (∀ s N N₂, s ≤ log a0 → N ≤ log a0 → N₂ ≤ log a0 → η s N₂ = η s N + η N N₂) ∧
      (∀ s N, s < N → N ≤ log a0 → 0 < η s N) ∧
      (∀ s N, s < N → N < log a0 → ∃ H w, Hubble_parameter u N m ΩK h "planck" = .ok (some H, w) ∧
        0 < H ∧ HasDerivAt (η s) (1 / (exp N * H)) N) := by
  obtain ⟨hcont, hval⟩ := C45.integrand_pos u m ΩK h a0 hm hh r N' hok ha
  have hint : ∀ s N, s ≤ log a0 → N ≤ log a0 →
      IntervalIntegrable (integrandFn u m ΩK h) MeasureTheory.volume s N := by
    intro s N hs hN
    refine (hcont.mono fun x hx => ?_).intervalIntegrable
    exact le_trans hx.2 (max_le hs hN)
  refine ⟨fun s N => ∫ n in s..N, integrandFn u m ΩK h n, fun s N hs => ?_, fun s => by simp,
    fun s N N₂ h1 h2 h3 => ?_, fun s N hsN hN => ?_, fun s N hsN hN => ?_⟩
  · obtain ⟨H, w, hH, -⟩ := hval s hs
    unfold conformal_time quadValue integrand
    rw [hH]
    rfl
  · exact (intervalIntegral.integral_add_adjacent_intervals (hint s N h1 h2) (hint N N₂ h2 h3)).symm
  · refine intervalIntegral.intervalIntegral_pos_of_pos_on (hint s N (by linarith) hN) ?_ hsN
    intro x hx
    exact (hval x (hx.2.le.trans hN)).choose_spec.choose_spec.2.2.2
  · obtain ⟨H, w, hH, hpos, hi, -⟩ := hval N hN.le
    refine ⟨H, w, hH, hpos, ?_⟩
    have hat : ContinuousAt (integrandFn u m ΩK h) N :=
      hcont.continuousAt (Iic_mem_nhds hN)
    have hmeas : StronglyMeasurableAtFilter (integrandFn u m ΩK h) (nhds N) :=
      ContinuousOn.stronglyMeasurableAtFilter isOpen_Iio (hcont.mono Set.Iio_subset_Iic_self) N hN
    have := intervalIntegral.integral_hasDerivAt_right (hint s N (by linarith) hN.le) hmeas hat
    rw [hi, exp_neg] at this
    rw [show 1 / (exp N * H) = (exp N)⁻¹ / H by field_simp]
    exact this

/-- **C45, arrays.**  An array of times gives the array of the scalar results, in order; other types
raise `TypeError`. -/
theorem C45_array (u : SI) (err s m ΩK h : ℝ) (ns : List ℝ) (vs : List ℝ)
    (hv : conformal_time u err s (.array ns) m ΩK h = .ok (.array vs)) :
    List.Forall₂ (fun n v => conformal_time u err s (.scalar n) m ΩK h = .ok (.pair v err)) ns vs := by
  unfold conformal_time at hv
  have key : ∀ ns vs, mapExcept (fun n => quadValue u m ΩK h s n) ns = .ok vs →
      List.Forall₂ (fun n v => conformal_time u err s (.scalar n) m ΩK h = .ok (.pair v err)) ns vs := by
    intro ns
    induction ns with
    | nil => intro vs h; simp only [mapExcept, Except.ok.injEq] at h; subst h; exact .nil
    | cons n ns ih =>
      intro vs hv
      simp only [mapExcept] at hv
      cases hq : quadValue u m ΩK h s n with
      | error e => rw [hq] at hv; cases hv
      | ok v =>
        rw [hq] at hv
        dsimp only at hv
        cases hr : mapExcept (fun n => quadValue u m ΩK h s n) ns with
        | error e => rw [hr] at hv; cases hv
        | ok bs =>
          rw [hr] at hv
          simp only [Except.ok.injEq] at hv
          subst hv
          refine .cons ?_ (ih bs hr)
          simp only [conformal_time, hq, Except.map]
  cases hq : mapExcept (fun n => quadValue u m ΩK h s n) ns with
  | error e => simp only [hq, Except.map] at hv; cases hv
  | ok bs =>
    simp only [hq, Except.map, Except.ok.injEq, ConfTime.array.injEq] at hv
    subst hv
    exact key ns bs hq

/-- **C45, ratio.**  `conformal_time_ratio` compares the conformal time elapsed up to the end of
inflation — from the start of the forward solution, or from the *last* point of the backward one if
given — with that from the end of inflation until today; it exceeds one iff the former is larger. -/
theorem C45_ratio (u : SI) (m ΩK h a0 N_end η0 : ℝ) (ηs : List ℝ) (bwd : Option (ℝ × List ℝ))
    (hm : 0 ≤ m) (hh : 0 < h)
    (r : Option ℝ × Bool) (N' : ℝ) (hok : Hubble_parameter u N' m ΩK h "planck" = .ok r)
    (ha : get_a0 u h ΩK "planck" = .ok a0) (hN : N_end < log a0) :
    ∃ after beg ratio, 0 < after ∧
      (∀ err, conformal_time u err N_end (.scalar (log a0)) m ΩK h = .ok (.pair after err)) ∧
      (bwd = none → beg = η0) ∧ (∀ b bs, bwd = some (b, bs) → (b :: bs).getLast? = some beg) ∧
      conformal_time_ratio u m ΩK h η0 ηs bwd N_end a0 = .ok ratio ∧
      ∃ fin, (η0 :: ηs).getLast? = some fin ∧ ratio * after = fin - beg ∧
        (1 < ratio ↔ after < fin - beg) := by
  obtain ⟨η, h1, -, -, h4, -⟩ := C45_conformal_time u 0 m ΩK h a0 hm hh r N' hok ha
  have hpos := h4 N_end (log a0) hN le_rfl
  have hq : quadValue u m ΩK h N_end (log a0) = .ok (η N_end (log a0)) := by
    have := h1 N_end (log a0) hN.le
    simp only [conformal_time] at this
    cases hq : quadValue u m ΩK h N_end (log a0) with
    | error e => rw [hq] at this; cases this
    | ok v =>
      rw [hq] at this
      simp only [Except.map, Except.ok.injEq, ConfTime.pair.injEq] at this
      rw [this.1]
  obtain ⟨beg, hbeg⟩ : ∃ beg : ℝ, beg = match bwd with
    | none => η0
    | some (b, bs) => (b :: bs).getLast (by simp) := ⟨_, rfl⟩
  refine ⟨η N_end (log a0), beg, ((η0 :: ηs).getLast (by simp) - beg) / η N_end (log a0), hpos,
    fun err => ?_, fun hb => ?_, fun b bs hb => ?_, ?_, (η0 :: ηs).getLast (by simp), ?_, ?_, ?_⟩
  · simp only [conformal_time, hq, Except.map]
  · rw [hbeg, hb]
  · rw [hbeg, hb, List.getLast?_eq_some_getLast (by simp)]
  · simp only [conformal_time_ratio, hq, Except.map]
    rw [hbeg]
    cases bwd <;> rfl
  · exact List.getLast?_eq_some_getLast (by simp)
  · field_simp
  · rw [lt_div_iff₀ hpos, one_mul]

/-- Hypotheses met for every choice of the constants: `Ω_m = 0`, `Ω_K = 1 - Ω_r` is accepted. -/
example (u : SI) (N : ℝ) : ∃ r, Hubble_parameter u N 0 (1 - OmegaR u 1) 1 "planck" = .ok r := by
  obtain ⟨nbb, hn, -, h⟩ := (C42_errors u N 0 (1 - OmegaR u 1) 1 one_pos "planck").2.2 (Or.inl rfl) le_rfl
  refine h ?_
  have : nbb = 1 := by
    have : no_Big_Bang_line 0 = .ok 1 := by simp [no_Big_Bang_line]
    rw [hn] at this; exact Except.ok.inj this
  rw [this]; linarith

end Primpy
