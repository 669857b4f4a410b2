import Verif.Props.C38
import Verif.Props.C91

/-!
# C92: calibrating an integrated background: the pivot scale crosses the horizon where the object says, up to one grid cell
-/

namespace Primpy
open Real Set Spec Bunch

/-! ## Specification -/

/-- e-folds of expansion along a trajectory -/
noncomputable def Eqs.efolds (E : Eqs) (Y : ℝ → ℕ → ℝ) (x : ℝ) : ℝ := (C90.view E).N x (Y x)
/-- the comoving Hubble rate `aH` along a trajectory -/
noncomputable def Eqs.aH (E : Eqs) (Y : ℝ → ℕ → ℝ) (x : ℝ) : ℝ := exp (E.efolds Y x) * √((C90.view E).H2 x (Y x))
/-- the accelerating function along a trajectory: positive if the expansion accelerates (C17) -/
noncomputable def Eqs.accel (E : Eqs) (Y : ℝ → ℕ → ℝ) (x : ℝ) : ℝ := (C90.view E).inflating x (Y x)

namespace C92

/-! ## interpolation between neighbouring grid points -/

/-- a value of the interpolant comes from two neighbouring nodes and lies between theirs -/
theorem interp_cell {f g : ℝ → ℝ} : ∀ {l : List ℝ} {x y : ℝ}, l.Pairwise (fun a b => f a < f b ∧ g a ≤ g b) →
    interpSorted (l.map fun z => (f z, g z)) x = .ok y →
    ∃ l1 a b l2, l = l1 ++ a :: b :: l2 ∧ f a ≤ x ∧ x ≤ f b ∧ g a ≤ y ∧ y ≤ g b ∧ (y - g a) * (f b - f a) = (g b - g a) * (x - f a) := by
  intro l
  induction l with
  | nil => intro x y _ h; simp [interpSorted] at h
  | cons a l ih =>
    intro x y hinc h
    cases l with
    | nil => simp [interpSorted] at h
    | cons b l =>
      obtain ⟨hp, hl⟩ := List.pairwise_cons.1 hinc
      have hab := hp b (by simp)
      simp only [List.map_cons, interpSorted] at h
      by_cases h1 : x < f a
      · rw [if_pos h1] at h; cases h
      rw [if_neg h1] at h
      by_cases h2 : x ≤ f b
      · rw [if_pos h2] at h
        have h := Except.ok.inj h
        have hd : 0 < f b - f a := by linarith
        have hs : 0 ≤ (g b - g a) / (f b - f a) := div_nonneg (by linarith) hd.le
        have k1 : 0 ≤ (g b - g a) / (f b - f a) * (x - f a) := mul_nonneg hs (by linarith)
        have k2 : (g b - g a) / (f b - f a) * (x - f a) ≤ (g b - g a) / (f b - f a) * (f b - f a) := mul_le_mul_of_nonneg_left (by linarith) hs
        rw [div_mul_cancel₀ _ hd.ne'] at k2
        refine ⟨[], a, b, l, rfl, not_lt.1 h1, h2, by linarith, by linarith, ?_⟩
        rw [← h]
        field_simp
        ring
      · rw [if_neg h2] at h
        obtain ⟨l1, a', b', l2, e, r⟩ := ih hl (by rw [List.map_cons]; exact h)
        exact ⟨a :: l1, a', b', l2, by rw [e]; rfl, r⟩

theorem maskSel_sublist {α : Type} (t : List α) (m : List Bool) : (maskSel t m).Sublist t := by
  induction t generalizing m with
  | nil => simp [maskSel]
  | cons x t ih =>
    cases m with
    | nil => simp [maskSel]
    | cons b m =>
      rw [maskSel_cons]
      cases b
      · exact (ih m).cons x
      · exact (ih m).cons_cons x

/-- the first selected element -/
theorem maskSel_head {t : List ℝ} : ∀ {m : List Bool} {a : ℝ} {l : List ℝ}, maskSel t m = a :: l →
    ∃ i : ℕ, t[i]? = some a ∧ m[i]? = some true ∧ ∀ k < i, m[k]? ≠ some true := by
  induction t with
  | nil => intro m a l h; simp [maskSel] at h
  | cons x t ih =>
    intro m a l h
    cases m with
    | nil => simp [maskSel] at h
    | cons b m =>
      rw [maskSel_cons] at h
      cases b with
      | true =>
        simp only [if_true, List.cons.injEq] at h
        exact ⟨0, by simp [h.1], by simp, by simp⟩
      | false =>
        simp only [Bool.false_eq_true, if_false] at h
        obtain ⟨i, h1, h2, h3⟩ := ih h
        refine ⟨i + 1, by simpa using h1, by simpa using h2, fun k hk => ?_⟩
        match k with
        | 0 => simp
        | k + 1 => simpa using h3 k (by omega)

/-- two neighbours among the selected elements -/
theorem maskSel_next {t : List ℝ} : ∀ {m : List Bool} {l1 : List ℝ} {a b : ℝ} {l2 : List ℝ}, maskSel t m = l1 ++ a :: b :: l2 →
    ∃ i j : ℕ, i < j ∧ t[i]? = some a ∧ t[j]? = some b ∧ m[i]? = some true ∧ m[j]? = some true ∧ ∀ k, i < k → k < j → m[k]? ≠ some true := by
  induction t with
  | nil => intro m l1 a b l2 h; simp [maskSel] at h
  | cons x t ih =>
    intro m l1 a b l2 h
    have lift : ∀ {m' : List Bool} {l1' : List ℝ} (c : Bool), maskSel t m' = l1' ++ a :: b :: l2 → ∃ i j : ℕ, i < j ∧ (x :: t)[i]? = some a ∧ (x :: t)[j]? = some b ∧
        (c :: m')[i]? = some true ∧ (c :: m')[j]? = some true ∧ ∀ k, i < k → k < j → (c :: m')[k]? ≠ some true := by
      intro m' l1' c h
      obtain ⟨i, j, h1, h2, h3, h4, h5, h6⟩ := ih h
      refine ⟨i + 1, j + 1, by omega, by simpa using h2, by simpa using h3, by simpa using h4, by simpa using h5, fun k hk1 hk2 => ?_⟩
      match k with
      | 0 => omega
      | k + 1 => simpa using h6 k (by omega) (by omega)
    cases m with
    | nil => simp [maskSel] at h
    | cons c m =>
      rw [maskSel_cons] at h
      cases c with
      | false => exact lift false h
      | true =>
        simp only [if_true] at h
        cases l1 with
        | cons z l1 => exact lift true (List.cons.inj h).2
        | nil =>
          obtain ⟨e, h'⟩ := List.cons.inj h
          subst e
          obtain ⟨j, h1, h2, h3⟩ := maskSel_head h'
          refine ⟨0, j + 1, by omega, rfl, by simpa using h1, rfl, by simpa using h2, fun k hk1 hk2 => ?_⟩
          match k with
          | 0 => omega
          | k + 1 => simpa using h3 k (by omega)

theorem maskSel_mem {t : List ℝ} {m : List Bool} {z : ℝ} (h : z ∈ maskSel t m) : ∃ i : ℕ, t[i]? = some z ∧ m[i]? = some true := by
  unfold maskSel at h
  obtain ⟨⟨y, c⟩, hm, hy⟩ := List.mem_filterMap.1 h
  obtain ⟨i, hi, he⟩ := List.mem_iff_getElem.1 hm
  rw [List.getElem_zip, Prod.mk.injEq] at he
  rw [List.length_zip] at hi
  cases c with
  | false => simp at hy
  | true =>
    simp only [if_true, Option.some.injEq] at hy
    subst hy
    exact ⟨i, by rw [List.getElem?_eq_getElem (by omega), he.1], by rw [List.getElem?_eq_getElem (by omega), he.2]⟩

/-- `interp1d` over selected grid points: the value belongs to a cell of neighbouring selected points -/
theorem cell {t : List ℝ} {m : List Bool} {f g : ℝ → ℝ} {P : Set ℝ} (ht : t.Pairwise (· < ·)) (hm : ∀ (i : ℕ) z, t[i]? = some z → m[i]? = some true → z ∈ P)
    (hf : StrictMonoOn f P) (hg : MonotoneOn g P) {x y : ℝ} (h : interpL (maskSel (t.map f) m) (maskSel (t.map g) m) x = .ok y) :
    ∃ (i j : ℕ) (a b : ℝ), i < j ∧ t[i]? = some a ∧ t[j]? = some b ∧ a < b ∧ m[i]? = some true ∧ m[j]? = some true ∧ (∀ k, i < k → k < j → m[k]? ≠ some true) ∧
      f a ≤ x ∧ x ≤ f b ∧ g a ≤ y ∧ y ≤ g b ∧ (y - g a) * (f b - f a) = (g b - g a) * (x - f a) := by
  have hP : ∀ z ∈ maskSel t m, z ∈ P := fun z hz => by
    obtain ⟨i, h1, h2⟩ := maskSel_mem hz
    exact hm i z h1 h2
  have hl : (maskSel t m).Pairwise fun a b => f a < f b ∧ g a ≤ g b :=
    (ht.sublist (maskSel_sublist t m)).imp_of_mem fun {a b} ha hb hab => ⟨hf (hP a ha) (hP b hb) hab, hg (hP a ha) (hP b hb) hab.le⟩
  have hz : (maskSel (t.map f) m).zip (maskSel (t.map g) m) = (maskSel t m).map fun z => (f z, g z) := by
    rw [maskSel_map, maskSel_map, List.zip_map']
  rw [interpL_sorted (by rw [hz, List.pairwise_map]; exact hl.imp fun h => h.1), hz] at h
  obtain ⟨l1, a, b, l2, e, r⟩ := interp_cell hl h
  obtain ⟨i, j, h1, h2, h3, h4, h5, h6⟩ := maskSel_next e
  have hab : a < b := by
    have : (maskSel t m).Pairwise (· < ·) := ht.sublist (maskSel_sublist t m)
    rw [e] at this
    exact (List.pairwise_cons.1 (List.pairwise_append.1 this).2.1).1 b (by simp)
  exact ⟨i, j, a, b, h1, h2, h3, hab, h4, h5, h6, r⟩

/-- what every calibration that is not copied from a background does with grid functions -/
theorem cal_cell {u : SI} {s s' : CalState} {a : CalArgs} {κ : Calib} {t : List ℝ} {fN fL : ℝ → ℝ} {P : Set ℝ} (hK : s.K = 0 ∨ s.K = 1 ∨ s.K = -1)
    (hb : a.background = none) (hok : Cal.calibrate u s a = .ok s') (hκ : s'.cal = some κ) (hN : s.N = t.map fN) (hL : s.logaH = t.map fL)
    (ht : t.Pairwise (· < ·)) (hP : ∀ I, s.infl = some I → I.mask.length = t.length ∧ ∀ (i : ℕ) z, t[i]? = some z → I.mask[i]? = some true → z ∈ P)
    (mN : StrictMonoOn fN P) (mL : StrictMonoOn fL P) :
    ∃ I, s.infl = some I ∧ κ.N_star = I.N_end - κ.N_cross_ ∧ exp (κ.logaH_star + κ.delta_N_calib) = u.K_STAR_lp * κ.a0 ∧ exp κ.logaH_star = SI.K_STAR * κ.a0_Mpc ∧
      (∀ n, a.N_star = some n → a.method = "N_star" → κ.N_star = n) ∧
      ∃ (i j : ℕ) (x z : ℝ), i < j ∧ t[i]? = some x ∧ t[j]? = some z ∧ x < z ∧ I.mask[i]? = some true ∧ I.mask[j]? = some true ∧
        (∀ (k : ℕ) w, i < k → k < j → t[k]? = some w → I.mask[k]? = some true → ∃ (l : ℕ) (v : ℝ), l < k ∧ t[l]? = some v ∧ fL v = fL w) ∧
        fN x ≤ κ.N_cross_ ∧ κ.N_cross_ ≤ fN z ∧ fL x ≤ κ.logaH_star ∧ κ.logaH_star ≤ fL z ∧
        (κ.N_cross_ - fN x) * (fL z - fL x) = (fN z - fN x) * (κ.logaH_star - fL x) := by
  have hKs := (C56_pivot u).2
  have hKS : 0 < SI.K_STAR := by unfold SI.K_STAR; norm_num
  rcases hK with hK | hK
  · obtain ⟨p, hp, rfl⟩ := Cal.calibrate_flat hK hok
    obtain ⟨-, ns, nc, ls, δ, nr, I, st, hs, rfl⟩ := Cal.flat_ok hp
    have hκ := (Option.some.inj hκ).symm
    subst hκ
    dsimp only
    have key : s.infl = some I ∧ ns = I.N_end - nc ∧ δ = log u.K_STAR_lp - ls ∧ (∀ n, a.N_star = some n → a.method = "N_star" → ns = n) ∧
        ∃ (i j : ℕ) (x z : ℝ), i < j ∧ t[i]? = some x ∧ t[j]? = some z ∧ x < z ∧ I.mask[i]? = some true ∧ I.mask[j]? = some true ∧
          (∀ k, i < k → k < j → I.mask[k]? ≠ some true) ∧ fN x ≤ nc ∧ nc ≤ fN z ∧ fL x ≤ ls ∧ ls ≤ fL z ∧
          (nc - fN x) * (fL z - fL x) = (fN z - fN x) * (ls - fL x) := by
      unfold Cal.flatSel at hs
      rw [hb] at hs
      dsimp only at hs
      split_ifs at hs with h1 h2
      · obtain ⟨k1, -, k3, -, k5, k6, k7, -⟩ := Cal.flatNstar_ok hs
        rw [hN, hL] at k6
        obtain ⟨i, j, x, z, c1, c2, c3, c4, c5, c6, c7, c8, c9, c10, c11, c12⟩ := cell ht (hP I k3).2 mN mL.monotoneOn k6
        refine ⟨k3, by rw [k5]; ring, by rw [k7]; ring, fun n hn _ => ?_, i, j, x, z, c1, c2, c3, c4, c5, c6, c7, c8, c9, c10, c11, by linarith⟩
        rw [k1] at hn; exact Option.some.inj hn
      · obtain ⟨-, k2, _, _, -, -, k6, -, -, k9, k10, -⟩ := Cal.flatReheating_ok hs
        rw [hN, hL] at k9
        obtain ⟨i, j, x, z, c1, c2, c3, c4, c5, c6, c7, c8, c9, c10, c11, c12⟩ := cell ht (hP I k2).2 mL mN.monotoneOn k9
        exact ⟨k2, k10, by rw [k6]; ring, fun n _ hm => absurd hm h1, i, j, x, z, c1, c2, c3, c4, c5, c6, c7, c10, c11, c8, c9, c12⟩
    obtain ⟨k1, k2, k3, k4, i, j, x, z, c1, c2, c3, c4, c5, c6, c7, c8⟩ := key
    refine ⟨I, k1, k2, ?_, ?_, k4, i, j, x, z, c1, c2, c3, c4, c5, c6, fun k w h1 h2 _ h4 => absurd h4 (c7 k h1 h2), c8⟩
    · rw [k3, add_sub_cancel, exp_log hKs, mul_one]
    · field_simp
  · have hK0 : s.K ≠ 0 := by rcases hK with h | h <;> rw [h] <;> norm_num
    obtain ⟨p, hp, rfl⟩ := Cal.calibrate_curved hK0 hok
    obtain ⟨hns, h, Ω, aM, a0, N0, nr, st, I, nc, hh, h0, hs, hI, -, -, hint, rfl⟩ := Cal.curved_ok hp
    obtain ⟨-, -, -, ha0, -, haM⟩ := curvedSel_a0 hK h0 hs
    have hκ := (Option.some.inj hκ).symm
    subst hκ
    dsimp only
    obtain ⟨hlen, hsel⟩ := hP I hI
    have hμ : ∀ k : ℕ, (andMask I.mask (firstOccurrence (s.logaH.map fun l => l - log aM)))[k]? = some true ↔
        I.mask[k]? = some true ∧ ∀ l v w, l < k → t[l]? = some v → t[k]? = some w → fL v ≠ fL w := by
      intro k
      by_cases hk : k < t.length
      · obtain ⟨w, hw⟩ : ∃ w, t[k]? = some w := ⟨_, List.getElem?_eq_getElem hk⟩
        obtain ⟨c, hc⟩ : ∃ c, I.mask[k]? = some c := ⟨_, List.getElem?_eq_getElem (by omega)⟩
        simp only [andMask, firstOccurrence, List.getElem?_zipWith, List.getElem?_map, List.length_map, hL, List.getElem?_range hk, hc, hw, Option.map_some]
        simp only [Option.some.injEq, Bool.and_eq_true, decide_eq_true_eq]
        refine and_congr Iff.rfl ⟨fun h l v w' hl hv hw' he => ?_, fun h l hl he => ?_⟩
        · have := h l hl
          rw [hv] at this
          simp only [Option.map_some, ne_eq, Option.some.injEq] at this
          subst hw'
          exact this (by rw [he])
        · obtain ⟨v, hv⟩ : ∃ v, t[l]? = some v := ⟨_, List.getElem?_eq_getElem (by omega)⟩
          rw [hv] at he
          simp only [Option.map_some, Option.some.injEq] at he
          exact h l v w hl hv rfl (by linarith)
      · have h1 : I.mask[k]? = none := List.getElem?_eq_none (by omega)
        simp [andMask, List.getElem?_zipWith, h1]
    generalize andMask I.mask (firstOccurrence (s.logaH.map fun l => l - log aM)) = μ at hint hμ
    have e1 : (s.logaH.map fun l => l - log aM) = t.map fun z => fL z - log aM := by rw [hL, List.map_map]; rfl
    rw [e1, hN] at hint
    obtain ⟨i, j, x, z, c1, c2, c3, c4, c5, c6, c7, c8, c9, c10, c11, c12⟩ := cell ht (fun i z h1 h2 => hsel i z h1 ((hμ i).1 h2).1)
      (fun p hp q hq hpq => sub_lt_sub_right (mL hp hq hpq) _) mN.monotoneOn hint
    have hlog : log (SI.K_STAR * aM) = log SI.K_STAR + log aM := log_mul hKS.ne' haM.ne'
    refine ⟨I, hI, rfl, ?_, ?_, fun n hn _ => (by rw [hns] at hn; cases hn), i, j, x, z, c1, c2, c3, c4, ((hμ i).1 c5).1, ((hμ j).1 c6).1, fun k w h1 h2 hw h4 => ?_, c10, c11, ?_, ?_, ?_⟩
    · rw [add_zero, exp_log (by positivity), ha0]
      have hM := u.Mpc_pos; have hl := u.lp_pos
      unfold SI.K_STAR_lp
      field_simp
    · rw [exp_log (by positivity)]
    · by_contra hn
      push Not at hn
      refine c7 k h1 h2 ((hμ k).2 ⟨h4, fun l v w' hl hv hw' => ?_⟩)
      rw [hw] at hw'
      rw [← Option.some.inj hw']
      exact hn l v hl hv
    · rw [hlog]; linarith
    · rw [hlog]; linarith
    · rw [hlog]; linear_combination c12

/-! ## the trajectory -/

theorem H2_congr {E : Eqs} (hE : E.Shipped) {y z : ℕ → ℝ} (h : ∀ i < E.idx.length, y i = z i) (x : ℝ) : (C90.view E).H2 x y = (C90.view E).H2 x z := by
  cases E with
  | other K p => exact absurd rfl (hE K p)
  | T e =>
    have := C91.rowsT e
    show e.H2 _ = e.H2 _
    simp only [InflT.H2, InflT.V, InflT.phi, InflT.dphidt, InflT._N, h 0 (by omega), h 1 (by omega), h 2 (by omega)]
  | N e =>
    have := C91.rowsN e
    show e.H2 _ _ = e.H2 _ _
    simp only [InflN.H2, InflN.V, InflN.phi, InflN.dphidN, h 0 (by omega), h 1 (by omega)]

theorem H2_pos {E : Eqs} {D S : Set ℝ} {Y : ℝ → ℕ → ℝ} (hT : E.Trajectory D S Y) : ∀ x ∈ S, 0 < (C90.view E).H2 x (Y x) := by
  cases E with
  | other K p => exact absurd hT (by simp [Eqs.Trajectory])
  | T e => exact hT.2.1
  | N e => exact hT.2.1

theorem aH_pos {E : Eqs} {D S : Set ℝ} {Y : ℝ → ℕ → ℝ} (hT : E.Trajectory D S Y) {x : ℝ} (hx : x ∈ S) : 0 < E.aH Y x :=
  mul_pos (exp_pos _) (sqrt_pos.2 (H2_pos hT x hx))

/-- e-folds grow, and `aH` grows exactly while the expansion accelerates -/
theorem facts {E : Eqs} {D S : Set ℝ} {Y : ℝ → ℕ → ℝ} (hS : IsOpen S) (hc : Convex ℝ S) (hT : E.Trajectory D S Y) (hV : IsDerivOn D E.pot.V E.pot.dV) :
    StrictMonoOn (E.efolds Y) S ∧ ContinuousOn (E.efolds Y) S ∧ ∃ d : ℝ → ℝ, IsDerivOn S (E.aH Y) d ∧ ∀ x ∈ S, 0 < E.accel Y x → 0 < d x := by
  cases E with
  | other K p => exact absurd hT (by simp [Eqs.Trajectory])
  | T e =>
    obtain ⟨sol, hH, hφ⟩ := hT
    have u := InflT.universe sol hH
    obtain ⟨adot, h1, h2⟩ := C17_acceleration_T hS sol hH hV hφ
    refine ⟨C20_N_T hS hc sol hH, fun x hx => (u.hubble x hx).continuousAt.continuousWithinAt,
      fun t => exp (InflT._N (Y t)) * e.inflating (Y t) / 3, fun x hx => ?_, fun x hx h => ?_⟩
    rotate_left
    · have h : 0 < e.inflating (Y x) := h
      exact div_pos (mul_pos (exp_pos (InflT._N (Y x))) h) three_pos
    · refine (h2 x hx).congr_of_eventuallyEq ?_
      filter_upwards [hS.mem_nhds hx] with z hz
      exact ((h1 z hz).unique (u.hubble z hz).exp).symm
  | N e =>
    obtain ⟨sol, hH, hφ⟩ := hT
    refine ⟨fun a _ b _ h => h, continuousOn_id, _, C17_acceleration_N hS sol hH hV hφ, fun x hx h => ?_⟩
    have h : 0 < e.inflating x (Y x) := h
    have hp : 0 < e.H x (Y x) := sqrt_pos.mpr (hH x hx)
    positivity

/-- a positive energy density at the start: the two tests for inflation at the start agree -/
theorem starts {E : Eqs} {D S : Set ℝ} {Y : ℝ → ℕ → ℝ} {x0 : ℝ} {raw : RawSol} (hT : E.Trajectory D S Y) (hx0 : x0 ∈ S)
    (hρ : 0 < (C90.view E).H2 x0 (Y x0) + E.K * exp (-2 * E.efolds Y x0)) (hf : raw.first = (x0, C90.trunc E.idx.length Y x0)) :
    StartsInflating (C90.view E) raw ↔ 0 ≤ (C90.view E).inflating x0 (C90.trunc E.idx.length Y x0) := by
  have hE := C91.shipped hT
  have tH := H2_congr hE (C91.trunc_lt (Y := Y) (x := x0)) x0
  have tN := C91.N_congr hE (C91.trunc_lt (Y := Y) (x := x0)) x0
  have hH := H2_pos hT x0 hx0
  unfold Eqs.efolds at hρ
  rw [← tH, ← tN] at hρ
  rw [← tH] at hH
  generalize C90.trunc E.idx.length Y x0 = y at *
  cases E with
  | other K p => exact absurd rfl (hE K p)
  | T e =>
    have hρ : 0 < e.H2 y + e.K * exp (-2 * InflT._N y) := hρ
    have := C25_starts_inflating_T e raw (by
      rw [hf]
      simp only [InflT.H2, T.get_H2, InflT.V] at hρ ⊢
      linarith)
    show StartsInflating e.view raw ↔ 0 ≤ e.inflating y
    rw [this, hf]
    show _ ↔ 0 ≤ e.pot.V (InflT.phi y) - InflT.dphidt y ^ 2
    rw [sub_nonneg]
  | N e =>
    have hρ : 0 < e.H2 x0 y + e.K * exp (-2 * x0) := hρ
    have hH : 0 < e.H2 x0 y := hH
    have h6 := InflN.six_ne hH
    have e2 : e.V y = e.H2 x0 y * (6 - InflN.dphidN y ^ 2) / 2 + 3 * e.K * exp (-2 * x0) := by
      simp only [InflN.H2, Primpy.N.get_H2, InflN.V]; field_simp; ring
    have := C25_starts_inflating_N e raw (by rw [hf]; exact hH) (by rw [hf]; show 0 < e.H2 x0 y * _ / 2 + e.V y; rw [e2]; linarith)
    show StartsInflating e.view raw ↔ 0 ≤ e.inflating x0 y
    rw [this, hf]
    show (e.H x0 y * InflN.dphidN y) ^ 2 ≤ e.pot.V (InflN.phi y) ↔ 0 ≤ e.V y - e.H2 x0 y * InflN.dphidN y ^ 2
    rw [sub_nonneg, mul_pow, InflN.H_sq hH]
    rfl

theorem mapM_some {l : List ℝ} : (l.map some).mapM (id : Option ℝ → Option ℝ) = some l := by
  induction l with
  | nil => rfl
  | cons a l ih => simp only [List.map_cons, List.mapM_cons, ih]; rfl

/-- what `calibrate_scale_factor` reads -/
theorem calState_ok {K : ℝ} {s : InflSol} {cs : CalState} {L : List ℝ} (hL : s.logaH = L.map some) (h : Shooting.calState K s = some cs) :
    cs.K = K ∧ cs.N = s.N ∧ cs.logaH = L ∧ ∀ I, cs.infl = some I → s.inflation_mask = some I.mask ∧ s.fin.N_end = some I.N_end := by
  unfold Shooting.calState at h
  rw [hL, mapM_some] at h
  obtain ⟨H, -, h⟩ := Option.bind_eq_some_iff.1 h
  obtain ⟨L', hL', h⟩ := Option.bind_eq_some_iff.1 h
  have hL' := Option.some.inj hL'
  subst hL'
  have h := (Option.some.inj h).symm
  subst h
  refine ⟨rfl, rfl, rfl, fun I hI => ?_⟩
  dsimp only at hI
  obtain ⟨b, -, hI⟩ := Option.bind_eq_some_iff.1 hI
  obtain ⟨e, he, hI⟩ := Option.bind_eq_some_iff.1 hI
  obtain ⟨n, -, hI⟩ := Option.bind_eq_some_iff.1 hI
  obtain ⟨v, -, hI⟩ := Option.bind_eq_some_iff.1 hI
  obtain ⟨h', -, hI⟩ := Option.bind_eq_some_iff.1 hI
  obtain ⟨lb, -, hI⟩ := Option.bind_eq_some_iff.1 hI
  obtain ⟨le, -, hI⟩ := Option.bind_eq_some_iff.1 hI
  obtain ⟨m, hm, hI⟩ := Option.bind_eq_some_iff.1 hI
  have hI := (Option.some.inj hI).symm
  subst hI
  exact ⟨hm, he⟩

end C92

/-- **C92, the pivot scale.**  `solve(…)` with any initial conditions, events and settings whose answer from scipy samples a solution of the equations (either
formulation, any curvature and potential) on an increasing grid and records the events faithfully; then `calibrate_scale_factor` with any method and arguments, except
copying a background.  If it succeeds: there is a phase of inflation `[xb, xe]`, and if the expansion accelerates throughout its interior, there are two neighbouring grid
points `a < b` in it (a grid point between them is skipped only if an earlier one, before inflation, has the same `aH`) and two points `xc`, `xs` between `a` and `b` such that

* `_N_cross` is the e-fold number of the trajectory at `xc`, and `N_star` the number of e-folds from there to the end of inflation; 
* `aH` of the trajectory at `xs`, rescaled by the calibration, is the pivot scale (`K_STAR_lp` per comoving Planck length, `K_STAR` per comoving megaparsec), and at no other
  point of the phase;
* `_N_cross` is the linear interpolation of the e-folds between `a` and `b` in `ln(aH)` to the pivot scale. -/
theorem C92_pivot (ivp : SolveIvp) (fmtE : ℝ → String) {E : Eqs} (hK : E.K = 0 ∨ E.K = 1 ∨ E.K = -1) {D S : Set ℝ} {ic : ICCall} {kw : SolveKw} {c : IC}
    {y0 : ℕ → Option ℝ} {q : IvpCall}
    (hic : ic (kw.rtol.getD (1 / 10 ^ 10)) (kw.atol.getD (1 / 10 ^ 12)) kw.rest (fun _ => some 0) = .ok (c, y0)) (hq : Requested E kw c y0 q)
    {res : Dict Attr} {t : List ℝ} {y : List (List ℝ)} {te : List (List ℝ)} {ye : List (List (List ℝ))} (hivp : ivp E q = .ok res)
    (sh : IvpShape E.idx.length q.events.length res t y te ye) {Y : ℝ → ℕ → ℝ} {x0 x1 : ℝ} (hS : IsOpen S) (hc : Convex ℝ S) (hT : E.Trajectory D S Y)
    (hV : IsDerivOn D E.pot.V E.pot.dV) (hx0 : x0 ∈ S) (hsub : Icc x0 x1 ⊆ S) (hρ : 0 < (C90.view E).H2 x0 (Y x0) + E.K * exp (-2 * E.efolds Y x0))
    (hI : Integrated (C90.view E) E.idx.length q.events Y x0 x1 t y te ye) (ht : t.Pairwise (· < ·)) (hp : PlainInflation q.events)
    (hclean : StartsCleanly (E.accel Y) x0 x1) :
    ∃ o s, solve ivp fmtE E ic [] kw = .ok (o, s) ∧ ∀ (u : SI) cs a cs' κ, Shooting.calState E.K s = some cs → a.background = none →
      Cal.calibrate u cs a = .ok cs' → cs'.cal = some κ →
      ∃ xb xe, x0 ≤ xb ∧ xb < xe ∧ xe ≤ x1 ∧ s.start.N_beg = some (E.efolds Y xb) ∧ s.fin.N_end = some (E.efolds Y xe) ∧ (∀ x ∈ Icc xb xe, 0 ≤ E.accel Y x) ∧
        ((∀ x ∈ Ioo xb xe, 0 < E.accel Y x) → (∀ n, a.N_star = some n → a.method = "N_star" → κ.N_star = n) ∧ ∃ (i j : ℕ) (a b : ℝ), i < j ∧ t[i]? = some a ∧ t[j]? = some b ∧ xb < a ∧ a < b ∧ b < xe ∧
          (∀ (k : ℕ) w, i < k → k < j → t[k]? = some w → ∃ (l : ℕ) (v : ℝ), l < k ∧ t[l]? = some v ∧ v < xb ∧ E.aH Y v = E.aH Y w) ∧
          ∃ xc ∈ Icc a b, ∃ xs ∈ Icc a b, E.efolds Y xc = κ.N_cross_ ∧ E.efolds Y xe - E.efolds Y xc = κ.N_star ∧
            exp κ.delta_N_calib * E.aH Y xs = u.K_STAR_lp * κ.a0 ∧ E.aH Y xs = SI.K_STAR * κ.a0_Mpc ∧ (∀ x ∈ Icc xb xe, E.aH Y x = SI.K_STAR * κ.a0_Mpc → x = xs) ∧
            (E.efolds Y xc - E.efolds Y a) * (log (E.aH Y b) - log (E.aH Y a)) = (E.efolds Y b - E.efolds Y a) * (log (E.aH Y xs) - log (E.aH Y a))) := by
  have hE := C91.shipped hT
  obtain ⟨o, raw, hs, hg, hev, -⟩ := C90_solve ivp fmtE E hE ic kw c y0 q hic hq hivp sh
  have hQ : ∀ x, (C90.view E).inflating x (C90.trunc E.idx.length Y x) = (C90.view E).inflating x (Y x) := fun x => C91.inflating_congr hE C91.trunc_lt x
  have hQN : ∀ x, (C90.view E).N x (C90.trunc E.idx.length Y x) = E.efolds Y x := fun x => C91.N_congr hE C91.trunc_lt x
  have hQH : ∀ x, (C90.view E).H2 x (C90.trunc E.idx.length Y x) = (C90.view E).H2 x (Y x) := fun x => C92.H2_congr hE C91.trunc_lt x
  have hf := C90.faithful (raw := raw) (fmtE := fmtE) (C90.Integrated.trunc hI hp hQ) (fun x i hi => by rw [C90.trunc, if_neg (by omega)]) sh hg hev hp
  obtain ⟨mN, cN, d, hd, hdpos⟩ := C92.facts hS hc hT hV
  refine ⟨o, _, hs, fun u cs a cs' κ hcs hb hcal hκ => ?_⟩
  -- the arrays
  have glen : raw.grid.length = t.length := by rw [hg]; simp
  have gt : raw.grid.map Prod.fst = t := by
    apply List.ext_getElem
    · rw [List.length_map, glen]
    · intro i h1 h2
      simp only [hg, List.getElem_map, List.getElem_range]
      exact C90.getD_lt _ h2
  have gmap : ∀ {α : Type} (f : ℝ × (ℕ → ℝ) → α) (g : ℝ → α), (∀ x ∈ Icc x0 x1, f (x, C90.trunc E.idx.length Y x) = g x) → raw.grid.map f = t.map g := by
    intro α f g h
    rw [← gt, List.map_map]
    refine List.map_congr_left fun p hp' => ?_
    obtain ⟨h1, h2⟩ := hf.grid p hp'
    have : p = (p.1, C90.trunc E.idx.length Y p.1) := Prod.ext rfl h2
    rw [this]; exact h _ h1
  obtain ⟨s, hsd⟩ : ∃ s, s = inflationSol (C90.view E) E.pot.V E.K raw := ⟨_, rfl⟩
  rw [← hsd] at hcs ⊢
  have sN : s.N = t.map (E.efolds Y) := by
    rw [hsd]; exact gmap (fun p => (C90.view E).N p.1 p.2) _ fun x _ => hQN x
  have sL : s.logaH = (t.map fun x => log (E.aH Y x)).map some := by
    rw [hsd, List.map_map]
    refine gmap (fun p => ((C90.view E).Hnan p).bind fun h => (nanLog h).map ((C90.view E).N p.1 p.2 + ·)) _ fun x hx => ?_
    have hH := C92.H2_pos hT x (hsub hx)
    have hsq := sqrt_pos.2 hH
    simp only [EqView.Hnan, hQH, hQN, nanSqrt, if_pos hH.le, Option.bind_some, nanLog, if_pos hsq, Option.map_some, Function.comp, Option.some.injEq, Eqs.aH]
    rw [log_mul (exp_pos _).ne' hsq.ne', log_exp]
  obtain ⟨eK, eN, eL, eI⟩ := C92.calState_ok sL hcs
  rw [sN] at eN
  -- a mask exists
  have hmask : ∃ I, cs.infl = some I := by
    by_contra hn
    have hn : cs.infl = none := by
      cases h : cs.infl with
      | none => rfl
      | some I => exact absurd ⟨I, h⟩ hn
    have hK' : cs.K = 0 ∨ cs.K = 1 ∨ cs.K = -1 := by rw [eK]; exact hK
    obtain ⟨I, hI', -⟩ := C92.cal_cell (P := ∅) (fN := E.efolds Y) (fL := fun x => log (E.aH Y x)) hK' hb hcal hκ eN eL ht
      (fun I hI' => by rw [hn] at hI'; cases hI') (by intro x hx; cases hx) (by intro x hx; cases hx)
    rw [hn] at hI'; cases hI'
  obtain ⟨I, hInf⟩ := hmask
  obtain ⟨hm, hNe'⟩ := eI I hInf
  have hmono : StrictMonoOn (fun x => (C90.view E).N x (C90.trunc E.idx.length Y x)) (Icc x0 x1) := by
    simp only [hQN]; exact mN.mono hsub
  have hst := C92.starts (raw := raw) hT hx0 hρ hf.start
  rw [hsd] at hm
  obtain ⟨xb, xe, h0b, hbe, he1, hNb, hNe, hpos, hneg, hbd, hz, hep, hlen, hsel⟩ := C77_generic E.pot.V E.K hf hmono hst (by simp only [hQ]; exact hclean) hm
  rw [← hsd] at hNb hNe
  simp only [hQ, hQN] at hNb hNe hpos
  have hph : Icc xb xe ⊆ S := fun x hx => hsub ⟨h0b.trans hx.1, hx.2.trans he1⟩
  have hsel' : ∀ (i : ℕ) z, t[i]? = some z → (I.mask[i]? = some true ↔ z ∈ Ioo xb xe) := fun i z hz => by
    have hi : i < raw.grid.length := by rw [glen]; exact (List.getElem?_eq_some_iff.1 hz).1
    rw [hsel i hi]
    have : raw.grid[i].1 = z := by
      rw [← gt, List.getElem?_map, List.getElem?_eq_getElem hi] at hz
      exact Option.some.inj hz
    rw [this]
  refine ⟨xb, xe, h0b, hbe, he1, hNb, hNe, hpos, fun hacc => ?_⟩
  -- `aH` grows strictly
  have maH : StrictMonoOn (E.aH Y) (Icc xb xe) := strictMonoOn_of_deriv_pos (convex_Icc _ _) (fun x hx => (hd x (hph hx)).continuousAt.continuousWithinAt) fun x hx => by
    rw [(hd x (hph (interior_subset hx))).deriv]
    rw [interior_Icc] at hx
    exact hdpos x (hph ⟨hx.1.le, hx.2.le⟩) (hacc x hx)
  have mL : StrictMonoOn (fun x => log (E.aH Y x)) (Icc xb xe) := fun p hp' q' hq' hpq => log_lt_log (C92.aH_pos hT (hph hp')) (maH hp' hq' hpq)
  have hIoo : Ioo xb xe ⊆ Icc xb xe := Ioo_subset_Icc_self
  have hK' : cs.K = 0 ∨ cs.K = 1 ∨ cs.K = -1 := by rw [eK]; exact hK
  obtain ⟨I', hI', k1, k2, k3, k4, i, j, p, r, c1, c2, c3, c4, c5, c6, c7, c8, c9, c10, c11, c12⟩ :=
    C92.cal_cell (P := Ioo xb xe) (fN := E.efolds Y) (fL := fun x => log (E.aH Y x)) hK' hb hcal hκ eN eL ht
      (fun J hJ => by
        rw [hInf] at hJ
        have hJ := (Option.some.inj hJ).symm
        subst hJ
        exact ⟨by rw [hlen, glen], fun i z hz h => (hsel' i z hz).1 h⟩)
      (mN.mono (hIoo.trans hph)) (mL.mono hIoo)
  rw [hInf] at hI'
  have hI' := (Option.some.inj hI').symm
  subst hI'
  have pP := (hsel' i p c2).1 c5
  have rP := (hsel' j r c3).1 c6
  have hcell : Icc p r ⊆ Icc xb xe := Icc_subset_Icc pP.1.le rP.2.le
  have hend : E.efolds Y xe = I'.N_end := by
    rw [hNe] at hNe'; exact Option.some.inj hNe'
  obtain ⟨xc, hxc, exc⟩ : ∃ xc ∈ Icc p r, E.efolds Y xc = κ.N_cross_ := by
    have := intermediate_value_Icc c4.le (cN.mono (hcell.trans hph)) ⟨c8, c9⟩
    exact this
  obtain ⟨xs, hxs, exs⟩ : ∃ xs ∈ Icc p r, log (E.aH Y xs) = κ.logaH_star := by
    have hcont : ContinuousOn (fun x => log (E.aH Y x)) (Icc p r) := fun x hx =>
      ((hd x (hph (hcell hx))).continuousAt.log (C92.aH_pos hT (hph (hcell hx))).ne').continuousWithinAt
    exact intermediate_value_Icc c4.le hcont ⟨c10, c11⟩
  have eaH : E.aH Y xs = exp κ.logaH_star := by rw [← exs, exp_log (C92.aH_pos hT (hph (hcell hxs)))]
  refine ⟨k4, i, j, p, r, c1, c2, c3, pP.1, c4, rP.2, fun k w h1 h2 hw => ?_, xc, hxc, xs, hxs, exc, by rw [exc, hend, k1], ?_, by rw [eaH, k3], fun x hx h => ?_, ?_⟩
  · have hlt : ∀ {a b : ℕ} {v w : ℝ}, a < b → t[a]? = some v → t[b]? = some w → v < w := fun {a b v w} hab hv hw => by
      obtain ⟨h1, rfl⟩ := List.getElem?_eq_some_iff.1 hv
      obtain ⟨h2, rfl⟩ := List.getElem?_eq_some_iff.1 hw
      exact List.pairwise_iff_getElem.1 ht a b h1 h2 hab
    have wP : w ∈ Ioo xb xe := ⟨pP.1.trans (hlt h1 c2 hw), (hlt h2 hw c3).trans rP.2⟩
    obtain ⟨l, v, hl, hv, e⟩ := c7 k w h1 h2 hw ((hsel' k w hw).2 wP)
    have hvw := hlt hl hv hw
    have hvS : v ∈ S := hsub (hI.inside v (List.mem_of_getElem? hv))
    have e' : E.aH Y v = E.aH Y w := by
      rw [← exp_log (C92.aH_pos hT hvS), ← exp_log (C92.aH_pos hT (hph (hIoo wP)))]
      exact congrArg exp e
    refine ⟨l, v, hl, hv, ?_, e'⟩
    by_contra hvb
    push Not at hvb
    have := maH ⟨hvb, (hvw.trans wP.2).le⟩ (hIoo wP) hvw
    linarith
  · rw [eaH, ← exp_add, add_comm, k2]
  · exact maH.injOn hx (hcell hxs) (by rw [h, eaH, k3])
  · rw [exc, exs]; exact c12

/-! ## The hypotheses are met

The exact solution `φ = -2t`, `N = -t²`, `H = -2t` of `V = 3φ² - 2` on a grid with two points inside inflation, calibrated with `N_star = 1`. -/

namespace C92.Ex

noncomputable def E : Eqs := .T Exact.hjT
noncomputable def grid : List ℝ := [-3, -2, -1, -1 / 10]
noncomputable def rows : List (List ℝ) := [grid.map fun t => -2 * t, grid.map fun _ => -2, grid.map fun t => -t ^ 2]
noncomputable def res : Dict Attr := [("t", .arr grid), ("y", .rows rows), ("t_events", .tEvents C90.Ex.te), ("y_events", .yEvents C90.Ex.ye)]
noncomputable def ivp : SolveIvp := fun _ _ => .ok res
def events : List Event := [⟨.inflation none, .neg, false, 0⟩]

theorem shape : IvpShape E.idx.length 1 res grid rows C90.Ex.te C90.Ex.ye where
  t_ne := by simp [grid]
  get_t := rfl
  get_y := rfl
  get_te := rfl
  get_ye := rfl
  rows := rfl
  cols := by simp [rows]
  te_len := rfl
  ye_len := rfl
  occ := C90.Ex.shape.occ
  states := C90.Ex.shape.states

theorem integrated : Integrated (C90.view E) E.idx.length events Exact.yHjT (-3) (-1 / 10) grid rows C90.Ex.te C90.Ex.ye where
  start := rfl
  inside := by
    intro x hx
    simp only [grid, List.mem_cons, List.not_mem_nil, or_false] at hx
    rcases hx with rfl | rfl | rfl | rfl <;> constructor <;> norm_num
  sampled := fun j x hx i hi => by
    have hi : i < 3 := hi
    match j with
    | 0 => simp only [grid, List.getElem?_cons_zero, Option.some.injEq] at hx; subst hx; interval_cases i <;> simp [rows, grid, Exact.yHjT]
    | 1 => simp only [grid, List.getElem?_cons_succ, List.getElem?_cons_zero, Option.some.injEq] at hx; subst hx; interval_cases i <;> simp [rows, grid, Exact.yHjT]
    | 2 => simp only [grid, List.getElem?_cons_succ, List.getElem?_cons_zero, Option.some.injEq] at hx; subst hx; interval_cases i <;> simp [rows, grid, Exact.yHjT]
    | 3 => simp only [grid, List.getElem?_cons_succ, List.getElem?_cons_zero, Option.some.injEq] at hx; subst hx; interval_cases i <;> simp [rows, grid, Exact.yHjT]
    | j + 4 => simp [grid] at hx
  stated := C90.Ex.integrated.stated
  detected := C90.Ex.integrated.detected
  stopped := C90.Ex.integrated.stopped

theorem trajectory : E.Trajectory univ (Iio 0) Exact.yHjT :=
  ⟨Exact.hjT_sol, fun t ht => by rw [Exact.hjT_H2]; have : t < 0 := ht; exact pow_pos (by linarith) 2, fun _ _ => mem_univ _⟩

/-- the arrays of the returned object, and its calibration with `N_star = 1` -/
theorem calibrated (u : SI) (fmtE : ℝ → String) {raw : RawSol} (hg : raw.grid = (List.range grid.length).map fun j => (grid.getD j 0, fun i => (rows.getD i []).getD j 0))
    (hev : ∀ k l, raw.events.get? k = some l ↔ ∃ j ts ss, LastAt (events.map (Event.name fmtE)) k j ∧ C90.Ex.te[j]? = some ts ∧ C90.Ex.ye[j]? = some ss ∧
        l = ts.zip (ss.map fun st i => st.getD i 0)) :
    ∃ cs cs' κ, Shooting.calState E.K (inflationSol (C90.view E) E.pot.V E.K raw) = some cs ∧
      Cal.calibrate u cs { method := "N_star", N_star := some 1 } = .ok cs' ∧ cs'.cal = some κ ∧
      (inflationSol (C90.view E) E.pot.V E.K raw).start.N_beg = some (-9) ∧ (inflationSol (C90.view E) E.pot.V E.K raw).fin.N_end = some (-1 / 2) := by
  obtain ⟨r1, r2, r3⟩ := hj_root
  have key : ∀ k l, raw.events.get? k = some l → k = "Inflation_dir-1_term0" := fun k l h => by
    obtain ⟨j, ts, ss, hj, -⟩ := (hev k l).1 h
    obtain ⟨ev, -, hm, hn⟩ := C90.lastAt_event hj
    rw [events, List.mem_singleton] at hm
    rw [← hn, hm]
    rfl
  have none_of : ∀ k, k ≠ "Inflation_dir-1_term0" → firstEvent raw.events k = none := fun k hk => by
    unfold firstEvent
    cases h : raw.events.get? k with
    | none => rfl
    | some l => exact absurd (key k l h) hk
  obtain ⟨pe, hpe⟩ : ∃ pe : ℝ × (ℕ → ℝ), pe = (-√(1 / 2), fun i => (C90.Ex.st (-√(1 / 2))).getD i 0) := ⟨_, rfl⟩
  have fe : firstEvent raw.events "Inflation_dir-1_term0" = some pe := by
    have := (hev "Inflation_dir-1_term0" [pe]).2 ⟨0, _, _, ⟨rfl, fun j' hj => by
      rw [List.getElem?_eq_none (by simp [events]; omega)]; simp⟩, rfl, rfl, by rw [hpe]; rfl⟩
    unfold firstEvent
    rw [this]; rfl
  have ee : endEvent raw.events = some pe := by
    unfold endEvent
    rw [none_of _ (by decide), fe]
  have st : ∀ (x a b n : ℝ) (r : ℕ → ℝ), r 0 = a → r 1 = b → r 2 = n → x < 0 → a = -2 * x → b = -2 → n = -x ^ 2 →
      (C90.view E).N x r = -x ^ 2 ∧ (C90.view E).Hnan (x, r) = some (-2 * x) ∧ (C90.view E).inflating x r = 12 * x ^ 2 - 6 := by
    intro x a b n r h0 h1 h2 hx ha hb hn
    have hH : (C90.view E).H2 x r = (-2 * x) ^ 2 := by
      show Exact.hjT.H2 r = _
      simp only [InflT.H2, T.get_H2, InflT.V, InflT.phi, InflT.dphidt, InflT._N, Exact.hjT, Exact.hjPot, h0, h1, h2, ha, hb, hn]; ring
    refine ⟨by show r 2 = _; rw [h2, hn], ?_, ?_⟩
    · unfold EqView.Hnan
      rw [hH, nanSqrt, if_pos (sq_nonneg _), sqrt_sq (by linarith)]
    · show Exact.hjT.inflating r = _
      simp only [InflT.inflating, InflT.V, InflT.phi, InflT.dphidt, Exact.hjT, Exact.hjPot, h0, h1, ha, hb]; ring
  have hpe' := st pe.1 _ _ _ pe.2 rfl rfl rfl (by rw [hpe]; simp) (by rw [hpe]; rfl) (by rw [hpe]; rfl) (by rw [hpe]; rfl)
  have pe1 : pe.1 = -√(1 / 2) := by rw [hpe]
  obtain ⟨g0, g1, g2, g3, hgrid, p0, p1, p2, p3⟩ : ∃ g0 g1 g2 g3 : ℕ → ℝ, raw.grid = [(-3, g0), (-2, g1), (-1, g2), (-1 / 10, g3)] ∧
      (g0 0 = 6 ∧ g0 1 = -2 ∧ g0 2 = -9) ∧ (g1 0 = 4 ∧ g1 1 = -2 ∧ g1 2 = -4) ∧ (g2 0 = 2 ∧ g2 1 = -2 ∧ g2 2 = -1) ∧ (g3 0 = 1 / 5 ∧ g3 1 = -2 ∧ g3 2 = -1 / 100) := by
    refine ⟨_, _, _, _, hg, ?_, ?_, ?_, ?_⟩ <;> refine ⟨?_, ?_, ?_⟩ <;> simp [rows, grid] <;> norm_num
  have hfirst : raw.first = (-3, g0) := (List.cons.inj hgrid).1
  have q0 := st (-3) _ _ _ g0 p0.1 p0.2.1 p0.2.2 (by norm_num) (by norm_num) rfl (by norm_num)
  have q1 := st (-2) _ _ _ g1 p1.1 p1.2.1 p1.2.2 (by norm_num) (by norm_num) rfl (by norm_num)
  have q2 := st (-1) _ _ _ g2 p2.1 p2.2.1 p2.2.2 (by norm_num) (by norm_num) rfl (by norm_num)
  have q3 := st (-1 / 10) _ _ _ g3 p3.1 p3.2.1 p3.2.2 (by norm_num) (by norm_num) rfl (by norm_num)
  have hst : postStart (C90.view E) raw = ⟨some (-9), some 6, some (-9 + log 6), none⟩ := by
    unfold postStart
    rw [if_neg (by rw [none_of _ (by decide)]; simp), if_pos (Or.inl (by rw [hfirst, q0.2.2]; norm_num)), hfirst, q0.2.1, q0.1]
    norm_num [nanLog]
  have hen : ∃ f v h l, postEnd (C90.view E) E.pot.V raw = ⟨some (-1 / 2), f, some h, some l, some v, none⟩ := by
    unfold postEnd
    rw [ee]
    dsimp only
    rw [hpe'.1, hpe'.2.1, pe1]
    refine ⟨some ((C90.view E).phi (-√(1 / 2)) pe.2), E.pot.V ((C90.view E).phi (-√(1 / 2)) pe.2), -2 * -√(1 / 2), -1 / 2 + log (-2 * -√(1 / 2)), ?_⟩
    rw [Option.bind_some, nanLog, if_pos (by linarith), Option.map_some, neg_sq, r1, show -(1 / 2 : ℝ) = -1 / 2 by norm_num]
  obtain ⟨f, v, hh, ll, hen⟩ := hen
  obtain ⟨cs, hcs, hcK, hcN, hcL, hcI⟩ : ∃ cs, Shooting.calState E.K (inflationSol (C90.view E) E.pot.V E.K raw) = some cs ∧ cs.K = 0 ∧ cs.N = [-9, -4, -1, -1 / 100] ∧
      (∃ l0 l1 l2 l3, cs.logaH = [l0, l1, l2, l3]) ∧ cs.infl = some ⟨-9, -1 / 2, -1 / 2 - -9, v, hh, -9 + log 6, ll, [false, true, true, false]⟩ := by
    have m1 : (decide ((-9 : ℝ) < -9) && decide ((-9 : ℝ) < -1 / 2)) = false := by norm_num
    have m2 : (decide ((-9 : ℝ) < -4) && decide ((-4 : ℝ) < -1 / 2)) = true := by norm_num
    have m3 : (decide ((-9 : ℝ) < -1) && decide ((-1 : ℝ) < -1 / 2)) = true := by norm_num
    have m4 : (decide ((-9 : ℝ) < -1 / 100) && decide ((-1 / 100 : ℝ) < -1 / 2)) = false := by norm_num
    have n0 : (C90.view E).N (-3) g0 = -9 := by rw [q0.1]; norm_num
    have n1 : (C90.view E).N (-2) g1 = -4 := by rw [q1.1]; norm_num
    have n2 : (C90.view E).N (-1) g2 = -1 := by rw [q2.1]; norm_num
    have n3 : (C90.view E).N (-1 / 10) g3 = -1 / 100 := by rw [q3.1]; norm_num
    have lg : ∀ x : ℝ, x < 0 → nanLog (-2 * x) = some (log (-2 * x)) := fun x hx => by rw [nanLog, if_pos (by linarith)]
    refine ⟨⟨0, [-9, -4, -1, -1 / 100], [-9 + log (-2 * -3), -4 + log (-2 * -2), -1 + log (-2 * -1), -1 / 100 + log (-2 * (-1 / 10))], [-2 * -3, -2 * -2, -2 * -1, -2 * (-1 / 10)],
      some ⟨-9, -1 / 2, -1 / 2 - -9, v, hh, -9 + log 6, ll, [false, true, true, false]⟩, ⟨none, none, none, none, none, none⟩, none⟩, ?_, rfl, rfl, ⟨_, _, _, _, rfl⟩, rfl⟩
    simp only [inflationSol, hst, hen, hgrid, List.map_cons, List.map_nil, n0, n1, n2, n3, q0.2.1, q1.2.1, q2.2.1, q3.2.1, lg (-3) (by norm_num), lg (-2) (by norm_num),
      lg (-1) (by norm_num), lg (-1 / 10) (by norm_num), Shooting.calState, Option.bind_some, Option.map_some, List.mapM_cons, List.mapM_nil, id, Option.bind_eq_bind, Option.pure_def, m1, m2, m3, m4]
    rfl
  obtain ⟨l0, l1, l2, l3, hcL⟩ := hcL
  obtain ⟨ls, hls⟩ : ∃ ls, interpL [-4, -1] [l1, l2] (-1 / 2 - 1) = .ok ls := by
    have : ([(-4 : ℝ), -1].zip [l1, l2]).insertionSort (fun a b => a.1 ≤ b.1) = [(-4, l1), (-1, l2)] := by
      apply List.Pairwise.insertionSort_eq
      simp
    unfold interpL
    rw [this]
    exact interpSorted_total (by norm_num) ⟨_, List.mem_singleton_self _, by norm_num⟩
  have hsel : ∃ ns nc δ nr I st, Cal.flatSel u cs { method := "N_star", N_star := some 1 } = .ok (ns, nc, ls, δ, nr, I, st) := by
    unfold Cal.flatSel
    dsimp only
    rw [if_pos rfl]
    unfold Cal.flatNstar
    dsimp only
    rw [if_neg (by norm_num), hcI, hcN, hcL]
    dsimp only
    rw [if_neg (by norm_num)]
    have e1 : maskSel [(-9 : ℝ), -4, -1, -1 / 100] [false, true, true, false] = [-4, -1] := rfl
    have e2 : maskSel [l0, l1, l2, l3] [false, true, true, false] = [l1, l2] := rfl
    rw [e1, e2, hls]
    exact ⟨_, _, _, _, _, _, rfl⟩
  obtain ⟨ns, nc, δ, nr, I, sk, hsel⟩ := hsel
  refine ⟨cs, _, _, hcs, Cal.calibrate_flat_intro hcK rfl hsel, rfl, ?_, ?_⟩
  · show (postStart (C90.view E) raw).N_beg = _
    rw [hst]
  · show (postEnd (C90.view E) E.pot.V raw).N_end = _
    rw [hen]

theorem accel (x : ℝ) : E.accel Exact.yHjT x = 12 * x ^ 2 - 6 := by
  show Exact.hjT.inflating (Exact.yHjT x) = _
  rw [hj_inflating]

/-- `C92_pivot` applies, and its conclusion is about a calibration that exists. -/
example (u : SI) (fmtE : ℝ → String) : ∃ o s cs cs' κ, solve ivp fmtE E (ICCall.slowRoll E C90.Ex.ic) [] C90.Ex.kw = .ok (o, s) ∧ Shooting.calState E.K s = some cs ∧
    Cal.calibrate u cs { method := "N_star", N_star := some 1 } = .ok cs' ∧ cs'.cal = some κ ∧ κ.N_star = 1 ∧
    ∃ xb xe : ℝ, -3 ≤ xb ∧ xb < xe ∧ xe ≤ -1 / 10 ∧ ∃ xs ∈ Icc xb xe, E.aH Exact.yHjT xs = SI.K_STAR * κ.a0_Mpc := by
  obtain ⟨y0, q, hic, hq, he⟩ := C90.Ex.called
  have hE : E.Shipped := by intro K p h; cases h
  have hs' : IvpShape E.idx.length q.events.length res grid rows C90.Ex.te C90.Ex.ye := by rw [he]; exact shape
  obtain ⟨o', raw, hs1, hg, hev, -⟩ := C90_solve ivp fmtE E hE (ICCall.slowRoll E C90.Ex.ic) C90.Ex.kw _ y0 q hic hq (res := res) rfl hs'
  obtain ⟨cs, cs', κ, hcs, hcal, hκ, -⟩ := calibrated u fmtE hg (by rw [he] at hev; exact hev)
  have h1 : IsDerivOn univ E.pot.V E.pot.dV := (Exact.hjPot_chain).1
  have h2 : Icc (-3 : ℝ) (-1 / 10) ⊆ Iio 0 := by intro x hx; have := hx.2; show x < 0; linarith
  have h3 : 0 < (C90.view E).H2 (-3) (Exact.yHjT (-3)) + E.K * exp (-2 * E.efolds Exact.yHjT (-3)) := by
    show 0 < Exact.hjT.H2 (Exact.yHjT (-3)) + _
    rw [Exact.hjT_H2]
    have : E.K = 0 := rfl
    rw [this]; norm_num
  have h4 : grid.Pairwise (· < ·) := by
    simp only [grid, List.pairwise_cons, List.mem_cons, List.not_mem_nil, or_false]
    norm_num
  have h5 : StartsCleanly (E.accel Exact.yHjT) (-3) (-1 / 10) := by
    intro h
    rw [accel] at h
    norm_num at h
  obtain ⟨o, s, hs, hmain⟩ := C92_pivot ivp fmtE (S := Iio 0) (D := univ) (Y := Exact.yHjT) (x0 := -3) (x1 := -1 / 10) (Or.inl rfl) hic hq (res := res) rfl hs' isOpen_Iio (convex_Iio 0) trajectory
    h1 (by norm_num) h2 h3 (by rw [he]; exact integrated) h4 (by rw [he]; exact C90.Ex.plain) h5
  · have hse : (o', inflationSol (C90.view E) E.pot.V E.K raw) = (o, s) := Except.ok.inj (hs1.symm.trans hs)
    have hse : inflationSol (C90.view E) E.pot.V E.K raw = s := (Prod.mk.inj hse).2
    rw [hse] at hcs
    obtain ⟨xb, xe, h1, h2, h3, -, -, hp, hrest⟩ := hmain u cs _ cs' κ hcs rfl hcal hκ
    obtain ⟨hN, i, j, a, b, -, -, -, c1, c2, c3, -, xc, -, xs, hxs, -, -, -, hK, -⟩ := hrest fun x hx => by
      have e : 0 ≤ E.accel Exact.yHjT xe := hp xe ⟨h2.le, le_rfl⟩
      rw [accel] at e
      show 0 < E.accel Exact.yHjT x
      rw [accel]
      have : xe ^ 2 < x ^ 2 := by
        have := hx.2
        nlinarith
      linarith
    exact ⟨o, s, cs, cs', κ, hs, hcs, hcal, hκ, hN 1 rfl rfl, xb, xe, h1, h2, h3, xs, ⟨(c1.trans_le hxs.1).le, (hxs.2.trans_lt c3).le⟩, hK⟩

end C92.Ex

end Primpy
