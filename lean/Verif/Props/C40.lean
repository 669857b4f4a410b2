import Verif.Model.PowerSol
import Verif.Props.C39

/-!
# C40: which calibration a slow-roll spectrum belongs to

A history is any sequence of `calibrate_scale_factor` and `P_s_approx` / `P_t_approx` calls on one
solution.  The *current* grid is that of the last calibration.
-/

namespace Primpy
open Real
namespace Approx

variable {κ : Type}

/-- One call on the solution. -/
inductive Op (κ : Type) where
  /-- a calibration that derives spectra (no background copied): `method`, `order`, the keyword arguments,
  and the grid the calibration results in -/
  | calibrate (method : String) (order : ℕ) (kw : κ) (g : Grid)
  /-- a calibration that does not derive spectra: a copied background, or a call that raised on the way -/
  | recalibrate (g : Grid)
  /-- `P_s_approx(k, method, order, **kw)` or `P_t_approx` -/
  | request (pick : Spectrum → ℝ → ℝ) (method : String) (order : ℕ) (kw : κ) (k : ℝ)

namespace Op
/-- A calibration that derives the spectra of this method. -/
def derives (m : String) : Op κ → Prop
  | calibrate m' _ _ _ => m' = m
  | _ => False
/-- A calibration or a request with this method. -/
def mentions (m : String) : Op κ → Prop
  | calibrate m' _ _ _ => m' = m
  | recalibrate _ => False
  | request _ m' _ _ _ => m' = m
/-- A spectrum request (not a calibration). -/
def isRequest : Op κ → Prop
  | request .. => True
  | _ => False
end Op

variable (spline : κ → List (ℝ × ℝ) → ℝ → ℝ)

/-- The effect of a call on the current grid and the attributes. -/
noncomputable def step (x : Grid × Caches) : Op κ → Grid × Caches
  | .calibrate m o kw g => (g, derive spline m kw o g x.2)
  | .recalibrate g => (g, x.2)
  | .request pick m o kw k => (x.1, (evalP spline pick m o kw k x.1 x.2).1)

/-- The effect of a history. -/
noncomputable def run (x : Grid × Caches) (h : List (Op κ)) : Grid × Caches := h.foldl (step spline) x

/-- What a request returns. -/
noncomputable def answer (x : Grid × Caches) (pick : Spectrum → ℝ → ℝ) (m : String) (o : ℕ) (kw : κ) (k : ℝ) :
    Except PyErr ℝ := (evalP spline pick m o kw k x.1 x.2).2

/-- The value of a spectrum. -/
noncomputable def valueOf (S : Spectrum) (pick : Spectrum → ℝ → ℝ) (k : ℝ) : ℝ := exp (pick S (log k))

/-! ### The caches along a history -/

theorem run_append (x : Grid × Caches) (h1 h2 : List (Op κ)) :
    run spline x (h1 ++ h2) = run spline (run spline x h1) h2 := List.foldl_append ..

theorem run_cons (x : Grid × Caches) (a : Op κ) (h : List (Op κ)) :
    run spline x (a :: h) = run spline (step spline x a) h := rfl

theorem run_requests_grid (h : List (Op κ)) (hr : ∀ a ∈ h, a.isRequest) (x : Grid × Caches) :
    (run spline x h).1 = x.1 := by
  induction h generalizing x with
  | nil => rfl
  | cons a h ih =>
    rw [run_cons, ih (fun b hb => hr b (List.mem_cons_of_mem _ hb))]
    have := hr a (List.mem_cons_self ..)
    cases a with
    | request => rfl
    | calibrate => exact this.elim
    | recalibrate => exact this.elim

theorem step_cgs (x : Grid × Caches) (a : Op κ) (ha : ¬ a.derives "CGS") : (step spline x a).2.cgs = x.2.cgs := by
  cases a with
  | calibrate m o kw g =>
    have hm : m ≠ "CGS" := ha
    simp only [step, derive, if_neg hm]
    split_ifs <;> rfl
  | recalibrate g => rfl
  | request pick m o kw k =>
    simp only [step, evalP]
    split_ifs <;> first | rfl | (dsimp only; split_ifs <;> rfl)

theorem run_cgs (h : List (Op κ)) (hh : ∀ a ∈ h, ¬ a.derives "CGS") (x : Grid × Caches) :
    (run spline x h).2.cgs = x.2.cgs := by
  induction h generalizing x with
  | nil => rfl
  | cons a h ih =>
    rw [run_cons, ih (fun b hb => hh b (List.mem_cons_of_mem _ hb)),
      step_cgs spline x a (hh a (List.mem_cons_self ..))]

/-- Once the LLMS spectrum exists, only a calibration with that method replaces it. -/
theorem step_llms (x : Grid × Caches) (a : Op κ) (ha : ¬ a.derives "LLMS") {S : Spectrum}
    (hS : x.2.llms = some S) : (step spline x a).2.llms = some S := by
  cases a with
  | calibrate m o kw g =>
    have hm : m ≠ "LLMS" := ha
    simp only [step, derive, if_neg hm]
    split_ifs <;> exact hS
  | recalibrate g => exact hS
  | request pick m o kw k =>
    simp only [step, evalP]
    split_ifs <;> first | exact hS | (dsimp only; split_ifs <;> exact hS) | simp_all

theorem step_ste (x : Grid × Caches) (a : Op κ) (ha : ¬ a.derives "STE") {S : Spectrum}
    (hS : x.2.ste = some S) : (step spline x a).2.ste = some S := by
  cases a with
  | calibrate m o kw g =>
    have hm : m ≠ "STE" := ha
    simp only [step, derive, if_neg hm]
    split_ifs <;> exact hS
  | recalibrate g => exact hS
  | request pick m o kw k =>
    simp only [step, evalP]
    split_ifs <;> first | exact hS | (dsimp only; split_ifs <;> exact hS) | simp_all

theorem run_llms (h : List (Op κ)) (hh : ∀ a ∈ h, ¬ a.derives "LLMS") (x : Grid × Caches) {S : Spectrum}
    (hS : x.2.llms = some S) : (run spline x h).2.llms = some S := by
  induction h generalizing x with
  | nil => exact hS
  | cons a h ih =>
    rw [run_cons]
    exact ih (fun b hb => hh b (List.mem_cons_of_mem _ hb)) _
      (step_llms spline x a (hh a (List.mem_cons_self ..)) hS)

theorem run_ste (h : List (Op κ)) (hh : ∀ a ∈ h, ¬ a.derives "STE") (x : Grid × Caches) {S : Spectrum}
    (hS : x.2.ste = some S) : (run spline x h).2.ste = some S := by
  induction h generalizing x with
  | nil => exact hS
  | cons a h ih =>
    rw [run_cons]
    exact ih (fun b hb => hh b (List.mem_cons_of_mem _ hb)) _
      (step_ste spline x a (hh a (List.mem_cons_self ..)) hS)

theorem run_llms_none (h : List (Op κ)) (hh : ∀ a ∈ h, ¬ a.mentions "LLMS") (x : Grid × Caches)
    (hS : x.2.llms = none) : (run spline x h).2.llms = none := by
  induction h generalizing x with
  | nil => exact hS
  | cons a h ih =>
    rw [run_cons]
    refine ih (fun b hb => hh b (List.mem_cons_of_mem _ hb)) _ ?_
    have ha := hh a (List.mem_cons_self ..)
    cases a with
    | calibrate m o kw g =>
      have hm : m ≠ "LLMS" := ha
      simp only [step, derive, if_neg hm]
      split_ifs <;> exact hS
    | recalibrate g => exact hS
    | request pick m o kw k =>
      have hm : m ≠ "LLMS" := ha
      simp only [step, evalP, if_neg hm]
      split_ifs <;> first | exact hS | (dsimp only; split_ifs <;> exact hS)

theorem run_ste_none (h : List (Op κ)) (hh : ∀ a ∈ h, ¬ a.mentions "STE") (x : Grid × Caches)
    (hS : x.2.ste = none) : (run spline x h).2.ste = none := by
  induction h generalizing x with
  | nil => exact hS
  | cons a h ih =>
    rw [run_cons]
    refine ih (fun b hb => hh b (List.mem_cons_of_mem _ hb)) _ ?_
    have ha := hh a (List.mem_cons_self ..)
    cases a with
    | calibrate m o kw g =>
      have hm : m ≠ "STE" := ha
      simp only [step, derive, if_neg hm]
      split_ifs <;> exact hS
    | recalibrate g => exact hS
    | request pick m o kw k =>
      have hm : m ≠ "STE" := ha
      simp only [step, evalP, if_neg hm]
      split_ifs <;> first | exact hS | (dsimp only; split_ifs <;> exact hS)

/-! ### What is returned -/

/-- **C40, CGS.**  A request for `CGS` at order `n ≤ 3` is answered by the last calibration that used method
`CGS` (any order), whatever happened since. -/
theorem C40_CGS (x : Grid × Caches) (h1 h2 : List (Op κ)) (o n : ℕ) (kw kw' : κ) (g : Grid)
    (h2c : ∀ a ∈ h2, ¬ a.derives "CGS") (hn : n ≤ 3) (pick : Spectrum → ℝ → ℝ) (k : ℝ) :
    answer spline (run spline x (h1 ++ .calibrate "CGS" o kw g :: h2)) pick "CGS" n kw' k =
      .ok (valueOf (specCGS spline kw n g) pick k) := by
  have h : (run spline x (h1 ++ .calibrate "CGS" o kw g :: h2)).2.cgs n = some (specCGS spline kw n g) := by
    rw [run_append, run_cons, run_cgs spline h2 h2c]
    simp [step, derive, deriveCGS, hn]
  simp only [answer, evalP, if_pos hn, if_true, h, evalAttr, valueOf]

/-- Without a `CGS` calibration in the history, a `CGS` request raises `AttributeError`. -/
theorem C40_CGS_missing (g0 : Grid) (h : List (Op κ)) (hc : ∀ a ∈ h, ¬ a.derives "CGS") (n : ℕ) (hn : n ≤ 3)
    (kw : κ) (pick : Spectrum → ℝ → ℝ) (k : ℝ) :
    answer spline (run spline (g0, Caches.empty) h) pick "CGS" n kw k = .error (.attributeError "P_approx_CGS") := by
  have : (run spline (g0, Caches.empty) h).2.cgs n = none := by rw [run_cgs spline h hc]; rfl
  simp only [answer, evalP, if_pos hn, if_true, this, evalAttr]

/-- **C40, ARBDS.**  A request for `ARBDS` (orders 1, 2, 3) is always answered for the current calibration,
with the keyword arguments of the request itself. -/
theorem C40_ARBDS (x : Grid × Caches) (h : List (Op κ)) (n : ℕ) (h1 : 1 ≤ n) (hn : n ≤ 3) (kw : κ)
    (pick : Spectrum → ℝ → ℝ) (k : ℝ) :
    answer spline (run spline x h) pick "ARBDS" n kw k =
      .ok (valueOf (specARBDS spline kw n (run spline x h).1) pick k) := by
  simp [answer, evalP, deriveARBDS, h1, hn, evalAttr, valueOf]

/-- **C40, LLMS and STE, calibrated.**  After a calibration with method `LLMS` (`STE`), requests for that
method are answered by it until the next such calibration. -/
theorem C40_LLMS_STE_calibrated (x : Grid × Caches) (h1 h2 : List (Op κ)) (o n : ℕ) (kw kw' : κ) (g : Grid)
    (pick : Spectrum → ℝ → ℝ) (k : ℝ) :
    ((∀ a ∈ h2, ¬ a.derives "LLMS") →
      answer spline (run spline x (h1 ++ .calibrate "LLMS" o kw g :: h2)) pick "LLMS" n kw' k =
        .ok (valueOf (specLLMS spline kw g) pick k)) ∧
    ((∀ a ∈ h2, ¬ a.derives "STE") →
      answer spline (run spline x (h1 ++ .calibrate "STE" o kw g :: h2)) pick "STE" n kw' k =
        .ok (valueOf (specSTE spline kw g) pick k)) := by
  constructor
  · intro h2c
    have h : (run spline x (h1 ++ .calibrate "LLMS" o kw g :: h2)).2.llms = some (specLLMS spline kw g) := by
      rw [run_append, run_cons]
      exact run_llms spline h2 h2c _ (by simp [step, derive, deriveLLMS])
    simp [answer, evalP, h, evalAttr, valueOf]
  · intro h2c
    have h : (run spline x (h1 ++ .calibrate "STE" o kw g :: h2)).2.ste = some (specSTE spline kw g) := by
      rw [run_append, run_cons]
      exact run_ste spline h2 h2c _ (by simp [step, derive, deriveSTE])
    simp [answer, evalP, h, evalAttr, valueOf]

/-- **C40, LLMS and STE, requested.**  The first request for `LLMS` (`STE`) fixes the answer of all later ones,
for the grid and the keyword arguments of that first request: later calibrations (with other methods), copied
backgrounds and other keyword arguments change nothing. -/
theorem C40_LLMS_STE_requested (g0 : Grid) (h1 h2 : List (Op κ)) (o n : ℕ) (kw kw' : κ) (pick pick' : Spectrum → ℝ → ℝ)
    (k k' : ℝ) :
    ((∀ a ∈ h1, ¬ a.mentions "LLMS") → (∀ a ∈ h2, ¬ a.derives "LLMS") →
      answer spline (run spline (g0, Caches.empty) (h1 ++ .request pick "LLMS" o kw k :: h2)) pick' "LLMS" n kw' k' =
        .ok (valueOf (specLLMS spline kw (run spline (g0, Caches.empty) h1).1) pick' k')) ∧
    ((∀ a ∈ h1, ¬ a.mentions "STE") → (∀ a ∈ h2, ¬ a.derives "STE") →
      answer spline (run spline (g0, Caches.empty) (h1 ++ .request pick "STE" o kw k :: h2)) pick' "STE" n kw' k' =
        .ok (valueOf (specSTE spline kw (run spline (g0, Caches.empty) h1).1) pick' k')) := by
  constructor
  · intro h1c h2c
    have h0 := run_llms_none spline h1 h1c (g0, Caches.empty) rfl
    have h : (run spline (g0, Caches.empty) (h1 ++ .request pick "LLMS" o kw k :: h2)).2.llms =
        some (specLLMS spline kw (run spline (g0, Caches.empty) h1).1) := by
      rw [run_append, run_cons]
      exact run_llms spline h2 h2c _ (by simp [step, evalP, h0, deriveLLMS])
    simp [answer, evalP, h, evalAttr, valueOf]
  · intro h1c h2c
    have h0 := run_ste_none spline h1 h1c (g0, Caches.empty) rfl
    have h : (run spline (g0, Caches.empty) (h1 ++ .request pick "STE" o kw k :: h2)).2.ste =
        some (specSTE spline kw (run spline (g0, Caches.empty) h1).1) := by
      rw [run_append, run_cons]
      exact run_ste spline h2 h2c _ (by simp [step, evalP, h0, deriveSTE])
    simp [answer, evalP, h, evalAttr, valueOf]

/-- The first request itself is answered for the current calibration. -/
theorem C40_first_request (g0 : Grid) (h : List (Op κ)) (n : ℕ) (kw : κ) (pick : Spectrum → ℝ → ℝ) (k : ℝ) :
    ((∀ a ∈ h, ¬ a.mentions "LLMS") → answer spline (run spline (g0, Caches.empty) h) pick "LLMS" n kw k =
      .ok (valueOf (specLLMS spline kw (run spline (g0, Caches.empty) h).1) pick k)) ∧
    ((∀ a ∈ h, ¬ a.mentions "STE") → answer spline (run spline (g0, Caches.empty) h) pick "STE" n kw k =
      .ok (valueOf (specSTE spline kw (run spline (g0, Caches.empty) h).1) pick k)) := by
  constructor
  · intro hc
    have h0 := run_llms_none spline h hc (g0, Caches.empty) rfl
    simp [answer, evalP, h0, deriveLLMS, evalAttr, valueOf]
  · intro hc
    have h0 := run_ste_none spline h hc (g0, Caches.empty) rfl
    simp [answer, evalP, h0, deriveSTE, evalAttr, valueOf]

/-! ### The claim -/

/-- The spectrum a request names, for given data; `none` for an unknown method or order. -/
noncomputable def named (m : String) (n : ℕ) (kw : κ) (g : Grid) : Option Spectrum :=
  if m = "CGS" then if n ≤ 3 then some (specCGS spline kw n g) else none
  else if m = "LLMS" then some (specLLMS spline kw g)
  else if m = "STE" then some (specSTE spline kw g)
  else if m = "ARBDS" then if 1 ≤ n ∧ n ≤ 3 then some (specARBDS spline kw n g) else none
  else none

/-- A request is up to date: it is answered with the named spectrum of the current calibration, fitted with some
keyword arguments. -/
def UpToDate (x : Grid × Caches) (pick : Spectrum → ℝ → ℝ) (m : String) (n : ℕ) (kw : κ) (k : ℝ) : Prop :=
  ∃ kw' S, named spline m n kw' x.1 = some S ∧ answer spline x pick m n kw k = .ok (valueOf S pick k)

/-- **C40, the part that holds.**  Requests after a calibration are up to date for `ARBDS`; for the method that
calibration used; and for `LLMS` and `STE` if those were neither requested nor derived before the calibration.
Missing: the other cases, which are false (`C40_stale`). -/
theorem C40_up_to_date_partial (g0 : Grid) (h1 h2 : List (Op κ)) (m : String) (o : ℕ) (kw : κ) (g : Grid)
    (h2r : ∀ a ∈ h2, a.isRequest) (pick : Spectrum → ℝ → ℝ) (m' : String) (n : ℕ) (kw' : κ) (k : ℝ)
    (hm : (m' = "ARBDS" ∧ 1 ≤ n ∧ n ≤ 3) ∨ (m' = "CGS" ∧ n ≤ 3 ∧ m = "CGS") ∨
      ((m' = "LLMS" ∨ m' = "STE") ∧ (m = m' ∨ ∀ a ∈ h1, ¬ a.mentions m'))) :
    UpToDate spline (run spline (g0, Caches.empty) (h1 ++ .calibrate m o kw g :: h2)) pick m' n kw' k ∧
    (run spline (g0, Caches.empty) (h1 ++ .calibrate m o kw g :: h2)).1 = g := by
  have hnd : ∀ m0, ∀ a ∈ h2, ¬ a.derives m0 := by
    intro m0 a ha
    have := h2r a ha
    cases a with
    | request => exact id
    | calibrate => exact this.elim
    | recalibrate => exact this.elim
  have hg : (run spline (g0, Caches.empty) (h1 ++ .calibrate m o kw g :: h2)).1 = g := by
    rw [run_append, run_cons, run_requests_grid spline h2 h2r]; rfl
  refine ⟨?_, hg⟩
  unfold UpToDate
  rcases hm with ⟨rfl, hn1, hn3⟩ | ⟨rfl, hn3, rfl⟩ | ⟨hm', hm⟩
  · refine ⟨kw', specARBDS spline kw' n g, by simp [named, hn1, hn3, hg], ?_⟩
    rw [C40_ARBDS spline _ _ n hn1 hn3, hg]
  · exact ⟨kw, specCGS spline kw n g, by simp [named, hn3, hg], C40_CGS spline _ h1 h2 o n kw kw' g (hnd _) hn3 pick k⟩
  · -- split the requests after the calibration at the first one that names the method
    rcases hm with rfl | hm
    · rcases hm' with rfl | rfl
      · exact ⟨kw, specLLMS spline kw g, by simp [named, hg],
          (C40_LLMS_STE_calibrated spline _ h1 h2 o n kw kw' g pick k).1 (hnd _)⟩
      · exact ⟨kw, specSTE spline kw g, by simp [named, hg],
          (C40_LLMS_STE_calibrated spline _ h1 h2 o n kw kw' g pick k).2 (hnd _)⟩
    · by_cases hmm : m = m'
      · subst hmm
        rcases hm' with rfl | rfl
        · exact ⟨kw, specLLMS spline kw g, by simp [named, hg],
            (C40_LLMS_STE_calibrated spline _ h1 h2 o n kw kw' g pick k).1 (hnd _)⟩
        · exact ⟨kw, specSTE spline kw g, by simp [named, hg],
            (C40_LLMS_STE_calibrated spline _ h1 h2 o n kw kw' g pick k).2 (hnd _)⟩
      · by_cases hq : ∀ a ∈ h2, ¬ a.mentions m'
        · have hall : ∀ a ∈ h1 ++ Op.calibrate m o kw g :: h2, ¬ a.mentions m' := by
            intro a ha
            rcases List.mem_append.1 ha with h | h
            · exact hm a h
            · rcases List.mem_cons.1 h with rfl | h
              · exact hmm
              · exact hq a h
          rcases hm' with rfl | rfl
          · exact ⟨kw', specLLMS spline kw' g, by simp [named, hg],
              by rw [(C40_first_request spline g0 _ n kw' pick k).1 hall, hg]⟩
          · exact ⟨kw', specSTE spline kw' g, by simp [named, hg],
              by rw [(C40_first_request spline g0 _ n kw' pick k).2 hall, hg]⟩
        · obtain ⟨p1, a, p2, hsplit, hp1, hpa⟩ : ∃ p1 a p2, h2 = p1 ++ a :: p2 ∧ (∀ b ∈ p1, ¬ b.mentions m') ∧
              a.mentions m' := by
            clear hnd hg hm hm' h2r
            induction h2 with
            | nil => exact absurd (by simp) hq
            | cons b t ih =>
              by_cases hb : b.mentions m'
              · exact ⟨[], b, t, rfl, by simp, hb⟩
              · obtain ⟨p1, a, p2, e, h1', h2'⟩ := ih (by
                  intro hall
                  apply hq
                  intro c hc
                  rcases List.mem_cons.1 hc with rfl | hc
                  · exact hb
                  · exact hall c hc)
                refine ⟨b :: p1, a, p2, by rw [e]; rfl, ?_, h2'⟩
                intro c hc
                rcases List.mem_cons.1 hc with rfl | hc
                · exact hb
                · exact h1' c hc
          subst hsplit
          have har := h2r a (by simp)
          cases a with
          | calibrate => exact har.elim
          | recalibrate => exact har.elim
          | request pick0 m0 o0 kw0 k0 =>
            have hm0 : m0 = m' := hpa
            subst hm0
            have hpre : ∀ a ∈ h1 ++ Op.calibrate m o kw g :: p1, ¬ a.mentions m0 := by
              intro a ha
              rcases List.mem_append.1 ha with h | h
              · exact hm a h
              · rcases List.mem_cons.1 h with rfl | h
                · exact hmm
                · exact hp1 a h
            have hpost : ∀ m1, ∀ a ∈ p2, ¬ a.derives m1 := fun m1 a ha => hnd m1 a (by simp [ha])
            have hgp : (run spline (g0, Caches.empty) (h1 ++ .calibrate m o kw g :: p1)).1 = g := by
              rw [run_append, run_cons, run_requests_grid spline p1 (fun a ha => h2r a (by simp [ha]))]; rfl
            have hre : h1 ++ Op.calibrate m o kw g :: (p1 ++ Op.request pick0 m0 o0 kw0 k0 :: p2) =
                (h1 ++ Op.calibrate m o kw g :: p1) ++ Op.request pick0 m0 o0 kw0 k0 :: p2 := by simp
            rcases hm' with rfl | rfl
            · refine ⟨kw0, specLLMS spline kw0 g, by simp [named, hg], ?_⟩
              rw [hre, (C40_LLMS_STE_requested spline g0 _ p2 o0 n kw0 kw' pick0 pick k0 k).1 hpre (hpost _), hgp]
            · refine ⟨kw0, specSTE spline kw0 g, by simp [named, hg], ?_⟩
              rw [hre, (C40_LLMS_STE_requested spline g0 _ p2 o0 n kw0 kw' pick0 pick k0 k).2 hpre (hpost _), hgp]

/-- An unknown method or order is not rejected: the answer is the spectrum derived last, if any. -/
theorem C40_unknown (x : Grid × Caches) (pick : Spectrum → ℝ → ℝ) (m : String) (n : ℕ) (kw : κ) (k : ℝ)
    (hm : ∀ kw' g, named spline m n kw' g = none) :
    answer spline x pick m n kw k = evalAttr "logk2logP" pick k x.2.current := by
  have h := hm kw x.1
  unfold named at h
  unfold answer evalP
  split_ifs at h with h1 h2 h3 h4 h5 h6
  · rw [if_pos h1, if_neg h2]
  · rw [if_neg h1, if_neg h3, if_neg h4, if_pos h5, if_neg h6]
    simp [deriveARBDS, h6]
  · rw [if_neg h1, if_neg h3, if_neg h4, if_neg h5]

/-! ### It is false in general -/

/-- The contract of an interpolating spline: it passes through its data points. -/
def Interpolates (spline : κ → List (ℝ × ℝ) → ℝ → ℝ) : Prop :=
  ∀ kw l x y, (x, y) ∈ l → (l.map Prod.fst).Nodup → spline kw l x = y

theorem derive_method_ne (m m' : String) (h : m ≠ m') (o : ℕ) (kw : κ) (g : Grid) :
    ¬ (Op.calibrate m o kw g).derives m' := h

theorem fit_s_node (hs : Interpolates spline) (kw : κ) (tab : List (ℝ × ℝ × ℝ)) (x y z : ℝ) (hm : (x, y, z) ∈ tab)
    (hn : (tab.map Prod.fst).Nodup) : (fit spline kw tab).s x = y := by
  refine hs kw _ x y (List.mem_map.2 ⟨_, hm, rfl⟩) ?_
  simpa [List.map_map, Function.comp_def] using hn

/-- The LLMS scalar spectrum at the pivot scale when that is a grid point. -/
theorem llms_at_pivot (hs : Interpolates spline) (kw : κ) (g : Grid) (p : SRPoint)
    (hp : (log SI.K_STAR, p) ∈ g.pts) (hn : (g.pts.map Prod.fst).Nodup) :
    (specLLMS spline kw g).s (log SI.K_STAR) = log (Ps0 g.star) + bs0 g.star := by
  unfold specLLMS
  refine fit_s_node spline hs kw _ _ _ (llmsT g.star (log SI.K_STAR - log SI.K_STAR)) ?_ ?_
  · refine List.mem_map.2 ⟨_, hp, ?_⟩
    simp [llmsS]
  · simpa [List.map_map, Function.comp_def] using hn

/-- The demonstration solution calibrated with `N_star = 1` or `N_star = 2`. -/
theorem demoFlat_grid (u : SI) (x : ℝ) (h1 : 1 ≤ x) (h2 : x ≤ 2) : ∃ s c I,
    Cal.calibrate u demoFlat { method := "N_star", N_star := some x } = .ok s ∧ s.cal = some c ∧ s.infl = some I ∧
    c.N_cross_ = 3 - x ∧ c.logk = [1 + log SI.K_STAR - (3 - x), 2 + log SI.K_STAR - (3 - x)] ∧
    I.mask = [false, true, true, false] := by
  have hi := demoFlat_interp (3 - x) (by linarith) (by linarith)
  have hsel : ∃ δ nr I st, Cal.flatSel u demoFlat { method := "N_star", N_star := some x } =
      .ok (x, 3 - x, 3 - x, δ, nr, I, st) ∧ I.mask = [false, true, true, false] := by
    unfold Cal.flatSel Cal.flatNstar
    dsimp only
    rw [if_pos rfl, if_neg (by linarith)]
    simp only [demoFlat] at hi ⊢
    rw [if_neg (by linarith), hi]
    exact ⟨_, _, _, _, rfl, rfl⟩
  obtain ⟨δ, nr, I, st, hsel, hI⟩ := hsel
  have hm : andMask [false, true, true, false] (firstOccurrence (demoFlat.logaH.map fun l => l + log SI.K_STAR - (3 - x))) =
      [false, true, true, false] := by
    rw [flat_mask]
    refine andMask_firstOccurrence rfl ?_
    intro i hi j hj
    rcases i with _ | _ | _ | _ | i <;> rcases j with _ | _ | _ | j <;>
      simp_all [demoFlat] <;> omega
  refine ⟨_, _, _, Cal.calibrate_flat_intro rfl rfl hsel, rfl, rfl, rfl, ?_, ?_⟩
  · simp only [Cal.flatPart, hI]
    rw [hm]
    simp [demoFlat, maskSel]
  · simp only [Cal.flatPart, hI]
    exact hm

/-- **C40 is false in general.**  Calibrate with `N_star = 1`, ask for the LLMS spectrum, re-calibrate with
`N_star = 2`: whatever (interpolating) spline is used, the second request at the pivot scale is answered with the
amplitude of the first calibration. -/
theorem C40_stale (hs : Interpolates spline) (u : SI) (kw : κ) : ∃ (sr : SlowRoll) (s0 s1 s2 : CalState) (g1 g2 : Grid),
    Cal.calibrate u s0 { method := "N_star", N_star := some 1 } = .ok s1 ∧ gridOf sr s1 = some g1 ∧
    Cal.calibrate u s1 { method := "N_star", N_star := some 2 } = .ok s2 ∧ gridOf sr s2 = some g2 ∧
    ¬ UpToDate spline (run spline (g1, Caches.empty) [.calibrate "CGS" 3 kw g1,
        .request Spectrum.s "LLMS" 3 kw SI.K_STAR, .calibrate "CGS" 3 kw g2]) Spectrum.s "LLMS" 3 kw SI.K_STAR := by
  obtain ⟨s1, c1, I1, e1, hc1, hI1, hx1, hl1, hm1⟩ := demoFlat_grid u 1 le_rfl (by norm_num)
  obtain ⟨t2, c2, I2, e2, hc2, hI2, hx2, hl2, hm2⟩ := demoFlat_grid u 2 (by norm_num) le_rfl
  have hist : CalHistory u demoFlat s1 := .returned _ .fresh (by intro b I hb; cases hb) e1
  have hgrid : demoFlat.K = 0 → ∀ I, demoFlat.infl = some I → I.mask.length = demoFlat.logaH.length ∧
      ∀ i : ℕ, I.mask[i]? = some true → ∀ j < i, demoFlat.logaH[j]? ≠ demoFlat.logaH[i]? := by
    intro _ I hI
    simp only [demoFlat, Option.some.injEq] at hI
    subst hI
    refine ⟨rfl, ?_⟩
    intro i hi j hj
    rcases i with _ | _ | _ | _ | i <;> rcases j with _ | _ | _ | j <;>
      simp_all [demoFlat] <;> omega
  obtain ⟨-, hex, hsame⟩ := C39_history_partial u demoFlat s1 { method := "N_star", N_star := some 2 } hist hgrid
  obtain ⟨s2, e2'⟩ := hex.2 ⟨t2, e2⟩
  obtain ⟨k1, k2, -⟩ := hsame s2 t2 e2' e2
  obtain ⟨sr, hsr⟩ : ∃ sr : SlowRoll, sr = ⟨[⟨1, 1, 0, 0, 0, 0, 0, 0, 0⟩, ⟨1, 1, 0, 0, 0, 0, 0, 0, 0⟩,
    ⟨1, 1, 0, 0, 0, 0, 0, 0, 0⟩, ⟨1, 1, 0, 0, 0, 0, 0, 0, 0⟩], fun _ n => ⟨exp n, 1, 0, 0, 0, 0, 0, 0, 0⟩⟩ := ⟨_, rfl⟩
  obtain ⟨g1, hg1⟩ : ∃ g, gridOf sr s1 = some g := by unfold gridOf; rw [hI1, hc1]; exact ⟨_, rfl⟩
  obtain ⟨g2, hg2⟩ : ∃ g, gridOf sr s2 = some g := by
    unfold gridOf; rw [k2, k1, hI2, hc2]; exact ⟨_, rfl⟩
  refine ⟨sr, demoFlat, s1, s2, g1, g2, e1, hg1, e2', hg2, ?_⟩
  have v1 : ∀ kw', (specLLMS spline kw' g1).s (log SI.K_STAR) = log (Ps0 ⟨exp 2, 1, 0, 0, 0, 0, 0, 0, 0⟩)
      + bs0 ⟨exp 2, 1, 0, 0, 0, 0, 0, 0, 0⟩ := by
    intro kw'
    unfold gridOf at hg1
    rw [hI1, hc1] at hg1
    dsimp only at hg1
    rw [hm1, hl1, hx1, hsr] at hg1
    simp only [Option.some.injEq] at hg1
    subst hg1
    rw [llms_at_pivot spline hs kw' _ ⟨1, 1, 0, 0, 0, 0, 0, 0, 0⟩ (by simp [maskSel]; norm_num) (by simp [maskSel])]
    norm_num
  have v2 : ∀ kw', (specLLMS spline kw' g2).s (log SI.K_STAR) = log (Ps0 ⟨exp 1, 1, 0, 0, 0, 0, 0, 0, 0⟩)
      + bs0 ⟨exp 1, 1, 0, 0, 0, 0, 0, 0, 0⟩ := by
    intro kw'
    unfold gridOf at hg2
    rw [k2, k1, hI2, hc2] at hg2
    dsimp only at hg2
    rw [hm2, hl2, hx2, hsr] at hg2
    simp only [Option.some.injEq] at hg2
    subst hg2
    rw [llms_at_pivot spline hs kw' _ ⟨1, 1, 0, 0, 0, 0, 0, 0, 0⟩ (by simp [maskSel]; norm_num) (by simp [maskSel])]
    norm_num
  rintro ⟨kw', S, hS, ha⟩
  have hgr : (run spline (g1, Caches.empty) [.calibrate "CGS" 3 kw g1,
        .request Spectrum.s "LLMS" 3 kw SI.K_STAR, .calibrate "CGS" 3 kw g2]).1 = g2 := rfl
  have hold := (C40_LLMS_STE_requested spline g1 [.calibrate "CGS" 3 kw g1] [.calibrate "CGS" 3 kw g2] 3 3 kw kw
    Spectrum.s Spectrum.s SI.K_STAR SI.K_STAR).1 (by simp [Op.mentions]) (by simp [Op.derives])
  simp only [List.singleton_append] at hold
  rw [hold, Except.ok.injEq] at ha
  rw [hgr] at hS
  simp only [named, if_true, String.reduceEq, if_false, Option.some.injEq] at hS
  subst hS
  unfold valueOf at ha
  have hg1' : (run spline (g1, Caches.empty) [.calibrate "CGS" 3 kw g1]).1 = g1 := rfl
  rw [hg1'] at ha
  have ha := exp_injective ha
  rw [v1, v2] at ha
  have hb : bs0 ⟨exp 2, 1, 0, 0, 0, 0, 0, 0, 0⟩ = bs0 ⟨exp 1, 1, 0, 0, 0, 0, 0, 0, 0⟩ := rfl
  rw [hb] at ha
  have hl : log (Ps0 ⟨exp 2, 1, 0, 0, 0, 0, 0, 0, 0⟩) = log (Ps0 ⟨exp 1, 1, 0, 0, 0, 0, 0, 0, 0⟩) := by linarith
  have hlt : Ps0 ⟨exp 1, 1, 0, 0, 0, 0, 0, 0, 0⟩ < Ps0 ⟨exp 2, 1, 0, 0, 0, 0, 0, 0, 0⟩ := by
    unfold Ps0
    dsimp only
    refine div_lt_div_of_pos_right ?_ (by positivity)
    have : exp 1 < exp 2 := exp_lt_exp.2 (by norm_num)
    exact pow_lt_pow_left₀ this (exp_pos _).le (by norm_num)
  have hpos : 0 < Ps0 ⟨exp 1, 1, 0, 0, 0, 0, 0, 0, 0⟩ := by unfold Ps0; dsimp only; positivity
  exact absurd hl (ne_of_gt (log_lt_log hpos hlt))

/-- **History-dependent fallback.**  A request with an unknown method after a CGS calibration returns the CGS
spectrum of the calibrated order, or, if `ARBDS` was requested in between, the ARBDS one. -/
theorem C40_unknown_history (x : Grid × Caches) (o : ℕ) (ho : o ≤ 3) (kw : κ) (g : Grid) (pick : Spectrum → ℝ → ℝ)
    (m : String) (hm : m ≠ "CGS" ∧ m ≠ "LLMS" ∧ m ≠ "STE" ∧ m ≠ "ARBDS") (n : ℕ) (k k' : ℝ) :
    answer spline (run spline x [.calibrate "CGS" o kw g]) pick m n kw k = .ok (valueOf (specCGS spline kw o g) pick k) ∧
    answer spline (run spline x [.calibrate "CGS" o kw g, .request pick "ARBDS" 3 kw k']) pick m n kw k =
      .ok (valueOf (specARBDS spline kw 3 g) pick k) := by
  have hu : ∀ kw' g', named spline m n kw' g' = none := by
    intro kw' g'
    simp [named, hm.1, hm.2.1, hm.2.2.1, hm.2.2.2]
  constructor
  · rw [C40_unknown spline _ pick m n kw k hu]
    simp [run, step, derive, deriveCGS, ho, evalAttr, valueOf]
  · rw [C40_unknown spline _ pick m n kw k hu]
    simp [run, step, derive, evalP, deriveARBDS, evalAttr, valueOf]

open Classical in
/-- An interpolating spline exists: look the abscissa up in the table. -/
theorem interpolates_lookup : Interpolates (fun (_ : κ) (l : List (ℝ × ℝ)) x =>
    (((l.find? fun q => decide (q.1 = x)).map Prod.snd).getD 0)) := by
  intro kw l x y hm hn
  dsimp only
  induction l with
  | nil => cases hm
  | cons q l ih =>
    by_cases hq : q.1 = x
    · rw [List.find?_cons_of_pos (by simpa using hq)]
      rcases List.mem_cons.1 hm with h | h
      · rw [← h]; rfl
      · exact absurd (List.mem_map.2 ⟨_, h, hq.symm⟩) (List.nodup_cons.1 hn).1
    · rw [List.find?_cons_of_neg (by simpa using hq)]
      rcases List.mem_cons.1 hm with h | h
      · exact absurd (by rw [← h]) hq
      · exact ih h (List.nodup_cons.1 hn).2

/-- Hypotheses met: three methods requested, with and without an LLMS calibration. -/
example (g : Grid) : ∃ h1 h2 : List (Op Unit), h1 ≠ [] ∧ h2 ≠ [] ∧ (∀ a ∈ h2, a.isRequest) ∧
    (∀ a ∈ h1, ¬ a.mentions "LLMS") :=
  ⟨[.calibrate "CGS" 3 () g, .recalibrate g], [.request Spectrum.t "ARBDS" 2 () 1], by simp, by simp,
    by simp [Op.isRequest], by simp [Op.mentions]⟩

end Approx
end Primpy
