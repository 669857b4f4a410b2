/-! ## The functions of the Hubble-flow parameters -/

noncomputable section

/-- `x = 1/(3 - ε₁)` -/
def X (ε : Eps) : ℝ := (3 - ε 0)⁻¹
def Sg (ε : Eps) : ℝ := ε 1 * X ε / 2
def S (ε : Eps) : ℝ := s (ε 1) (X ε)
def dS (ε : Eps) : ℝ := ds (ε 0) (ε 1) (ε 2) (X ε)
def d2S (ε : Eps) : ℝ := d2s (ε 0) (ε 1) (ε 2) (ε 3) (X ε)
def V (ε : Eps) : ℝ := ε 0 * ε 1 * X ε
def U0 (ε : Eps) : ℝ := u0 (ε 0) (ε 1) (ε 2) (X ε)
def U1 (ε : Eps) : ℝ := u1 (ε 0) (ε 1) (ε 2) (ε 3) (X ε)
def U2 (ε : Eps) : ℝ := u2 (ε 0) (ε 1) (ε 2) (ε 3) (ε 4) (X ε)
def U3 (ε : Eps) : ℝ := u3 (ε 0) (ε 1) (ε 2) (ε 3) (ε 4) (ε 5) (X ε)
def W (ε : Eps) : ℝ := w (ε 0) (ε 1) (ε 2) (X ε)
/-- `y = 1/w` -/
def Y (ε : Eps) : ℝ := (W ε)⁻¹
def Kf (ε : Eps) : ℝ := k (ε 0) (ε 1) (ε 2) (ε 3) (X ε) (Y ε)
def dKf (ε : Eps) : ℝ := dk (ε 0) (ε 1) (ε 2) (ε 3) (ε 4) (X ε) (Y ε)
/-- `ε₁V, ε₂V, ε₂V ε₃V, ε₃V, ε₃V ε₄V, ε₃V ε₄V (ε₄V + ε₅V)` -/
def F1 (ε : Eps) : ℝ := E1 (ε 0) (ε 1) (X ε)
@[inherit_doc F1] def F2 (ε : Eps) : ℝ := E2 (ε 0) (ε 1) (ε 2) (X ε)
@[inherit_doc F1] def F23 (ε : Eps) : ℝ := E23 (ε 0) (ε 1) (ε 2) (ε 3) (X ε)
@[inherit_doc F1] def F3 (ε : Eps) : ℝ := E3 (ε 0) (ε 1) (ε 2) (ε 3) (X ε) (Y ε)
@[inherit_doc F1] def F34 (ε : Eps) : ℝ := E34 (ε 0) (ε 1) (ε 2) (ε 3) (ε 4) (X ε) (Y ε)
@[inherit_doc F1] def F345 (ε : Eps) : ℝ := E345 (ε 0) (ε 1) (ε 2) (ε 3) (ε 4) (ε 5) (X ε) (Y ε)

theorem O.half {n : ℕ} {f : Eps → ℝ} (hf : O n f) : O n fun ε => f ε / 2 := by
  simpa only [div_eq_inv_mul] using hf.cmul 2⁻¹
theorem O.sq {n : ℕ} {f : Eps → ℝ} (hf : O n f) : O (n + n) fun ε => f ε ^ 2 := by
  simpa only [pow_two] using hf.mul hf

theorem ci (i : Fin 6) : ContinuousAt (fun ε : Eps => ε i) 0 := (continuous_apply i).continuousAt
theorem contX : ContinuousAt X 0 := (continuousAt_const.sub (ci 0)).inv₀ (by simp)
theorem oX : O 0 X := O.cont contX
theorem oa : O 1 fun ε => ε 0 := .coord 0
theorem ob : O 1 fun ε => ε 1 := .coord 1
theorem oc : O 1 fun ε => ε 2 := .coord 2
theorem od : O 1 fun ε => ε 3 := .coord 3
theorem oe : O 1 fun ε => ε 4 := .coord 4
theorem of : O 1 fun ε => ε 5 := .coord 5
theorem oV : O 2 V := (oa.mul ob).mul oX
theorem oSg : O 1 Sg := (ob.mul oX).half
theorem oS : O 0 S := (O.const 1).add (oSg.le (by norm_num))
theorem obc : O 2 fun ε => ε 1 * ε 2 := ob.mul oc
theorem ocd : O 2 fun ε => ε 2 * ε 3 := oc.mul od
theorem odS : O 2 dS := (oX.mul (((oV.mul ob).le (by norm_num : 2 ≤ 3)).add obc)).half
/-- `b + c + v` -/
theorem obcv : O 1 fun ε => ε 1 + ε 2 + V ε := (ob.add oc).add (oV.le (by norm_num))
theorem oV1 : O 3 fun ε => v1 (ε 0) (ε 1) (ε 2) (X ε) := oV.mul obcv
theorem oV2 : O 4 fun ε => v2 (ε 0) (ε 1) (ε 2) (ε 3) (X ε) :=
  (oV1.mul obcv).add (oV.mul ((obc.add ocd).add (oV1.le (by norm_num))))
theorem obccd : O 3 fun ε => ε 1 * ε 2 * (ε 2 + ε 3) := obc.mul (oc.add od)
theorem ocdde : O 3 fun ε => ε 2 * ε 3 * (ε 3 + ε 4) := ocd.mul (od.add oe)
theorem oV3 : O 4 fun ε => v3 (ε 0) (ε 1) (ε 2) (ε 3) (ε 4) (X ε) :=
  (((oV2.mul obcv).le (by norm_num)).add
    (((oV1.cmul 2).mul ((obc.add ocd).add (oV1.le (by norm_num)))).le (by norm_num))).add
    ((oV.mul ((obccd.add ocdde).add (oV2.le (by norm_num)))).le (by norm_num))
theorem od2S : O 3 d2S :=
  (oX.mul (((oV.mul (((oV.mul ob).le (by norm_num : 2 ≤ 3)).add obc)).le (by norm_num : 3 ≤ 4)).add
    ((((oV1.mul ob).le (by norm_num : 3 ≤ 4)).add ((oV.mul obc).le (by norm_num : 3 ≤ 4))).add obccd))).half
theorem oU0 : O 1 U0 := (ob.half.add oc).add (oV.le (by norm_num))
theorem odU0 : O 2 fun ε => du0 (ε 0) (ε 1) (ε 2) (ε 3) (X ε) := (obc.half.add ocd).add (oV1.le (by norm_num))
theorem od2U0 : O 3 fun ε => d2u0 (ε 0) (ε 1) (ε 2) (ε 3) (ε 4) (X ε) := (obccd.half.add ocdde).add (oV2.le (by norm_num))
theorem od3U0 : O 4 fun ε => d3u0 (ε 0) (ε 1) (ε 2) (ε 3) (ε 4) (ε 5) (X ε) :=
  ((obc.mul (((oc.add od).sq.add ocd).add (od.mul oe))).half.add (ocd.mul (((od.add oe).sq.add (od.mul oe)).add (oe.mul of)))).add oV3
theorem oU1 : O 2 U1 := ((oV.mul oU0).le (by norm_num)).add odU0
theorem odU1 : O 3 fun ε => du1 (ε 0) (ε 1) (ε 2) (ε 3) (ε 4) (X ε) :=
  (((oV1.mul oU0).le (by norm_num)).add ((oV.mul odU0).le (by norm_num))).add od2U0
theorem od2U1 : O 4 fun ε => d2u1 (ε 0) (ε 1) (ε 2) (ε 3) (ε 4) (ε 5) (X ε) :=
  ((((oV2.mul oU0).le (by norm_num)).add (((oV1.cmul 2).mul odU0).le (by norm_num))).add ((oV.mul od2U0).le (by norm_num))).add od3U0
theorem oU2 : O 3 U2 := ((oV.mul oU1).le (by norm_num)).add odU1
theorem odU2 : O 4 fun ε => du2 (ε 0) (ε 1) (ε 2) (ε 3) (ε 4) (ε 5) (X ε) :=
  (((oV1.mul oU1).le (by norm_num)).add ((oV.mul odU1).le (by norm_num))).add od2U1
theorem oU3 : O 4 U3 := ((oV.mul oU2).le (by norm_num)).add odU2
theorem oW : O 0 W := (O.const 1).add ((oX.mul oU0).le (by norm_num))

theorem contW : ContinuousAt W 0 := by
  unfold W w u0
  have := contX; have := ci 0; have := ci 1; have := ci 2
  fun_prop
theorem W_zero : W 0 = 1 := by simp [W, w, u0]
theorem oY : O 0 Y := O.cont (contW.inv₀ (by rw [W_zero]; exact one_ne_zero))
theorem oK : O 1 Kf := oc.add (((oX.mul oU1).mul oY).le (by norm_num))
theorem odK : O 2 dKf := (ocd.add (((oX.mul oU2).mul oY).le (by norm_num))).sub (((oX.mul oU1).sq.mul oY.sq).le (by norm_num))
theorem oF1 : O 1 F1 := oa.mul oS.sq
theorem oF2 : O 1 F2 := ob.mul oW
theorem oF3 : O 1 F3 := (oS.mul oK).le (by norm_num)

theorem ev3 : ∀ᶠ ε : Eps in 𝓝 0, 3 * X ε = 1 + ε 0 * X ε := by
  have h : ∀ᶠ ε : Eps in 𝓝 0, (3 : ℝ) - ε 0 ≠ 0 := by
    have : ContinuousAt (fun ε : Eps => 3 - ε 0) 0 := continuousAt_const.sub (ci 0)
    exact this.eventually_ne (by simp)
  filter_upwards [h] with ε hε
  have : (3 - ε 0) * X ε = 1 := mul_inv_cancel₀ hε
  linarith
theorem evW : ∀ᶠ ε : Eps in 𝓝 0, Y ε * W ε = 1 := by
  filter_upwards [contW.eventually_ne (by rw [W_zero]; exact one_ne_zero : W 0 ≠ 0)] with ε hε
  exact inv_mul_cancel₀ hε

/-- `ε₁` is recovered to third order. -/
theorem big1 : O 4 fun ε => F1 ε - F1 ε * F2 ε / 3 - F1 ε ^ 2 * F2 ε / 9 + 5 / 36 * F1 ε * F2 ε ^ 2 + F1 ε * F23 ε / 9 - ε 0 :=
  (ord_alg1 oF1 oS oW oU1 oSg oU0 oa ob oc oX).congr <| ev3.mono fun ε hx =>
    alg1 (E1 := F1 ε) (E2 := F2 ε) (E23 := F23 ε) (s := S ε) (w := W ε) (u1 := U1 ε) (σ := Sg ε) (u0 := U0 ε) (a := ε 0) (b := ε 1) (c := ε 2) (x := X ε)
      rfl rfl rfl rfl rfl rfl rfl hx

/-- `ε₂` is recovered to third order. -/
theorem big2 : O 4 fun ε => F2 ε - 1 / 6 * F2 ε ^ 2 - 1 / 3 * F23 ε - 1 / 6 * F1 ε * F2 ε ^ 2 + 1 / 18 * F2 ε ^ 3 - 1 / 9 * F1 ε * F23 ε
    + 5 / 18 * F2 ε * F23 ε + 1 / 9 * (F23 ε * F3 ε) + 1 / 9 * (F2 ε * F34 ε) - ε 1 :=
  (ord_alg2 oF3 oF2 oF1 oK oS oW oU2 oU1 odS oSg oU0 oa ob oc od oX oY).congr <| ev3.mono fun ε hx =>
    alg2 (E34 := F34 ε) (E23 := F23 ε) (E3 := F3 ε) (E2 := F2 ε) (E1 := F1 ε) (dk := dKf ε) (k := Kf ε) (s := S ε) (w := W ε) (u2 := U2 ε) (u1 := U1 ε)
      (ds := dS ε) (σ := Sg ε) (u0 := U0 ε) (a := ε 0) (b := ε 1) (c := ε 2) (d := ε 3) (x := X ε) (y := Y ε)
      rfl rfl rfl rfl rfl rfl rfl rfl rfl rfl rfl rfl hx

/-- `ε₃` is recovered to third order if the term with `ε₅V` is kept. -/
theorem big3 : O 4 fun ε => F3 ε - 1 / 3 * F23 ε - 1 / 3 * F34 ε - 1 / 6 * F1 ε * F2 ε ^ 2 - 1 / 3 * F1 ε * F23 ε + 1 / 6 * F2 ε * F23 ε
    + 5 / 18 * (F23 ε * F3 ε) - 1 / 9 * F1 ε * F34 ε + 5 / 18 * (F2 ε * F34 ε) + 1 / 9 * (F3 ε * F34 ε) + 1 / 9 * F345 ε - ε 2 :=
  (ord_alg3 oF3 oF2 oF1 odK oK oS oW oU3 oU2 od2S oU1 odS oSg oU0 oa ob oc od oe oX oY).congr <| (ev3.and evW).mono fun ε h =>
    alg3 (E345 := F345 ε) (E34 := F34 ε) (E23 := F23 ε) (E3 := F3 ε) (E2 := F2 ε) (E1 := F1 ε)
      (d2k := d2k (ε 0) (ε 1) (ε 2) (ε 3) (ε 4) (ε 5) (X ε) (Y ε)) (dk := dKf ε) (k := Kf ε) (s := S ε) (w := W ε) (u3 := U3 ε) (u2 := U2 ε) (d2s := d2S ε)
      (u1 := U1 ε) (ds := dS ε) (σ := Sg ε) (u0 := U0 ε) (a := ε 0) (b := ε 1) (c := ε 2) (d := ε 3) (e := ε 4) (x := X ε) (y := Y ε)
      rfl rfl rfl rfl rfl rfl rfl rfl rfl rfl rfl rfl rfl rfl rfl rfl h.1 h.2

theorem big4 : O 4 fun ε => F34 ε - 1 / 6 * (F34 ε * F2 ε) - 1 / 3 * (F23 ε * F3 ε) - 1 / 3 * F345 ε + 1 / 3 * (ε 3 * F34 ε) - F3 ε * ε 3 :=
  (ord_alg4 oF3 oF2 odK oK oS oW oU3 oU2 od2S oU1 odS oSg oU0 oa ob oc od oe oX oY).congr <| (ev3.and evW).mono fun ε h =>
    alg4 (E345 := F345 ε) (E34 := F34 ε) (E23 := F23 ε) (E3 := F3 ε) (E2 := F2 ε)
      (d2k := d2k (ε 0) (ε 1) (ε 2) (ε 3) (ε 4) (ε 5) (X ε) (Y ε)) (dk := dKf ε) (k := Kf ε) (s := S ε) (w := W ε) (u3 := U3 ε) (u2 := U2 ε) (d2s := d2S ε)
      (u1 := U1 ε) (ds := dS ε) (σ := Sg ε) (u0 := U0 ε) (a := ε 0) (b := ε 1) (c := ε 2) (d := ε 3) (e := ε 4) (x := X ε) (y := Y ε)
      rfl rfl rfl rfl rfl rfl rfl rfl rfl rfl rfl rfl rfl rfl h.1 h.2

theorem bigP : O 3 fun ε => F34 ε - ε 2 * ε 3 :=
  (ord_algP oK oS oU2 oU1 odS oSg oc od oX oY).congr <| Eventually.of_forall fun ε =>
    algP (E34 := F34 ε) (dk := dKf ε) (k := Kf ε) (s := S ε) (u2 := U2 ε) (u1 := U1 ε) (ds := dS ε) (σ := Sg ε) (c := ε 2) (d := ε 3) (x := X ε) (y := Y ε) rfl rfl rfl

theorem bigE : O 2 fun ε => F3 ε - ε 2 :=
  (ord_algE oS oU1 oSg oc oX oY).congr <| Eventually.of_forall fun ε =>
    algE (E3 := F3 ε) (k := Kf ε) (s := S ε) (u1 := U1 ε) (σ := Sg ε) (c := ε 2) (x := X ε) (y := Y ε) rfl rfl rfl

/-- From `O` to a uniform bound. -/
theorem O.bound {n : ℕ} {f : Eps → ℝ} (h : O n f) : ∃ C > 0, ∃ r > 0, ∀ ε : Eps, ∀ δ, (∀ i, |ε i| ≤ δ) → δ < r → |f ε| ≤ C * δ ^ n := by
  obtain ⟨C, hC, hb⟩ := IsBigO.exists_pos h
  rw [IsBigOWith, Metric.eventually_nhds_iff] at hb
  obtain ⟨r, hr, hb⟩ := hb
  refine ⟨C, hC, r, hr, fun ε δ hε hδ => ?_⟩
  have h0 : 0 ≤ δ := (abs_nonneg _).trans (hε 0)
  have hn : ‖ε‖ ≤ δ := (pi_norm_le_iff_of_nonneg h0).2 hε
  have := hb (y := ε) (by rw [dist_zero_right]; exact lt_of_le_of_lt hn hδ)
  rw [Real.norm_eq_abs, norm_pow, norm_norm] at this
  refine this.trans ?_
  gcongr

end
