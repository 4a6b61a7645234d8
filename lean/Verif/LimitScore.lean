import Verif.LimitStrata

/-!
# Large samples: estimates from cross-fitted linear scores

The theorem behind double machine learning, for linear scores `a θ + b` whose components are evaluated at fitted
nuisance functions: if the fitted components approach the components at the true nuisance functions and the bias of the
score vanishes faster than `1/√n`, then the estimate is asymptotically linear and the plug-in variance is consistent.
-/

namespace DML

open MeasureTheory ProbabilityTheory Filter Topology
open scoped ENNReal

variable {Ω : Type*} {mΩ : MeasurableSpace Ω} {P : Measure Ω} {S : Type*} [MeasurableSpace S] {W : ℕ → Ω → S}

theorem mean_sq_le {n : ℕ} (f : Fin n → ℝ) : mean f ^ 2 ≤ mean fun i => f i ^ 2 := by
  unfold mean
  rcases Nat.eq_zero_or_pos n with rfl | hn
  · simp
  have hn' : (0 : ℝ) < n := by exact_mod_cast hn
  have h := Finset.sum_mul_sq_le_sq_mul_sq Finset.univ f fun _ => (1 : ℝ)
  simp only [mul_one, one_pow, Finset.sum_const, Finset.card_univ, Fintype.card_fin, nsmul_eq_mul] at h
  rw [div_pow, div_le_div_iff₀ (by positivity) hn']
  nlinarith

theorem mean_mul_sq_le {n : ℕ} (f g : Fin n → ℝ) :
    mean (fun i => f i * g i) ^ 2 ≤ mean (fun i => f i ^ 2) * mean fun i => g i ^ 2 := by
  unfold mean
  have h := Finset.sum_mul_sq_le_sq_mul_sq Finset.univ f g
  rw [div_pow, div_mul_div_comm, ← pow_two]
  gcongr

theorem mean_sq_nonneg' {n : ℕ} (f : Fin n → ℝ) : 0 ≤ mean fun i => f i ^ 2 := by
  unfold mean
  exact div_nonneg (Finset.sum_nonneg fun i _ => sq_nonneg _) (Nat.cast_nonneg _)

theorem mean_le_mean {n : ℕ} {f g : Fin n → ℝ} (h : ∀ i, f i ≤ g i) : mean f ≤ mean g := by
  unfold mean
  gcongr with i
  exact h i

theorem root_mean {n : ℕ} (f : Fin n → ℝ) : Real.sqrt n * mean f = (∑ i, f i) / Real.sqrt n := by
  unfold mean
  rcases Nat.eq_zero_or_pos n with rfl | hn
  · simp
  have hn' : (0 : ℝ) < Real.sqrt n := Real.sqrt_pos.2 (by exact_mod_cast hn)
  have : (n : ℝ) = Real.sqrt n * Real.sqrt n := (Real.mul_self_sqrt (Nat.cast_nonneg _)).symm
  rw [eq_div_iff hn'.ne']
  calc Real.sqrt n * ((∑ i, f i) / n) * Real.sqrt n = (Real.sqrt n * Real.sqrt n) * ((∑ i, f i) / n) := by ring
    _ = _ := by rw [← this, mul_div_cancel₀]; exact_mod_cast hn.ne'

/-- What makes a cross-fitted linear score regular.  `a0 θ + b0` is the score at the true nuisance functions; `a`, `b`
are its components at the fitted ones, which are functions of the training set. -/
structure RegularScore {s : ℕ} (P : Measure Ω) (W : ℕ → Ω → S) (St : S → Fin s) (K : ℕ)
    (c : ∀ n, (Fin n → Fin s) → Scheme K n) (a b : ∀ n, Fin K → (Fin n → S) → S → ℝ) (a0 b0 : S → ℝ) (θ : ℝ) : Prop where
  measSt : Measurable St
  balanced : StrataBalanced c
  measA : ∀ n k, Measurable (Function.uncurry (a n k))
  measB : ∀ n k, Measurable (Function.uncurry (b n k))
  usesA : ∀ n k, UsesGiven St (a n k) fun α => (c n α).train k
  usesB : ∀ n k, UsesGiven St (b n k) fun α => (c n α).train k
  measA0 : Measurable a0
  measB0 : Measurable b0
  sqA : MemLp a0 2 (P.map (W 0))
  sqPsi : MemLp (fun w => a0 w * θ + b0 w) 2 (P.map (W 0))
  identified : ∫ w, a0 w ∂(P.map (W 0)) ≠ 0
  moment : ∫ w, (a0 w * θ + b0 w) ∂(P.map (W 0)) = 0
  consistentA : ∀ k, oPE P fun n ω => risk (P.map (W 0)) fun w => a n k (sample W n ω) w - a0 w
  consistentPsi : ∀ k, oPE P fun n ω => risk (P.map (W 0)) fun w =>
    (a n k (sample W n ω) w * θ + b n k (sample W n ω) w) - (a0 w * θ + b0 w)
  unbiased : ∀ k, oP P fun n ω => Real.sqrt n * ∫ w, ((a n k (sample W n ω) w * θ + b n k (sample W n ω) w) -
    (a0 w * θ + b0 w)) ∂(P.map (W 0))

/-- What is needed of the components of a linear score in a sequence of samples: they are close to those at the true
nuisance functions in the mean square, and the mean of the score at `θ` is that of the score at the true nuisance functions up to an error smaller
than `1/√n`. -/
structure RegularArray (P : Measure Ω) (W : ℕ → Ω → S) (A B : ∀ n, Ω → Fin n → ℝ) (a0 b0 : S → ℝ) (θ : ℝ) : Prop where
  measA : ∀ n i, Measurable fun ω => A n ω i
  measB : ∀ n i, Measurable fun ω => B n ω i
  measA0 : Measurable a0
  measB0 : Measurable b0
  sqA : MemLp a0 2 (P.map (W 0))
  sqPsi : MemLp (fun w => a0 w * θ + b0 w) 2 (P.map (W 0))
  identified : ∫ w, a0 w ∂(P.map (W 0)) ≠ 0
  moment : ∫ w, (a0 w * θ + b0 w) ∂(P.map (W 0)) = 0
  closeA : oP P fun n ω => mean fun i => (A n ω i - a0 (W i ω)) ^ 2
  closePsi : oP P fun n ω => mean fun i => ((A n ω i * θ + B n ω i) - (a0 (W i ω) * θ + b0 (W i ω))) ^ 2
  drift : oP P fun n ω => Real.sqrt n * mean (fun i => A n ω i * θ + B n ω i) -
    (∑ i : Fin n, (a0 (W i ω) * θ + b0 (W i ω))) / Real.sqrt n

/-- The component `a` at the fitted nuisance functions for the observations of the sample. -/
def crossVal {s K : ℕ} (St : S → Fin s) (c : ∀ n, (Fin n → Fin s) → Scheme K n) (a : ∀ n, Fin K → (Fin n → S) → S → ℝ)
    (W : ℕ → Ω → S) (n : ℕ) (ω : Ω) (i : Fin n) : ℝ :=
  a n ((c n (strataOf St (sample W n ω))).fold i) (sample W n ω) (W i ω)

section
variable {s K : ℕ} {St : S → Fin s} {c : ∀ n, (Fin n → Fin s) → Scheme K n} {a b : ∀ n, Fin K → (Fin n → S) → S → ℝ} {a0 b0 : S → ℝ} {θ : ℝ}
  [IsProbabilityMeasure P]

omit [IsProbabilityMeasure P] in
theorem oP.mean_of_squares {f : ∀ n, Ω → Fin n → ℝ} (h : oP P fun n ω => mean fun i => f n ω i ^ 2) :
    oP P fun n ω => mean (f n ω) :=
  oP.of_sq (h.mono (Eventually.of_forall fun n ω => by
    rw [abs_of_nonneg (sq_nonneg _), abs_of_nonneg (mean_sq_nonneg' _)]
    exact mean_sq_le _))

/-- The mean of the squared error of `a` is negligible. -/
theorem RegularScore.squaresA (hW : Iid P W) (h : RegularScore P W St K c a b a0 b0 θ) :
    oP P fun n ω => mean fun i => (crossVal St c a W n ω i - a0 (W i ω)) ^ 2 :=
  hW.cross_squares h.measSt c (g := fun n k t w => a n k t w - a0 w)
    (fun n k => (h.measA n k).sub (h.measA0.comp measurable_snd))
    (fun n k t t' hs ht => by funext w; dsimp only; rw [h.usesA n k t t' hs ht]) h.consistentA

omit [IsProbabilityMeasure P] in
theorem RegularScore.measPsi0 (h : RegularScore P W St K c a b a0 b0 θ) : Measurable fun w => a0 w * θ + b0 w :=
  (h.measA0.mul_const θ).add h.measB0

omit [IsProbabilityMeasure P] in
theorem RegularScore.measPsi (h : RegularScore P W St K c a b a0 b0 θ) (n : ℕ) (k : Fin K) : Measurable (Function.uncurry
    fun (t : Fin n → S) w => (a n k t w * θ + b n k t w) - (a0 w * θ + b0 w)) :=
  (((h.measA n k).mul_const θ).add (h.measB n k)).sub
    (((h.measA0.comp measurable_snd).mul_const θ).add (h.measB0.comp measurable_snd))

omit [IsProbabilityMeasure P] in
theorem RegularScore.usesPsi (h : RegularScore P W St K c a b a0 b0 θ) (n : ℕ) (k : Fin K) : UsesGiven St
    (fun (t : Fin n → S) w => (a n k t w * θ + b n k t w) - (a0 w * θ + b0 w)) fun α => (c n α).train k :=
  fun t t' hs ht => by funext w; dsimp only; rw [h.usesA n k t t' hs ht, h.usesB n k t t' hs ht]

/-- The mean of the squared error of the score is negligible. -/
theorem RegularScore.squaresPsi (hW : Iid P W) (h : RegularScore P W St K c a b a0 b0 θ) :
    oP P fun n ω => mean fun i => ((crossVal St c a W n ω i * θ + crossVal St c b W n ω i) - (a0 (W i ω) * θ + b0 (W i ω))) ^ 2 :=
  hW.cross_squares h.measSt c (g := fun n k t w => (a n k t w * θ + b n k t w) - (a0 w * θ + b0 w)) h.measPsi h.usesPsi
    h.consistentPsi

/-- Estimation of the nuisance functions does not matter for the moment at `θ`, at the rate `1/√n`. -/
theorem RegularScore.moment_diff (hW : Iid P W) (h : RegularScore P W St K c a b a0 b0 θ) :
    oP P fun n ω => Real.sqrt n * mean (fun i => crossVal St c a W n ω i * θ + crossVal St c b W n ω i) -
      (∑ i : Fin n, (a0 (W i ω) * θ + b0 (W i ω))) / Real.sqrt n := by
  have h1 := hW.cross_centred h.measSt h.balanced (g := fun n k t w => (a n k t w * θ + b n k t w) - (a0 w * θ + b0 w)) h.measPsi h.usesPsi
    h.consistentPsi
  have h2 : oP P fun n ω => (∑ i, ∫ w, ((a n ((c n (strataOf St (sample W n ω))).fold i) (sample W n ω) w * θ + b n ((c n (strataOf St (sample W n ω))).fold i) (sample W n ω) w) -
      (a0 w * θ + b0 w)) ∂(P.map (W 0))) / Real.sqrt n := by
    have hs : oP P fun n ω => ∑ k, |Real.sqrt n * ∫ w, ((a n k (sample W n ω) w * θ + b n k (sample W n ω) w) -
        (a0 w * θ + b0 w)) ∂(P.map (W 0))| :=
      oP.sum _ fun k _ => (h.unbiased k).mono (Eventually.of_forall fun n ω => by rw [abs_abs])
    refine hs.mono ?_
    filter_upwards [eventually_gt_atTop 0] with n hn ω
    have hn' : (0 : ℝ) < Real.sqrt n := Real.sqrt_pos.2 (by exact_mod_cast hn)
    refine le_trans ?_ (le_abs_self _)
    rw [(c n (strataOf St (sample W n ω))).sum_test fun k _ => ∫ w, ((a n k (sample W n ω) w * θ + b n k (sample W n ω) w) -
      (a0 w * θ + b0 w)) ∂(P.map (W 0)), Finset.sum_div]
    refine (Finset.abs_sum_le_sum_abs _ _).trans (Finset.sum_le_sum fun k _ => ?_)
    rw [Finset.sum_const, nsmul_eq_mul, abs_div, abs_mul, abs_mul, abs_of_pos hn', div_le_iff₀ hn', Nat.abs_cast]
    have := (c n (strataOf St (sample W n ω))).card_test k
    calc (((c n (strataOf St (sample W n ω))).test k).card : ℝ) * _ ≤ n * _ := mul_le_mul_of_nonneg_right this (abs_nonneg _)
      _ = _ := by rw [mul_right_comm, Real.mul_self_sqrt (Nat.cast_nonneg _)]
  refine (h1.add h2).mono (Eventually.of_forall fun n ω => le_of_eq ?_)
  rw [root_mean, ← sub_div, ← add_div, ← Finset.sum_sub_distrib, ← Finset.sum_add_distrib]
  congr 3
  funext i
  rw [sub_add_cancel]
  rfl

omit [IsProbabilityMeasure P] in
theorem crossVal_meas (hW : Iid P W) (hSt : Measurable St)
    (hm : ∀ n k, Measurable (Function.uncurry (a n k))) (n : ℕ) (i : Fin n) :
    Measurable fun ω => crossVal St c a W n ω i := by
  have hA : Measurable fun ω => strataOf St (sample W n ω) := measurable_pi_lambda _ fun j => hSt.comp (hW.meas j)
  have h1 : Measurable fun q : (Fin n → Fin s) × Ω => a n ((c n q.1).fold i) (sample W n q.2) (W i q.2) :=
    measurable_from_prod_countable_right fun α =>
      (hm n ((c n α).fold i)).comp ((measurable_pi_lambda _ fun j : Fin n => hW.meas j).prodMk (hW.meas i))
  exact h1.comp (hA.prodMk measurable_id)

theorem RegularScore.array (hW : Iid P W) (h : RegularScore P W St K c a b a0 b0 θ) :
    RegularArray P W (crossVal St c a W) (crossVal St c b W) a0 b0 θ :=
  ⟨crossVal_meas hW h.measSt h.measA, crossVal_meas hW h.measSt h.measB, h.measA0, h.measB0, h.sqA, h.sqPsi, h.identified, h.moment,
    h.squaresA hW, h.squaresPsi hW, h.moment_diff hW⟩

end

/-! ## Estimates and standard errors from regular components -/

section
variable [IsProbabilityMeasure P] {A B : ∀ n, Ω → Fin n → ℝ} {a0 b0 : S → ℝ} {θ : ℝ}

omit [IsProbabilityMeasure P] in
theorem RegularArray.measPsi0 (h : RegularArray P W A B a0 b0 θ) : Measurable fun w => a0 w * θ + b0 w :=
  (h.measA0.mul_const θ).add h.measB0

theorem RegularArray.meanA (hW : Iid P W) (h : RegularArray P W A B a0 b0 θ) :
    oP P fun n ω => mean (A n ω) - ∫ w, a0 w ∂(P.map (W 0)) := by
  have := hW.prob 0
  have h1 := hW.lln h.measA0 (h.sqA.integrable (by norm_num))
  refine (h1.add h.closeA.mean_of_squares).mono (Eventually.of_forall fun n ω => le_of_eq ?_)
  rw [mean_sub]
  congr 1
  ring

/-- The estimate `-mean b / mean a` is asymptotically linear. -/
theorem RegularArray.linear (hW : Iid P W) (h : RegularArray P W A B a0 b0 θ) :
    oP P fun n ω => Real.sqrt n * (-mean (B n ω) / mean (A n ω) - θ) +
      (∑ i : Fin n, (a0 (W i ω) * θ + b0 (W i ω))) / Real.sqrt n / ∫ w, a0 w ∂(P.map (W 0)) := by
  have hA := h.meanA hW
  have hD := h.drift
  have hS := hW.root_bdd h.measPsi0 h.sqPsi h.moment
  have hinv := hA.continuousAt (f := fun x => x⁻¹) (continuousAt_inv₀ h.identified)
  have hY := (hD.mul_OP (OP_of_sub hinv)).neg.sub (hinv.mul_OP hS)
  have hB : Tendsto (fun n => P {ω | mean (A n ω) = 0}) atTop (𝓝 0) := by
    refine tendsto_zero_of_le (Eventually.of_forall fun n => measure_mono fun ω hω => ?_)
      (hA _ (abs_pos.2 h.identified))
    rw [Set.mem_ofPred_eq] at hω ⊢
    dsimp only
    rw [hω, zero_sub, abs_neg]
  refine hY.congr_on hB (Eventually.of_forall fun n ω hω => le_of_eq ?_)
  rw [Set.mem_ofPred_eq] at hω
  congr 1
  rw [mean_add, mean_mul_right]
  have hJ := h.identified
  generalize (∑ i : Fin n, (a0 (W i ω) * θ + b0 (W i ω))) / Real.sqrt n = s at *
  field_simp
  ring

/-- The estimate is consistent. -/
theorem RegularArray.consistent (hW : Iid P W) (h : RegularArray P W A B a0 b0 θ) :
    oP P fun n ω => -mean (B n ω) / mean (A n ω) - θ := by
  have hS := hW.root_bdd h.measPsi0 h.sqPsi h.moment
  have h1 := (h.linear hW).bdd.add (hS.mul (OP_const (P := P) (-(∫ w, a0 w ∂(P.map (W 0)))⁻¹)))
  have h2 : oP P fun n _ => (Real.sqrt n)⁻¹ := oP.of_tendsto
    (tendsto_inv_atTop_zero.comp (Real.tendsto_sqrt_atTop.comp tendsto_natCast_atTop_atTop))
  refine (h2.mul_OP h1).mono ?_
  filter_upwards [eventually_gt_atTop 0] with n hn ω
  have hn' : (0 : ℝ) < Real.sqrt n := Real.sqrt_pos.2 (by exact_mod_cast hn)
  refine le_of_eq ?_
  congr 1
  rw [div_eq_mul_inv _ (∫ w, a0 w ∂(P.map (W 0)))]
  generalize (∑ i : Fin n, (a0 (W i ω) * θ + b0 (W i ω))) / Real.sqrt n = s
  rw [show Real.sqrt n * (-mean (B n ω) / mean (A n ω) - θ) + s * (∫ w, a0 w ∂(P.map (W 0)))⁻¹ +
    s * -(∫ w, a0 w ∂(P.map (W 0)))⁻¹ = Real.sqrt n * (-mean (B n ω) / mean (A n ω) - θ) by ring,
    inv_mul_cancel_left₀ hn'.ne']

/-- The score at the estimate is close to the score at the truth in the mean square. -/
theorem RegularArray.closeHat (hW : Iid P W) (h : RegularArray P W A B a0 b0 θ) :
    oP P fun n ω => mean fun i => ((A n ω i * (-mean (B n ω) / mean (A n ω)) + B n ω i) - (a0 (W i ω) * θ + b0 (W i ω))) ^ 2 := by
  have := hW.prob 0
  have hθ := h.consistent hW
  have ha0 := OP_of_sub (hW.lln (h.measA0.pow_const 2) h.sqA.integrable_sq)
  have hda := h.closeA
  have hdp := h.closePsi
  -- the mean square of the fitted `a` is bounded
  have hbdd : OP P fun n ω => mean fun i => A n ω i ^ 2 := by
    refine ((ha0.mul (OP_const (P := P) 2)).add (hda.bdd.mul (OP_const (P := P) 2))).mono
      (Eventually.of_forall fun n ω => ?_)
    rw [abs_of_nonneg (mean_sq_nonneg' _)]
    refine le_trans ?_ (le_abs_self _)
    rw [← mean_mul_right, ← mean_mul_right, ← mean_add]
    refine mean_le_mean fun i => ?_
    nlinarith [sq_nonneg (A n ω i - 2 * a0 (W i ω))]
  -- the error of the score at the estimate
  have hv : oP P fun n ω => mean fun i => (((A n ω i * θ + B n ω i) -
      (a0 (W i ω) * θ + b0 (W i ω))) + (-mean (B n ω) / mean (A n ω) - θ) * A n ω i) ^ 2 := by
    refine ((hdp.const_mul 2).add ((hθ.sq.mul_OP hbdd).const_mul 2)).mono (Eventually.of_forall fun n ω => ?_)
    rw [abs_of_nonneg (mean_sq_nonneg' _)]
    refine le_trans ?_ (le_abs_self _)
    rw [← mean_mul_left, ← mean_mul_left, ← mean_mul_left, ← mean_add]
    refine mean_le_mean fun i => ?_
    generalize (A n ω i * θ + B n ω i) - (a0 (W i ω) * θ + b0 (W i ω)) = x
    generalize -mean (B n ω) / mean (A n ω) - θ = y
    nlinarith [sq_nonneg (x - y * A n ω i)]
  refine hv.mono (Eventually.of_forall fun n ω => le_of_eq ?_)
  congr 2
  funext i
  ring

/-- The mean square of the score at the estimate converges to its variance. -/
theorem RegularArray.gamma (hW : Iid P W) (h : RegularArray P W A B a0 b0 θ) :
    oP P fun n ω => mean (fun i => (A n ω i * (-mean (B n ω) / mean (A n ω)) +
      B n ω i) ^ 2) - ∫ w, (a0 w * θ + b0 w) ^ 2 ∂(P.map (W 0)) := by
  have := hW.prob 0
  have hu := hW.lln (h.measPsi0.pow_const 2) h.sqPsi.integrable_sq
  have hv := h.closeHat hW
  have huv : oP P fun n ω => mean fun i : Fin n => (a0 (W i ω) * θ + b0 (W i ω)) *
      ((A n ω i * (-mean (B n ω) / mean (A n ω)) + B n ω i) - (a0 (W i ω) * θ + b0 (W i ω))) := by
    refine oP.of_sq (((OP_of_sub hu).mul_oP hv).mono (Eventually.of_forall fun n ω => ?_))
    rw [abs_of_nonneg (sq_nonneg _)]
    exact (mean_mul_sq_le _ _).trans (le_abs_self _)
  refine ((hu.add (huv.const_mul 2)).add hv).mono (Eventually.of_forall fun n ω => le_of_eq ?_)
  congr 1
  rw [← mean_mul_left, sub_add_eq_add_sub, sub_add_eq_add_sub, ← mean_add, ← mean_add]
  congr 2
  funext i
  ring

/-- The scaled score at the estimate, `psi / mean(psi_deriv)`, is close to the influence function in the mean square. -/
theorem RegularArray.closeScaled (hW : Iid P W) (h : RegularArray P W A B a0 b0 θ) :
    oP P fun n ω => mean fun i => ((A n ω i * (-mean (B n ω) / mean (A n ω)) + B n ω i) / mean (A n ω) -
      (a0 (W i ω) * θ + b0 (W i ω)) / ∫ w, a0 w ∂(P.map (W 0))) ^ 2 := by
  have := hW.prob 0
  have hu := OP_of_sub (hW.lln (h.measPsi0.pow_const 2) h.sqPsi.integrable_sq)
  have hv := h.closeHat hW
  have hinv := (h.meanA hW).continuousAt (f := fun x => x⁻¹) (continuousAt_inv₀ h.identified)
  have hb := OP_of_sub hinv
  refine (((hv.mul_OP (hb.mul hb)).const_mul 2).add ((hinv.sq.mul_OP hu).const_mul 2)).mono (Eventually.of_forall fun n ω => ?_)
  rw [abs_of_nonneg (mean_sq_nonneg' _)]
  refine le_trans ?_ (le_abs_self _)
  rw [← mean_mul_right, ← mean_mul_left, ← mean_mul_left, ← mean_mul_left, ← mean_add]
  refine mean_le_mean fun i => ?_
  simp only [div_eq_mul_inv]
  generalize A n ω i * (-mean (B n ω) * (mean (A n ω))⁻¹) + B n ω i = x
  generalize a0 (W i ω) * θ + b0 (W i ω) = y
  generalize (mean (A n ω))⁻¹ = u
  generalize (∫ w, a0 w ∂(P.map (W 0)))⁻¹ = v
  nlinarith [sq_nonneg ((x - y) * u - (u - v) * y)]

end

end DML
