import Verif.LimitInference
import Verif.LimitArm

/-!
# Large samples: weights that are divided by their average

Nothing here models code of the package.
-/

namespace DML

open MeasureTheory ProbabilityTheory Filter Topology
open scoped ENNReal

variable {Ω : Type*} {mΩ : MeasurableSpace Ω} {P : Measure Ω} {S : Type*} [MeasurableSpace S] {W : ℕ → Ω → S}

/-! ## Averages of fitted functions -/

/-- A function `f` fitted on the training set that approaches `f0` in the 2-norm. -/
structure Near {s K : ℕ} (P : Measure Ω) (W : ℕ → Ω → S) (St : S → Fin s) (c : ∀ n, (Fin n → Fin s) → Scheme K n)
    (f : ∀ n, Fin K → (Fin n → S) → S → ℝ) (f0 : S → ℝ) : Prop where
  meas : ∀ n k, Measurable (Function.uncurry (f n k))
  uses : ∀ n k, UsesGiven St (f n k) fun α => (c n α).train k
  meas0 : Measurable f0
  mem0 : MemLp f0 2 (P.map (W 0))
  close : ∀ k, oPE P fun n ω => eLpNorm (fun w => f n k (sample W n ω) w - f0 w) 2 (P.map (W 0))

/-- The mean error of a fitted function on a new observation. -/
noncomputable def bias {K : ℕ} (P : Measure Ω) (W : ℕ → Ω → S) (f : ∀ n, Fin K → (Fin n → S) → S → ℝ) (f0 : S → ℝ)
    (k : Fin K) (n : ℕ) (ω : Ω) : ℝ :=
  ∫ w, (f n k (sample W n ω) w - f0 w) ∂(P.map (W 0))

theorem oP.inv_root : oP P fun n _ => (Real.sqrt n)⁻¹ :=
  oP.of_tendsto (tendsto_inv_atTop_zero.comp (Real.tendsto_sqrt_atTop.comp tendsto_natCast_atTop_atTop))

/-- What is bounded in probability after multiplication with `√n` vanishes. -/
theorem OP.of_root {X : ℕ → Ω → ℝ} (h : OP P fun n ω => Real.sqrt n * X n ω) : oP P X := by
  refine (oP.inv_root.mul_OP h).mono ?_
  filter_upwards [eventually_gt_atTop 0] with n hn ω
  have hn' : (0 : ℝ) < Real.sqrt n := Real.sqrt_pos.2 (by exact_mod_cast hn)
  rw [inv_mul_cancel_left₀ hn'.ne']

section
variable [IsProbabilityMeasure P] {s K : ℕ} {St : S → Fin s} {c : ∀ n, (Fin n → Fin s) → Scheme K n}
  {f g : ∀ n, Fin K → (Fin n → S) → S → ℝ} {f0 g0 : S → ℝ}

omit [IsProbabilityMeasure P] in
theorem Part.near (h : Part P W St c f f0) : Near P W St c f f0 := ⟨h.meas, h.uses, h.meas0, h.mem0, h.close⟩

omit [IsProbabilityMeasure P] in
theorem Near.fixed (hf : Measurable f0) (h : MemLp f0 2 (P.map (W 0))) : Near P W St c (fun _ _ _ => f0) f0 :=
  (Part.fixed hf h).near

omit [IsProbabilityMeasure P] in
theorem Near.measDiff (h : Near P W St c f f0) (n : ℕ) (k : Fin K) :
    Measurable (Function.uncurry fun (t : Fin n → S) w => f n k t w - f0 w) :=
  (h.meas n k).sub (h.meas0.comp measurable_snd)

theorem Near.bias_small (hW : Iid P W) (h : Near P W St c f f0) (k : Fin K) : oP P (bias P W f f0 k) := by
  have := hW.prob 0
  intro ε hε
  have hpos : 0 < ENNReal.ofReal (ε ^ 2 / 2) := by rw [ENNReal.ofReal_pos]; positivity
  refine tendsto_zero_of_le (Eventually.of_forall fun n => measure_mono fun ω hω => ?_) ((h.close k).risk _ hpos)
  rw [Set.mem_ofPred_eq] at hω ⊢
  have h1 : Measurable fun w => f n k (sample W n ω) w - f0 w :=
    (h.measDiff n k).comp (measurable_const.prodMk measurable_id)
  refine lt_of_lt_of_le ?_ (sq_integral_le_risk (ν := P.map (W 0)) h1)
  rw [ENNReal.ofReal_lt_ofReal_iff_of_nonneg (by positivity)]
  have h2 : ε ^ 2 ≤ |bias P W f f0 k n ω| ^ 2 := pow_le_pow_left₀ hε.le hω 2
  rw [sq_abs] at h2
  have h3 : 0 < ε ^ 2 := by positivity
  show ε ^ 2 / 2 < bias P W f f0 k n ω ^ 2
  linarith

/-- The average of a fitted function: its error is of the order `1/√n` up to the mean errors of the fitted functions. -/
theorem Near.mean_split (hW : Iid P W) (hSt : Measurable St) (hc : StrataBalanced c) (h : Near P W St c f f0) :
    ∃ X Y : ℕ → Ω → ℝ, (OP P fun n ω => Real.sqrt n * X n ω) ∧ (∀ n ω, |Y n ω| ≤ ∑ k, |bias P W f f0 k n ω|) ∧
      ∀ n ω, mean (crossVal St c f W n ω) - ∫ w, f0 w ∂(P.map (W 0)) = X n ω + Y n ω := by
  have hμ := hW.prob 0
  let Y : ℕ → Ω → ℝ := fun n ω => (∑ i, bias P W f f0 ((c n (strataOf St (sample W n ω))).fold i) n ω) / n
  refine ⟨fun n ω => mean (crossVal St c f W n ω) - ∫ w, f0 w ∂(P.map (W 0)) - Y n ω, Y, ?_, fun n ω => ?_, fun n ω => by ring⟩
  · have h1 := hW.cross_centred hSt hc (g := fun n k t w => f n k t w - f0 w) h.measDiff
      (fun n k t t' hs ht => by funext w; dsimp only; rw [h.uses n k t t' hs ht]) fun k => (h.close k).risk
    have h2 := hW.root_bdd (f := fun w => f0 w - ∫ w, f0 w ∂(P.map (W 0))) (h.meas0.sub_const _) (h.mem0.sub (memLp_const _)) (by
      have hi := h.mem0.integrable one_le_two
      rw [integral_sub hi (integrable_const _)]
      simp)
    refine (h1.bdd.add h2).mono ?_
    filter_upwards [eventually_gt_atTop 0] with n hn ω
    refine le_of_eq (congrArg _ ?_)
    have hn' : (0 : ℝ) < n := by exact_mod_cast hn
    have e : mean (crossVal St c f W n ω) - ∫ w, f0 w ∂(P.map (W 0)) - Y n ω =
        mean fun i => crossVal St c f W n ω i - ∫ w, f0 w ∂(P.map (W 0)) -
          bias P W f f0 ((c n (strataOf St (sample W n ω))).fold i) n ω := by
      rw [mean_sub, mean_sub, mean_const hn]
      rfl
    rw [e, root_mean, ← add_div, ← Finset.sum_add_distrib]
    congr 2
    funext i
    unfold crossVal bias
    ring
  · show |(∑ i, bias P W f f0 ((c n (strataOf St (sample W n ω))).fold i) n ω) / n| ≤ _
    rcases Nat.eq_zero_or_pos n with h0 | hn
    · subst h0
      simp only [Finset.univ_eq_empty, Finset.sum_empty, zero_div, abs_zero]
      exact Finset.sum_nonneg fun _ _ => abs_nonneg _
    have hn' : (0 : ℝ) < n := by exact_mod_cast hn
    rw [abs_div, abs_of_pos hn', div_le_iff₀ hn']
    refine (Finset.abs_sum_le_sum_abs _ _).trans ?_
    refine (Finset.sum_le_sum fun i _ => Finset.single_le_sum (f := fun k => |bias P W f f0 k n ω|)
      (fun _ _ => abs_nonneg _) (Finset.mem_univ ((c n (strataOf St (sample W n ω))).fold i))).trans (le_of_eq ?_)
    rw [Finset.sum_const, Finset.card_univ, Fintype.card_fin, nsmul_eq_mul, mul_comm]

theorem Near.mean_tendsto (hW : Iid P W) (hSt : Measurable St) (hc : StrataBalanced c) (h : Near P W St c f f0) :
    oP P fun n ω => mean (crossVal St c f W n ω) - ∫ w, f0 w ∂(P.map (W 0)) := by
  obtain ⟨X, Y, hX, hY, e⟩ := h.mean_split hW hSt hc
  have hs : oP P fun n ω => ∑ k, |bias P W f f0 k n ω| := oP.sum _ fun k _ =>
    (h.bias_small hW k).mono (Eventually.of_forall fun n ω => by rw [abs_abs])
  have hY' : oP P Y := hs.mono (Eventually.of_forall fun n ω => (hY n ω).trans (le_abs_self _))
  refine (hX.of_root.add hY').mono (Eventually.of_forall fun n ω => ?_)
  rw [e]

/-- The mean square of a fitted function is bounded. -/
theorem Near.bdd (hW : Iid P W) (hSt : Measurable St) (h : Near P W St c f f0) :
    OP P fun n ω => mean fun i => crossVal St c f W n ω i ^ 2 := by
  have hμ := hW.prob 0
  have h1 : oP P fun n ω => mean fun i => (crossVal St c f W n ω i - f0 (W i ω)) ^ 2 :=
    hW.cross_squares hSt c (g := fun n k t w => f n k t w - f0 w) h.measDiff
      (fun n k t t' hs ht => by funext w; dsimp only; rw [h.uses n k t t' hs ht]) fun k => (h.close k).risk
  have h2 := OP_of_sub (hW.lln (h.meas0.pow_const 2) h.mem0.integrable_sq)
  refine ((h2.mul (OP_const (P := P) 2)).add (h1.bdd.mul (OP_const (P := P) 2))).mono (Eventually.of_forall fun n ω => ?_)
  rw [abs_of_nonneg (mean_sq_nonneg' _)]
  refine le_trans ?_ (le_abs_self _)
  rw [← mean_mul_right, ← mean_mul_right, ← mean_add]
  refine mean_le_mean fun i => ?_
  nlinarith [sq_nonneg (crossVal St c f W n ω i - 2 * f0 (W i ω))]

/-- Dividing weights by their average does not matter at the rate `1/√n` for residuals with mean zero, if the products of the
mean errors vanish faster than `1/√n`. -/
theorem weight_shift (hW : Iid P W) (hSt : Measurable St) (hc : StrataBalanced c) (hf : Near P W St c f f0)
    (hg : Near P W St c g g0) (hp : ∫ w, f0 w ∂(P.map (W 0)) ≠ 0) (h0 : ∫ w, g0 w ∂(P.map (W 0)) = 0)
    (hfg : ∀ k k', oP P fun n ω => Real.sqrt n * (bias P W f f0 k n ω * bias P W g g0 k' n ω)) :
    oP P fun n ω => Real.sqrt n * (((mean (crossVal St c f W n ω))⁻¹ - (∫ w, f0 w ∂(P.map (W 0)))⁻¹) *
      mean (crossVal St c g W n ω)) := by
  have hinv := (hf.mean_tendsto hW hSt hc).continuousAt (f := fun x => x⁻¹) (continuousAt_inv₀ hp)
  have hB : Tendsto (fun n => P {ω | mean (crossVal St c f W n ω) = 0}) atTop (𝓝 0) := by
    refine tendsto_zero_of_le (Eventually.of_forall fun n => measure_mono fun ω hω => ?_)
      (hf.mean_tendsto hW hSt hc _ (abs_pos.2 hp))
    rw [Set.mem_ofPred_eq] at hω ⊢
    dsimp only
    rw [hω, zero_sub, abs_neg]
  obtain ⟨X, Y, hX, hY, e⟩ := hf.mean_split hW hSt hc
  obtain ⟨X', Y', hX', hY', e'⟩ := hg.mean_split hW hSt hc
  have hsY : oP P Y := (oP.sum Finset.univ fun k _ => (hf.bias_small hW k).mono (Y := bias P W f f0 k) (X := fun n ω => |bias P W f f0 k n ω|)
    (Eventually.of_forall fun n ω => by rw [abs_abs])).mono (Eventually.of_forall fun n ω => (hY n ω).trans (le_abs_self _))
  have hsY' : oP P Y' := (oP.sum Finset.univ fun k _ => (hg.bias_small hW k).mono (Y := bias P W g g0 k) (X := fun n ω => |bias P W g g0 k n ω|)
    (Eventually.of_forall fun n ω => by rw [abs_abs])).mono (Eventually.of_forall fun n ω => (hY' n ω).trans (le_abs_self _))
  have hYY : oP P fun n ω => Real.sqrt n * (Y n ω * Y' n ω) := by
    have hs : oP P fun n ω => ∑ k, ∑ k', |Real.sqrt n * (bias P W f f0 k n ω * bias P W g g0 k' n ω)| :=
      oP.sum _ fun k _ => oP.sum _ fun k' _ => (hfg k k').mono (Eventually.of_forall fun n ω => by rw [abs_abs])
    refine hs.mono (Eventually.of_forall fun n ω => ?_)
    refine le_trans (le_of_eq ?_) (le_trans (mul_le_mul_of_nonneg_left (mul_le_mul (hY n ω) (hY' n ω) (abs_nonneg _)
      (Finset.sum_nonneg fun _ _ => abs_nonneg _)) (Real.sqrt_nonneg n)) (le_trans (le_of_eq ?_) (le_abs_self _)))
    · rw [abs_mul, abs_mul, abs_of_nonneg (Real.sqrt_nonneg _)]
    · rw [Finset.sum_mul_sum, Finset.mul_sum]
      refine Finset.sum_congr rfl fun k _ => ?_
      rw [Finset.mul_sum]
      refine Finset.sum_congr rfl fun k' _ => ?_
      rw [abs_mul, abs_mul, abs_of_nonneg (Real.sqrt_nonneg _)]
  have hprod : oP P fun n ω => Real.sqrt n * ((X n ω + Y n ω) * (X' n ω + Y' n ω)) := by
    have t1 : oP P fun n ω => (Real.sqrt n * X n ω) * X' n ω := hX.mul_oP hX'.of_root
    have t2 : oP P fun n ω => (Real.sqrt n * X n ω) * Y' n ω := hX.mul_oP hsY'
    have t3 : oP P fun n ω => Y n ω * (Real.sqrt n * X' n ω) := hsY.mul_OP hX'
    refine (((t1.add t2).add t3).add hYY).mono (Eventually.of_forall fun n ω => le_of_eq (congrArg _ ?_))
    ring
  have hfin := (hprod.mul_OP (OP_of_sub hinv)).mul_OP (OP_const (P := P) (-(∫ w, f0 w ∂(P.map (W 0)))⁻¹))
  refine hfin.congr_on hB (Eventually.of_forall fun n ω hω => le_of_eq ?_)
  rw [Set.mem_ofPred_eq] at hω
  have e2 := e' n ω
  rw [h0, sub_zero] at e2
  rw [← e n ω, ← e2]
  congr 1
  field_simp
  ring

end

/-! ## Scores with adjusted components -/

section
variable [IsProbabilityMeasure P] {A B V : ∀ n, Ω → Fin n → ℝ} {a0 b0 : S → ℝ} {θ : ℝ}

/-- Multiplying a regular score with a number that converges, and adding a term with a vanishing factor and a
negligible mean, does not change its limits. -/
theorem RegularArray.adjust (hW : Iid P W) (h : RegularArray P W A B a0 b0 θ) {κ δ : ℕ → Ω → ℝ} {κ0 : ℝ} (h0 : κ0 ≠ 0)
    (mκ : ∀ n, Measurable (κ n)) (mδ : ∀ n, Measurable (δ n)) (mV : ∀ n i, Measurable fun ω => V n ω i)
    (hκ : oP P fun n ω => κ n ω - κ0) (hδ : oP P δ) (hV : OP P fun n ω => mean fun i => V n ω i ^ 2)
    (hδV : oP P fun n ω => Real.sqrt n * (δ n ω * mean (V n ω))) :
    RegularArray P W (fun n ω i => κ n ω * A n ω i) (fun n ω i => κ n ω * B n ω i + δ n ω * V n ω i)
      (fun w => κ0 * a0 w) (fun w => κ0 * b0 w) θ := by
  have hμ := hW.prob 0
  have hκb := OP_of_sub hκ
  have hκsq : OP P fun n ω => 3 * κ n ω ^ 2 := by
    refine ((hκb.mul hκb).mul (OP_const (P := P) 3)).mono (Eventually.of_forall fun n ω => le_of_eq (congrArg _ ?_))
    ring
  have e0 : (fun w => κ0 * a0 w * θ + κ0 * b0 w) = fun w => κ0 * (a0 w * θ + b0 w) := funext fun w => by ring
  refine ⟨fun n i => (mκ n).mul (h.measA n i), fun n i => ((mκ n).mul (h.measB n i)).add ((mδ n).mul (mV n i)),
    h.measA0.const_mul κ0, h.measB0.const_mul κ0, h.sqA.const_mul κ0, ?_, ?_, ?_, ?_, ?_, ?_⟩
  · rw [e0]
    exact h.sqPsi.const_mul κ0
  · rw [integral_const_mul]
    exact mul_ne_zero h0 h.identified
  · rw [e0, integral_const_mul, h.moment, mul_zero]
  · have h2 := OP_of_sub (hW.lln (h.measA0.pow_const 2) h.sqA.integrable_sq)
    refine ((hκsq.mul_oP h.closeA).add ((hκ.sq.mul_OP h2).const_mul 3)).mono (Eventually.of_forall fun n ω => ?_)
    rw [abs_of_nonneg (mean_sq_nonneg' _)]
    refine le_trans ?_ (le_abs_self _)
    rw [← mean_mul_left, ← mean_mul_left, ← mean_mul_left, ← mean_add]
    refine mean_le_mean fun i => ?_
    have e : κ n ω * A n ω i - κ0 * a0 (W i ω) = κ n ω * (A n ω i - a0 (W i ω)) + (κ n ω - κ0) * a0 (W i ω) := by ring
    rw [e]
    generalize A n ω i - a0 (W i ω) = x
    generalize κ n ω - κ0 = y
    nlinarith [sq_nonneg (κ n ω * x - y * a0 (W i ω)), sq_nonneg (κ n ω * x), sq_nonneg (y * a0 (W i ω))]
  · have h2 := OP_of_sub (hW.lln (h.measPsi0.pow_const 2) h.sqPsi.integrable_sq)
    refine (((hκsq.mul_oP h.closePsi).add ((hκ.sq.mul_OP h2).const_mul 3)).add ((hδ.sq.mul_OP hV).const_mul 3)).mono
      (Eventually.of_forall fun n ω => ?_)
    rw [abs_of_nonneg (mean_sq_nonneg' _)]
    refine le_trans ?_ (le_abs_self _)
    rw [← mean_mul_left, ← mean_mul_left, ← mean_mul_left, ← mean_mul_left, ← mean_mul_left, ← mean_add, ← mean_add]
    refine mean_le_mean fun i => ?_
    have e : κ n ω * A n ω i * θ + (κ n ω * B n ω i + δ n ω * V n ω i) - (κ0 * a0 (W i ω) * θ + κ0 * b0 (W i ω)) =
        κ n ω * ((A n ω i * θ + B n ω i) - (a0 (W i ω) * θ + b0 (W i ω))) + (κ n ω - κ0) * (a0 (W i ω) * θ + b0 (W i ω)) +
          δ n ω * V n ω i := by ring
    rw [e]
    generalize (A n ω i * θ + B n ω i) - (a0 (W i ω) * θ + b0 (W i ω)) = x
    generalize κ n ω - κ0 = y
    generalize a0 (W i ω) * θ + b0 (W i ω) = z
    nlinarith [sq_nonneg (κ n ω * x - y * z), sq_nonneg (κ n ω * x - δ n ω * V n ω i), sq_nonneg (y * z - δ n ω * V n ω i)]
  · have hS := hW.root_bdd h.measPsi0 h.sqPsi h.moment
    refine (((hκb.mul_oP h.drift).add (hκ.mul_OP hS)).add hδV).mono (Eventually.of_forall fun n ω => le_of_eq (congrArg _ ?_))
    have e1 : (fun i => κ n ω * A n ω i * θ + (κ n ω * B n ω i + δ n ω * V n ω i)) =
        fun i => κ n ω * (A n ω i * θ + B n ω i) + δ n ω * V n ω i := funext fun i => by ring
    have e2 : (∑ i : Fin n, (κ0 * a0 (W i ω) * θ + κ0 * b0 (W i ω))) = κ0 * ∑ i : Fin n, (a0 (W i ω) * θ + b0 (W i ω)) := by
      rw [Finset.mul_sum]
      exact Finset.sum_congr rfl fun i _ => by ring
    rw [e1, e2, mean_add, mean_mul_left, mean_mul_left]
    ring

omit [IsProbabilityMeasure P] in
/-- Perturbations of the components that vanish in the mean square and whose mean is negligible do not matter. -/
theorem RegularArray.perturb (h : RegularArray P W A B a0 b0 θ) {X Y : ∀ n, Ω → Fin n → ℝ}
    (mX : ∀ n i, Measurable fun ω => X n ω i) (mY : ∀ n i, Measurable fun ω => Y n ω i)
    (hX : oP P fun n ω => mean fun i => X n ω i ^ 2) (hXY : oP P fun n ω => mean fun i => (X n ω i * θ + Y n ω i) ^ 2)
    (hm : oP P fun n ω => Real.sqrt n * mean fun i => X n ω i * θ + Y n ω i) :
    RegularArray P W (fun n ω i => A n ω i + X n ω i) (fun n ω i => B n ω i + Y n ω i) a0 b0 θ := by
  refine ⟨fun n i => (h.measA n i).add (mX n i), fun n i => (h.measB n i).add (mY n i), h.measA0, h.measB0, h.sqA, h.sqPsi,
    h.identified, h.moment, ?_, ?_, ?_⟩
  · refine ((h.closeA.const_mul 2).add (hX.const_mul 2)).mono (Eventually.of_forall fun n ω => ?_)
    rw [abs_of_nonneg (mean_sq_nonneg' _)]
    refine le_trans ?_ (le_abs_self _)
    rw [← mean_mul_left, ← mean_mul_left, ← mean_add]
    refine mean_le_mean fun i => ?_
    nlinarith [sq_nonneg (A n ω i - a0 (W i ω) - X n ω i)]
  · refine ((h.closePsi.const_mul 2).add (hXY.const_mul 2)).mono (Eventually.of_forall fun n ω => ?_)
    rw [abs_of_nonneg (mean_sq_nonneg' _)]
    refine le_trans ?_ (le_abs_self _)
    rw [← mean_mul_left, ← mean_mul_left, ← mean_add]
    refine mean_le_mean fun i => ?_
    have e : (A n ω i + X n ω i) * θ + (B n ω i + Y n ω i) - (a0 (W i ω) * θ + b0 (W i ω)) =
      (A n ω i * θ + B n ω i - (a0 (W i ω) * θ + b0 (W i ω))) + (X n ω i * θ + Y n ω i) := by ring
    rw [e]
    generalize A n ω i * θ + B n ω i - (a0 (W i ω) * θ + b0 (W i ω)) = x
    generalize X n ω i * θ + Y n ω i = z
    nlinarith [sq_nonneg (x - z)]
  · refine (h.drift.add hm).mono (Eventually.of_forall fun n ω => le_of_eq (congrArg _ ?_))
    have e : (fun i => (A n ω i + X n ω i) * θ + (B n ω i + Y n ω i)) =
      fun i => (A n ω i * θ + B n ω i) + (X n ω i * θ + Y n ω i) := funext fun i => by ring
    rw [e, mean_add]
    ring

omit [IsProbabilityMeasure P] in
theorem RegularArray.congr {A' B' : ∀ n, Ω → Fin n → ℝ} (h : RegularArray P W A B a0 b0 θ) (eA : ∀ n ω i, A' n ω i = A n ω i)
    (eB : ∀ n ω i, B' n ω i = B n ω i) : RegularArray P W A' B' a0 b0 θ := by
  have h1 : A' = A := by funext n ω i; exact eA n ω i
  have h2 : B' = B := by funext n ω i; exact eB n ω i
  rw [h1, h2]
  exact h

/-- A factor of the score does not change the asymptotic standard deviation. -/
theorem asySd_scale (μ : Measure S) (a0 b0 : S → ℝ) (θ : ℝ) {κ : ℝ} (hκ : κ ≠ 0) :
    asySd μ (fun w => κ * a0 w) (fun w => κ * b0 w) θ = asySd μ a0 b0 θ := by
  unfold asySd
  have e : (fun w => (κ * a0 w * θ + κ * b0 w) ^ 2) = fun w => κ ^ 2 * (a0 w * θ + b0 w) ^ 2 := funext fun w => by ring
  rw [e, integral_const_mul, integral_const_mul, Real.sqrt_mul (sq_nonneg _), Real.sqrt_sq_eq_abs, abs_mul,
    mul_div_mul_left _ _ (abs_pos.2 hκ).ne']

end

/-! ## Inverse probability weights -/

section Ipw

variable {𝒳 : Type*} [MeasurableSpace 𝒳] {y u : S → ℝ} {ξ : S → 𝒳} {g m : 𝒳 → ℝ} {τ : ℝ} {s K : ℕ} {St : S → Fin s}
  {c : ∀ n, (Fin n → Fin s) → Scheme K n} {gh mh : ∀ n, Fin K → (Fin n → S) → 𝒳 → ℝ}

/-- The weight `u (1 / m(ξ) - e)`; for `e = 0` the inverse probability, for `e = 1` the odds. -/
noncomputable def invWt (e : ℝ) (u : S → ℝ) (ξ : S → 𝒳) (m : 𝒳 → ℝ) (w : S) : ℝ := u w * ((m (ξ w))⁻¹ - e)

/-- The weighted residual. -/
noncomputable def ipwRes (e : ℝ) (y u : S → ℝ) (ξ : S → 𝒳) (g m : 𝒳 → ℝ) (w : S) : ℝ :=
  u w * (y w - g (ξ w)) * ((m (ξ w))⁻¹ - e)

theorem inv_sub_inv_bdd {τ a b : ℝ} (hτ : 0 < τ) (ha : τ ≤ a) (hb : τ ≤ b) : |a⁻¹ - b⁻¹| ≤ τ⁻¹ * τ⁻¹ * |a - b| := by
  have h1 := (hτ.trans_le ha).ne'
  have h2 := (hτ.trans_le hb).ne'
  have e3 : a⁻¹ - b⁻¹ = -(a⁻¹ * b⁻¹) * (a - b) := by
    field_simp
    ring
  rw [e3, abs_mul, abs_neg, abs_mul]
  refine mul_le_mul_of_nonneg_right ?_ (abs_nonneg _)
  exact mul_le_mul (inv_bdd hτ ha) (inv_bdd hτ hb) (abs_nonneg _) (by positivity)

theorem ipw_factor {e τ a : ℝ} (hτ : 0 < τ) (ha : τ ≤ a) : |a⁻¹ - e| ≤ τ⁻¹ + |e| :=
  (abs_sub _ _).trans (add_le_add (inv_bdd hτ ha) le_rfl)

variable (law : ArmLaw (P.map (W 0)) y u ξ g m τ 4) (hb : ∀ n k t x, τ ≤ mh n k t x ∧ mh n k t x ≤ 1)

include law hb in
theorem ipw_close (e : ℝ) (k : Fin K) (n : ℕ) (ω : Ω) :
    eLpNorm (fun w => invWt e u ξ (mh n k (sample W n ω)) w - invWt e u ξ m w) 2 (P.map (W 0)) ≤
      ENNReal.ofReal (τ⁻¹ * τ⁻¹) * errNorm P W ξ mh m 2 k n ω := by
  have hτ := law.pos
  have : ∀ w, ‖invWt e u ξ (mh n k (sample W n ω)) w - invWt e u ξ m w‖ ≤
      ‖(τ⁻¹ * τ⁻¹) * (mh n k (sample W n ω) (ξ w) - m (ξ w))‖ := fun w => by
    unfold invWt
    rw [← mul_sub, sub_sub_sub_cancel_right, norm_mul, norm_mul, Real.norm_eq_abs, Real.norm_eq_abs, Real.norm_eq_abs, Real.norm_eq_abs,
      abs_of_pos (a := τ⁻¹ * τ⁻¹) (by positivity)]
    calc _ ≤ 1 * (τ⁻¹ * τ⁻¹ * |mh n k (sample W n ω) (ξ w) - m (ξ w)|) :=
          mul_le_mul (law.unit_abs w) (inv_sub_inv_bdd hτ (hb n k _ _).1 (law.overlap _).1) (abs_nonneg _) zero_le_one
      _ = _ := one_mul _
  refine (eLpNorm_mono this).trans (le_of_eq ?_)
  rw [eLpNorm_smul_real, abs_of_pos (a := τ⁻¹ * τ⁻¹) (by positivity)]
  rfl

variable [IsProbabilityMeasure P]

include law hb in
/-- Estimated weights. -/
theorem ipw_near (hW : Iid P W) (hm : Honest ξ St c mh) (em : ∀ k, oPE P (errNorm P W ξ mh m 2 k)) (e : ℝ) :
    Near P W St c (fun n k t => invWt e u ξ (mh n k t)) (invWt e u ξ m) := by
  have hμ := hW.prob 0
  have hτ := law.pos
  have m0 : Measurable (invWt e u ξ m) := law.measU.mul ((law.measM.comp law.measX).inv.sub measurable_const)
  refine ⟨fun n k => ?_, fun n k t t' hs ht => ?_, m0, ?_, fun k => ?_⟩
  · exact (law.measU.comp measurable_snd).mul ((hm.measJ law.measX n k).inv.sub measurable_const)
  · funext w
    have h2 : mh n k t (ξ w) = mh n k t' (ξ w) := congrFun (hm.uses n k t t' hs ht) w
    unfold invWt
    rw [h2]
  · refine memLp_of_bdd (C := 1 * (τ⁻¹ + |e|)) m0 fun w => ?_
    unfold invWt
    rw [abs_mul]
    exact mul_le_mul (law.unit_abs w) (ipw_factor hτ (law.overlap _).1) (abs_nonneg _) zero_le_one
  · exact ((em k).const_mul (c := ENNReal.ofReal (τ⁻¹ * τ⁻¹)) (by simp)).mono fun n ω => ipw_close law hb e k n ω

include law in
theorem ipwRes_null (hW : Iid P W) (e : ℝ) : Null (P.map (W 0)) (ipwRes e y u ξ g m) := by
  have hμ := hW.prob 0
  have law2 := law.mono (q := 2) (by norm_num)
  exact law2.noise.null law2.measX law2.memNoise (f := fun x => (m x)⁻¹ - e) (law2.measM.inv.sub measurable_const)
    (memLp_of_bdd ((law2.measM.comp law2.measX).inv.sub measurable_const) fun w => ipw_factor law.pos (law.overlap _).1)

include law hb in
/-- Residuals with estimated weights. -/
theorem ipwRes_near (hW : Iid P W) (hg : Honest ξ St c gh) (hm : Honest ξ St c mh) (eg : ∀ k, oPE P (errNorm P W ξ gh g 2 k))
    (em : ∀ k, oPE P (errNorm P W ξ mh m 2 k)) (e : ℝ) :
    Near P W St c (fun n k t => ipwRes e y u ξ (gh n k t) (mh n k t)) (ipwRes e y u ξ g m) ∧
    ∀ k n ω, errNorm P W ξ gh g 2 k n ω ≤ 1 →
      ENNReal.ofReal |bias P W (fun n k t => ipwRes e y u ξ (gh n k t) (mh n k t)) (ipwRes e y u ξ g m) k n ω| ≤
        ENNReal.ofReal (τ⁻¹ + |e|) * errNorm P W ξ gh g 2 k n ω := by
  have hμ := hW.prob 0
  have hτ := law.pos
  have law2 := law.mono (q := 2) (by norm_num)
  have mΔg : ∀ n k t, Measurable fun w => gh n k t (ξ w) - g (ξ w) := fun n k t => ((hg.measAt n k t).sub law.measG).comp law.measX
  have mmh : ∀ n k t, Measurable fun w => mh n k t (ξ w) := fun n k t => (hm.measAt n k t).comp law.measX
  have mres : Measurable fun w => u w * (y w - g (ξ w)) := law.measU.mul (law.measY.sub (law.measG.comp law.measX))
  have m0 : Measurable (ipwRes e y u ξ g m) := mres.mul ((law.measM.comp law.measX).inv.sub measurable_const)
  have m1 : ∀ n k t, Measurable fun w => u w * ((mh n k t (ξ w))⁻¹ - e) := fun n k t =>
    law.measU.mul ((mmh n k t).inv.sub measurable_const)
  have m2 : ∀ n k t, Measurable fun w => (mh n k t (ξ w))⁻¹ - (m (ξ w))⁻¹ := fun n k t =>
    (mmh n k t).inv.sub (law.measM.comp law.measX).inv
  have key : ∀ n k t w, ipwRes e y u ξ (gh n k t) (mh n k t) w - ipwRes e y u ξ g m w =
      (u w * (y w - g (ξ w))) * ((mh n k t (ξ w))⁻¹ - (m (ξ w))⁻¹) - (gh n k t (ξ w) - g (ξ w)) * (u w * ((mh n k t (ξ w))⁻¹ - e)) :=
    fun n k t w => by
      unfold ipwRes
      ring
  have first : ∀ n k ω, eLpNorm (fun w => (gh n k (sample W n ω) (ξ w) - g (ξ w)) * (u w * ((mh n k (sample W n ω) (ξ w))⁻¹ - e))) 2
      (P.map (W 0)) ≤ ENNReal.ofReal (τ⁻¹ + |e|) * errNorm P W ξ gh g 2 k n ω := fun n k ω => by
    have : ∀ w, ‖(gh n k (sample W n ω) (ξ w) - g (ξ w)) * (u w * ((mh n k (sample W n ω) (ξ w))⁻¹ - e))‖ ≤
        ‖(τ⁻¹ + |e|) * (gh n k (sample W n ω) (ξ w) - g (ξ w))‖ := fun w => by
      have hp : 0 < τ⁻¹ + |e| := by positivity
      rw [Real.norm_eq_abs, Real.norm_eq_abs, mul_comm, abs_mul, abs_mul (τ⁻¹ + |e|), abs_of_pos hp]
      refine mul_le_mul_of_nonneg_right ?_ (abs_nonneg _)
      rw [abs_mul]
      calc _ ≤ 1 * (τ⁻¹ + |e|) := mul_le_mul (law.unit_abs w) (ipw_factor hτ (hb n k _ _).1) (abs_nonneg _) zero_le_one
        _ = _ := one_mul _
    refine (eLpNorm_mono this).trans (le_of_eq ?_)
    rw [eLpNorm_smul_real, abs_of_pos (a := τ⁻¹ + |e|) (by positivity)]
    rfl
  refine ⟨⟨fun n k => ?_, fun n k t t' hs ht => ?_, m0, ?_, fun k => ?_⟩, fun k n ω h1 => ?_⟩
  · exact ((law.measU.comp measurable_snd).mul ((law.measY.comp measurable_snd).sub (hg.measJ law.measX n k))).mul
      ((hm.measJ law.measX n k).inv.sub measurable_const)
  · funext w
    have h1 : gh n k t (ξ w) = gh n k t' (ξ w) := congrFun (hg.uses n k t t' hs ht) w
    have h2 : mh n k t (ξ w) = mh n k t' (ξ w) := congrFun (hm.uses n k t t' hs ht) w
    unfold ipwRes
    rw [h1, h2]
  · exact memLp_bdd_mul law2.memNoise ((law.measM.comp law.measX).inv.sub measurable_const) fun w => ipw_factor hτ (law.overlap _).1
  · have h4 : oPE P fun n ω => eLpNorm (fun w => mh n k (sample W n ω) (ξ w) - m (ξ w)) 4 (P.map (W 0)) :=
      oPE.four (em k) fun n ω w => by
        have h1 := hb n k (sample W n ω) (ξ w)
        have h2 := law.overlap (ξ w)
        rw [_root_.abs_le]
        constructor <;> linarith
    have hB := ((h4.const_mul (c := ENNReal.ofReal (τ⁻¹ * τ⁻¹)) (by simp)).mul_const law.memNoise.2.ne).add
      ((eg k).const_mul (c := ENNReal.ofReal (τ⁻¹ + |e|)) (by simp))
    refine hB.mono fun n ω => ?_
    rw [show (fun w => ipwRes e y u ξ (gh n k (sample W n ω)) (mh n k (sample W n ω)) w - ipwRes e y u ξ g m w) = _ from funext (key n k (sample W n ω))]
    refine (eLpNorm_sub_le' one_le_two (mres.mul (m2 n k _)) ((mΔg n k _).mul (m1 n k _))).trans (add_le_add ?_ (first n k ω))
    refine (eLpNorm_mul_four mres (m2 n k _)).trans ?_
    rw [mul_comm]
    refine mul_le_mul_left ?_ _
    have : ∀ w, ‖(mh n k (sample W n ω) (ξ w))⁻¹ - (m (ξ w))⁻¹‖ ≤ ‖(τ⁻¹ * τ⁻¹) * (mh n k (sample W n ω) (ξ w) - m (ξ w))‖ := fun w => by
      rw [norm_mul, Real.norm_eq_abs, Real.norm_eq_abs, Real.norm_eq_abs, abs_of_pos (a := τ⁻¹ * τ⁻¹) (by positivity)]
      exact inv_sub_inv_bdd hτ (hb n k _ _).1 (law.overlap _).1
    refine (eLpNorm_mono this).trans (le_of_eq ?_)
    rw [eLpNorm_smul_real, abs_of_pos (a := τ⁻¹ * τ⁻¹) (by positivity)]
  · have L1 : MemLp (fun w => gh n k (sample W n ω) (ξ w) - g (ξ w)) 2 (P.map (W 0)) :=
      ⟨(mΔg n k _).aestronglyMeasurable, h1.trans_lt ENNReal.one_lt_top⟩
    have n1 : Null (P.map (W 0)) fun w => u w * (y w - g (ξ w)) * ((mh n k (sample W n ω) (ξ w))⁻¹ - (m (ξ w))⁻¹) :=
      law2.noise.null law2.measX law2.memNoise (f := fun x => (mh n k (sample W n ω) x)⁻¹ - (m x)⁻¹)
        ((hm.measAt n k _).inv.sub law2.measM.inv) (memLp_of_bdd (C := τ⁻¹ + τ⁻¹) (m2 n k _) fun w =>
          (abs_sub _ _).trans (add_le_add (inv_bdd hτ (hb n k _ _).1) (inv_bdd hτ (law.overlap _).1)))
    have M2 : MemLp (fun w => (gh n k (sample W n ω) (ξ w) - g (ξ w)) * (u w * ((mh n k (sample W n ω) (ξ w))⁻¹ - e))) 2 (P.map (W 0)) :=
      ⟨((mΔg n k _).mul (m1 n k _)).aestronglyMeasurable, (first n k ω).trans_lt
        (ENNReal.mul_lt_top ENNReal.ofReal_lt_top (h1.trans_lt ENNReal.one_lt_top))⟩
    have i2 := M2.integrable one_le_two
    have e1 : bias P W (fun n k t => ipwRes e y u ξ (gh n k t) (mh n k t)) (ipwRes e y u ξ g m) k n ω =
        -∫ w, (gh n k (sample W n ω) (ξ w) - g (ξ w)) * (u w * ((mh n k (sample W n ω) (ξ w))⁻¹ - e)) ∂(P.map (W 0)) := by
      unfold bias
      simp only [key]
      have := integral_sub n1.1 i2
      rw [n1.2, zero_sub] at this
      exact this
    rw [e1, abs_neg]
    have h3 := integral_mul_le (μ := P.map (W 0)) ((mΔg n k (sample W n ω)).mul (m1 n k (sample W n ω))) (measurable_const (a := (1 : ℝ)))
    simp only [mul_one] at h3
    refine h3.trans ?_
    have h4 : eLpNorm (fun _ : S => (1 : ℝ)) 2 (P.map (W 0)) = 1 := by
      rw [eLpNorm_const _ (by norm_num) (IsProbabilityMeasure.ne_zero _)]
      simp
    rw [h4, mul_one]
    exact first n k ω

include law hb in
/-- Weights that are divided by their average. -/
theorem ipw_shift (hW : Iid P W) (hSt : Measurable St) (hc : StrataBalanced c) (hg : Honest ξ St c gh) (hm : Honest ξ St c mh)
    (eg : ∀ k, oPE P (errNorm P W ξ gh g 2 k)) (em : ∀ k, oPE P (errNorm P W ξ mh m 2 k))
    (rate : ∀ k k', oPE P fun n ω => ENNReal.ofReal (Real.sqrt n) * (errNorm P W ξ mh m 2 k n ω * errNorm P W ξ gh g 2 k' n ω))
    (e e' : ℝ) (hp : ∫ w, invWt e u ξ m w ∂(P.map (W 0)) ≠ 0) :
    oP P fun n ω => Real.sqrt n * (((mean (crossVal St c (fun n k t => invWt e u ξ (mh n k t)) W n ω))⁻¹ -
      (∫ w, invWt e u ξ m w ∂(P.map (W 0)))⁻¹) * mean (crossVal St c (fun n k t => ipwRes e' y u ξ (gh n k t) (mh n k t)) W n ω)) := by
  have hμ := hW.prob 0
  obtain ⟨hR, hbias⟩ := ipwRes_near law hb hW hg hm eg em e'
  have hI := ipw_near law hb hW hm em e (St := St) (c := c)
  refine weight_shift hW hSt hc hI hR hp (ipwRes_null law hW e').2 fun k k' => ?_
  refine oP_of_bound ((rate k k').const_mul (c := ENNReal.ofReal (τ⁻¹ * τ⁻¹) * ENNReal.ofReal (τ⁻¹ + |e'|))
    (ENNReal.mul_ne_top ENNReal.ofReal_ne_top ENNReal.ofReal_ne_top)) (eg k') fun n ω h1 => ?_
  have h2 := hbias k' n ω h1
  have h3 : ENNReal.ofReal |bias P W (fun n k t => invWt e u ξ (mh n k t)) (invWt e u ξ m) k n ω| ≤
      ENNReal.ofReal (τ⁻¹ * τ⁻¹) * errNorm P W ξ mh m 2 k n ω := by
    have m1 : Measurable fun w => invWt e u ξ (mh n k (sample W n ω)) w - invWt e u ξ m w :=
      (hI.measDiff n k).comp (measurable_const.prodMk measurable_id)
    have h3 := integral_mul_le (μ := P.map (W 0)) m1 (measurable_const (a := (1 : ℝ)))
    simp only [mul_one] at h3
    have h4 : eLpNorm (fun _ : S => (1 : ℝ)) 2 (P.map (W 0)) = 1 := by
      rw [eLpNorm_const _ (by norm_num) (IsProbabilityMeasure.ne_zero _)]
      simp
    rw [h4, mul_one] at h3
    exact h3.trans (ipw_close law hb e k n ω)
  rw [abs_mul, abs_mul, abs_of_nonneg (Real.sqrt_nonneg _), ENNReal.ofReal_mul (Real.sqrt_nonneg _), ENNReal.ofReal_mul (abs_nonneg _)]
  refine (mul_le_mul_right (mul_le_mul' h3 h2) _).trans (le_of_eq ?_)
  ring

end Ipw

end DML
