import Verif.LimitBoot

/-!
# Large samples: several parameters at once

Estimates of several parameters with influence functions `ψ j` on the same sample: their standardised errors are jointly
asymptotically normal, the covariances of the bootstrap statistics converge to the limiting correlations, and the joint
confidence intervals with bootstrap critical values cover all parameters with the nominal probability.
Nothing here models code of the package.
-/

namespace DML

open MeasureTheory ProbabilityTheory Filter Topology Finset
open scoped ENNReal

variable {Ω S : Type*} {mΩ : MeasurableSpace Ω} [MeasurableSpace S] {P : Measure Ω} {W : ℕ → Ω → S} {p r : ℕ}

/-! ## Correlations -/

/-- The correlations of influence functions with mean zero. -/
noncomputable def infCorr (μ : Measure S) (ψ : Fin p → S → ℝ) : Matrix (Fin p) (Fin p) ℝ :=
  Matrix.of fun j l => (∫ w, ψ j w * ψ l w ∂μ) / (infSd μ (ψ j) * infSd μ (ψ l))

theorem IsInf.sd_pos {μ : Measure S} {f : S → ℝ} (h : IsInf μ f) : 0 < infSd μ f :=
  Real.sqrt_pos.2 (lt_of_le_of_ne (integral_nonneg fun _ => sq_nonneg _) h.var.symm)

theorem IsInf.sd_sq (μ : Measure S) (f : S → ℝ) : infSd μ f * infSd μ f = ∫ w, f w ^ 2 ∂μ :=
  Real.mul_self_sqrt (integral_nonneg fun _ => sq_nonneg _)

/-- A linear combination of the standardised influence functions. -/
noncomputable def infComb (μ : Measure S) (ψ : Fin p → S → ℝ) (t : Fin p → ℝ) (w : S) : ℝ := ∑ j, t j * (ψ j w / infSd μ (ψ j))

section
variable {μ : Measure S} {ψ : Fin p → S → ℝ} (h : ∀ j, IsInf μ (ψ j))
include h

theorem infComb_meas (t : Fin p → ℝ) : Measurable (infComb μ ψ t) :=
  Finset.measurable_fun_sum _ fun j _ => ((h j).meas.div_const _).const_mul _

theorem infComb_memLp (t : Fin p → ℝ) : MemLp (infComb μ ψ t) 2 μ := by
  refine memLp_finsetSum _ fun j _ => ?_
  simp only [div_eq_mul_inv]
  exact ((h j).sq.mul_const _).const_mul _

theorem infComb_mean [IsProbabilityMeasure μ] (t : Fin p → ℝ) : ∫ w, infComb μ ψ t w ∂μ = 0 := by
  unfold infComb
  rw [integral_finsetSum _ fun j _ => (((h j).sq.integrable one_le_two).div_const _).const_mul _]
  refine Finset.sum_eq_zero fun j _ => ?_
  rw [integral_const_mul, integral_div, (h j).mean]
  simp

theorem infComb_sq (t : Fin p → ℝ) : ∫ w, infComb μ ψ t w ^ 2 ∂μ = ∑ j, ∑ l, t j * t l * infCorr μ ψ j l := by
  have hi : ∀ j l, Integrable (fun w => t j * t l / (infSd μ (ψ j) * infSd μ (ψ l)) * (ψ j w * ψ l w)) μ := fun j l =>
    ((h j).sq.integrable_mul (h l).sq).const_mul _
  have e : ∀ w, infComb μ ψ t w ^ 2 = ∑ j, ∑ l, t j * t l / (infSd μ (ψ j) * infSd μ (ψ l)) * (ψ j w * ψ l w) := fun w => by
    unfold infComb
    rw [sq, Finset.sum_mul_sum]
    refine Finset.sum_congr rfl fun j _ => Finset.sum_congr rfl fun l _ => ?_
    rw [div_mul_eq_mul_div, mul_div_assoc', mul_div_assoc', div_mul_div_comm]
    ring
  simp only [e]
  rw [integral_finsetSum _ fun j _ => integrable_finsetSum _ fun l _ => hi j l]
  refine Finset.sum_congr rfl fun j _ => ?_
  rw [integral_finsetSum _ fun l _ => hi j l]
  refine Finset.sum_congr rfl fun l _ => ?_
  rw [integral_const_mul]
  unfold infCorr
  rw [Matrix.of_apply]
  ring

theorem infCorr_isCorr : IsCorr (infCorr μ ψ) where
  psd := by
    refine Matrix.PosSemidef.of_dotProduct_mulVec_nonneg ?_ fun t => ?_
    · refine Matrix.IsHermitian.ext fun j l => ?_
      unfold infCorr
      simp only [Matrix.of_apply, star_trivial]
      congr 1
      · exact integral_congr_ae (Eventually.of_forall fun w => mul_comm _ _)
      · exact mul_comm _ _
    · have e : star t ⬝ᵥ (infCorr μ ψ).mulVec t = ∑ j, ∑ l, t j * t l * infCorr μ ψ j l := by
        unfold dotProduct Matrix.mulVec dotProduct
        refine Finset.sum_congr rfl fun j _ => ?_
        rw [Finset.mul_sum]
        exact Finset.sum_congr rfl fun l _ => by
          simp only [star_trivial]
          ring
      rw [e, ← infComb_sq h]
      exact integral_nonneg fun _ => sq_nonneg _
  unit j := by
    unfold infCorr
    rw [Matrix.of_apply, IsInf.sd_sq]
    have : ∫ w, ψ j w * ψ j w ∂μ = ∫ w, ψ j w ^ 2 ∂μ := integral_congr_ae (Eventually.of_forall fun w => (sq _).symm)
    rw [this, div_self (h j).var]

end

/-! ## The central limit theorem for vectors -/

/-- The standardised sum of an influence function. -/
noncomputable def infZ (P : Measure Ω) (W : ℕ → Ω → S) (f : S → ℝ) (n : ℕ) (ω : Ω) : ℝ :=
  (∑ i : Fin n, f (W i ω) / infSd (P.map (W 0)) f) / Real.sqrt n

theorem infZ_meas (hW : Iid P W) {f : S → ℝ} (hf : Measurable f) (n : ℕ) : Measurable (infZ P W f n) := by
  have h : Measurable fun ω => ∑ i : Fin n, f (W i ω) / infSd (P.map (W 0)) f :=
    Finset.measurable_fun_sum _ fun (i : Fin n) _ => (hf.comp (hW.meas i)).div_const _
  exact h.div_const _

theorem infZ_normal [IsProbabilityMeasure P] (hW : Iid P W) {f : S → ℝ} (h : IsInf (P.map (W 0)) f) : NormalLimit P (infZ P W f) := by
  refine hW.clt (f := fun w => f w / infSd (P.map (W 0)) f) (h.meas.div_const _) ?_ ?_
  · rw [integral_div, h.mean, zero_div]
  · simp only [div_pow]
    rw [integral_div, sq (infSd _ _), IsInf.sd_sq, div_self h.var]

/-- The central limit theorem for a function with mean zero, whatever its variance. -/
theorem Iid.clt_charFun [IsProbabilityMeasure P] (hW : Iid P W) {g : S → ℝ} (hg : Measurable g) (hL : MemLp g 2 (P.map (W 0)))
    (h0 : ∫ w, g w ∂(P.map (W 0)) = 0) :
    Tendsto (fun n : ℕ => charFun (P.map fun ω => (∑ i : Fin n, g (W i ω)) / Real.sqrt n) 1) atTop
      (𝓝 (Complex.exp (-((∫ w, g w ^ 2 ∂(P.map (W 0)) : ℝ) : ℂ) / 2))) := by
  have hm0 : ∫ ω, g (W 0 ω) ∂P = 0 := by rw [← h0, integral_map (hW.meas 0).aemeasurable hg.aestronglyMeasurable]
  have hv : Var[fun ω => g (W 0 ω); P] = ∫ w, g w ^ 2 ∂(P.map (W 0)) := by
    rw [variance_eq_integral (X := fun ω => g (W 0 ω)) (hg.comp (hW.meas 0)).aemeasurable, hm0, integral_map (hW.meas 0).aemeasurable (hg.pow_const 2).aestronglyMeasurable]
    simp
  have hT := tendstoInDistribution_inv_sqrt_mul_sum_sub (P := P) (P' := gaussianReal 0 Var[fun ω => g (W 0 ω); P].toNNReal)
    (X := fun i ω => g (W i ω)) (Y := id) ⟨aemeasurable_id, Measure.map_id⟩
    (hL.comp_measurePreserving ⟨hW.meas 0, rfl⟩) (hW.indep.comp (fun _ => g) fun _ => hg) fun i => (hW.ident i).comp hg
  have h1 := ProbabilityMeasure.tendsto_iff_tendsto_charFun.1 hT.tendsto 1
  simp only [ProbabilityMeasure.coe_mk, Measure.map_id, charFun_gaussianReal] at h1
  rw [hv, Real.coe_toNNReal _ (integral_nonneg fun _ => sq_nonneg _)] at h1
  have h2 : Complex.exp (-((∫ w, g w ^ 2 ∂(P.map (W 0)) : ℝ) : ℂ) / 2) = Complex.exp (((1 : ℝ) : ℂ) * ((0 : ℝ) : ℂ) * Complex.I -
      ((∫ w, g w ^ 2 ∂(P.map (W 0)) : ℝ) : ℂ) * ((1 : ℝ) : ℂ) ^ 2 / 2) := by
    congr 1
    push_cast
    ring
  rw [h2]
  refine h1.congr fun n => ?_
  congr 2
  funext ω
  rw [hm0, mul_zero, sub_zero, Finset.sum_range, div_eq_inv_mul]

/-- The standardised sums are jointly asymptotically normal. -/
theorem Iid.box [IsProbabilityMeasure P] (hW : Iid P W) {ψ : Fin p → S → ℝ} (h : ∀ j, IsInf (P.map (W 0)) (ψ j)) (x : ℝ) :
    Tendsto (fun n => P.real {ω | ∀ j, |infZ P W (ψ j) n ω| ≤ x}) atTop (𝓝 (maxProb (infCorr (P.map (W 0)) ψ) x)) := by
  have := hW.prob 0
  let Z : ℕ → Ω → EuclideanSpace ℝ (Fin p) := fun n ω => WithLp.toLp 2 fun j => infZ P W (ψ j) n ω
  have mZ : ∀ n, Measurable (Z n) := fun n => by
    have : Measurable fun ω j => infZ P W (ψ j) n ω := measurable_pi_lambda _ fun j => infZ_meas hW (h j).meas n
    exact (by fun_prop : Measurable (WithLp.toLp 2 : (Fin p → ℝ) → EuclideanSpace ℝ (Fin p))).comp this
  have : ∀ n, IsProbabilityMeasure (P.map (Z n)) := fun n => Measure.isProbabilityMeasure_map (mZ n).aemeasurable
  have ht := (infCorr_isCorr h).box_tendsto (μ := fun n => P.map (Z n)) (fun t => ?_) x
  · refine ht.congr fun n => ?_
    rw [map_measureReal_apply (mZ n) (measurableSet_box x)]
    rfl
  · have h1 := hW.clt_charFun (infComb_meas h t) (infComb_memLp h t) (infComb_mean h t)
    rw [infComb_sq h] at h1
    refine h1.congr fun n => ?_
    have hin : ∀ ω, inner ℝ (Z n ω) t = (∑ i : Fin n, infComb (P.map (W 0)) ψ t (W i ω)) / Real.sqrt n := by
      intro ω
      simp only [PiLp.inner_apply, Z, RCLike.inner_apply, conj_trivial, infZ, infComb, Finset.mul_sum, Finset.sum_div]
      rw [Finset.sum_comm]
      exact Finset.sum_congr rfl fun i _ => Finset.sum_congr rfl fun j _ => by ring
    have ms : Measurable fun ω => ∑ i : Fin n, infComb (P.map (W 0)) ψ t (W i ω) :=
      Finset.measurable_fun_sum _ fun (i : Fin n) _ => (infComb_meas h t).comp (hW.meas i)
    rw [charFun_apply, charFun_apply, integral_map (mZ n).aemeasurable (by fun_prop), integral_map (ms.div_const _).aemeasurable (by fun_prop)]
    refine integral_congr_ae (Eventually.of_forall fun ω => ?_)
    simp only [hin]
    simp

/-! ## Covariances of the bootstrap statistics -/

theorem mean_prod [IsProbabilityMeasure P] (hW : Iid P W) {f g : S → ℝ} (hf : IsInf (P.map (W 0)) f) (hg : IsInf (P.map (W 0)) g)
    {U V : ∀ n, Ω → Fin n → ℝ} (hU : oP P fun n ω => mean fun i => (U n ω i - f (W i ω)) ^ 2)
    (hV : oP P fun n ω => mean fun i => (V n ω i - g (W i ω)) ^ 2) :
    oP P fun n ω => mean (fun i => U n ω i * V n ω i) - ∫ w, f w * g w ∂(P.map (W 0)) := by
  have := hW.prob 0
  have h0 := hW.lln (hf.meas.mul hg.meas) (hf.sq.integrable_mul hg.sq)
  have bf := OP_of_sub (hW.lln (hf.meas.pow_const 2) hf.sq.integrable_sq)
  have bg := OP_of_sub (hW.lln (hg.meas.pow_const 2) hg.sq.integrable_sq)
  have h1 : oP P fun n ω => mean fun i : Fin n => f (W i ω) * (V n ω i - g (W i ω)) := by
    refine oP.of_sq ((bf.mul_oP hV).mono (Eventually.of_forall fun n ω => ?_))
    rw [abs_of_nonneg (sq_nonneg _)]
    exact (mean_mul_sq_le _ _).trans (le_abs_self _)
  have h2 : oP P fun n ω => mean fun i : Fin n => g (W i ω) * (U n ω i - f (W i ω)) := by
    refine oP.of_sq ((bg.mul_oP hU).mono (Eventually.of_forall fun n ω => ?_))
    rw [abs_of_nonneg (sq_nonneg _)]
    exact (mean_mul_sq_le _ _).trans (le_abs_self _)
  have h3 : oP P fun n ω => mean fun i : Fin n => (U n ω i - f (W i ω)) * (V n ω i - g (W i ω)) := by
    refine oP.of_sq ((hU.bdd.mul_oP hV).mono (Eventually.of_forall fun n ω => ?_))
    rw [abs_of_nonneg (sq_nonneg _)]
    exact (mean_mul_sq_le _ _).trans (le_abs_self _)
  refine (((h0.add h1).add h2).add h3).mono (Eventually.of_forall fun n ω => le_of_eq ?_)
  congr 1
  rw [sub_add_eq_add_sub, sub_add_eq_add_sub, sub_add_eq_add_sub, ← mean_add, ← mean_add, ← mean_add]
  congr 2
  funext i
  simp only [Pi.mul_apply]
  ring

/-- The covariances of the statistics `∑ ξ_i ψ_ij / (n se_j)` given the data. -/
theorem boot_cov [IsProbabilityMeasure P] (hW : Iid P W) {f g : S → ℝ} (hf : IsInf (P.map (W 0)) f) (hg : IsInf (P.map (W 0)) g)
    {U V : ∀ n, Ω → Fin n → ℝ} (hU : oP P fun n ω => mean fun i => (U n ω i - f (W i ω)) ^ 2)
    (hV : oP P fun n ω => mean fun i => (V n ω i - g (W i ω)) ^ 2) {A B : ℕ → Ω → ℝ}
    (hA : oP P fun n ω => Real.sqrt n * A n ω - infSd (P.map (W 0)) f) (hB : oP P fun n ω => Real.sqrt n * B n ω - infSd (P.map (W 0)) g) :
    oP P fun n ω => ∑ i, U n ω i / (n * A n ω) * (V n ω i / (n * B n ω)) -
      (∫ w, f w * g w ∂(P.map (W 0))) / (infSd (P.map (W 0)) f * infSd (P.map (W 0)) g) := by
  have hp := hA.mul_sub hB
  have hi := hp.continuousAt (f := fun x => x⁻¹) (continuousAt_inv₀ (mul_pos hf.sd_pos hg.sd_pos).ne')
  refine ((mean_prod hW hf hg hU hV).mul_sub hi).mono ?_
  filter_upwards [eventually_gt_atTop 0] with n hn ω
  refine le_of_eq ?_
  have hn' : (0 : ℝ) < n := by exact_mod_cast hn
  have hs : Real.sqrt n * Real.sqrt n = n := Real.mul_self_sqrt hn'.le
  congr 1
  rw [div_eq_mul_inv (∫ w, f w * g w ∂(P.map (W 0)))]
  congr 1
  have e : Real.sqrt n * A n ω * (Real.sqrt n * B n ω) = n * (A n ω * B n ω) := by
    rw [mul_mul_mul_comm, hs]
  rw [e]
  unfold mean
  rw [Finset.sum_div, Finset.sum_mul]
  refine Finset.sum_congr rfl fun i _ => ?_
  rw [div_mul_div_comm, ← div_eq_mul_inv, div_div]
  congr 1
  ring

/-! ## Coverage -/

theorem oP.fst {Ω' : Type*} {mΩ' : MeasurableSpace Ω'} {Q : Measure Ω'} [IsProbabilityMeasure Q] [SFinite P] {X : ℕ → Ω → ℝ} (h : oP P X) :
    oP (P.prod Q) fun n z => X n z.1 := by
  intro ε hε
  refine (h ε hε).congr fun n => ?_
  have : {z : Ω × Ω' | ε ≤ |X n z.1|} = {ω | ε ≤ |X n ω|} ×ˢ Set.univ := by
    ext z
    simp
  rw [this, Measure.prod_prod, measure_univ, mul_one]

/-- Joint coverage of intervals whose standardised end points are close to `Z_j ± q`. -/
theorem joint_cover [IsProbabilityMeasure P] {R : Matrix (Fin p) (Fin p) ℝ} (hR : IsCorr R) {Z L U : Fin p → ℕ → Ω → ℝ}
    (hZ : ∀ x, Tendsto (fun n => P.real {ω | ∀ j, |Z j n ω| ≤ x}) atTop (𝓝 (maxProb R x))) {q : ℝ} (hq : 0 < q)
    (hU : ∀ j, oP P fun n ω => U j n ω - (Z j n ω + q)) (hL : ∀ j, oP P fun n ω => L j n ω - (Z j n ω - q)) :
    Tendsto (fun n => P.real {ω | ∀ j, L j n ω ≤ 0 ∧ 0 ≤ U j n ω}) atTop (𝓝 (maxProb R q)) := by
  have hc : ContinuousAt (fun x => maxProb R (q + x)) 0 := by
    have h1 := hR.continuousAt hq
    refine ContinuousAt.comp (g := maxProb R) (f := fun x => q + x) ?_ (continuousAt_const.add continuousAt_id)
    simpa using h1
  have hs := tendsto_of_sandwich (p := fun n => P.real {ω | ∀ j, L j n ω ≤ 0 ∧ 0 ≤ U j n ω}) hc ?_
  · simpa using hs
  intro ε hε
  let e : ℕ → ℝ := fun n => ∑ j, (P.real {ω | ε ≤ |U j n ω - (Z j n ω + q)|} + P.real {ω | ε ≤ |L j n ω - (Z j n ω - q)|})
  have he : Tendsto e atTop (𝓝 0) := by
    have : Tendsto e atTop (𝓝 (∑ _j : Fin p, (0 + 0))) := tendsto_finsetSum _ fun j _ => ((hU j).real hε).add ((hL j).real hε)
    simpa using this
  let bad : ℕ → Fin p → Set Ω := fun n j => {ω | ε ≤ |U j n ω - (Z j n ω + q)|} ∪ {ω | ε ≤ |L j n ω - (Z j n ω - q)|}
  have hbad : ∀ n, P.real (⋃ j, bad n j) ≤ e n := fun n => by
    have h1 : P.real (⋃ j, bad n j) ≤ ∑ j, P.real (bad n j) := measureReal_iUnion_fintype_le (bad n)
    exact h1.trans (Finset.sum_le_sum fun j _ => measureReal_union_le _ _)
  refine ⟨fun n => P.real {ω | ∀ j, |Z j n ω| ≤ q + -ε} - e n, fun n => P.real {ω | ∀ j, |Z j n ω| ≤ q + ε} + e n, ?_, ?_,
    Eventually.of_forall fun n => ⟨?_, ?_⟩⟩
  · have h1 := (hZ (q + -ε)).sub he
    rw [sub_zero] at h1
    exact h1
  · have h1 := (hZ (q + ε)).add he
    rw [add_zero] at h1
    exact h1
  · rw [sub_le_iff_le_add]
    refine (measureReal_mono (s₂ := {ω | ∀ j, L j n ω ≤ 0 ∧ 0 ≤ U j n ω} ∪ ⋃ j, bad n j) ?_ (measure_ne_top _ _)).trans
      ((measureReal_union_le _ _).trans (add_le_add le_rfl (hbad n)))
    intro ω hω
    by_contra hcon
    rw [Set.mem_union, not_or, Set.mem_iUnion, not_exists] at hcon
    refine hcon.1 fun j => ?_
    have h1 := hcon.2 j
    rw [Set.mem_union, not_or, Set.mem_ofPred_eq, Set.mem_ofPred_eq, not_le, not_le, abs_lt, abs_lt] at h1
    have h2 := _root_.abs_le.1 (hω j)
    constructor <;> linarith [h1.1.1, h1.1.2, h1.2.1, h1.2.2]
  · refine (measureReal_mono (s₂ := {ω | ∀ j, |Z j n ω| ≤ q + ε} ∪ ⋃ j, bad n j) ?_ (measure_ne_top _ _)).trans
      ((measureReal_union_le _ _).trans (add_le_add le_rfl (hbad n)))
    intro ω hω
    by_contra hcon
    rw [Set.mem_union, not_or, Set.mem_iUnion, not_exists] at hcon
    refine hcon.1 fun j => ?_
    have h1 := hcon.2 j
    rw [Set.mem_union, not_or, Set.mem_ofPred_eq, Set.mem_ofPred_eq, not_le, not_le, abs_lt, abs_lt] at h1
    have h2 := hω j
    refine _root_.abs_le.2 ⟨?_, ?_⟩ <;> linarith [h1.1.1, h1.1.2, h1.2.1, h1.2.2]

/-- Joint coverage of the medians over the repetitions, for critical values that converge in probability. -/
theorem agg_joint_cover [IsProbabilityMeasure P] (hr : 0 < r) {R : Matrix (Fin p) (Fin p) ℝ} (hR : IsCorr R) {Z : Fin p → ℕ → Ω → ℝ}
    {σ θ : Fin p → ℝ} {X T : Fin p → ℕ → Ω → Fin r → ℝ} (hσ : ∀ j, 0 < σ j)
    (hZ : ∀ x, Tendsto (fun n => P.real {ω | ∀ j, |Z j n ω| ≤ x}) atTop (𝓝 (maxProb R x)))
    (h : ∀ j k, RepLimit P (Z j) (σ j) (θ j) (fun n ω => X j n ω k) fun n ω => T j n ω k) {q : ℝ} (hq : 0 < q)
    {crit : ℕ → Ω → Fin r → ℝ} (hcrit : ∀ k, oP P fun n ω => crit n ω k - q) :
    Tendsto (fun n => P.real {ω | ∀ j, median (fun k => X j n ω k - T j n ω k * crit n ω k) ≤ θ j ∧
      θ j ≤ median fun k => X j n ω k + T j n ω k * crit n ω k}) atTop (𝓝 (maxProb R q)) := by
  have hn : ∀ᶠ n : ℕ in atTop, 0 < n := eventually_gt_atTop 0
  have key : ∀ (e : ℝ) (j : Fin p), oP P fun n ω =>
      Real.sqrt n * (median (fun k => X j n ω k + T j n ω k * (e * crit n ω k)) - θ j) / σ j - (Z j n ω + e * q) := by
    intro e j
    have h1 := oP.median (P := P) hr (X := fun n ω k => X j n ω k + T j n ω k * (e * crit n ω k))
      (Y := fun n ω => θ j + σ j * (Z j n ω + e * q) / Real.sqrt n) (m := fun n => Real.sqrt n) fun k =>
        ((h j k).linear.add (((h j k).scale.mul_sub (hcrit k)).const_mul e)).mono (by
          filter_upwards [hn] with n hn ω
          refine le_of_eq ?_
          congr 1
          have h3 : Real.sqrt n ≠ 0 := (Real.sqrt_pos.2 (by exact_mod_cast hn)).ne'
          field_simp
          ring)
    refine (h1.const_mul (σ j)⁻¹).mono ?_
    filter_upwards [hn] with n hn ω
    refine le_of_eq ?_
    congr 1
    have h3 : Real.sqrt n ≠ 0 := (Real.sqrt_pos.2 (by exact_mod_cast hn)).ne'
    have h4 := (hσ j).ne'
    generalize median (fun k => X j n ω k + T j n ω k * (e * crit n ω k)) = m
    field_simp
    ring
  have hU := key 1
  have hL := key (-1)
  refine (joint_cover hR hZ hq (U := fun j n ω => Real.sqrt n * (median (fun k => X j n ω k + T j n ω k * (1 * crit n ω k)) - θ j) / σ j)
    (L := fun j n ω => Real.sqrt n * (median (fun k => X j n ω k + T j n ω k * (-1 * crit n ω k)) - θ j) / σ j)
    (by simpa using hU) (by simpa [sub_eq_add_neg] using hL)).congr' ?_
  filter_upwards [hn] with n hn
  congr 1
  ext ω
  have h3 : 0 < Real.sqrt n := Real.sqrt_pos.2 (by exact_mod_cast hn)
  have e1 : ∀ (j : Fin p) (x : ℝ), Real.sqrt n * (x - θ j) / σ j ≤ 0 ↔ x ≤ θ j := fun j x => by
    rw [div_le_iff₀ (hσ j), zero_mul, ← sub_nonpos (a := x)]
    exact ⟨fun h => le_of_not_gt fun hx => absurd h (not_le.2 (mul_pos h3 hx)), fun h => mul_nonpos_of_nonneg_of_nonpos h3.le h⟩
  have e2 : ∀ (j : Fin p) (x : ℝ), 0 ≤ Real.sqrt n * (x - θ j) / σ j ↔ θ j ≤ x := fun j x => by
    rw [le_div_iff₀ (hσ j), zero_mul, ← sub_nonneg (a := x)]
    exact ⟨fun h => le_of_not_gt fun hx => absurd h (not_le.2 (mul_neg_of_pos_of_neg h3 hx)), fun h => mul_nonneg h3.le h⟩
  simp only [Set.mem_ofPred_eq, e1, e2, one_mul, neg_mul, mul_neg, ← sub_eq_add_neg]

end DML
