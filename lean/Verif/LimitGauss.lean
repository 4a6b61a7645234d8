import Verif.LimitInference
import Mathlib.Probability.Distributions.Gaussian.Multivariate
import Mathlib.MeasureTheory.Measure.LevyConvergence

/-!
# Large samples: the largest of several correlated normal variables

Probability that all components of a normal vector with unit variances lie between `-x` and `x`, as a function of `x`:
continuous, strictly increasing, hence with exactly one quantile for every level.  Nothing here models code of the package.
-/

namespace DML

open MeasureTheory ProbabilityTheory Filter Topology
open scoped ENNReal MatrixOrder

variable {p : ℕ}

/-- The box `[-x, x]^p`. -/
def box (p : ℕ) (x : ℝ) : Set (EuclideanSpace ℝ (Fin p)) := {v | ∀ j, |v j| ≤ x}

/-- The probability that no component exceeds `x` in absolute value, for a centred normal vector with covariance matrix `R`. -/
noncomputable def maxProb (R : Matrix (Fin p) (Fin p) ℝ) (x : ℝ) : ℝ := (multivariateGaussian 0 R).real (box p x)

/-- A correlation matrix. -/
structure IsCorr (R : Matrix (Fin p) (Fin p) ℝ) : Prop where
  psd : R.PosSemidef
  unit : ∀ j, R j j = 1

section
variable {R : Matrix (Fin p) (Fin p) ℝ}

theorem isClosed_box (x : ℝ) : IsClosed (box p x) := by
  have : box p x = ⋂ j, {v : EuclideanSpace ℝ (Fin p) | |v j| ≤ x} := by
    ext v
    simp [box]
  rw [this]
  exact isClosed_iInter fun j => isClosed_le (by fun_prop) continuous_const

theorem measurableSet_box (x : ℝ) : MeasurableSet (box p x) := (isClosed_box x).measurableSet

theorem IsCorr.eval (h : IsCorr R) (j : Fin p) : MeasurePreserving (fun v : EuclideanSpace ℝ (Fin p) => v j)
    (multivariateGaussian 0 R) (gaussianReal 0 1) := by
  have := measurePreserving_eval_multivariateGaussian (μ := 0) h.psd (i := j)
  rw [h.unit j] at this
  simpa using this

theorem IsCorr.one (h : IsCorr R) (j : Fin p) {x : ℝ} (hx : 0 ≤ x) :
    (multivariateGaussian 0 R).real {v | |v j| ≤ x} = 2 * Phi x - 1 := by
  rw [← gauss_Icc hx]
  unfold Measure.real
  rw [← (h.eval j).measure_preimage measurableSet_Icc.nullMeasurableSet]
  congr 2
  ext v
  rw [Set.mem_ofPred_eq, Set.mem_preimage, Set.mem_Icc, abs_le]

theorem IsCorr.edge (h : IsCorr R) (x : ℝ) : multivariateGaussian 0 R (frontier (box p x)) = 0 := by
  have hsub : frontier (box p x) ⊆ ⋃ j, {v : EuclideanSpace ℝ (Fin p) | |v j| = x} := by
    intro v hv
    rw [(isClosed_box x).frontier_eq] at hv
    by_contra hc
    simp only [Set.mem_iUnion, Set.mem_ofPred_eq, not_exists] at hc
    refine hv.2 (mem_interior.2 ⟨⋂ j, {v : EuclideanSpace ℝ (Fin p) | |v j| < x}, ?_, ?_, ?_⟩)
    · intro w hw j
      have := Set.mem_iInter.1 hw j
      exact le_of_lt this
    · exact isOpen_iInter_of_finite fun j => isOpen_lt (by fun_prop) continuous_const
    · exact Set.mem_iInter.2 fun j => lt_of_le_of_ne (hv.1 j) (hc j)
  refine measure_mono_null hsub (measure_iUnion_null fun j => ?_)
  have hf : MeasurableSet ({x, -x} : Set ℝ) := (Set.toFinite _).measurableSet
  have := (h.eval j).measure_preimage hf.nullMeasurableSet
  rw [Set.Finite.measure_zero (Set.toFinite ({x, -x} : Set ℝ)) (gaussianReal 0 1)] at this
  refine measure_mono_null ?_ this
  intro v hv
  rw [Set.mem_preimage, Set.mem_insert_iff, Set.mem_singleton_iff]
  rw [Set.mem_ofPred_eq] at hv
  rcases abs_choice (v j) with h' | h' <;> rw [h'] at hv
  · exact .inl hv
  · exact .inr (by linarith)

theorem maxProb_mono (R : Matrix (Fin p) (Fin p) ℝ) : Monotone (maxProb R) := fun _ _ hxy =>
  measureReal_mono (fun _ hv j => (hv j).trans hxy) (measure_ne_top _ _)

theorem IsCorr.lip (h : IsCorr R) {x y : ℝ} (hx : 0 ≤ x) (hxy : x ≤ y) : maxProb R y - maxProb R x ≤ 2 * p * (y - x) := by
  have hsub : box p y ⊆ box p x ∪ ⋃ j, ({v : EuclideanSpace ℝ (Fin p) | |v j| ≤ y} \ {v | |v j| ≤ x}) := by
    intro v hv
    by_cases hb : v ∈ box p x
    · exact .inl hb
    · unfold box at hb
      rw [Set.mem_ofPred_eq, not_forall] at hb
      obtain ⟨j, hj⟩ := hb
      exact .inr (Set.mem_iUnion.2 ⟨j, hv j, hj⟩)
  have h1 : maxProb R y ≤ maxProb R x + ∑ j, (multivariateGaussian 0 R).real
      ({v : EuclideanSpace ℝ (Fin p) | |v j| ≤ y} \ {v | |v j| ≤ x}) :=
    (measureReal_mono hsub (measure_ne_top _ _)).trans ((measureReal_union_le _ _).trans
      (add_le_add le_rfl (measureReal_iUnion_fintype_le _)))
  have h2 : ∀ j : Fin p, (multivariateGaussian 0 R).real ({v : EuclideanSpace ℝ (Fin p) | |v j| ≤ y} \ {v | |v j| ≤ x}) ≤
      2 * (y - x) := by
    intro j
    have hm : MeasurableSet {v : EuclideanSpace ℝ (Fin p) | |v j| ≤ x} := measurableSet_le (by fun_prop) measurable_const
    have hs : {v : EuclideanSpace ℝ (Fin p) | |v j| ≤ x} ⊆ {v | |v j| ≤ y} := fun v hv => le_trans hv hxy
    rw [measureReal_sdiff hs hm, h.one j (hx.trans hxy), h.one j hx]
    have := Phi_lipschitz y x
    rw [abs_of_nonneg (sub_nonneg.2 hxy)] at this
    linarith [le_abs_self (Phi y - Phi x)]
  have h3 := Finset.sum_le_sum fun j (_ : j ∈ Finset.univ) => h2 j
  rw [Finset.sum_const, Finset.card_univ, Fintype.card_fin, nsmul_eq_mul] at h3
  linarith

theorem IsCorr.continuousAt (h : IsCorr R) {q : ℝ} (hq : 0 < q) : ContinuousAt (maxProb R) q := by
  rw [Metric.continuousAt_iff]
  intro ε hε
  refine ⟨min q (ε / (2 * p + 1)), lt_min hq (div_pos hε (by positivity)), fun {y} hy => ?_⟩
  rw [Real.dist_eq] at hy ⊢
  have hy1 : |y - q| < q := hy.trans_le (min_le_left _ _)
  have hy2 : |y - q| < ε / (2 * p + 1) := hy.trans_le (min_le_right _ _)
  have hy0 : 0 ≤ y := by linarith [(abs_lt.1 hy1).1]
  have hp : (0 : ℝ) < 2 * p + 1 := by positivity
  rw [lt_div_iff₀ hp] at hy2
  have hle : |maxProb R y - maxProb R q| ≤ 2 * p * |y - q| := by
    rcases le_total q y with hqy | hqy
    · rw [abs_of_nonneg (sub_nonneg.2 (maxProb_mono R hqy)), abs_of_nonneg (sub_nonneg.2 hqy)]
      exact h.lip hq.le hqy
    · rw [abs_sub_comm, abs_sub_comm y, abs_of_nonneg (sub_nonneg.2 (maxProb_mono R hqy)), abs_of_nonneg (sub_nonneg.2 hqy)]
      exact h.lip hy0 hqy
  nlinarith [abs_nonneg (y - q)]

theorem IsCorr.zero (h : IsCorr R) (hp : 0 < p) : maxProb R 0 = 0 := by
  refine le_antisymm ?_ measureReal_nonneg
  have h1 := h.one ⟨0, hp⟩ le_rfl
  have h0 : 2 * Phi 0 - 1 = 0 := by rw [Phi_zero]; norm_num
  rw [h0] at h1
  refine le_trans ?_ h1.le
  exact measureReal_mono (fun v hv => hv _) (measure_ne_top _ _)

theorem IsCorr.large (h : IsCorr R) {l : ℝ} (hl : l < 1) : ∃ x, 0 < x ∧ l < maxProb R x := by
  set δ := min (1 / 4) ((1 - l) / (4 * (p + 1))) with hδ
  have hp : (0 : ℝ) < p + 1 := by positivity
  have h0 : 0 < δ := lt_min (by norm_num) (div_pos (by linarith) (by positivity))
  have h1 : δ ≤ 1 / 4 := min_le_left _ _
  have h2 : δ * (4 * (p + 1)) ≤ 1 - l := by
    rw [← le_div_iff₀ (by positivity)]
    exact min_le_right _ _
  have hx : 0 < ppf (1 - δ) := ppf_pos (by linarith) (by linarith)
  refine ⟨ppf (1 - δ), hx, ?_⟩
  have hΦ : Phi (ppf (1 - δ)) = 1 - δ := Phi_ppf (by linarith) (by linarith)
  generalize ppf (1 - δ) = x at hx hΦ
  have hsub : (box p x)ᶜ ⊆ ⋃ j, {v : EuclideanSpace ℝ (Fin p) | |v j| ≤ x}ᶜ := by
    intro v hv
    unfold box at hv
    rw [Set.mem_compl_iff, Set.mem_ofPred_eq, not_forall] at hv
    exact Set.mem_iUnion.2 hv
  have h3 := (measureReal_mono (μ := multivariateGaussian 0 R) hsub (measure_ne_top _ _)).trans (measureReal_iUnion_fintype_le _)
  rw [probReal_compl_eq_one_sub (measurableSet_box x)] at h3
  have h4 : ∀ j : Fin p, (multivariateGaussian 0 R).real {v : EuclideanSpace ℝ (Fin p) | |v j| ≤ x}ᶜ = 2 * δ := by
    intro j
    rw [probReal_compl_eq_one_sub (measurableSet_le (by fun_prop) measurable_const), h.one j hx.le, hΦ]
    ring
  rw [Finset.sum_congr rfl fun j _ => h4 j, Finset.sum_const, Finset.card_univ, Fintype.card_fin, nsmul_eq_mul] at h3
  unfold maxProb
  nlinarith

theorem IsCorr.exists_quantile (h : IsCorr R) (hp : 0 < p) {l : ℝ} (h0 : 0 < l) (h1 : l < 1) : ∃ q, 0 < q ∧ maxProb R q = l := by
  obtain ⟨x, hx, hlx⟩ := h.large h1
  have hc : ContinuousOn (maxProb R) (Set.Icc 0 x) := by
    intro y hy
    rcases hy.1.eq_or_lt with h' | h'
    · rw [← h', Metric.continuousWithinAt_iff]
      intro ε hε
      have hpp : (0 : ℝ) < 2 * p + 1 := by positivity
      refine ⟨ε / (2 * p + 1), div_pos hε hpp, fun z hz hd => ?_⟩
      rw [Real.dist_eq, sub_zero, abs_of_nonneg hz.1, lt_div_iff₀ hpp] at hd
      rw [Real.dist_eq, abs_of_nonneg (sub_nonneg.2 (maxProb_mono R hz.1))]
      have := h.lip le_rfl hz.1
      have := hz.1
      nlinarith
    · exact (h.continuousAt h').continuousWithinAt
  have := intermediate_value_Icc hx.le hc
  obtain ⟨q, hq, hql⟩ := this ⟨by rw [h.zero hp]; exact h0.le, hlx.le⟩
  refine ⟨q, lt_of_le_of_ne hq.1 fun e => ?_, hql⟩
  rw [← e, h.zero hp] at hql
  exact h0.ne hql

theorem gauss_open_pos : (gaussianReal 0 1).IsOpenPosMeasure :=
  (gaussianReal_absolutelyContinuous' 0 one_ne_zero).isOpenPosMeasure

theorem IsCorr.strict (h : IsCorr R) (hp : 0 < p) {x y : ℝ} (hx : 0 ≤ x) (hxy : x < y) : maxProb R x < maxProb R y := by
  have := gauss_open_pos
  let L := Matrix.toEuclideanCLM (𝕜 := ℝ) (CFC.sqrt R)
  let g : (Fin p → ℝ) → EuclideanSpace ℝ (Fin p) := fun u => 0 + L (WithLp.toLp 2 u)
  have hg : multivariateGaussian 0 R = (Measure.pi fun _ : Fin p => gaussianReal 0 1).map g := by
    unfold multivariateGaussian
    rw [← map_pi_eq_stdGaussian, Measure.map_map (by fun_prop) (by fun_prop)]
    rfl
  have mg : Measurable g := by fun_prop
  have cg : Continuous g := by fun_prop
  have hne : ∃ u j, g u j ≠ 0 := by
    by_contra hc
    push Not at hc
    have h1 := h.one ⟨0, hp⟩ le_rfl
    have h0 : 2 * Phi 0 - 1 = 0 := by rw [Phi_zero]; norm_num
    rw [h0, hg, map_measureReal_apply mg (measurableSet_le (by fun_prop) measurable_const)] at h1
    have he : g ⁻¹' {v : EuclideanSpace ℝ (Fin p) | |v ⟨0, hp⟩| ≤ 0} = Set.univ := by
      ext u
      simp [hc u]
    rw [he, probReal_univ] at h1
    exact one_ne_zero h1
  obtain ⟨u0, j0, hu⟩ := hne
  have : Nonempty (Fin p) := ⟨j0⟩
  obtain ⟨j1, hj1⟩ := Finite.exists_max fun j => |g u0 j|
  have hM : 0 < |g u0 j1| := (abs_pos.2 hu).trans_le (hj1 j0)
  let U : Set (Fin p → ℝ) := g ⁻¹' ({v | |v j1| ≤ x}ᶜ ∩ ⋂ j, {v | |v j| < y})
  have hU : IsOpen U := by
    refine IsOpen.preimage cg (IsOpen.inter (isClosed_le (by fun_prop) continuous_const).isOpen_compl ?_)
    exact isOpen_iInter_of_finite fun j => isOpen_lt (by fun_prop) continuous_const
  have hUne : U.Nonempty := by
    refine ⟨((x + y) / 2 / |g u0 j1|) • u0, ?_⟩
    have e : ∀ j, g (((x + y) / 2 / |g u0 j1|) • u0) j = ((x + y) / 2 / |g u0 j1|) * g u0 j := by
      intro j
      show (0 + L (WithLp.toLp 2 (((x + y) / 2 / |g u0 j1|) • u0))) j = ((x + y) / 2 / |g u0 j1|) * (0 + L (WithLp.toLp 2 u0)) j
      rw [WithLp.toLp_smul, map_smul, zero_add, zero_add]
      rfl
    have hc : 0 < (x + y) / 2 / |g u0 j1| := div_pos (by linarith) hM
    constructor
    · rw [Set.mem_compl_iff, Set.mem_ofPred_eq, e, abs_mul, abs_of_pos hc, div_mul_cancel₀ _ hM.ne']
      linarith
    · rw [Set.mem_iInter]
      intro j
      rw [Set.mem_ofPred_eq, e, abs_mul, abs_of_pos hc]
      calc (x + y) / 2 / |g u0 j1| * |g u0 j| ≤ (x + y) / 2 / |g u0 j1| * |g u0 j1| := mul_le_mul_of_nonneg_left (hj1 j) hc.le
        _ = (x + y) / 2 := div_mul_cancel₀ _ hM.ne'
        _ < y := by linarith
  have hpos : 0 < (Measure.pi fun _ : Fin p => gaussianReal 0 1).real U :=
    ENNReal.toReal_pos (hU.measure_pos _ hUne).ne' (measure_ne_top _ _)
  have hle : (Measure.pi fun _ : Fin p => gaussianReal 0 1).real U ≤ (multivariateGaussian 0 R).real (box p y \ box p x) := by
    rw [hg, map_measureReal_apply mg (MeasurableSet.diff (measurableSet_box y) (measurableSet_box x))]
    refine measureReal_mono (fun u hu => ⟨fun j => le_of_lt (Set.mem_iInter.1 hu.2 j), fun hb => hu.1 (hb j1)⟩) (measure_ne_top _ _)
  have hs : box p x ⊆ box p y := fun v hv j => (hv j).trans hxy.le
  rw [measureReal_sdiff hs (measurableSet_box x)] at hle
  unfold maxProb
  linarith

/-! ## Convergence in law -/

theorem IsCorr.charFun (h : IsCorr R) (t : EuclideanSpace ℝ (Fin p)) :
    MeasureTheory.charFun (multivariateGaussian 0 R) t = Complex.exp (-(((∑ j, ∑ l, t j * t l * R j l : ℝ) : ℂ)) / 2) := by
  rw [charFun_multivariateGaussian h.psd]
  congr 1
  have e : (t : Fin p → ℝ) ⬝ᵥ R.mulVec t = ∑ j, ∑ l, t j * t l * R j l := by
    unfold dotProduct Matrix.mulVec dotProduct
    refine Finset.sum_congr rfl fun j _ => ?_
    rw [Finset.mul_sum]
    exact Finset.sum_congr rfl fun l _ => by ring
  rw [e]
  simp
  ring

/-- Random vectors whose characteristic functions converge to that of the normal law with correlations `R`. -/
theorem IsCorr.box_tendsto (h : IsCorr R) {μ : ℕ → Measure (EuclideanSpace ℝ (Fin p))} [∀ m, IsProbabilityMeasure (μ m)]
    (hc : ∀ t : EuclideanSpace ℝ (Fin p), Tendsto (fun m => MeasureTheory.charFun (μ m) t) atTop
      (𝓝 (Complex.exp (-(((∑ j, ∑ l, t j * t l * R j l : ℝ) : ℂ)) / 2)))) (x : ℝ) :
    Tendsto (fun m => (μ m).real (box p x)) atTop (𝓝 (maxProb R x)) := by
  let G : ProbabilityMeasure (EuclideanSpace ℝ (Fin p)) := ⟨multivariateGaussian 0 R, inferInstance⟩
  let ν : ℕ → ProbabilityMeasure (EuclideanSpace ℝ (Fin p)) := fun m => ⟨μ m, inferInstance⟩
  have hw : Tendsto ν atTop (𝓝 G) := by
    refine ProbabilityMeasure.tendsto_iff_tendsto_charFun.2 fun t => ?_
    have := hc t
    rw [← h.charFun t] at this
    exact this
  have h2 := ProbabilityMeasure.tendsto_measure_of_null_frontier_of_tendsto' hw (E := box p x) (h.edge x)
  exact (ENNReal.tendsto_toReal (measure_ne_top _ _)).comp h2

/-! ## Linear statistics of independent standard normal variables -/

/-- The components `∑ w_i c_ij` of a linear statistic. -/
def linStat {n : ℕ} (c : Fin n → Fin p → ℝ) (w : Fin n → ℝ) : EuclideanSpace ℝ (Fin p) := WithLp.toLp 2 fun j => ∑ i, w i * c i j

theorem linStat_meas {n : ℕ} (c : Fin n → Fin p → ℝ) : Measurable (linStat c) := by
  unfold linStat
  fun_prop

theorem linStat_charFun {n : ℕ} (c : Fin n → Fin p → ℝ) (t : EuclideanSpace ℝ (Fin p)) :
    MeasureTheory.charFun ((Measure.pi fun _ : Fin n => gaussianReal 0 1).map (linStat c)) t =
      Complex.exp (-(((∑ j, ∑ l, t j * t l * ∑ i, c i j * c i l : ℝ) : ℂ)) / 2) := by
  let a : EuclideanSpace ℝ (Fin n) := WithLp.toLp 2 fun i => ∑ j, c i j * t j
  have hin : ∀ w : Fin n → ℝ, inner ℝ (linStat c w) t = inner ℝ (WithLp.toLp 2 w : EuclideanSpace ℝ (Fin n)) a := by
    intro w
    simp only [PiLp.inner_apply, linStat, a, RCLike.inner_apply, conj_trivial, Finset.mul_sum, Finset.sum_mul]
    rw [Finset.sum_comm]
    exact Finset.sum_congr rfl fun i _ => Finset.sum_congr rfl fun j _ => by ring
  have h1 : MeasureTheory.charFun ((Measure.pi fun _ : Fin n => gaussianReal 0 1).map (linStat c)) t =
      MeasureTheory.charFun ((Measure.pi fun _ : Fin n => gaussianReal 0 1).map (WithLp.toLp 2)) a := by
    rw [charFun_apply, charFun_apply, integral_map (linStat_meas c).aemeasurable (by fun_prop), integral_map (by fun_prop) (by fun_prop)]
    simp only [hin]
  rw [h1, map_pi_eq_stdGaussian, charFun_stdGaussian]
  congr 1
  have e : ‖a‖ ^ 2 = ∑ j, ∑ l, t j * t l * ∑ i, c i j * c i l := by
    rw [EuclideanSpace.real_norm_sq_eq]
    have e1 : ∀ i, (∑ j, c i j * t j) ^ 2 = ∑ j, ∑ l, t j * t l * (c i j * c i l) := fun i => by
      rw [sq, Finset.sum_mul_sum]
      exact Finset.sum_congr rfl fun j _ => Finset.sum_congr rfl fun l _ => by ring
    simp only [a, e1]
    rw [Finset.sum_comm]
    refine Finset.sum_congr rfl fun j _ => ?_
    rw [Finset.sum_comm]
    exact Finset.sum_congr rfl fun l _ => by rw [Finset.mul_sum]
  rw [← e]
  push_cast
  ring

/-- The probability that no component of the statistic exceeds `x` depends continuously on the covariances. -/
theorem IsCorr.near (h : IsCorr R) (x : ℝ) {ε : ℝ} (hε : 0 < ε) : ∃ δ, 0 < δ ∧ ∀ (n : ℕ) (c : Fin n → Fin p → ℝ),
    (∀ j l, |∑ i, c i j * c i l - R j l| < δ) →
      |(Measure.pi fun _ : Fin n => gaussianReal 0 1).real {w | ∀ j, |∑ i, w i * c i j| ≤ x} - maxProb R x| < ε := by
  by_contra hc
  push Not at hc
  choose n c hnear hfar using fun m : ℕ => hc (1 / (m + 1 : ℝ)) (by positivity)
  have hpr : ∀ m, IsProbabilityMeasure ((Measure.pi fun _ : Fin (n m) => gaussianReal 0 1).map (linStat (c m))) := fun m =>
    Measure.isProbabilityMeasure_map (linStat_meas _).aemeasurable
  have hR : ∀ j l, Tendsto (fun m => ∑ i, c m i j * c m i l) atTop (𝓝 (R j l)) := fun j l => by
    rw [tendsto_iff_norm_sub_tendsto_zero]
    refine squeeze_zero (fun _ => norm_nonneg _) (fun m => (hnear m j l).le) tendsto_one_div_add_atTop_nhds_zero_nat
  have ht := h.box_tendsto (μ := fun m => (Measure.pi fun _ : Fin (n m) => gaussianReal 0 1).map (linStat (c m))) (fun t => by
    simp only [linStat_charFun]
    refine (Complex.continuous_exp.tendsto _).comp (Tendsto.div_const (Tendsto.neg ?_) 2)
    refine (Complex.continuous_ofReal.tendsto _).comp ?_
    exact tendsto_finsetSum _ fun j _ => tendsto_finsetSum _ fun l _ => (hR j l).const_mul _) x
  have hev := (Metric.tendsto_atTop.1 ht) ε hε
  obtain ⟨N, hN⟩ := hev
  have h1 := hN N le_rfl
  have h2 := hfar N
  rw [map_measureReal_apply (linStat_meas _) (measurableSet_box x), Real.dist_eq] at h1
  have he : linStat (c N) ⁻¹' box p x = {w | ∀ j, |∑ i, w i * c N i j| ≤ x} := rfl
  rw [he] at h1
  exact absurd h1 (not_lt.2 h2)

end

end DML
