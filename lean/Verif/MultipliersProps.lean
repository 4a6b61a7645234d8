import Verif.Multipliers
import Verif.InferenceProps
import Mathlib.Probability.Moments.MGFAnalytic
import Mathlib.Probability.Moments.Variance
import Mathlib.Probability.Distributions.Gaussian.HasGaussianLaw.Independence
import Mathlib.MeasureTheory.Integral.Gamma
import Mathlib.Probability.Independence.InfinitePi

/-!
# C76: the multipliers of the bootstrap and the law of the bootstrap statistics

Given the data, multipliers are independent with mean zero and variance one for each of the three methods; bootstrap
statistics have mean zero, variance one, and the correlations of the scores.
-/

namespace DML

open MeasureTheory ProbabilityTheory Finset

variable {n r : ℕ}

/-! ## Moments of the exponential distribution -/

theorem exp_law : expMeasure 1 = (volume.restrict (Set.Ioi (0 : ℝ))).withDensity fun x => ENNReal.ofReal (Real.exp (-x)) := by
  unfold expMeasure gammaMeasure
  rw [← withDensity_indicator measurableSet_Ioi]
  refine withDensity_congr_ae ?_
  have h0 : ∀ᵐ x : ℝ, x ≠ 0 := by
    rw [ae_iff]
    simp
  filter_upwards [h0] with x hx
  show exponentialPDF 1 x = _
  rw [exponentialPDF_eq, Set.indicator]
  by_cases h : 0 < x
  · rw [if_pos h.le, if_pos (Set.mem_Ioi.2 h)]
    simp
  · rw [if_neg (fun h' => h (lt_of_le_of_ne h' (Ne.symm hx))), if_neg (fun h' => h (Set.mem_Ioi.1 h'))]
    simp

theorem exp_meas : Measurable fun x : ℝ => ENNReal.ofReal (Real.exp (-x)) := by fun_prop

theorem exp_integral (f : ℝ → ℝ) : ∫ x, f x ∂expMeasure 1 = ∫ x in Set.Ioi 0, Real.exp (-x) * f x := by
  rw [exp_law, integral_withDensity_eq_integral_toReal_smul exp_meas (by simp)]
  refine integral_congr_ae (Filter.Eventually.of_forall fun x => ?_)
  dsimp only
  rw [ENNReal.toReal_ofReal (Real.exp_pos _).le, smul_eq_mul]

theorem exp_integrable (f : ℝ → ℝ) :
    Integrable f (expMeasure 1) ↔ IntegrableOn (fun x => Real.exp (-x) * f x) (Set.Ioi 0) := by
  rw [exp_law, integrable_withDensity_iff_integrable_smul' exp_meas (by simp)]
  unfold IntegrableOn
  refine integrable_congr (Filter.Eventually.of_forall fun x => ?_)
  dsimp only
  rw [ENNReal.toReal_ofReal (Real.exp_pos _).le, smul_eq_mul]

theorem exp_pow (k : ℕ) : Integrable (fun x : ℝ => x ^ k) (expMeasure 1) ∧ ∫ x, x ^ k ∂expMeasure 1 = k.factorial := by
  have e : ∀ x ∈ Set.Ioi (0 : ℝ), Real.exp (-x) * x ^ k = Real.exp (-x) * x ^ ((k + 1 : ℝ) - 1) := by
    intro x _
    rw [add_sub_cancel_right, Real.rpow_natCast]
  constructor
  · rw [exp_integrable]
    refine (integrableOn_congr_fun e measurableSet_Ioi).2 (Real.GammaIntegral_convergent (by positivity))
  · rw [exp_integral, setIntegral_congr_fun measurableSet_Ioi e, ← Real.Gamma_eq_integral (by positivity),
      Real.Gamma_nat_eq_factorial]

/-! ## Moments of the normal distribution -/

theorem gauss_pow_four : ∫ x, x ^ 4 ∂gaussianReal 0 1 = 3 := by
  have h := iteratedDeriv_mgf_zero (X := id) (μ := gaussianReal 0 1) (by simp) 4
  rw [mgf_id_gaussianReal] at h
  have e1 : ∀ t : ℝ, HasDerivAt (fun t : ℝ => Real.exp (t ^ 2 / 2)) (t * Real.exp (t ^ 2 / 2)) t := by
    intro t
    have h1 : HasDerivAt (fun t : ℝ => t ^ 2 / 2) t t :=
      ((hasDerivAt_pow 2 t).div_const 2).congr_deriv (by norm_num)
    exact h1.exp.congr_deriv (mul_comm _ _)
  have e2 : ∀ t : ℝ, HasDerivAt (fun t : ℝ => t * Real.exp (t ^ 2 / 2)) ((1 + t ^ 2) * Real.exp (t ^ 2 / 2)) t := by
    intro t
    refine ((hasDerivAt_id t).mul (e1 t)).congr_deriv ?_
    simp only [id]
    ring
  have e3 : ∀ t : ℝ, HasDerivAt (fun t : ℝ => (1 + t ^ 2) * Real.exp (t ^ 2 / 2))
      ((3 * t + t ^ 3) * Real.exp (t ^ 2 / 2)) t := by
    intro t
    refine (((hasDerivAt_pow 2 t).const_add 1).mul (e1 t)).congr_deriv ?_
    norm_num
    ring
  have e4 : HasDerivAt (fun t : ℝ => (3 * t + t ^ 3) * Real.exp (t ^ 2 / 2)) 3 0 := by
    refine ((((hasDerivAt_id (0 : ℝ)).const_mul 3).add (hasDerivAt_pow 3 (0 : ℝ))).mul (e1 0)).congr_deriv ?_
    simp
  have h0 : (fun t : ℝ => Real.exp (0 * t + (1 : NNReal) * t ^ 2 / 2)) = fun t => Real.exp (t ^ 2 / 2) := by
    funext t
    simp
  rw [h0] at h
  rw [iteratedDeriv_succ', iteratedDeriv_succ', iteratedDeriv_succ', iteratedDeriv_one] at h
  rw [show deriv (fun t : ℝ => Real.exp (t ^ 2 / 2)) = _ from funext fun t => (e1 t).deriv] at h
  rw [show deriv (fun t : ℝ => t * Real.exp (t ^ 2 / 2)) = _ from funext fun t => (e2 t).deriv] at h
  rw [show deriv (fun t : ℝ => (1 + t ^ 2) * Real.exp (t ^ 2 / 2)) = _ from funext fun t => (e3 t).deriv] at h
  rw [e4.deriv] at h
  rw [h]
  rfl

theorem gauss_integrable (k : ℕ) : Integrable (fun x : ℝ => x ^ k) (gaussianReal 0 1) := by
  have h := (memLp_id_gaussianReal (μ := 0) (v := 1) k).integrable_norm_pow' 
  have h' : Integrable (fun x : ℝ => ‖x ^ k‖) (gaussianReal 0 1) := by
    refine h.congr (Filter.Eventually.of_forall fun x => ?_)
    simp
  exact (integrable_norm_iff (by fun_prop)).1 h'

theorem gauss_pow_two : ∫ x, x ^ 2 ∂gaussianReal 0 1 = 1 := by
  have h := variance_fun_id_gaussianReal (μ := 0) (v := 1)
  rw [variance_eq_integral (by fun_prop)] at h
  simpa [integral_id_gaussianReal] using h

/-! ## Moments of the multipliers -/

instance : IsProbabilityMeasure (expMeasure 1) := isProbabilityMeasure_expMeasure one_pos

instance : IsProbabilityMeasure rawLaw := by
  unfold rawLaw
  infer_instance

theorem raw_exp : MeasurePreserving (fun q : RawDraw => q.1) rawLaw (expMeasure 1) := measurePreserving_fst

theorem raw_norm : MeasurePreserving (fun q : RawDraw => q.2) rawLaw ((gaussianReal 0 1).prod (gaussianReal 0 1)) :=
  measurePreserving_snd

theorem raw_norm1 : MeasurePreserving (fun q : RawDraw => q.2.1) rawLaw (gaussianReal 0 1) :=
  measurePreserving_fst.comp raw_norm

theorem raw_norm2 : MeasurePreserving (fun q : RawDraw => q.2.2) rawLaw (gaussianReal 0 1) :=
  measurePreserving_snd.comp raw_norm

/-- The multiplier of one observation. -/
noncomputable def mult (method : String) (q : RawDraw) : ℝ :=
  if method = "Bayes" then q.1 - 1
  else if method = "normal" then q.2.1
  else q.2.1 / Real.sqrt 2 + (q.2.2 ^ 2 - 1) / 2

theorem mult_meas (method : String) : Measurable (mult method) := by
  unfold mult
  split_ifs <;> fun_prop

/-- Mean zero and variance one. -/
def Standard {Ω : Type} [MeasurableSpace Ω] (μ : Measure Ω) (X : Ω → ℝ) : Prop :=
  MemLp X 2 μ ∧ ∫ ω, X ω ∂μ = 0 ∧ ∫ ω, X ω ^ 2 ∂μ = 1

theorem standard_of {Ω Ω' : Type} [MeasurableSpace Ω] [MeasurableSpace Ω'] {μ : Measure Ω} {ν : Measure Ω'} {f : Ω → Ω'}
    (hf : MeasurePreserving f μ ν) {X : Ω' → ℝ} (hX : Measurable X) (h : Standard ν X) : Standard μ fun ω => X (f ω) := by
  obtain ⟨h1, h2, h3⟩ := h
  refine ⟨h1.comp_measurePreserving hf, ?_, ?_⟩
  · rw [← h2, ← hf.map_eq, integral_map hf.measurable.aemeasurable hX.aestronglyMeasurable]
  · rw [← h3, ← hf.map_eq, integral_map hf.measurable.aemeasurable (hX.pow_const 2).aestronglyMeasurable]

theorem bayes_standard : Standard (expMeasure 1) fun x => x - 1 := by
  obtain ⟨i1, m1⟩ := exp_pow 1
  obtain ⟨i2, m2⟩ := exp_pow 2
  simp only [pow_one, Nat.factorial_one, Nat.cast_one] at i1 m1
  have e : (fun x : ℝ => (x - 1) ^ 2) = fun x => x ^ 2 - 2 * x + 1 := by
    funext x
    ring
  have i3 : Integrable (fun x : ℝ => (x - 1) ^ 2) (expMeasure 1) := by
    rw [e]
    exact (i2.sub (i1.const_mul 2)).add (integrable_const _)
  refine ⟨(memLp_two_iff_integrable_sq (by fun_prop)).2 i3, ?_, ?_⟩
  · rw [integral_sub i1 (integrable_const _), m1]
    simp
  · have i4 : Integrable (fun x : ℝ => x ^ 2 - 2 * x) (expMeasure 1) := i2.sub (i1.const_mul 2)
    rw [e, integral_add i4 (integrable_const _), integral_sub i2 (i1.const_mul 2),
      integral_const_mul, m1, m2]
    norm_num [Nat.factorial]

theorem normal_standard : Standard (gaussianReal 0 1) fun x => x :=
  ⟨memLp_id_gaussianReal 2, integral_id_gaussianReal, gauss_pow_two⟩

theorem square_standard : Integrable (fun x : ℝ => x ^ 2 - 1) (gaussianReal 0 1) ∧
    ∫ x, (x ^ 2 - 1) ∂gaussianReal 0 1 = 0 ∧ Integrable (fun x : ℝ => (x ^ 2 - 1) ^ 2) (gaussianReal 0 1) ∧
    ∫ x, (x ^ 2 - 1) ^ 2 ∂gaussianReal 0 1 = 2 := by
  have i2 := gauss_integrable 2
  have i4 := gauss_integrable 4
  have e : (fun x : ℝ => (x ^ 2 - 1) ^ 2) = fun x => x ^ 4 - 2 * x ^ 2 + 1 := by
    funext x
    ring
  refine ⟨i2.sub (integrable_const _), ?_, ?_, ?_⟩
  · rw [integral_sub i2 (integrable_const _), gauss_pow_two]
    simp
  · rw [e]
    exact (i4.sub (i2.const_mul 2)).add (integrable_const _)
  · have i5 : Integrable (fun x : ℝ => x ^ 4 - 2 * x ^ 2) (gaussianReal 0 1) := i4.sub (i2.const_mul 2)
    rw [e, integral_add i5 (integrable_const _), integral_sub i4 (i2.const_mul 2),
      integral_const_mul, gauss_pow_two, gauss_pow_four]
    norm_num

theorem wild_standard : Standard ((gaussianReal 0 1).prod (gaussianReal 0 1)) fun q : ℝ × ℝ =>
    q.1 / Real.sqrt 2 + (q.2 ^ 2 - 1) / 2 := by
  obtain ⟨j1, m1, j2, m2⟩ := square_standard
  have h1 : MeasurePreserving (Prod.fst : ℝ × ℝ → ℝ) ((gaussianReal 0 1).prod (gaussianReal 0 1)) (gaussianReal 0 1) :=
    measurePreserving_fst
  have h2 : MeasurePreserving (Prod.snd : ℝ × ℝ → ℝ) ((gaussianReal 0 1).prod (gaussianReal 0 1)) (gaussianReal 0 1) :=
    measurePreserving_snd
  have hs : Real.sqrt 2 ^ 2 = 2 := Real.sq_sqrt (by norm_num)
  have hs0 : Real.sqrt 2 ≠ 0 := by positivity
  have x1 : Integrable (fun q : ℝ × ℝ => q.1) ((gaussianReal 0 1).prod (gaussianReal 0 1)) :=
    h1.integrable_comp_of_integrable (g := fun x => x) (by simpa using gauss_integrable 1)
  have x2 : Integrable (fun q : ℝ × ℝ => q.1 ^ 2) ((gaussianReal 0 1).prod (gaussianReal 0 1)) :=
    h1.integrable_comp_of_integrable (gauss_integrable 2)
  have y1 : Integrable (fun q : ℝ × ℝ => q.2 ^ 2 - 1) ((gaussianReal 0 1).prod (gaussianReal 0 1)) :=
    h2.integrable_comp_of_integrable j1
  have y2 : Integrable (fun q : ℝ × ℝ => (q.2 ^ 2 - 1) ^ 2) ((gaussianReal 0 1).prod (gaussianReal 0 1)) :=
    h2.integrable_comp_of_integrable j2
  have xy : Integrable (fun q : ℝ × ℝ => q.1 * (q.2 ^ 2 - 1)) ((gaussianReal 0 1).prod (gaussianReal 0 1)) :=
    Integrable.mul_prod (by simpa using gauss_integrable 1) j1
  have E : ∀ f : ℝ → ℝ, Measurable f → ∫ q : ℝ × ℝ, f q.1 ∂((gaussianReal 0 1).prod (gaussianReal 0 1)) =
      ∫ x, f x ∂gaussianReal 0 1 := fun f hf => by
    rw [← integral_map h1.measurable.aemeasurable (by rw [h1.map_eq]; exact hf.aestronglyMeasurable), h1.map_eq]
  have E' : ∀ f : ℝ → ℝ, Measurable f → ∫ q : ℝ × ℝ, f q.2 ∂((gaussianReal 0 1).prod (gaussianReal 0 1)) =
      ∫ x, f x ∂gaussianReal 0 1 := fun f hf => by
    rw [← integral_map h2.measurable.aemeasurable (by rw [h2.map_eq]; exact hf.aestronglyMeasurable), h2.map_eq]
  have e : (fun q : ℝ × ℝ => (q.1 / Real.sqrt 2 + (q.2 ^ 2 - 1) / 2) ^ 2) =
      fun q => q.1 ^ 2 / 2 + (q.2 ^ 2 - 1) ^ 2 / 4 + q.1 * (q.2 ^ 2 - 1) / Real.sqrt 2 := by
    funext q
    rw [add_sq, div_pow, hs]
    ring
  have i3 : Integrable (fun q : ℝ × ℝ => (q.1 / Real.sqrt 2 + (q.2 ^ 2 - 1) / 2) ^ 2)
      ((gaussianReal 0 1).prod (gaussianReal 0 1)) := by
    rw [e]
    exact ((x2.div_const _).add (y2.div_const _)).add (xy.div_const _)
  refine ⟨(memLp_two_iff_integrable_sq (by fun_prop)).2 i3, ?_, ?_⟩
  · rw [integral_add (x1.div_const _) (y1.div_const _), integral_div, integral_div, E (fun x => x) measurable_id,
      E' (fun x => x ^ 2 - 1) (by fun_prop), m1]
    simp [integral_id_gaussianReal]
  · have i4 : Integrable (fun q : ℝ × ℝ => q.1 ^ 2 / 2 + (q.2 ^ 2 - 1) ^ 2 / 4)
        ((gaussianReal 0 1).prod (gaussianReal 0 1)) := (x2.div_const _).add (y2.div_const _)
    rw [e, integral_add i4 (xy.div_const _), integral_add (x2.div_const _) (y2.div_const _),
      integral_div, integral_div, integral_div, E (fun x => x ^ 2) (by fun_prop), E' (fun x => (x ^ 2 - 1) ^ 2) (by fun_prop),
      integral_prod_mul (fun x : ℝ => x) (fun x : ℝ => x ^ 2 - 1), m1, m2, gauss_pow_two]
    norm_num

theorem mult_standard (method : String) : Standard rawLaw (mult method) := by
  unfold mult
  split_ifs
  · exact standard_of raw_exp (by fun_prop) bayes_standard
  · exact standard_of raw_norm1 measurable_id normal_standard
  · exact standard_of raw_norm (by fun_prop) wild_standard

/-! ## The multipliers -/

theorem drawWeights_eq {B : ℕ} {method : String} (hm : method ∈ ["Bayes", "normal", "wild"]) (raw : Fin B → Fin n → RawDraw) :
    drawWeights method raw = .ok fun b i => mult method (raw b i) := by
  unfold drawWeights mult
  simp only [List.mem_cons, List.not_mem_nil, or_false] at hm
  rcases hm with rfl | rfl | rfl
  · simp
  · simp
  · simp

/-- **C76, multipliers.**  For each of the three methods the multipliers of all repetitions, draws and observations are
independent, identically distributed, with mean zero and variance one. -/
theorem C76_multipliers {Ω : Type} [MeasurableSpace Ω] {μ : Measure Ω} {B : ℕ} {raw : Fin r → Fin B → Fin n → Ω → RawDraw}
    (h : NpDraws μ raw) {method : String} (hm : method ∈ ["Bayes", "normal", "wild"]) :
    ∃ ξ : Fin r → Fin B → Fin n → Ω → ℝ,
      (∀ k ω, drawWeights method (fun b i => raw k b i ω) = .ok fun b i => ξ k b i ω) ∧
      iIndepFun (fun q : Fin r × Fin B × Fin n => ξ q.1 q.2.1 q.2.2) μ ∧
      (∃ ν : Measure ℝ, ∀ k b i, μ.map (ξ k b i) = ν) ∧ ∀ k b i, Standard μ (ξ k b i) := by
  refine ⟨fun k b i ω => mult method (raw k b i ω), fun k ω => drawWeights_eq hm _, ?_, ⟨rawLaw.map (mult method), ?_⟩, ?_⟩
  · exact h.indep.comp (fun _ => mult method) fun _ => mult_meas method
  · intro k b i
    rw [← h.law k b i, Measure.map_map (mult_meas method) (h.meas k b i)]
    rfl
  · intro k b i
    exact standard_of ⟨h.meas k b i, h.law k b i⟩ (mult_meas method) (mult_standard method)

/-- **C76, other methods** are rejected. -/
theorem C76_rejects {B : ℕ} {method : String} (hm : method ∉ ["Bayes", "normal", "wild"]) (raw : Fin B → Fin n → RawDraw) :
    drawWeights method raw = .error .valueError := by
  simp only [List.mem_cons, List.not_mem_nil, or_false, not_or] at hm
  unfold drawWeights
  rw [if_neg hm.1, if_neg hm.2.1, if_neg hm.2.2]

/-! ## Weighted sums of multipliers -/

section sums

variable {Ω : Type} [MeasurableSpace Ω] {μ : Measure Ω} {ι : Type} [Fintype ι] {ξ : ι → Ω → ℝ}

omit [Fintype ι] in
theorem standard_integrable_mul (hs : ∀ q, Standard μ (ξ q)) (p q : ι) : Integrable (fun ω => ξ p ω * ξ q ω) μ :=
  (hs p).1.integrable_mul (hs q).1

omit [Fintype ι] in
open Classical in
theorem standard_cov (hi : iIndepFun ξ μ) (hs : ∀ q, Standard μ (ξ q)) (p q : ι) :
    ∫ ω, ξ p ω * ξ q ω ∂μ = if p = q then 1 else 0 := by
  split_ifs with h
  · subst h
    rw [← (hs p).2.2]
    exact integral_congr_ae (Filter.Eventually.of_forall fun ω => (sq (ξ p ω)).symm)
  · rw [(hi.indepFun h).integral_fun_mul_eq_mul_integral (hs p).1.aestronglyMeasurable (hs q).1.aestronglyMeasurable,
      (hs p).2.1, zero_mul]

theorem sum_mean [IsFiniteMeasure μ] (hs : ∀ q, Standard μ (ξ q)) (a : ι → ℝ) : ∫ ω, ∑ q, ξ q ω * a q ∂μ = 0 := by
  rw [integral_finsetSum _ fun q _ => ((hs q).1.integrable one_le_two).mul_const _]
  refine sum_eq_zero fun q _ => ?_
  rw [integral_mul_const, (hs q).2.1, zero_mul]

theorem sum_cov (hi : iIndepFun ξ μ) (hs : ∀ q, Standard μ (ξ q)) (a b : ι → ℝ) :
    ∫ ω, (∑ q, ξ q ω * a q) * ∑ q, ξ q ω * b q ∂μ = ∑ q, a q * b q := by
  classical
  have e : (fun ω => (∑ q, ξ q ω * a q) * ∑ q, ξ q ω * b q) = fun ω => ∑ p, ∑ q, ξ p ω * ξ q ω * (a p * b q) := by
    funext ω
    rw [sum_mul_sum]
    refine sum_congr rfl fun p _ => sum_congr rfl fun q _ => ?_
    ring
  have hint : ∀ p q, Integrable (fun ω => ξ p ω * ξ q ω * (a p * b q)) μ := fun p q =>
    (standard_integrable_mul hs p q).mul_const _
  rw [e, integral_finsetSum _ fun p _ => integrable_finsetSum _ fun q _ => hint p q]
  refine sum_congr rfl fun p _ => ?_
  rw [integral_finsetSum _ fun q _ => hint p q]
  simp only [integral_mul_const, standard_cov hi hs, ite_mul, one_mul, zero_mul, sum_ite_eq, mem_univ, if_true]

theorem sum_memLp (hs : ∀ q, Standard μ (ξ q)) (a : ι → ℝ) : MemLp (fun ω => ∑ q, ξ q ω * a q) 2 μ :=
  memLp_finsetSum _ fun q _ => (hs q).1.mul_const _

theorem sum_gauss (hi : iIndepFun ξ μ) (hg : ∀ q, μ.map (ξ q) = gaussianReal 0 1) (hm : ∀ q, Measurable (ξ q))
    (hs : ∀ q, Standard μ (ξ q)) (a : ι → ℝ) (ha : ∑ q, a q ^ 2 = 1) :
    μ.map (fun ω => ∑ q, ξ q ω * a q) = gaussianReal 0 1 := by
  have := hi.isProbabilityMeasure
  have h1 : HasGaussianLaw (fun ω => ∑ q, ξ q ω * a q) μ := by
    refine iIndepFun.hasGaussianLaw_fun_sum (X := fun q ω => ξ q ω * a q) (fun q => ?_) ?_
    · have hq : HasGaussianLaw (ξ q) μ := (HasLaw.mk (hm q).aemeasurable (hg q)).hasGaussianLaw
      have := hq.fun_smul (a q)
      simpa [mul_comm] using this
    · exact hi.comp (fun q x => x * a q) fun q => by fun_prop
  have hv : Var[fun ω => ∑ q, ξ q ω * a q; μ] = 1 := by
    rw [variance_eq_sub (sum_memLp hs a), sum_mean hs a]
    have := sum_cov hi hs a a
    simp only [← sq] at this
    rw [ha] at this
    simp only [Pi.pow_apply]
    rw [this]
    norm_num
  rw [h1.map_eq_gaussianReal, hv, sum_mean hs a]
  simp

end sums

/-! ## Groups of multipliers -/

theorem group_indep {Ω : Type} [MeasurableSpace Ω] {μ : Measure Ω} {ι κ : Type} {X : ι → κ → Ω → ℝ}
    (mX : ∀ i j, Measurable (X i j)) (h : iIndepFun (fun p : ι × κ => X p.1 p.2) μ) :
    iIndepFun (fun i ω j => X i j ω) μ := by
  have := h.isProbabilityMeasure
  have : ∀ i j, IsProbabilityMeasure (μ.map (X i j)) := fun i j => Measure.isProbabilityMeasure_map (mX i j).aemeasurable
  have hrow : ∀ i, iIndepFun (X i) μ := fun i =>
    h.precomp (g := fun j => (i, j)) fun a b hab => (Prod.mk.inj hab).2
  have e : (MeasurableEquiv.curry ι κ ℝ) ∘ (fun ω (p : ι × κ) => X p.1 p.2 ω) = fun ω i j => X i j ω := rfl
  rw [iIndepFun_iff_map_fun_eq_infinitePi_map (by fun_prop), ← e,
    ← Measure.map_map (by fun_prop) (by fun_prop), (iIndepFun_iff_map_fun_eq_infinitePi_map (by fun_prop)).1 h,
    Measure.infinitePi_map_curry (fun i j => μ.map (X i j))]
  congr 1
  funext i
  rw [(iIndepFun_iff_map_fun_eq_infinitePi_map (by fun_prop)).1 (hrow i)]

theorem group_law {Ω : Type} [MeasurableSpace Ω] {μ : Measure Ω} {κ : Type} {X : κ → Ω → ℝ}
    (mX : ∀ j, Measurable (X j)) (h : iIndepFun X μ) {ν : Measure ℝ} (hν : ∀ j, μ.map (X j) = ν) :
    μ.map (fun ω j => X j ω) = Measure.infinitePi fun _ => ν := by
  have := h.isProbabilityMeasure
  rw [(iIndepFun_iff_map_fun_eq_infinitePi_map (by fun_prop)).1 h]
  simp only [hν]

/-! ## The bootstrap -/

theorem mapM_drawWeights {B : ℕ} {m : String} (hm : m ∈ ["Bayes", "normal", "wild"]) (raw : Fin r → Fin B → Fin n → RawDraw)
    (l : List (Fin r)) : (l.mapM fun k => drawWeights m (raw k)) = .ok (l.map fun k b i => mult m (raw k b i)) := by
  induction l with
  | nil => rfl
  | cons a t ih =>
    rw [List.mapM_cons, drawWeights_eq hm, ih]
    rfl

/-- `bootstrap` with the draws of numpy's generator is `bootstrap` with the multipliers computed from them. -/
theorem C76_refines (A : FW n r) (method nRep : PyVal) (raw : ∀ B : ℕ, Fin r → Fin B → Fin n → RawDraw) :
    ∃ W : ∀ B : ℕ, Fin r → Fin B → Fin n → ℝ, A.bootstrapRaw method nRep raw = A.bootstrap method nRep W := by
  cases method with
  | str m =>
    refine ⟨fun B k b i => mult m (raw B k b i), ?_⟩
    unfold FW.bootstrapRaw FW.bootstrap checkBootstrap
    by_cases hm : m ∈ ["Bayes", "normal", "wild"]
    · simp only [if_pos hm]
      cases nRep.asInt with
      | none => rfl
      | some z =>
        by_cases hz : z < 1
        · simp only [if_pos hz]
          rfl
        · simp only [if_neg hz]
          show (if A.cluster.isSome then _ else _) = (if A.cluster.isSome then _ else _)
          split
          · rfl
          · show (do let W ← (List.finRange r).mapM fun k => drawWeights m (raw z.toNat k); _) = _
            rw [mapM_drawWeights hm]
            show Except.ok _ = Except.ok _
            congr 3
            funext b
            congr 1
            funext k
            simp
    · simp only [if_neg hm]
      rfl
  | _ => exact ⟨fun _ _ _ _ => 0, rfl⟩

/-- A block with scores that are not all zero in any repetition and whose standard errors are the library's own
(models without clusters). -/
structure Regular (b : Block n r) : Prop where
  vsf : b.vsf = n
  se : b.allSe = recomputedSe b.psi b.vsf
  nonzero : ∀ k, ∃ i, b.psi i k ≠ 0

theorem regular_scale (hn : 0 < n) {b : Block n r} (h : Regular b) (k : Fin r) :
    0 < b.vsf * b.allSe k ∧ (b.vsf * b.allSe k) ^ 2 = ∑ i, b.psi i k ^ 2 := by
  have hn' : (0 : ℝ) < n := by exact_mod_cast hn
  have hm : 0 < mean fun i => b.psi i k ^ 2 := (mean_sq_pos_iff hn _).2 (h.nonzero k)
  have hse : b.allSe k = Real.sqrt ((mean fun i => b.psi i k ^ 2) / n) := by rw [h.se, recomputedSe, h.vsf]
  have hpos : 0 < b.allSe k := by
    rw [hse]
    exact Real.sqrt_pos.2 (div_pos hm hn')
  refine ⟨by rw [h.vsf]; exact mul_pos hn' hpos, ?_⟩
  have hs2 : b.allSe k ^ 2 = (mean fun i => b.psi i k ^ 2) / n := by
    rw [hse, Real.sq_sqrt (div_nonneg hm.le hn'.le)]
  rw [mul_pow, hs2, h.vsf]
  unfold mean
  field_simp

/-- The correlation of the scores of two parameters in repetition `k`. -/
noncomputable def scoreCorr (b c : Block n r) (k : Fin r) : ℝ :=
  (∑ i, b.psi i k * c.psi i k) / (Real.sqrt (∑ i, b.psi i k ^ 2) * Real.sqrt (∑ i, c.psi i k ^ 2))

/-- **C76, bootstrap.**  With independent draws, `bootstrap` succeeds for each method, whatever the draws are, and the
statistics are random variables such that
* every statistic has mean zero and variance one;
* statistics of two parameters in the same draw and repetition have the correlation of the scores;
* different draws or repetitions are independent (all parameters together), and all draws of a repetition have the same law;
* with normal multipliers every statistic is standard normal. -/
theorem C76_bootstrap {Ω : Type} [MeasurableSpace Ω] {μ : Measure Ω} (hn : 0 < n) (A : FW n r) (hc : A.cluster = none)
    (hA : ∀ b ∈ A.blocks, Regular b) {m : String} (hm : m ∈ ["Bayes", "normal", "wild"]) {B : ℕ} (hB : 1 ≤ B) {nRep : PyVal}
    (hrep : nRep.asInt = some (B : ℤ)) (raw : ∀ B : ℕ, Fin r → Fin B → Fin n → Ω → RawDraw) (h : NpDraws μ (raw B)) :
    ∃ T : Fin A.blocks.length → Fin B → Fin r → Ω → ℝ,
      (∀ ω, A.bootstrapRaw (.str m) nRep (fun B k b i => raw B k b i ω) = .ok ⟨B, m, List.ofFn fun p b k => T p b k ω⟩) ∧
      (∀ p b k, Measurable (T p b k) ∧ MemLp (T p b k) 2 μ ∧ ∫ ω, T p b k ω ∂μ = 0 ∧ ∫ ω, T p b k ω ^ 2 ∂μ = 1) ∧
      (∀ p q b k, ∫ ω, T p b k ω * T q b k ω ∂μ = scoreCorr (A.blocks.get p) (A.blocks.get q) k) ∧
      iIndepFun (fun (d : Fin r × Fin B) ω p => T p d.2 d.1 ω) μ ∧
      (∀ k, ∃ ν, ∀ b, μ.map (fun ω p => T p b k ω) = ν) ∧
      (m = "normal" → ∀ p b k, μ.map (T p b k) = gaussianReal 0 1) := by
  obtain ⟨ξ, h1, hind, ⟨ν, hlaw⟩, hstd⟩ : ∃ ξ : Fin r → Fin B → Fin n → Ω → ℝ,
      ξ = (fun k b i ω => mult m (raw B k b i ω)) ∧
      iIndepFun (fun q : Fin r × Fin B × Fin n => ξ q.1 q.2.1 q.2.2) μ ∧
      (∃ ν : Measure ℝ, ∀ k b i, μ.map (ξ k b i) = ν) ∧ ∀ k b i, Standard μ (ξ k b i) := by
    obtain ⟨ξ, h0, h2, h3, h4⟩ := C76_multipliers h hm
    refine ⟨ξ, ?_, h2, h3, h4⟩
    funext k b i ω
    have := h0 k ω
    rw [drawWeights_eq hm] at this
    exact (congrFun (congrFun (Except.ok.inj this) b) i).symm
  have hprob := hind.isProbabilityMeasure
  have hmeas : ∀ k b i, Measurable (ξ k b i) := by
    intro k b i
    rw [h1]
    exact (mult_meas m).comp (h.meas k b i)
  have hrow : ∀ k b, iIndepFun (ξ k b) μ := fun k b =>
    hind.precomp (g := fun i => (k, b, i)) fun x y hxy => (Prod.mk.inj (Prod.mk.inj hxy).2).2
  have hpair : iIndepFun (fun (d : Fin r × Fin B) ω i => ξ d.1 d.2 i ω) μ := by
    refine group_indep (X := fun d : Fin r × Fin B => ξ d.1 d.2) (fun d i => hmeas d.1 d.2 i) ?_
    exact hind.precomp (g := fun p : (Fin r × Fin B) × Fin n => (p.1.1, p.1.2, p.2)) fun x y hxy => by
      simp only [Prod.mk.injEq] at hxy
      exact Prod.ext (Prod.ext hxy.1 hxy.2.1) hxy.2.2
  set a : Fin A.blocks.length → Fin r → Fin n → ℝ := fun p k i =>
    (A.blocks.get p).psi i k / ((A.blocks.get p).vsf * (A.blocks.get p).allSe k) with ha
  have hreg : ∀ p, Regular (A.blocks.get p) := fun p => hA _ (List.get_mem _ _)
  have hcorr : ∀ p q k, ∑ i, a p k i * a q k i = scoreCorr (A.blocks.get p) (A.blocks.get q) k := by
    intro p q k
    obtain ⟨hp0, hp⟩ := regular_scale hn (hreg p) k
    obtain ⟨hq0, hq⟩ := regular_scale hn (hreg q) k
    rw [scoreCorr, ← hp, ← hq, Real.sqrt_sq hp0.le, Real.sqrt_sq hq0.le, sum_div]
    exact sum_congr rfl fun i _ => div_mul_div_comm _ _ _ _
  have hone : ∀ p k, ∑ i, a p k i ^ 2 = 1 := by
    intro p k
    obtain ⟨hp0, hp⟩ := regular_scale hn (hreg p) k
    simp only [ha, div_pow, ← sum_div]
    rw [← hp]
    exact div_self (pow_pos hp0 2).ne'
  refine ⟨fun p b k ω => ∑ i, ξ k b i ω * a p k i, ?_, ?_, ?_, ?_, ?_, ?_⟩
  · intro ω
    unfold FW.bootstrapRaw checkBootstrap
    have hz : ¬ ((B : ℤ) < 1) := by omega
    simp only [if_pos hm, hrep, if_neg hz, hc]
    show (do let W ← (List.finRange r).mapM fun k => drawWeights m fun b i => raw B k b i ω; _) = _
    rw [mapM_drawWeights hm (fun k b i => raw B k b i ω)]
    show Except.ok _ = Except.ok _
    congr 2
    refine List.ext_getElem (by simp) fun p hp1 hp2 => ?_
    rw [List.getElem_map, List.getElem_ofFn]
    funext b k
    unfold Block.bootT
    refine sum_congr rfl fun i _ => ?_
    congr 1
    rw [h1]
    simp
  · intro p b k
    refine ⟨Finset.measurable_fun_sum _ fun i _ => (hmeas k b i).mul_const _, sum_memLp (hstd k b) _, sum_mean (hstd k b) _, ?_⟩
    have := sum_cov (hrow k b) (hstd k b) (a p k) (a p k)
    simp only [← sq] at this
    rw [this]
    exact hone p k
  · intro p q b k
    rw [← hcorr]
    exact sum_cov (hrow k b) (hstd k b) (a p k) (a q k)
  · exact hpair.comp (fun d x p => ∑ i, x i * a p d.1 i) fun d => by fun_prop
  · intro k
    refine ⟨(Measure.infinitePi fun _ : Fin n => ν).map (fun x p => ∑ i, x i * a p k i), fun b => ?_⟩
    rw [← group_law (fun i => hmeas k b i) (hrow k b) (hlaw k b), Measure.map_map (by fun_prop) (by fun_prop)]
    rfl
  · intro hnorm p b k
    refine sum_gauss (hrow k b) (fun i => ?_) (hmeas k b) (hstd k b) _ (hone p k)
    have e : ξ k b i = mult m ∘ raw B k b i := by
      rw [h1]
      rfl
    rw [e, ← Measure.map_map (mult_meas m) (h.meas k b i), h.law, hnorm]
    exact raw_norm1.map_eq

theorem gauss_two_sided {Ω : Type} [MeasurableSpace Ω] {μ : Measure Ω} {X : Ω → ℝ} (hm : Measurable X)
    (hX : μ.map X = gaussianReal 0 1) {c : ℝ} (hc : 0 ≤ c) : μ.real {ω | c < |X ω|} = 2 * (1 - Phi c) := by
  have e : μ.real {ω | c < |X ω|} = (gaussianReal 0 1).real {x | c < |x|} := by
    rw [← hX, map_measureReal_apply hm (measurableSet_lt measurable_const (by fun_prop))]
    rfl
  have hs : {x : ℝ | c < |x|} = (Set.Icc (-c) c)ᶜ := by
    ext x
    simp only [Set.mem_ofPred_eq, Set.mem_compl_iff, Set.mem_Icc, ← abs_le, not_le]
  have hd : (gaussianReal 0 1).real (Set.Icc (-c) c) = Phi c - Phi (-c) := by
    have h1 : Set.Icc (-c) c = Set.Iic c \ Set.Iio (-c) := by
      ext x
      simp only [Set.mem_Icc, Set.mem_sdiff, Set.mem_Iic, Set.mem_Iio, not_lt]
      tauto
    have h2 : Set.Iio (-c) ⊆ Set.Iic c := fun x hx => Set.mem_Iic.2 ((Set.mem_Iio.1 hx).le.trans (by linarith))
    rw [h1, measureReal_sdiff h2 measurableSet_Iio, Phi_eq_real, Phi_eq_real,
      measureReal_congr (Iio_ae_eq_Iic (μ := gaussianReal 0 1) (a := -c))]
  rw [e, hs, probReal_compl_eq_one_sub measurableSet_Icc, hd, Phi_neg]
  ring

/-- **C76, normal multipliers.**  A bootstrap statistic with normal multipliers exceeds the observed t statistic in absolute
value with exactly the reported probability, and stays within the critical value of the pointwise interval with exactly the
level of the interval. -/
theorem C76_normal {Ω : Type} [MeasurableSpace Ω] {μ : Measure Ω} {X : Ω → ℝ} (hm : Measurable X)
    (hX : μ.map X = gaussianReal 0 1) (b : Block n r) (k : Fin r) {l : ℝ} (h0 : 0 < l) (h1 : l < 1) :
    μ.real {ω | |b.allT k| < |X ω|} = b.allPval k ∧ μ.real {ω | |X ω| ≤ pointCrit l} = l := by
  have : IsProbabilityMeasure μ := by
    have hp : IsProbabilityMeasure (μ.map X) := by rw [hX]; infer_instance
    exact (Measure.isProbabilityMeasure_map_iff hm.aemeasurable).1 hp
  refine ⟨gauss_two_sided hm hX (abs_nonneg _), ?_⟩
  have hP : Phi (pointCrit l) = 1 - (1 - l) / 2 := by
    unfold pointCrit
    exact Phi_ppf (by linarith) (by linarith)
  have hc : 0 ≤ pointCrit l := by
    rw [← ppf_half]
    by_contra hneg
    push Not at hneg
    have := Phi_strictMono hneg
    rw [hP, Phi_ppf (by norm_num) (by norm_num)] at this
    linarith
  have hs : {ω | |X ω| ≤ pointCrit l} = {ω | pointCrit l < |X ω|}ᶜ := by
    ext ω
    simp only [Set.mem_ofPred_eq, Set.mem_compl_iff, not_lt]
  rw [hs, probReal_compl_eq_one_sub (measurableSet_lt measurable_const (by fun_prop)), gauss_two_sided hm hX hc, hP]
  ring

/-! ## Non-vacuity -/

/-- Independent draws exist, for all sizes. -/
theorem draws_exist (n r B : ℕ) : ∃ (Ω : Type) (_ : MeasurableSpace Ω) (μ : Measure Ω) (raw : Fin r → Fin B → Fin n → Ω → RawDraw),
    NpDraws μ raw :=
  ⟨Fin r × Fin B × Fin n → RawDraw, inferInstance, Measure.pi fun _ => rawLaw, fun k b i ω => ω (k, b, i),
    { meas := fun _ _ _ => measurable_pi_apply _
      law := fun k b i => (measurePreserving_eval (fun _ : Fin r × Fin B × Fin n => rawLaw) (k, b, i)).map_eq
      indep := iIndepFun_pi (μ := fun _ : Fin r × Fin B × Fin n => rawLaw) (X := fun _ => id) fun _ => aemeasurable_id }⟩

/-- The hypotheses of C76 hold for a framework with two parameters, two observations and one repetition. -/
example : ∃ A : FW 2 1, A.cluster = none ∧ A.blocks.length = 2 ∧ ∀ b ∈ A.blocks, Regular b := by
  have hreg : ∀ c : ℝ, c ≠ 0 → Regular ((Influence.mk (r := 1) (fun _ => 3) (fun (j : Fin 2) _ => if j = 0 then c else -1)).direct 2) :=
    fun c hc => ⟨by simp [Influence.direct], rfl, fun k => ⟨0, by simpa [Influence.direct] using hc⟩⟩
  refine ⟨{ blocks := [(Influence.mk (fun _ => 3) (fun j _ => if j = 0 then 2 else -1)).direct 2,
                       (Influence.mk (fun _ => 3) (fun j _ => if j = 0 then 1 else -1)).direct 2]
            names := none
            cluster := none
            sens := none }, rfl, rfl, ?_⟩
  intro b hb
  simp only [List.mem_cons, List.not_mem_nil, or_false] at hb
  rcases hb with rfl | rfl
  · exact hreg 2 (by norm_num)
  · exact hreg 1 (by norm_num)

end DML
