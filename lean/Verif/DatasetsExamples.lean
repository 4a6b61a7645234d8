import Verif.DatasetsOracleProps

/-!
# Simulated data: examples

Draws that meet the hypotheses of the theorems of C80: covariates with two columns and the covariance of the code, correlated errors, two
instruments; and concrete runs of the simulators whose results are not constant.
-/

namespace DML

open MeasureTheory ProbabilityTheory Filter
open scoped ENNReal

variable {n p : ℕ}

/-! ## Normal draws -/

/-- Two independent standard normal draws. -/
noncomputable def twoNormals : Measure (ℝ × ℝ) := (gaussianReal 0 1).prod (gaussianReal 0 1)

noncomputable instance : IsProbabilityMeasure twoNormals := by
  unfold twoNormals
  infer_instance

noncomputable instance : IsGaussian twoNormals := by
  unfold twoNormals
  infer_instance

theorem twoNormals_moments (a b c d : ℝ) :
    ∫ w, (a * w.1 + b * w.2) ∂twoNormals = 0 ∧ ∫ w, (a * w.1 + b * w.2) * (c * w.1 + d * w.2) ∂twoNormals = a * c + b * d := by
  obtain ⟨m1, m2⟩ := gaussian_pair (ν := twoNormals) (q := 2) (by norm_num)
  have i1 : Integrable (fun w : ℝ × ℝ => w.1) twoNormals := m1.integrable (by norm_num)
  have i2 : Integrable (fun w : ℝ × ℝ => w.2) twoNormals := m2.integrable (by norm_num)
  have i11 : Integrable (fun w : ℝ × ℝ => w.1 ^ 2) twoNormals := m1.integrable_sq
  have i22 : Integrable (fun w : ℝ × ℝ => w.2 ^ 2) twoNormals := m2.integrable_sq
  have i12 : Integrable (fun w : ℝ × ℝ => w.1 * w.2) twoNormals := m1.integrable_mul m2
  obtain ⟨-, e0, e2⟩ := stdNormal_moments (q := 2) (by norm_num)
  have z1 : ∫ w, w.1 ∂twoNormals = 0 := by
    have := integral_prod_mul (μ := gaussianReal 0 1) (ν := gaussianReal 0 1) (fun v : ℝ => v) fun _ : ℝ => (1 : ℝ)
    simpa [twoNormals, e0] using this
  have z2 : ∫ w, w.2 ∂twoNormals = 0 := by
    have := integral_prod_mul (μ := gaussianReal 0 1) (ν := gaussianReal 0 1) (fun _ : ℝ => (1 : ℝ)) fun v : ℝ => v
    simpa [twoNormals, e0] using this
  have z11 : ∫ w, w.1 ^ 2 ∂twoNormals = 1 := by
    have := integral_prod_mul (μ := gaussianReal 0 1) (ν := gaussianReal 0 1) (fun v : ℝ => v ^ 2) fun _ : ℝ => (1 : ℝ)
    simpa [twoNormals, e2] using this
  have z22 : ∫ w, w.2 ^ 2 ∂twoNormals = 1 := by
    have := integral_prod_mul (μ := gaussianReal 0 1) (ν := gaussianReal 0 1) (fun _ : ℝ => (1 : ℝ)) fun v : ℝ => v ^ 2
    simpa [twoNormals, e2] using this
  have z12 : ∫ w, w.1 * w.2 ∂twoNormals = 0 := by
    have := integral_prod_mul (μ := gaussianReal 0 1) (ν := gaussianReal 0 1) (fun v : ℝ => v) fun v : ℝ => v
    rw [e0, zero_mul] at this
    exact this
  constructor
  · have := integral_add (i1.const_mul a) (i2.const_mul b)
    rw [integral_const_mul, integral_const_mul, z1, z2, mul_zero, mul_zero, add_zero] at this
    exact this
  · have e : ∀ w : ℝ × ℝ, (a * w.1 + b * w.2) * (c * w.1 + d * w.2) = a * c * w.1 ^ 2 + ((a * d + b * c) * (w.1 * w.2) + b * d * w.2 ^ 2) := fun w => by
      ring
    simp only [e]
    have h1 : Integrable (fun w : ℝ × ℝ => (a * d + b * c) * (w.1 * w.2) + b * d * w.2 ^ 2) twoNormals := (i12.const_mul _).add (i22.const_mul _)
    rw [integral_add (i11.const_mul _) h1, integral_add (i12.const_mul _) (i22.const_mul _), integral_const_mul, integral_const_mul,
      integral_const_mul, z11, z12, z22]
    ring

/-- A linear image of the two draws, as a row with two columns. -/
noncomputable def rowMap (a b c d : ℝ) : ℝ × ℝ →L[ℝ] Fin 2 → ℝ :=
  ContinuousLinearMap.pi ![a • ContinuousLinearMap.fst ℝ ℝ ℝ + b • ContinuousLinearMap.snd ℝ ℝ ℝ,
    c • ContinuousLinearMap.fst ℝ ℝ ℝ + d • ContinuousLinearMap.snd ℝ ℝ ℝ]

theorem rowMap_moments (a b c d : ℝ) :
    (∀ j, ∫ x, x j ∂(twoNormals.map (rowMap a b c d)) = 0) ∧
      ∀ j k, ∫ x, x j * x k ∂(twoNormals.map (rowMap a b c d)) = ![a, c] j * ![a, c] k + ![b, d] j * ![b, d] k := by
  have hm : AEMeasurable (rowMap a b c d) twoNormals := (rowMap a b c d).continuous.measurable.aemeasurable
  have hv : ∀ (w : ℝ × ℝ) (j : Fin 2), rowMap a b c d w j = ![a, c] j * w.1 + ![b, d] j * w.2 := fun w j => by
    fin_cases j <;> simp [rowMap]
  constructor
  · intro j
    rw [integral_map hm (measurable_pi_apply j).aestronglyMeasurable]
    simp only [hv]
    exact (twoNormals_moments _ _ 0 0).1
  · intro j k
    have m2 : Measurable fun x : Fin 2 → ℝ => x j * x k := (measurable_pi_apply j).mul (measurable_pi_apply k)
    rw [integral_map hm m2.aestronglyMeasurable]
    simp only [hv]
    exact (twoNormals_moments _ _ _ _).2

/-- Two covariates with correlation one half, as in the code. -/
noncomputable def twoCovariates : Measure (Fin 2 → ℝ) := twoNormals.map (rowMap 1 0 (1 / 2) (Real.sqrt 3 / 2))

noncomputable instance : IsGaussian twoCovariates := by
  unfold twoCovariates
  infer_instance

theorem twoCovariates_mean (j : Fin 2) : ∫ x, x j ∂twoCovariates = 0 := (rowMap_moments _ _ _ _).1 j

theorem twoCovariates_cov (j k : Fin 2) : ∫ x, x j * x k ∂twoCovariates = toeplitz 0.5 2 j k := by
  have h := (rowMap_moments 1 0 (1 / 2) (Real.sqrt 3 / 2)).2 j k
  refine Eq.trans h ?_
  have h3 : Real.sqrt 3 * Real.sqrt 3 = 3 := Real.mul_self_sqrt (by norm_num)
  fin_cases j <;> fin_cases k <;> simp [toeplitz] <;> nlinarith

/-- Errors of outcome and treatment with correlation 0.6, as in the code for the partially linear model with instruments. -/
noncomputable def pairMap (a b c d : ℝ) : ℝ × ℝ →L[ℝ] ℝ × ℝ :=
  (a • ContinuousLinearMap.fst ℝ ℝ ℝ + b • ContinuousLinearMap.snd ℝ ℝ ℝ).prod (c • ContinuousLinearMap.fst ℝ ℝ ℝ + d • ContinuousLinearMap.snd ℝ ℝ ℝ)

noncomputable def corrErrors : Measure (ℝ × ℝ) := twoNormals.map (pairMap 1 0 0.6 0.8)

noncomputable instance : IsGaussian corrErrors := by
  unfold corrErrors
  infer_instance

theorem corrErrors_moments : ∫ e, e.1 ∂corrErrors = 0 ∧ ∫ e, e.2 ∂corrErrors = 0 ∧ ∫ e, e.2 ^ 2 ∂corrErrors = 1 ∧ ∫ e, e.1 * e.2 ∂corrErrors = 0.6 := by
  have hm : AEMeasurable (pairMap 1 0 0.6 0.8) twoNormals := (pairMap 1 0 0.6 0.8).continuous.measurable.aemeasurable
  have h1 : ∀ w : ℝ × ℝ, (pairMap 1 0 0.6 0.8 w).1 = 1 * w.1 + 0 * w.2 := fun w => by simp [pairMap]
  have h2 : ∀ w : ℝ × ℝ, (pairMap 1 0 0.6 0.8 w).2 = 0.6 * w.1 + 0.8 * w.2 := fun w => by simp [pairMap]
  unfold corrErrors
  refine ⟨?_, ?_, ?_, ?_⟩
  · rw [integral_map hm measurable_fst.aestronglyMeasurable]
    simp only [h1]
    exact (twoNormals_moments _ _ 0 0).1
  · rw [integral_map hm measurable_snd.aestronglyMeasurable]
    simp only [h2]
    exact (twoNormals_moments _ _ 0 0).1
  · rw [integral_map hm (measurable_snd.pow_const 2).aestronglyMeasurable]
    simp only [h2, pow_two]
    rw [(twoNormals_moments _ _ _ _).2]
    norm_num
  · have m2 : Measurable fun x : ℝ × ℝ => x.1 * x.2 := measurable_fst.mul measurable_snd
    rw [integral_map hm m2.aestronglyMeasurable]
    simp only [h1, h2]
    rw [(twoNormals_moments _ _ _ _).2]
    norm_num

/-! ## The designs -/

example : ∃ (y : (Fin 3 → ℝ) → ℝ → ℝ → ℝ) (d : (Fin 3 → ℝ) → ℝ → ℝ) (g m : (Fin 3 → ℝ) → ℝ),
    PlrLaw (plrDraws (Measure.dirac ![1, 2, 3])) (fun w => y w.1.1 w.1.2 w.2) (fun w => d w.1.1 w.1.2) (fun w => w.1.1) 0.5 g m 4 := by
  obtain ⟨y, d, g, m, _, h, _⟩ := C80_plr_ccddhnr (p := 3) ⟨0.5, 1, 0.25, 1, 1, 0.25, 1⟩ (by norm_num) (Measure.dirac ![1, 2, 3]) (q := 4)
    (by norm_num) (by norm_num)
  exact ⟨y, d, g, m, h⟩

/-- Two instruments with variance one quarter. -/
example (alpha : ℝ) (hk : 2 ≤ p) (μX : Measure (Fin p → ℝ)) [IsProbabilityMeasure μX] :
    ∃ (y : (Fin p → ℝ) → (Fin 2 → ℝ) → ℝ → ℝ → ℝ) (d : (Fin p → ℝ) → (Fin 2 → ℝ) → ℝ → ℝ) (z : Fin 2 → (Fin p → ℝ) → (Fin 2 → ℝ) → ℝ)
      (g : (Fin p → ℝ) → ℝ) (m : Fin 2 → (Fin p → ℝ) → ℝ) (r : (Fin p → ℝ) → ℝ), ∀ j,
      PlivLaw ((μX.prod (twoNormals.map (rowMap (1 / 2) 0 0 (1 / 2)))).prod corrErrors) (fun w => y w.1.1 w.1.2 w.2.2 w.2.1)
        (fun w => d w.1.1 w.1.2 w.2.2) (fun w => z j w.1.1 w.1.2) (fun w => w.1.1) alpha g (m j) r 2 := by
  obtain ⟨y, d, z, g, m, r, _, h⟩ := C80_pliv_chs hk alpha μX (twoNormals.map (rowMap (1 / 2) 0 0 (1 / 2))) corrErrors (rowMap_moments _ _ _ _).1
    corrErrors_moments.1 corrErrors_moments.2.1 (fun i j => by
      rw [(rowMap_moments _ _ _ _).2]
      fin_cases i <;> fin_cases j <;> norm_num) (q := 2) (by norm_num) (by norm_num)
  exact ⟨y, d, z, g, m, r, fun j => (h j).1⟩

example : (∫ x, (irmCy 2 0.5 * dotp x (invSquares 2)) ^ 2 ∂twoCovariates) / ((∫ x, (irmCy 2 0.5 * dotp x (invSquares 2)) ^ 2 ∂twoCovariates) + 1) = 0.5 :=
  (C80_irm_r2 (by norm_num) (R2d := 0.5) (R2y := 0.5) (by norm_num) (by norm_num) twoCovariates twoCovariates_cov).1

example {τ : ℝ} (hτ : 0 < τ) (hτ1 : τ < 1) : 0 < twoCovariates {x | logistic (irmCd 2 0.5 * dotp x (invSquares 2)) < τ} :=
  (C80_irm_overlap_violated (by norm_num) (by norm_num) twoCovariates twoCovariates_mean twoCovariates_cov hτ hτ1).1

example := C80_irm 0 0.5 0.5 twoCovariates twoCovariates_mean

example := C80_irm_atte_violated (p := 2) (by norm_num) (R2d := 0.5) (R2y := 0.5) 0 (by norm_num) (by norm_num) twoCovariates twoCovariates_mean
  twoCovariates_cov

example := C80_iivm 1 0.2 (by norm_num) twoCovariates corrErrors corrErrors_moments.1 corrErrors_moments.2.1
  (by rw [corrErrors_moments.2.2.1]; norm_num)

example := C80_iivm_late 1 0.2 (by norm_num) twoCovariates corrErrors corrErrors_moments.1 corrErrors_moments.2.1
  (by rw [corrErrors_moments.2.2.1]; norm_num)

example := C80_ssm_mar 1 twoCovariates

noncomputable instance : IsProbabilityMeasure (unifVec p) := by
  unfold unifVec
  infer_instance

example := C80_het (p := 2) (q := 1) (nX := 2) (by norm_num) (by norm_num) (by norm_num) true (fun _ => 0) (fun _ => 0.5) (fun _ => 0.2) (unifVec 2) unif
  (gaussianReal 0 1) ((stdNormal_moments (q := 1) (by norm_num)).1.integrable le_rfl) (stdNormal_moments (q := 1) (by norm_num)).2.1

/-- Independent normal errors of the outcomes in difference-in-differences designs, for any distribution of the other draws. -/
theorem szLaw_of_normals (μ : Measure ((Fin n → Fin 4 → ℝ) × (Fin n → ℝ))) [IsProbabilityMeasure μ] (f g : Fin n → ℝ) :
    SzLaw (μ.prod (Measure.pi fun _ : Fin n × Fin 3 => gaussianReal 0 1))
      fun ω => ⟨ω.1.1, fun i => ω.2 (i, 0), fun i => ω.2 (i, 1), fun i => ω.2 (i, 2), ω.1.2, f, g⟩ := by
  have pk : ∀ k : Fin n × Fin 3, MeasurePreserving (fun e : Fin n × Fin 3 → ℝ => e k) (Measure.pi fun _ : Fin n × Fin 3 => gaussianReal 0 1)
      (gaussianReal 0 1) := fun k => measurePreserving_eval (fun _ : Fin n × Fin 3 => gaussianReal 0 1) k
  obtain ⟨hm, h0, -⟩ := stdNormal_moments (q := 1) (by norm_num)
  have hi : Integrable (fun v : ℝ => v) (gaussianReal 0 1) := hm.integrable le_rfl
  have ik : ∀ k : Fin n × Fin 3, Integrable (fun ω : ((Fin n → Fin 4 → ℝ) × (Fin n → ℝ)) × (Fin n × Fin 3 → ℝ) => ω.2 k)
      (μ.prod (Measure.pi fun _ : Fin n × Fin 3 => gaussianReal 0 1)) := fun k =>
    ((pk k).comp measurePreserving_snd).integrable_comp_of_integrable hi
  have zk : ∀ k : Fin n × Fin 3, MeanZeroGiven (μ.prod (Measure.pi fun _ : Fin n × Fin 3 => gaussianReal 0 1)) (fun ω => ω.1) fun ω => ω.2 k := fun k =>
    MeanZeroGiven.preserving (φ := fun ω => ω) (MeasurePreserving.id _)
      (h := fun ω : ((Fin n → Fin 4 → ℝ) × (Fin n → ℝ)) × (Fin n × Fin 3 → ℝ) => ω.2 k) (ik k) fun a => by
      have := integral_preserving (pk k) (f := fun v => v) aestronglyMeasurable_id
      rw [h0] at this
      exact this
  exact ⟨by fun_prop, by fun_prop, fun i => ik _, fun i => ik _, fun i => ik _, fun i => zk _, fun i => zk _, fun i => zk _⟩

example (μ : Measure ((Fin n → Fin 4 → ℝ) × (Fin n → ℝ))) [IsProbabilityMeasure μ] := C80_did (szLaw_of_normals μ 0 0) 3 (by norm_num) 0.75 0.5

/-! ## Oracle values -/

/-- Two observations which differ in the fifth covariate. -/
noncomputable def twoRows (i : Fin 2) : Fin 5 → ℝ := ![0, 0, 0, 0, ![1, -1] i]

theorem twoRows_std : popStd (fun i => twoRows i 4) = 1 := by
  have h : mean (fun i => twoRows i 4) = 0 := by simp [mean, twoRows]
  unfold popStd
  rw [h]
  simp [mean, twoRows]

theorem twoRows_ps (i : Fin 2) : logistic (cfPs (twoRows i)) = 1 / 2 := by
  simp [logistic, cfPs, twoRows]
  norm_num

example : ∃ o, makeCfIrm 5 0.1 2 true 0.01 twoRows ![1, 2] ![1, -1] ![0.2, 0.8] = o ∧ o.d 0 = 1 ∧ o.d 1 = 0 ∧ mean (fun i => o.y1 i - o.y0 i) = 5 := by
  obtain ⟨o, ho, hd, hm, hy, h5, _⟩ := C80_confounded_irm (n := 2) (by norm_num) 5 0.1 2 true (thr := 0.01) (by norm_num) twoRows ![1, 2] ![1, -1] ![0.2, 0.8]
    (by rw [twoRows_std]; norm_num)
  have hml : ∀ i, o.mLong i = 1 / 2 + 0.1 * (![1, -1] : Fin 2 → ℝ) i := fun i => by
    rw [← ho, cfIrm_mLong, if_neg]
    · simp only [if_true, twoRows_ps]
    · simp only [if_true, twoRows_ps]
      rintro (⟨j, h⟩ | ⟨j, h⟩) <;> fin_cases j <;> norm_num at h
  refine ⟨o, ho, ?_, ?_, h5⟩
  · refine ((hd 0).resolve_right fun h => ?_).1
    rw [hml] at h
    norm_num at h
  · refine ((hd 1).resolve_left fun h => ?_).1
    rw [hml] at h
    norm_num at h

example := C80_confounded_irm_short_violated (0 : Fin 2) 5 (gammaA := 0.1) (betaA := 2) (by norm_num) (by norm_num) true (thr := 0.01) (by norm_num) twoRows
  (fun j => by simp only [if_true, twoRows_ps]; norm_num) ![1, 2] ![0.5, 0.5] ![0.2, 0.8] fun j => by fin_cases j <;> norm_num

/-- The search for the coefficient can reach the minimum zero. -/
example : cfM (3 / 8) ![1, 1] ![1, -1] 3 = 0 := by
  simp [cfM, mean]
  norm_num

example (X : Fin 2 → Fin 4 → ℝ) (epsY : Fin 2 → ℝ) (cfY : ℝ) : ∃ o, makeCfPlr (fun _ => 3) 5 cfY (3 / 8) X epsY ![1, -1] ![1, 1] = o ∧
    ((mean fun i => (o.d i - o.mLong i) ^ 2) - mean fun i => ((o.d i - o.mShort i) / (o.gammaA ^ 2 / 3 + 1)) ^ 2) /
      (mean fun i => (o.d i - o.mLong i) ^ 2) = 3 / 8 := by
  obtain ⟨o, ho, _, hd, hm, _, h, _⟩ := C80_confounded_plr (fun _ => 3) 5 cfY (3 / 8) X epsY ![1, -1] ![1, 1]
  have hg : o.gammaA = 3 := by
    rw [← ho]
    rfl
  refine ⟨o, ho, h ?_ ?_ ?_⟩
  · rw [hg]
    simp [cfM, mean]
    norm_num
  · simp [hd, mean]
  · have e : ∀ i, o.d i - o.mShort i = (![1, -1] : Fin 2 → ℝ) i + 3 * (![1, 1] : Fin 2 → ℝ) i := fun i => by
      rw [← hd i, ← hg, ← hm i]
      ring
    simp only [e]
    simp [mean]
    norm_num

/-- The uniform draw decides between the baseline and the first level if there is one observation. -/
example (linear : Bool) (xi : ℝ) (X : Fin 1 → Fin 5 → ℝ) : ∃ o : ℝ → LevelOut 1,
    (∀ ω, makeLevels 2 linear xi X (fun _ => 0) (fun _ => 0) (fun _ => ω) = .ok (o ω)) ∧ unif.real {ω | (o ω).d 0 = 0} = 1 / 2 := by
  obtain ⟨o, ho, hd, hl⟩ : ∃ o : ℝ → LevelOut 1, (∀ ω, makeLevels 2 linear xi X (fun _ => 0) (fun _ => 0) (fun _ => ω) = .ok (o ω)) ∧
      (∃ c : ℝ, ∀ ω, (o ω).d 0 = (if 1 / ((2 : ℤ) : ℝ) ≤ ω then (1 : ℝ) else 0) * c) ∧ True := by
    unfold makeLevels
    refine ⟨_, fun ω => by rw [if_neg (by norm_num)], ⟨_, fun ω => rfl⟩, trivial⟩
  obtain ⟨c, hc⟩ := hd
  refine ⟨o, ho, ?_⟩
  have hm : Measurable fun ω => (o ω).d 0 := by
    simp only [hc]
    exact (Measurable.ite (measurableSet_le measurable_const measurable_id) measurable_const measurable_const).mul_const c
  have := (C80_levels_violated (P := unif) (L := 2) le_rfl linear xi (fun _ => X) (fun _ _ => 0) (fun _ _ => 0) (fun ω _ => ω) 0 (MeasurePreserving.id _) ho hm).1
  rw [this]
  norm_num

/-- A sharp design with cutoff one: the effect at the cutoff is `tau - 1 / 2`. -/
example (X : Fin 2 → Fin 3 → ℝ) : ∃ o, makeRdd false 1 0 1 4 ![1, 0] X 0 0 0 = o ∧ o.d 0 = 1 ∧ o.d 1 = 0 ∧ o.y1 0 - o.y0 0 = 1 / 2 := by
  obtain ⟨o, ho, hy, hd, _, hdiff, _⟩ := C80_rdd false 1 0 1 4 ![1, 0] X 0 0 0
  refine ⟨o, ho, (hd rfl 0).2 (by simp), ((hy 1).resolve_left fun h => ?_).1, ?_⟩
  · have := (hd rfl 1).1 h.1
    norm_num at this
  · rw [hdiff]
    norm_num

end DML
