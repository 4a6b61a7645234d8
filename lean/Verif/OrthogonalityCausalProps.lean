import Verif.OrthogonalityDesignProps

/-!
# What the identified parameters mean

C78, continued: the parameters identified by the scores, expressed through potential outcomes.
-/

namespace DML

open MeasureTheory Filter
open scoped ENNReal Topology

variable {S : Type*} [mS : MeasurableSpace S] {μ : Measure S} {𝒳 : Type*} [MeasurableSpace 𝒳]

/-- `g(ξ)` is the conditional mean of `v` given `η`, and both are square integrable. -/
structure CondMean {𝒴 : Type*} [MeasurableSpace 𝒴] (μ : Measure S) (η : S → 𝒴) (v : S → ℝ) (ξ : S → 𝒳) (g : 𝒳 → ℝ) : Prop where
  meas : Measurable v
  measG : Measurable g
  zero : MeanZeroGiven μ η fun w => v w - g (ξ w)
  mem : MemLp (fun w => v w - g (ξ w)) 2 μ
  memG : MemLp (fun w => g (ξ w)) 2 μ

section

variable [IsProbabilityMeasure μ] {ξ : S → 𝒳}

theorem CondMean.integrable {𝒴 : Type*} [MeasurableSpace 𝒴] {η : S → 𝒴} {v : S → ℝ} {g : 𝒳 → ℝ} (h : CondMean μ η v ξ g) :
    Integrable v μ ∧ Integrable (fun w => g (ξ w)) μ := by
  have i1 := h.memG.integrable one_le_two
  refine ⟨((h.mem.integrable one_le_two).add i1).congr (Eventually.of_forall fun w => ?_), i1⟩
  simp

theorem CondMean.integral_eq {𝒴 : Type*} [MeasurableSpace 𝒴] {η : S → 𝒴} (hη : Measurable η) {v : S → ℝ} {g : 𝒳 → ℝ}
    (h : CondMean μ η v ξ g) : ∫ w, g (ξ w) ∂μ = ∫ w, v w ∂μ := by
  have h1 := h.zero.integral_eq hη (h.mem.integrable one_le_two)
  rw [integral_sub h.integrable.1 h.integrable.2] at h1
  linarith

/-- Weighted with a bounded function of what is given. -/
theorem CondMean.weighted {𝒴 : Type*} [MeasurableSpace 𝒴] {η : S → 𝒴} (hη : Measurable η) {v : S → ℝ} {g : 𝒳 → ℝ}
    (h : CondMean μ η v ξ g) {f : 𝒴 → ℝ} (hf : Measurable f) {C : ℝ} (hC : ∀ w, |f (η w)| ≤ C) :
    Integrable (fun w => f (η w) * v w) μ ∧ Integrable (fun w => f (η w) * g (ξ w)) μ ∧
      ∫ w, f (η w) * g (ξ w) ∂μ = ∫ w, f (η w) * v w ∂μ := by
  have mf : Measurable fun w => f (η w) := hf.comp hη
  have n := h.zero.null hη h.mem hf (memLp_of_bdd mf hC)
  have i2 : Integrable (fun w => f (η w) * g (ξ w)) μ :=
    ((memLp_bdd_mul h.memG mf hC).integrable one_le_two).congr (Eventually.of_forall fun w => mul_comm _ _)
  have i1 : Integrable (fun w => f (η w) * v w) μ := by
    refine (n.1.add i2).congr (Eventually.of_forall fun w => ?_)
    simp only [Pi.add_apply]
    ring
  refine ⟨i1, i2, ?_⟩
  exact (n.integral_eq i2 (f := fun w => f (η w) * v w) fun w => by ring).symm

/-! ## Unconfoundedness -/

/-- Potential outcomes `y₀`, `y₁` with conditional means that do not depend on the treatment given the covariates; the outcome is the one of the
treatment received. -/
structure Unconfounded (μ : Measure S) (y y₀ y₁ d : S → ℝ) (ξ : S → 𝒳) (g₀ g₁ m : 𝒳 → ℝ) (τ : ℝ) : Prop where
  measD : Measurable d
  measX : Measurable ξ
  measM : Measurable m
  binary : ∀ w, d w = 0 ∨ d w = 1
  consistent : ∀ w, y w = d w * y₁ w + (1 - d w) * y₀ w
  mean0 : CondMean μ (fun w => (d w, ξ w)) y₀ ξ g₀
  mean1 : CondMean μ (fun w => (d w, ξ w)) y₁ ξ g₁
  treat : MeanZeroGiven μ ξ fun w => d w - m (ξ w)
  pos : 0 < τ
  overlap : ∀ x, τ ≤ m x ∧ m x ≤ 1 - τ

/-- The interactive model follows. -/
theorem Unconfounded.law {y y₀ y₁ d : S → ℝ} {g₀ g₁ m : 𝒳 → ℝ} {τ : ℝ} (h : Unconfounded μ y y₀ y₁ d ξ g₀ g₁ m τ) :
    IrmLaw μ y d ξ g₀ g₁ m τ 2 := by
  have mx := h.measD.prodMk h.measX
  have hy : y = fun w => d w * y₁ w + (1 - d w) * y₀ w := funext h.consistent
  have bd := bdd_of_binary h.binary
  have bd' : ∀ w, |1 - d w| ≤ 1 := fun w => by rcases h.binary w with e | e <;> simp [e]
  have e : ∀ w, y w - (d w * g₁ (ξ w) + (1 - d w) * g₀ (ξ w)) = d w * (y₁ w - g₁ (ξ w)) + (1 - d w) * (y₀ w - g₀ (ξ w)) := fun w => by
    rw [h.consistent w]
    ring
  have m1 : MemLp (fun w => d w * (y₁ w - g₁ (ξ w))) 2 μ :=
    (memLp_bdd_mul h.mean1.mem h.measD bd).ae_eq (Eventually.of_forall fun w => mul_comm _ _)
  have m0 : MemLp (fun w => (1 - d w) * (y₀ w - g₀ (ξ w))) 2 μ :=
    (memLp_bdd_mul h.mean0.mem (measurable_const.sub h.measD) bd').ae_eq (Eventually.of_forall fun w => mul_comm _ _)
  have n1 : MeanZeroGiven μ (fun w => (d w, ξ w)) fun w => d w * (y₁ w - g₁ (ξ w)) :=
    h.mean1.zero.mul_left (h.mean1.mem.integrable one_le_two) (f := fun q => q.1) measurable_fst (m1.integrable one_le_two)
  have n0 : MeanZeroGiven μ (fun w => (d w, ξ w)) fun w => (1 - d w) * (y₀ w - g₀ (ξ w)) :=
    h.mean0.zero.mul_left (h.mean0.mem.integrable one_le_two) (f := fun q => 1 - q.1) (measurable_const.sub measurable_fst)
      (m0.integrable one_le_two)
  refine ⟨?_, h.measD, h.measX, h.mean0.measG, h.mean1.measG, h.measM, h.binary, ?_, h.treat, h.pos, h.overlap, ?_, h.mean0.memG,
    h.mean1.memG⟩
  · rw [hy]
    exact (h.measD.mul h.mean1.meas).add ((measurable_const.sub h.measD).mul h.mean0.meas)
  · exact (n1.add n0 (m1.integrable one_le_two) (m0.integrable one_le_two)).of_eq e
  · exact (m1.add m0).ae_eq (Eventually.of_forall fun w => (e w).symm)

/-- Under unconfoundedness, the parameter of `ATE` is the mean of `y₁ - y₀`, that of `ATTE` its mean among the treated, and those of the average
potential outcomes are the means of `y₁` and `y₀`. -/
theorem C78_irm_causal {y y₀ y₁ d : S → ℝ} {g₀ g₁ m : 𝒳 → ℝ} {τ : ℝ} (h : Unconfounded μ y y₀ y₁ d ξ g₀ g₁ m τ) :
    IrmLaw μ y d ξ g₀ g₁ m τ 2 ∧ ∫ w, (g₁ (ξ w) - g₀ (ξ w)) ∂μ = ∫ w, (y₁ w - y₀ w) ∂μ ∧
      effectOnTreated μ d ξ g₀ g₁ = (∫ w in {w | d w = 1}, (y₁ w - y₀ w) ∂μ) / μ.real {w | d w = 1} ∧
      ∫ w, g₁ (ξ w) ∂μ = ∫ w, y₁ w ∂μ ∧ ∫ w, g₀ (ξ w) ∂μ = ∫ w, y₀ w ∂μ := by
  have mx := h.measD.prodMk h.measX
  have e1 := h.mean1.integral_eq mx
  have e0 := h.mean0.integral_eq mx
  have bd := bdd_of_binary h.binary
  have hs : MeasurableSet {w | d w = 1} := h.measD (measurableSet_singleton 1)
  have ind : ∀ f : S → ℝ, ∫ w, d w * f w ∂μ = ∫ w in {w | d w = 1}, f w ∂μ := by
    intro f
    rw [← integral_indicator hs]
    refine integral_congr_ae (Eventually.of_forall fun w => ?_)
    dsimp only
    by_cases hw : d w = 1
    · rw [Set.indicator_of_mem (by exact hw), hw, one_mul]
    · rw [Set.indicator_of_notMem (by exact hw), (h.binary w).resolve_right hw, zero_mul]
  refine ⟨h.law, ?_, ?_, e1, e0⟩
  · rw [integral_sub h.mean1.integrable.2 h.mean0.integrable.2, integral_sub h.mean1.integrable.1 h.mean0.integrable.1, e1, e0]
  · obtain ⟨a1, b1, c1⟩ := h.mean1.weighted mx (f := fun q => q.1) measurable_fst bd
    obtain ⟨a0, b0, c0⟩ := h.mean0.weighted mx (f := fun q => q.1) measurable_fst bd
    unfold effectOnTreated
    congr 1
    · rw [← ind]
      have e2 := ((HasMean.of b1).sub (HasMean.of b0)).2
      have e3 := ((HasMean.of a1).sub (HasMean.of a0)).2
      simp only [mul_sub]
      exact e2.trans (by rw [c1, c0]; exact e3.symm)
    · have := ind fun _ => 1
      simp only [mul_one] at this
      rw [this, setIntegral_const]
      simp

/-! ## Instruments -/

/-- Potential treatments `d₀ ≤ d₁` and potential outcomes `y₀`, `y₁`; given the covariates, the instrument tells nothing about the treatment and the outcome
each of its values would lead to. -/
structure ValidInstrument (μ : Measure S) (y y₀ y₁ d d₀ d₁ z : S → ℝ) (ξ : S → 𝒳) (g₀ g₁ r₀ r₁ m : 𝒳 → ℝ) (τ : ℝ) : Prop where
  outcome : Unconfounded μ y (fun w => d₀ w * y₁ w + (1 - d₀ w) * y₀ w) (fun w => d₁ w * y₁ w + (1 - d₁ w) * y₀ w) z ξ g₀ g₁ m τ
  treatment : Unconfounded μ d d₀ d₁ z ξ r₀ r₁ m τ
  binary0 : ∀ w, d₀ w = 0 ∨ d₀ w = 1
  binary1 : ∀ w, d₁ w = 0 ∨ d₁ w = 1
  monotone : ∀ w, d₀ w ≤ d₁ w

/-- With a valid instrument, the parameter of IIVM is the mean of `y₁ - y₀` among the compliers. -/
theorem C78_iivm_causal {y y₀ y₁ d d₀ d₁ z : S → ℝ} {g₀ g₁ r₀ r₁ m : 𝒳 → ℝ} {τ : ℝ}
    (h : ValidInstrument μ y y₀ y₁ d d₀ d₁ z ξ g₀ g₁ r₀ r₁ m τ) :
    IrmLaw μ y z ξ g₀ g₁ m τ 2 ∧ IrmLaw μ d z ξ r₀ r₁ m τ 2 ∧
      ∫ w, (r₁ (ξ w) - r₀ (ξ w)) ∂μ = μ.real {w | d₀ w < d₁ w} ∧
      (∫ w, (g₁ (ξ w) - g₀ (ξ w)) ∂μ) / ∫ w, (r₁ (ξ w) - r₀ (ξ w)) ∂μ =
        (∫ w in {w | d₀ w < d₁ w}, (y₁ w - y₀ w) ∂μ) / μ.real {w | d₀ w < d₁ w} := by
  obtain ⟨l1, e1, -⟩ := C78_irm_causal h.outcome
  obtain ⟨l2, e2, -⟩ := C78_irm_causal h.treatment
  have hs : MeasurableSet {w | d₀ w < d₁ w} := measurableSet_lt h.treatment.mean0.meas h.treatment.mean1.meas
  have ind : ∀ f : S → ℝ, ∫ w, (d₁ w - d₀ w) * f w ∂μ = ∫ w in {w | d₀ w < d₁ w}, f w ∂μ := by
    intro f
    rw [← integral_indicator hs]
    refine integral_congr_ae (Eventually.of_forall fun w => ?_)
    dsimp only
    have hm := h.monotone w
    by_cases hw : d₀ w < d₁ w
    · rw [Set.indicator_of_mem (by exact hw)]
      rcases h.binary0 w with a | a <;> rcases h.binary1 w with b | b <;> rw [a, b] at hw ⊢ <;> first | (exfalso; linarith) | ring
    · rw [Set.indicator_of_notMem (by exact hw), le_antisymm hm (not_lt.1 hw), sub_self, zero_mul]
  have c1 : ∫ w, (r₁ (ξ w) - r₀ (ξ w)) ∂μ = μ.real {w | d₀ w < d₁ w} := by
    rw [e2]
    have := ind fun _ => 1
    simp only [mul_one] at this
    rw [this, setIntegral_const]
    simp
  refine ⟨l1, l2, c1, ?_⟩
  rw [c1, e1]
  congr 1
  rw [← ind]
  exact integral_congr_ae (Eventually.of_forall fun w => by dsimp only; ring)

/-! ## Parallel trends -/

/-- Panel data: outcomes before (`pre`) and after, without (`post₀`) and with treatment (`post₁`).  Trends without treatment are parallel given
the covariates. -/
structure ParallelTrends (μ : Measure S) (pre post post₀ post₁ d : S → ℝ) (ξ : S → 𝒳) (g₀ g₁ m : 𝒳 → ℝ) (τ : ℝ) : Prop where
  change : Unconfounded μ (fun w => post w - pre w) (fun w => post₀ w - pre w) (fun w => post₁ w - pre w) d ξ g₀ g₁ m τ
  consistent : ∀ w, post w = d w * post₁ w + (1 - d w) * post₀ w

/-- With parallel trends, the parameter of DiD is the mean of `post₁ - post₀` among the treated. -/
theorem C78_did_causal {pre post post₀ post₁ d : S → ℝ} {g₀ g₁ m : 𝒳 → ℝ} {τ : ℝ} (h : ParallelTrends μ pre post post₀ post₁ d ξ g₀ g₁ m τ) :
    IrmLaw μ (fun w => post w - pre w) d ξ g₀ g₁ m τ 2 ∧
      effectOnTreated μ d ξ g₀ g₁ = (∫ w in {w | d w = 1}, (post₁ w - post₀ w) ∂μ) / μ.real {w | d w = 1} := by
  obtain ⟨l, -, e, -⟩ := C78_irm_causal h.change
  refine ⟨l, e.trans ?_⟩
  congr 1
  exact integral_congr_ae (Eventually.of_forall fun w => by dsimp only; ring)

/-- Repeated cross-sections: outcomes before (`pre`) and after, without (`post₀`) and with treatment (`post₁`).  Which period an observation is
from has nothing to do with them, and trends without treatment are parallel given the covariates. -/
structure ParallelTrendsCs (μ : Measure S) (y pre post₀ post₁ d t : S → ℝ) (ξ : S → 𝒳) (g00 g01 g10 g11 m : 𝒳 → ℝ) (lam τ : ℝ) : Prop where
  law : DidCsLaw μ y d t ξ g00 g01 g10 g11 m lam τ
  consistent : ∀ w, y w = t w * (d w * post₁ w + (1 - d w) * post₀ w) + (1 - t w) * pre w
  before : MeanZeroGiven μ (fun w => (d w, ξ w)) fun w => pre w - (d w * g10 (ξ w) + (1 - d w) * g00 (ξ w))
  after : MeanZeroGiven μ (fun w => (d w, ξ w)) fun w => d w * (post₁ w - g11 (ξ w))
  trend : MeanZeroGiven μ (fun w => (d w, ξ w)) fun w => post₀ w - pre w - (g01 (ξ w) - g00 (ξ w))
  memBefore : MemLp (fun w => pre w - (d w * g10 (ξ w) + (1 - d w) * g00 (ξ w))) 2 μ
  memAfter : MemLp (fun w => d w * (post₁ w - g11 (ξ w))) 2 μ
  memTrend : MemLp (fun w => post₀ w - pre w - (g01 (ξ w) - g00 (ξ w))) 2 μ

/-- With parallel trends, the parameter of DiD with repeated cross-sections is the mean of `post₁ - post₀` among the treated. -/
theorem C78_did_cs_causal {y pre post₀ post₁ d t : S → ℝ} {g00 g01 g10 g11 m : 𝒳 → ℝ} {lam τ : ℝ}
    (h : ParallelTrendsCs μ y pre post₀ post₁ d t ξ g00 g01 g10 g11 m lam τ) :
    changeOfTreated μ d ξ g00 g01 g10 g11 = (∫ w in {w | d w = 1}, (post₁ w - post₀ w) ∂μ) / μ.real {w | d w = 1} := by
  have l := h.law
  have mx := l.measD.prodMk l.measX
  have bd := bdd_of_binary l.binaryD
  have hs : MeasurableSet {w | d w = 1} := l.measD (measurableSet_singleton 1)
  have ind : ∀ f : S → ℝ, ∫ w, d w * f w ∂μ = ∫ w in {w | d w = 1}, f w ∂μ := by
    intro f
    rw [← integral_indicator hs]
    refine integral_congr_ae (Eventually.of_forall fun w => ?_)
    dsimp only
    by_cases hw : d w = 1
    · rw [Set.indicator_of_mem (by exact hw), hw, one_mul]
    · rw [Set.indicator_of_notMem (by exact hw), (l.binaryD w).resolve_right hw, zero_mul]
  unfold changeOfTreated
  congr 1
  · rw [← ind]
    have z1 : Null μ fun w => d w * (post₁ w - g11 (ξ w)) :=
      ⟨h.memAfter.integrable one_le_two, h.after.integral_eq mx (h.memAfter.integrable one_le_two)⟩
    have z2 := h.before.null mx h.memBefore (f := fun q => q.1) measurable_fst (memLp_of_bdd l.measD bd)
    have z3 := h.trend.null mx h.memTrend (f := fun q => q.1) measurable_fst (memLp_of_bdd l.measD bd)
    have ig : Integrable (fun w => d w * ((g11 (ξ w) - g10 (ξ w)) - (g01 (ξ w) - g00 (ξ w)))) μ :=
      ((memLp_bdd_mul ((l.memG11.sub l.memG10).sub (l.memG01.sub l.memG00)) l.measD bd).integrable one_le_two).congr
        (Eventually.of_forall fun w => mul_comm _ _)
    refine ((((z1.sub z2).sub z3).integral_eq ig (f := fun w => d w * (post₁ w - post₀ w)) fun w => ?_)).symm
    dsimp only
    rcases l.binaryD w with e | e <;> rw [e] <;> ring
  · have := ind fun _ => 1
    simp only [mul_one] at this
    rw [this, setIntegral_const]
    simp

/-! ## Selection -/

/-- Potential outcomes whose conditional means given treatment, selection and covariates depend on the covariates only. -/
structure MissingAtRandom (μ : Measure S) (y y₀ y₁ d s : S → ℝ) (ξ : S → 𝒳) (g₀ g₁ π₀ π₁ m : 𝒳 → ℝ) (τ : ℝ) : Prop where
  measS : Measurable s
  measP0 : Measurable π₀
  measP1 : Measurable π₁
  binaryS : ∀ w, s w = 0 ∨ s w = 1
  base : Unconfounded μ y y₀ y₁ d ξ g₀ g₁ m τ
  zero0 : MeanZeroGiven μ (fun w => ((d w, s w), ξ w)) fun w => y₀ w - g₀ (ξ w)
  zero1 : MeanZeroGiven μ (fun w => ((d w, s w), ξ w)) fun w => y₁ w - g₁ (ξ w)
  select : MeanZeroGiven μ (fun w => (d w, ξ w)) fun w => s w - (d w * π₁ (ξ w) + (1 - d w) * π₀ (ξ w))
  chance0 : ∀ x, τ ≤ π₀ x ∧ π₀ x ≤ 1
  chance1 : ∀ x, τ ≤ π₁ x ∧ π₁ x ≤ 1

/-- With outcomes missing at random, the parameter of SSM is the mean of `y₁ - y₀` in the whole population. -/
theorem C78_ssm_causal {y y₀ y₁ d s : S → ℝ} {g₀ g₁ π₀ π₁ m : 𝒳 → ℝ} {τ : ℝ} (h : MissingAtRandom μ y y₀ y₁ d s ξ g₀ g₁ π₀ π₁ m τ) :
    SsmLaw μ y d s ξ g₀ g₁ π₀ π₁ m τ ∧ ∫ w, (g₁ (ξ w) - g₀ (ξ w)) ∂μ = ∫ w, (y₁ w - y₀ w) ∂μ := by
  obtain ⟨l, e, -⟩ := C78_irm_causal h.base
  refine ⟨?_, e⟩
  have bd := bdd_of_binary h.base.binary
  have bs := bdd_of_binary h.binaryS
  have bd' : ∀ w, |1 - d w| ≤ 1 := fun w => by rcases h.base.binary w with e | e <;> simp [e]
  have b1 : ∀ w, |s w * d w| ≤ 1 := fun w => by
    rw [abs_mul]
    exact mul_le_one₀ (bs w) (abs_nonneg _) (bd w)
  have b0 : ∀ w, |s w * (1 - d w)| ≤ 1 := fun w => by
    rw [abs_mul]
    exact mul_le_one₀ (bs w) (abs_nonneg _) (bd' w)
  have mx := (h.base.measD.prodMk h.measS).prodMk h.base.measX
  have e : ∀ w, s w * (y w - (d w * g₁ (ξ w) + (1 - d w) * g₀ (ξ w))) =
      s w * d w * (y₁ w - g₁ (ξ w)) + s w * (1 - d w) * (y₀ w - g₀ (ξ w)) := fun w => by
    rw [h.base.consistent w]
    ring
  have m1 : MemLp (fun w => s w * d w * (y₁ w - g₁ (ξ w))) 2 μ :=
    (memLp_bdd_mul h.base.mean1.mem (h.measS.mul h.base.measD) b1).ae_eq (Eventually.of_forall fun w => mul_comm _ _)
  have m0 : MemLp (fun w => s w * (1 - d w) * (y₀ w - g₀ (ξ w))) 2 μ :=
    (memLp_bdd_mul h.base.mean0.mem (h.measS.mul (measurable_const.sub h.base.measD)) b0).ae_eq (Eventually.of_forall fun w => mul_comm _ _)
  have n1 : MeanZeroGiven μ (fun w => ((d w, s w), ξ w)) fun w => s w * d w * (y₁ w - g₁ (ξ w)) :=
    h.zero1.mul_left (h.base.mean1.mem.integrable one_le_two) (f := fun q => q.1.2 * q.1.1)
      ((measurable_snd.comp measurable_fst).mul (measurable_fst.comp measurable_fst)) (m1.integrable one_le_two)
  have n0 : MeanZeroGiven μ (fun w => ((d w, s w), ξ w)) fun w => s w * (1 - d w) * (y₀ w - g₀ (ξ w)) :=
    h.zero0.mul_left (h.base.mean0.mem.integrable one_le_two) (f := fun q => q.1.2 * (1 - q.1.1))
      ((measurable_snd.comp measurable_fst).mul (measurable_const.sub (measurable_fst.comp measurable_fst))) (m0.integrable one_le_two)
  refine ⟨l.measY, l.measD, h.measS, l.measX, l.measG0, l.measG1, h.measP0, h.measP1, l.measM, l.binary, h.binaryS, ?_, h.select, l.treat,
    l.pos, l.overlap, h.chance0, h.chance1, ?_, l.memG0, l.memG1⟩
  · refine MeanZeroGiven.of_eq ?_ e
    exact (n1.add n0 (m1.integrable one_le_two) (m0.integrable one_le_two)).mono mx (φ := fun q => (q.1.1, q.2))
      ((measurable_fst.comp measurable_fst).prodMk measurable_snd) fun _ => rfl
  · exact (m1.add m0).ae_eq (Eventually.of_forall fun w => (e w).symm)

end

end DML
