import Mathlib.MeasureTheory.Function.ConditionalExpectation.Real
import Mathlib.MeasureTheory.Function.ConditionalExpectation.PullOut
import Mathlib.MeasureTheory.Function.L2Space
import Mathlib.MeasureTheory.Integral.MeanInequalities
import Mathlib.MeasureTheory.Measure.Typeclasses.Probability

/-!
# Residuals with mean zero given covariates

Nothing here models code of the package.
-/

namespace DML

open MeasureTheory Filter
open scoped ENNReal

variable {S : Type*} [mS : MeasurableSpace S] {μ : Measure S} {𝒳 : Type*} [MeasurableSpace 𝒳]

/-- `v` has conditional mean zero given `ξ`. -/
def MeanZeroGiven (μ : Measure S) (ξ : S → 𝒳) (v : S → ℝ) : Prop :=
  μ[v | MeasurableSpace.comap ξ inferInstance] =ᵐ[μ] 0

/-- It is orthogonal to functions of `ξ`. -/
theorem MeanZeroGiven.integral_mul [IsProbabilityMeasure μ] {ξ : S → 𝒳} (hξ : Measurable ξ) {v : S → ℝ} (h : MeanZeroGiven μ ξ v)
    (hv : Integrable v μ) {f : 𝒳 → ℝ} (hf : Measurable f) (hi : Integrable (fun w => v w * f (ξ w)) μ) :
    ∫ w, v w * f (ξ w) ∂μ = 0 := by
  have hm : MeasurableSpace.comap ξ inferInstance ≤ mS := hξ.comap_le
  have hs : StronglyMeasurable[MeasurableSpace.comap ξ inferInstance] fun w => f (ξ w) :=
    (hf.comp (comap_measurable ξ)).stronglyMeasurable
  have h1 := condExp_mul_of_stronglyMeasurable_right (μ := μ) hs hi hv
  have h2 : μ[v * fun w => f (ξ w) | MeasurableSpace.comap ξ inferInstance] =ᵐ[μ] 0 := by
    filter_upwards [h1, h] with w h3 h4
    rw [h3, Pi.mul_apply, h4, Pi.zero_apply, zero_mul]
  have h3 := integral_condExp (μ := μ) (f := v * fun w => f (ξ w)) hm
  rw [integral_congr_ae h2] at h3
  simpa using h3.symm

theorem MeanZeroGiven.integral_eq [IsProbabilityMeasure μ] {ξ : S → 𝒳} (hξ : Measurable ξ) {v : S → ℝ} (h : MeanZeroGiven μ ξ v)
    (hv : Integrable v μ) : ∫ w, v w ∂μ = 0 := by
  simpa using h.integral_mul hξ hv (f := fun _ => 1) measurable_const (by simpa using hv)

/-- A residual with mean zero given more information has mean zero given less. -/
theorem MeanZeroGiven.mono [IsProbabilityMeasure μ] {𝒴 : Type*} [MeasurableSpace 𝒴] {ξ : S → 𝒳} {η : S → 𝒴} (hξ : Measurable ξ)
    {v : S → ℝ} (h : MeanZeroGiven μ ξ v) {φ : 𝒳 → 𝒴} (hφ : Measurable φ) (e : ∀ w, η w = φ (ξ w)) : MeanZeroGiven μ η v := by
  have hle : MeasurableSpace.comap η inferInstance ≤ MeasurableSpace.comap ξ inferInstance := by
    have : η = φ ∘ ξ := funext e
    rw [this, ← MeasurableSpace.comap_comp]
    exact MeasurableSpace.comap_mono hφ.comap_le
  have h1 := condExp_condExp_of_le (μ := μ) (f := v) hle hξ.comap_le
  refine h1.symm.trans ((condExp_congr_ae h).trans ?_)
  rw [condExp_zero]

/-- Integrable with mean zero. -/
def Null (μ : Measure S) (u : S → ℝ) : Prop :=
  Integrable u μ ∧ ∫ w, u w ∂μ = 0

theorem Null.add {u v : S → ℝ} (hu : Null μ u) (hv : Null μ v) : Null μ fun w => u w + v w :=
  ⟨hu.1.add hv.1, by rw [integral_add hu.1 hv.1, hu.2, hv.2, add_zero]⟩

theorem Null.sub {u v : S → ℝ} (hu : Null μ u) (hv : Null μ v) : Null μ fun w => u w - v w :=
  ⟨hu.1.sub hv.1, by rw [integral_sub hu.1 hv.1, hu.2, hv.2, sub_zero]⟩

theorem Null.zero : Null μ fun _ : S => (0 : ℝ) := ⟨integrable_zero _ _ _, by simp⟩

theorem Null.integral_eq {u r f : S → ℝ} (hu : Null μ u) (hr : Integrable r μ) (e : ∀ w, f w = u w + r w) :
    ∫ w, f w ∂μ = ∫ w, r w ∂μ := by
  simp only [e]
  rw [integral_add hu.1 hr, hu.2, zero_add]

/-- Residuals are orthogonal to functions of the covariates. -/
theorem MeanZeroGiven.null [IsProbabilityMeasure μ] {ξ : S → 𝒳} (hξ : Measurable ξ) {v : S → ℝ} (h : MeanZeroGiven μ ξ v)
    (hv : MemLp v 2 μ) {f : 𝒳 → ℝ} (hf : Measurable f) (hf2 : MemLp (fun w => f (ξ w)) 2 μ) : Null μ fun w => v w * f (ξ w) :=
  ⟨hv.integrable_mul hf2, h.integral_mul hξ (hv.integrable one_le_two) hf (hv.integrable_mul hf2)⟩

/-! ## Partially linear models -/

/-- The partially linear model with an instrument `z`: `y = θ d + g(ξ) + ζ` with `E[ζ | z, ξ] = 0`, `z = m(ξ) + v` with
`E[v | ξ] = 0` and `d = r(ξ) + u` with `E[u | ξ] = 0`; residuals have finite moments of order `p`. -/
structure PlivLaw (μ : Measure S) (y d z : S → ℝ) (ξ : S → 𝒳) (θ : ℝ) (g m r : 𝒳 → ℝ) (p : ℝ≥0∞) : Prop where
  measY : Measurable y
  measD : Measurable d
  measZ : Measurable z
  measX : Measurable ξ
  measG : Measurable g
  measM : Measurable m
  measR : Measurable r
  noise : MeanZeroGiven μ (fun w => (z w, ξ w)) fun w => y w - θ * d w - g (ξ w)
  instr : MeanZeroGiven μ ξ fun w => z w - m (ξ w)
  treat : MeanZeroGiven μ ξ fun w => d w - r (ξ w)
  memNoise : MemLp (fun w => y w - θ * d w - g (ξ w)) p μ
  memInstr : MemLp (fun w => z w - m (ξ w)) p μ
  memTreat : MemLp (fun w => d w - r (ξ w)) p μ

/-- The partially linear model: the treatment is its own instrument. -/
def PlrLaw (μ : Measure S) (y d : S → ℝ) (ξ : S → 𝒳) (θ : ℝ) (g m : 𝒳 → ℝ) (p : ℝ≥0∞) : Prop :=
  PlivLaw μ y d d ξ θ g m m p

section Pliv

variable [IsProbabilityMeasure μ] {y d z : S → ℝ} {ξ : S → 𝒳} {θ : ℝ} {g m r : 𝒳 → ℝ}

theorem PlivLaw.mono {p q : ℝ≥0∞} (h : PlivLaw μ y d z ξ θ g m r p) (hpq : q ≤ p) : PlivLaw μ y d z ξ θ g m r q :=
  ⟨h.measY, h.measD, h.measZ, h.measX, h.measG, h.measM, h.measR, h.noise, h.instr, h.treat, h.memNoise.mono_exponent hpq,
    h.memInstr.mono_exponent hpq, h.memTreat.mono_exponent hpq⟩

theorem PlivLaw.noiseX {p : ℝ≥0∞} (h : PlivLaw μ y d z ξ θ g m r p) : MeanZeroGiven μ ξ fun w => y w - θ * d w - g (ξ w) :=
  h.noise.mono (h.measZ.prodMk h.measX) (φ := Prod.snd) measurable_snd fun _ => rfl

theorem PlivLaw.noise_instr (h : PlivLaw μ y d z ξ θ g m r 2) :
    Null μ fun w => (y w - θ * d w - g (ξ w)) * (z w - m (ξ w)) :=
  h.noise.null (h.measZ.prodMk h.measX) h.memNoise (f := fun q => q.1 - m q.2)
    (measurable_fst.sub (h.measM.comp measurable_snd)) h.memInstr

/-- With errors `e` and `f` that depend on the covariates only, the product of the perturbed residuals has the mean of the
product of the errors. -/
theorem PlivLaw.product (h : PlivLaw μ y d z ξ θ g m r 2) {e f : 𝒳 → ℝ} (he : Measurable e) (hf : Measurable f)
    (me : MemLp (fun w => e (ξ w)) 2 μ) (mf : MemLp (fun w => f (ξ w)) 2 μ) :
    ∫ w, (y w - θ * d w - g (ξ w) - e (ξ w)) * (z w - m (ξ w) - f (ξ w)) ∂μ = ∫ w, e (ξ w) * f (ξ w) ∂μ := by
  have n1 := h.noise_instr
  have n2 := h.noiseX.null h.measX h.memNoise hf mf
  have n3 := h.instr.null h.measX h.memInstr he me
  exact ((n1.sub n2).sub n3).integral_eq (me.integrable_mul mf) fun w => by ring

/-- The expected score at the true parameter for arbitrary nuisance functions. -/
theorem PlivLaw.moment (h : PlivLaw μ y d z ξ θ g m r 2) {l' m' r' : 𝒳 → ℝ} (hl : Measurable l') (hm : Measurable m')
    (hr : Measurable r') (el : MemLp (fun w => l' (ξ w) - (θ * r (ξ w) + g (ξ w))) 2 μ)
    (em : MemLp (fun w => m' (ξ w) - m (ξ w)) 2 μ) (er : MemLp (fun w => r' (ξ w) - r (ξ w)) 2 μ) :
    ∫ w, (y w - l' (ξ w) - θ * (d w - r' (ξ w))) * (z w - m' (ξ w)) ∂μ =
      ∫ w, ((l' (ξ w) - (θ * r (ξ w) + g (ξ w))) - θ * (r' (ξ w) - r (ξ w))) * (m' (ξ w) - m (ξ w)) ∂μ := by
  rw [← h.product (e := fun x => (l' x - (θ * r x + g x)) - θ * (r' x - r x)) (f := fun x => m' x - m x)
    ((hl.sub ((h.measR.const_mul θ).add h.measG)).sub ((hr.sub h.measR).const_mul θ)) (hm.sub h.measM)
    (el.sub (er.const_mul θ)) em]
  refine integral_congr_ae (Eventually.of_forall fun w => ?_)
  dsimp only
  ring

/-- The denominator of the score for arbitrary nuisance functions. -/
theorem PlivLaw.denominator (h : PlivLaw μ y d z ξ θ g m r 2) {m' r' : 𝒳 → ℝ} (hm : Measurable m')
    (hr : Measurable r') (em : MemLp (fun w => m' (ξ w) - m (ξ w)) 2 μ) (er : MemLp (fun w => r' (ξ w) - r (ξ w)) 2 μ) :
    ∫ w, (d w - r' (ξ w)) * (z w - m' (ξ w)) ∂μ =
      ∫ w, (d w - r (ξ w)) * (z w - m (ξ w)) ∂μ + ∫ w, (r' (ξ w) - r (ξ w)) * (m' (ξ w) - m (ξ w)) ∂μ := by
  have n2 := h.treat.null h.measX h.memTreat (f := fun x => m' x - m x) (hm.sub h.measM) em
  have n3 := h.instr.null h.measX h.memInstr (f := fun x => r' x - r x) (hr.sub h.measR) er
  have i1 : Integrable (fun w => (d w - r (ξ w)) * (z w - m (ξ w))) μ := h.memTreat.integrable_mul h.memInstr
  have i2 : Integrable (fun w => (r' (ξ w) - r (ξ w)) * (m' (ξ w) - m (ξ w))) μ := er.integrable_mul em
  rw [← integral_add i1 i2]
  have n4 : Null μ fun w => (0 - (d w - r (ξ w)) * (m' (ξ w) - m (ξ w))) - (z w - m (ξ w)) * (r' (ξ w) - r (ξ w)) :=
    ((Null.zero).sub n2).sub n3
  exact n4.integral_eq (i1.add i2) fun w => by ring

end Pliv

/-! ## Arms of interactive models -/

theorem memLp_bdd_mul {p : ℝ≥0∞} {u f : S → ℝ} (hu : MemLp u p μ) (hf : Measurable f) {C : ℝ} (hC : ∀ w, |f w| ≤ C) :
    MemLp (fun w => u w * f w) p μ := by
  refine MemLp.of_le_mul (c := C) hu (hu.1.mul hf.aestronglyMeasurable) (Eventually.of_forall fun w => ?_)
  rw [norm_mul, mul_comm, Real.norm_eq_abs (f w)]
  exact mul_le_mul_of_nonneg_right (hC w) (norm_nonneg _)

theorem memLp_of_bdd [IsProbabilityMeasure μ] {p : ℝ≥0∞} {f : S → ℝ} (hf : Measurable f) {C : ℝ} (hC : ∀ w, |f w| ≤ C) :
    MemLp f p μ :=
  MemLp.of_bound hf.aestronglyMeasurable C (Eventually.of_forall hC)

theorem inv_bdd {τ x : ℝ} (hτ : 0 < τ) (hx : τ ≤ x) : |x⁻¹| ≤ τ⁻¹ := by
  rw [abs_of_pos (inv_pos.2 (hτ.trans_le hx))]
  exact inv_anti₀ hτ hx

/-- Residuals times functions of what is given still have mean zero. -/
theorem MeanZeroGiven.mul_left [IsProbabilityMeasure μ] {ξ : S → 𝒳} {v : S → ℝ} (h : MeanZeroGiven μ ξ v)
    (hv : Integrable v μ) {f : 𝒳 → ℝ} (hf : Measurable f) (hi : Integrable (fun w => f (ξ w) * v w) μ) :
    MeanZeroGiven μ ξ fun w => f (ξ w) * v w := by
  have hs : StronglyMeasurable[MeasurableSpace.comap ξ inferInstance] fun w => f (ξ w) :=
    (hf.comp (comap_measurable ξ)).stronglyMeasurable
  have h1 := condExp_mul_of_stronglyMeasurable_left (μ := μ) hs hi hv
  refine h1.trans ?_
  filter_upwards [h] with w h4
  rw [Pi.mul_apply, h4, Pi.zero_apply, mul_zero]

theorem MeanZeroGiven.neg {ξ : S → 𝒳} {v : S → ℝ} (h : MeanZeroGiven μ ξ v) : MeanZeroGiven μ ξ fun w => -v w := by
  refine (condExp_neg v _).trans ?_
  filter_upwards [h] with w h4
  rw [Pi.neg_apply, h4, Pi.zero_apply, neg_zero]

/-- The observations with `u = 1`: outcome `y` with mean `g(ξ)` among them given the covariates, and probability `m(ξ)` of
being one of them between `τ` and `1`; the residual and `g(ξ)` have finite moments of order `p`. -/
structure ArmLaw (μ : Measure S) (y u : S → ℝ) (ξ : S → 𝒳) (g m : 𝒳 → ℝ) (τ : ℝ) (p : ℝ≥0∞) : Prop where
  measY : Measurable y
  measU : Measurable u
  measX : Measurable ξ
  measG : Measurable g
  measM : Measurable m
  unit : ∀ w, 0 ≤ u w ∧ u w ≤ 1
  noise : MeanZeroGiven μ ξ fun w => u w * (y w - g (ξ w))
  treat : MeanZeroGiven μ ξ fun w => u w - m (ξ w)
  pos : 0 < τ
  overlap : ∀ x, τ ≤ m x ∧ m x ≤ 1
  memNoise : MemLp (fun w => u w * (y w - g (ξ w))) p μ
  memG : MemLp (fun w => g (ξ w)) p μ

/-- The doubly robust signal of an arm. -/
noncomputable def armVal (y u : S → ℝ) (ξ : S → 𝒳) (g m : 𝒳 → ℝ) (w : S) : ℝ :=
  g (ξ w) + u w * (y w - g (ξ w)) / m (ξ w)

section Arm

variable {y u : S → ℝ} {ξ : S → 𝒳} {g m : 𝒳 → ℝ} {τ : ℝ}

theorem ArmLaw.unit_abs {p : ℝ≥0∞} (h : ArmLaw μ y u ξ g m τ p) (w : S) : |u w| ≤ 1 := by
  rw [abs_of_nonneg (h.unit w).1]
  exact (h.unit w).2

theorem ArmLaw.treat_bdd {p : ℝ≥0∞} (h : ArmLaw μ y u ξ g m τ p) (w : S) : |u w - m (ξ w)| ≤ 1 := by
  have h1 := h.overlap (ξ w)
  have h2 := h.unit w
  have hp := h.pos
  rw [_root_.abs_le]
  constructor <;> linarith

variable [IsProbabilityMeasure μ]

theorem ArmLaw.mono {p q : ℝ≥0∞} (h : ArmLaw μ y u ξ g m τ p) (hpq : q ≤ p) : ArmLaw μ y u ξ g m τ q :=
  ⟨h.measY, h.measU, h.measX, h.measG, h.measM, h.unit, h.noise, h.treat, h.pos, h.overlap,
    h.memNoise.mono_exponent hpq, h.memG.mono_exponent hpq⟩

theorem ArmLaw.memTreat {p q : ℝ≥0∞} (h : ArmLaw μ y u ξ g m τ p) : MemLp (fun w => u w - m (ξ w)) q μ :=
  memLp_of_bdd (h.measU.sub (h.measM.comp h.measX)) h.treat_bdd

/-- The mean of the signal is the mean of `g` up to the mean of the product of the errors. -/
theorem ArmLaw.signal (h : ArmLaw μ y u ξ g m τ 2) {g' m' : 𝒳 → ℝ} (hg : Measurable g') (hm : Measurable m')
    (eg : MemLp (fun w => g' (ξ w) - g (ξ w)) 2 μ) (hm' : ∀ x, τ ≤ m' x) :
    Null μ fun w => armVal y u ξ g' m' w - g (ξ w) - (g' (ξ w) - g (ξ w)) * (m' (ξ w) - m (ξ w)) / m' (ξ w) := by
  have hpos : ∀ x, 0 < m' x := fun x => h.pos.trans_le (hm' x)
  have n1 := h.noise.null h.measX h.memNoise (f := fun x => (m' x)⁻¹) hm.inv
    (memLp_of_bdd (hm.comp h.measX).inv fun w => inv_bdd h.pos (hm' _))
  have n2 := h.treat.null h.measX h.memTreat (f := fun x => (g' x - g x) * (m' x)⁻¹) ((hg.sub h.measG).mul hm.inv)
    (memLp_bdd_mul eg (hm.comp h.measX).inv fun w => inv_bdd h.pos (hm' _))
  have := n1.sub n2
  refine ⟨this.1.congr (Eventually.of_forall fun w => ?_), (integral_congr_ae (Eventually.of_forall fun w => ?_)).trans this.2⟩
  all_goals
    have := (hpos (ξ w)).ne'
    unfold armVal
    field_simp
    ring

/-- At the true functions. -/
theorem ArmLaw.null (h : ArmLaw μ y u ξ g m τ 2) : Null μ fun w => armVal y u ξ g m w - g (ξ w) := by
  have := h.signal h.measG h.measM (by simp) fun x => (h.overlap x).1
  simpa using this

omit [IsProbabilityMeasure μ] in
theorem ArmLaw.mem {p : ℝ≥0∞} (h : ArmLaw μ y u ξ g m τ p) : MemLp (armVal y u ξ g m) p μ := by
  have := h.memG.add (memLp_bdd_mul h.memNoise (h.measM.comp h.measX).inv fun w => inv_bdd h.pos (h.overlap _).1)
  refine this.ae_eq (Eventually.of_forall fun w => ?_)
  rw [Pi.add_apply, armVal, div_eq_mul_inv]
  rfl

omit [IsProbabilityMeasure μ] in
theorem ArmLaw.measVal {p : ℝ≥0∞} (h : ArmLaw μ y u ξ g m τ p) : Measurable (armVal y u ξ g m) :=
  (h.measG.comp h.measX).add ((h.measU.mul (h.measY.sub (h.measG.comp h.measX))).div (h.measM.comp h.measX))

/-- The mean of the signal at the true functions. -/
theorem ArmLaw.integral_eq (h : ArmLaw μ y u ξ g m τ 2) : ∫ w, armVal y u ξ g m w ∂μ = ∫ w, g (ξ w) ∂μ :=
  h.null.integral_eq (h.memG.integrable one_le_two) fun w => by ring

end Arm

/-! ## Interactive models -/

/-- The interactive model for a binary variable `d` (a treatment or an instrument): `E[y | d, ξ] = d g₁(ξ) + (1 - d) g₀(ξ)` and
`E[d | ξ] = m(ξ)` lies between `τ` and `1 - τ`; residuals and conditional means have finite moments of order `p`. -/
structure IrmLaw (μ : Measure S) (y d : S → ℝ) (ξ : S → 𝒳) (g₀ g₁ m : 𝒳 → ℝ) (τ : ℝ) (p : ℝ≥0∞) : Prop where
  measY : Measurable y
  measD : Measurable d
  measX : Measurable ξ
  measG0 : Measurable g₀
  measG1 : Measurable g₁
  measM : Measurable m
  binary : ∀ w, d w = 0 ∨ d w = 1
  noise : MeanZeroGiven μ (fun w => (d w, ξ w)) fun w => y w - (d w * g₁ (ξ w) + (1 - d w) * g₀ (ξ w))
  treat : MeanZeroGiven μ ξ fun w => d w - m (ξ w)
  pos : 0 < τ
  overlap : ∀ x, τ ≤ m x ∧ m x ≤ 1 - τ
  memNoise : MemLp (fun w => y w - (d w * g₁ (ξ w) + (1 - d w) * g₀ (ξ w))) p μ
  memG0 : MemLp (fun w => g₀ (ξ w)) p μ
  memG1 : MemLp (fun w => g₁ (ξ w)) p μ

section Irm

variable [IsProbabilityMeasure μ] {y d : S → ℝ} {ξ : S → 𝒳} {g₀ g₁ m : 𝒳 → ℝ} {τ : ℝ} {p : ℝ≥0∞}

/-- The treated. -/
theorem IrmLaw.treated (h : IrmLaw μ y d ξ g₀ g₁ m τ p) (hp : 1 ≤ p) : ArmLaw μ y d ξ g₁ m τ p := by
  have e : (fun w => d w * (y w - g₁ (ξ w))) = fun w => d w * (y w - (d w * g₁ (ξ w) + (1 - d w) * g₀ (ξ w))) := by
    funext w
    rcases h.binary w with e | e <;> rw [e] <;> ring
  have b : ∀ w, |d w| ≤ 1 := fun w => by rcases h.binary w with e | e <;> simp [e]
  have hm : MemLp (fun w => d w * (y w - (d w * g₁ (ξ w) + (1 - d w) * g₀ (ξ w)))) p μ := by
    exact (memLp_bdd_mul h.memNoise h.measD b).ae_eq (Eventually.of_forall fun w => mul_comm _ _)
  refine ⟨h.measY, h.measD, h.measX, h.measG1, h.measM, fun w => ?_, ?_, h.treat, h.pos, fun x => ⟨(h.overlap x).1, ?_⟩, ?_, h.memG1⟩
  · rcases h.binary w with e | e <;> simp [e]
  · rw [e]
    exact (h.noise.mul_left (h.memNoise.integrable hp) (f := fun q => q.1) measurable_fst (hm.integrable hp)).mono
      (h.measD.prodMk h.measX) measurable_snd fun _ => rfl
  · linarith [(h.overlap x).2, h.pos]
  · rw [e]
    exact hm

/-- The untreated. -/
theorem IrmLaw.untreated (h : IrmLaw μ y d ξ g₀ g₁ m τ p) (hp : 1 ≤ p) :
    ArmLaw μ y (fun w => 1 - d w) ξ g₀ (fun x => 1 - m x) τ p := by
  have e : (fun w => (1 - d w) * (y w - g₀ (ξ w))) = fun w => (1 - d w) * (y w - (d w * g₁ (ξ w) + (1 - d w) * g₀ (ξ w))) := by
    funext w
    rcases h.binary w with e | e <;> rw [e] <;> ring
  have b : ∀ w, |1 - d w| ≤ 1 := fun w => by rcases h.binary w with e | e <;> simp [e]
  have hm : MemLp (fun w => (1 - d w) * (y w - (d w * g₁ (ξ w) + (1 - d w) * g₀ (ξ w)))) p μ := by
    exact (memLp_bdd_mul h.memNoise (measurable_const.sub h.measD) b).ae_eq (Eventually.of_forall fun w => mul_comm _ _)
  refine ⟨h.measY, measurable_const.sub h.measD, h.measX, h.measG0, measurable_const.sub h.measM, fun w => ?_, ?_, ?_, h.pos,
    fun x => ⟨?_, ?_⟩, ?_, h.memG0⟩
  · rcases h.binary w with e | e <;> simp [e]
  · rw [e]
    exact (h.noise.mul_left (h.memNoise.integrable hp) (f := fun q => 1 - q.1) (measurable_const.sub measurable_fst)
      (hm.integrable hp)).mono (h.measD.prodMk h.measX) measurable_snd fun _ => rfl
  · have := h.treat.neg
    refine (congrArg (MeanZeroGiven μ ξ) (funext fun w => ?_)).mp this
    ring
  · linarith [(h.overlap x).2]
  · linarith [(h.overlap x).1, h.pos]
  · rw [e]
    exact hm

end Irm

end DML
