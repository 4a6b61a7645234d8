import Verif.DatasetsIvProps
import Verif.OrthogonalityCausalProps

/-!
# Simulated data: models with binary treatments

C80, fourth part: potential outcomes of the simulated observations of interactive models.
-/

namespace DML

open MeasureTheory ProbabilityTheory Filter
open scoped ENNReal

variable {S : Type*} [MeasurableSpace S] {μ : Measure S} {n p : ℕ}

/-- Specification: potential outcomes `y₀`, `y₁` with conditional means `g₀`, `g₁` given treatment and covariates, and a binary treatment with
conditional probability `m` strictly between zero and one.  (`Unconfounded` asks in addition that `m` keeps a distance from zero and one.) -/
structure Ignorable {𝒳 : Type*} [MeasurableSpace 𝒳] (μ : Measure S) (y y₀ y₁ d : S → ℝ) (ξ : S → 𝒳) (g₀ g₁ m : 𝒳 → ℝ) : Prop where
  measD : Measurable d
  measX : Measurable ξ
  measM : Measurable m
  binary : ∀ w, d w = 0 ∨ d w = 1
  consistent : ∀ w, y w = d w * y₁ w + (1 - d w) * y₀ w
  mean0 : CondMean μ (fun w => (d w, ξ w)) y₀ ξ g₀
  mean1 : CondMean μ (fun w => (d w, ξ w)) y₁ ξ g₁
  treat : MeanZeroGiven μ ξ fun w => d w - m (ξ w)
  interior : ∀ x, 0 < m x ∧ m x < 1

/-! ## Uniform draws -/

/-- The law of `np.random.uniform`. -/
noncomputable def unif : Measure ℝ := volume.restrict (Set.Icc 0 1)

instance : IsProbabilityMeasure unif := ⟨by simp [unif]⟩

/-- A uniform draw is less than `q` with probability `q`. -/
theorem unif_lt {q : ℝ} (h0 : 0 ≤ q) (h1 : q ≤ 1) : ∫ v, (if v < q then (1 : ℝ) else 0) ∂unif = q := by
  have e : (fun v : ℝ => if v < q then (1 : ℝ) else 0) = (Set.Iio q).indicator fun _ => 1 := by
    funext v
    simp [Set.indicator]
  rw [e, integral_indicator_const _ measurableSet_Iio, smul_eq_mul, mul_one]
  have : Set.Iio q ∩ Set.Icc 0 1 = Set.Ico 0 q := by
    ext v
    simp only [Set.mem_inter_iff, Set.mem_Iio, Set.mem_Icc, Set.mem_Ico]
    constructor
    · rintro ⟨a, b, c⟩
      exact ⟨b, a⟩
    · rintro ⟨a, b⟩
      exact ⟨b, a, by linarith⟩
  rw [unif, Measure.real, Measure.restrict_apply measurableSet_Iio, this, Real.volume_Ico, sub_zero, ENNReal.toReal_ofReal h0]

/-! ## The interactive model -/

/-- Uniform draws compared with a propensity, and errors independent of covariates and treatment, make an interactive model. -/
theorem ignorable_of_errors {𝒳 A B : Type*} [MeasurableSpace 𝒳] [MeasurableSpace A] [MeasurableSpace B] {μX : Measure 𝒳} {α : Measure A}
    {β : Measure B} [IsProbabilityMeasure μX] [IsProbabilityMeasure α] [IsProbabilityMeasure β] {y y₀ y₁ : (𝒳 × A) × B → ℝ} {d : 𝒳 × A → ℝ}
    {g₀ g₁ m : 𝒳 → ℝ} {e₀ e₁ : B → ℝ} (hb : ∀ a, d a = 0 ∨ d a = 1) (md : Measurable d) (hm : ∀ x, ∫ a, d (x, a) ∂α = m x)
    (mm : Measurable m) (h0 : ∀ w, y₀ w = g₀ w.1.1 + e₀ w.2) (h1 : ∀ w, y₁ w = g₁ w.1.1 + e₁ w.2)
    (hy : ∀ w, y w = d w.1 * y₁ w + (1 - d w.1) * y₀ w) (me0 : Measurable e₀) (le0 : MemLp e₀ 2 β)
    (ee0 : ∫ b, e₀ b ∂β = 0) (me1 : Measurable e₁) (le1 : MemLp e₁ 2 β) (ee1 : ∫ b, e₁ b ∂β = 0)
    (mg0 : Measurable g₀) (mg1 : Measurable g₁) (lg0 : MemLp g₀ 2 μX) (lg1 : MemLp g₁ 2 μX) (hint : ∀ x, 0 < m x ∧ m x < 1) :
    Ignorable ((μX.prod α).prod β) y y₀ y₁ (fun w => d w.1) (fun w => w.1.1) g₀ g₁ m := by
  have p0 : MeasurePreserving (fun w : (𝒳 × A) × B => w.1.1) ((μX.prod α).prod β) μX := measurePreserving_fst.comp measurePreserving_fst
  have p1 : MeasurePreserving (fun w : (𝒳 × A) × B => w.1) ((μX.prod α).prod β) (μX.prod α) := measurePreserving_fst
  have p3 : MeasurePreserving (fun w : (𝒳 × A) × B => w.2) ((μX.prod α).prod β) β := measurePreserving_snd
  have arm : ∀ (v : (𝒳 × A) × B → ℝ) (g : 𝒳 → ℝ) (e : B → ℝ), (∀ w, v w = g w.1.1 + e w.2) → Measurable g → MemLp g 2 μX → Measurable e →
      MemLp e 2 β → ∫ b, e b ∂β = 0 → CondMean ((μX.prod α).prod β) (fun w => (d w.1, w.1.1)) v (fun w => w.1.1) g := by
    intro v g e hv mg lg me le ee
    have l2 : MemLp (fun w : (𝒳 × A) × B => e w.2) 2 ((μX.prod α).prod β) := le.comp_measurePreserving p3
    have z : MeanZeroGiven ((μX.prod α).prod β) (fun w => (d w.1, w.1.1)) fun w => e w.2 := by
      have : MeanZeroGiven ((μX.prod α).prod β) (fun w => w.1) fun w => e w.2 :=
        MeanZeroGiven.preserving (φ := id) (MeasurePreserving.id _) (h := fun w => e w.2) (l2.integrable one_le_two) fun _ => ee
      exact this.mono measurable_fst (φ := fun a => (d a, a.1)) (md.prodMk measurable_fst) fun w => rfl
    have hv' := funext hv
    have r : (fun w => v w - g w.1.1) = fun w => e w.2 := funext fun w => by rw [hv w]; ring
    refine ⟨?_, mg, ?_, ?_, lg.comp_measurePreserving p0⟩
    · rw [hv']
      exact (mg.comp measurable_fst.fst).add (me.comp measurable_snd)
    · rw [r]; exact z
    · rw [r]; exact l2
  refine ⟨md.comp measurable_fst, measurable_fst.fst, mm, fun w => hb _, hy, arm _ _ _ h0 mg0 lg0 me0 le0 ee0, arm _ _ _ h1 mg1 lg1 me1 le1 ee1, ?_,
    hint⟩
  have bd : ∀ a, |d a| ≤ 1 := fun a => by rcases hb a with h | h <;> simp [h]
  refine MeanZeroGiven.preserving p1 (h := fun a => d a - m a.1) ?_ fun x => ?_
  · refine Integrable.of_bound (md.sub (mm.comp measurable_fst)).aestronglyMeasurable 2 (Eventually.of_forall fun a => ?_)
    have h1 := bd a
    have h2 := hint a.1
    rw [Real.norm_eq_abs, abs_le]
    rw [abs_le] at h1
    constructor <;> linarith [h2.1, h2.2]
  · dsimp only
    rw [integral_sub, integral_const, hm]
    · simp
    · exact Integrable.of_bound (md.comp (measurable_const.prodMk measurable_id)).aestronglyMeasurable 1 (Eventually.of_forall fun a => bd _)
    · exact integrable_const _

theorem dotp_mul_const (x b : Fin p → ℝ) (c : ℝ) : dotp x (fun j => b j * c) = c * dotp x b := by
  unfold dotp
  rw [Finset.mul_sum]
  exact Finset.sum_congr rfl fun j _ => by ring

/-- The law of the draws of one observation of `make_irm_data`: covariates, uniform draw of the treatment, error of the outcome. -/
noncomputable def irmDraws {𝒳 : Type*} [MeasurableSpace 𝒳] (μX : Measure 𝒳) : Measure ((𝒳 × ℝ) × ℝ) := (μX.prod unif).prod (gaussianReal 0 1)

/-- The constants `c_y` and `c_d` (/repo/doubleml/datasets.py:402-403). -/
noncomputable def irmCy (p : ℕ) (R2y : ℝ) : ℝ := Real.sqrt (R2y / ((1 - R2y) * quadForm (toeplitz 0.5 p) (invSquares p)))

/-- See `irmCy`. -/
noncomputable def irmCd (p : ℕ) (R2d : ℝ) : ℝ :=
  Real.sqrt (Real.pi ^ 2 / 3 * R2d / ((1 - R2d) * quadForm (toeplitz 0.5 p) (invSquares p)))

/-- **C80.** The observations of `make_irm_data` have potential outcomes, treatment given covariates is assigned at random with
probability `logistic (c_d x'β)`, and the average treatment effect is `theta`. -/
theorem C80_irm (theta R2d R2y : ℝ) (μX : Measure (Fin p → ℝ)) [IsGaussian μX] (h0 : ∀ j, ∫ x, x j ∂μX = 0) :
    ∃ (y y₀ y₁ : (Fin p → ℝ) → ℝ → ℝ → ℝ) (d : (Fin p → ℝ) → ℝ → ℝ) (g₀ g₁ m : (Fin p → ℝ) → ℝ),
      (∀ (n : ℕ) (X : Fin n → Fin p → ℝ) (v ζ : Fin n → ℝ), makeIrm theta R2d R2y .array v ζ X =
        .ok (.arrays (matCols X) [fun i => y (X i) (v i) (ζ i), fun i => d (X i) (v i)])) ∧
      Ignorable (irmDraws μX) (fun w => y w.1.1 w.1.2 w.2) (fun w => y₀ w.1.1 w.1.2 w.2) (fun w => y₁ w.1.1 w.1.2 w.2)
        (fun w => d w.1.1 w.1.2) (fun w => w.1.1) g₀ g₁ m ∧
      (∀ x, g₀ x = 0) ∧ (∀ x, g₁ x = theta + irmCy p R2y * dotp x (invSquares p)) ∧
      (∀ x, m x = logistic (irmCd p R2d * dotp x (invSquares p))) ∧
      ∫ w, (y₁ w.1.1 w.1.2 w.2 - y₀ w.1.1 w.1.2 w.2) ∂(irmDraws μX) = theta := by
  obtain ⟨hm, e0, -⟩ := stdNormal_moments (q := 2) (by simp)
  set cy := irmCy p R2y with hcy
  set cd := irmCd p R2d with hcd
  have ml : Measurable fun x : Fin p → ℝ => logistic (cd * dotp x (invSquares p)) := measurable_logistic.comp ((measurable_dotp _).const_mul _)
  have md : Measurable fun a : (Fin p → ℝ) × ℝ => if a.2 < logistic (cd * dotp a.1 (invSquares p)) then (1 : ℝ) else 0 :=
    Measurable.ite (measurableSet_lt measurable_snd (ml.comp measurable_fst)) measurable_const measurable_const
  have lg1 : MemLp (fun x : Fin p → ℝ => theta + cy * dotp x (invSquares p)) 2 μX :=
    (memLp_const theta).add ((gaussian_dot _ (by simp)).const_mul cy)
  refine ⟨fun x v ζ => (if v < logistic (cd * dotp x (invSquares p)) then (1 : ℝ) else 0) * theta +
      (if v < logistic (cd * dotp x (invSquares p)) then (1 : ℝ) else 0) * (cy * dotp x (invSquares p)) + ζ,
    fun x _ ζ => 0 + ζ, fun x _ ζ => theta + cy * dotp x (invSquares p) + ζ,
    fun x v => if v < logistic (cd * dotp x (invSquares p)) then 1 else 0, fun _ => 0, fun x => theta + cy * dotp x (invSquares p),
    fun x => logistic (cd * dotp x (invSquares p)), ?_, ?_, fun _ => rfl, fun _ => rfl, fun _ => rfl, ?_⟩
  · intro n X v ζ
    unfold makeIrm
    simp only [dotp_mul_const]
    rfl
  · refine ignorable_of_errors (d := fun a => if a.2 < logistic (cd * dotp a.1 (invSquares p)) then (1 : ℝ) else 0) (e₀ := fun ζ => ζ) (e₁ := fun ζ => ζ)
      (fun a => ?_) md (fun x => unif_lt (q := logistic (cd * dotp x (invSquares p))) (logistic_pos _).le (logistic_lt_one _).le) ml (fun _ => rfl) (fun _ => rfl) (fun w => ?_) measurable_id hm e0 measurable_id hm e0
      measurable_const (((measurable_dotp _).const_mul cy).const_add theta) (memLp_const 0) lg1 fun x => ⟨logistic_pos _, logistic_lt_one _⟩
    · split_ifs
      · exact Or.inr rfl
      · exact Or.inl rfl
    · dsimp only
      ring
  · have e : ∀ w : ((Fin p → ℝ) × ℝ) × ℝ, theta + cy * dotp w.1.1 (invSquares p) + w.2 - (0 + w.2) = theta + cy * dotp w.1.1 (invSquares p) :=
      fun w => by ring
    have p0 : MeasurePreserving (fun w : ((Fin p → ℝ) × ℝ) × ℝ => w.1.1) (irmDraws μX) μX := measurePreserving_fst.comp measurePreserving_fst
    simp only [e]
    have i1 : Integrable (fun x : Fin p → ℝ => cy * dotp x (invSquares p)) μX := ((gaussian_dot _ (q := 1) (by simp)).integrable le_rfl).const_mul cy
    rw [integral_preserving p0 (f := fun x => theta + cy * dotp x (invSquares p)) lg1.aestronglyMeasurable,
      integral_add (integrable_const _) i1, integral_const_mul, gaussian_dot_mean h0]
    simp

/-! ## The strength of the dependence in `make_irm_data` -/

theorem quadForm_pos (hp : 0 < p) : 0 < quadForm (toeplitz 0.5 p) (invSquares p) := by
  have hb : ∀ j : Fin p, 0 < invSquares p j := fun j => by unfold invSquares; positivity
  have hne : (Finset.univ : Finset (Fin p)).Nonempty := ⟨⟨0, hp⟩, Finset.mem_univ _⟩
  unfold quadForm
  refine Finset.sum_pos (fun j _ => mul_pos (Finset.sum_pos (fun k _ => mul_pos ?_ (hb k)) hne) (hb j)) hne
  unfold toeplitz
  positivity

/-- The variance of `x'β`. -/
theorem gaussian_dot_var {μX : Measure (Fin p → ℝ)} [IsGaussian μX] {A : Fin p → Fin p → ℝ} (hc : ∀ j k, ∫ x, x j * x k ∂μX = A j k)
    (b : Fin p → ℝ) : ∫ x, dotp x b ^ 2 ∂μX = quadForm A b := by
  have i2 : ∀ j, MemLp (fun a : Fin p → ℝ => a j) 2 μX := fun j => gaussian_coord j (by simp)
  have i4 : ∀ j k, Integrable (fun a : Fin p → ℝ => b j * b k * (a j * a k)) μX := fun j k => ((i2 j).integrable_mul (i2 k)).const_mul _
  have e : ∀ x : Fin p → ℝ, dotp x b ^ 2 = ∑ j, ∑ k, b j * b k * (x j * x k) := fun x => by
    unfold dotp
    rw [sq, Finset.sum_mul_sum]
    exact Finset.sum_congr rfl fun j _ => Finset.sum_congr rfl fun k _ => by ring
  simp only [e]
  rw [integral_finsetSum _ fun j _ => integrable_finsetSum _ fun k _ => i4 j k]
  unfold quadForm
  refine Finset.sum_congr rfl fun j _ => ?_
  rw [integral_finsetSum _ fun k _ => i4 j k, Finset.sum_mul]
  refine Finset.sum_congr rfl fun k _ => ?_
  rw [integral_const_mul, hc]
  ring

/-- **C80.** With covariates drawn from the normal distribution with covariance `0.5 ^ |j - k|`, `R2_y` is the share of the variance of
the outcome under treatment that is explained by the covariates, and `R2_d` the corresponding share for the latent index of the
treatment, whose logistic error has variance `π² / 3`. -/
theorem C80_irm_r2 (hp : 0 < p) {R2d R2y : ℝ} (hd : 0 ≤ R2d ∧ R2d < 1) (hy : 0 ≤ R2y ∧ R2y < 1) (μX : Measure (Fin p → ℝ)) [IsGaussian μX]
    (hc : ∀ j k, ∫ x, x j * x k ∂μX = toeplitz 0.5 p j k) :
    (∫ x, (irmCy p R2y * dotp x (invSquares p)) ^ 2 ∂μX) / ((∫ x, (irmCy p R2y * dotp x (invSquares p)) ^ 2 ∂μX) + 1) = R2y ∧
      (∫ x, (irmCd p R2d * dotp x (invSquares p)) ^ 2 ∂μX) /
        ((∫ x, (irmCd p R2d * dotp x (invSquares p)) ^ 2 ∂μX) + Real.pi ^ 2 / 3) = R2d := by
  have hq := quadForm_pos hp
  have hv := gaussian_dot_var hc (invSquares p)
  simp only [mul_pow, integral_const_mul, hv]
  have h1 : 0 < 1 - R2y := by linarith [hy.2]
  have h2 : 0 < 1 - R2d := by linarith [hd.2]
  have hpi := Real.pi_pos
  unfold irmCy irmCd
  rw [Real.sq_sqrt (div_nonneg hy.1 (by positivity)), Real.sq_sqrt (div_nonneg (mul_nonneg (by positivity) hd.1) (by positivity))]
  constructor
  · have e : R2y / ((1 - R2y) * quadForm (toeplitz 0.5 p) (invSquares p)) * quadForm (toeplitz 0.5 p) (invSquares p) = R2y / (1 - R2y) := by
      field_simp
    rw [e]
    field_simp
    ring
  · have e : Real.pi ^ 2 / 3 * R2d / ((1 - R2d) * quadForm (toeplitz 0.5 p) (invSquares p)) * quadForm (toeplitz 0.5 p) (invSquares p) =
        Real.pi ^ 2 / 3 * (R2d / (1 - R2d)) := by
      field_simp
    rw [e]
    field_simp
    ring

/-- `x'β` is a normal variable; if its variance is positive, every open set of values has positive probability. -/
theorem gaussian_dot_open {μX : Measure (Fin p → ℝ)} [IsGaussian μX] (b : Fin p → ℝ) (hv : 0 < ∫ x, dotp x b ^ 2 ∂μX) (h0 : ∀ j, ∫ x, x j ∂μX = 0)
    {s : Set ℝ} (hs : IsOpen s) (hne : s.Nonempty) : 0 < μX {x | dotp x b ∈ s} := by
  let L : StrongDual ℝ (Fin p → ℝ) := ∑ j, b j • ContinuousLinearMap.proj (R := ℝ) (φ := fun _ : Fin p => ℝ) j
  have hL : ∀ x, L x = dotp x b := fun x => by simp [L, dotp, mul_comm]
  have hmap := IsGaussian.map_eq_gaussianReal (μ := μX) L
  have hmean : ∫ x, L x ∂μX = 0 := by
    simp only [hL]
    exact gaussian_dot_mean h0 b
  have hvar : Var[L; μX] = ∫ x, dotp x b ^ 2 ∂μX := by
    rw [variance_of_integral_eq_zero L.continuous.measurable.aemeasurable hmean]
    simp only [hL]
  have hne0 : Var[L; μX].toNNReal ≠ 0 := by
    rw [hvar]
    exact (Real.toNNReal_pos.2 hv).ne'
  have hpos : 0 < gaussianReal (∫ x, L x ∂μX) Var[L; μX].toNNReal s := by
    rw [pos_iff_ne_zero]
    intro h
    exact (hs.measure_pos volume hne).ne' (gaussianReal_absolutelyContinuous' _ hne0 h)
  rw [← hmap, Measure.map_apply L.continuous.measurable hs.measurableSet] at hpos
  have : L ⁻¹' s = {x | dotp x b ∈ s} := by
    ext x
    simp only [Set.mem_preimage, hL]
    rfl
  rwa [this] at hpos

theorem logistic_mono {a b : ℝ} (h : a < b) : logistic a < logistic b := by
  have e : ∀ a, logistic a = 1 - 1 / (1 + Real.exp a) := fun a => by
    have := Real.exp_pos a
    unfold logistic
    field_simp
    ring
  rw [e, e]
  have h1 := Real.exp_lt_exp.2 h
  have h2 := Real.exp_pos a
  have : 1 / (1 + Real.exp b) < 1 / (1 + Real.exp a) := one_div_lt_one_div_of_lt (by positivity) (by linarith)
  linarith

theorem logistic_log {τ : ℝ} (h0 : 0 < τ) (h1 : τ < 1) : logistic (Real.log (τ / (1 - τ))) = τ := by
  have h2 : 0 < 1 - τ := by linarith
  unfold logistic
  rw [Real.exp_log (by positivity)]
  field_simp
  ring

/-- **C80.** The propensities of `make_irm_data` do not stay away from zero: with `0 < R2_d < 1` a propensity less than any given bound has
positive probability.  (The same holds for one.) -/
theorem C80_irm_overlap_violated (hp : 0 < p) {R2d : ℝ} (hd : 0 < R2d ∧ R2d < 1) (μX : Measure (Fin p → ℝ)) [IsGaussian μX] (h0 : ∀ j, ∫ x, x j ∂μX = 0)
    (hc : ∀ j k, ∫ x, x j * x k ∂μX = toeplitz 0.5 p j k) {τ : ℝ} (hτ : 0 < τ) (hτ1 : τ < 1) :
    0 < μX {x | logistic (irmCd p R2d * dotp x (invSquares p)) < τ} ∧ 0 < μX {x | 1 - τ < logistic (irmCd p R2d * dotp x (invSquares p))} := by
  have hq := quadForm_pos hp
  have hv : 0 < ∫ x, dotp x (invSquares p) ^ 2 ∂μX := by rw [gaussian_dot_var hc]; exact hq
  have h2 : 0 < 1 - R2d := by linarith [hd.2]
  have hpi := Real.pi_pos
  have hcd : 0 < irmCd p R2d := Real.sqrt_pos.2 (div_pos (mul_pos (by positivity) hd.1) (by positivity))
  constructor
  · refine (gaussian_dot_open (invSquares p) hv h0 (s := Set.Iio (Real.log (τ / (1 - τ)) / irmCd p R2d)) isOpen_Iio Set.nonempty_Iio).trans_le
      (measure_mono fun x hx => ?_)
    have hx : dotp x (invSquares p) < Real.log (τ / (1 - τ)) / irmCd p R2d := hx
    rw [lt_div_iff₀ hcd, mul_comm] at hx
    exact (logistic_mono hx).trans_eq (logistic_log hτ hτ1)
  · refine (gaussian_dot_open (invSquares p) hv h0 (s := Set.Ioi (Real.log ((1 - τ) / (1 - (1 - τ))) / irmCd p R2d)) isOpen_Ioi Set.nonempty_Ioi).trans_le
      (measure_mono fun x hx => ?_)
    have hx : Real.log ((1 - τ) / (1 - (1 - τ))) / irmCd p R2d < dotp x (invSquares p) := hx
    rw [div_lt_iff₀ hcd, mul_comm] at hx
    exact (logistic_log (τ := 1 - τ) (by linarith) (by linarith)).symm.trans_lt (logistic_mono hx)

/-- The effect on the treated in terms of propensities and conditional means. -/
theorem Ignorable.treated [IsProbabilityMeasure μ] {𝒳 : Type*} [MeasurableSpace 𝒳] {y y₀ y₁ d : S → ℝ} {ξ : S → 𝒳} {g₀ g₁ m : 𝒳 → ℝ}
    (h : Ignorable μ y y₀ y₁ d ξ g₀ g₁ m) :
    ∫ w in {w | d w = 1}, (y₁ w - y₀ w) ∂μ = ∫ w, m (ξ w) * (g₁ (ξ w) - g₀ (ξ w)) ∂μ ∧ μ.real {w | d w = 1} = ∫ w, m (ξ w) ∂μ := by
  have mx := h.measD.prodMk h.measX
  have bd := bdd_of_binary h.binary
  have bm : ∀ w, |m (ξ w)| ≤ 1 := fun w => by
    rw [abs_of_pos (h.interior _).1]
    exact (h.interior _).2.le
  have hs : MeasurableSet {w | d w = 1} := h.measD (measurableSet_singleton 1)
  have ind : ∀ f : S → ℝ, ∫ w, d w * f w ∂μ = ∫ w in {w | d w = 1}, f w ∂μ := by
    intro f
    rw [← integral_indicator hs]
    refine integral_congr_ae (Eventually.of_forall fun w => ?_)
    dsimp only
    by_cases hw : d w = 1
    · rw [Set.indicator_of_mem (by exact hw), hw, one_mul]
    · rw [Set.indicator_of_notMem (by exact hw), (h.binary w).resolve_right hw, zero_mul]
  have mM : Measurable fun w => m (ξ w) := h.measM.comp h.measX
  have l2 : MemLp (fun w => d w - m (ξ w)) 2 μ :=
    (MemLp.of_bound h.measD.aestronglyMeasurable 1 (Eventually.of_forall bd)).sub
      (MemLp.of_bound mM.aestronglyMeasurable 1 (Eventually.of_forall bm))
  have id : Integrable d μ := Integrable.of_bound h.measD.aestronglyMeasurable 1 (Eventually.of_forall bd)
  have im : Integrable (fun w => m (ξ w)) μ := Integrable.of_bound mM.aestronglyMeasurable 1 (Eventually.of_forall bm)
  constructor
  · obtain ⟨a1, b1, c1⟩ := h.mean1.weighted mx (f := fun q => q.1) measurable_fst bd
    obtain ⟨a0, b0, c0⟩ := h.mean0.weighted mx (f := fun q => q.1) measurable_fst bd
    have e2 := ((HasMean.of b1).sub (HasMean.of b0)).2
    have e3 := ((HasMean.of a1).sub (HasMean.of a0)).2
    rw [← ind]
    simp only [mul_sub]
    refine e3.trans ?_
    rw [← c1, ← c0]
    refine e2.symm.trans ?_
    have n := h.treat.null h.measX l2 (f := fun x => g₁ x - g₀ x) (h.mean1.measG.sub h.mean0.measG) (h.mean1.memG.sub h.mean0.memG)
    have lm : Integrable (fun w => m (ξ w) * (g₁ (ξ w) - g₀ (ξ w))) μ :=
      ((memLp_bdd_mul (h.mean1.memG.sub h.mean0.memG) mM bm).integrable one_le_two).congr (Eventually.of_forall fun w => mul_comm _ _)
    have := n.integral_eq lm (f := fun w => d w * g₁ (ξ w) - d w * g₀ (ξ w)) fun w => by ring
    rw [this]
    exact integral_congr_ae (Eventually.of_forall fun w => by dsimp only; ring)
  · have e := ind fun _ => 1
    simp only [mul_one] at e
    rw [setIntegral_const, smul_eq_mul, mul_one] at e
    rw [← e]
    have := h.treat.integral_eq h.measX (l2.integrable one_le_two)
    rw [integral_sub id im] at this
    linarith

/-- **C80.** `theta` is not the effect on the treated of `make_irm_data`: with `R2_d` and `R2_y` strictly between zero and one, the average
effect on the treated exceeds `theta`. -/
theorem C80_irm_atte_violated (hp : 0 < p) {R2d R2y : ℝ} (theta : ℝ) (hd : 0 < R2d ∧ R2d < 1) (hy : 0 < R2y ∧ R2y < 1) (μX : Measure (Fin p → ℝ)) [IsGaussian μX]
    (h0 : ∀ j, ∫ x, x j ∂μX = 0) (hc : ∀ j k, ∫ x, x j * x k ∂μX = toeplitz 0.5 p j k) :
    ∃ (y y₀ y₁ : (Fin p → ℝ) → ℝ → ℝ → ℝ) (d : (Fin p → ℝ) → ℝ → ℝ) (g₀ g₁ m : (Fin p → ℝ) → ℝ),
      (∀ (n : ℕ) (X : Fin n → Fin p → ℝ) (v ζ : Fin n → ℝ), makeIrm theta R2d R2y .array v ζ X =
        .ok (.arrays (matCols X) [fun i => y (X i) (v i) (ζ i), fun i => d (X i) (v i)])) ∧
      Ignorable (irmDraws μX) (fun w => y w.1.1 w.1.2 w.2) (fun w => y₀ w.1.1 w.1.2 w.2) (fun w => y₁ w.1.1 w.1.2 w.2)
        (fun w => d w.1.1 w.1.2) (fun w => w.1.1) g₀ g₁ m ∧
      theta < (∫ w in {w | d w.1.1 w.1.2 = 1}, (y₁ w.1.1 w.1.2 w.2 - y₀ w.1.1 w.1.2 w.2) ∂(irmDraws μX)) /
        (irmDraws μX).real {w | d w.1.1 w.1.2 = 1} := by
  obtain ⟨y, y₀, y₁, d, g₀, g₁, m, c1, c2, c3, c4, c5, -⟩ := C80_irm theta R2d R2y μX h0
  refine ⟨y, y₀, y₁, d, g₀, g₁, m, c1, c2, ?_⟩
  have : IsProbabilityMeasure (irmDraws μX) := by unfold irmDraws; infer_instance
  obtain ⟨e1, e2⟩ := c2.treated
  rw [e1, e2]
  have p0 : MeasurePreserving (fun w : ((Fin p → ℝ) × ℝ) × ℝ => w.1.1) (irmDraws μX) μX := measurePreserving_fst.comp measurePreserving_fst
  have hq := quadForm_pos hp
  have hv : 0 < ∫ x, dotp x (invSquares p) ^ 2 ∂μX := by rw [gaussian_dot_var hc]; exact hq
  have h2 : 0 < 1 - R2d := by linarith [hd.2]
  have h3 : 0 < 1 - R2y := by linarith [hy.2]
  have hpi := Real.pi_pos
  have hcd : 0 < irmCd p R2d := Real.sqrt_pos.2 (div_pos (mul_pos (by positivity) hd.1) (by positivity))
  have hcy : 0 < irmCy p R2y := Real.sqrt_pos.2 (div_pos hy.1 (by positivity))
  have mM : Measurable m := c2.measM
  have bM : ∀ x, |m x| ≤ 1 := fun x => by
    rw [abs_of_pos (c2.interior x).1]
    exact (c2.interior x).2.le
  have iM : Integrable m μX := Integrable.of_bound mM.aestronglyMeasurable 1 (Eventually.of_forall bM)
  have lb : MemLp (fun x : Fin p → ℝ => dotp x (invSquares p)) 2 μX := gaussian_dot _ (by simp)
  have ib : Integrable (fun x : Fin p → ℝ => dotp x (invSquares p)) μX := lb.integrable one_le_two
  have imb : Integrable (fun x : Fin p → ℝ => m x * dotp x (invSquares p)) μX :=
    ((memLp_bdd_mul lb mM bM).integrable one_le_two).congr (Eventually.of_forall fun w => mul_comm _ _)
  have hpos : 0 < ∫ x, m x ∂μX := by
    rw [integral_pos_iff_support_of_nonneg (fun x => (c2.interior x).1.le) iM]
    have : Function.support m = Set.univ := by
      ext x
      simp [(c2.interior x).1.ne']
    rw [this]
    simp
  have half : logistic 0 = 1 / 2 := by
    unfold logistic
    rw [Real.exp_zero]
    norm_num
  have hsg : ∀ x, 0 ≤ (m x - 1 / 2) * dotp x (invSquares p) ∧ (0 < dotp x (invSquares p) → 0 < (m x - 1 / 2) * dotp x (invSquares p)) := by
    intro x
    rw [c5]
    rcases lt_trichotomy (dotp x (invSquares p)) 0 with hb | hb | hb
    · have : logistic (irmCd p R2d * dotp x (invSquares p)) < 1 / 2 := half ▸ logistic_mono (mul_neg_of_pos_of_neg hcd hb)
      exact ⟨(mul_pos_of_neg_of_neg (by linarith) hb).le, fun h => by linarith⟩
    · rw [hb]
      simp
    · have : 1 / 2 < logistic (irmCd p R2d * dotp x (invSquares p)) := half ▸ logistic_mono (mul_pos hcd hb)
      exact ⟨(mul_pos (by linarith) hb).le, fun _ => mul_pos (by linarith) hb⟩
  have ig : Integrable (fun x : Fin p → ℝ => (m x - 1 / 2) * dotp x (invSquares p)) μX :=
    (imb.sub (ib.const_mul (1 / 2))).congr (Eventually.of_forall fun x => by simp only [Pi.sub_apply]; ring)
  have hgap : 0 < ∫ x, (m x - 1 / 2) * dotp x (invSquares p) ∂μX := by
    rw [integral_pos_iff_support_of_nonneg (fun x => (hsg x).1) ig]
    refine (gaussian_dot_open (invSquares p) hv h0 (s := Set.Ioi 0) isOpen_Ioi Set.nonempty_Ioi).trans_le (measure_mono fun x hx => ?_)
    exact ((hsg x).2 hx).ne'
  have hmb : ∫ x, m x * dotp x (invSquares p) ∂μX = ∫ x, (m x - 1 / 2) * dotp x (invSquares p) ∂μX := by
    have e : ∀ x, m x * dotp x (invSquares p) = (m x - 1 / 2) * dotp x (invSquares p) + 1 / 2 * dotp x (invSquares p) := fun x => by ring
    simp only [e]
    rw [integral_add ig (ib.const_mul _), integral_const_mul, gaussian_dot_mean h0, mul_zero, add_zero]
  have num : ∫ w : ((Fin p → ℝ) × ℝ) × ℝ, m w.1.1 * (g₁ w.1.1 - g₀ w.1.1) ∂(irmDraws μX) =
      theta * ∫ x, m x ∂μX + irmCy p R2y * ∫ x, m x * dotp x (invSquares p) ∂μX := by
    have e : ∀ x, m x * (g₁ x - g₀ x) = theta * m x + irmCy p R2y * (m x * dotp x (invSquares p)) := fun x => by
      rw [c3, c4]
      ring
    simp only [e]
    rw [integral_preserving p0 (f := fun x => theta * m x + irmCy p R2y * (m x * dotp x (invSquares p)))
      ((iM.const_mul theta).add (imb.const_mul _)).aestronglyMeasurable, integral_add (iM.const_mul theta) (imb.const_mul _),
      integral_const_mul, integral_const_mul]
  have den : ∫ w : ((Fin p → ℝ) × ℝ) × ℝ, m w.1.1 ∂(irmDraws μX) = ∫ x, m x ∂μX := integral_preserving p0 mM.aestronglyMeasurable
  rw [num, den, lt_div_iff₀ hpos, hmb]
  have := mul_pos hcy hgap
  linarith

end DML
