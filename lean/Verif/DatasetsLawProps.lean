import Verif.DatasetsProps
import Verif.AsymptoticProps
import Verif.MultipliersProps

/-!
# Simulated data: the laws of the designs

C80, second part: the simulated observations follow the models they are made for, with the parameter that was passed.  The draws of one
observation are an element of a product space; the observations are functions of their own draws, so that they are independent with the
same distribution if the draws are.
-/

namespace DML

open MeasureTheory ProbabilityTheory Filter
open scoped ENNReal

variable {S : Type*} [MeasurableSpace S] {μ : Measure S} {n p : ℕ}

/-! ## Draws on product spaces -/

/-- Conditional means given the first of two independent draws. -/
theorem MeanZeroGiven.preserving {A B : Type*} [MeasurableSpace A] [MeasurableSpace B] [IsProbabilityMeasure μ] {α : Measure A} {β : Measure B}
    [IsProbabilityMeasure α] [IsProbabilityMeasure β] {φ : S → A × B} (hφ : MeasurePreserving φ μ (α.prod β)) {h : A × B → ℝ}
    (hi : Integrable h (α.prod β)) (h0 : ∀ a, ∫ b, h (a, b) ∂β = 0) : MeanZeroGiven μ (fun w => (φ w).1) fun w => h (φ w) := by
  have hm : Measurable fun w => (φ w).1 := hφ.measurable.fst
  have hi' : Integrable (fun w => h (φ w)) μ := hφ.integrable_comp_of_integrable hi
  refine (ae_eq_condExp_of_forall_setIntegral_eq hm.comap_le hi' (fun s _ _ => integrableOn_zero) ?_
    stronglyMeasurable_zero.aestronglyMeasurable).symm
  rintro s ⟨t, ht, rfl⟩ -
  have e : (fun w => (φ w).1) ⁻¹' t = φ ⁻¹' (t ×ˢ Set.univ) := by
    ext w
    simp
  rw [e]
  have := setIntegral_map (μ := μ) (g := φ) (f := h) (s := t ×ˢ Set.univ) (ht.prod MeasurableSet.univ)
    (by rw [hφ.map_eq]; exact hi.aestronglyMeasurable) hφ.aemeasurable
  rw [← this, hφ.map_eq, setIntegral_prod _ hi.integrableOn]
  simp [h0]

/-- Integrals of functions of a draw. -/
theorem integral_preserving {A : Type*} [MeasurableSpace A] {α : Measure A} {φ : S → A} (hφ : MeasurePreserving φ μ α) {f : A → ℝ}
    (hf : AEStronglyMeasurable f α) : ∫ w, f (φ w) ∂μ = ∫ a, f a ∂α := by
  have := integral_map (μ := μ) (φ := φ) (f := f) hφ.aemeasurable (by rw [hφ.map_eq]; exact hf)
  rw [hφ.map_eq] at this
  exact this.symm

/-- A standard normal error. -/
theorem stdNormal_moments {q : ℝ≥0∞} (hq : q ≠ ∞) :
    MemLp (fun v : ℝ => v) q (gaussianReal 0 1) ∧ ∫ v, v ∂(gaussianReal 0 1) = 0 ∧ ∫ v, v ^ 2 ∂(gaussianReal 0 1) = 1 :=
  ⟨memLp_id_gaussianReal' q hq, integral_id_gaussianReal, gauss_pow_two⟩

theorem logistic_pos (a : ℝ) : 0 < logistic a := div_pos (Real.exp_pos a) (by positivity)

theorem logistic_lt_one (a : ℝ) : logistic a < 1 := by
  unfold logistic
  rw [div_lt_one (by positivity)]
  linarith

theorem measurable_logistic : Measurable logistic := by
  unfold logistic
  fun_prop

theorem measurable_dotp (b : Fin p → ℝ) : Measurable fun x : Fin p → ℝ => dotp x b := by
  unfold dotp
  fun_prop

theorem cosh_sub_cos_pos (g : ℝ) (hg : g ≠ 0) (x : ℝ) : 0 < Real.cosh g - Real.cos x := by
  have h1 : 1 < Real.cosh g := Real.one_lt_cosh.2 hg
  have h2 := Real.cos_le_one x
  linarith

theorem measurable_simM (nu gamma : ℝ) : Measurable fun x : ℝ => simM x nu gamma := by
  unfold simM
  fun_prop

theorem measurable_simG : Measurable simG := by
  unfold simG
  fun_prop

/-! ## The partially linear model -/

/-- Independent errors with mean zero make a partially linear model. -/
theorem plrLaw_of_errors {𝒳 : Type*} [MeasurableSpace 𝒳] {μX : Measure 𝒳} [IsProbabilityMeasure μX] {ν₁ ν₂ : Measure ℝ}
    [IsProbabilityMeasure ν₁] [IsProbabilityMeasure ν₂] {q : ℝ≥0∞} (hq : 1 ≤ q) (h1 : MemLp (fun v : ℝ => v) q ν₁) (h2 : MemLp (fun v : ℝ => v) q ν₂)
    (e1 : ∫ v, v ∂ν₁ = 0) (e2 : ∫ v, v ∂ν₂ = 0) {g m : 𝒳 → ℝ} (hg : Measurable g) (hm : Measurable m) (θ s1 s2 : ℝ) :
    PlrLaw ((μX.prod ν₁).prod ν₂) (fun w => θ * (m w.1.1 + s1 * w.1.2) + g w.1.1 + s2 * w.2) (fun w => m w.1.1 + s1 * w.1.2)
      (fun w => w.1.1) θ g m q := by
  have p1 : MeasurePreserving (fun w : (𝒳 × ℝ) × ℝ => w.1) ((μX.prod ν₁).prod ν₂) (μX.prod ν₁) := measurePreserving_fst
  have p2 : MeasurePreserving (fun w : (𝒳 × ℝ) × ℝ => w.1.2) ((μX.prod ν₁).prod ν₂) ν₁ := measurePreserving_snd.comp measurePreserving_fst
  have p3 : MeasurePreserving (fun w : (𝒳 × ℝ) × ℝ => w.2) ((μX.prod ν₁).prod ν₂) ν₂ := measurePreserving_snd
  have mv : MemLp (fun w : (𝒳 × ℝ) × ℝ => s1 * w.1.2) q ((μX.prod ν₁).prod ν₂) := (h1.comp_measurePreserving p2).const_mul s1
  have mz : MemLp (fun w : (𝒳 × ℝ) × ℝ => s2 * w.2) q ((μX.prod ν₁).prod ν₂) := (h2.comp_measurePreserving p3).const_mul s2
  have ez : (fun w : (𝒳 × ℝ) × ℝ => θ * (m w.1.1 + s1 * w.1.2) + g w.1.1 + s2 * w.2 - θ * (m w.1.1 + s1 * w.1.2) - g w.1.1) =
      fun w => s2 * w.2 := funext fun w => by ring
  have ev : (fun w : (𝒳 × ℝ) × ℝ => m w.1.1 + s1 * w.1.2 - m w.1.1) = fun w => s1 * w.1.2 := funext fun w => by ring
  have noise : MeanZeroGiven ((μX.prod ν₁).prod ν₂) (fun w => w.1) fun w => s2 * w.2 := by
    refine MeanZeroGiven.preserving (φ := id) (MeasurePreserving.id _) (h := fun w => s2 * w.2) (mz.integrable hq) fun a => ?_
    show ∫ b, s2 * b ∂ν₂ = 0
    rw [integral_const_mul, e2, mul_zero]
  have treat : MeanZeroGiven ((μX.prod ν₁).prod ν₂) (fun w => w.1.1) fun w => s1 * w.1.2 := by
    refine MeanZeroGiven.preserving p1 (h := fun w => s1 * w.2) ?_ fun a => ?_
    · exact ((h1.comp_measurePreserving (measurePreserving_snd (μ := μX))).const_mul s1).integrable hq
    · show ∫ b, s1 * b ∂ν₁ = 0
      rw [integral_const_mul, e1, mul_zero]
  refine ⟨?_, ?_, ?_, ?_, hg, hm, hm, ?_, ?_, ?_, ?_, ?_, ?_⟩
  · fun_prop
  · fun_prop
  · fun_prop
  · fun_prop
  · rw [ez]
    exact noise.mono measurable_fst (φ := fun a : 𝒳 × ℝ => (m a.1 + s1 * a.2, a.1)) (by fun_prop) fun w => rfl
  · rw [ev]; exact treat
  · rw [ev]; exact treat
  · rw [ez]; exact mz
  · rw [ev]; exact mv
  · rw [ev]; exact mv

/-- Moments of products of errors. -/
theorem moments_of_errors {𝒳 : Type*} [MeasurableSpace 𝒳] {μX : Measure 𝒳} [IsProbabilityMeasure μX] {ν₁ ν₂ : Measure ℝ}
    [IsProbabilityMeasure ν₁] [IsProbabilityMeasure ν₂] (s1 s2 : ℝ) :
    ∫ w : (𝒳 × ℝ) × ℝ, (s1 * w.1.2) ^ 2 ∂((μX.prod ν₁).prod ν₂) = s1 ^ 2 * ∫ v, v ^ 2 ∂ν₁ ∧
      ∫ w : (𝒳 × ℝ) × ℝ, (s2 * w.2 * (s1 * w.1.2)) ^ 2 ∂((μX.prod ν₁).prod ν₂) = s1 ^ 2 * (∫ v, v ^ 2 ∂ν₁) * (s2 ^ 2 * ∫ v, v ^ 2 ∂ν₂) := by
  have p2 : MeasurePreserving (fun w : (𝒳 × ℝ) × ℝ => w.1.2) ((μX.prod ν₁).prod ν₂) ν₁ := measurePreserving_snd.comp measurePreserving_fst
  have p4 : MeasurePreserving (fun w : 𝒳 × ℝ => w.2) (μX.prod ν₁) ν₁ := measurePreserving_snd
  have sm : ∀ (s : ℝ) (ν : Measure ℝ), AEStronglyMeasurable (fun v : ℝ => (s * v) ^ 2) ν := fun s ν =>
    Measurable.aestronglyMeasurable (by fun_prop)
  have sc : ∀ (s : ℝ) (ν : Measure ℝ), ∫ v, (s * v) ^ 2 ∂ν = s ^ 2 * ∫ v, v ^ 2 ∂ν := fun s ν => by
    simp only [mul_pow]
    rw [integral_const_mul]
  refine ⟨(integral_preserving p2 (sm s1 ν₁)).trans (sc _ _), ?_⟩
  have e : ∀ w : (𝒳 × ℝ) × ℝ, (s2 * w.2 * (s1 * w.1.2)) ^ 2 = (fun a : 𝒳 × ℝ => (s1 * a.2) ^ 2) w.1 * (fun b : ℝ => (s2 * b) ^ 2) w.2 :=
    fun w => by ring
  simp only [e]
  rw [integral_prod_mul (fun a : 𝒳 × ℝ => (s1 * a.2) ^ 2) (fun b : ℝ => (s2 * b) ^ 2)]
  rw [integral_preserving p4 (sm s1 ν₁), sc, sc]

/-- The law of the draws of one observation: covariates, and two standard normal errors. -/
noncomputable def plrDraws {𝒳 : Type*} [MeasurableSpace 𝒳] (μX : Measure 𝒳) : Measure ((𝒳 × ℝ) × ℝ) :=
  (μX.prod (gaussianReal 0 1)).prod (gaussianReal 0 1)

instance {𝒳 : Type*} [MeasurableSpace 𝒳] (μX : Measure 𝒳) [IsProbabilityMeasure μX] : IsProbabilityMeasure (plrDraws μX) := by
  unfold plrDraws
  infer_instance

/-- **C80.** The observations of `make_plr_CCDDHNR2018` are functions of their own draws and follow the partially linear model with
parameter `alpha`, for every distribution of the covariates.  The residual of the treatment has variance `s_1 ^ 2`, its product with the
residual of the outcome has variance `s_1 ^ 2 s_2 ^ 2`. -/
theorem C80_plr_ccddhnr (a : CcdArgs) (h : 2 < p) (μX : Measure (Fin p → ℝ)) [IsProbabilityMeasure μX] {q : ℝ≥0∞} (hq : 1 ≤ q) (hq' : q ≠ ∞) :
    ∃ (y : (Fin p → ℝ) → ℝ → ℝ → ℝ) (d : (Fin p → ℝ) → ℝ → ℝ) (g m : (Fin p → ℝ) → ℝ),
      (∀ (n : ℕ) (X : Fin n → Fin p → ℝ) (v ζ : Fin n → ℝ), makePlrCcd a .array X v ζ =
        .ok (.arrays (matCols X) [fun i => y (X i) (v i) (ζ i), fun i => d (X i) (v i)])) ∧
      PlrLaw (plrDraws μX) (fun w => y w.1.1 w.1.2 w.2) (fun w => d w.1.1 w.1.2) (fun w => w.1.1) a.alpha g m q ∧
      ∫ w, (d w.1.1 w.1.2 - m w.1.1) ^ 2 ∂(plrDraws μX) = a.s1 ^ 2 ∧
      ∫ w, ((y w.1.1 w.1.2 w.2 - a.alpha * d w.1.1 w.1.2 - g w.1.1) * (d w.1.1 w.1.2 - m w.1.1)) ^ 2 ∂(plrDraws μX) = a.s1 ^ 2 * a.s2 ^ 2 := by
  obtain ⟨hm, h0, h2⟩ := stdNormal_moments hq'
  refine ⟨fun x v ζ => a.alpha * ((a.a0 * x ⟨0, by omega⟩ + a.a1 * logistic (x ⟨2, h⟩)) + a.s1 * v) +
      (a.b0 * logistic (x ⟨0, by omega⟩) + a.b1 * x ⟨2, h⟩) + a.s2 * ζ,
    fun x v => (a.a0 * x ⟨0, by omega⟩ + a.a1 * logistic (x ⟨2, h⟩)) + a.s1 * v,
    fun x => a.b0 * logistic (x ⟨0, by omega⟩) + a.b1 * x ⟨2, h⟩, fun x => a.a0 * x ⟨0, by omega⟩ + a.a1 * logistic (x ⟨2, h⟩), ?_, ?_, ?_, ?_⟩
  · intro n X v ζ
    unfold makePlrCcd
    rw [dif_pos h]
    show Except.ok (SimOut.arrays (matCols X) [_, _]) = _
    congr 4
    funext i
    simp only [logistic]
    ring
  · have ml := measurable_logistic
    exact plrLaw_of_errors hq hm hm h0 h0 (g := fun x : Fin p → ℝ => a.b0 * logistic (x ⟨0, by omega⟩) + a.b1 * x ⟨2, h⟩)
      (m := fun x => a.a0 * x ⟨0, by omega⟩ + a.a1 * logistic (x ⟨2, h⟩)) (by fun_prop) (by fun_prop) _ _ _
  · have := (moments_of_errors (μX := μX) (ν₁ := gaussianReal 0 1) (ν₂ := gaussianReal 0 1) a.s1 a.s2).1
    rw [h2, mul_one] at this
    rw [← this]
    refine integral_congr_ae (Eventually.of_forall fun w => ?_)
    dsimp only
    ring
  · have := (moments_of_errors (μX := μX) (ν₁ := gaussianReal 0 1) (ν₂ := gaussianReal 0 1) a.s1 a.s2).2
    rw [h2, mul_one, mul_one] at this
    rw [← this]
    refine integral_congr_ae (Eventually.of_forall fun w => ?_)
    dsimp only
    ring

/-- **C80.** The observations of `make_plr_turrell2018` follow the partially linear model with parameter `theta`. -/
theorem C80_plr_turrell (theta nu gamma : ℝ) (μX : Measure (Fin p → ℝ)) [IsProbabilityMeasure μX] {q : ℝ≥0∞} (hq : 1 ≤ q) (hq' : q ≠ ∞) :
    ∃ (y : (Fin p → ℝ) → ℝ → ℝ → ℝ) (d : (Fin p → ℝ) → ℝ → ℝ) (g m : (Fin p → ℝ) → ℝ),
      (∀ (n : ℕ) (X : Fin n → Fin p → ℝ) (v ζ : Fin n → ℝ), makePlrTurrell theta nu gamma .array X v ζ =
        .ok (.arrays (matCols X) [fun i => y (X i) (v i) (ζ i), fun i => d (X i) (v i)])) ∧
      PlrLaw (plrDraws μX) (fun w => y w.1.1 w.1.2 w.2) (fun w => d w.1.1 w.1.2) (fun w => w.1.1) theta g m q ∧
      ∫ w, (d w.1.1 w.1.2 - m w.1.1) ^ 2 ∂(plrDraws μX) = 1 ∧
      ∫ w, ((y w.1.1 w.1.2 w.2 - theta * d w.1.1 w.1.2 - g w.1.1) * (d w.1.1 w.1.2 - m w.1.1)) ^ 2 ∂(plrDraws μX) = 1 := by
  obtain ⟨hm, h0, h2⟩ := stdNormal_moments hq'
  refine ⟨fun x v ζ => theta * (simM (dotp x (harmonic p)) nu gamma + 1 * v) + simG (dotp x (harmonic p)) + 1 * ζ,
    fun x v => simM (dotp x (harmonic p)) nu gamma + 1 * v, fun x => simG (dotp x (harmonic p)),
    fun x => simM (dotp x (harmonic p)) nu gamma, ?_, ?_, ?_, ?_⟩
  · intro n X v ζ
    show Except.ok (SimOut.arrays (matCols X) [_, _]) = _
    simp only [one_mul]
  · exact plrLaw_of_errors hq hm hm h0 h0 (g := fun x : Fin p → ℝ => simG (dotp x (harmonic p)))
      (m := fun x => simM (dotp x (harmonic p)) nu gamma) (measurable_simG.comp (measurable_dotp _))
      ((measurable_simM nu gamma).comp (measurable_dotp _)) _ _ _
  · have := (moments_of_errors (μX := μX) (ν₁ := gaussianReal 0 1) (ν₂ := gaussianReal 0 1) 1 1).1
    rw [h2, mul_one, one_pow] at this
    refine Eq.trans (integral_congr_ae (Eventually.of_forall fun w => ?_)) this
    dsimp only
    ring
  · have := (moments_of_errors (μX := μX) (ν₁ := gaussianReal 0 1) (ν₂ := gaussianReal 0 1) 1 1).2
    rw [h2, one_pow, mul_one, mul_one] at this
    refine Eq.trans (integral_congr_ae (Eventually.of_forall fun w => ?_)) this
    dsimp only
    ring

/-- **C80.** Fits of the partially linear model to data simulated with `make_plr_CCDDHNR2018`: with learners that are good enough, the
estimates are asymptotically normal around `alpha` with asymptotic standard deviation `|s_2 / s_1|`, and confidence intervals have their
nominal coverage in the limit. -/
theorem C80_plr_ccddhnr_fit {Ω : Type*} {mΩ : MeasurableSpace Ω} {Q : Type} {E : Ext} {P : Measure Ω} [IsProbabilityMeasure P]
    {W : ℕ → Ω → ((Fin p → ℝ) × ℝ) × ℝ} {r K : ℕ} {tv : String} {enc : (Fin p → ℝ) → List Cell} {k : ∀ n, PlrClass n Q}
    (a : CcdArgs) (hp : 2 < p) (hs1 : a.s1 ≠ 0) (hs2 : a.s2 ≠ 0) (μX : Measure (Fin p → ℝ)) [IsProbabilityMeasure μX]
    (hW : P.map (W 0) = plrDraws μX) :
    ∃ (y : (Fin p → ℝ) → ℝ → ℝ → ℝ) (d : (Fin p → ℝ) → ℝ → ℝ) (g m : (Fin p → ℝ) → ℝ),
      (∀ (n : ℕ) (X : Fin n → Fin p → ℝ) (v ζ : Fin n → ℝ), makePlrCcd a .array X v ζ =
        .ok (.arrays (matCols X) [fun i => y (X i) (v i) (ζ i), fun i => d (X i) (v i)])) ∧
      ∀ H : Study E P W r K (fun n => plrSpec (k n)) tv (fun w => y w.1.1 w.1.2 w.2) (fun w => d w.1.1 w.1.2) (fun w => w.1.1) enc,
        (∀ n, (k n).iv = false) → (∀ n, (k n).mClassifier = false) → (∀ n, (k n).vars = none) →
        (∀ᶠ n in atTop, ∀ ω, lookupKey tv (H.D n ω).binTreats = some false) → PlrRates H (fun x => a.alpha * m x + g x) m →
        AsympValid E P W r H.fitted a.alpha |a.s2 / a.s1| := by
  obtain ⟨y, d, g, m, h1, h2, h3, h4⟩ := C80_plr_ccddhnr a hp μX (q := 4) (by norm_num) (by norm_num)
  refine ⟨y, d, g, m, h1, fun H hiv hcl hvars hbin hL => ?_⟩
  have e : |a.s2 / a.s1| = Real.sqrt (a.s1 ^ 2 * a.s2 ^ 2) / a.s1 ^ 2 := by
    rw [← mul_pow, Real.sqrt_sq_eq_abs, abs_mul, abs_div, ← sq_abs a.s1]
    have := abs_pos.2 hs1
    field_simp
  have := C79_plr H hiv hcl hvars hbin (by rw [hW]; exact h2) (by rw [hW, h3]; positivity) (by rw [hW, h4]; positivity) hL
  rw [hW, h3, h4] at this
  rw [e]
  exact this

end DML
