import Verif.DatasetsCausalProps

/-!
# Simulated data: models with instruments for a binary treatment, sample selection and heterogeneous effects

C80, fifth part.
-/

namespace DML

open MeasureTheory ProbabilityTheory Filter
open scoped ENNReal

variable {S : Type*} [MeasurableSpace S] {μ : Measure S} {n p : ℕ}

/-! ## The interactive model with an instrument -/

/-- The law of `np.random.binomial(p=0.5, n=1)`. -/
noncomputable def fairCoin : Measure Bool := (1 / 2 : ℝ≥0∞) • Measure.dirac false + (1 / 2 : ℝ≥0∞) • Measure.dirac true

instance : IsProbabilityMeasure fairCoin := ⟨by
  simp [fairCoin, ENNReal.inv_two_add_inv_two]⟩

theorem integral_fairCoin (f : Bool → ℝ) : ∫ b, f b ∂fairCoin = (f false + f true) / 2 := by
  unfold fairCoin
  rw [integral_add_measure, integral_smul_measure, integral_smul_measure, integral_dirac, integral_dirac]
  · simp
    ring
  · exact (integrable_dirac (by simp)).smul_measure (by simp)
  · exact (integrable_dirac (by simp)).smul_measure (by simp)

/-- The values of the instrument. -/
def coinVal (b : Bool) : ℝ := if b then 1 else 0

theorem Ignorable.unconfounded {𝒳 : Type*} [MeasurableSpace 𝒳] {y y₀ y₁ d : S → ℝ} {ξ : S → 𝒳} {g₀ g₁ m : 𝒳 → ℝ}
    (h : Ignorable μ y y₀ y₁ d ξ g₀ g₁ m) {τ : ℝ} (hτ : 0 < τ) (ho : ∀ x, τ ≤ m x ∧ m x ≤ 1 - τ) :
    Unconfounded μ y y₀ y₁ d ξ g₀ g₁ m τ :=
  ⟨h.measD, h.measX, h.measM, h.binary, h.consistent, h.mean0, h.mean1, h.treat, hτ, ho⟩

/-- **C80.** With `alpha_x ≥ 0`, the instrument of `make_iivm_data` is valid: it is drawn with probability one half whatever the covariates are, the
potential treatments and outcomes do not depend on it, and the potential treatment is monotone in it.  The effect of the treatment is
`theta` for everybody, so the effect on the compliers is `theta`; there are compliers if `alpha_x > 0`. -/
theorem C80_iivm (theta alphaX : ℝ) (ha : 0 ≤ alphaX) (μX : Measure (Fin p → ℝ)) [IsGaussian μX] (ν : Measure (ℝ × ℝ)) [IsGaussian ν]
    (hu : ∫ e, e.1 ∂ν = 0) (hv : ∫ e, e.2 ∂ν = 0) (hvv : 0 < ∫ e, e.2 ^ 2 ∂ν) :
    ∃ (y y₀ y₁ : (Fin p → ℝ) → Bool → ℝ → ℝ → ℝ) (d : Bool → ℝ → ℝ) (d₀ d₁ : ℝ → ℝ) (g₀ g₁ r₀ r₁ : (Fin p → ℝ) → ℝ),
      (∀ (n : ℕ) (X : Fin n → Fin p → ℝ) (u v : Fin n → ℝ) (b : Fin n → Bool), makeIivm theta alphaX .array u v X (fun i => coinVal (b i)) =
        .ok (.arrays (matCols X) [fun i => y (X i) (b i) (u i) (v i), fun i => d (b i) (v i), fun i => coinVal (b i)])) ∧
      ValidInstrument ((μX.prod fairCoin).prod ν) (fun w => y w.1.1 w.1.2 w.2.1 w.2.2) (fun w => y₀ w.1.1 w.1.2 w.2.1 w.2.2)
        (fun w => y₁ w.1.1 w.1.2 w.2.1 w.2.2) (fun w => d w.1.2 w.2.2) (fun w => d₀ w.2.2) (fun w => d₁ w.2.2) (fun w => coinVal w.1.2)
        (fun w => w.1.1) g₀ g₁ r₀ r₁ (fun _ => 1 / 2) (1 / 2) ∧
      (∀ x b u v, y₁ x b u v - y₀ x b u v = theta) ∧
      (0 < alphaX → 0 < ((μX.prod fairCoin).prod ν) {w | d₀ w.2.2 < d₁ w.2.2}) := by
  obtain ⟨l1, l2⟩ := gaussian_pair (ν := ν) (q := 2) (by simp)
  have mind : ∀ a : ℝ, Measurable fun e : ℝ × ℝ => if 0 < a + e.2 then (1 : ℝ) else 0 := fun a =>
    Measurable.ite (measurableSet_lt measurable_const (measurable_snd.const_add a)) measurable_const measurable_const
  have bind : ∀ (a : ℝ) (e : ℝ × ℝ), ‖if 0 < a + e.2 then (1 : ℝ) else 0‖ ≤ 1 := fun a e => by split_ifs <;> simp
  have lind : ∀ a : ℝ, MemLp (fun e : ℝ × ℝ => if 0 < a + e.2 then (1 : ℝ) else 0) 2 ν := fun a =>
    MemLp.of_bound (mind a).aestronglyMeasurable 1 (Eventually.of_forall (bind a))
  obtain ⟨r, hr⟩ : ∃ r : ℝ → ℝ, ∀ a, ∫ e : ℝ × ℝ, (if 0 < a + e.2 then (1 : ℝ) else 0) ∂ν = r a := ⟨_, fun _ => rfl⟩
  have lg : ∀ c : ℝ, MemLp (fun x : Fin p → ℝ => theta * c + dotp x (invSquares p)) 2 μX := fun c =>
    (memLp_const (theta * c)).add (gaussian_dot _ (by simp))
  have mg : ∀ c : ℝ, Measurable fun x : Fin p → ℝ => theta * c + dotp x (invSquares p) := fun c => (measurable_dotp _).const_add _
  -- the error of the outcome under one value of the instrument
  have me : ∀ a : ℝ, Measurable fun e : ℝ × ℝ => theta * ((if 0 < a + e.2 then (1 : ℝ) else 0) - r a) + e.1 := fun a =>
    (((mind a).sub_const _).const_mul theta).add measurable_fst
  have le : ∀ a : ℝ, MemLp (fun e : ℝ × ℝ => theta * ((if 0 < a + e.2 then (1 : ℝ) else 0) - r a) + e.1) 2 ν := fun a =>
    (((lind a).sub (memLp_const _)).const_mul theta).add l1
  have md : ∀ a : ℝ, Measurable fun e : ℝ × ℝ => (if 0 < a + e.2 then (1 : ℝ) else 0) - r a := fun a => (mind a).sub_const _
  have ld : ∀ a : ℝ, MemLp (fun e : ℝ × ℝ => (if 0 < a + e.2 then (1 : ℝ) else 0) - r a) 2 ν := fun a => (lind a).sub (memLp_const _)
  have zd : ∀ a : ℝ, ∫ e, ((if 0 < a + e.2 then (1 : ℝ) else 0) - r a) ∂ν = 0 := fun a => by
    rw [integral_sub ((lind a).integrable one_le_two) (integrable_const _), integral_const, hr]
    simp
  have ze : ∀ a : ℝ, ∫ e, (theta * ((if 0 < a + e.2 then (1 : ℝ) else 0) - r a) + e.1) ∂ν = 0 := fun a => by
    rw [integral_add (((ld a).integrable one_le_two).const_mul theta) (l1.integrable one_le_two), integral_const_mul, zd, hu]
    simp
  have cb : ∀ a : (Fin p → ℝ) × Bool, coinVal a.2 = 0 ∨ coinVal a.2 = 1 := fun a => by
    unfold coinVal
    split_ifs
    · exact Or.inr rfl
    · exact Or.inl rfl
  have mc : Measurable fun a : (Fin p → ℝ) × Bool => coinVal a.2 := (measurable_of_countable coinVal).comp measurable_snd
  have ch : ∀ x : Fin p → ℝ, ∫ b, coinVal b ∂fairCoin = 1 / 2 := fun x => by
    rw [integral_fairCoin]
    simp [coinVal]
  have hov : ∀ _ : Fin p → ℝ, (1 / 2 : ℝ) ≤ 1 / 2 ∧ (1 / 2 : ℝ) ≤ 1 - 1 / 2 := fun _ => by norm_num
  have hout := ignorable_of_errors (μX := μX) (α := fairCoin) (β := ν) (d := fun a => coinVal a.2) (m := fun _ => 1 / 2)
    (y := fun w => (if 0 < alphaX * coinVal w.1.2 + w.2.2 then (1 : ℝ) else 0) * theta + dotp w.1.1 (invSquares p) + w.2.1)
    (y₀ := fun w => (if 0 < 0 + w.2.2 then (1 : ℝ) else 0) * (theta + dotp w.1.1 (invSquares p) + w.2.1) +
      (1 - if 0 < 0 + w.2.2 then (1 : ℝ) else 0) * (dotp w.1.1 (invSquares p) + w.2.1))
    (y₁ := fun w => (if 0 < alphaX + w.2.2 then (1 : ℝ) else 0) * (theta + dotp w.1.1 (invSquares p) + w.2.1) +
      (1 - if 0 < alphaX + w.2.2 then (1 : ℝ) else 0) * (dotp w.1.1 (invSquares p) + w.2.1))
    cb mc ch measurable_const (fun w => by ring) (fun w => by ring) (fun w => by
      rcases cb w.1 with h | h
      · simp only [h, mul_zero]
        ring
      · simp only [h, mul_one]
        ring) (me 0) (le 0) (ze 0) (me alphaX) (le alphaX) (ze alphaX) (mg (r 0)) (mg (r alphaX)) (lg (r 0)) (lg (r alphaX)) fun _ => by norm_num
  have htre := ignorable_of_errors (μX := μX) (α := fairCoin) (β := ν) (d := fun a => coinVal a.2) (m := fun _ => 1 / 2)
    (y := fun w => if 0 < alphaX * coinVal w.1.2 + w.2.2 then (1 : ℝ) else 0) (y₀ := fun w => if 0 < 0 + w.2.2 then (1 : ℝ) else 0)
    (y₁ := fun w => if 0 < alphaX + w.2.2 then (1 : ℝ) else 0) (g₀ := fun _ => r 0) (g₁ := fun _ => r alphaX)
    cb mc ch measurable_const (fun w => by ring) (fun w => by ring) (fun w => by
      rcases cb w.1 with h | h
      · simp only [h, mul_zero]
        ring
      · simp only [h, mul_one]
        ring) (md 0) (ld 0) (zd 0) (md alphaX) (ld alphaX) (zd alphaX) measurable_const measurable_const (memLp_const _) (memLp_const _)
    fun _ => by norm_num
  refine ⟨fun x b u v => (if 0 < alphaX * coinVal b + v then (1 : ℝ) else 0) * theta + dotp x (invSquares p) + u,
    fun x _ u _ => dotp x (invSquares p) + u, fun x _ u _ => theta + dotp x (invSquares p) + u,
    fun b v => if 0 < alphaX * coinVal b + v then 1 else 0, fun v => if 0 < 0 + v then 1 else 0, fun v => if 0 < alphaX + v then 1 else 0,
    fun x => theta * r 0 + dotp x (invSquares p), fun x => theta * r alphaX + dotp x (invSquares p), fun _ => r 0, fun _ => r alphaX,
    ?_, ⟨?_, ?_, ?_, ?_, ?_⟩, ?_, ?_⟩
  · intro n X u v b
    rfl
  · exact hout.unconfounded (by norm_num) hov
  · exact htre.unconfounded (by norm_num) hov
  · intro w
    dsimp only
    split_ifs
    · exact Or.inr rfl
    · exact Or.inl rfl
  · intro w
    dsimp only
    split_ifs
    · exact Or.inr rfl
    · exact Or.inl rfl
  · intro w
    dsimp only
    split_ifs with h1 h2 h2
    · exact le_rfl
    · exact absurd (by linarith : 0 < alphaX + w.2.2) h2
    · exact zero_le_one
    · exact le_rfl
  · intro x b u v
    ring
  · intro hpos
    have hsub : (fun w : ((Fin p → ℝ) × Bool) × (ℝ × ℝ) => w.2) ⁻¹' {e : ℝ × ℝ | e.2 ∈ Set.Ioo (-alphaX) 0} ⊆
        {w | (if 0 < 0 + w.2.2 then (1 : ℝ) else 0) < if 0 < alphaX + w.2.2 then (1 : ℝ) else 0} := by
      intro w hw
      obtain ⟨h1, h2⟩ : -alphaX < w.2.2 ∧ w.2.2 < 0 := hw
      show (if 0 < 0 + w.2.2 then (1 : ℝ) else 0) < if 0 < alphaX + w.2.2 then (1 : ℝ) else 0
      rw [if_neg (by linarith), if_pos (by linarith)]
      norm_num
    have p3 : MeasurePreserving (fun w : ((Fin p → ℝ) × Bool) × (ℝ × ℝ) => w.2) ((μX.prod fairCoin).prod ν) ν := measurePreserving_snd
    have ms : MeasurableSet {e : ℝ × ℝ | e.2 ∈ Set.Ioo (-alphaX) 0} := measurable_snd measurableSet_Ioo
    refine lt_of_lt_of_le ?_ (measure_mono hsub)
    rw [p3.measure_preimage ms.nullMeasurableSet]
    let L : StrongDual ℝ (ℝ × ℝ) := ContinuousLinearMap.snd ℝ ℝ ℝ
    have hmap := IsGaussian.map_eq_gaussianReal (μ := ν) L
    have hmean : ∫ e, L e ∂ν = 0 := hv
    have hvar : Var[L; ν] = ∫ e, e.2 ^ 2 ∂ν := variance_of_integral_eq_zero L.continuous.measurable.aemeasurable hmean
    have hne0 : Var[L; ν].toNNReal ≠ 0 := by
      rw [hvar]
      exact (Real.toNNReal_pos.2 hvv).ne'
    have hp : 0 < gaussianReal (∫ x, L x ∂ν) Var[L; ν].toNNReal (Set.Ioo (-alphaX) 0) := by
      rw [pos_iff_ne_zero]
      intro h
      exact (isOpen_Ioo.measure_pos volume ⟨-alphaX / 2, by constructor <;> linarith⟩).ne' (gaussianReal_absolutelyContinuous' _ hne0 h)
    rw [← hmap, Measure.map_apply L.continuous.measurable measurableSet_Ioo] at hp
    exact hp

/-- **C80.** The parameter that the interactive model with an instrument estimates is `theta` on data of `make_iivm_data` with `alpha_x > 0`. -/
theorem C80_iivm_late (theta alphaX : ℝ) (ha : 0 < alphaX) (μX : Measure (Fin p → ℝ)) [IsGaussian μX] (ν : Measure (ℝ × ℝ)) [IsGaussian ν]
    (hu : ∫ e, e.1 ∂ν = 0) (hv : ∫ e, e.2 ∂ν = 0) (hvv : 0 < ∫ e, e.2 ^ 2 ∂ν) :
    ∃ (y : (Fin p → ℝ) → Bool → ℝ → ℝ → ℝ) (d : Bool → ℝ → ℝ) (g₀ g₁ r₀ r₁ : (Fin p → ℝ) → ℝ),
      (∀ (n : ℕ) (X : Fin n → Fin p → ℝ) (u v : Fin n → ℝ) (b : Fin n → Bool), makeIivm theta alphaX .array u v X (fun i => coinVal (b i)) =
        .ok (.arrays (matCols X) [fun i => y (X i) (b i) (u i) (v i), fun i => d (b i) (v i), fun i => coinVal (b i)])) ∧
      IrmLaw ((μX.prod fairCoin).prod ν) (fun w => y w.1.1 w.1.2 w.2.1 w.2.2) (fun w => coinVal w.1.2) (fun w => w.1.1) g₀ g₁ (fun _ => 1 / 2)
        (1 / 2) 2 ∧
      IrmLaw ((μX.prod fairCoin).prod ν) (fun w => d w.1.2 w.2.2) (fun w => coinVal w.1.2) (fun w => w.1.1) r₀ r₁ (fun _ => 1 / 2) (1 / 2) 2 ∧
      (∫ x, (g₁ x - g₀ x) ∂μX) / ∫ x, (r₁ x - r₀ x) ∂μX = theta := by
  obtain ⟨y, y₀, y₁, d, d₀, d₁, g₀, g₁, r₀, r₁, c1, c2, c3, c4⟩ := C80_iivm theta alphaX ha.le μX ν hu hv hvv
  obtain ⟨k1, k2, k3, k4⟩ := C78_iivm_causal c2
  refine ⟨y, d, g₀, g₁, r₀, r₁, c1, k1, k2, ?_⟩
  have p0 : MeasurePreserving (fun w : ((Fin p → ℝ) × Bool) × (ℝ × ℝ) => w.1.1) ((μX.prod fairCoin).prod ν) μX :=
    measurePreserving_fst.comp measurePreserving_fst
  have h1 : ∫ w : ((Fin p → ℝ) × Bool) × (ℝ × ℝ), (g₁ w.1.1 - g₀ w.1.1) ∂((μX.prod fairCoin).prod ν) = ∫ x, (g₁ x - g₀ x) ∂μX :=
    integral_preserving p0 (f := fun x => g₁ x - g₀ x) (k1.measG1.sub k1.measG0).aestronglyMeasurable
  have h2 : ∫ w : ((Fin p → ℝ) × Bool) × (ℝ × ℝ), (r₁ w.1.1 - r₀ w.1.1) ∂((μX.prod fairCoin).prod ν) = ∫ x, (r₁ x - r₀ x) ∂μX :=
    integral_preserving p0 (f := fun x => r₁ x - r₀ x) (k2.measG1.sub k2.measG0).aestronglyMeasurable
  rw [h1, h2] at k4
  rw [k4]
  simp only [c3]
  rw [setIntegral_const, smul_eq_mul]
  have hpos : 0 < ((μX.prod fairCoin).prod ν).real {w | d₀ w.2.2 < d₁ w.2.2} := ENNReal.toReal_pos (c4 ha).ne' (measure_ne_top _ _)
  field_simp

/-! ## Sample selection -/

/-- **C80.** The observations of `make_ssm_data` with `mar=True`: there is a latent outcome with potential outcomes `y₀`, `y₁`, observed if `s` is
one and recorded as zero otherwise; given the covariates, treatment is assigned at random; given treatment and covariates, selection tells nothing
about the potential outcomes; and the average effect in the whole population is `theta`. -/
theorem C80_ssm_mar (theta : ℝ) (μX : Measure (Fin p → ℝ)) [IsGaussian μX] :
    ∃ (y : (Fin p → ℝ) → ℝ → ℝ → ℝ → ℝ) (y₀ y₁ : (Fin p → ℝ) → ℝ → ℝ) (d : (Fin p → ℝ) → ℝ → ℝ) (s : (Fin p → ℝ) → ℝ → ℝ → ℝ)
      (g₀ g₁ m π₀ π₁ : (Fin p → ℝ) → ℝ),
      (∀ (n : ℕ) (X : Fin n → Fin p → ℝ) (e0 e1 w z : Fin n → ℝ), makeSsm theta true .array e0 e1 X w z =
        .ok (.arrays (matCols X) [fun i => s (X i) (w i) (e0 i) * y (X i) (w i) (e0 i) (e1 i), fun i => d (X i) (w i), z,
          fun i => s (X i) (w i) (e0 i)])) ∧
      (∀ x w e, s x w e = 0 ∨ s x w e = 1) ∧
      Ignorable ((μX.prod ((gaussianReal 0 1).prod (gaussianReal 0 1))).prod (gaussianReal 0 1)) (fun a => y a.1.1 a.1.2.1 a.1.2.2 a.2)
        (fun a => y₀ a.1.1 a.2) (fun a => y₁ a.1.1 a.2) (fun a => d a.1.1 a.1.2.1) (fun a => a.1.1) g₀ g₁ m ∧
      MeanZeroGiven ((μX.prod ((gaussianReal 0 1).prod (gaussianReal 0 1))).prod (gaussianReal 0 1))
        (fun a => ((d a.1.1 a.1.2.1, s a.1.1 a.1.2.1 a.1.2.2), a.1.1)) (fun a => y₀ a.1.1 a.2 - g₀ a.1.1) ∧
      MeanZeroGiven ((μX.prod ((gaussianReal 0 1).prod (gaussianReal 0 1))).prod (gaussianReal 0 1))
        (fun a => ((d a.1.1 a.1.2.1, s a.1.1 a.1.2.1 a.1.2.2), a.1.1)) (fun a => y₁ a.1.1 a.2 - g₁ a.1.1) ∧
      MeanZeroGiven ((μX.prod ((gaussianReal 0 1).prod (gaussianReal 0 1))).prod (gaussianReal 0 1)) (fun a => (d a.1.1 a.1.2.1, a.1.1))
        (fun a => s a.1.1 a.1.2.1 a.1.2.2 - (d a.1.1 a.1.2.1 * π₁ a.1.1 + (1 - d a.1.1 a.1.2.1) * π₀ a.1.1)) ∧
      ∀ x e, y₁ x e - y₀ x e = theta := by
  obtain ⟨hm, h0, -⟩ := stdNormal_moments (q := 2) (by simp)
  set beta : Fin p → ℝ := fun j => 0.4 / ((j : ℝ) + 1) ^ 2 with hbeta
  -- the normal distribution function
  have mind : Measurable fun a : ℝ × ℝ => if 0 < a.1 + a.2 then (1 : ℝ) else 0 :=
    Measurable.ite (measurableSet_lt measurable_const (measurable_fst.add measurable_snd)) measurable_const measurable_const
  obtain ⟨F, hF⟩ : ∃ F : ℝ → ℝ, ∀ a, ∫ v, (if 0 < a + v then (1 : ℝ) else 0) ∂(gaussianReal 0 1) = F a := ⟨_, fun _ => rfl⟩
  have mF : Measurable F := by
    have := (mind.stronglyMeasurable.integral_prod_right' (ν := gaussianReal 0 1)).measurable
    have e : F = fun a => ∫ v, (if 0 < a + v then (1 : ℝ) else 0) ∂(gaussianReal 0 1) := funext fun a => (hF a).symm
    rw [e]
    exact this
  have Fpos : ∀ a, 0 < F a ∧ F a < 1 := by
    intro a
    have hs : MeasurableSet {v : ℝ | 0 < a + v} := measurableSet_lt measurable_const (measurable_id.const_add a)
    have e : (fun v : ℝ => if 0 < a + v then (1 : ℝ) else 0) = ({v : ℝ | 0 < a + v}).indicator fun _ => 1 := by
      funext v
      simp [Set.indicator]
    have e2 : F a = (gaussianReal 0 1).real {v : ℝ | 0 < a + v} := by
      rw [← hF, e, integral_indicator_const _ hs, smul_eq_mul, mul_one]
    have hop : ∀ t : Set ℝ, IsOpen t → t.Nonempty → 0 < (gaussianReal 0 1).real t := fun t ht hne => by
      refine ENNReal.toReal_pos (fun h => ?_) (measure_ne_top _ _)
      exact (ht.measure_pos volume hne).ne' (gaussianReal_absolutelyContinuous' 0 one_ne_zero h)
    rw [e2]
    refine ⟨hop _ (isOpen_lt continuous_const (continuous_const.add continuous_id)) ⟨1 - a, by simp⟩, ?_⟩
    have h1 := hop {v : ℝ | a + v < 0} (isOpen_lt (continuous_const.add continuous_id) continuous_const) ⟨-1 - a, by simp⟩
    have h2 : (gaussianReal 0 1).real ({v : ℝ | a + v < 0} ∪ {v : ℝ | 0 < a + v}) ≤ 1 := by
      exact measureReal_le_one
    rw [measureReal_union (Set.disjoint_left.2 fun v h h' => by
      have h : a + v < 0 := h
      have h' : 0 < a + v := h'
      linarith) hs] at h2
    linarith
  have mdot : Measurable fun x : Fin p → ℝ => dotp x beta := measurable_dotp _
  have bin : ∀ a v : ℝ, (if 0 < a + v then (1 : ℝ) else 0) = 0 ∨ (if 0 < a + v then (1 : ℝ) else 0) = 1 := fun a v => by
    split_ifs
    · exact Or.inr rfl
    · exact Or.inl rfl
  let d : (Fin p → ℝ) → ℝ → ℝ := fun x w => if 0 < dotp x beta + w then 1 else 0
  let s : (Fin p → ℝ) → ℝ → ℝ → ℝ := fun x w e => if 0 < (dotp x beta + d x w) + e then 1 else 0
  have dbin : ∀ x w, d x w = 0 ∨ d x w = 1 := fun x w => bin _ _
  have sbin : ∀ x w e, s x w e = 0 ∨ s x w e = 1 := fun x w e => bin _ _
  have md : Measurable fun a : (Fin p → ℝ) × ℝ => d a.1 a.2 := mind.comp ((mdot.comp measurable_fst).prodMk measurable_snd)
  have ms : Measurable fun a : ((Fin p → ℝ) × ℝ) × ℝ => s a.1.1 a.1.2 a.2 :=
    mind.comp (((mdot.comp measurable_fst.fst).add (md.comp measurable_fst)).prodMk measurable_snd)
  have ldot : MemLp (fun x : Fin p → ℝ => dotp x beta) 2 μX := gaussian_dot _ (by simp)
  have hign := ignorable_of_errors (μX := μX) (α := (gaussianReal 0 1).prod (gaussianReal 0 1)) (β := gaussianReal 0 1)
    (d := fun a => d a.1 a.2.1) (m := fun x => F (dotp x beta)) (y := fun a => dotp a.1.1 beta + theta * d a.1.1 a.1.2.1 + a.2)
    (y₀ := fun a => dotp a.1.1 beta + a.2) (y₁ := fun a => theta + dotp a.1.1 beta + a.2) (g₀ := fun x => dotp x beta)
    (g₁ := fun x => theta + dotp x beta) (e₀ := fun e => e) (e₁ := fun e => e) (fun a => bin _ _)
    (md.comp (measurable_fst.prodMk measurable_snd.fst))
    (fun x => (integral_preserving (measurePreserving_fst (μ := gaussianReal 0 1) (ν := gaussianReal 0 1)) (f := fun w => d x w)
      (md.comp (measurable_const.prodMk measurable_id)).aestronglyMeasurable).trans (hF _))
    (mF.comp mdot) (fun _ => rfl) (fun _ => rfl) (fun a => by ring) measurable_id hm h0 measurable_id hm h0 mdot (mdot.const_add _) ldot
    ((memLp_const theta).add ldot) fun x => Fpos _
  have noise : MeanZeroGiven ((μX.prod ((gaussianReal 0 1).prod (gaussianReal 0 1))).prod (gaussianReal 0 1))
      (fun a => ((d a.1.1 a.1.2.1, s a.1.1 a.1.2.1 a.1.2.2), a.1.1)) fun a => a.2 := by
    have : MeanZeroGiven ((μX.prod ((gaussianReal 0 1).prod (gaussianReal 0 1))).prod (gaussianReal 0 1)) (fun a => a.1) fun a => a.2 :=
      MeanZeroGiven.preserving (φ := id) (MeasurePreserving.id _) (h := fun a => a.2)
        ((hm.comp_measurePreserving measurePreserving_snd).integrable one_le_two) fun _ => h0
    refine this.mono measurable_fst (φ := fun a => ((d a.1 a.2.1, s a.1 a.2.1 a.2.2), a.1)) ?_ fun a => rfl
    exact ((md.comp (measurable_fst.prodMk measurable_snd.fst)).prodMk
      (ms.comp ((measurable_fst.prodMk measurable_snd.fst).prodMk measurable_snd.snd))).prodMk measurable_fst
  refine ⟨fun x w _ e => dotp x beta + theta * d x w + e, fun x e => dotp x beta + e, fun x e => theta + dotp x beta + e, d, s,
    fun x => dotp x beta, fun x => theta + dotp x beta, fun x => F (dotp x beta), fun x => F (dotp x beta), fun x => F (dotp x beta + 1),
    ?_, fun x w e => bin _ _, hign, ?_, ?_, ?_, fun x e => by ring⟩
  · intro n X e0 e1 w z
    have hs : ∀ i, (if 0 < dotp (X i) beta + (if 0 < dotp (X i) beta + w i then (1 : ℝ) else 0) + 0 * z i + e0 i then (1 : ℝ) else 0) =
        s (X i) (w i) (e0 i) := fun i => by
      rw [zero_mul, add_zero]
    unfold makeSsm
    rw [if_pos rfl]
    simp only [if_true, ← hbeta, hs]
    congr 4
    funext i
    by_cases h : s (X i) (w i) (e0 i) = 0
    · rw [if_pos h, h, zero_mul]
    · rw [if_neg h, (sbin _ _ _).resolve_left h, one_mul]
  · exact noise.of_eq fun a => by ring
  · exact noise.of_eq fun a => by ring
  · have pr : MeasurePreserving (fun a : ((Fin p → ℝ) × (ℝ × ℝ)) × ℝ => ((a.1.1, a.1.2.1), a.1.2.2))
        ((μX.prod ((gaussianReal 0 1).prod (gaussianReal 0 1))).prod (gaussianReal 0 1)) ((μX.prod (gaussianReal 0 1)).prod (gaussianReal 0 1)) :=
      ((measurePreserving_prodAssoc μX (gaussianReal 0 1) (gaussianReal 0 1)).symm).comp measurePreserving_fst
    have bnd : ∀ a : ((Fin p → ℝ) × ℝ) × ℝ, |s a.1.1 a.1.2 a.2 - (d a.1.1 a.1.2 * F (dotp a.1.1 beta + 1) + (1 - d a.1.1 a.1.2) * F (dotp a.1.1 beta))| ≤ 1 := by
      intro a
      have f1 := Fpos (dotp a.1.1 beta + 1)
      have f0 := Fpos (dotp a.1.1 beta)
      rw [abs_le]
      rcases sbin a.1.1 a.1.2 a.2 with h | h <;>
        rcases dbin a.1.1 a.1.2 with h' | h' <;> rw [h, h'] <;> constructor <;> linarith [f1.1, f1.2, f0.1, f0.2]
    have mh : Measurable fun a : ((Fin p → ℝ) × ℝ) × ℝ => s a.1.1 a.1.2 a.2 -
        (d a.1.1 a.1.2 * F (dotp a.1.1 beta + 1) + (1 - d a.1.1 a.1.2) * F (dotp a.1.1 beta)) :=
      ms.sub (((md.comp measurable_fst).mul (mF.comp ((mdot.comp measurable_fst.fst).add_const 1))).add
        (((md.comp measurable_fst).const_sub 1).mul (mF.comp (mdot.comp measurable_fst.fst))))
    have key : MeanZeroGiven ((μX.prod ((gaussianReal 0 1).prod (gaussianReal 0 1))).prod (gaussianReal 0 1)) (fun a => (a.1.1, a.1.2.1))
        fun a => s a.1.1 a.1.2.1 a.1.2.2 - (d a.1.1 a.1.2.1 * F (dotp a.1.1 beta + 1) + (1 - d a.1.1 a.1.2.1) * F (dotp a.1.1 beta)) := by
      refine MeanZeroGiven.preserving pr (h := fun a => s a.1.1 a.1.2 a.2 -
        (d a.1.1 a.1.2 * F (dotp a.1.1 beta + 1) + (1 - d a.1.1 a.1.2) * F (dotp a.1.1 beta)))
        (Integrable.of_bound mh.aestronglyMeasurable 1 (Eventually.of_forall bnd)) fun a => ?_
      dsimp only
      have is : Integrable (fun e => s a.1 a.2 e) (gaussianReal 0 1) := by
        refine Integrable.of_bound (ms.comp (measurable_const.prodMk measurable_id)).aestronglyMeasurable 1 (Eventually.of_forall fun e => ?_)
        rcases sbin a.1 a.2 e with h | h <;> rw [h] <;> simp
      rw [integral_sub is (integrable_const _), integral_const]
      have e1 : ∫ e, s a.1 a.2 e ∂(gaussianReal 0 1) = F (dotp a.1 beta + d a.1 a.2) := hF _
      rw [e1]
      rcases dbin a.1 a.2 with h' | h' <;> rw [h'] <;> simp
    exact key.mono (measurable_fst.fst.prodMk measurable_fst.snd.fst) (φ := fun a => (d a.1 a.2, a.1)) (md.prodMk measurable_fst) fun a => rfl

/-! ## Heterogeneous effects -/

/-- **C80.** The observations of `make_heterogeneous_data` are `y = θ(x) d + ⟨x, γ⟩ + ε` with an error that has mean zero given treatment and
covariates, whatever the distributions of the covariates and of `η` are, for binary and continuous treatments; the returned `effects` are
`θ(x)`; `θ(x)` is `exp(2 x_0) + 3 sin(4 x_0)` for `n_x = 1` and `exp(2 x_0) + 3 sin(4 x_1)` for `n_x = 2`. -/
theorem C80_het {q nX : ℕ} (hn : nX = 1 ∨ nX = 2) (hq : q ≤ p) (hp : nX ≤ p) (binary : Bool) (support : Fin q → Fin p) (cy cd : Fin q → ℝ)
    (μX : Measure (Fin p → ℝ)) [IsProbabilityMeasure μX] (ν₁ ν₂ : Measure ℝ) [IsProbabilityMeasure ν₁] [IsProbabilityMeasure ν₂]
    (hi : Integrable (fun v : ℝ => v) ν₂) (h0 : ∫ v, v ∂ν₂ = 0) :
    ∃ (y : (Fin p → ℝ) → ℝ → ℝ → ℝ) (d : (Fin p → ℝ) → ℝ → ℝ) (θ h : (Fin p → ℝ) → ℝ),
      (∀ (n : ℕ) (eps eta : Fin n → ℝ) (X : Fin n → Fin p → ℝ), makeHet nX binary support cy cd eps eta X =
        .ok ⟨X, fun i => y (X i) (eta i) (eps i), fun i => d (X i) (eta i), fun i => θ (X i)⟩) ∧
      MeanZeroGiven ((μX.prod ν₁).prod ν₂) (fun w => (d w.1.1 w.1.2, w.1.1)) (fun w => y w.1.1 w.1.2 w.2 - θ w.1.1 * d w.1.1 w.1.2 - h w.1.1) ∧
      (∀ x (h0 : 0 < p), nX = 1 → θ x = Real.exp (2 * x ⟨0, h0⟩) + 3 * Real.sin (4 * x ⟨0, h0⟩)) ∧
      (∀ x (h0 : 0 < p) (h1 : 1 < p), nX = 2 → θ x = Real.exp (2 * x ⟨0, h0⟩) + 3 * Real.sin (4 * x ⟨1, h1⟩)) ∧
      (binary = true → ∀ x e, d x e = if e ≤ ∑ k, x (support k) * cd k then 1 else 0) ∧
      (binary = false → ∀ x e, d x e = ∑ k, x (support k) * cd k + e) := by
  have hpos : nX ≤ p ∧ 0 < nX := ⟨hp, by omega⟩
  let d : (Fin p → ℝ) → ℝ → ℝ := fun x e => if binary then (if e ≤ ∑ k, x (support k) * cd k then (1 : ℝ) else 0) else (∑ k, x (support k) * cd k) + e
  have mx : Measurable fun a : (Fin p → ℝ) × ℝ => ∑ k, a.1 (support k) * cd k :=
    Finset.measurable_sum _ fun k _ => ((measurable_pi_apply _).comp measurable_fst).mul_const _
  have md : Measurable fun a : (Fin p → ℝ) × ℝ => d a.1 a.2 := by
    cases binary
    · exact mx.add measurable_snd
    · show Measurable fun a : (Fin p → ℝ) × ℝ => if a.2 ≤ ∑ k, a.1 (support k) * cd k then (1 : ℝ) else 0
      exact Measurable.ite (measurableSet_le measurable_snd mx) measurable_const measurable_const
  refine ⟨fun x e eps => hetEffect nX (x ⟨0, by omega⟩) (x ⟨nX - 1, by omega⟩) * d x e + ∑ k, x (support k) * cy k + eps, d,
    fun x => hetEffect nX (x ⟨0, by omega⟩) (x ⟨nX - 1, by omega⟩), fun x => ∑ k, x (support k) * cy k, ?_, ?_, ?_, ?_, ?_, ?_⟩
  · intro n eps eta X
    unfold makeHet
    rw [if_neg (not_not.2 hn), if_neg (by omega), dif_pos hpos]
  · have : MeanZeroGiven ((μX.prod ν₁).prod ν₂) (fun w => w.1) fun w => w.2 :=
      MeanZeroGiven.preserving (φ := id) (MeasurePreserving.id _) (h := fun w => w.2)
        ((measurePreserving_snd (μ := μX.prod ν₁)).integrable_comp_of_integrable hi) fun _ => h0
    refine (this.mono measurable_fst (φ := fun a => (d a.1 a.2, a.1)) (md.prodMk measurable_fst) fun w => rfl).of_eq fun w => ?_
    ring
  · intro x h0 h
    subst h
    rfl
  · intro x h0 h1 h
    subst h
    rfl
  · intro h x e
    simp [d, h]
  · intro h x e
    simp [d, h]

/-- The law of a vector of uniform draws. -/
noncomputable def unifVec (p : ℕ) : Measure (Fin p → ℝ) := Measure.pi fun _ => unif

/-- **C80.** With a binary treatment, the design of `make_heterogeneous_data` need not have overlap: there are coefficients in the range of those
drawn (up to 0.3, with five relevant covariates as by default) for which, with positive probability, the covariates are such that everybody is
treated whatever `η` in `[-1, 1]` is. -/
theorem C80_het_overlap_violated :
    ∃ (support : Fin 5 → Fin 30) (cy cd : Fin 5 → ℝ), Function.Injective support ∧ (∀ k, 0 ≤ cy k ∧ cy k ≤ 1) ∧ (∀ k, 0 ≤ cd k ∧ cd k ≤ 0.3) ∧
      ∃ s : Set (Fin 30 → ℝ), MeasurableSet s ∧ 0 < unifVec 30 s ∧
        ∀ (n : ℕ) (eps eta : Fin n → ℝ) (X : Fin n → Fin 30 → ℝ), (∀ i, X i ∈ s) → (∀ i, -1 ≤ eta i ∧ eta i ≤ 1) →
          ∃ out, makeHet 1 true support cy cd eps eta X = .ok out ∧ ∀ i, out.d i = 1 := by
  refine ⟨fun k => Fin.castLE (by norm_num) k, fun _ => 0, fun _ => 0.3, fun a b h => Fin.castLE_injective _ h, fun _ => by norm_num,
    fun _ => by norm_num, Set.univ.pi fun _ => Set.Ioc (7 / 10 : ℝ) 1, MeasurableSet.univ_pi fun _ => measurableSet_Ioc, ?_, ?_⟩
  · unfold unifVec
    rw [Measure.pi_pi]
    refine pos_iff_ne_zero.2 (Finset.prod_ne_zero_iff.2 fun j _ => ?_)
    have : Set.Ioc (7 / 10 : ℝ) 1 ∩ Set.Icc 0 1 = Set.Ioc (7 / 10) 1 :=
      Set.inter_eq_left.2 fun v hv => ⟨by linarith [hv.1], hv.2⟩
    rw [unif, Measure.restrict_apply measurableSet_Ioc, this, Real.volume_Ioc]
    norm_num
  · intro n eps eta X hX heta
    refine ⟨_, by
      unfold makeHet
      rw [if_neg (by simp), if_neg (by norm_num), dif_pos (by norm_num)], fun i => ?_⟩
    dsimp only
    have h1 : ∀ k, 7 / 10 ≤ X i k := fun k => (hX i k (Set.mem_univ _)).1.le
    rw [if_pos rfl, if_pos]
    refine (heta i).2.trans ?_
    rw [Fin.sum_univ_five]
    have := h1 (Fin.castLE (by norm_num) (0 : Fin 5))
    have := h1 (Fin.castLE (by norm_num) (1 : Fin 5))
    have := h1 (Fin.castLE (by norm_num) (2 : Fin 5))
    have := h1 (Fin.castLE (by norm_num) (3 : Fin 5))
    have := h1 (Fin.castLE (by norm_num) (4 : Fin 5))
    linarith

end DML
