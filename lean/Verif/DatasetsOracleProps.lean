import Verif.DatasetsSelectionProps

/-!
# Simulated data: difference-in-differences, confounding, treatment levels and discontinuities

C80, sixth part: properties of the potential outcomes and the oracle values that the simulators return.
-/

namespace DML

open MeasureTheory ProbabilityTheory Filter
open scoped ENNReal

variable {n p : ℕ}

/-! ## Difference-in-differences -/

theorem measurable_zScaled (i : Fin n) (j : Fin 4) : Measurable fun X : Fin n → Fin 4 → ℝ => zScaled X i j := by
  have h : ∀ k, Measurable fun X : Fin n → Fin 4 → ℝ => zTilde X j k := fun k => by
    unfold zTilde
    fin_cases j <;> simp <;> fun_prop
  have hm : Measurable fun X : Fin n → Fin 4 → ℝ => mean (zTilde X j) := by
    unfold mean
    fun_prop
  have hs : Measurable fun X : Fin n → Fin 4 → ℝ => popStd (zTilde X j) := by
    unfold popStd mean
    unfold mean at hm
    fun_prop
  unfold zScaled standardize
  exact ((h i).sub hm).div hs

/-- The random draws of `make_did_SZ2020`: for each observation, the errors of the outcomes have mean zero given all covariates and the
uniform draws of the treatments. -/
structure SzLaw {Ω : Type*} [MeasurableSpace Ω] (P : Measure Ω) (W : Ω → SzDraws n) : Prop where
  measX : Measurable fun ω => (W ω).X
  measU : Measurable fun ω => (W ω).u
  int0 : ∀ i, Integrable (fun ω => (W ω).eps0 i) P
  int10 : ∀ i, Integrable (fun ω => (W ω).eps10 i) P
  int11 : ∀ i, Integrable (fun ω => (W ω).eps11 i) P
  zero0 : ∀ i, MeanZeroGiven P (fun ω => ((W ω).X, (W ω).u)) fun ω => (W ω).eps0 i
  zero10 : ∀ i, MeanZeroGiven P (fun ω => ((W ω).X, (W ω).u)) fun ω => (W ω).eps10 i
  zero11 : ∀ i, MeanZeroGiven P (fun ω => ((W ω).X, (W ω).u)) fun ω => (W ω).eps11 i

/-- **C80.** In every design of `make_did_SZ2020`: for panel data the outcome is the difference of the outcomes of the periods, for
repeated cross-sections it is the outcome of the period that is observed; outcomes after treatment are those of the treatment received; and for
each observation the change without treatment has a mean given covariates and treatments that does not depend on the treatments (parallel
trends), and the average effect on the treated is zero. -/
theorem C80_did {Ω : Type*} [MeasurableSpace Ω] {P : Measure Ω} [IsProbabilityMeasure P] {W : Ω → SzDraws n} (hW : SzLaw P W) (dgp : ℤ)
    (hd : 1 ≤ dgp ∧ dgp ≤ 6) (xi lamT : ℝ) :
    ∃ (T : SzDraws n → SzTable n) (trend : Fin n → (Fin n → Fin 4 → ℝ) → ℝ),
      (∀ w, makeDid dgp false xi lamT .array w = .ok (.arrays (matCols (zScaled w.X))
        [fun i => ((T w).d i * (T w).y1d1 i + (1 - (T w).d i) * (T w).y1d0 i) - (T w).y0 i, (T w).d])) ∧
      (∀ w, makeDid dgp true xi lamT .array w = .ok (.arrays (matCols (zScaled w.X))
        [fun i => (T w).t i * ((T w).d i * (T w).y1d1 i + (1 - (T w).d i) * (T w).y1d0 i) + (1 - (T w).t i) * (T w).y0 i, (T w).d, (T w).t])) ∧
      (∀ w i, (T w).d i = 0 ∨ (T w).d i = 1) ∧
      ∀ i, MeanZeroGiven P (fun ω => ((W ω).X, (T (W ω)).d i)) (fun ω => (T (W ω)).y1d0 i - (T (W ω)).y0 i - trend i (W ω).X) ∧
        ∫ ω in {ω | (T (W ω)).d i = 1}, ((T (W ω)).y1d1 i - (T (W ω)).y1d0 i) ∂P = 0 := by
  obtain ⟨ps, reg, hf, mps⟩ : ∃ (ps : Option ((Fin n → Fin 4 → ℝ) → Fin n → Fin 4 → ℝ)) (reg : (Fin n → Fin 4 → ℝ) → Fin n → Fin 4 → ℝ),
      (∀ X : Fin n → Fin 4 → ℝ, szFeatures dgp X = .ok (ps.map fun f => f X, reg X)) ∧
        ∀ f, ps = some f → ∀ i, Measurable fun X => szPs xi (f X i) := by
    have m1 : ∀ i, Measurable fun X : Fin n → Fin 4 → ℝ => szPs xi (zScaled X i) := fun i => by
      have := measurable_zScaled (n := n) i
      unfold szPs
      fun_prop
    have m2 : ∀ i, Measurable fun X : Fin n → Fin 4 → ℝ => szPs xi (X i) := fun i => by
      unfold szPs
      fun_prop
    obtain ⟨h1, h6⟩ := hd
    unfold szFeatures
    interval_cases dgp
    · exact ⟨some zScaled, zScaled, fun X => by simp, fun f hf i => by cases hf; exact m1 i⟩
    · exact ⟨some id, zScaled, fun X => by simp, fun f hf i => by cases hf; exact m2 i⟩
    · exact ⟨some zScaled, id, fun X => by simp, fun f hf i => by cases hf; exact m1 i⟩
    · exact ⟨some id, id, fun X => by simp, fun f hf i => by cases hf; exact m2 i⟩
    · exact ⟨none, zScaled, fun X => by simp, fun f hf => by cases hf⟩
    · exact ⟨none, id, fun X => by simp, fun f hf => by cases hf⟩
  let T : SzDraws n → SzTable n := fun w => szTable xi lamT (ps.map fun f => f w.X, reg w.X) w
  obtain ⟨dm, hdm, hdT⟩ : ∃ dm : Fin n → (Fin n → Fin 4 → ℝ) × (Fin n → ℝ) → ℝ, (∀ i, Measurable (dm i)) ∧
      ∀ w i, (T w).d i = dm i (w.X, w.u) := by
    cases hps : ps with
    | none =>
      refine ⟨fun i a => if a.2 i ≤ 0.5 then 1 else 0, fun i => ?_, fun w i => by simp only [T, hps, szTable, Option.map]⟩
      exact Measurable.ite (measurableSet_le ((measurable_pi_apply i).comp measurable_snd) measurable_const) measurable_const measurable_const
    | some f =>
      refine ⟨fun i a => if a.2 i ≤ Real.exp (szPs xi (f a.1 i)) / (1 + Real.exp (szPs xi (f a.1 i))) then 1 else 0, fun i => ?_,
        fun w i => by simp only [T, hps, szTable, Option.map]⟩
      have := mps f hps i
      have m2 : Measurable fun a : (Fin n → Fin 4 → ℝ) × (Fin n → ℝ) => Real.exp (szPs xi (f a.1 i)) / (1 + Real.exp (szPs xi (f a.1 i))) := by
        have : Measurable fun a : (Fin n → Fin 4 → ℝ) × (Fin n → ℝ) => szPs xi (f a.1 i) := this.comp measurable_fst
        exact (Real.measurable_exp.comp this).div ((Real.measurable_exp.comp this).const_add 1)
      exact Measurable.ite (measurableSet_le ((measurable_pi_apply i).comp measurable_snd) m2) measurable_const measurable_const
  have hbin : ∀ w i, (T w).d i = 0 ∨ (T w).d i = 1 := fun w i => by
    simp only [T, szTable]
    split_ifs
    · exact Or.inr rfl
    · exact Or.inl rfl
  have mXU : Measurable fun ω => ((W ω).X, (W ω).u) := hW.measX.prodMk hW.measU
  refine ⟨T, fun i X => szReg (reg X i), fun w => ?_, fun w => ?_, hbin, fun i => ⟨?_, ?_⟩⟩
  · unfold makeDid
    simp only [hf, Bind.bind, Except.bind]
    rfl
  · unfold makeDid
    simp only [hf, Bind.bind, Except.bind]
    rfl
  · have h1 := ((hW.zero10 i).add (hW.zero0 i).neg (hW.int10 i) (hW.int0 i).neg).mono mXU
      (φ := fun a => (a.1, dm i a)) (η := fun ω => ((W ω).X, (T (W ω)).d i)) (measurable_fst.prodMk (hdm i)) fun ω => by rw [hdT]
    refine h1.of_eq fun ω => ?_
    simp only [T, szTable]
    ring
  · have ms : MeasurableSet {ω | (T (W ω)).d i = 1} := by
      have : Measurable fun ω => (T (W ω)).d i := by
        simp only [hdT]
        exact (hdm i).comp mXU
      exact this (measurableSet_singleton 1)
    have hz := ((hW.zero11 i).add (hW.zero10 i).neg (hW.int11 i) (hW.int10 i).neg)
    have hi := (hW.int11 i).add (hW.int10 i).neg
    have e : ∀ ω, (T (W ω)).y1d1 i - (T (W ω)).y1d0 i = (W ω).eps11 i + -(W ω).eps10 i := fun ω => by
      simp only [T, szTable]
      ring
    simp only [e]
    have bd : ∀ ω, |dm i ((W ω).X, (W ω).u)| ≤ 1 := fun ω => by
      rw [← hdT]
      rcases hbin (W ω) i with h | h <;> rw [h] <;> simp
    have him : Integrable (fun ω => ((W ω).eps11 i + -(W ω).eps10 i) * dm i ((W ω).X, (W ω).u)) P :=
      hi.mul_bdd (c := 1) ((hdm i).comp mXU).aestronglyMeasurable (Eventually.of_forall bd)
    have := hz.integral_mul mXU hi (hdm i) him
    rw [← integral_indicator ms, ← this]
    refine integral_congr_ae (Eventually.of_forall fun ω => ?_)
    dsimp only
    rw [← hdT]
    by_cases hω : (T (W ω)).d i = 1
    · rw [Set.indicator_of_mem (by exact hω), hω, mul_one]
    · rw [Set.indicator_of_notMem (by exact hω), (hbin (W ω) i).resolve_right hω, mul_zero]

/-! ## Confounded data -/

theorem mean_standardize (f : Fin n → ℝ) : mean (standardize f) = 0 := by
  rcases Nat.eq_zero_or_pos n with h | h
  · subst h
    simp [mean]
  · have hn : (n : ℝ) ≠ 0 := by positivity
    have e : standardize f = fun i => (f i - mean f) * (popStd f)⁻¹ := funext fun i => div_eq_mul_inv _ _
    rw [e, mean_mul_right, mean_sub, mean_const h, sub_self, zero_mul]

theorem npClip_mem {a lo hi : ℝ} (h : lo ≤ hi) : lo ≤ npClip a lo hi ∧ npClip a lo hi ≤ hi :=
  ⟨le_min (le_max_right _ _) h, min_le_right _ _⟩

section

variable (theta gammaA betaA : ℝ) (linear : Bool) (thr : ℝ) (X : Fin n → Fin 5 → ℝ) (eps a u : Fin n → ℝ) (i : Fin n)

theorem cfIrm_d : (makeCfIrm theta gammaA betaA linear thr X eps a u).d i =
    if u i ≤ (makeCfIrm theta gammaA betaA linear thr X eps a u).mLong i then 1 else 0 := rfl

theorem cfIrm_y : (makeCfIrm theta gammaA betaA linear thr X eps a u).y i = (makeCfIrm theta gammaA betaA linear thr X eps a u).d i *
    (makeCfIrm theta gammaA betaA linear thr X eps a u).y1 i + (1 - (makeCfIrm theta gammaA betaA linear thr X eps a u).d i) *
      (makeCfIrm theta gammaA betaA linear thr X eps a u).y0 i := rfl

theorem cfIrm_y0 : (makeCfIrm theta gammaA betaA linear thr X eps a u).y0 i =
    cfReg ((if linear then X else zScaled5 X) i) + betaA * a i + eps i := rfl

theorem cfIrm_gShort (h : (makeCfIrm theta gammaA betaA linear thr X eps a u).d i = 0) :
    (makeCfIrm theta gammaA betaA linear thr X eps a u).gShort i = cfReg ((if linear then X else zScaled5 X) i) := by
  have : (makeCfIrm theta gammaA betaA linear thr X eps a u).gShort i = (makeCfIrm theta gammaA betaA linear thr X eps a u).d i *
      ((theta + betaA * (gammaA * ((1 - (-1)) ^ 2 / 12)) /
        popStd (fun i => (makeCfIrm theta gammaA betaA linear thr X eps a u).d i * (zScaled5 X i 4 + 1)) ^ 2) * (zScaled5 X i 4 + 1) +
        cfReg ((if linear then X else zScaled5 X) i)) +
      (1 - (makeCfIrm theta gammaA betaA linear thr X eps a u).d i) * cfReg ((if linear then X else zScaled5 X) i) := rfl
  rw [this, h]
  ring

theorem cfIrm_mLong : (makeCfIrm theta gammaA betaA linear thr X eps a u).mLong i =
    if (∃ j, logistic (cfPs ((if linear then X else zScaled5 X) j)) + gammaA * a j < thr) ∨
      ∃ j, logistic (cfPs ((if linear then X else zScaled5 X) j)) + gammaA * a j > 1 - thr then
      npClip (logistic (cfPs ((if linear then X else zScaled5 X) i)) + gammaA * a i) thr (1 - thr)
    else logistic (cfPs ((if linear then X else zScaled5 X) i)) + gammaA * a i := by
  simp only [makeCfIrm, logistic]
  congr

end

/-- **C80.** The oracle values of `make_confounded_irm_data`: the treatment is one if the uniform draw does not exceed `m_long`, which is within the
trimming bounds; outcomes are the potential outcomes of the treatment received; the average of `y_1 - y_0` over the sample (not only in
expectation) is `theta`; and the outcome minus `g_long` is the error. -/
theorem C80_confounded_irm (hn : 0 < n) (theta gammaA betaA : ℝ) (linear : Bool) {thr : ℝ} (ht : thr ≤ 1 / 2) (X : Fin n → Fin 5 → ℝ) (eps a u : Fin n → ℝ)
    (_hs : popStd (fun i => X i 4) ≠ 0) :
    ∃ o, makeCfIrm theta gammaA betaA linear thr X eps a u = o ∧
      (∀ i, (o.d i = 1 ∧ u i ≤ o.mLong i) ∨ (o.d i = 0 ∧ o.mLong i < u i)) ∧
      (∀ i, thr ≤ o.mLong i ∧ o.mLong i ≤ 1 - thr) ∧
      (∀ i, o.y i = if o.d i = 1 then o.y1 i else o.y0 i) ∧
      mean (fun i => o.y1 i - o.y0 i) = theta ∧
      ∀ i, o.y i - o.gLong i = eps i := by
  refine ⟨_, rfl, fun i => ?_, fun i => ?_, fun i => ?_, ?_, fun i => ?_⟩
  · rw [cfIrm_d]
    split_ifs with h
    · exact Or.inl ⟨rfl, h⟩
    · exact Or.inr ⟨rfl, not_le.1 h⟩
  · rw [cfIrm_mLong]
    generalize (if linear = true then X else zScaled5 X) = F
    split_ifs with h
    · exact npClip_mem (by linarith)
    · rw [not_or] at h
      push Not at h
      exact ⟨h.1 i, h.2 i⟩
  · rw [cfIrm_y, cfIrm_d]
    by_cases h : u i ≤ (makeCfIrm theta gammaA betaA linear thr X eps a u).mLong i
    · rw [if_pos h, if_pos rfl]
      ring
    · rw [if_neg h, if_neg (by norm_num)]
      ring
  · have e : ∀ i, (makeCfIrm theta gammaA betaA linear thr X eps a u).y1 i - (makeCfIrm theta gammaA betaA linear thr X eps a u).y0 i =
        theta * standardize (fun i => X i 4) i + theta := fun i => by
      have hz : zScaled5 X i 4 = standardize (fun i => X i 4) i := by
        unfold zScaled5
        rfl
      simp only [makeCfIrm, hz]
      ring
    simp only [e]
    rw [mean_add, mean_mul_left, mean_const hn, mean_standardize, mul_zero, zero_add]
  · simp only [makeCfIrm]
    ring

theorem unif_le {q : ℝ} (h0 : 0 ≤ q) (h1 : q ≤ 1) : ∫ v, (if v ≤ q then (1 : ℝ) else 0) ∂unif = q := by
  have e : (fun v : ℝ => if v ≤ q then (1 : ℝ) else 0) = (Set.Iic q).indicator fun _ => 1 := by
    funext v
    simp [Set.indicator]
  rw [e, integral_indicator_const _ measurableSet_Iic, smul_eq_mul, mul_one]
  have : Set.Iic q ∩ Set.Icc 0 1 = Set.Icc 0 q := by
    ext v
    simp only [Set.mem_inter_iff, Set.mem_Iic, Set.mem_Icc]
    constructor
    · rintro ⟨a, b, c⟩
      exact ⟨b, a⟩
    · rintro ⟨a, b⟩
      exact ⟨b, a, by linarith⟩
  rw [unif, Measure.real, Measure.restrict_apply measurableSet_Iic, this, Real.volume_Icc, sub_zero, ENNReal.toReal_ofReal h0]

theorem unif_integral (f : ℝ → ℝ) : ∫ v, f v ∂unif = ∫ v in (0 : ℝ)..1, f v := by
  unfold unif
  rw [integral_Icc_eq_integral_Ioc, intervalIntegral.integral_of_le zero_le_one]

/-- **C80.** The oracle value `g_short` of `make_confounded_irm_data` is not the conditional mean of the outcome given treatment and covariates: with an
effective confounder and no trimming, the untreated outcomes deviate from `g_short` by `-beta_a gamma_a / 3` on average over the draws of the
confounder `a = 2 v - 1` and of the treatment.  (The mean of `y - g_short` among the untreated would have to be zero.) -/
theorem C80_confounded_irm_short_violated (i : Fin n) (theta : ℝ) {gammaA betaA : ℝ} (hγ : 0 < gammaA) (hβ : betaA ≠ 0) (linear : Bool) {thr : ℝ}
    (ht : 0 ≤ thr) (X : Fin n → Fin 5 → ℝ)
    (ho : ∀ j, thr + gammaA ≤ logistic (cfPs ((if linear then X else zScaled5 X) j)) ∧
      logistic (cfPs ((if linear then X else zScaled5 X) j)) + gammaA ≤ 1 - thr)
    (eps v u : Fin n → ℝ) (hv : ∀ j, 0 ≤ v j ∧ v j ≤ 1) :
    ∃ o : ℝ → ℝ → CfIrm n,
      (∀ v' u', o v' u' = makeCfIrm theta gammaA betaA linear thr X eps (fun j => 2 * Function.update v i v' j - 1) (Function.update u i u')) ∧
      ∫ v', ∫ u', (1 - (o v' u').d i) * ((o v' u').y i - (o v' u').gShort i - eps i) ∂unif ∂unif = -(betaA * gammaA / 3) ∧
      -(betaA * gammaA / 3) ≠ 0 := by
  refine ⟨_, fun _ _ => rfl, ?_, by have := hγ.ne'; simp [hβ, this]⟩
  set q : Fin n → ℝ := fun j => logistic (cfPs ((if linear then X else zScaled5 X) j)) with hq
  have key : ∀ v' ∈ Set.Icc (0 : ℝ) 1, ∫ u', (1 - (makeCfIrm theta gammaA betaA linear thr X eps (fun j => 2 * Function.update v i v' j - 1)
      (Function.update u i u')).d i) * ((makeCfIrm theta gammaA betaA linear thr X eps (fun j => 2 * Function.update v i v' j - 1)
      (Function.update u i u')).y i - (makeCfIrm theta gammaA betaA linear thr X eps (fun j => 2 * Function.update v i v' j - 1)
      (Function.update u i u')).gShort i - eps i) ∂unif = (1 - (q i + gammaA * (2 * v' - 1))) * (betaA * (2 * v' - 1)) := by
    intro v' hv'
    have hb : ∀ j, -1 ≤ 2 * Function.update v i v' j - 1 ∧ 2 * Function.update v i v' j - 1 ≤ 1 := by
      intro j
      by_cases h : j = i
      · subst h
        rw [Function.update_self]
        constructor <;> linarith [hv'.1, hv'.2]
      · rw [Function.update_of_ne h]
        constructor <;> linarith [(hv j).1, (hv j).2]
    have hin : ∀ j, thr ≤ q j + gammaA * (2 * Function.update v i v' j - 1) ∧ q j + gammaA * (2 * Function.update v i v' j - 1) ≤ 1 - thr := by
      intro j
      have h1 := ho j
      have h2 := hb j
      constructor <;> nlinarith
    have hrow : ∀ u', (1 - (makeCfIrm theta gammaA betaA linear thr X eps (fun j => 2 * Function.update v i v' j - 1)
        (Function.update u i u')).d i) * ((makeCfIrm theta gammaA betaA linear thr X eps (fun j => 2 * Function.update v i v' j - 1)
        (Function.update u i u')).y i - (makeCfIrm theta gammaA betaA linear thr X eps (fun j => 2 * Function.update v i v' j - 1)
        (Function.update u i u')).gShort i - eps i) =
        (1 - if u' ≤ q i + gammaA * (2 * v' - 1) then (1 : ℝ) else 0) * (betaA * (2 * v' - 1)) := by
      intro u'
      have hout : ¬ ((∃ j, q j + gammaA * (2 * Function.update v i v' j - 1) < thr) ∨
          ∃ j, q j + gammaA * (2 * Function.update v i v' j - 1) > 1 - thr) := by
        rw [not_or]
        push Not
        exact ⟨fun j => (hin j).1, fun j => (hin j).2⟩
      have hd : (makeCfIrm theta gammaA betaA linear thr X eps (fun j => 2 * Function.update v i v' j - 1) (Function.update u i u')).d i =
          if u' ≤ q i + gammaA * (2 * v' - 1) then (1 : ℝ) else 0 := by
        rw [cfIrm_d, cfIrm_mLong, if_neg hout, Function.update_self, Function.update_self]
      by_cases hu : u' ≤ q i + gammaA * (2 * v' - 1)
      · rw [hd, if_pos hu]
        ring
      · rw [if_neg hu] at hd ⊢
        rw [cfIrm_gShort _ _ _ _ _ _ _ _ _ _ hd, cfIrm_y, hd, cfIrm_y0, Function.update_self]
        ring
    simp only [hrow]
    have hi := hin i
    rw [Function.update_self] at hi
    rw [integral_mul_const]
    congr 1
    have ii : Integrable (fun u' : ℝ => if u' ≤ q i + gammaA * (2 * v' - 1) then (1 : ℝ) else 0) unif :=
      Integrable.of_bound (Measurable.ite (measurableSet_le measurable_id measurable_const) measurable_const measurable_const).aestronglyMeasurable 1
        (Eventually.of_forall fun u' => by split_ifs <;> simp)
    rw [integral_sub (integrable_const _) ii, unif_le (by linarith) (by linarith)]
    simp
  have e : ∀ v' : ℝ, (1 - (q i + gammaA * (2 * v' - 1))) * (betaA * (2 * v' - 1)) =
      (-(1 - q i - -gammaA) * betaA) + (2 * betaA * (1 - q i - -gammaA) + 2 * betaA * gammaA) * v' + (-(4 * betaA * gammaA)) * v' ^ 2 := fun v' => by
    ring
  refine (setIntegral_congr_fun measurableSet_Icc key).trans ?_
  show ∫ v', _ ∂unif = _
  rw [unif_integral]
  simp only [e]
  rw [intervalIntegral.integral_add, intervalIntegral.integral_add, intervalIntegral.integral_const, intervalIntegral.integral_const_mul,
    intervalIntegral.integral_const_mul, integral_id, integral_pow]
  · norm_num
    ring
  all_goals exact Continuous.intervalIntegrable (by fun_prop) _ _

/-- **C80.** The oracle values of `make_confounded_plr_data`: outcome minus `g_long` and treatment minus `m_long` are the errors, and
`m_long` minus `m_short` is a multiple of the confounder.  If the search for the strength of the confounder reaches the minimum zero of its
objectives, the residual variation of the outcome explained by the confounder and the relative gain of the variation of the Riesz representer
in the sample are the requested values `cf_y` and `cf_d`. -/
theorem C80_confounded_plr (minimise : (ℝ → ℝ) → ℝ) (theta cfY cfD : ℝ) (X : Fin n → Fin 4 → ℝ) (epsY epsD a : Fin n → ℝ) :
    ∃ o, makeCfPlr minimise theta cfY cfD X epsY epsD a = o ∧
      (∀ i, o.y i - o.gLong i = epsY i) ∧ (∀ i, o.d i - o.mLong i = epsD i) ∧ (∀ i, o.mLong i - o.mShort i = o.gammaA * a i) ∧
      (∃ g : Fin n → ℝ, ∀ i, o.y i = theta * o.d i + g i + o.betaA * a i + epsY i) ∧
      (cfM cfD a epsD o.gammaA = 0 → (mean fun i => (o.d i - o.mLong i) ^ 2) ≠ 0 → (mean fun i => (o.d i - o.mShort i) ^ 2) ≠ 0 →
        ((mean fun i => (o.d i - o.mLong i) ^ 2) - mean fun i => ((o.d i - o.mShort i) / (o.gammaA ^ 2 / 3 + 1)) ^ 2) /
          (mean fun i => (o.d i - o.mLong i) ^ 2) = cfD) ∧
      (cfG cfY a epsY o.d o.gammaA (popStd o.d ^ 2) o.betaA = 0 →
        (mean fun i => (o.gLong i - o.gShort i) ^ 2) / (mean fun i => (o.y i - o.gShort i) ^ 2) = cfY) := by
  refine ⟨_, rfl, fun i => ?_, fun i => ?_, fun i => ?_, ⟨fun i => 210 + 27.4 * zScaled X i 0 + 13.7 * (zScaled X i 1 + zScaled X i 2 + zScaled X i 3),
    fun i => ?_⟩, fun h hl hs => ?_, fun h => ?_⟩
  · simp only [makeCfPlr]
    ring
  · simp only [makeCfPlr]
    ring
  · simp only [makeCfPlr]
    ring
  · simp only [makeCfPlr]
  · obtain ⟨gam, hg⟩ : ∃ gam, (makeCfPlr minimise theta cfY cfD X epsY epsD a).gammaA = gam := ⟨_, rfl⟩
    have e1 : ∀ i, (makeCfPlr minimise theta cfY cfD X epsY epsD a).d i - (makeCfPlr minimise theta cfY cfD X epsY epsD a).mLong i = epsD i := fun i => by
      simp only [makeCfPlr]
      ring
    have e2 : ∀ i, (makeCfPlr minimise theta cfY cfD X epsY epsD a).d i - (makeCfPlr minimise theta cfY cfD X epsY epsD a).mShort i =
        gam * a i + epsD i := fun i => by
      rw [← hg]
      simp only [makeCfPlr]
      ring
    rw [hg] at h ⊢
    simp only [e1, e2] at hl hs ⊢
    unfold cfM at h
    rw [sq_eq_zero_iff, sub_eq_zero] at h
    have ev : gam ^ 2 * ((1 - (-1)) ^ 2 / 12) + 1 = gam ^ 2 / 3 + 1 := by ring
    simp only [ev, div_one] at h
    rw [← h]
    have hpos : gam ^ 2 / 3 + 1 ≠ 0 := by positivity
    have hs' : (mean fun i => ((gam * a i + epsD i) / (gam ^ 2 / 3 + 1)) ^ 2) ≠ 0 := by
      have : (fun i => ((gam * a i + epsD i) / (gam ^ 2 / 3 + 1)) ^ 2) = fun i => (gam * a i + epsD i) ^ 2 * ((gam ^ 2 / 3 + 1) ^ 2)⁻¹ := by
        funext i
        rw [div_pow, div_eq_mul_inv]
      rw [this, mean_mul_right]
      exact mul_ne_zero hs (by positivity)
    generalize (mean fun i => ((gam * a i + epsD i) / (gam ^ 2 / 3 + 1)) ^ 2) = S at hs' ⊢
    generalize (mean fun i => epsD i ^ 2) = L at hl ⊢
    have : 1 + (L - S) / S = L / S := by field_simp; ring
    rw [this]
    field_simp
  · obtain ⟨o, ho⟩ : ∃ o, makeCfPlr minimise theta cfY cfD X epsY epsD a = o := ⟨_, rfl⟩
    have e1 : ∀ i, o.gLong i - o.gShort i = o.betaA * (a i - o.gammaA * (((1 - (-1)) ^ 2 / 12) / popStd o.d ^ 2) * o.d i) := fun i => by
      rw [← ho]
      simp only [makeCfPlr]
      ring
    have e2 : ∀ i, o.y i - o.gShort i = epsY i + (o.gLong i - o.gShort i) := fun i => by
      rw [← ho]
      simp only [makeCfPlr]
      ring
    rw [ho] at h ⊢
    unfold cfG at h
    rw [sq_eq_zero_iff, sub_eq_zero] at h
    simp only [e2, e1]
    exact h

/-! ## Treatment levels -/

theorem levels_sum_le (l : List ℕ) (f : ℕ → Prop) [DecidablePred f] :
    ∃ k : ℕ, k ≤ l.length ∧ (l.map fun j => if f j then (1 : ℝ) else 0).sum = k := by
  induction l with
  | nil => exact ⟨0, by simp⟩
  | cons x l ih =>
    obtain ⟨k, hk, h⟩ := ih
    by_cases hx : f x
    · exact ⟨k + 1, by simp [hk], by simp [hx, h]; ring⟩
    · exact ⟨k, by simp; omega, by simp [hx, h]⟩

theorem levels_sum_mono (l : List ℕ) {f g : ℕ → Prop} [DecidablePred f] [DecidablePred g] (h : ∀ j, f j → g j) :
    (l.map fun j => if f j then (1 : ℝ) else 0).sum ≤ (l.map fun j => if g j then (1 : ℝ) else 0).sum := by
  refine List.sum_le_sum fun j _ => ?_
  by_cases hf : f j
  · rw [if_pos hf, if_pos (h j hf)]
  · rw [if_neg hf]
    split_ifs <;> norm_num

/-- **C80.** `make_irm_data_discrete_treatments` refuses fewer than two levels; otherwise the treatment of an observation is zero exactly if
its uniform draw is below `1 / n_levels`, treatments are among `0, ..., n_levels`, treated observations with a larger continuous
treatment have at least the same level, and the outcome is the one without treatment, plus the individual effect if the treatment is not zero. -/
theorem C80_levels (L : ℤ) (linear : Bool) (xi : ℝ) (X : Fin n → Fin 5 → ℝ) (epsY epsD eta : Fin n → ℝ) :
    (L < 2 ∧ makeLevels L linear xi X epsY epsD eta = .error .valueError) ∨
    (2 ≤ L ∧ ∃ o, makeLevels L linear xi X epsY epsD eta = .ok o ∧
      (∀ i, o.d i = 0 ↔ eta i < 1 / (L : ℝ)) ∧
      (∀ i, ∃ k : ℕ, (k : ℤ) ≤ L ∧ o.d i = k) ∧
      (∀ i j, o.d i ≠ 0 → o.d j ≠ 0 → o.contD i ≤ o.contD j → o.d i ≤ o.d j) ∧
      (∀ i, o.d i ≠ 0 → o.d i = o.level i) ∧
      (∀ i, o.y i = if o.d i = 0 then o.y0 i else o.y0 i + o.ite i) ∧
      ∀ i, o.ite i = levelEffect (o.contD i)) := by
  by_cases hL : L < 2
  · exact Or.inl ⟨hL, if_pos hL⟩
  right
  refine ⟨not_lt.1 hL, ?_⟩
  unfold makeLevels
  rw [if_neg hL]
  refine ⟨_, rfl, ?_⟩
  dsimp only
  generalize hF : (if linear = true then X else zScaled5 X) = F
  set contD : Fin n → ℝ := fun i => szPs xi (firstFour (F i)) + epsD i with hc
  set level : Fin n → ℝ := fun i =>
    (((List.range (L.toNat - 1)).map fun k => if levelBound contD L.toNat (k + 1) ≤ contD i then (1 : ℝ) else 0).sum) + 1 with hlev
  have hl : ∀ i, ∃ k : ℕ, (k : ℤ) + 1 ≤ L ∧ level i = k + 1 := fun i => by
    obtain ⟨k, hk, h⟩ := levels_sum_le (List.range (L.toNat - 1)) fun k => levelBound contD L.toNat (k + 1) ≤ contD i
    refine ⟨k, ?_, by rw [hlev]; dsimp only; rw [h]⟩
    rw [List.length_range] at hk
    omega
  have hpos : ∀ i, 0 < level i := fun i => by
    obtain ⟨k, _, h⟩ := hl i
    rw [h]
    positivity
  have hd0 : ∀ i, (if 1 / (L : ℝ) ≤ eta i then (1 : ℝ) else 0) * level i = 0 ↔ eta i < 1 / (L : ℝ) := fun i => by
    by_cases h : 1 / (L : ℝ) ≤ eta i
    · rw [if_pos h, one_mul]
      exact ⟨fun h' => absurd h' (hpos i).ne', fun h' => absurd h (not_le.2 h')⟩
    · rw [if_neg h, zero_mul]
      exact ⟨fun _ => not_le.1 h, fun _ => rfl⟩
  have hd1 : ∀ i, (if 1 / (L : ℝ) ≤ eta i then (1 : ℝ) else 0) * level i ≠ 0 → (if 1 / (L : ℝ) ≤ eta i then (1 : ℝ) else 0) * level i = level i := by
    intro i h
    by_cases h' : 1 / (L : ℝ) ≤ eta i
    · rw [if_pos h', one_mul]
    · exact absurd (by rw [if_neg h', zero_mul]) h
  refine ⟨hd0, fun i => ?_, fun i j hi hj hij => ?_, hd1, fun i => ?_, fun _ => rfl⟩
  · show ∃ k : ℕ, (k : ℤ) ≤ L ∧ (if 1 / (L : ℝ) ≤ eta i then (1 : ℝ) else 0) * level i = k
    by_cases h' : 1 / (L : ℝ) ≤ eta i
    · obtain ⟨k, hk, h⟩ := hl i
      exact ⟨k + 1, by exact_mod_cast hk, by rw [if_pos h', one_mul, h]; push_cast; ring⟩
    · exact ⟨0, by omega, by rw [if_neg h', zero_mul, Nat.cast_zero]⟩
  · show (if 1 / (L : ℝ) ≤ eta i then (1 : ℝ) else 0) * level i ≤ (if 1 / (L : ℝ) ≤ eta j then (1 : ℝ) else 0) * level j
    rw [hd1 i hi, hd1 j hj]
    have := levels_sum_mono (List.range (L.toNat - 1)) (f := fun k => levelBound contD L.toNat (k + 1) ≤ contD i)
      (g := fun k => levelBound contD L.toNat (k + 1) ≤ contD j) fun k h => h.trans hij
    rw [hlev]
    dsimp only
    linarith
  · by_cases h' : 1 / (L : ℝ) ≤ eta i
    · have : 0 < (if 1 / (L : ℝ) ≤ eta i then (1 : ℝ) else 0) * level i := by rw [if_pos h', one_mul]; exact hpos i
      rw [if_pos this, if_neg this.ne']
      ring
    · have : (if 1 / (L : ℝ) ≤ eta i then (1 : ℝ) else 0) * level i = 0 := by rw [if_neg h', zero_mul]
      rw [if_neg (by rw [this]; exact lt_irrefl 0), if_pos this]
      ring

/-- **C80.** The levels of `make_irm_data_discrete_treatments` do not have the same probability, against the documentation, and there are
`n_levels + 1` of them: the baseline has probability `1 / n_levels` under every distribution of the other draws. -/
theorem C80_levels_violated {Ω : Type*} [MeasurableSpace Ω] {P : Measure Ω} [IsProbabilityMeasure P] {L : ℤ} (hL : 2 ≤ L) (linear : Bool) (xi : ℝ)
    (X : Ω → Fin n → Fin 5 → ℝ) (epsY epsD eta : Ω → Fin n → ℝ) (i : Fin n) (hu : MeasurePreserving (fun ω => eta ω i) P unif)
    {o : Ω → LevelOut n} (ho : ∀ ω, makeLevels L linear xi (X ω) (epsY ω) (epsD ω) (eta ω) = .ok (o ω)) (hm : Measurable fun ω => (o ω).d i) :
    P.real {ω | (o ω).d i = 0} = 1 / L ∧ ¬ ∀ k : ℕ, (k : ℤ) ≤ L → P.real {ω | (o ω).d i = k} = 1 / L := by
  have hLr : (2 : ℝ) ≤ L := by exact_mod_cast hL
  have hch := fun ω => ((C80_levels L linear xi (X ω) (epsY ω) (epsD ω) (eta ω)).resolve_left fun h => absurd h.1 (not_lt.2 hL)).2
  have h0 : ∀ ω, (o ω).d i = 0 ↔ eta ω i < 1 / (L : ℝ) := fun ω => by
    obtain ⟨o', h, hd, _⟩ := hch ω
    rw [ho] at h
    cases h
    exact hd i
  have hk : ∀ ω, ∃ k : ℕ, (k : ℤ) ≤ L ∧ (o ω).d i = k := fun ω => by
    obtain ⟨o', h, _, hd, _⟩ := hch ω
    rw [ho] at h
    cases h
    exact hd i
  have p0 : P.real {ω | (o ω).d i = 0} = 1 / L := by
    have : {ω | (o ω).d i = 0} = (fun ω => eta ω i) ⁻¹' Set.Iio (1 / (L : ℝ)) := by
      ext ω
      exact h0 ω
    rw [this, Measure.real, hu.measure_preimage measurableSet_Iio.nullMeasurableSet, unif, Measure.restrict_apply measurableSet_Iio]
    have : Set.Iio (1 / (L : ℝ)) ∩ Set.Icc 0 1 = Set.Ico 0 (1 / (L : ℝ)) := by
      ext v
      simp only [Set.mem_inter_iff, Set.mem_Iio, Set.mem_Icc, Set.mem_Ico]
      constructor
      · rintro ⟨a, b, c⟩
        exact ⟨b, a⟩
      · rintro ⟨a, b⟩
        have : 1 / (L : ℝ) ≤ 1 := by rw [div_le_one (by linarith)]; linarith
        exact ⟨b, a, by linarith⟩
    rw [this, Real.volume_Ico, sub_zero, ENNReal.toReal_ofReal (by positivity)]
  refine ⟨p0, fun hall => ?_⟩
  have hun : (⋃ k ∈ Finset.range (L.toNat + 1), {ω | (o ω).d i = (k : ℕ)}) = Set.univ := by
    ext ω
    simp only [Finset.mem_range, Set.mem_iUnion, Set.mem_univ, iff_true]
    obtain ⟨k, h1, h2⟩ := hk ω
    exact ⟨k, by omega, h2⟩
  have hsum := measureReal_biUnion_finset (μ := P) (s := Finset.range (L.toNat + 1)) (f := fun k : ℕ => {ω | (o ω).d i = k})
    (fun a _ b _ hab => Set.disjoint_left.2 fun ω h1 h2 => hab (by
      have h3 : (o ω).d i = a := h1
      have h4 : (o ω).d i = b := h2
      exact_mod_cast h3.symm.trans h4)) fun k _ => hm (measurableSet_singleton _)
  rw [hun] at hsum
  have hs2 : ∑ k ∈ Finset.range (L.toNat + 1), P.real {ω | (o ω).d i = (k : ℕ)} = ∑ _k ∈ Finset.range (L.toNat + 1), 1 / (L : ℝ) :=
    Finset.sum_congr rfl fun k hk => hall k (by rw [Finset.mem_range] at hk; omega)
  rw [hs2, Finset.sum_const, Finset.card_range, nsmul_eq_mul] at hsum
  have hc : ((L.toNat + 1 : ℕ) : ℝ) = L + 1 := by
    have : ((L.toNat : ℤ) : ℝ) = (L : ℝ) := by rw [Int.toNat_of_nonneg (by omega)]
    rw [Nat.cast_add, Nat.cast_one, ← this, Int.cast_natCast]
  rw [hc, probReal_univ] at hsum
  have : (L : ℝ) ≠ 0 := by linarith
  field_simp at hsum
  linarith

/-! ## Regression discontinuity -/

/-- **C80.** `make_simple_rdd_data`: outcomes are the potential outcomes of the treatment received; in a sharp design the treatment is one exactly for scores at or
above the cutoff, in a fuzzy design each treatment is one with the probability of the design (over its uniform draw); and the difference of the
potential outcomes at score `s` is `tau - s² / 2 + a s ∑ x` plus the difference of the errors.  So `tau` is the effect at the cutoff if the
cutoff is zero. -/
theorem C80_rdd (fuzzy : Bool) (cutoff a tau : ℝ) (deg : ℕ) (score : Fin n → ℝ) (X : Fin n → Fin p → ℝ) (e0 e1 b : Fin n → ℝ) :
    ∃ o, makeRdd fuzzy cutoff a tau deg score X e0 e1 b = o ∧
      (∀ i, (o.d i = 1 ∧ o.y i = o.y1 i) ∨ (o.d i = 0 ∧ o.y i = o.y0 i)) ∧
      (fuzzy = false → ∀ i, o.d i = 1 ↔ cutoff ≤ score i) ∧
      (∀ i, ∫ b', (makeRdd fuzzy cutoff a tau deg score X e0 e1 (Function.update b i b')).d i ∂unif =
        if fuzzy then max 0 (min 1 ((if cutoff ≤ score i then 0.7 - 0.01 * score i ^ 2 else 0.3 + 0.01 * score i ^ 2) + 0.2 * rddCov deg (X i)))
        else if cutoff ≤ score i then 1 else 0) ∧
      (∀ i, o.y1 i - o.y0 i = tau - score i ^ 2 / 2 + a * score i * ∑ j, X i j + (e1 i - e0 i)) ∧
      ∀ i, score i = 0 → o.y1 i - o.y0 i = tau + (e1 i - e0 i) := by
  have hdiff : ∀ i, (makeRdd fuzzy cutoff a tau deg score X e0 e1 b).y1 i - (makeRdd fuzzy cutoff a tau deg score X e0 e1 b).y0 i =
      tau - score i ^ 2 / 2 + a * score i * ∑ j, X i j + (e1 i - e0 i) := fun i => by
    simp only [makeRdd, rddG1, rddG0]
    ring
  have hbin : ∀ i, (makeRdd fuzzy cutoff a tau deg score X e0 e1 b).d i = 0 ∨ (makeRdd fuzzy cutoff a tau deg score X e0 e1 b).d i = 1 := fun i => by
    simp only [makeRdd]
    split_ifs <;> simp
  have hy : ∀ i, (makeRdd fuzzy cutoff a tau deg score X e0 e1 b).y i = (makeRdd fuzzy cutoff a tau deg score X e0 e1 b).y0 i *
      (1 - (makeRdd fuzzy cutoff a tau deg score X e0 e1 b).d i) + (makeRdd fuzzy cutoff a tau deg score X e0 e1 b).y1 i *
      (makeRdd fuzzy cutoff a tau deg score X e0 e1 b).d i := fun i => rfl
  refine ⟨_, rfl, fun i => ?_, fun hf i => ?_, fun i => ?_, hdiff, fun i hs => ?_⟩
  · rw [hy]
    rcases hbin i with h | h
    · exact Or.inr ⟨h, by rw [h]; ring⟩
    · exact Or.inl ⟨h, by rw [h]; ring⟩
  · subst hf
    simp only [makeRdd]
    by_cases h : cutoff ≤ score i <;> simp [h]
  · have hd : ∀ b', (makeRdd fuzzy cutoff a tau deg score X e0 e1 (Function.update b i b')).d i =
        if fuzzy then (if b' < rddProb fuzzy cutoff deg (score i) (X i) then (1 : ℝ) else 0) else if cutoff ≤ score i then 1 else 0 := fun b' => by
      simp only [makeRdd, Function.update_self]
    simp only [hd]
    cases fuzzy with
    | false => simp [unif]
    | true =>
      simp only [if_true]
      have hm := npClip_mem (a := 0.3 + 0.4 * (if cutoff ≤ score i then (1 : ℝ) else 0) + 0.01 * score i ^ 2 -
        0.02 * score i ^ 2 * (if cutoff ≤ score i then 1 else 0) + 0.2 * rddCov deg (X i)) zero_le_one
      have hp : rddProb true cutoff deg (score i) (X i) = npClip (0.3 + 0.4 * (if cutoff ≤ score i then (1 : ℝ) else 0) + 0.01 * score i ^ 2 -
        0.02 * score i ^ 2 * (if cutoff ≤ score i then 1 else 0) + 0.2 * rddCov deg (X i)) 0 1 := rfl
      rw [← hp] at hm
      rw [unif_lt hm.1 hm.2, hp, npClip, max_comm, max_min_distrib_left, max_eq_right (zero_le_one (α := ℝ)), min_comm]
      congr 2
      split_ifs <;> ring
  · rw [hdiff, hs]
    ring

/-- **C80.** In a fuzzy design of `make_simple_rdd_data` the probability of treatment does not fall at the cutoff if the cutoff is at most
`√20` in absolute value, and it is constant there for covariates whose term is so large that both probabilities are set to one. -/
theorem C80_rdd_first_stage (cutoff : ℝ) (deg : ℕ) (x : Fin p → ℝ) :
    ∃ p0 p1 : ℝ, p1 = rddProb true cutoff deg cutoff x ∧
      Tendsto (fun s => rddProb true cutoff deg s x) (nhdsWithin cutoff (Set.Iio cutoff)) (nhds p0) ∧
      (cutoff ^ 2 ≤ 20 → p0 ≤ p1) ∧ (cutoff ^ 2 < 20 → 0 < 0.7 - 0.01 * cutoff ^ 2 + 0.2 * rddCov deg x →
        0.3 + 0.01 * cutoff ^ 2 + 0.2 * rddCov deg x < 1 → p0 < p1) ∧
      (3.5 ≤ rddCov deg x → cutoff ^ 2 ≤ 20 → p0 = p1) := by
  refine ⟨npClip (0.3 + 0.01 * cutoff ^ 2 + 0.2 * rddCov deg x) 0 1, _, rfl, ?_, ?_⟩
  · have hc : Continuous fun s : ℝ => npClip (0.3 + 0.01 * s ^ 2 + 0.2 * rddCov deg x) 0 1 := by
      unfold npClip
      fun_prop
    refine (hc.continuousAt.tendsto.mono_left nhdsWithin_le_nhds).congr' ?_
    filter_upwards [self_mem_nhdsWithin] with s hs
    have : ¬ cutoff ≤ s := not_le.2 hs
    simp only [rddProb, if_true, if_neg this]
    congr 1
    ring
  · have e : rddProb true cutoff deg cutoff x = npClip (0.7 - 0.01 * cutoff ^ 2 + 0.2 * rddCov deg x) 0 1 := by
      simp only [rddProb, if_true, le_refl]
      congr 1
      ring
    rw [e]
    generalize rddCov deg x = g
    unfold npClip
    refine ⟨fun h => min_le_min_right _ (max_le_max_right _ (by linarith)), fun h h0 h1 => ?_, fun h h' => ?_⟩
    · rw [max_eq_left h0.le, min_eq_left (max_le h1.le zero_le_one)]
      exact max_lt (lt_min (by linarith) h1) (lt_min h0 one_pos)
    · have := sq_nonneg cutoff
      rw [min_eq_right (le_max_of_le_left (by linarith)), min_eq_right (le_max_of_le_left (by linarith))]

end DML
