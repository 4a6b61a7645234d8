import Mathlib.Probability.CentralLimitTheorem
import Mathlib.Probability.StrongLaw
import Mathlib.Probability.Moments.Variance

/-!
# Convergence in probability, for the large sample properties

Nothing here models code of the package.  Sequences of (not necessarily measurable) functions that are negligible or
bounded in probability, the sum over a test set of a function fitted on a disjoint training set, and the central limit
theorem as convergence of distribution functions.
-/

namespace DML

open MeasureTheory ProbabilityTheory Filter Topology
open scoped ENNReal

section Calculus

variable {Ω : Type*} {mΩ : MeasurableSpace Ω} {P : Measure Ω}

/-- `X n` converges to zero in probability (outer probability, if `X n` is not measurable). -/
def oP (P : Measure Ω) (X : ℕ → Ω → ℝ) : Prop := ∀ ε : ℝ, 0 < ε → Tendsto (fun n => P {ω | ε ≤ |X n ω|}) atTop (𝓝 0)

/-- `X n` is bounded in probability. -/
def OP (P : Measure Ω) (X : ℕ → Ω → ℝ) : Prop :=
  ∀ η : ℝ≥0∞, 0 < η → ∃ M : ℝ, 0 < M ∧ ∀ᶠ n in atTop, P {ω | M ≤ |X n ω|} ≤ η

theorem oP_iff_tendsto {X : ℕ → Ω → ℝ} {c : ℝ} :
    oP P (fun n ω => X n ω - c) ↔ TendstoInMeasure P X atTop fun _ => c := by
  rw [tendstoInMeasure_iff_norm]
  rfl

theorem tendsto_zero_of_le {f g : ℕ → ℝ≥0∞} (h : ∀ᶠ n in atTop, f n ≤ g n) (hg : Tendsto g atTop (𝓝 0)) :
    Tendsto f atTop (𝓝 0) :=
  tendsto_of_tendsto_of_tendsto_of_le_of_le' tendsto_const_nhds hg (Eventually.of_forall fun _ => zero_le) h

theorem oP.mono {X Y : ℕ → Ω → ℝ} (h : oP P Y) (hle : ∀ᶠ n in atTop, ∀ ω, |X n ω| ≤ |Y n ω|) : oP P X := by
  intro ε hε
  refine tendsto_zero_of_le ?_ (h ε hε)
  filter_upwards [hle] with n hn
  exact measure_mono fun ω hω => le_trans hω (hn ω)

/-- Changing `X n` on events whose probability vanishes. -/
theorem oP.congr_on {X Y : ℕ → Ω → ℝ} {B : ℕ → Set Ω} (h : oP P Y) (hB : Tendsto (fun n => P (B n)) atTop (𝓝 0))
    (hle : ∀ᶠ n in atTop, ∀ ω, ω ∉ B n → |X n ω| ≤ |Y n ω|) : oP P X := by
  intro ε hε
  have h2 := (h ε hε).add hB
  rw [add_zero] at h2
  refine tendsto_zero_of_le ?_ h2
  filter_upwards [hle] with n hn
  refine (measure_mono ?_).trans (measure_union_le _ _)
  intro ω hω
  by_cases hb : ω ∈ B n
  · exact Or.inr hb
  · exact Or.inl (le_trans hω (hn ω hb))

theorem oP.add {X Y : ℕ → Ω → ℝ} (hX : oP P X) (hY : oP P Y) : oP P fun n ω => X n ω + Y n ω := by
  intro ε hε
  have h := (hX (ε / 2) (by linarith)).add (hY (ε / 2) (by linarith))
  rw [add_zero] at h
  refine tendsto_zero_of_le (Eventually.of_forall fun n => ?_) h
  refine (measure_mono ?_).trans (measure_union_le _ _)
  intro ω hω
  simp only [Set.mem_ofPred_eq, Set.mem_union] at hω ⊢
  by_contra hc
  push Not at hc
  have := abs_add_le (X n ω) (Y n ω)
  linarith

theorem oP.neg {X : ℕ → Ω → ℝ} (hX : oP P X) : oP P fun n ω => - X n ω :=
  hX.mono (Eventually.of_forall fun n ω => by rw [abs_neg])

theorem oP.sub {X Y : ℕ → Ω → ℝ} (hX : oP P X) (hY : oP P Y) : oP P fun n ω => X n ω - Y n ω := by
  simpa only [sub_eq_add_neg] using hX.add hY.neg

theorem oP_zero : oP P fun _ _ => (0 : ℝ) := by
  intro ε hε
  have : {ω : Ω | ε ≤ |(0 : ℝ)|} = ∅ := by ext ω; simp [hε]
  simp only [this, measure_empty, tendsto_const_nhds]

theorem oP.sum {ι : Type*} (s : Finset ι) {X : ι → ℕ → Ω → ℝ} (h : ∀ i ∈ s, oP P (X i)) :
    oP P fun n ω => ∑ i ∈ s, X i n ω := by
  classical
  induction s using Finset.induction_on with
  | empty => simpa using oP_zero
  | insert a s ha ih =>
    simp only [Finset.sum_insert ha]
    exact (h a (by simp)).add (ih fun i hi => h i (by simp [hi]))

theorem oP.const_mul {X : ℕ → Ω → ℝ} (hX : oP P X) (c : ℝ) : oP P fun n ω => c * X n ω := by
  intro ε hε
  by_cases hc : c = 0
  · subst hc
    have : ∀ n, {ω : Ω | ε ≤ |0 * X n ω|} = ∅ := fun n => by ext ω; simp [hε]
    simp only [this, measure_empty, tendsto_const_nhds]
  · refine (hX (ε / |c|) (by positivity)).congr fun n => ?_
    congr 1
    ext ω
    simp only [Set.mem_ofPred_eq, abs_mul]
    rw [div_le_iff₀ (by positivity), mul_comm]

theorem oP.bdd {X : ℕ → Ω → ℝ} (h : oP P X) : OP P X := fun _ hη =>
  ⟨1, one_pos, (h 1 one_pos).eventually (Iic_mem_nhds hη)⟩

theorem OP.mono {X Y : ℕ → Ω → ℝ} (h : OP P Y) (hle : ∀ᶠ n in atTop, ∀ ω, |X n ω| ≤ |Y n ω|) : OP P X := by
  intro η hη
  obtain ⟨M, hM, h⟩ := h η hη
  refine ⟨M, hM, ?_⟩
  filter_upwards [h, hle] with n hn h2
  exact (measure_mono fun ω hω => le_trans hω (h2 ω)).trans hn

theorem OP.add {X Y : ℕ → Ω → ℝ} (hX : OP P X) (hY : OP P Y) : OP P fun n ω => X n ω + Y n ω := by
  intro η hη
  have hη2 : 0 < η / 2 := ENNReal.div_pos hη.ne' (by simp)
  obtain ⟨M, hM, h1⟩ := hX (η / 2) hη2
  obtain ⟨N, hN, h2⟩ := hY (η / 2) hη2
  refine ⟨M + N, by positivity, ?_⟩
  filter_upwards [h1, h2] with n a b
  calc P {ω | M + N ≤ |X n ω + Y n ω|} ≤ P ({ω | M ≤ |X n ω|} ∪ {ω | N ≤ |Y n ω|}) := by
        refine measure_mono fun ω hω => ?_
        simp only [Set.mem_ofPred_eq, Set.mem_union] at hω ⊢
        by_contra hc
        push Not at hc
        have := abs_add_le (X n ω) (Y n ω)
        linarith
    _ ≤ _ := measure_union_le _ _
    _ ≤ η / 2 + η / 2 := add_le_add a b
    _ = η := ENNReal.add_halves η

theorem OP.mul {X Y : ℕ → Ω → ℝ} (hX : OP P X) (hY : OP P Y) : OP P fun n ω => X n ω * Y n ω := by
  intro η hη
  have hη2 : 0 < η / 2 := ENNReal.div_pos hη.ne' (by simp)
  obtain ⟨M, hM, h1⟩ := hX (η / 2) hη2
  obtain ⟨N, hN, h2⟩ := hY (η / 2) hη2
  refine ⟨M * N, by positivity, ?_⟩
  filter_upwards [h1, h2] with n a b
  calc P {ω | M * N ≤ |X n ω * Y n ω|} ≤ P ({ω | M ≤ |X n ω|} ∪ {ω | N ≤ |Y n ω|}) := by
        refine measure_mono fun ω hω => ?_
        simp only [Set.mem_ofPred_eq, Set.mem_union, abs_mul] at hω ⊢
        by_contra hc
        push Not at hc
        have := mul_lt_mul'' hc.1 hc.2 (abs_nonneg _) (abs_nonneg _)
        linarith
    _ ≤ _ := measure_union_le _ _
    _ ≤ η / 2 + η / 2 := add_le_add a b
    _ = η := ENNReal.add_halves η

/-- A negligible sequence times a bounded one is negligible. -/
theorem oP.mul_OP {X Y : ℕ → Ω → ℝ} (hX : oP P X) (hY : OP P Y) : oP P fun n ω => X n ω * Y n ω := by
  intro ε hε
  rw [ENNReal.tendsto_atTop_zero]
  intro η hη
  have hη2 : 0 < η / 2 := ENNReal.div_pos hη.ne' (by simp)
  obtain ⟨M, hM, h2⟩ := hY (η / 2) hη2
  have h1 := (hX (ε / M) (by positivity)).eventually (Iic_mem_nhds hη2)
  obtain ⟨n0, hn0⟩ := eventually_atTop.1 (h1.and h2)
  refine ⟨n0, fun n hn => ?_⟩
  obtain ⟨a, b⟩ := hn0 n hn
  calc P {ω | ε ≤ |X n ω * Y n ω|} ≤ P ({ω | ε / M ≤ |X n ω|} ∪ {ω | M ≤ |Y n ω|}) := by
        refine measure_mono fun ω hω => ?_
        simp only [Set.mem_ofPred_eq, Set.mem_union, abs_mul] at hω ⊢
        by_contra hc
        push Not at hc
        have := mul_lt_mul'' hc.1 hc.2 (abs_nonneg _) (abs_nonneg _)
        rw [div_mul_cancel₀ _ hM.ne'] at this
        linarith
    _ ≤ _ := measure_union_le _ _
    _ ≤ η / 2 + η / 2 := add_le_add a b
    _ = η := ENNReal.add_halves η

theorem OP.mul_oP {X Y : ℕ → Ω → ℝ} (hX : OP P X) (hY : oP P Y) : oP P fun n ω => X n ω * Y n ω := by
  simpa only [mul_comm] using hY.mul_OP hX

theorem OP_const (c : ℝ) : OP P fun _ _ => c := fun _ hη =>
  ⟨|c| + 1, by positivity, Eventually.of_forall fun n => by
    have : {ω : Ω | |c| + 1 ≤ |c|} = ∅ := by ext ω; simp
    rw [this]; simp⟩

theorem OP_of_sub {X : ℕ → Ω → ℝ} {c : ℝ} (h : oP P fun n ω => X n ω - c) : OP P X := by
  have := h.bdd.add (OP_const (P := P) c)
  simpa using this

/-- Continuous mapping at a constant. -/
theorem oP.continuousAt {X : ℕ → Ω → ℝ} {c : ℝ} {f : ℝ → ℝ} (hf : ContinuousAt f c) (h : oP P fun n ω => X n ω - c) :
    oP P fun n ω => f (X n ω) - f c := by
  intro ε hε
  obtain ⟨δ, hδ, hd⟩ := Metric.continuousAt_iff.1 hf ε hε
  refine tendsto_zero_of_le (Eventually.of_forall fun n => measure_mono fun ω hω => ?_) (h δ hδ)
  simp only [Set.mem_ofPred_eq] at hω ⊢
  by_contra hc
  push Not at hc
  have := hd (x := X n ω) (by rw [Real.dist_eq]; exact hc)
  rw [Real.dist_eq] at this
  linarith

theorem oP.sq {X : ℕ → Ω → ℝ} (h : oP P X) : oP P fun n ω => X n ω ^ 2 := by
  simpa only [pow_two] using h.mul_OP h.bdd

theorem oP.sqrt {X : ℕ → Ω → ℝ} (h : oP P X) : oP P fun n ω => Real.sqrt (X n ω) := by
  have h0 : oP P fun n ω => X n ω - 0 := by simpa using h
  simpa using h0.continuousAt (f := Real.sqrt) (Real.continuous_sqrt.continuousAt)

theorem oP.of_sq {X : ℕ → Ω → ℝ} (h : oP P fun n ω => X n ω ^ 2) : oP P X :=
  h.sqrt.mono (Eventually.of_forall fun n ω => by rw [Real.sqrt_sq_eq_abs, abs_abs])

theorem oP.of_abs {X : ℕ → Ω → ℝ} (h : oP P fun n ω => |X n ω|) : oP P X :=
  h.mono (Eventually.of_forall fun n ω => by rw [abs_abs])

theorem oP.of_tendsto {c : ℕ → ℝ} (h : Tendsto c atTop (𝓝 0)) :
    oP P fun n _ => c n := by
  intro ε hε
  have hev : ∀ᶠ n in atTop, |c n| < ε := by
    have := h.abs
    rw [abs_zero] at this
    exact this.eventually (Iio_mem_nhds hε)
  refine tendsto_const_nhds.congr' ?_
  filter_upwards [hev] with n hn
  have : {ω : Ω | ε ≤ |c n|} = ∅ := by ext ω; simp [hn]
  rw [this]; simp

/-- The product of two sequences which converge to constants. -/
theorem oP.mul_sub {X Y : ℕ → Ω → ℝ} {a b : ℝ} (hX : oP P fun n ω => X n ω - a) (hY : oP P fun n ω => Y n ω - b) :
    oP P fun n ω => X n ω * Y n ω - a * b := by
  have h := (hX.mul_OP (OP_of_sub hY)).add (hY.const_mul a)
  refine h.mono (Eventually.of_forall fun n ω => le_of_eq ?_)
  congr 1
  ring

end Calculus

/-! ## Sums over a test set of a function fitted on the training set -/

section TestSet

variable {Ω : Type*} {mΩ : MeasurableSpace Ω} {P : Measure Ω} {S : Type*} [MeasurableSpace S]

/-- Independent observations with the same law. -/
structure Iid (P : Measure Ω) (W : ℕ → Ω → S) : Prop where
  meas : ∀ i, Measurable (W i)
  indep : iIndepFun W P
  law : ∀ i, P.map (W i) = P.map (W 0)

/-- The first `n` observations. -/
def sample (W : ℕ → Ω → S) (n : ℕ) (ω : Ω) (i : Fin n) : S := W i ω

/-- A function of the sample that depends on the observations in `J` only. -/
def Uses {n : ℕ} {β : Type*} (g : (Fin n → S) → β) (J : Finset (Fin n)) : Prop :=
  ∀ t t', (∀ j ∈ J, t j = t' j) → g t = g t'

variable {W : ℕ → Ω → S}

theorem Iid.prob (h : Iid P W) [IsProbabilityMeasure P] (i : ℕ) : IsProbabilityMeasure (P.map (W i)) :=
  Measure.isProbabilityMeasure_map (h.meas i).aemeasurable

theorem Iid.ident (h : Iid P W) (i : ℕ) : IdentDistrib (W i) (W 0) P P :=
  ⟨(h.meas i).aemeasurable, (h.meas 0).aemeasurable, h.law i⟩

/-- Independent observations, not necessarily with the same law. -/
structure IndepObs {n : ℕ} (P : Measure Ω) (V : Fin n → Ω → S) : Prop where
  meas : ∀ i, Measurable (V i)
  indep : iIndepFun V P

theorem Iid.obs (h : Iid P W) (n : ℕ) : IndepObs P fun i : Fin n => W i :=
  ⟨fun i => h.meas i, h.indep.precomp Fin.val_injective⟩

/-- Conditioning on the training set: if, whenever the training set is good, an event about the test set has probability
at most `c`, then its probability is at most `c` plus the probability of a bad training set. -/
theorem IndepObs.split {n : ℕ} {V : Fin n → Ω → S} (hV : IndepObs P V) [IsProbabilityMeasure P] {I J : Finset (Fin n)} (hIJ : Disjoint J I)
    {A : Set ((J → S) × (I → S))} (hA : MeasurableSet A) {good : (J → S) → Prop} (hgood : MeasurableSet {s | good s})
    {c : ℝ≥0∞} (hc : ∀ s, good s → P {ω | (s, fun i : I => V i ω) ∈ A} ≤ c) :
    P {ω | ((fun j : J => V j ω), fun i : I => V i ω) ∈ A} ≤ P {ω | ¬ good fun j : J => V j ω} + c := by
  have hT : Measurable fun ω (j : J) => V j ω := measurable_pi_lambda _ fun j => hV.meas _
  have hU : Measurable fun ω (i : I) => V i ω := measurable_pi_lambda _ fun j => hV.meas _
  have hind : IndepFun (fun ω (j : J) => V j ω) (fun ω (i : I) => V i ω) P :=
    hV.indep.indepFun_finset J I hIJ fun i => hV.meas _
  have hprod := (indepFun_iff_map_prod_eq_prod_map_map hT.aemeasurable hU.aemeasurable).1 hind
  have : IsProbabilityMeasure (P.map fun ω (i : I) => V i ω) := Measure.isProbabilityMeasure_map hU.aemeasurable
  have : IsProbabilityMeasure (P.map fun ω (i : J) => V i ω) := Measure.isProbabilityMeasure_map hT.aemeasurable
  have h1 : P {ω | ((fun j : J => V j ω), fun i : I => V i ω) ∈ A} =
      ∫⁻ s, (P.map fun ω (i : I) => V i ω) (Prod.mk s ⁻¹' A) ∂(P.map fun ω (j : J) => V j ω) := by
    rw [← Measure.prod_apply hA, ← hprod, Measure.map_apply (hT.prodMk hU) hA]
    rfl
  rw [h1]
  calc ∫⁻ s, (P.map fun ω (i : I) => V i ω) (Prod.mk s ⁻¹' A) ∂(P.map fun ω (j : J) => V j ω)
      ≤ ∫⁻ s, ({s | good s}ᶜ.indicator (fun _ => 1) s + c) ∂(P.map fun ω (j : J) => V j ω) := by
        refine lintegral_mono fun s => ?_
        by_cases hs : good s
        · refine le_trans ?_ le_add_self
          rw [Measure.map_apply hU (measurable_prodMk_left hA)]
          exact hc s hs
        · refine le_trans prob_le_one (le_trans (le_of_eq ?_) le_self_add)
          rw [Set.indicator_of_mem (by simpa using hs)]
    _ = _ := by
        rw [lintegral_add_right _ measurable_const, lintegral_indicator_const hgood.compl, lintegral_const,
          measure_univ, one_mul, mul_one, Measure.map_apply hT hgood.compl]
        rfl

/-- A function of the sample that uses only `J`, as a function of the observations in `J`. -/
def extend {n : ℕ} (J : Finset (Fin n)) (w0 : S) (s : J → S) (j : Fin n) : S := if h : j ∈ J then s ⟨j, h⟩ else w0

theorem measurable_extend {n : ℕ} (J : Finset (Fin n)) (w0 : S) : Measurable (extend J w0) := by
  refine measurable_pi_lambda _ fun j => ?_
  unfold extend
  by_cases h : j ∈ J
  · simp only [h, dif_pos]
    exact measurable_pi_apply _
  · simp only [h, dif_neg, not_false_iff]
    exact measurable_const

omit [MeasurableSpace S] in
theorem Uses.extend_eq {n : ℕ} {β : Type*} {g : (Fin n → S) → β} {J : Finset (Fin n)} (h : Uses g J) (w0 : S) (t : Fin n → S) :
    g (extend J w0 fun j => t j) = g t := by
  refine h _ _ fun j hj => ?_
  simp [extend, hj]

theorem Iid.nonempty (_ : Iid P W) [IsProbabilityMeasure P] : Nonempty S := by
  obtain ⟨ω⟩ : Nonempty Ω := P.nonempty_of_neZero
  exact ⟨W 0 ω⟩

/-- The mean squared size of a fitted function on a new observation. -/
noncomputable def risk (μ : Measure S) (g : S → ℝ) : ℝ≥0∞ := ∫⁻ w, ‖g w‖ₑ ^ 2 ∂μ

theorem memLp_of_risk {μ : Measure S} {g : S → ℝ} (hg : Measurable g) (h : risk μ g ≠ ∞) : MemLp g 2 μ := by
  refine ⟨hg.aestronglyMeasurable, ?_⟩
  rw [eLpNorm_lt_top_iff_lintegral_rpow_enorm_lt_top (by simp) (by simp)]
  have h2 : ∀ w, ‖g w‖ₑ ^ (ENNReal.toReal 2) = ‖g w‖ₑ ^ 2 := fun w => by
    rw [show ENNReal.toReal 2 = ((2 : ℕ) : ℝ) by simp, ENNReal.rpow_natCast]
  simp only [h2]
  exact lt_top_iff_ne_top.2 h

theorem ofReal_sq_eq (x : ℝ) : ENNReal.ofReal (x ^ 2) = ‖x‖ₑ ^ 2 := by
  rw [← sq_abs, ENNReal.ofReal_pow (abs_nonneg _), Real.enorm_eq_ofReal_abs]

theorem integral_sq_le {μ : Measure S} {g : S → ℝ} (hg : Measurable g) : ENNReal.ofReal (∫ w, g w ^ 2 ∂μ) ≤ risk μ g := by
  by_cases h : risk μ g = ∞
  · rw [h]; exact le_top
  · have hi : Integrable (fun w => g w ^ 2) μ := (memLp_of_risk hg h).integrable_sq
    rw [ofReal_integral_eq_lintegral_ofReal hi (ae_of_all _ fun w => sq_nonneg _)]
    unfold risk
    simp only [ofReal_sq_eq, le_refl]

variable {n : ℕ}

theorem measurable_risk {μ : Measure S} [SFinite μ] {β : Type*} [MeasurableSpace β] {g : β → S → ℝ}
    (hg : Measurable (Function.uncurry g)) : Measurable fun t => risk μ (g t) := by
  unfold risk
  exact Measurable.lintegral_prod_right' (f := fun p : β × S => ‖g p.1 p.2‖ₑ ^ 2) (hg.enorm.pow_const 2)

/-- Chebyshev's inequality for a fixed function. -/
theorem IndepObs.chebyshev {V : Fin n → Ω → S} (hV : IndepObs P V) [IsProbabilityMeasure P] (I : Finset (Fin n)) {h : S → ℝ}
    (hh : Measurable h) {δ : ℝ≥0∞} (hδ : δ ≠ ∞) (hr : ∀ i ∈ I, risk (P.map (V i)) h ≤ δ) {ε : ℝ} (hε : 0 < ε) :
    P {ω | ε ≤ |∑ i ∈ I, (h (V i ω) - ∫ w, h w ∂(P.map (V i)))|} ≤ I.card * δ / ENNReal.ofReal (ε ^ 2) := by
  have hLi : ∀ i ∈ I, MemLp (fun ω => h (V i ω)) 2 P := fun i hi =>
    (memLp_of_risk hh (ne_top_of_le_ne_top hδ (hr i hi))).comp_of_map (hV.meas i).aemeasurable
  have hE : ∀ i, ∫ ω, h (V i ω) ∂P = ∫ w, h w ∂(P.map (V i)) := fun i => by
    rw [integral_map (hV.meas i).aemeasurable hh.aestronglyMeasurable]
  have hS : MemLp (fun ω => ∑ i ∈ I, h (V i ω)) 2 P := memLp_finsetSum I hLi
  have hES : ∫ ω, ∑ i ∈ I, h (V i ω) ∂P = ∑ i ∈ I, ∫ w, h w ∂(P.map (V i)) := by
    rw [integral_finsetSum I fun i hi => (hLi i hi).integrable (by norm_num)]
    exact Finset.sum_congr rfl fun i _ => hE i
  have hV2 : Var[fun ω => ∑ i ∈ I, h (V i ω); P] ≤ ∑ i ∈ I, ∫ w, h w ^ 2 ∂(P.map (V i)) := by
    have h1 : Var[∑ i ∈ I, fun ω => h (V i ω); P] = ∑ i ∈ I, Var[fun ω => h (V i ω); P] := by
      refine IndepFun.variance_sum (fun i hi => hLi i hi) fun i _ j _ hij => ?_
      exact (hV.indep.indepFun hij).comp hh hh
    have h2 : (fun ω => ∑ i ∈ I, h (V i ω)) = ∑ i ∈ I, fun ω => h (V i ω) := by
      funext ω; simp
    rw [h2, h1]
    refine Finset.sum_le_sum fun i hi => ?_
    refine (variance_le_expectation_sq ((hLi i hi).1)).trans (le_of_eq ?_)
    rw [integral_map (hV.meas i).aemeasurable (hh.pow_const 2).aestronglyMeasurable]
    rfl
  have hset : {ω | ε ≤ |∑ i ∈ I, (h (V i ω) - ∫ w, h w ∂(P.map (V i)))|} =
      {ω | ε ≤ |(∑ i ∈ I, h (V i ω)) - ∫ ω, ∑ i ∈ I, h (V i ω) ∂P|} := by
    ext ω
    rw [Set.mem_ofPred_eq, Set.mem_ofPred_eq, hES, Finset.sum_sub_distrib]
  rw [hset]
  refine (meas_ge_le_variance_div_sq hS hε).trans ?_
  rw [ENNReal.ofReal_div_of_pos (by positivity)]
  gcongr
  calc ENNReal.ofReal (Var[fun ω => ∑ i ∈ I, h (V i ω); P])
      ≤ ENNReal.ofReal (∑ i ∈ I, ∫ w, h w ^ 2 ∂(P.map (V i))) := ENNReal.ofReal_le_ofReal hV2
    _ = ∑ i ∈ I, ENNReal.ofReal (∫ w, h w ^ 2 ∂(P.map (V i))) :=
        ENNReal.ofReal_sum_of_nonneg fun i _ => integral_nonneg fun w => sq_nonneg _
    _ ≤ ∑ _i ∈ I, δ := Finset.sum_le_sum fun i hi => (integral_sq_le hh).trans (hr i hi)
    _ = I.card * δ := by rw [Finset.sum_const, nsmul_eq_mul]

theorem Iid.chebyshev (hW : Iid P W) [IsProbabilityMeasure P] (I : Finset (Fin n)) {h : S → ℝ} (hh : Measurable h)
    {δ : ℝ≥0∞} (hδ : δ ≠ ∞) (hr : risk (P.map (W 0)) h ≤ δ) {ε : ℝ} (hε : 0 < ε) :
    P {ω | ε ≤ |∑ i ∈ I, (h (W i ω) - ∫ w, h w ∂(P.map (W 0)))|} ≤ I.card * δ / ENNReal.ofReal (ε ^ 2) := by
  have h1 := (hW.obs n).chebyshev I hh hδ (fun i _ => by rw [hW.law]; exact hr) hε
  simp only [hW.law _] at h1
  exact h1

/-- Markov's inequality for a fixed function. -/
theorem IndepObs.markov {V : Fin n → Ω → S} (hV : IndepObs P V) (I : Finset (Fin n)) {h : S → ℝ} (hh : Measurable h)
    {δ : ℝ≥0∞} (hr : ∀ i ∈ I, risk (P.map (V i)) h ≤ δ) {ε : ℝ} (hε : 0 < ε) :
    P {ω | ε ≤ ∑ i ∈ I, h (V i ω) ^ 2} ≤ I.card * δ / ENNReal.ofReal ε := by
  have hset : {ω | ε ≤ ∑ i ∈ I, h (V i ω) ^ 2} ⊆ {ω | ENNReal.ofReal ε ≤ ∑ i ∈ I, ‖h (V i ω)‖ₑ ^ 2} := by
    intro ω hω
    rw [Set.mem_ofPred_eq] at hω ⊢
    refine (ENNReal.ofReal_le_ofReal hω).trans (le_of_eq ?_)
    rw [ENNReal.ofReal_sum_of_nonneg fun i _ => sq_nonneg _]
    exact Finset.sum_congr rfl fun i _ => ofReal_sq_eq _
  have hm : Measurable fun ω => ∑ i ∈ I, ‖h (V i ω)‖ₑ ^ 2 :=
    Finset.measurable_fun_sum _ fun i _ => ((hh.comp (hV.meas i)).enorm.pow_const 2)
  refine (measure_mono hset).trans ((meas_ge_le_lintegral_div hm.aemeasurable (by simpa using hε) (by simp)).trans ?_)
  gcongr
  have hmi : ∀ i : Fin n, Measurable fun ω => ‖h (V i ω)‖ₑ ^ 2 := fun i => (hh.comp (hV.meas i)).enorm.pow_const 2
  rw [lintegral_finsetSum _ fun (i : Fin n) _ => hmi i]
  calc ∑ i ∈ I, ∫⁻ ω, ‖h (V i ω)‖ₑ ^ 2 ∂P = ∑ i ∈ I, risk (P.map (V i)) h := by
        refine Finset.sum_congr rfl fun i _ => ?_
        unfold risk
        rw [lintegral_map (hh.enorm.pow_const 2) (hV.meas i)]
    _ ≤ ∑ _i ∈ I, δ := Finset.sum_le_sum hr
    _ = I.card * δ := by rw [Finset.sum_const, nsmul_eq_mul]

/-- The centred sum over the test set of a function fitted on the training set.  The laws of the observations in the test
set are dominated by a reference law, as far as risks are concerned. -/
theorem IndepObs.test_centred {V : Fin n → Ω → S} (hV : IndepObs P V) [IsProbabilityMeasure P] {μ : Measure S} [SFinite μ]
    {C : ℝ≥0∞} (hC : C ≠ ∞) {I J : Finset (Fin n)} (hIJ : Disjoint J I)
    (hdom : ∀ i ∈ I, ∀ h : S → ℝ, Measurable h → risk (P.map (V i)) h ≤ C * risk μ h)
    {g : (Fin n → S) → S → ℝ} (hg : Measurable (Function.uncurry g)) (hu : Uses g J) {δ : ℝ≥0∞} (hδ : δ ≠ ∞) {ε : ℝ}
    (hε : 0 < ε) :
    P {ω | ε ≤ |∑ i ∈ I, (g (fun j => V j ω) (V i ω) - ∫ w, g (fun j => V j ω) w ∂(P.map (V i)))|} ≤
      P {ω | δ < risk μ (g fun j => V j ω)} + I.card * (C * δ) / ENNReal.ofReal (ε ^ 2) := by
  rcases isEmpty_or_nonempty S with hS | ⟨⟨w0⟩⟩
  · obtain ⟨ω⟩ : Nonempty Ω := P.nonempty_of_neZero
    have hI : I = ∅ := Finset.eq_empty_of_forall_notMem fun i _ => hS.elim (V i ω)
    subst hI
    have : {ω | ε ≤ |∑ i ∈ (∅ : Finset (Fin n)), (g (fun j => V j ω) (V i ω) - ∫ w, g (fun j => V j ω) w ∂(P.map (V i)))|} = ∅ := by
      ext ω; simp [hε]
    rw [this]; simp
  have : ∀ i, IsProbabilityMeasure (P.map (V i)) := fun i => Measure.isProbabilityMeasure_map (hV.meas i).aemeasurable
  have hG : Measurable (Function.uncurry fun s : J → S => g (extend J w0 s)) :=
    hg.comp (((measurable_extend J w0).comp measurable_fst).prodMk measurable_snd)
  have he : ∀ ω, g (extend J w0 fun j : J => V j ω) = g fun j => V j ω := fun ω => hu.extend_eq w0 fun j => V j ω
  have hmean : ∀ i, Measurable fun s : J → S => ∫ w, g (extend J w0 s) w ∂(P.map (V i)) := fun i =>
    (hG.stronglyMeasurable.integral_prod_right).measurable
  have hA : MeasurableSet {p : (J → S) × (I → S) |
      ε ≤ |∑ i : I, (g (extend J w0 p.1) (p.2 i) - ∫ w, g (extend J w0 p.1) w ∂(P.map (V i)))|} := by
    refine measurableSet_le measurable_const (Measurable.abs ?_)
    refine Finset.measurable_fun_sum _ fun i _ => Measurable.sub ?_ ((hmean i).comp measurable_fst)
    exact hG.comp (measurable_fst.prodMk ((measurable_pi_apply i).comp measurable_snd))
  have hgood : MeasurableSet {s : J → S | risk μ (g (extend J w0 s)) ≤ δ} :=
    measurableSet_le (measurable_risk hG) measurable_const
  have h := hV.split hIJ hA (good := fun s => risk μ (g (extend J w0 s)) ≤ δ) hgood
    (c := I.card * (C * δ) / ENNReal.ofReal (ε ^ 2)) ?_
  · refine le_trans (le_of_eq ?_) (h.trans (le_of_eq ?_))
    · congr 1
      ext ω
      rw [Set.mem_ofPred_eq, Set.mem_ofPred_eq, Set.mem_ofPred_eq, he ω, ← Finset.sum_coe_sort I]
    · congr 2
      ext ω
      rw [Set.mem_ofPred_eq, Set.mem_ofPred_eq, he ω, not_le]
  · intro s hs
    refine le_trans (le_of_eq ?_) (hV.chebyshev I (hG.comp measurable_prodMk_left) (ENNReal.mul_ne_top hC hδ)
      (fun i hi => (hdom i hi _ (hG.comp measurable_prodMk_left)).trans (mul_le_mul_right hs C)) hε)
    congr 1
    ext ω
    rw [Set.mem_ofPred_eq, Set.mem_ofPred_eq, Set.mem_ofPred_eq, ← Finset.sum_coe_sort I]
    rfl

/-- The sum of squares over the test set of a function fitted on the training set. -/
theorem IndepObs.test_squares {V : Fin n → Ω → S} (hV : IndepObs P V) [IsProbabilityMeasure P] {μ : Measure S} [SFinite μ]
    {C : ℝ≥0∞} {I J : Finset (Fin n)} (hIJ : Disjoint J I)
    (hdom : ∀ i ∈ I, ∀ h : S → ℝ, Measurable h → risk (P.map (V i)) h ≤ C * risk μ h)
    {g : (Fin n → S) → S → ℝ} (hg : Measurable (Function.uncurry g)) (hu : Uses g J) {δ : ℝ≥0∞} {ε : ℝ} (hε : 0 < ε) :
    P {ω | ε ≤ ∑ i ∈ I, g (fun j => V j ω) (V i ω) ^ 2} ≤
      P {ω | δ < risk μ (g fun j => V j ω)} + I.card * (C * δ) / ENNReal.ofReal ε := by
  rcases isEmpty_or_nonempty S with hS | ⟨⟨w0⟩⟩
  · obtain ⟨ω⟩ : Nonempty Ω := P.nonempty_of_neZero
    have hI : I = ∅ := Finset.eq_empty_of_forall_notMem fun i _ => hS.elim (V i ω)
    subst hI
    have : {ω | ε ≤ ∑ i ∈ (∅ : Finset (Fin n)), g (fun j => V j ω) (V i ω) ^ 2} = ∅ := by
      ext ω; simp [hε]
    rw [this]; simp
  have hG : Measurable (Function.uncurry fun s : J → S => g (extend J w0 s)) :=
    hg.comp (((measurable_extend J w0).comp measurable_fst).prodMk measurable_snd)
  have he : ∀ ω, g (extend J w0 fun j : J => V j ω) = g fun j => V j ω := fun ω => hu.extend_eq w0 fun j => V j ω
  have hA : MeasurableSet {p : (J → S) × (I → S) | ε ≤ ∑ i : I, g (extend J w0 p.1) (p.2 i) ^ 2} := by
    refine measurableSet_le measurable_const ?_
    refine Finset.measurable_fun_sum _ fun i _ => Measurable.pow_const ?_ 2
    exact hG.comp (measurable_fst.prodMk ((measurable_pi_apply i).comp measurable_snd))
  have hgood : MeasurableSet {s : J → S | risk μ (g (extend J w0 s)) ≤ δ} :=
    measurableSet_le (measurable_risk hG) measurable_const
  have h := hV.split hIJ hA (good := fun s => risk μ (g (extend J w0 s)) ≤ δ) hgood
    (c := I.card * (C * δ) / ENNReal.ofReal ε) ?_
  · refine le_trans (le_of_eq ?_) (h.trans (le_of_eq ?_))
    · congr 1
      ext ω
      rw [Set.mem_ofPred_eq, Set.mem_ofPred_eq, Set.mem_ofPred_eq, he ω, ← Finset.sum_coe_sort I]
    · congr 2
      ext ω
      rw [Set.mem_ofPred_eq, Set.mem_ofPred_eq, he ω, not_le]
  · intro s hs
    refine le_trans (le_of_eq ?_) (hV.markov I (hG.comp measurable_prodMk_left)
      (fun i hi => (hdom i hi _ (hG.comp measurable_prodMk_left)).trans (mul_le_mul_right hs C)) hε)
    congr 1
    ext ω
    rw [Set.mem_ofPred_eq, Set.mem_ofPred_eq, Set.mem_ofPred_eq, ← Finset.sum_coe_sort I]
    rfl

/-! ## Cross-fitting -/

/-- A cross-fitting scheme for `n` observations with `K` folds: the fold of every observation, and the training sets,
which do not contain observations of their own fold. -/
structure Scheme (K n : ℕ) where
  fold : Fin n → Fin K
  train : Fin K → Finset (Fin n)
  sep : ∀ i, i ∉ train (fold i)

/-- The test set of fold `k`. -/
def Scheme.test {K : ℕ} (c : Scheme K n) (k : Fin K) : Finset (Fin n) := Finset.univ.filter fun i => c.fold i = k

theorem Scheme.disjoint {K : ℕ} (c : Scheme K n) (k : Fin K) : Disjoint (c.train k) (c.test k) := by
  rw [Finset.disjoint_left]
  intro i hi hk
  rw [Scheme.test, Finset.mem_filter] at hk
  exact c.sep i (hk.2 ▸ hi)

theorem Scheme.sum_test {K : ℕ} (c : Scheme K n) (f : Fin K → Fin n → ℝ) :
    ∑ i, f (c.fold i) i = ∑ k, ∑ i ∈ c.test k, f k i := by
  rw [← Finset.sum_fiberwise_of_maps_to (s := Finset.univ) (t := Finset.univ) (g := c.fold) fun _ _ => Finset.mem_univ _]
  refine Finset.sum_congr rfl fun k _ => Finset.sum_congr rfl fun i hi => ?_
  rw [(Finset.mem_filter.1 hi).2]

theorem Scheme.card_test {K : ℕ} (c : Scheme K n) (k : Fin K) : ((c.test k).card : ℝ) ≤ n := by
  have := Finset.card_le_univ (c.test k)
  rw [Fintype.card_fin] at this
  exact_mod_cast this

/-- A sequence of numbers in `[0, ∞]` converges to zero in probability. -/
def oPE (P : Measure Ω) (R : ℕ → Ω → ℝ≥0∞) : Prop := ∀ δ : ℝ≥0∞, 0 < δ → Tendsto (fun n => P {ω | δ < R n ω}) atTop (𝓝 0)

/-- A bound that consists of a vanishing part and an arbitrarily small part. -/
theorem tendsto_zero_of_split {p : ℕ → ℝ≥0∞} (h : ∀ η : ℝ≥0∞, 0 < η → ∃ q : ℕ → ℝ≥0∞, Tendsto q atTop (𝓝 0) ∧
    ∀ᶠ n in atTop, p n ≤ q n + η) : Tendsto p atTop (𝓝 0) := by
  rw [ENNReal.tendsto_atTop_zero]
  intro η hη
  obtain ⟨q, hq, hp⟩ := h (η / 2) (ENNReal.div_pos hη.ne' (by simp))
  have h2 := hq.eventually (Iic_mem_nhds (ENNReal.div_pos hη.ne' (by simp : (2 : ℝ≥0∞) ≠ ∞)))
  obtain ⟨n0, hn0⟩ := eventually_atTop.1 (hp.and h2)
  refine ⟨n0, fun n hn => (hn0 n hn).1.trans ?_⟩
  calc q n + η / 2 ≤ η / 2 + η / 2 := add_le_add (hn0 n hn).2 le_rfl
    _ = η := ENNReal.add_halves η

end TestSet

end DML
