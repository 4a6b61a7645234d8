import Verif.Limit
import Verif.Stats

/-!
# Large samples: cross-fitting with stratified splits

Nothing here models code of the package.  The splits of some models are drawn within strata, which are given by the
treatment (and the time period): the folds then depend on the strata of the observations.  Conditionally on all strata the
observations are independent, and the fitted functions of a fold and the observations of the fold are independent.
-/

namespace DML

open MeasureTheory ProbabilityTheory Filter Topology
open scoped ENNReal

variable {Ω : Type*} {mΩ : MeasurableSpace Ω} {P : Measure Ω} {S : Type*} [MeasurableSpace S] {W : ℕ → Ω → S}

theorem Iid.lln (hW : Iid P W) [IsProbabilityMeasure P] {f : S → ℝ} (hf : Measurable f) (hi : Integrable f (P.map (W 0))) :
    oP P fun n ω => mean (fun i : Fin n => f (W i ω)) - ∫ w, f w ∂(P.map (W 0)) := by
  have hint : Integrable (fun ω => f (W 0 ω)) P := hi.comp_measurable (hW.meas 0)
  have h := strong_law_ae_real (fun i ω => f (W i ω)) hint
    (fun i j hij => (hW.indep.indepFun hij).comp hf hf) fun i => (hW.ident i).comp hf
  rw [oP_iff_tendsto]
  refine tendstoInMeasure_of_tendsto_ae (fun n => ?_) ?_
  · have hm : Measurable fun ω => mean fun i : Fin n => f (W i ω) := by
      unfold mean
      exact (Finset.measurable_fun_sum Finset.univ fun (i : Fin n) _ => hf.comp (hW.meas i)).div_const _
    exact hm.aestronglyMeasurable
  · filter_upwards [h] with ω hω
    rw [integral_map (hW.meas 0).aemeasurable hf.aestronglyMeasurable]
    refine hω.congr fun n => ?_
    unfold mean
    rw [Finset.sum_range]

theorem risk_ne_top {μ : Measure S} {f : S → ℝ} (h2 : MemLp f 2 μ) : risk μ f ≠ ∞ := by
  have h := h2.eLpNorm_lt_top
  rw [eLpNorm_lt_top_iff_lintegral_rpow_enorm_lt_top (by simp) (by simp)] at h
  have h2 : ∀ w, ‖f w‖ₑ ^ (ENNReal.toReal 2) = ‖f w‖ₑ ^ 2 := fun w => by
    rw [show ENNReal.toReal 2 = ((2 : ℕ) : ℝ) by simp, ENNReal.rpow_natCast]
  simp only [h2] at h
  exact h.ne

theorem Iid.root_bdd (hW : Iid P W) [IsProbabilityMeasure P] {f : S → ℝ} (hf : Measurable f)
    (h2 : MemLp f 2 (P.map (W 0))) (h0 : ∫ w, f w ∂(P.map (W 0)) = 0) :
    OP P fun n ω => (∑ i : Fin n, f (W i ω)) / Real.sqrt n := by
  have hr : risk (P.map (W 0)) f ≠ ∞ := risk_ne_top h2
  intro η hη
  obtain ⟨M, hM, hMη⟩ : ∃ M : ℝ, 0 < M ∧ risk (P.map (W 0)) f / ENNReal.ofReal (M ^ 2) ≤ η := by
    have ht : Tendsto (fun M : ℝ => risk (P.map (W 0)) f / ENNReal.ofReal (M ^ 2)) atTop (𝓝 0) := by
      have h1 : Tendsto (fun M : ℝ => ENNReal.ofReal (M ^ 2)) atTop (𝓝 ∞) :=
        ENNReal.tendsto_ofReal_atTop.comp (tendsto_pow_atTop (by norm_num))
      have h2 := ENNReal.Tendsto.const_div h1 (a := risk (P.map (W 0)) f) (Or.inr hr)
      simpa using h2
    obtain ⟨M, h1, h2⟩ := ((ht.eventually (Iic_mem_nhds hη)).and (eventually_gt_atTop 0)).exists
    exact ⟨M, h2, h1⟩
  refine ⟨M, hM, ?_⟩
  filter_upwards [eventually_gt_atTop 0] with n hn
  have hn' : (0 : ℝ) < n := by exact_mod_cast hn
  have h := hW.chebyshev (Finset.univ : Finset (Fin n)) hf hr le_rfl (ε := M * Real.sqrt n) (by positivity)
  refine le_trans (measure_mono fun ω hω => ?_) (h.trans ?_)
  · rw [Set.mem_ofPred_eq, abs_div, abs_of_nonneg (Real.sqrt_nonneg _), le_div_iff₀ (by positivity)] at hω
    rw [Set.mem_ofPred_eq, h0]
    simpa using hω
  · refine le_trans (le_of_eq ?_) hMη
    rw [Finset.card_univ, Fintype.card_fin, mul_pow, Real.sq_sqrt hn'.le, ENNReal.ofReal_mul (by positivity),
      ENNReal.ofReal_natCast, mul_comm (ENNReal.ofReal _), ENNReal.mul_div_mul_left _ _ (by simpa using hn.ne') (by simp)]

section Strata

variable {s n : ℕ} {St : S → Fin s}

/-- The strata of the observations. -/
def strataOf (St : S → Fin s) (t : Fin n → S) (i : Fin n) : Fin s := St (t i)

/-- A function of the sample that depends on the strata of all observations and otherwise only on the observations in
`J`. -/
def UsesGiven {β : Type*} (St : S → Fin s) (g : (Fin n → S) → β) (J : (Fin n → Fin s) → Finset (Fin n)) : Prop :=
  ∀ t t', strataOf St t = strataOf St t' → (∀ j ∈ J (strataOf St t), t j = t' j) → g t = g t'

/-- The law of an observation of stratum `a`. -/
noncomputable def within (μ : Measure S) (St : S → Fin s) (a : Fin s) : Measure S := μ[|St ⁻¹' {a}]

/-- How much larger the law within a stratum can be than the law of an observation. -/
noncomputable def strataBound (μ : Measure S) (St : S → Fin s) : ℝ≥0∞ :=
  ∑ a, if μ (St ⁻¹' {a}) = 0 then 0 else (μ (St ⁻¹' {a}))⁻¹

theorem strataBound_ne_top (μ : Measure S) (St : S → Fin s) : strataBound μ St ≠ ∞ := by
  unfold strataBound
  refine ENNReal.sum_ne_top.2 fun a _ => ?_
  split_ifs with h
  · simp
  · exact ENNReal.inv_ne_top.2 h

theorem risk_within {μ : Measure S} {a : Fin s} (h : S → ℝ) :
    risk (within μ St a) h ≤ strataBound μ St * risk μ h := by
  by_cases ha : μ (St ⁻¹' {a}) = 0
  · unfold within risk
    rw [cond_eq_zero_of_meas_eq_zero ha]
    simp
  · unfold within risk ProbabilityTheory.cond
    rw [lintegral_smul_measure, smul_eq_mul]
    refine mul_le_mul' ?_ (lintegral_mono' Measure.restrict_le_self le_rfl)
    unfold strataBound
    have := Finset.single_le_sum (f := fun a => if μ (St ⁻¹' {a}) = 0 then 0 else (μ (St ⁻¹' {a}))⁻¹)
      (fun _ _ => zero_le) (Finset.mem_univ a)
    rwa [if_neg ha] at this

/-- The event that the observations have given strata. -/
def strataEvent (St : S → Fin s) (W : ℕ → Ω → S) (α : Fin n → Fin s) : Set Ω := {ω | strataOf St (sample W n ω) = α}

omit [MeasurableSpace S] in
theorem strataEvent_eq (St : S → Fin s) (W : ℕ → Ω → S) (α : Fin n → Fin s) :
    strataEvent St W α = ⋂ i : Fin n, (fun ω => St (W i ω)) ⁻¹' {α i} := by
  ext ω
  simp only [strataEvent, Set.mem_ofPred_eq, Set.mem_iInter, Set.mem_preimage, Set.mem_singleton_iff, funext_iff, strataOf,
    sample]

theorem measurableSet_strataEvent (hW : Iid P W) (hSt : Measurable St) (α : Fin n → Fin s) :
    MeasurableSet (strataEvent St W α) := by
  rw [strataEvent_eq]
  exact MeasurableSet.iInter fun i => (hSt.comp (hW.meas i)) (measurableSet_singleton _)

omit [MeasurableSpace S] in
theorem strata_pos {α : Fin n → Fin s} (hα : P (strataEvent St W α) ≠ 0) (i : Fin n) :
    P ((fun ω => St (W i ω)) ⁻¹' {α i}) ≠ 0 := by
  intro h
  refine hα (measure_mono_null ?_ h)
  rw [strataEvent_eq]
  exact Set.iInter_subset _ i

/-- Given the strata, the observations are independent. -/
theorem Iid.cond_obs (hW : Iid P W) (hSt : Measurable St) {α : Fin n → Fin s} (hα : P (strataEvent St W α) ≠ 0) :
    IndepObs P[|strataEvent St W α] fun i : Fin n => W i := by
  refine ⟨fun i => hW.meas i, ?_⟩
  rw [strataEvent_eq]
  refine iIndepFun.cond (Y := fun (i : Fin n) ω => St (W i ω)) (t := fun i => {α i}) (fun i => hSt.comp (hW.meas i)) ?_
    (strata_pos hα) fun i => measurableSet_singleton _
  exact (hW.obs n).indep.comp (fun _ w => (w, St w)) fun _ => measurable_id.prodMk hSt

/-- Given the strata, the law of an observation is the law within its stratum. -/
theorem Iid.cond_law (hW : Iid P W) (hSt : Measurable St) {α : Fin n → Fin s} (hα : P (strataEvent St W α) ≠ 0)
    (i : Fin n) : P[|strataEvent St W α].map (W i) = within (P.map (W 0)) St (α i) := by
  ext B hB
  rw [Measure.map_apply (hW.meas i) hB, strataEvent_eq]
  have h := cond_iInter (μ := P) (X := fun i : Fin n => W i) (Y := fun (i : Fin n) ω => St (W i ω)) (t := fun i => {α i})
    (s := {i}) (f := fun _ => W i ⁻¹' B) (fun i => hSt.comp (hW.meas i))
    ((hW.obs n).indep.comp (fun _ w => (w, St w)) fun _ => measurable_id.prodMk hSt)
    (fun j hj => by
      rw [Finset.mem_singleton] at hj
      subst hj
      exact ⟨B, hB, rfl⟩)
    (fun j _ => strata_pos hα j) fun j => measurableSet_singleton _
  rw [Finset.prod_singleton] at h
  have h2 : (⋂ j ∈ ({i} : Finset (Fin n)), W i ⁻¹' B) = W i ⁻¹' B := by
    ext ω; simp
  rw [h2] at h
  rw [h]
  unfold within
  have hm : MeasurableSet ((fun ω => St (W i ω)) ⁻¹' {α i}) := (hSt.comp (hW.meas i)) (measurableSet_singleton _)
  rw [cond_apply hm, cond_apply (hSt (measurableSet_singleton _)),
    ← hW.law i, Measure.map_apply (hW.meas i) (hSt (measurableSet_singleton _)),
    Measure.map_apply (hW.meas i) ((hSt (measurableSet_singleton _)).inter hB)]
  rfl

/-- The law of total probability over the strata. -/
theorem Iid.total (hW : Iid P W) [IsProbabilityMeasure P] (hSt : Measurable St) {E B : Set Ω} {b : ℝ≥0∞}
    (h : ∀ α : Fin n → Fin s, P (strataEvent St W α) ≠ 0 → P[E | strataEvent St W α] ≤ P[B | strataEvent St W α] + b) :
    P E ≤ P B + b := by
  have hm := fun α : Fin n → Fin s => measurableSet_strataEvent (n := n) hW hSt α
  have hsum : ∀ F : Set Ω, P F = ∑ α : Fin n → Fin s, P (strataEvent St W α ∩ F) := by
    intro F
    have hmA : Measurable fun ω => strataOf St (sample W n ω) :=
      measurable_pi_lambda _ fun i => hSt.comp (hW.meas i)
    have h0 := sum_measure_preimage_singleton (μ := P.restrict F) (f := fun ω => strataOf St (sample W n ω)) Finset.univ
      fun α _ => hm α
    rw [Finset.coe_univ, Set.preimage_univ, Measure.restrict_apply_univ] at h0
    rw [← h0]
    refine Finset.sum_congr rfl fun α _ => ?_
    exact Measure.restrict_apply (hm α)
  have hone : ∑ α : Fin n → Fin s, P (strataEvent St W α) = 1 := by
    have := hsum Set.univ
    rw [measure_univ] at this
    rw [this]
    exact Finset.sum_congr rfl fun α _ => by rw [Set.inter_univ]
  rw [hsum E, hsum B]
  calc ∑ α : Fin n → Fin s, P (strataEvent St W α ∩ E)
      ≤ ∑ α : Fin n → Fin s, (P (strataEvent St W α ∩ B) + P (strataEvent St W α) * b) := by
        refine Finset.sum_le_sum fun α _ => ?_
        by_cases h0 : P (strataEvent St W α) = 0
        · rw [measure_mono_null Set.inter_subset_left h0]
          exact zero_le
        · have h1 := mul_le_mul_right (h α h0) (P (strataEvent St W α))
          rw [mul_add, mul_comm _ (P[E | _]), mul_comm _ (P[B | _]), cond_mul_eq_inter (hm α) , cond_mul_eq_inter (hm α)] at h1
          exact h1
    _ = ∑ α : Fin n → Fin s, P (strataEvent St W α ∩ B) + b := by
        rw [Finset.sum_add_distrib, ← Finset.sum_mul, hone, one_mul]

/-- The sample with the observations that are not in the prescribed strata replaced. -/
def patch (St : S → Fin s) (α : Fin n → Fin s) (t0 t : Fin n → S) (j : Fin n) : S := if St (t j) = α j then t j else t0 j

theorem measurable_patch (hSt : Measurable St) (α : Fin n → Fin s) (t0 : Fin n → S) : Measurable (patch St α t0) := by
  refine measurable_pi_lambda _ fun j => ?_
  exact Measurable.ite ((hSt.comp (measurable_pi_apply j)) (measurableSet_singleton (α j))) (measurable_pi_apply j)
    measurable_const

omit [MeasurableSpace S] in
theorem strataOf_patch {α : Fin n → Fin s} {t0 : Fin n → S} (h0 : strataOf St t0 = α) (t : Fin n → S) :
    strataOf St (patch St α t0 t) = α := by
  funext j
  unfold strataOf patch
  split_ifs with h
  · exact h
  · exact congrFun h0 j

omit [MeasurableSpace S] in
theorem patch_eq {α : Fin n → Fin s} {t0 t : Fin n → S} (h : strataOf St t = α) : patch St α t0 t = t := by
  funext j
  exact if_pos (congrFun h j)

omit [MeasurableSpace S] in
theorem UsesGiven.patch {β : Type*} {g : (Fin n → S) → β} {J : (Fin n → Fin s) → Finset (Fin n)} (h : UsesGiven St g J)
    {α : Fin n → Fin s} {t0 : Fin n → S} (h0 : strataOf St t0 = α) : Uses (fun t => g (DML.patch St α t0 t)) (J α) := by
  intro t t' ht
  refine h _ _ ?_ ?_
  · rw [strataOf_patch h0, strataOf_patch h0]
  · rw [strataOf_patch h0]
    intro j hj
    unfold DML.patch
    rw [ht j hj]

variable {K : ℕ}

omit [MeasurableSpace S] in
theorem cond_subset {A E F : Set Ω} (hA : MeasurableSet A) (h : ∀ ω ∈ A, ω ∈ E → ω ∈ F) : P[E | A] ≤ P[F | A] := by
  rw [cond_apply hA, cond_apply hA]
  have hs : A ∩ E ⊆ A ∩ F := fun ω hω => ⟨hω.1, h ω hω.1 hω.2⟩
  exact mul_le_mul_right (measure_mono hs) _

/-- The sum over a fold, centred within the strata, of a function fitted on the training set. -/
theorem Iid.fold_centred (hW : Iid P W) [IsProbabilityMeasure P] (hSt : Measurable St) (c : (Fin n → Fin s) → Scheme K n)
    (k : Fin K) {g : (Fin n → S) → S → ℝ} (hg : Measurable (Function.uncurry g)) (hu : UsesGiven St g fun α => (c α).train k)
    {δ : ℝ≥0∞} (hδ : δ ≠ ∞) {ε : ℝ} (hε : 0 < ε) :
    P {ω | ε ≤ |∑ i ∈ (c (strataOf St (sample W n ω))).test k,
        (g (sample W n ω) (W i ω) - ∫ w, g (sample W n ω) w ∂(within (P.map (W 0)) St (St (W i ω))))|} ≤
      P {ω | δ < risk (P.map (W 0)) (g (sample W n ω))} +
        n * (strataBound (P.map (W 0)) St * δ) / ENNReal.ofReal (ε ^ 2) := by
  have := hW.prob 0
  refine hW.total hSt (n := n) fun α hα => ?_
  have hA := measurableSet_strataEvent (n := n) hW hSt α
  obtain ⟨ω0, h0⟩ : (strataEvent St W α).Nonempty := nonempty_of_measure_ne_zero hα
  have hQ : IsProbabilityMeasure P[|strataEvent St W α] := cond_isProbabilityMeasure hα
  have h1 := (hW.cond_obs hSt hα).test_centred (μ := P.map (W 0)) (strataBound_ne_top (P.map (W 0)) St)
    ((c α).disjoint k) (fun i _ h _ => by rw [hW.cond_law hSt hα]; exact risk_within h)
    (g := fun t => g (patch St α (sample W n ω0) t))
    (hg.comp (((measurable_patch hSt α _).comp measurable_fst).prodMk measurable_snd)) (hu.patch h0) hδ hε
  refine (cond_subset hA fun ω hω hE => ?_).trans (h1.trans (add_le_add (cond_subset hA fun ω hω hE => ?_) ?_))
  · rw [Set.mem_ofPred_eq] at hE ⊢
    have e : strataOf St (sample W n ω) = α := hω
    rw [e] at hE
    refine hE.trans (le_of_eq ?_)
    congr 1
    refine Finset.sum_congr rfl fun i _ => ?_
    rw [hW.cond_law hSt hα, show (fun j : Fin n => W j ω) = sample W n ω from rfl, patch_eq e, ← congrFun e i]
    rfl
  · rw [Set.mem_ofPred_eq] at hE ⊢
    rwa [show (fun j : Fin n => W j ω) = sample W n ω from rfl, patch_eq hω] at hE
  · gcongr
    exact_mod_cast (c α).card_test k

/-- The sum of squares over a fold of a function fitted on the training set. -/
theorem Iid.fold_squares (hW : Iid P W) [IsProbabilityMeasure P] (hSt : Measurable St) (c : (Fin n → Fin s) → Scheme K n)
    (k : Fin K) {g : (Fin n → S) → S → ℝ} (hg : Measurable (Function.uncurry g)) (hu : UsesGiven St g fun α => (c α).train k)
    {δ : ℝ≥0∞} {ε : ℝ} (hε : 0 < ε) :
    P {ω | ε ≤ ∑ i ∈ (c (strataOf St (sample W n ω))).test k, g (sample W n ω) (W i ω) ^ 2} ≤
      P {ω | δ < risk (P.map (W 0)) (g (sample W n ω))} +
        n * (strataBound (P.map (W 0)) St * δ) / ENNReal.ofReal ε := by
  have := hW.prob 0
  refine hW.total hSt (n := n) fun α hα => ?_
  have hA := measurableSet_strataEvent (n := n) hW hSt α
  obtain ⟨ω0, h0⟩ : (strataEvent St W α).Nonempty := nonempty_of_measure_ne_zero hα
  have hQ : IsProbabilityMeasure P[|strataEvent St W α] := cond_isProbabilityMeasure hα
  have h1 := (hW.cond_obs hSt hα).test_squares (μ := P.map (W 0)) (C := strataBound (P.map (W 0)) St)
    ((c α).disjoint k) (fun i _ h _ => by rw [hW.cond_law hSt hα]; exact risk_within h)
    (g := fun t => g (patch St α (sample W n ω0) t))
    (hg.comp (((measurable_patch hSt α _).comp measurable_fst).prodMk measurable_snd)) (hu.patch h0) (δ := δ) hε
  refine (cond_subset hA fun ω hω hE => ?_).trans (h1.trans (add_le_add (cond_subset hA fun ω hω hE => ?_) ?_))
  · rw [Set.mem_ofPred_eq] at hE ⊢
    have e : strataOf St (sample W n ω) = α := hω
    rw [e] at hE
    refine hE.trans (le_of_eq ?_)
    refine Finset.sum_congr rfl fun i _ => ?_
    rw [show (fun j : Fin n => W j ω) = sample W n ω from rfl, patch_eq e]
  · rw [Set.mem_ofPred_eq] at hE ⊢
    rwa [show (fun j : Fin n => W j ω) = sample W n ω from rfl, patch_eq hω] at hE
  · gcongr
    exact_mod_cast (c α).card_test k

/-! ## From the means within strata to the mean -/

/-- The folds are balanced over the strata: the share of every stratum in every fold differs from its share in the sample
by at most a constant number of observations. -/
def StrataBalanced {K : ℕ} (c : ∀ n, (Fin n → Fin s) → Scheme K n) : Prop :=
  ∃ C : ℝ, ∀ (n : ℕ) (α : Fin n → Fin s) (k : Fin K) (a : Fin s),
    |(n : ℝ) * (((c n α).test k).filter fun i => α i = a).card -
      ((c n α).test k).card * (Finset.univ.filter fun i => α i = a).card| ≤ C * n

theorem sq_integral_le_risk {ν : Measure S} [IsZeroOrProbabilityMeasure ν] {h : S → ℝ} (hh : Measurable h) :
    ENNReal.ofReal ((∫ w, h w ∂ν) ^ 2) ≤ risk ν h := by
  by_cases hr : risk ν h = ∞
  · rw [hr]; exact le_top
  refine le_trans (ENNReal.ofReal_le_ofReal ?_) (integral_sq_le hh)
  rcases eq_zero_or_isProbabilityMeasure ν with h0 | h1
  · subst h0; simp
  · have h2 := variance_nonneg h ν
    rw [variance_eq_sub (memLp_of_risk hh hr)] at h2
    have : ∫ w, (h ^ 2) w ∂ν = ∫ w, h w ^ 2 ∂ν := rfl
    linarith

/-- The law of total expectation over the strata. -/
theorem integral_within {μ : Measure S} [IsProbabilityMeasure μ] (hSt : Measurable St) {h : S → ℝ} (hi : Integrable h μ) :
    ∫ w, h w ∂μ = ∑ a, μ.real (St ⁻¹' {a}) * ∫ w, h w ∂(within μ St a) := by
  have h1 : ∫ w, h w ∂μ = ∑ a, ∫ w in St ⁻¹' {a}, h w ∂μ := by
    have hU : (⋃ a : Fin s, St ⁻¹' {a}) = Set.univ := by ext w; simp
    rw [← integral_iUnion_fintype (fun a => hSt (measurableSet_singleton a)) ?_ fun a => hi.integrableOn, hU,
      Measure.restrict_univ]
    intro a b hab
    rw [Function.onFun, Set.disjoint_left]
    intro w ha hb
    exact hab (ha.symm.trans hb)
  rw [h1]
  refine Finset.sum_congr rfl fun a _ => ?_
  unfold within ProbabilityTheory.cond
  by_cases h0 : μ (St ⁻¹' {a}) = 0
  · rw [Measure.restrict_eq_zero.2 h0]
    simp
  · rw [integral_smul_measure, smul_eq_mul, ← mul_assoc, ENNReal.toReal_inv]
    unfold Measure.real
    rw [mul_inv_cancel₀ (ENNReal.toReal_ne_zero.2 ⟨h0, measure_ne_top _ _⟩), one_mul]

variable {K : ℕ}

/-- The means within the strata of functions whose risk vanishes are negligible. -/
theorem oP_within [IsProbabilityMeasure P] {μ : Measure S} [IsProbabilityMeasure μ] {h : ℕ → Ω → S → ℝ}
    (hh : ∀ n ω, Measurable (h n ω)) (hr : oPE P fun n ω => risk μ (h n ω)) (a : Fin s) :
    oP P fun n ω => ∫ w, h n ω w ∂(within μ St a) := by
  intro ε hε
  have hpos : 0 < ENNReal.ofReal (ε ^ 2) := by rw [ENNReal.ofReal_pos]; positivity
  have hB : strataBound μ St + 1 ≠ ∞ := by
    rw [Ne, ENNReal.add_eq_top]
    simp [strataBound_ne_top]
  obtain ⟨δ, h0, hδ⟩ : ∃ δ : ℝ≥0∞, 0 < δ ∧ (strataBound μ St + 1) * δ < ENNReal.ofReal (ε ^ 2) := by
    refine ⟨ENNReal.ofReal (ε ^ 2) / 2 / (strataBound μ St + 1), ENNReal.div_pos (ENNReal.div_pos hpos.ne' (by simp)).ne' hB, ?_⟩
    rw [ENNReal.mul_div_cancel (by simp) hB]
    exact ENNReal.half_lt_self hpos.ne' (by simp)
  refine tendsto_of_tendsto_of_tendsto_of_le_of_le tendsto_const_nhds (hr δ h0) (fun _ => zero_le) fun n => ?_
  refine measure_mono fun ω hω => ?_
  rw [Set.mem_ofPred_eq] at hω ⊢
  by_contra hc
  rw [not_lt] at hc
  have h1 : ENNReal.ofReal (ε ^ 2) ≤ ENNReal.ofReal ((∫ w, h n ω w ∂(within μ St a)) ^ 2) := by
    refine ENNReal.ofReal_le_ofReal ?_
    rw [← sq_abs (∫ w, h n ω w ∂(within μ St a))]
    gcongr
  have hz : IsZeroOrProbabilityMeasure (within μ St a) := by unfold within; infer_instance
  refine absurd (h1.trans ((sq_integral_le_risk (hh n ω)).trans (risk_within (h n ω)))) (not_le.2 ?_)
  refine lt_of_le_of_lt ?_ hδ
  exact mul_le_mul' le_self_add hc

theorem exists_small {B : ℝ≥0∞} (hB : B ≠ ∞) {x η : ℝ≥0∞} (hx : 0 < x) (hxt : x ≠ ∞) (hη : 0 < η) :
    ∃ δ : ℝ≥0∞, 0 < δ ∧ B * δ / x ≤ η ∧ δ ≠ ∞ := by
  have hB : B + 1 ≠ ∞ := by
    rw [Ne, ENNReal.add_eq_top]
    simp [hB]
  have hm1 : min η 1 ≠ ∞ := ne_top_of_le_ne_top (by simp) (min_le_right η 1)
  refine ⟨min η 1 * x / (B + 1), ENNReal.div_pos (ENNReal.mul_pos (by simp [hη.ne']) hx.ne').ne' hB, ?_, ?_⟩
  · refine ENNReal.div_le_of_le_mul ?_
    refine (mul_le_mul' (le_self_add (b := 1)) le_rfl).trans ?_
    rw [ENNReal.mul_div_cancel (by simp) hB]
    gcongr
    exact min_le_left _ _
  · exact ENNReal.div_ne_top (ENNReal.mul_ne_top hm1 hxt) (by simp)

/-- A fold, centred within the strata. -/
theorem Iid.cross_within (hW : Iid P W) [IsProbabilityMeasure P] (hSt : Measurable St)
    (c : ∀ n, (Fin n → Fin s) → Scheme K n) (k : Fin K)
    {g : ∀ n, (Fin n → S) → S → ℝ} (hg : ∀ n, Measurable (Function.uncurry (g n)))
    (hu : ∀ n, UsesGiven St (g n) fun α => (c n α).train k)
    (hr : oPE P fun n ω => risk (P.map (W 0)) (g n (sample W n ω))) :
    oP P fun n ω => (∑ i ∈ (c n (strataOf St (sample W n ω))).test k, (g n (sample W n ω) (W i ω) -
      ∫ w, g n (sample W n ω) w ∂(within (P.map (W 0)) St (St (W i ω))))) / Real.sqrt n := by
  intro ε hε
  refine tendsto_zero_of_split fun η hη => ?_
  obtain ⟨δ, hδ, hδη, hδt⟩ := exists_small (strataBound_ne_top (P.map (W 0)) St) (x := ENNReal.ofReal (ε ^ 2))
    (by rw [ENNReal.ofReal_pos]; positivity) (by simp) hη
  refine ⟨_, hr δ hδ, ?_⟩
  filter_upwards [eventually_gt_atTop 0] with n hn
  have hn' : (0 : ℝ) < n := by exact_mod_cast hn
  have h := hW.fold_centred hSt (c n) k (hg n) (hu n) hδt (ε := ε * Real.sqrt n) (by positivity)
  refine le_trans (measure_mono fun ω hω => ?_) (h.trans ?_)
  · rw [Set.mem_ofPred_eq, abs_div, abs_of_nonneg (Real.sqrt_nonneg _), le_div_iff₀ (by positivity)] at hω
    exact hω
  · gcongr
    refine le_trans (le_of_eq ?_) hδη
    rw [mul_pow, Real.sq_sqrt hn'.le, ENNReal.ofReal_mul (by positivity), ENNReal.ofReal_natCast, mul_comm (ENNReal.ofReal _)]
    exact ENNReal.mul_div_mul_left _ _ (by simpa using hn.ne') (by simp)

/-- The sizes of the strata. -/
theorem Iid.count_bdd (hW : Iid P W) [IsProbabilityMeasure P] (hSt : Measurable St) (a : Fin s) :
    OP P fun n ω => ((((Finset.univ.filter fun i : Fin n => strataOf St (sample W n ω) i = a).card : ℝ)) -
      n * (P.map (W 0)).real (St ⁻¹' {a})) / Real.sqrt n := by
  have := hW.prob 0
  have hma : Measurable fun w => if St w = a then (1 : ℝ) else 0 :=
    Measurable.ite (hSt (measurableSet_singleton a)) measurable_const measurable_const
  have hb : MemLp (fun w => if St w = a then (1 : ℝ) else 0) 2 (P.map (W 0)) :=
    MemLp.of_bound hma.aestronglyMeasurable 1 (ae_of_all _ fun w => by split_ifs <;> simp)
  have hE : ∫ w, (if St w = a then (1 : ℝ) else 0) ∂(P.map (W 0)) = (P.map (W 0)).real (St ⁻¹' {a}) := by
    rw [← integral_indicator_one (hSt (measurableSet_singleton a))]
    refine integral_congr_ae (ae_of_all _ fun w => ?_)
    simp only [Set.indicator, Set.mem_preimage, Set.mem_singleton_iff, Pi.one_apply]
  have h := hW.root_bdd (f := fun w => (if St w = a then (1 : ℝ) else 0) - (P.map (W 0)).real (St ⁻¹' {a}))
    (hma.sub measurable_const) (hb.sub (memLp_const _)) (by
      rw [integral_sub (hb.integrable (by norm_num)) (integrable_const _), integral_const, hE]
      simp)
  refine h.mono (Eventually.of_forall fun n ω => le_of_eq ?_)
  rw [Finset.sum_sub_distrib, Finset.sum_const, Finset.card_univ, Fintype.card_fin, nsmul_eq_mul, Finset.card_filter]
  push_cast
  rfl

/-- The differences between the means within the strata, weighted by the composition of a fold. -/
theorem between_eq {μ : Measure S} [IsProbabilityMeasure μ] (hSt : Measurable St) {h : S → ℝ} (hi : Integrable h μ)
    (α : Fin n → Fin s) (I : Finset (Fin n)) :
    ∑ i ∈ I, (∫ w, h w ∂(within μ St (α i)) - ∫ w, h w ∂μ) =
      ∑ a, (((I.filter fun i => α i = a).card : ℝ) - I.card * μ.real (St ⁻¹' {a})) * ∫ w, h w ∂(within μ St a) := by
  rw [Finset.sum_sub_distrib, Finset.sum_const, nsmul_eq_mul, integral_within hSt hi, Finset.mul_sum]
  simp only [sub_mul]
  rw [Finset.sum_sub_distrib]
  congr 1
  · rw [← Finset.sum_fiberwise_of_maps_to (s := I) (t := Finset.univ) (g := α) fun _ _ => Finset.mem_univ _]
    refine Finset.sum_congr rfl fun a _ => ?_
    rw [← nsmul_eq_mul, ← Finset.sum_const]
    refine Finset.sum_congr rfl fun i hi => ?_
    rw [(Finset.mem_filter.1 hi).2]
  · exact Finset.sum_congr rfl fun a _ => by ring

theorem Iid.cross_between (hW : Iid P W) [IsProbabilityMeasure P] (hSt : Measurable St)
    {c : ∀ n, (Fin n → Fin s) → Scheme K n} (hc : StrataBalanced c) (k : Fin K)
    {g : ∀ n, (Fin n → S) → S → ℝ} (hg : ∀ n, Measurable (Function.uncurry (g n)))
    (hr : oPE P fun n ω => risk (P.map (W 0)) (g n (sample W n ω))) :
    oP P fun n ω => (∑ i ∈ (c n (strataOf St (sample W n ω))).test k,
      (∫ w, g n (sample W n ω) w ∂(within (P.map (W 0)) St (St (W i ω))) -
        ∫ w, g n (sample W n ω) w ∂(P.map (W 0)))) / Real.sqrt n := by
  have := hW.prob 0
  have hgm : ∀ n ω, Measurable (g n (sample W n ω)) := fun n ω => (hg n).comp measurable_prodMk_left
  obtain ⟨C, hC⟩ := hc
  have hz : ∀ a : Fin s, oP P fun n ω => (C / Real.sqrt n + |(((Finset.univ.filter fun i : Fin n =>
      strataOf St (sample W n ω) i = a).card : ℝ) - n * (P.map (W 0)).real (St ⁻¹' {a})) / Real.sqrt n|) *
        |∫ w, g n (sample W n ω) w ∂(within (P.map (W 0)) St a)| := by
    intro a
    refine OP.mul_oP (OP.add (oP.bdd (oP.of_tendsto ?_)) ((hW.count_bdd hSt a).mono (Eventually.of_forall fun n ω => by
      rw [abs_abs]))) ((oP_within hgm hr a).mono (Eventually.of_forall fun n ω => by rw [abs_abs]))
    exact tendsto_const_nhds.div_atTop (Real.tendsto_sqrt_atTop.comp tendsto_natCast_atTop_atTop)
  refine (oP.sum Finset.univ fun a _ => hz a).congr_on (hr 1 one_pos) ?_
  filter_upwards [eventually_gt_atTop 0] with n hn ω hω
  have hn' : (0 : ℝ) < n := by exact_mod_cast hn
  have hs' : (0 : ℝ) < Real.sqrt n := Real.sqrt_pos.2 hn'
  have hi : Integrable (g n (sample W n ω)) (P.map (W 0)) := by
    refine (memLp_of_risk (hgm n ω) ?_).integrable (by norm_num)
    rw [not_lt] at hω
    exact ne_top_of_le_ne_top (by simp) hω
  rw [show (∑ i ∈ (c n (strataOf St (sample W n ω))).test k,
      (∫ w, g n (sample W n ω) w ∂(within (P.map (W 0)) St (St (W i ω))) -
        ∫ w, g n (sample W n ω) w ∂(P.map (W 0)))) = _ from
      between_eq hSt hi (strataOf St (sample W n ω)) ((c n (strataOf St (sample W n ω))).test k), Finset.sum_div]
  refine le_trans ?_ (le_abs_self _)
  refine (Finset.abs_sum_le_sum_abs _ _).trans (Finset.sum_le_sum fun a _ => ?_)
  rw [mul_div_right_comm, abs_mul]
  refine mul_le_mul_of_nonneg_right ?_ (abs_nonneg _)
  rw [abs_div, abs_div, abs_of_pos hs', ← add_div]
  refine div_le_div_of_nonneg_right ?_ hs'.le
  have h1 := hC n (strataOf St (sample W n ω)) k a
  have h2 := (c n (strataOf St (sample W n ω))).card_test k
  generalize (((c n (strataOf St (sample W n ω))).test k).filter fun i => strataOf St (sample W n ω) i = a).card = x at *
  generalize ((c n (strataOf St (sample W n ω))).test k).card = y at *
  generalize (Finset.univ.filter fun i : Fin n => strataOf St (sample W n ω) i = a).card = z at *
  generalize (P.map (W 0)).real (St ⁻¹' {a}) = p at *
  have h3 : (n : ℝ) * |(x : ℝ) - y * p| ≤ n * (C + |(z : ℝ) - n * p|) := by
    have e : (n : ℝ) * ((x : ℝ) - y * p) = (n * x - y * z) + y * (z - n * p) := by ring
    have h4 : (n : ℝ) * |(x : ℝ) - y * p| = |(n : ℝ) * x - y * z + y * (z - n * p)| := by
      rw [← e, abs_mul, abs_of_pos hn']
    rw [h4]
    refine (abs_add_le _ _).trans ?_
    rw [abs_mul, Nat.abs_cast y]
    have := mul_le_mul_of_nonneg_right h2 (abs_nonneg ((z : ℝ) - n * p))
    linarith
  exact le_of_mul_le_mul_left h3 hn'

/-- The centred part of a cross-fitted sum is negligible if the squared size of the fitted functions vanishes. -/
theorem Iid.cross_centred (hW : Iid P W) [IsProbabilityMeasure P] (hSt : Measurable St)
    {c : ∀ n, (Fin n → Fin s) → Scheme K n} (hc : StrataBalanced c)
    {g : ∀ n, Fin K → (Fin n → S) → S → ℝ} (hg : ∀ n k, Measurable (Function.uncurry (g n k)))
    (hu : ∀ n k, UsesGiven St (g n k) fun α => (c n α).train k)
    (hr : ∀ k, oPE P fun n ω => risk (P.map (W 0)) (g n k (sample W n ω))) :
    oP P fun n ω => (∑ i, (g n ((c n (strataOf St (sample W n ω))).fold i) (sample W n ω) (W i ω) -
      ∫ w, g n ((c n (strataOf St (sample W n ω))).fold i) (sample W n ω) w ∂(P.map (W 0)))) / Real.sqrt n := by
  have hk := fun k => hW.cross_within hSt c k (g := fun n => g n k) (fun n => hg n k) (fun n => hu n k) (hr k)
  have hbias := fun k => hW.cross_between hSt hc k (g := fun n => g n k) (fun n => hg n k) (hr k)
  refine ((oP.sum Finset.univ fun k _ => hk k).add (oP.sum Finset.univ fun k _ => hbias k)).mono
    (Eventually.of_forall fun n ω => le_of_eq ?_)
  rw [(c n (strataOf St (sample W n ω))).sum_test fun k i =>
    g n k (sample W n ω) (W i ω) - ∫ w, g n k (sample W n ω) w ∂(P.map (W 0)), Finset.sum_div, ← Finset.sum_add_distrib]
  congr 1
  refine Finset.sum_congr rfl fun k _ => ?_
  rw [← add_div, ← Finset.sum_add_distrib]
  congr 1
  refine Finset.sum_congr rfl fun i _ => ?_
  ring

/-- The mean of the squares of a cross-fitted function is negligible if the squared size of the fitted functions
vanishes. -/
theorem Iid.cross_squares (hW : Iid P W) [IsProbabilityMeasure P] (hSt : Measurable St)
    (c : ∀ n, (Fin n → Fin s) → Scheme K n)
    {g : ∀ n, Fin K → (Fin n → S) → S → ℝ} (hg : ∀ n k, Measurable (Function.uncurry (g n k)))
    (hu : ∀ n k, UsesGiven St (g n k) fun α => (c n α).train k)
    (hr : ∀ k, oPE P fun n ω => risk (P.map (W 0)) (g n k (sample W n ω))) :
    oP P fun n ω => (∑ i, g n ((c n (strataOf St (sample W n ω))).fold i) (sample W n ω) (W i ω) ^ 2) / n := by
  have hk : ∀ k, oP P fun n ω => (∑ i ∈ (c n (strataOf St (sample W n ω))).test k, g n k (sample W n ω) (W i ω) ^ 2) / n := by
    intro k ε hε
    refine tendsto_zero_of_split fun η hη => ?_
    obtain ⟨δ, hδ, hδη, -⟩ := exists_small (strataBound_ne_top (P.map (W 0)) St) (x := ENNReal.ofReal ε)
      (by rw [ENNReal.ofReal_pos]; positivity) (by simp) hη
    refine ⟨_, hr k δ hδ, ?_⟩
    filter_upwards [eventually_gt_atTop 0] with n hn
    have hn' : (0 : ℝ) < n := by exact_mod_cast hn
    have h := hW.fold_squares hSt (c n) k (hg n k) (hu n k) (δ := δ) (ε := ε * n) (by positivity)
    refine le_trans (measure_mono fun ω hω => ?_) (h.trans ?_)
    · rw [Set.mem_ofPred_eq, abs_of_nonneg (div_nonneg (Finset.sum_nonneg fun i _ => sq_nonneg _) hn'.le),
        le_div_iff₀ (by positivity)] at hω
      exact hω
    · gcongr
      refine le_trans (le_of_eq ?_) hδη
      rw [ENNReal.ofReal_mul (by positivity), ENNReal.ofReal_natCast, mul_comm (ENNReal.ofReal _)]
      exact ENNReal.mul_div_mul_left _ _ (by simpa using hn.ne') (by simp)
  refine (oP.sum Finset.univ fun k _ => hk k).mono (Eventually.of_forall fun n ω => le_of_eq ?_)
  rw [(c n (strataOf St (sample W n ω))).sum_test fun k i => g n k (sample W n ω) (W i ω) ^ 2, Finset.sum_div]

end Strata

end DML
