import Verif.CreatedObj
import Verif.AsymptoticProps
import Mathlib.Probability.ConditionalExpectation
import Mathlib.Probability.Independence.InfinitePi
import Mathlib.Probability.UniformOn
import Mathlib.Data.Int.CardIntervalMod

/-!
# Large samples: examples

Sequences of studies that meet the hypotheses of C79, with learners that have to learn from their training data.
-/

namespace DML

open MeasureTheory ProbabilityTheory Filter Topology
open scoped ENNReal

variable {n : ℕ} {Q : Type}

/-! ## Even draws exist -/

/-- Every stratum is numbered and distributed over the folds in turn. -/
noncomputable def evenAssign {s : ℕ} (K : ℕ) (α : Fin n → Fin s) (i : Fin n) : ℕ :=
  ((Finset.univ.filter fun j => α j = α i).equivFin ⟨i, by simp⟩).val % K

theorem cellCount_even {s : ℕ} (K : ℕ) (α : Fin n → Fin s) (c : Fin s) {j : ℕ} (hj : j < K) :
    cellCount α (evenAssign K α) c j = (Finset.univ.filter fun i => α i = c).card.count (· ≡ j [MOD K]) := by
  rw [Nat.count_eq_card_filter_range]
  unfold cellCount
  symm
  set A := Finset.univ.filter fun i => α i = c with hA
  refine Finset.card_bij (fun t ht => (A.equivFin.symm ⟨t, Finset.mem_range.1 (Finset.mem_filter.1 ht).1⟩).val) ?_ ?_ ?_
  · intro t ht
    obtain ⟨h1, h2⟩ := Finset.mem_filter.1 ht
    have hm := (A.equivFin.symm ⟨t, Finset.mem_range.1 h1⟩).2
    have hc : α (A.equivFin.symm ⟨t, Finset.mem_range.1 h1⟩).val = c := (Finset.mem_filter.1 hm).2
    refine Finset.mem_filter.2 ⟨Finset.mem_univ _, hc, ?_⟩
    have key : ∀ (i : Fin n) (hi : i ∈ A), evenAssign K α i = (A.equivFin ⟨i, hi⟩).val % K := by
      intro i hi
      obtain rfl : α i = c := (Finset.mem_filter.1 hi).2
      rfl
    rw [key _ hm]
    simp only [Subtype.coe_eta, Equiv.apply_symm_apply]
    rw [h2, Nat.mod_eq_of_lt hj]
  · intro t ht t' ht' h
    have := A.equivFin.symm.injective (Subtype.ext h)
    simpa using this
  · intro i hi
    obtain ⟨-, hc, ha⟩ := Finset.mem_filter.1 hi
    have hiA : i ∈ A := Finset.mem_filter.2 ⟨Finset.mem_univ _, hc⟩
    refine ⟨(A.equivFin ⟨i, hiA⟩).val, Finset.mem_filter.2 ⟨Finset.mem_range.2 (A.equivFin ⟨i, hiA⟩).2, ?_⟩, ?_⟩
    · subst hc
      show _ % K = j % K
      rw [Nat.mod_eq_of_lt hj]
      exact ha
    · simp

theorem evenAssign_even {s K : ℕ} (hK : 0 < K) (α : Fin n → Fin s) : EvenDraw K α (evenAssign K α) := by
  refine ⟨fun i => Nat.mod_lt _ hK, fun c j hj j' hj' => ?_⟩
  rw [cellCount_even K α c hj, cellCount_even K α c hj', Nat.count_modEq_card _ hK, Nat.count_modEq_card _ hK]
  split_ifs <;> omega

/-! ## Independent observations -/

/-- Independent observations with any given law exist. -/
theorem iid_exists {S : Type} [MeasurableSpace S] (μ : Measure S) [IsProbabilityMeasure μ] :
    Iid (Measure.infinitePi fun _ : ℕ => μ) (fun i ω => ω i) ∧ (Measure.infinitePi fun _ : ℕ => μ).map (fun ω => ω 0) = μ := by
  refine ⟨⟨fun i => measurable_pi_apply i, iIndepFun_infinitePi (P := fun _ : ℕ => μ) (X := fun _ x => x) fun _ => measurable_id,
    fun i => ?_⟩, (measurePreserving_eval_infinitePi (fun _ : ℕ => μ) 0).map_eq⟩
  exact (measurePreserving_eval_infinitePi (fun _ : ℕ => μ) i).map_eq.trans
    (measurePreserving_eval_infinitePi (fun _ : ℕ => μ) 0).map_eq.symm

/-- Independence and mean zero give conditional mean zero. -/
theorem meanZero_of_indep {S : Type*} [MeasurableSpace S] {μ : Measure S} [IsProbabilityMeasure μ] {𝒳 : Type*} [MeasurableSpace 𝒳]
    {ξ : S → 𝒳} (hξ : Measurable ξ) {v : S → ℝ} (hv : Measurable v) (h : IndepFun v ξ μ) (h0 : ∫ w, v w ∂μ = 0) :
    MeanZeroGiven μ ξ v := by
  have := condExp_indep_eq (m₁ := MeasurableSpace.comap v inferInstance) (m₂ := MeasurableSpace.comap ξ inferInstance)
    (μ := μ) (f := v) hv.comap_le hξ.comap_le (comap_measurable v).stronglyMeasurable h
  refine this.trans (Eventually.of_forall fun w => ?_)
  exact h0

/-- Three independent fair coins. -/
noncomputable def coins : Measure (Fin 3 → Bool) := Measure.pi fun _ => uniformOn Set.univ

instance : IsProbabilityMeasure (uniformOn (Set.univ : Set Bool)) := isProbabilityMeasure_uniformOn Set.finite_univ Set.univ_nonempty

instance : IsProbabilityMeasure coins := by unfold coins; infer_instance

/-- The sign of a coin. -/
def sgn (b : Bool) : ℝ := if b then 1 else -1

theorem sgn_sq (b : Bool) : sgn b ^ 2 = 1 := by cases b <;> simp [sgn]

theorem sgn_abs (b : Bool) : |sgn b| = 1 := by cases b <;> simp [sgn]

theorem measurable_coin {β : Type*} [MeasurableSpace β] (f : (Fin 3 → Bool) → β) : Measurable f := measurable_of_countable f

theorem coins_indep : iIndepFun (fun (i : Fin 3) (ω : Fin 3 → Bool) => ω i) coins :=
  iIndepFun_pi (μ := fun _ : Fin 3 => uniformOn (Set.univ : Set Bool)) (X := fun _ x => x) fun _ => aemeasurable_id

theorem coin_law (i : Fin 3) : coins.map (fun ω => ω i) = uniformOn (Set.univ : Set Bool) :=
  (measurePreserving_eval (fun _ : Fin 3 => uniformOn (Set.univ : Set Bool)) i).map_eq

theorem coin_integral (f : Bool → ℝ) (i : Fin 3) : ∫ w, f (w i) ∂coins = (f true + f false) / 2 := by
  have h : ∫ w, f (w i) ∂coins = ∫ b, f b ∂(coins.map fun ω => ω i) :=
    (integral_map (measurable_pi_apply i).aemeasurable (measurable_of_countable f).aestronglyMeasurable).symm
  rw [h, coin_law, integral_fintype Integrable.of_finite]
  have hb : ∀ b : Bool, (uniformOn (Set.univ : Set Bool)).real {b} = 1 / 2 := fun b => by
    rw [measureReal_def, uniformOn_univ]
    simp
  simp only [Fintype.sum_bool, hb, smul_eq_mul]
  ring

/-! ## Means learn constants -/

theorem kfold_train_length {K : ℕ} (hK : 2 ≤ K) (hn : K ≤ n) (h8 : 8 ≤ n) (σ : Equiv.Perm (Fin n)) {f : Fold n} (hf : f ∈ kfold K σ) :
    f.train.Nodup ∧ n ≤ 4 * f.train.length := by
  have hB := kfold_balanced K σ hK hn
  refine ⟨(hB.train f hf).1, ?_⟩
  have h1 : f.train.length + f.test.length = n := by
    obtain ⟨j, -, rfl⟩ := List.mem_map.1 hf
    have := List.length_eq_length_filter_add (l := List.finRange n)
      (fun i => decide (foldStart n K j ≤ (σ.symm i).val ∧ (σ.symm i).val < foldStart n K (j + 1)))
    rw [List.length_finRange] at this
    show (kfoldTrain K σ j).length + (kfoldTest K σ j).length = n
    unfold kfoldTrain kfoldTest
    omega
  have h2 : K * f.test.length ≤ n + K := by
    have e := hB.partition.length_eq
    rw [List.length_finRange, List.length_flatMap] at e
    have : (List.map (fun g : Fold n => f.test.length) (kfold K σ)).sum ≤
        (List.map (fun g : Fold n => g.test.length + 1) (kfold K σ)).sum :=
      List.sum_le_sum fun g hg => hB.sizes f hf g hg
    rw [List.map_const', List.sum_replicate, hB.length, smul_eq_mul] at this
    have e2 : (List.map (fun g : Fold n => g.test.length + 1) (kfold K σ)).sum = n + K := by
      rw [List.sum_map_add, e, List.map_const', List.sum_replicate, hB.length]
      simp
    rwa [e2] at this
  have h3 : 2 * (f.test.length - 1) ≤ n := by
    rcases Nat.lt_or_ge f.test.length 1 with h | h
    · omega
    · have : K * (f.test.length - 1) ≤ n := by
        rw [Nat.mul_sub, mul_one]
        omega
      exact le_trans (Nat.mul_le_mul_right _ hK) this
  omega

section Mean

variable {Ω : Type*} {mΩ : MeasurableSpace Ω} {S : Type*} [MeasurableSpace S] {P : Measure Ω} {W : ℕ → Ω → S}

/-- The mean over a training set that is not too small approaches the expectation. -/
theorem Iid.mean_rate (hW : Iid P W) [IsProbabilityMeasure P] {T : ∀ n, List (Fin n)}
    (hT : ∀ᶠ n in atTop, (T n).Nodup ∧ n ≤ 4 * (T n).length) {f : S → ℝ} (hf : Measurable f) {B : ℝ} (hB : ∀ w, |f w| ≤ B)
    {c : ℕ → ℝ} (hc : ∀ n, 0 ≤ c n) (hlim : Tendsto (fun n => c n ^ 2 / n) atTop (𝓝 0)) :
    oPE P fun n ω => ENNReal.ofReal (c n) * ‖((T n).map fun j : Fin n => f (W j ω)).sum / (T n).length - ∫ w, f w ∂(P.map (W 0))‖ₑ := by
  intro δ hδ
  obtain ⟨ε, hε, hεδ⟩ : ∃ ε : ℝ, 0 < ε ∧ ENNReal.ofReal ε ≤ δ := by
    by_cases h : δ = ∞
    · exact ⟨1, one_pos, by rw [h]; exact le_top⟩
    · exact ⟨δ.toReal, ENNReal.toReal_pos hδ.ne' h, (ENNReal.ofReal_toReal h).le⟩
  have hprob := hW.prob 0
  have hrisk : risk (P.map (W 0)) f ≤ ENNReal.ofReal (B ^ 2) := by
    unfold risk
    calc ∫⁻ w, ‖f w‖ₑ ^ 2 ∂(P.map (W 0)) ≤ ∫⁻ _w, ENNReal.ofReal (B ^ 2) ∂(P.map (W 0)) := by
          refine lintegral_mono fun w => ?_
          rw [← ofReal_sq_eq]
          exact ENNReal.ofReal_le_ofReal (sq_le_sq' (by linarith [(abs_le.1 (hB w)).1]) (abs_le.1 (hB w)).2)
      _ = ENNReal.ofReal (B ^ 2) := by simp
  have hlim2 : Tendsto (fun n : ℕ => ENNReal.ofReal (4 * B ^ 2 / ε ^ 2 * (c n ^ 2 / n))) atTop (𝓝 0) := by
    have := (hlim.const_mul (4 * B ^ 2 / ε ^ 2))
    rw [mul_zero] at this
    simpa using ENNReal.tendsto_ofReal this
  refine tendsto_zero_of_le ?_ hlim2
  filter_upwards [hT, eventually_gt_atTop 0] with n hn hn0
  obtain ⟨hnd, hlen⟩ := hn
  have hn' : (0 : ℝ) < n := by exact_mod_cast hn0
  have hl0 : (0 : ℝ) < (T n).length := by
    have : 0 < (T n).length := by omega
    exact_mod_cast this
  rcases (hc n).eq_or_lt with h0 | h0
  · have : {ω | δ < ENNReal.ofReal (c n) * ‖((T n).map fun j : Fin n => f (W j ω)).sum / (T n).length - ∫ w, f w ∂(P.map (W 0))‖ₑ} = ∅ := by
      rw [Set.eq_empty_iff_forall_notMem]
      intro ω hω
      have hω : δ < ENNReal.ofReal (c n) * _ := hω
      rw [← h0, ENNReal.ofReal_zero, zero_mul] at hω
      exact absurd hω (not_lt.2 zero_le)
    rw [this, measure_empty]
    exact zero_le
  · have hch := hW.chebyshev (T n).toFinset hf (δ := ENNReal.ofReal (B ^ 2)) ENNReal.ofReal_ne_top hrisk
      (ε := ε * (T n).length / c n) (by positivity)
    refine le_trans (measure_mono ?_) (hch.trans ?_)
    · intro ω hω
      have hω : δ < ENNReal.ofReal (c n) * _ := hω
      have h1 : ENNReal.ofReal ε < ENNReal.ofReal (c n * |((T n).map fun j : Fin n => f (W j ω)).sum / (T n).length - ∫ w, f w ∂(P.map (W 0))|) := by
        rw [ENNReal.ofReal_mul (hc n), ← Real.enorm_eq_ofReal_abs]
        exact hεδ.trans_lt hω
      have h2 := (ENNReal.ofReal_lt_ofReal_iff_of_nonneg hε.le).1 h1
      show _ ≤ |∑ i ∈ (T n).toFinset, (f (W i ω) - ∫ w, f w ∂(P.map (W 0)))|
      rw [Finset.sum_sub_distrib, Finset.sum_const, List.toFinset_card_of_nodup hnd, List.sum_toFinset _ hnd, nsmul_eq_mul]
      have e : ((T n).map fun j : Fin n => f (W j ω)).sum - (T n).length * ∫ w, f w ∂(P.map (W 0)) =
          (T n).length * (((T n).map fun j : Fin n => f (W j ω)).sum / (T n).length - ∫ w, f w ∂(P.map (W 0))) := by
        field_simp
      rw [e, abs_mul, abs_of_pos hl0, div_le_iff₀ h0]
      nlinarith
    · rw [List.toFinset_card_of_nodup hnd]
      have e1 : (((T n).length : ℕ) : ℝ≥0∞) = ENNReal.ofReal (T n).length := (ENNReal.ofReal_natCast _).symm
      rw [e1, ← ENNReal.ofReal_mul hl0.le, ← ENNReal.ofReal_div_of_pos (by positivity)]
      refine ENNReal.ofReal_le_ofReal ?_
      have e2 : ((T n).length : ℝ) * B ^ 2 / (ε * (T n).length / c n) ^ 2 = B ^ 2 / ε ^ 2 * (c n ^ 2 / (T n).length) := by
        field_simp
      have hlen' : (n : ℝ) ≤ 4 * (T n).length := by exact_mod_cast hlen
      have e3 : c n ^ 2 / (T n).length ≤ 4 * (c n ^ 2 / n) := by
        rw [mul_div_assoc', div_le_div_iff₀ hl0 hn']
        nlinarith [sq_nonneg (c n)]
      rw [e2]
      calc B ^ 2 / ε ^ 2 * (c n ^ 2 / (T n).length) ≤ B ^ 2 / ε ^ 2 * (4 * (c n ^ 2 / n)) :=
            mul_le_mul_of_nonneg_left e3 (by positivity)
        _ = 4 * B ^ 2 / ε ^ 2 * (c n ^ 2 / n) := by ring

/-- The mean of the training targets depends measurably on the data. -/
theorem meanL_meas {𝒳 : Type*} [MeasurableSpace 𝒳] (enc : 𝒳 → List Cell) : MeasLearner exMeanL .predict enc := by
  intro p k
  have : (fun z : (Fin k → 𝒳 × ℝ) × 𝒳 => (exMeanL.answer .predict p (List.ofFn fun j => (enc (z.1 j).1, (z.1 j).2)) (enc z.2)).getD 0) =
      fun z : (Fin k → 𝒳 × ℝ) × 𝒳 => (∑ j, (z.1 j).2) / k := by
    funext z
    show ((List.ofFn fun j => (enc (z.1 j).1, (z.1 j).2)).map Prod.snd).sum / ((List.ofFn _).length : ℝ) = _
    rw [List.map_ofFn, List.sum_ofFn, List.length_ofFn]
    rfl
  rw [this]
  exact (Finset.measurable_sum _ fun j _ => measurable_snd.comp ((measurable_pi_apply j).comp measurable_fst)).div_const _

/-- The mean learner in a study whose splits do not depend on the data. -/
theorem Study.mean_rate {𝒳 : Type*} [MeasurableSpace 𝒳] [IsProbabilityMeasure P] {E : Ext} {r K : ℕ} {sp : ∀ n, LinSpec n ℕ}
    {tv : String} {y d : S → ℝ} {ξ : S → 𝒳} {enc : 𝒳 → List Cell} (H : Study E P W r K sp tv y d ξ enc)
    {L : ∀ n, List (List (Fold n))} (hs : ∀ n α, H.splits n α = L n)
    (hL : ∀ᶠ n in atTop, ∀ T ∈ L n, ∀ f ∈ T, f.train.Nodup ∧ n ≤ 4 * f.train.length) (l : String) {u : S → ℝ} (hu : Measurable u)
    {B : ℝ} (hB : ∀ w, |u w| ≤ B) {c : ℕ → ℝ} (hc : ∀ n, 0 ≤ c n) (hlim : Tendsto (fun n => c n ^ 2 / n) atTop (𝓝 0))
    (q : Fin r) (j : Fin K) {p : ℝ≥0∞} (hp : p ≠ 0) :
    oPE P fun n ω => ENNReal.ofReal (c n) * errNorm P W ξ (H.learned (fun _ => exMeanL) .predict l u (fun _ => True) q)
      (fun _ => ∫ w, u w ∂(P.map (W 0))) p j n ω := by
  have hprob := H.iid.prob 0
  have hT : ∀ᶠ n in atTop, (trainOf (splitAt K (L n) q) j).Nodup ∧ n ≤ 4 * (trainOf (splitAt K (L n) q) j).length := by
    have hne : ∃ ω : Ω, True := by
      obtain ⟨ω⟩ : Nonempty Ω := P.nonempty_of_neZero
      exact ⟨ω, trivial⟩
    obtain ⟨ω, -⟩ := hne
    filter_upwards [hL, H.split] with n h1 h2
    obtain ⟨h3, h4⟩ := h2 ω
    rw [hs] at h3 h4
    obtain ⟨T, hT⟩ : ∃ T, (L n)[(q : ℕ)]? = some T := ⟨_, List.getElem?_eq_getElem (by rw [h3]; exact q.2)⟩
    have hmem := List.mem_of_getElem? hT
    have hX := h4 T hmem
    have e : splitAt K (L n) q = T := by
      unfold splitAt
      rw [hT]
      exact if_pos hX
    rw [e]
    have hj : (j : ℕ) < T.length := by rw [hX.length]; exact j.2
    have e2 : trainOf T j = T[(j : ℕ)].train := by
      unfold trainOf
      rw [List.getElem?_eq_getElem hj]
      rfl
    rw [e2]
    exact h1 T hmem _ (List.getElem_mem hj)
  refine (H.iid.mean_rate hT hu hB hc hlim).mono fun n ω => ?_
  refine mul_le_mul_right (le_of_eq ?_) _
  unfold errNorm
  have e : (fun w => H.learned (fun _ => exMeanL) .predict l u (fun _ => True) q n j (sample W n ω) (ξ w) - ∫ w, u w ∂(P.map (W 0))) =
      fun _ => ((trainOf (splitAt K (L n) q) j).map fun i : Fin n => u (W i ω)).sum / (trainOf (splitAt K (L n) q) j).length -
        ∫ w, u w ∂(P.map (W 0)) := by
    funext w
    unfold Study.learned nuis DML.fitted
    rw [hs]
    show (List.map Prod.snd (List.map _ _)).sum / ((List.map _ _).length : ℝ) - _ = _
    rw [List.map_map, List.length_map]
    have : (List.filter (fun _ => decide True) (trainOf (splitAt K (L n) q) j)) = trainOf (splitAt K (L n) q) j := by simp
    rw [this]
    rfl
  rw [e, eLpNorm_const _ hp (by simp [NeZero.ne])]
  simp

end Mean

/-! ## The partially linear regression model with means -/

/-- The data object with outcome, treatment and one covariate. -/
noncomputable def exData {Ω S : Type*} (W : ℕ → Ω → S) (y d x : S → ℝ) (z : Option (S → ℝ)) (bin : Bool) (n : ℕ) (ω : Ω) : DataState n :=
  { y := "y"
    d := ["d"]
    x := ["x"]
    z := z.map fun _ => ["z"]
    t := none
    s := none
    cluster := none
    useOther := true
    force := .yes
    yv := fun i => .num (y (W i ω))
    zv := z.map fun z => [fun i => .num (z (W i ω))]
    tv := none
    sv := none
    dv := fun i => .num (d (W i ω))
    xv := [fun i => .num (x (W i ω))]
    cv := []
    binTreats := [("d", bin)]
    binOut := false }

theorem exData_holds {Ω S : Type*} [MeasurableSpace S] (W : ℕ → Ω → S) {y d x : S → ℝ} (hy : Measurable y) (hd : Measurable d)
    (hx : Measurable x) (z : Option (S → ℝ)) (bin : Bool) :
    Holds W "d" y d x (fun v => [Cell.num v]) (exData W y d x z bin) where
  treats := fun _ _ => rfl
  outcome := fun _ _ _ => rfl
  treatment := fun _ _ _ => rfl
  covariates := fun _ _ _ => rfl
  measY := hy
  measD := hd
  measX := hx

/-- Unshuffled folds. -/
def plainDraws (n : ℕ) : Draws n := ⟨fun _ => Equiv.refl _, fun _ _ => 0, fun _ _ _ => Equiv.refl _⟩

/-- Outcome `2 d + 3 + ζ`, treatment `1 + v` with coins `ζ` and `v`; a covariate without influence. -/
noncomputable def plrY (w : Fin 3 → Bool) : ℝ := 2 * (1 + sgn (w 1)) + 3 + sgn (w 2)

noncomputable def plrD (w : Fin 3 → Bool) : ℝ := 1 + sgn (w 1)

noncomputable def plrX (w : Fin 3 → Bool) : ℝ := sgn (w 0)

theorem coin_mean (i : Fin 3) : ∫ w, sgn (w i) ∂coins = 0 := by
  rw [coin_integral]
  simp [sgn]

theorem plr_law : PlrLaw coins plrY plrD plrX 2 (fun _ => 3) (fun _ => 1) 4 := by
  have e1 : (fun w => plrY w - 2 * plrD w - 3) = fun w => sgn (w 2) := by
    funext w
    unfold plrY plrD
    ring
  have e2 : (fun w => plrD w - 1) = fun w => sgn (w 1) := by
    funext w
    unfold plrD
    ring
  have h4 : ∀ i : Fin 3, MemLp (fun w => sgn (w i)) 4 coins := fun i => memLp_of_bdd (measurable_coin _) fun w => (sgn_abs _).le
  have i1 : IndepFun (fun w : Fin 3 → Bool => sgn (w 1)) plrX coins :=
    (coins_indep.indepFun (i := 1) (j := 0) (by decide)).comp (φ := sgn) (ψ := sgn) (measurable_of_countable _) (measurable_of_countable _)
  have i2 : IndepFun (fun w : Fin 3 → Bool => sgn (w 2)) (fun w => (plrD w, plrX w)) coins :=
    (coins_indep.indepFun_prodMk (fun i => measurable_pi_apply i) 1 0 2 (by decide) (by decide)).symm.comp (φ := sgn)
      (ψ := fun b : Bool × Bool => (1 + sgn b.1, sgn b.2)) (measurable_of_countable _) (measurable_of_countable _)
  have t1 : MeanZeroGiven coins plrX fun w => plrD w - 1 := by
    rw [e2]
    exact meanZero_of_indep (measurable_coin _) (measurable_coin _) i1 (coin_mean 1)
  have t2 : MeanZeroGiven coins (fun w => (plrD w, plrX w)) fun w => plrY w - 2 * plrD w - 3 := by
    rw [e1]
    exact meanZero_of_indep (measurable_coin _) (measurable_coin _) i2 (coin_mean 2)
  exact ⟨measurable_coin _, measurable_coin _, measurable_coin _, measurable_coin _, measurable_const, measurable_const,
    measurable_const, t2, t1, t1, by rw [e1]; exact h4 2, by rw [e2]; exact h4 1, by rw [e2]; exact h4 1⟩

/-- The model class with the mean as learner. -/
noncomputable def plrMean (n : ℕ) : PlrClass n ℕ := ⟨exMeanL, exMeanL, exMeanL, false, false, none⟩

theorem plainArgs {M : Type} {P : Type} (sp : Spec n P M) (tv : String) (m : ℕ) : ValidArgs sp tv m {} :=
  ⟨.inl rfl, ⟨true, rfl⟩, ⟨false, rfl⟩, .inl rfl⟩

/-- Independent observations of the coins. -/
noncomputable def tosses : Measure (ℕ → Fin 3 → Bool) := Measure.infinitePi fun _ => coins

instance : IsProbabilityMeasure tosses := by unfold tosses; infer_instance

theorem tosses_iid : Iid tosses fun i ω => ω i := (iid_exists coins).1

theorem tosses_law : tosses.map (fun ω => ω 0) = coins := (iid_exists coins).2

/-- Partially linear models on the coins: two folds, three repetitions, plain `fit()`. -/
noncomputable def plrStudy (E : Ext) (F : ∀ n, (ℕ → Fin 3 → Bool) → Frame n) :
    Study E tosses (fun i ω => ω i) 3 2 (fun n => plrSpec (plrMean n)) "d" plrY plrD plrX fun v => [Cell.num v] :=
  Study.created E tosses_iid le_rfl (by norm_num) (fun _ => rfl) (fun _ => rfl) F
    (exData_holds (fun i (ω : ℕ → Fin 3 → Bool) => ω i) (measurable_coin _) (measurable_coin _) (measurable_coin _) none false)
    (st := fun _ _ => 0) (w := plainDraws) (fun _ _ _ => two_pos)
    (obj := fun n ω => createdObj (plrSpec (plrMean n)) (exData (fun i (ω : ℕ → Fin 3 → Bool) => ω i) plrY plrD plrX none false n ω) 2 3 (plainDraws n))
    (by
      filter_upwards [eventually_ge_atTop 2] with n hn ω
      exact createdObj_spec _ rfl _ le_rfl (by norm_num) (fun _ => hn) _)
    (args := {}) (fun n m => plainArgs _ _ m) rfl

theorem root_rate : (∀ n : ℕ, 0 ≤ Real.sqrt (Real.sqrt n)) ∧
    Tendsto (fun n : ℕ => Real.sqrt (Real.sqrt n) ^ 2 / n) atTop (𝓝 0) := by
  refine ⟨fun n => Real.sqrt_nonneg _, ?_⟩
  have h : (fun n : ℕ => Real.sqrt (Real.sqrt n) ^ 2 / n) = fun n : ℕ => (Real.sqrt n)⁻¹ := by
    funext n
    rw [Real.sq_sqrt (Real.sqrt_nonneg _), Real.sqrt_div_self]
  rw [h]
  exact (Real.tendsto_sqrt_atTop.comp tendsto_natCast_atTop_atTop).inv_tendsto_atTop

theorem one_rate : (∀ _n : ℕ, (0 : ℝ) ≤ 1) ∧ Tendsto (fun n : ℕ => (1 : ℝ) ^ 2 / n) atTop (𝓝 0) := by
  refine ⟨fun _ => zero_le_one, ?_⟩
  simpa using tendsto_inv_atTop_nhds_zero_nat (𝕜 := ℝ)

theorem plrY_mean : ∫ w, plrY w ∂(tosses.map fun ω => ω 0) = 2 * 1 + 3 := by
  rw [tosses_law]
  unfold plrY
  have h : ∀ i, Integrable (fun w : Fin 3 → Bool => sgn (w i)) coins := fun i => Integrable.of_finite
  rw [integral_add (by fun_prop) (h 2), coin_mean, integral_add (by fun_prop) (integrable_const _), integral_const_mul,
    integral_add (integrable_const _) (h 1), coin_mean]
  simp

theorem plrD_mean : ∫ w, plrD w ∂(tosses.map fun ω => ω 0) = 1 := by
  rw [tosses_law]
  unfold plrD
  rw [integral_add (integrable_const _) Integrable.of_finite, coin_mean]
  simp

theorem plr_rates (E : Ext) (F : ∀ n, (ℕ → Fin 3 → Bool) → Frame n) :
    PlrRates (plrStudy E F) (fun _ => 2 * 1 + 3) (fun _ => 1) := by
  have hs : ∀ n α, (plrStudy E F).splits n α = (List.range 3).map fun _ => kfold 2 (Equiv.refl (Fin n)) := fun _ _ => rfl
  have hL : ∀ᶠ n in atTop, ∀ T ∈ (List.range 3).map fun _ => kfold 2 (Equiv.refl (Fin n)), ∀ f ∈ T,
      f.train.Nodup ∧ n ≤ 4 * f.train.length := by
    filter_upwards [eventually_ge_atTop 8] with n hn T hT f hf
    obtain ⟨q, -, rfl⟩ := List.mem_map.1 hT
    exact kfold_train_length le_rfl (by omega) hn _ hf
  have by' : ∀ w, |plrY w| ≤ 8 := fun w => by
    unfold plrY sgn
    cases w 1 <;> cases w 2 <;> norm_num
  have bd : ∀ w, |plrD w| ≤ 2 := fun w => by
    unfold plrD sgn
    cases w 1 <;> norm_num
  have rl : ∀ {c : ℕ → ℝ}, (∀ n, 0 ≤ c n) ∧ Tendsto (fun n => c n ^ 2 / n) atTop (𝓝 0) → ∀ q j {p : ℝ≥0∞}, p ≠ 0 →
      oPE tosses fun n ω => ENNReal.ofReal (c n) * errNorm tosses (fun i ω => ω i) plrX (plrLhat (plrStudy E F) q) (fun _ => 2 * 1 + 3) p j n ω :=
    fun hc q j p hp => by
      have := (plrStudy E F).mean_rate hs hL "ml_l" (measurable_coin plrY) by' hc.1 hc.2 q j hp
      rwa [plrY_mean] at this
  have rm : ∀ {c : ℕ → ℝ}, (∀ n, 0 ≤ c n) ∧ Tendsto (fun n => c n ^ 2 / n) atTop (𝓝 0) → ∀ q j {p : ℝ≥0∞}, p ≠ 0 →
      oPE tosses fun n ω => ENNReal.ofReal (c n) * errNorm tosses (fun i ω => ω i) plrX (plrMhat (plrStudy E F) q) (fun _ => 1) p j n ω :=
    fun hc q j p hp => by
      have := (plrStudy E F).mean_rate hs hL "ml_m" (measurable_coin plrD) bd hc.1 hc.2 q j hp
      rwa [plrD_mean] at this
  refine ⟨fun _ => meanL_meas _, fun _ => meanL_meas _, fun q j => ?_, fun q j => ?_, fun q j => ?_⟩
  · simpa using rl one_rate q j (p := 4) (by norm_num)
  · simpa using rm one_rate q j (p := 4) (by norm_num)
  · have h1 := rm root_rate q j (p := 2) (by norm_num)
    have h2 := rl root_rate q j (p := 2) (by norm_num)
    refine (h1.mul (h1.add h2)).mono fun n ω => le_of_eq ?_
    have e : ENNReal.ofReal (Real.sqrt n) = ENNReal.ofReal (Real.sqrt (Real.sqrt n)) * ENNReal.ofReal (Real.sqrt (Real.sqrt n)) := by
      rw [← ENNReal.ofReal_mul (Real.sqrt_nonneg _), Real.mul_self_sqrt (Real.sqrt_nonneg _)]
    rw [e]
    ring

/-- The hypotheses of `C79_plr` are met, and the asymptotic standard deviation is one. -/
theorem plr_valid (E : Ext) (F : ∀ n, (ℕ → Fin 3 → Bool) → Frame n) : AsympValid E tosses (fun i ω => ω i) 3 (plrStudy E F).fitted 2 1 := by
  have e1 : ∀ w, ((plrY w - 2 * plrD w - 3) * (plrD w - 1)) ^ 2 = 1 := fun w => by
    have : (plrY w - 2 * plrD w - 3) * (plrD w - 1) = sgn (w 2) * sgn (w 1) := by
      unfold plrY plrD
      ring
    rw [this, mul_pow, sgn_sq, sgn_sq, one_mul]
  have e2 : ∀ w, (plrD w - 1) ^ 2 = 1 := fun w => by
    have : plrD w - 1 = sgn (w 1) := by
      unfold plrD
      ring
    rw [this, sgn_sq]
  have h := C79_plr (plrStudy E F) (fun _ => rfl) (fun _ => rfl) (fun _ => rfl) (Eventually.of_forall fun _ _ => rfl)
    (θ := 2) (g := fun _ => 3) (m := fun _ => 1) (by rw [tosses_law]; exact plr_law) (by rw [tosses_law]; simp [e2])
    (by rw [tosses_law]; simp [e1]) (plr_rates E F)
  rw [tosses_law] at h
  simpa [e1, e2] using h

/-- The effect two is detected, and the value one is excluded. -/
example (E : Ext) (F : ∀ n, (ℕ → Fin 3 → Bool) → Frame n) :
    ProbTends tosses (fun n => {ω | ∃ q p, ((plrStudy E F).fitted n ω).fw? = some q ∧ q.fw.blocks.map Block.pval = [p] ∧ p ≤ 1 / 100}) 1 ∧
    ProbTends tosses (fun n => {ω | ∃ lo hi,
      (infer E ((plrStudy E F).fitted n ω) fun _ => .confint (.bool false) (.float (99 / 100))).2 = .ok (.cis [(lo, hi)]) ∧
        lo ≤ 1 ∧ 1 ≤ hi}) 0 :=
  ⟨(plr_valid E F).power two_ne_zero _ (by norm_num), (plr_valid E F).exclude _ (by norm_num) (by norm_num) 1 (by norm_num)⟩

/-! ## The partially linear model with an instrument -/

/-- The treatment is endogenous: it contains the noise of the outcome. -/
noncomputable def plivD (w : Fin 3 → Bool) : ℝ := 1 + sgn (w 1) + sgn (w 2)

noncomputable def plivY (w : Fin 3 → Bool) : ℝ := 2 * plivD w + 3 + sgn (w 2)

theorem pliv_law : PlivLaw coins plivY plivD plrD plrX 2 (fun _ => 3) (fun _ => 1) (fun _ => 1) 4 := by
  have e1 : (fun w => plivY w - 2 * plivD w - 3) = fun w => plrY w - 2 * plrD w - 3 := by
    funext w
    unfold plivY plrY plrD
    ring
  have h := plr_law
  have e2 : (fun w => plivD w - 1) = fun w => sgn (w 1) + sgn (w 2) := by
    funext w
    unfold plivD
    ring
  have i2 : IndepFun (fun w : Fin 3 → Bool => sgn (w 1) + sgn (w 2)) plrX coins :=
    (coins_indep.indepFun_prodMk (fun i => measurable_pi_apply i) 1 2 0 (by decide) (by decide)).comp
      (φ := fun b : Bool × Bool => sgn b.1 + sgn b.2) (ψ := sgn) (measurable_of_countable _) (measurable_of_countable _)
  refine ⟨measurable_coin _, measurable_coin _, measurable_coin _, measurable_coin _, measurable_const, measurable_const,
    measurable_const, by rw [e1]; exact h.noise, h.instr, ?_, by rw [e1]; exact h.memNoise, h.memInstr, ?_⟩
  · rw [e2]
    refine meanZero_of_indep (measurable_coin _) (measurable_coin _) i2 ?_
    rw [integral_add Integrable.of_finite Integrable.of_finite, coin_mean, coin_mean, add_zero]
  · rw [e2]
    refine memLp_of_bdd (measurable_coin _) (C := 2) fun w => ?_
    refine (abs_add_le _ _).trans ?_
    rw [sgn_abs, sgn_abs]
    norm_num

/-- The model class with the mean as learner. -/
noncomputable def plivMean (n : ℕ) : PlivClass n ℕ := ⟨exMeanL, exMeanL, exMeanL, exMeanL, false, fun _ v => v, none⟩

/-- The same with an instrument. -/
noncomputable def plivStudy (E : Ext) (F : ∀ n, (ℕ → Fin 3 → Bool) → Frame n) :
    Study E tosses (fun i ω => ω i) 3 2 (fun n => plivSpec (plivMean n)) "d" plivY plivD plrX fun v => [Cell.num v] :=
  Study.created E tosses_iid le_rfl (by norm_num) (fun _ => rfl) (fun _ => rfl) F
    (exData_holds (fun i (ω : ℕ → Fin 3 → Bool) => ω i) (measurable_coin _) (measurable_coin _) (measurable_coin _) (some plrD) false)
    (st := fun _ _ => 0) (w := plainDraws) (fun _ _ _ => two_pos)
    (obj := fun n ω => createdObj (plivSpec (plivMean n))
      (exData (fun i (ω : ℕ → Fin 3 → Bool) => ω i) plivY plivD plrX (some plrD) false n ω) 2 3 (plainDraws n))
    (by
      filter_upwards [eventually_ge_atTop 2] with n hn ω
      exact createdObj_spec _ rfl _ le_rfl (by norm_num) (fun _ => hn) _)
    (args := {}) (fun n m => plainArgs _ _ m) rfl

theorem plivD_mean : ∫ w, plivD w ∂(tosses.map fun ω => ω 0) = 1 := by
  rw [tosses_law]
  unfold plivD
  rw [integral_add Integrable.of_finite Integrable.of_finite, integral_add (integrable_const _) Integrable.of_finite, coin_mean,
    coin_mean]
  simp

theorem plivY_mean : ∫ w, plivY w ∂(tosses.map fun ω => ω 0) = 2 * 1 + 3 := by
  have h := plivD_mean
  rw [tosses_law] at h ⊢
  unfold plivY
  rw [integral_add Integrable.of_finite Integrable.of_finite, integral_add Integrable.of_finite (integrable_const _),
    integral_const_mul, h, coin_mean]
  simp

theorem pliv_rates (E : Ext) (F : ∀ n, (ℕ → Fin 3 → Bool) → Frame n) :
    PlivRates (plivStudy E F) plrD (fun _ => 2 * 1 + 3) (fun _ => 1) (fun _ => 1) := by
  have hs : ∀ n α, (plivStudy E F).splits n α = (List.range 3).map fun _ => kfold 2 (Equiv.refl (Fin n)) := fun _ _ => rfl
  have hL : ∀ᶠ n in atTop, ∀ T ∈ (List.range 3).map fun _ => kfold 2 (Equiv.refl (Fin n)), ∀ f ∈ T,
      f.train.Nodup ∧ n ≤ 4 * f.train.length := by
    filter_upwards [eventually_ge_atTop 8] with n hn T hT f hf
    obtain ⟨q, -, rfl⟩ := List.mem_map.1 hT
    exact kfold_train_length le_rfl (by omega) hn _ hf
  have by' : ∀ w, |plivY w| ≤ 10 := fun w => by
    unfold plivY plivD sgn
    cases w 1 <;> cases w 2 <;> norm_num
  have bd : ∀ w, |plivD w| ≤ 3 := fun w => by
    unfold plivD sgn
    cases w 1 <;> cases w 2 <;> norm_num
  have bz : ∀ w, |plrD w| ≤ 2 := fun w => by
    unfold plrD sgn
    cases w 1 <;> norm_num
  have rl : ∀ {c : ℕ → ℝ}, (∀ n, 0 ≤ c n) ∧ Tendsto (fun n => c n ^ 2 / n) atTop (𝓝 0) → ∀ q j {p : ℝ≥0∞}, p ≠ 0 →
      oPE tosses fun n ω => ENNReal.ofReal (c n) * errNorm tosses (fun i ω => ω i) plrX (plivLhat (plivStudy E F) q) (fun _ => 2 * 1 + 3) p j n ω :=
    fun hc q j p hp => by
      have := (plivStudy E F).mean_rate hs hL "ml_l" (measurable_coin plivY) by' hc.1 hc.2 q j hp
      rwa [plivY_mean] at this
  have rm : ∀ {c : ℕ → ℝ}, (∀ n, 0 ≤ c n) ∧ Tendsto (fun n => c n ^ 2 / n) atTop (𝓝 0) → ∀ q j {p : ℝ≥0∞}, p ≠ 0 →
      oPE tosses fun n ω => ENNReal.ofReal (c n) * errNorm tosses (fun i ω => ω i) plrX (plivMhat (plivStudy E F) plrD q) (fun _ => 1) p j n ω :=
    fun hc q j p hp => by
      have := (plivStudy E F).mean_rate hs hL "ml_m" (measurable_coin plrD) bz hc.1 hc.2 q j hp
      rwa [plrD_mean] at this
  have rr : ∀ {c : ℕ → ℝ}, (∀ n, 0 ≤ c n) ∧ Tendsto (fun n => c n ^ 2 / n) atTop (𝓝 0) → ∀ q j {p : ℝ≥0∞}, p ≠ 0 →
      oPE tosses fun n ω => ENNReal.ofReal (c n) * errNorm tosses (fun i ω => ω i) plrX (plivRhat (plivStudy E F) q) (fun _ => 1) p j n ω :=
    fun hc q j p hp => by
      have := (plivStudy E F).mean_rate hs hL "ml_r" (measurable_coin plivD) bd hc.1 hc.2 q j hp
      rwa [plivD_mean] at this
  refine ⟨fun _ => meanL_meas _, fun _ => meanL_meas _, fun _ => meanL_meas _, fun q j => ?_, fun q j => ?_, fun q j => ?_, fun q j => ?_⟩
  · simpa using rl one_rate q j (p := 4) (by norm_num)
  · simpa using rm one_rate q j (p := 4) (by norm_num)
  · simpa using rr one_rate q j (p := 4) (by norm_num)
  · have h1 := rm root_rate q j (p := 2) (by norm_num)
    have h2 := rr root_rate q j (p := 2) (by norm_num)
    have h3 := rl root_rate q j (p := 2) (by norm_num)
    refine (h1.mul (h2.add h3)).mono fun n ω => le_of_eq ?_
    have e : ENNReal.ofReal (Real.sqrt n) = ENNReal.ofReal (Real.sqrt (Real.sqrt n)) * ENNReal.ofReal (Real.sqrt (Real.sqrt n)) := by
      rw [← ENNReal.ofReal_mul (Real.sqrt_nonneg _), Real.mul_self_sqrt (Real.sqrt_nonneg _)]
    rw [e]
    ring

/-- The hypotheses of `C79_pliv` are met with an endogenous treatment. -/
example (E : Ext) (F : ∀ n, (ℕ → Fin 3 → Bool) → Frame n) : AsympValid E tosses (fun i ω => ω i) 3 (plivStudy E F).fitted 2 1 := by
  have e1 : ∀ w, ((plivY w - 2 * plivD w - 3) * (plrD w - 1)) ^ 2 = 1 := fun w => by
    have : (plivY w - 2 * plivD w - 3) * (plrD w - 1) = sgn (w 2) * sgn (w 1) := by
      unfold plivY plrD
      ring
    rw [this, mul_pow, sgn_sq, sgn_sq, one_mul]
  have e2 : ∫ w, (plivD w - 1) * (plrD w - 1) ∂coins = 1 := by
    have h0 := (pliv_law.mono (q := 2) (by norm_num)).noise_instr
    have : ∀ w, (plivD w - 1) * (plrD w - 1) = (plivY w - 2 * plivD w - 3) * (plrD w - 1) + 1 := fun w => by
      have h1 : (plrD w - 1) ^ 2 = 1 := by
        have : plrD w - 1 = sgn (w 1) := by
          unfold plrD
          ring
        rw [this, sgn_sq]
      have h2 : plivD w = plrD w + sgn (w 2) := by unfold plivD plrD; ring
      have h3 : plivY w - 2 * plivD w - 3 = sgn (w 2) := by unfold plivY; ring
      rw [h3, h2]
      linear_combination h1
    rw [h0.integral_eq (integrable_const _) this]
    simp
  have h := C79_pliv (plivStudy E F) (fun _ => rfl) (fun _ => rfl) (Eventually.of_forall fun _ _ => rfl) (z := plrD)
    (Eventually.of_forall fun _ _ => rfl) (θ := 2) (g := fun _ => 3) (m := fun _ => 1) (ρ := fun _ => 1)
    (by rw [tosses_law]; exact pliv_law) (by rw [tosses_law, e2]; exact one_ne_zero)
    (by rw [tosses_law]; simp [e1]) (pliv_rates E F)
  rw [tosses_law, e2] at h
  simpa [e1] using h

end DML
