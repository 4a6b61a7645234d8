import Verif.Study
import Verif.AsymptoticIrmProps
import Verif.ConstructFitProps

/-!
# Large samples: models as they are created

Sequences of model objects whose sample splits are drawn by the constructor (/repo/doubleml/double_ml.py:24-112,1206-1232,
/repo/doubleml/utils/resampling.py:11-38), without strata and with strata.
-/

namespace DML

open MeasureTheory ProbabilityTheory Filter Topology
open scoped ENNReal

variable {n : ℕ} {Q : Type}

/-! ## The split of a created object -/

/-- An object created with drawn folds and without strata. -/
theorem created_kfold {sp : LinSpec n Q} (hv : sp.vars = none) (hst : sp.stratified = false) {D : DataState n} {st : ℝ} {K r : ℕ}
    (hK : 2 ≤ K) (hn : K ≤ n) {w : Draws n} {s : LinState n Q} (h : initModel sp D st (.int K) (.int r) (.bool true) w = .ok s) :
    s.smpls = some ((List.range r).map fun q => kfold K (w.shuffle q)) ∧ s.params = initParams sp.learners D.d r := by
  rw [initModel_eq] at h
  obtain ⟨_, -, h⟩ := bind_ok h
  obtain ⟨K', hK', h⟩ := bind_ok h
  obtain ⟨R, hR, h⟩ := bind_ok h
  obtain ⟨dr, hb, h⟩ := bind_ok h
  obtain rfl : true = dr := PyVal.bool.inj ((checkBool_ok_iff _ _).1 hb)
  have e1 : K' = K := by
    simp only [checkInteger, PyVal.asInt] at hK'
    split_ifs at hK'
    all_goals exact (Except.ok.inj hK').symm
  have e2 : R = r := by
    simp only [checkInteger, PyVal.asInt] at hR
    split_ifs at hR
    all_goals exact (Except.ok.inj hR).symm
  subst e1 e2
  unfold firstDraw at h
  rw [if_pos rfl] at h
  unfold drawSampleSplitting drawnSplit at h
  rw [hv] at h
  dsimp only at h
  rw [if_neg (by rw [hst]; simp)] at h
  have e3 : (rawModel sp D st (K : ℤ) (r : ℤ)).nFolds = K := by
    unfold rawModel
    rw [hv]
    simp
  have e4 : (rawModel sp D st (K : ℤ) (r : ℤ)).nRep = r := Int.toNat_natCast r
  rw [e3, e4, drawSplit_eq K r w.shuffle hK hn] at h
  obtain rfl := Except.ok.inj h
  refine ⟨rfl, ?_⟩
  show initParams sp.learners D.d (r : ℤ).toNat = _
  rw [Int.toNat_natCast]

/-- An object created with folds drawn within strata. -/
theorem created_strata {sp : LinSpec n Q} (hv : sp.vars = none) (hst : sp.stratified = true) {D : DataState n} {st : ℝ} {K r : ℕ}
    {w : Draws n} {s : LinState n Q} (h : initModel sp D st (.int K) (.int r) (.bool true) w = .ok s) :
    s.smpls = some ((List.range r).map fun q => assignFolds K (w.assign q)) ∧ s.params = initParams sp.learners D.d r := by
  rw [initModel_eq] at h
  obtain ⟨_, -, h⟩ := bind_ok h
  obtain ⟨K', hK', h⟩ := bind_ok h
  obtain ⟨R, hR, h⟩ := bind_ok h
  obtain ⟨dr, hb, h⟩ := bind_ok h
  obtain rfl : true = dr := PyVal.bool.inj ((checkBool_ok_iff _ _).1 hb)
  have e1 : K' = K := by
    simp only [checkInteger, PyVal.asInt] at hK'
    split_ifs at hK'
    all_goals exact (Except.ok.inj hK').symm
  have e2 : R = r := by
    simp only [checkInteger, PyVal.asInt] at hR
    split_ifs at hR
    all_goals exact (Except.ok.inj hR).symm
  subst e1 e2
  unfold firstDraw at h
  rw [if_pos rfl] at h
  unfold drawSampleSplitting drawnSplit at h
  rw [hv] at h
  dsimp only at h
  rw [hst, if_pos rfl] at h
  have e3 : (rawModel sp D st (K : ℤ) (r : ℤ)).nFolds = K := by
    unfold rawModel
    rw [hv]
    simp
  have e4 : (rawModel sp D st (K : ℤ) (r : ℤ)).nRep = r := Int.toNat_natCast r
  rw [e3, e4] at h
  by_cases h2 : K < 2
  · rw [if_pos h2] at h
    cases h
  · rw [if_neg h2] at h
    obtain rfl := Except.ok.inj h
    refine ⟨rfl, ?_⟩
    show initParams sp.learners D.d (r : ℤ).toNat = _
    rw [Int.toNat_natCast]

theorem isPartition_of_perm {T : List (Fold n)} (h : (T.flatMap Fold.test).Perm (List.finRange n)) : isPartition T = true := by
  have e : (T.map Fold.test).flatten = T.flatMap Fold.test := rfl
  unfold isPartition
  rw [e, Bool.and_eq_true]
  refine ⟨by simp [h.length_eq], ?_⟩
  rw [List.all_eq_true]
  intro i hi
  rw [decide_eq_true_eq]
  exact h.mem_iff.2 hi

theorem crossSplit_kfold {K : ℕ} (hK : 2 ≤ K) (hn : K ≤ n) (σ : Equiv.Perm (Fin n)) : CrossSplit K (kfold K σ) := by
  have hB := kfold_balanced K σ hK hn
  refine ⟨hB.length, ⟨isPartition_of_perm hB.partition, ?_⟩, fun f hf i hi => ?_⟩
  · intro f hf
    obtain ⟨j, -, rfl⟩ := List.mem_map.1 hf
    exact List.Pairwise.filter _ (List.pairwise_lt_finRange n)
  · rw [(hB.train f hf).2 i]
    exact fun h => h hi

theorem crossSplit_assign {K : ℕ} {a : Fin n → ℕ} (ha : ∀ i, a i < K) : CrossSplit K (assignFolds K a) := by
  obtain ⟨h1, h2, h3⟩ := C23_stratified_partition K a ha
  refine ⟨h1, ⟨isPartition_of_perm h2, ?_⟩, fun f hf i hi => ?_⟩
  · intro f hf
    obtain ⟨j, -, rfl⟩ := List.mem_map.1 hf
    exact List.Pairwise.filter _ (List.pairwise_lt_finRange n)
  · rw [(h3 f hf).2 i]
    exact fun h => h hi

/-! ## Balance of stratified draws -/

/-- The number of observations of stratum `c` in fold `j`. -/
def cellCount {s : ℕ} (α : Fin n → Fin s) (a : Fin n → ℕ) (c : Fin s) (j : ℕ) : ℕ :=
  (Finset.univ.filter fun i => α i = c ∧ a i = j).card

/-- What scikit-learn's `StratifiedKFold` does: the number of observations of a stratum differs by at most one between
two folds. -/
def EvenDraw {s : ℕ} (K : ℕ) (α : Fin n → Fin s) (a : Fin n → ℕ) : Prop :=
  (∀ i, a i < K) ∧ ∀ c, ∀ j < K, ∀ j' < K, cellCount α a c j ≤ cellCount α a c j' + 1

section Even

variable {s K : ℕ} {α : Fin n → Fin s} {a : Fin n → ℕ}

theorem EvenDraw.sum (h : EvenDraw K α a) (c : Fin s) :
    ∑ j ∈ Finset.range K, cellCount α a c j = (Finset.univ.filter fun i => α i = c).card := by
  rw [Finset.card_eq_sum_card_fiberwise (f := a) (t := Finset.range K) fun i _ => Finset.mem_coe.2 (Finset.mem_range.2 (h.1 i))]
  refine Finset.sum_congr rfl fun j _ => ?_
  unfold cellCount
  rw [Finset.filter_filter]

theorem EvenDraw.close (h : EvenDraw K α a) (c : Fin s) {j : ℕ} (hj : j < K) :
    |(K : ℝ) * cellCount α a c j - (Finset.univ.filter fun i => α i = c).card| ≤ K := by
  have hs := h.sum c
  have h1 : K * cellCount α a c j ≤ (Finset.univ.filter fun i => α i = c).card + K := by
    rw [← hs]
    have : ∑ _j' ∈ Finset.range K, cellCount α a c j ≤ ∑ j' ∈ Finset.range K, (cellCount α a c j' + 1) :=
      Finset.sum_le_sum fun j' hj' => h.2 c j hj j' (Finset.mem_range.1 hj')
    simpa [Finset.sum_add_distrib] using this
  have h2 : (Finset.univ.filter fun i => α i = c).card ≤ K * cellCount α a c j + K := by
    rw [← hs]
    have : ∑ j' ∈ Finset.range K, cellCount α a c j' ≤ ∑ _j' ∈ Finset.range K, (cellCount α a c j + 1) :=
      Finset.sum_le_sum fun j' hj' => h.2 c j' (Finset.mem_range.1 hj') j hj
    simpa [mul_add] using this
  have h1' : (K : ℝ) * cellCount α a c j ≤ (Finset.univ.filter fun i => α i = c).card + K := by exact_mod_cast h1
  have h2' : ((Finset.univ.filter fun i => α i = c).card : ℝ) ≤ K * cellCount α a c j + K := by exact_mod_cast h2
  rw [abs_le]
  constructor <;> linarith

/-- The number of observations in fold `j`. -/
theorem sum_cellCount (α : Fin n → Fin s) (a : Fin n → ℕ) (j : ℕ) :
    ∑ c, cellCount α a c j = (Finset.univ.filter fun i => a i = j).card := by
  rw [Finset.card_eq_sum_card_fiberwise (f := α) (t := Finset.univ) fun i _ => Finset.mem_coe.2 (Finset.mem_univ _)]
  refine Finset.sum_congr rfl fun c _ => ?_
  unfold cellCount
  rw [Finset.filter_filter]
  simp only [and_comm]

theorem sum_strata (α : Fin n → Fin s) : ∑ c, (Finset.univ.filter fun i => α i = c).card = n := by
  have := Finset.card_eq_sum_card_fiberwise (s := (Finset.univ : Finset (Fin n))) (f := α) (t := Finset.univ)
    fun i _ => Finset.mem_coe.2 (Finset.mem_univ _)
  simpa using this.symm

theorem EvenDraw.balanced (h : EvenDraw K α a) (hK : 0 < K) (c : Fin s) {j : ℕ} (hj : j < K) :
    |(n : ℝ) * cellCount α a c j - (Finset.univ.filter fun i => a i = j).card * (Finset.univ.filter fun i => α i = c).card| ≤
      (1 + s : ℝ) * n := by
  set N := (Finset.univ.filter fun i => α i = c).card with hN
  set T := (Finset.univ.filter fun i => a i = j).card with hT
  have hK' : (0 : ℝ) < K := by exact_mod_cast hK
  have hNn : (N : ℝ) ≤ n := by
    have : N ≤ n := by simpa using Finset.card_filter_le (Finset.univ : Finset (Fin n)) fun i => α i = c
    exact_mod_cast this
  have hTK : |(K : ℝ) * T - n| ≤ s * K := by
    have e1 : (T : ℝ) = ∑ c, (cellCount α a c j : ℝ) := by rw [hT, ← sum_cellCount α a j]; push_cast; rfl
    have e2 : (n : ℝ) = ∑ c, ((Finset.univ.filter fun i => α i = c).card : ℝ) := by
      conv_lhs => rw [← sum_strata α]
      push_cast
      rfl
    rw [e1, e2, Finset.mul_sum, ← Finset.sum_sub_distrib]
    refine (Finset.abs_sum_le_sum_abs _ _).trans ((Finset.sum_le_sum fun c _ => h.close c hj).trans ?_)
    simp
  have hc := h.close c hj
  rw [← hN] at hc
  have key : (K : ℝ) * |(n : ℝ) * cellCount α a c j - T * N| ≤ K * ((1 + s) * n) := by
    rw [← abs_of_pos hK', ← abs_mul, abs_of_pos hK']
    have e : (K : ℝ) * (n * cellCount α a c j - T * N) = n * (K * cellCount α a c j - N) - N * (K * T - n) := by ring
    rw [e]
    refine (abs_sub _ _).trans ?_
    rw [abs_mul, abs_mul, abs_of_nonneg (Nat.cast_nonneg n : (0 : ℝ) ≤ n), abs_of_nonneg (Nat.cast_nonneg N : (0 : ℝ) ≤ N)]
    have g1 : (n : ℝ) * |(K : ℝ) * cellCount α a c j - N| ≤ n * K := mul_le_mul_of_nonneg_left hc (Nat.cast_nonneg _)
    have g2 : (N : ℝ) * |(K : ℝ) * T - n| ≤ n * (s * K) := mul_le_mul hNn hTK (abs_nonneg _) (Nat.cast_nonneg _)
    nlinarith
  exact le_of_mul_le_mul_left key hK'

/-- A stratum with three observations is not contained in one fold. -/
theorem EvenDraw.outside (h : EvenDraw K α a) (hK : 2 ≤ K) {c : Fin s} (hc : 2 < (Finset.univ.filter fun i => α i = c).card)
    (j : ℕ) : ∃ i, α i = c ∧ a i ≠ j := by
  by_contra hne
  push Not at hne
  obtain ⟨i₀, hi₀⟩ := Finset.card_pos.1 (lt_trans two_pos hc)
  have hj : j < K := by rw [← hne i₀ (Finset.mem_filter.1 hi₀).2]; exact h.1 i₀
  have e : cellCount α a c j = (Finset.univ.filter fun i => α i = c).card := by
    unfold cellCount
    congr 1
    refine Finset.filter_congr fun i _ => ⟨fun h => h.1, fun h => ⟨h, hne i h⟩⟩
  obtain ⟨j', hj', hjj⟩ : ∃ j' < K, j' ≠ j := by
    by_cases h0 : j = 0
    · exact ⟨1, by omega, by omega⟩
    · exact ⟨0, by omega, by omega⟩
  have e' : cellCount α a c j' = 0 := by
    unfold cellCount
    rw [Finset.card_eq_zero, Finset.filter_eq_empty_iff]
    rintro i - ⟨g1, g2⟩
    exact hjj (g2.symm.trans (hne i g1))
  have := h.2 c j hj j' hj'
  omega

end Even

/-! ## Sequences of created objects -/

variable {Ω : Type*} {mΩ : MeasurableSpace Ω} {S : Type*} [MeasurableSpace S] {𝒳 : Type*} [MeasurableSpace 𝒳]
  {E : Ext} {P : Measure Ω} {W : ℕ → Ω → S} {r K : ℕ} {sp : ∀ n, LinSpec n Q} {tv : String} {y d : S → ℝ} {ξ : S → 𝒳}
  {enc : 𝒳 → List Cell}

/-- The data objects `D n ω` hold the first `n` observations: outcome `y`, the treatment `d` called `tv`, the covariates `ξ`. -/
structure Holds (W : ℕ → Ω → S) (tv : String) (y d : S → ℝ) (ξ : S → 𝒳) (enc : 𝒳 → List Cell) (D : ∀ n, Ω → DataState n) :
    Prop where
  treats : ∀ n ω, (D n ω).d = [tv]
  outcome : ∀ n ω i, (D n ω).yv i = Cell.num (y (W i ω))
  treatment : ∀ n ω i, (D n ω).dv i = Cell.num (d (W i ω))
  covariates : ∀ n ω i, rowX (D n ω) i = enc (ξ (W i ω))
  measY : Measurable y
  measD : Measurable d
  measX : Measurable ξ

/-- Objects created with `K` folds and `r` repetitions, drawn without strata, and fitted without external predictions. -/
noncomputable def Study.created (E : Ext) (hW : Iid P W) (hK : 2 ≤ K) (hr : 0 < r) (hv : ∀ n, (sp n).vars = none)
    (hst : ∀ n, (sp n).stratified = false) (F : ∀ n, Ω → Frame n) {D : ∀ n, Ω → DataState n} (hD : Holds W tv y d ξ enc D)
    {st : ℕ → Ω → ℝ} {w : ∀ n, Draws n} (hw : ∀ n q i, (w n).assign q i < K) {obj : ∀ n, Ω → LinState n Q}
    (hobj : ∀ᶠ n in atTop, ∀ ω, initModel (sp n) (D n ω) (st n ω) (.int K) (.int r) (.bool true) (w n) = .ok (obj n ω))
    {args : FitArgs} (ha : ∀ n m, ValidArgs (sp n) tv m args) (hx : args.ext = .none) : Study E P W r K sp tv y d ξ enc where
  F := F
  D := D
  obj := obj
  args := args
  strata := 1
  St := fun _ => 0
  splits := fun n _ => (List.range r).map fun q => kfold K ((w n).shuffle q)
  par := fun n l => initParams (sp n).learners [tv] r l tv
  iid := hW
  reps := hr
  folds := by omega
  measY := hD.measY
  measD := hD.measD
  measX := hD.measX
  measSt := measurable_const
  reached := by
    filter_upwards [hobj] with n h ω
    exact ⟨hD.treats n ω, st n ω, .int K, .int r, .bool true, w n, obj n ω, [], h ω, fun K' hK' q i => by
      obtain rfl : (K : ℤ) = K' := Option.some.inj hK'
      exact_mod_cast hw n q i, trivial, rfl⟩
  smpls := by
    filter_upwards [hobj, eventually_ge_atTop K] with n h hn ω
    exact (created_kfold (hv n) (hst n) hK hn (h ω)).1
  split := by
    filter_upwards [eventually_ge_atTop K] with n hn ω
    refine ⟨by simp, fun T hT => ?_⟩
    obtain ⟨q, -, rfl⟩ := List.mem_map.1 hT
    exact crossSplit_kfold hK hn _
  balanced := by
    refine ⟨0, fun n α T _ f _ a => ?_⟩
    have e1 : (Finset.univ.filter fun i => α i = a) = Finset.univ :=
      Finset.filter_true_of_mem fun i _ => Subsingleton.elim _ _
    have e2 : (f.test.filter fun i => decide (α i = a)) = f.test :=
      List.filter_eq_self.2 fun i _ => decide_eq_true (Subsingleton.elim _ _)
    rw [e1, e2, Finset.card_univ, Fintype.card_fin]
    simp [mul_comm]
  params := by
    filter_upwards [hobj, eventually_ge_atTop K] with n h hn ω l _
    rw [(created_kfold (hv n) (hst n) hK hn (h ω)).2, hD.treats n ω]
  outcome := Eventually.of_forall hD.outcome
  treatment := Eventually.of_forall hD.treatment
  covariates := Eventually.of_forall hD.covariates
  valid := ha
  noExt := hx

/-- Even draws put the proportional share of every stratum into every test set, up to a constant. -/
theorem balanced_assign {K r s : ℕ} (hK : 2 ≤ K) {w : ∀ n, (Fin n → Fin s) → Draws n} (hw : ∀ n α q, EvenDraw K α ((w n α).assign q)) :
    ∃ C : ℝ, ∀ n α, ∀ T ∈ (List.range r).map (fun q => assignFolds K ((w n α).assign q)), ∀ f ∈ T, ∀ a : Fin s,
      |(n : ℝ) * (f.test.filter fun i => decide (α i = a)).length - f.test.length * (Finset.univ.filter fun i => α i = a).card| ≤
        C * n := by
  refine ⟨1 + s, fun n α T hT f hf a => ?_⟩
  obtain ⟨q, -, rfl⟩ := List.mem_map.1 hT
  obtain ⟨j, hj, rfl⟩ := List.mem_map.1 hf
  have hB := (hw n α q).balanced (by omega) a (List.mem_range.1 hj)
  have e1 : (((List.finRange n).filter fun i => decide ((w n α).assign q i = j)).filter fun i => decide (α i = a)).length =
      cellCount α ((w n α).assign q) a j := by
    rw [List.filter_filter, ← List.toFinset_card_of_nodup ((List.nodup_finRange n).filter _)]
    unfold cellCount
    congr 1
    ext i
    simp
  have e2 : ((List.finRange n).filter fun i => decide ((w n α).assign q i = j)).length =
      (Finset.univ.filter fun i => (w n α).assign q i = j).card := by
    rw [← List.toFinset_card_of_nodup ((List.nodup_finRange n).filter _)]
    congr 1
    ext i
    simp
  dsimp only
  rw [e1, e2]
  exact hB

/-- Objects created with `K` folds and `r` repetitions, drawn within the strata `St`, and fitted without external
predictions. -/
noncomputable def Study.createdIn (E : Ext) (hW : Iid P W) (hK : 2 ≤ K) (hr : 0 < r) (hv : ∀ n, (sp n).vars = none)
    (hst : ∀ n, (sp n).stratified = true) (F : ∀ n, Ω → Frame n) {D : ∀ n, Ω → DataState n} (hD : Holds W tv y d ξ enc D)
    {st : ℕ → Ω → ℝ} {s : ℕ} {St : S → Fin s} (hSt : Measurable St) {w : ∀ n, (Fin n → Fin s) → Draws n}
    (hw : ∀ n α q, EvenDraw K α ((w n α).assign q)) {obj : ∀ n, Ω → LinState n Q}
    (hobj : ∀ᶠ n in atTop, ∀ ω, initModel (sp n) (D n ω) (st n ω) (.int K) (.int r) (.bool true)
      (w n (strataOf St (sample W n ω))) = .ok (obj n ω))
    {args : FitArgs} (ha : ∀ n m, ValidArgs (sp n) tv m args) (hx : args.ext = .none) : Study E P W r K sp tv y d ξ enc where
  F := F
  D := D
  obj := obj
  args := args
  strata := s
  St := St
  splits := fun n α => (List.range r).map fun q => assignFolds K ((w n α).assign q)
  par := fun n l => initParams (sp n).learners [tv] r l tv
  iid := hW
  reps := hr
  folds := by omega
  measY := hD.measY
  measD := hD.measD
  measX := hD.measX
  measSt := hSt
  reached := by
    filter_upwards [hobj] with n h ω
    exact ⟨hD.treats n ω, st n ω, .int K, .int r, .bool true, _, obj n ω, [], h ω, fun K' hK' q i => by
      obtain rfl : (K : ℤ) = K' := Option.some.inj hK'
      exact_mod_cast (hw n _ q).1 i, trivial, rfl⟩
  smpls := by
    filter_upwards [hobj] with n h ω
    exact (created_strata (hv n) (hst n) (h ω)).1
  split := by
    refine Eventually.of_forall fun n ω => ⟨by simp, fun T hT => ?_⟩
    obtain ⟨q, -, rfl⟩ := List.mem_map.1 hT
    exact crossSplit_assign (hw n _ q).1
  balanced := balanced_assign hK hw
  params := by
    filter_upwards [hobj] with n h ω l _
    rw [(created_strata (hv n) (hst n) (h ω)).2, hD.treats n ω]
  outcome := Eventually.of_forall hD.outcome
  treatment := Eventually.of_forall hD.treatment
  covariates := Eventually.of_forall hD.covariates
  valid := ha
  noExt := hx

/-! ## Training sets contain both classes -/

/-- A stratum with positive probability has more than two observations in a large sample. -/
theorem Iid.many (hW : Iid P W) [IsProbabilityMeasure P] {s : ℕ} {St : S → Fin s} (hSt : Measurable St) {c : Fin s}
    (hc : P.map (W 0) {w | St w = c} ≠ 0) :
    Tendsto (fun n => P {ω | ¬ 2 < (Finset.univ.filter fun i : Fin n => St (W i ω) = c).card}) atTop (𝓝 0) := by
  classical
  have hm : MeasurableSet {w | St w = c} := hSt (measurableSet_singleton c)
  have hprob : IsProbabilityMeasure (P.map (W 0)) := hW.prob 0
  set p : ℝ := ∫ w, Set.indicator {w | St w = c} (fun _ => (1 : ℝ)) w ∂(P.map (W 0)) with hp
  have hp0 : 0 < p := by
    rw [hp, integral_indicator hm]
    simp only [integral_const, smul_eq_mul, mul_one]
    rw [measureReal_restrict_apply MeasurableSet.univ, Set.univ_inter]
    exact ENNReal.toReal_pos hc (measure_ne_top _ _)
  have hl := hW.lln (f := Set.indicator {w | St w = c} fun _ => (1 : ℝ)) (measurable_const.indicator hm)
    ((integrable_const _).indicator hm)
  have hl' := hl (p / 2) (by linarith)
  refine tendsto_zero_of_le ?_ hl'
  obtain ⟨N, hN⟩ := exists_nat_gt (4 / p)
  filter_upwards [eventually_ge_atTop (N + 1)] with n hn
  refine measure_mono fun ω hω => ?_
  have hω : (Finset.univ.filter fun i : Fin n => St (W i ω) = c).card ≤ 2 := by
    have : ¬ 2 < (Finset.univ.filter fun i : Fin n => St (W i ω) = c).card := hω
    omega
  have hn0 : (0 : ℝ) < n := by
    have : 0 < n := by omega
    exact_mod_cast this
  have e : mean (fun i : Fin n => Set.indicator {w | St w = c} (fun _ => (1 : ℝ)) (W i ω)) =
      ((Finset.univ.filter fun i : Fin n => St (W i ω) = c).card : ℝ) / n := by
    unfold mean
    congr 1
    rw [Finset.card_filter]
    push_cast
    refine Finset.sum_congr rfl fun i _ => ?_
    simp only [Set.indicator, Set.mem_ofPred_eq]
  show p / 2 ≤ |_|
  rw [e, ← hp]
  have h1 : ((Finset.univ.filter fun i : Fin n => St (W i ω) = c).card : ℝ) / n ≤ 2 / n := by
    have : ((Finset.univ.filter fun i : Fin n => St (W i ω) = c).card : ℝ) ≤ 2 := by exact_mod_cast hω
    exact div_le_div_of_nonneg_right this hn0.le
  have h2 : (2 : ℝ) / n ≤ p / 2 := by
    have hN' : 4 / p < n := lt_of_lt_of_le hN (by exact_mod_cast (by omega : N ≤ n))
    rw [div_lt_iff₀ hp0] at hN'
    rw [div_le_div_iff₀ hn0 two_pos]
    linarith
  rw [abs_of_nonpos (by linarith)]
  linarith

/-- If both classes contain a stratum of positive probability, the training sets of objects drawn evenly contain both classes
with probability tending to one. -/
theorem drawn_both [IsProbabilityMeasure P] (hW : Iid P W) (hK : 2 ≤ K) {s : ℕ} {St : S → Fin s} (hSt : Measurable St) {w : ∀ n, (Fin n → Fin s) → Draws n}
    (hw : ∀ n α q, EvenDraw K α ((w n α).assign q)) {H : Study E P W r K sp tv y d ξ enc}
    (hH : ∀ n ω, H.splitsAt n ω = (List.range r).map fun q => assignFolds K ((w n (strataOf St (sample W n ω))).assign q))
    {on : S → Prop} {v : S → ℝ} {c₀ c₁ : Fin s} (h₀ : ∀ x, St x = c₀ → on x ∧ v x = 0)
    (h₁ : ∀ x, St x = c₁ → on x ∧ v x = 1) (p₀ : P.map (W 0) {x | St x = c₀} ≠ 0) (p₁ : P.map (W 0) {x | St x = c₁} ≠ 0) :
    Tendsto (fun n => P (Lacking H on v n)) atTop (𝓝 0) := by
  have hs := (hW.many hSt p₀).add (hW.many hSt p₁)
  rw [add_zero] at hs
  refine tendsto_zero_of_le (Eventually.of_forall fun n => ?_) hs
  refine le_trans (measure_mono ?_) (measure_union_le _ _)
  intro ω hω
  by_contra hne
  rw [Set.mem_union, not_or] at hne
  obtain ⟨g₀, g₁⟩ := hne
  have g₀ := not_not.1 g₀
  have g₁ := not_not.1 g₁
  refine hω fun T hT f hf => ?_
  rw [hH n ω] at hT
  obtain ⟨q, -, rfl⟩ := List.mem_map.1 hT
  obtain ⟨j, -, rfl⟩ := List.mem_map.1 hf
  obtain ⟨i₀, e₀, a₀⟩ := (hw n (strataOf St (sample W n ω)) q).outside hK (c := c₀) g₀ j
  obtain ⟨i₁, e₁, a₁⟩ := (hw n (strataOf St (sample W n ω)) q).outside hK (c := c₁) g₁ j
  have m₀ : i₀ ∈ (List.finRange n).filter fun i => ! decide ((w n (strataOf St (sample W n ω))).assign q i = j) := by
    simpa using a₀
  have m₁ : i₁ ∈ (List.finRange n).filter fun i => ! decide ((w n (strataOf St (sample W n ω))).assign q i = j) := by
    simpa using a₁
  exact ⟨⟨i₀, m₀, h₀ _ e₀⟩, ⟨i₁, m₁, h₁ _ e₁⟩⟩

section Both

variable [IsProbabilityMeasure P] {hW : Iid P W} {hK : 2 ≤ K} {hr : 0 < r} {hv : ∀ n, (sp n).vars = none}
    {hst : ∀ n, (sp n).stratified = true} {F : ∀ n, Ω → Frame n} {D : ∀ n, Ω → DataState n} {hD : Holds W tv y d ξ enc D}
    {st : ℕ → Ω → ℝ} {s : ℕ} {St : S → Fin s} {hSt : Measurable St} {w : ∀ n, (Fin n → Fin s) → Draws n}
    {hw : ∀ n α q, EvenDraw K α ((w n α).assign q)} {obj : ∀ n, Ω → LinState n Q}
    {hobj : ∀ᶠ n in atTop, ∀ ω, initModel (sp n) (D n ω) (st n ω) (.int K) (.int r) (.bool true)
      (w n (strataOf St (sample W n ω))) = .ok (obj n ω)}
    {args : FitArgs} {ha : ∀ n m, ValidArgs (sp n) tv m args} {hx : args.ext = .none}

/-- If both classes contain a stratum of positive probability, the training sets of created objects contain both classes
with probability tending to one. -/
theorem created_both {on : S → Prop} {v : S → ℝ} {c₀ c₁ : Fin s} (h₀ : ∀ x, St x = c₀ → on x ∧ v x = 0)
    (h₁ : ∀ x, St x = c₁ → on x ∧ v x = 1) (p₀ : P.map (W 0) {x | St x = c₀} ≠ 0) (p₁ : P.map (W 0) {x | St x = c₁} ≠ 0) :
    Tendsto (fun n => P (Lacking (Study.createdIn E hW hK hr hv hst F hD hSt hw hobj ha hx) on v n)) atTop (𝓝 0) :=
  drawn_both hW hK hSt hw (fun _ _ => rfl) h₀ h₁ p₀ p₁

end Both

/-- In the interactive model both treatment values have positive probability. -/
theorem IrmLaw.both {μ : Measure S} [IsProbabilityMeasure μ] {g₀ g₁ m : 𝒳 → ℝ} {τ : ℝ} (h : IrmLaw μ y d ξ g₀ g₁ m τ 4) :
    μ {x | d x = 0} ≠ 0 ∧ μ {x | d x = 1} ≠ 0 := by
  have hd1 : ∀ w, |d w| ≤ 1 := fun w => by rcases h.binary w with e | e <;> rw [e] <;> norm_num
  have hi : Integrable d μ := (memLp_of_bdd h.measD hd1 (p := 1)).integrable le_rfl
  have hm1 : ∀ w, |m (ξ w)| ≤ 1 := fun w => by
    have := h.overlap (ξ w)
    have hp := h.pos
    rw [abs_le]
    constructor <;> linarith
  have him : Integrable (fun w => m (ξ w)) μ := (memLp_of_bdd (h.measM.comp h.measX) hm1 (p := 1)).integrable le_rfl
  have h0 := h.treat.integral_eq h.measX (hi.sub him)
  rw [integral_sub hi him, sub_eq_zero] at h0
  have hl : τ ≤ ∫ w, m (ξ w) ∂μ := by
    have := integral_mono (μ := μ) (integrable_const τ) him fun w => (h.overlap (ξ w)).1
    simpa using this
  have hu : ∫ w, m (ξ w) ∂μ ≤ 1 - τ := by
    have := integral_mono (μ := μ) him (integrable_const (1 - τ)) fun w => (h.overlap (ξ w)).2
    simpa using this
  constructor
  · intro h1
    have : ∫ w, d w ∂μ = ∫ _w, (1 : ℝ) ∂μ := by
      refine integral_congr_ae ?_
      have := measure_eq_zero_iff_ae_notMem.1 h1
      filter_upwards [this] with w hw
      exact (h.binary w).resolve_left hw
    rw [integral_const] at this
    simp only [probReal_univ, smul_eq_mul, mul_one] at this
    have hp := h.pos
    linarith
  · intro h1
    have : ∫ w, d w ∂μ = ∫ _w, (0 : ℝ) ∂μ := by
      refine integral_congr_ae ?_
      have := measure_eq_zero_iff_ae_notMem.1 h1
      filter_upwards [this] with w hw
      exact (h.binary w).resolve_right hw
    rw [integral_zero] at this
    have hp := h.pos
    linarith

end DML
