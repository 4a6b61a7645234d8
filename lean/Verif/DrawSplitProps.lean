import Verif.SplittingProps

/-!
# Drawn sample splits and cluster splits (C23, C24, C25)
-/

namespace DML

/-! ## Lemmas on partitions -/

/-- Filtering by predicates of which exactly one holds gives a partition. -/
theorem filter_partition {ι : Type} {n : ℕ} (js : List ι) (hjs : js.Nodup) (P : ι → Fin n → Bool)
    (h : ∀ i, ∃ j ∈ js, P j i = true) (hu : ∀ i, ∀ j ∈ js, ∀ j' ∈ js, P j i = true → P j' i = true → j = j') :
    (js.flatMap fun j => (List.finRange n).filter (P j)).Perm (List.finRange n) := by
  refine (List.perm_ext_iff_of_nodup ?_ (List.nodup_finRange n)).2 ?_
  · rw [List.nodup_flatMap]
    refine ⟨fun j _ => (List.nodup_finRange n).filter _, ?_⟩
    refine List.Pairwise.imp_of_mem ?_ hjs
    intro j j' hj hj' hne i hi hi'
    simp only [List.mem_filter] at hi hi'
    exact hne (hu i j hj j' hj' hi.2 hi'.2)
  · intro i
    simp only [List.mem_flatMap, List.mem_filter, List.mem_finRange, true_and, iff_true]
    exact h i

theorem foldStart_zero (n k : ℕ) : foldStart n k 0 = 0 := by simp [foldStart]

theorem foldStart_last (n k : ℕ) (hk : 0 < k) : foldStart n k k = n := by
  unfold foldStart
  rw [min_eq_right (Nat.mod_lt n hk).le]
  exact Nat.div_add_mod n k

theorem foldStart_succ (n k j : ℕ) :
    foldStart n k (j + 1) = foldStart n k j + n / k + (if j < n % k then 1 else 0) := by
  unfold foldStart
  rw [Nat.add_mul, Nat.one_mul]
  split_ifs with h
  · rw [min_eq_left (by omega), min_eq_left (by omega)]; omega
  · rw [min_eq_right (by omega), min_eq_right (by omega)]; omega

theorem foldStart_mono (n k : ℕ) : Monotone (foldStart n k) :=
  monotone_nat_of_le_succ fun j => by rw [foldStart_succ, Nat.add_assoc]; exact Nat.le_add_right _ _

theorem exists_fold (n k p : ℕ) (hk : 0 < k) (hp : p < n) :
    ∃ j < k, foldStart n k j ≤ p ∧ p < foldStart n k (j + 1) := by
  have key : ∀ m, p < foldStart n k m → ∃ j < m, foldStart n k j ≤ p ∧ p < foldStart n k (j + 1) := by
    intro m
    induction m with
    | zero => intro h; rw [foldStart_zero] at h; omega
    | succ m ih =>
      intro h
      by_cases h' : p < foldStart n k m
      · obtain ⟨j, hj, hj'⟩ := ih h'
        exact ⟨j, by omega, hj'⟩
      · exact ⟨m, by omega, by omega, h⟩
  exact key k (by rw [foldStart_last n k hk]; exact hp)

theorem fold_unique (n k p j j' : ℕ) (h : foldStart n k j ≤ p ∧ p < foldStart n k (j + 1))
    (h' : foldStart n k j' ≤ p ∧ p < foldStart n k (j' + 1)) : j = j' := by
  by_contra hne
  rcases Nat.lt_or_gt_of_ne hne with hlt | hlt
  · have := foldStart_mono n k (show j + 1 ≤ j' by omega); omega
  · have := foldStart_mono n k (show j' + 1 ≤ j by omega); omega

theorem kfold_test_flatMap {n : ℕ} (k : ℕ) (σ : Equiv.Perm (Fin n)) :
    (kfold k σ).flatMap Fold.test = (List.range k).flatMap (kfoldTest k σ) := by
  unfold kfold; rw [List.flatMap_map]

theorem kfold_partition {n : ℕ} (k : ℕ) (hk : 0 < k) (σ : Equiv.Perm (Fin n)) :
    ((kfold k σ).flatMap Fold.test).Perm (List.finRange n) := by
  rw [kfold_test_flatMap]
  refine filter_partition (List.range k) List.nodup_range
    (fun j i => decide (foldStart n k j ≤ (σ.symm i).val ∧ (σ.symm i).val < foldStart n k (j + 1))) ?_ ?_
  · intro i
    obtain ⟨j, hj, h⟩ := exists_fold n k (σ.symm i).val hk (σ.symm i).isLt
    exact ⟨j, List.mem_range.2 hj, by simpa using h⟩
  · intro i j _ j' _ h h'
    simp only [decide_eq_true_eq] at h h'
    exact fold_unique n k _ j j' h h'

theorem kfoldTest_length {n : ℕ} (k j : ℕ) (hk : 0 < k) (hj : j < k) (σ : Equiv.Perm (Fin n)) :
    (kfoldTest k σ j).length = n / k + (if j < n % k then 1 else 0) := by
  have hle : foldStart n k (j + 1) ≤ n := by
    have := foldStart_mono n k (show j + 1 ≤ k by omega)
    rwa [foldStart_last n k hk] at this
  have h1 : (kfoldTest k σ j).length =
      (Finset.univ.filter fun i : Fin n =>
        foldStart n k j ≤ (σ.symm i).val ∧ (σ.symm i).val < foldStart n k (j + 1)).card := by
    have hnd : (kfoldTest k σ j).Nodup := (List.nodup_finRange n).filter _
    rw [← List.toFinset_card_of_nodup hnd]
    congr 1
    ext i
    simp [kfoldTest]
  have h2 : (Finset.univ.filter fun i : Fin n =>
        foldStart n k j ≤ (σ.symm i).val ∧ (σ.symm i).val < foldStart n k (j + 1)).card =
      (Finset.Ico (foldStart n k j) (foldStart n k (j + 1))).card := by
    refine Finset.card_bij (fun i _ => (σ.symm i).val) ?_ ?_ ?_
    · intro i hi; simpa using hi
    · intro i _ i' _ h
      exact σ.symm.injective (Fin.ext h)
    · intro p hp
      rw [Finset.mem_Ico] at hp
      exact ⟨σ ⟨p, by omega⟩, by simpa using hp, by simp⟩
  rw [h1, h2, Nat.card_Ico, foldStart_succ, Nat.add_assoc, Nat.add_sub_cancel_left]

theorem mem_kfoldTrain {n : ℕ} (k j : ℕ) (σ : Equiv.Perm (Fin n)) (i : Fin n) :
    i ∈ kfoldTrain k σ j ↔ i ∉ kfoldTest k σ j := by
  unfold kfoldTrain kfoldTest
  simp only [List.mem_filter, List.mem_finRange, true_and, Bool.not_eq_true', decide_eq_false_iff_not,
    decide_eq_true_eq]

theorem slice_flatMap {α : Type} (f : ℕ → List α) (k m i : ℕ) (hf : ∀ r, (f r).length = k) (hi : i < m) :
    (((List.range m).flatMap f).drop (i * k)).take k = f i := by
  have hlen : ∀ l : List ℕ, (l.flatMap f).length = l.length * k := by
    intro l
    induction l with
    | nil => simp
    | cons a l ih => rw [List.flatMap_cons, List.length_append, ih, hf, List.length_cons]; ring
  have hsplit : List.range m = List.range i ++ (i :: (List.range' (i + 1) (m - i - 1))) := by
    rw [List.range_eq_range', List.range_eq_range']
    have : m = i + (1 + (m - i - 1)) := by omega
    conv_lhs => rw [this]
    rw [← List.range'_append_1, ← List.range'_append_1]
    simp
  rw [hsplit, List.flatMap_append, List.flatMap_cons]
  rw [List.drop_left' (by rw [hlen, List.length_range])]
  rw [List.take_left' (hf i)]

theorem kfold_length {n : ℕ} (k : ℕ) (σ : Equiv.Perm (Fin n)) : (kfold k σ).length = k := by simp [kfold]

theorem drawSplit_eq {n : ℕ} (nFolds nRep : ℕ) (σ : ℕ → Equiv.Perm (Fin n)) (h2 : 2 ≤ nFolds) (hn : nFolds ≤ n) :
    drawSplit nFolds nRep σ = .ok ((List.range nRep).map fun r => kfold nFolds (σ r)) := by
  unfold drawSplit
  rw [if_neg (by omega), if_neg (by omega)]
  simp only [Except.ok.injEq]
  refine List.map_congr_left fun i hi => ?_
  have : (i + 1) * nFolds - i * nFolds = nFolds := by rw [Nat.add_mul]; omega
  rw [this]
  exact slice_flatMap (fun r => kfold nFolds (σ r)) nFolds nRep i (fun r => kfold_length _ _)
    (List.mem_range.1 hi)

/-! ## C23 -/

/-- A drawn fold as a pair of index arrays. -/
def Fold.toPair {n : ℕ} (f : Fold n) : IdxPair :=
  (f.train.map fun (i : Fin n) => (i.val : ℤ), f.test.map fun (i : Fin n) => (i.val : ℤ))

/-- One repetition is a balanced cross-fitting partition into `k` folds. -/
structure Balanced (n k : ℕ) (rep : List (Fold n)) : Prop where
  length : rep.length = k
  partition : (rep.flatMap Fold.test).Perm (List.finRange n)
  train : ∀ f ∈ rep, f.train.Nodup ∧ ∀ i, i ∈ f.train ↔ i ∉ f.test
  sizes : ∀ f ∈ rep, ∀ g ∈ rep, f.test.length ≤ g.test.length + 1
  nonempty : ∀ f ∈ rep, f.test ≠ [] ∧ f.train ≠ []

theorem kfold_balanced {n : ℕ} (k : ℕ) (σ : Equiv.Perm (Fin n)) (h2 : 2 ≤ k) (hn : k ≤ n) :
    Balanced n k (kfold k σ) := by
  have hmem : ∀ f ∈ kfold k σ, ∃ j < k, f = ⟨kfoldTrain k σ j, kfoldTest k σ j⟩ := by
    intro f hf
    simp only [kfold, List.mem_map, List.mem_range] at hf
    obtain ⟨j, hj, rfl⟩ := hf
    exact ⟨j, hj, rfl⟩
  have hpos : 0 < n / k := Nat.div_pos hn (by omega)
  have hne : ∀ j < k, kfoldTest k σ j ≠ [] := by
    intro j hj h0
    have := kfoldTest_length k j (by omega) hj σ
    rw [h0] at this
    simp at this
    omega
  refine ⟨kfold_length k σ, kfold_partition k (by omega) σ, ?_, ?_, ?_⟩
  · intro f hf
    obtain ⟨j, hj, rfl⟩ := hmem f hf
    exact ⟨(List.nodup_finRange n).filter _, fun i => mem_kfoldTrain k j σ i⟩
  · intro f hf g hg
    obtain ⟨j, hj, rfl⟩ := hmem f hf
    obtain ⟨j', hj', rfl⟩ := hmem g hg
    simp only [kfoldTest_length k j (by omega) hj σ, kfoldTest_length k j' (by omega) hj' σ]
    split_ifs <;> omega
  · intro f hf
    obtain ⟨j, hj, rfl⟩ := hmem f hf
    refine ⟨hne j hj, ?_⟩
    -- an element of another fold's test set
    obtain ⟨j', hj', hjj⟩ : ∃ j' < k, j' ≠ j := by
      by_cases h0 : j = 0
      · exact ⟨1, by omega, by omega⟩
      · exact ⟨0, by omega, by omega⟩
    obtain ⟨i, hi⟩ := List.exists_mem_of_ne_nil _ (hne j' hj')
    refine List.ne_nil_of_mem (a := i) ?_
    rw [mem_kfoldTrain]
    intro hi'
    simp only [kfoldTest, List.mem_filter, decide_eq_true_eq] at hi hi'
    exact hjj (fold_unique n k _ j' j hi.2 hi'.2)

/-- **C23.** For `n_obs ≥ n_folds ≥ 2` and every sequence of random permutations, a draw succeeds, has
`n_rep` repetitions and each of them is a balanced partition into `n_folds` folds with complementary
training sets; repetition `r` depends only on the `r`-th permutation (it is the single repetition that a
draw with `n_rep = 1` and that permutation returns). -/
theorem C23_drawn_splits_balanced {n : ℕ} (nFolds nRep : ℕ) (σ : ℕ → Equiv.Perm (Fin n))
    (h2 : 2 ≤ nFolds) (hn : nFolds ≤ n) :
    ∃ smpls, drawSplit nFolds nRep σ = .ok smpls ∧ smpls.length = nRep ∧
      (∀ rep ∈ smpls, Balanced n nFolds rep) ∧
      ∀ r (hr : r < smpls.length), drawSplit nFolds 1 (fun _ => σ r) = .ok [smpls[r]] := by
  refine ⟨_, drawSplit_eq nFolds nRep σ h2 hn, by simp, ?_, ?_⟩
  · intro rep hrep
    obtain ⟨r, _, rfl⟩ := List.mem_map.1 hrep
    exact kfold_balanced nFolds (σ r) h2 hn
  · intro r hr
    rw [drawSplit_eq nFolds 1 _ h2 hn]
    simp [List.getElem_map, List.getElem_range]

/-- **C23.** Too few folds, or more folds than observations, are rejected. -/
theorem C23_rejects {n : ℕ} (nFolds nRep : ℕ) (σ : ℕ → Equiv.Perm (Fin n)) :
    (nFolds < 2 ∨ n < nFolds) ↔ drawSplit nFolds nRep σ = .error .valueError := by
  constructor
  · intro h
    unfold drawSplit
    by_cases h1 : nFolds < 2
    · rw [if_pos h1]
    · rw [if_neg h1, if_pos (by omega)]
  · intro h
    by_contra hc
    rw [drawSplit_eq nFolds nRep σ (by omega) (by omega)] at h
    cases h

theorem map_val_pairwise {n : ℕ} (P : Fin n → Bool) :
    (((List.finRange n).filter P).map fun (i : Fin n) => (i.val : ℤ)).Pairwise (· ≤ ·) := by
  rw [List.pairwise_map]
  refine List.Pairwise.filter _ ?_
  exact (List.pairwise_lt_finRange n).imp fun h => by exact_mod_cast (Fin.lt_def.1 h).le

theorem finRange_map_allIdx (n : ℕ) : ((List.finRange n).map fun (i : Fin n) => (i.val : ℤ)) = allIdx n := by
  unfold allIdx
  rw [← List.map_coe_finRange_eq_range, List.map_map]; rfl

/-- A partition of the observations with disjoint training sets is a valid split in the sense of C22. -/
theorem validSplit_of_folds {n : ℕ} (rep : List (Fold n))
    (hp : (rep.flatMap Fold.test).Perm (List.finRange n)) (hnd : ∀ f ∈ rep, f.train.Nodup)
    (hd : ∀ f ∈ rep, ∀ i ∈ f.train, i ∉ f.test) : ValidSplit n (rep.map Fold.toPair) := by
  have hinj : Function.Injective fun (i : Fin n) => (i.val : ℤ) := fun a b h => Fin.ext (by simpa using h)
  refine ⟨?_, ?_, ?_⟩
  · rw [← finRange_map_allIdx, List.flatMap_map]
    have : (rep.flatMap fun f => f.toPair.2) = (rep.flatMap Fold.test).map fun (i : Fin n) => (i.val : ℤ) := by
      rw [List.map_flatMap]; rfl
    rw [this]
    exact hp.map _
  · intro p hp
    obtain ⟨f, hf, rfl⟩ := List.mem_map.1 hp
    refine ⟨(hnd f hf).map hinj, ?_⟩
    intro x hx
    obtain ⟨i, _, rfl⟩ := List.mem_map.1 hx
    have := i.isLt
    constructor <;> omega
  · intro p hp x hx hx'
    obtain ⟨f, hf, rfl⟩ := List.mem_map.1 hp
    obtain ⟨i, hi, rfl⟩ := List.mem_map.1 hx
    obtain ⟨i', hi', he⟩ := List.mem_map.1 hx'
    have := hinj he
    subst this
    exact hd f hf _ hi hi'

/-- **C23.** Passing a drawn split back to `set_sample_splitting` is accepted, stores the very same index
arrays and keeps `n_rep` and `n_folds`. -/
theorem C23_drawn_accepted {n : ℕ} (nFolds nRep : ℕ) (σ : ℕ → Equiv.Perm (Fin n)) (hrep : 1 ≤ nRep)
    (smpls : List (List (Fold n))) (h : drawSplit nFolds nRep σ = .ok smpls) :
    checkSampleSplitting n (nestedArg (smpls.map (List.map Fold.toPair))) =
      .ok (smpls.map (List.map Fold.toPair), nRep, nFolds) := by
  have hb : 2 ≤ nFolds ∧ nFolds ≤ n := by
    by_contra hc
    have := (C23_rejects nFolds nRep σ).1 (by omega)
    rw [h] at this; cases this
  rw [drawSplit_eq nFolds nRep σ hb.1 hb.2] at h
  obtain ⟨m, rfl⟩ : ∃ m, nRep = m + 1 := ⟨nRep - 1, by omega⟩
  cases h
  have hv : ∀ r, ValidSplit n ((kfold nFolds (σ r)).map Fold.toPair) := by
    intro r
    have := kfold_balanced nFolds (σ r) hb.1 hb.2
    exact validSplit_of_folds _ this.partition (fun f hf => (this.train f hf).1)
      fun f hf i hi => ((this.train f hf).2 i).1 hi
  rw [List.range_succ_eq_map]
  simp only [List.map_cons, List.map_map]
  rw [C22_nested_accepted_iff]
  refine ⟨?_, ?_, ?_, ?_⟩
  · intro h0
    have := congrArg List.length h0
    simp [kfold_length] at this
    omega
  · intro l hl
    obtain ⟨r, _, rfl⟩ := List.mem_map.1 hl
    simp [kfold_length]
  · intro l hl
    rcases List.mem_cons.1 hl with rfl | hl
    · exact hv 0
    · obtain ⟨r, _, rfl⟩ := List.mem_map.1 hl
      exact hv _
  · have hs : ∀ r, ((kfold nFolds (σ r)).map Fold.toPair).map (fun p => (isort p.1, isort p.2)) =
        (kfold nFolds (σ r)).map Fold.toPair := by
      intro r
      rw [List.map_map]
      refine List.map_congr_left fun f hf => ?_
      simp only [kfold, List.mem_map] at hf
      obtain ⟨j, _, rfl⟩ := hf
      simp only [Function.comp, Fold.toPair]
      exact Prod.ext (isort_of_pairwise (map_val_pairwise _)) (isort_of_pairwise (map_val_pairwise _))
    simp only [List.map_cons, List.map_map, List.length_map, List.length_range, kfold_length, Prod.mk.injEq,
      and_true]
    congr 1
    · rw [← List.map_map]; exact (hs 0).symm
    · refine List.map_congr_left fun r _ => ?_
      simp only [Function.comp]
      exact (hs (r + 1)).symm

/-- Non-vacuity of C23: 5 observations, 2 folds, 3 repetitions. -/
example : ∃ smpls, drawSplit 2 3 (fun _ => Equiv.refl (Fin 5)) = .ok smpls ∧ smpls.length = 3 := by
  obtain ⟨s, h1, h2, _⟩ := C23_drawn_splits_balanced (n := 5) 2 3 (fun _ => Equiv.refl _) (by norm_num) (by norm_num)
  exact ⟨s, h1, h2⟩

/-- **C23 (stratified).** Whatever fold number below `n_folds` the stratified draw gives each observation,
the resulting folds partition the observations and training sets are the complements. -/
theorem C23_stratified_partition {n : ℕ} (k : ℕ) (a : Fin n → ℕ) (ha : ∀ i, a i < k) :
    (assignFolds k a).length = k ∧ ((assignFolds k a).flatMap Fold.test).Perm (List.finRange n) ∧
    (∀ f ∈ assignFolds k a, f.train.Nodup ∧ ∀ i, i ∈ f.train ↔ i ∉ f.test) := by
  refine ⟨by simp [assignFolds], ?_, ?_⟩
  · unfold assignFolds
    rw [List.flatMap_map]
    refine filter_partition (List.range k) List.nodup_range (fun j i => decide (a i = j)) ?_ ?_
    · intro i; exact ⟨a i, List.mem_range.2 (ha i), by simp⟩
    · intro i j _ j' _ h h'
      simp only [decide_eq_true_eq] at h h'
      exact h.symm.trans h'
  · intro f hf
    simp only [assignFolds, List.mem_map] at hf
    obtain ⟨j, _, rfl⟩ := hf
    exact ⟨(List.nodup_finRange n).filter _, by simp⟩

/-! ## C24: lemmas -/

theorem uniqueSorted_nodup {n : ℕ} (c : Fin n → ℤ) : (uniqueSorted c).Nodup := Finset.sort_nodup _ _

theorem mem_uniqueSorted {n : ℕ} (c : Fin n → ℤ) (x : ℤ) : x ∈ uniqueSorted c ↔ ∃ i, c i = x := by
  simp [uniqueSorted]

/-- Properties of the cluster folds of one variable. -/
structure GoodFolds {n : ℕ} (k : ℕ) (c : Fin n → ℤ) (s : List (List ℤ × List ℤ)) : Prop where
  ex : ∀ i, ∃ j < k, c i ∈ (s.getD j ([], [])).2
  uniq : ∀ i, ∀ j < k, ∀ j' < k, c i ∈ (s.getD j ([], [])).2 → c i ∈ (s.getD j' ([], [])).2 → j = j'
  perm : ∀ j < k, ((s.getD j ([], [])).1 ++ (s.getD j ([], [])).2).Perm (uniqueSorted c)

theorem clusterKfold_getD (k : ℕ) (cl : List ℤ) (σ : Equiv.Perm (Fin cl.length)) (j : ℕ) (hj : j < k) :
    (clusterKfold k cl σ).getD j ([], []) =
      ((kfoldTrain k σ j).map cl.get, (kfoldTest k σ j).map cl.get) := by
  unfold clusterKfold kfold
  simp [List.getD_eq_getElem?_getD, List.getElem?_range hj]

theorem kfold_train_test_perm {n : ℕ} (k j : ℕ) (σ : Equiv.Perm (Fin n)) :
    (kfoldTrain k σ j ++ kfoldTest k σ j).Perm (List.finRange n) := by
  refine (List.perm_ext_iff_of_nodup ?_ (List.nodup_finRange n)).2 ?_
  · rw [List.nodup_append]
    refine ⟨(List.nodup_finRange n).filter _, (List.nodup_finRange n).filter _, ?_⟩
    rintro a ha b hb rfl
    exact (mem_kfoldTrain k j σ a).1 ha hb
  · intro i
    simp only [List.mem_append, List.mem_finRange, iff_true]
    rw [mem_kfoldTrain]
    tauto

theorem goodFolds_clusterKfold {n : ℕ} (k : ℕ) (hk : 0 < k) (c : Fin n → ℤ)
    (σ : Equiv.Perm (Fin (uniqueSorted c).length)) : GoodFolds k c (clusterKfold k (uniqueSorted c) σ) := by
  have hinj : Function.Injective (uniqueSorted c).get := List.nodup_iff_injective_get.1 (uniqueSorted_nodup c)
  refine ⟨?_, ?_, ?_⟩
  · intro i
    obtain ⟨p, hp⟩ := List.get_of_mem ((mem_uniqueSorted c (c i)).2 ⟨i, rfl⟩)
    obtain ⟨j, hj, h⟩ := exists_fold _ k (σ.symm p).val hk (σ.symm p).isLt
    refine ⟨j, hj, ?_⟩
    rw [clusterKfold_getD k _ σ j hj]
    exact List.mem_map.2 ⟨p, by simpa [kfoldTest] using h, hp⟩
  · intro i j hj j' hj' h h'
    rw [clusterKfold_getD k _ σ j hj] at h
    rw [clusterKfold_getD k _ σ j' hj'] at h'
    obtain ⟨p, hp, hpe⟩ := List.mem_map.1 h
    obtain ⟨p', hp', hpe'⟩ := List.mem_map.1 h'
    have := hinj (hpe.trans hpe'.symm)
    subst this
    simp only [kfoldTest, List.mem_filter, decide_eq_true_eq] at hp hp'
    exact fold_unique _ k _ j j' hp.2 hp'.2
  · intro j hj
    rw [clusterKfold_getD k _ σ j hj]
    simp only [← List.map_append]
    have := (kfold_train_test_perm k j σ).map (uniqueSorted c).get
    rwa [List.map_get_finRange] at this

theorem mem_cart (k v : ℕ) (ix : List ℕ) : ix ∈ cart k v ↔ ix.length = v ∧ ∀ j ∈ ix, j < k := by
  induction v generalizing ix with
  | zero =>
    simp only [cart, List.mem_singleton]
    constructor
    · rintro rfl; simp
    · rintro ⟨h, _⟩; exact List.length_eq_zero_iff.1 h
  | succ v ih =>
    simp only [cart, List.mem_flatMap, List.mem_range, List.mem_map]
    constructor
    · rintro ⟨a, ha, l, hl, rfl⟩
      rw [ih] at hl
      refine ⟨by simp [hl.1], ?_⟩
      intro j hj
      rcases List.mem_cons.1 hj with rfl | hj
      · exact ha
      · exact hl.2 j hj
    · rintro ⟨h1, h2⟩
      cases ix with
      | nil => simp at h1
      | cons a l =>
        refine ⟨a, h2 a (by simp), l, ?_, rfl⟩
        rw [ih]
        exact ⟨by simpa using h1, fun j hj => h2 j (List.mem_cons_of_mem _ hj)⟩

theorem cart_nodup (k v : ℕ) : (cart k v).Nodup := by
  induction v with
  | zero => simp [cart]
  | succ v ih =>
    simp only [cart]
    rw [List.nodup_flatMap]
    refine ⟨fun a _ => ih.map (fun x y h => by simpa using h), ?_⟩
    refine List.Pairwise.imp_of_mem ?_ (List.nodup_range (n := k))
    intro a b _ _ hne l hl hl'
    obtain ⟨x, _, rfl⟩ := List.mem_map.1 hl
    obtain ⟨y, _, h⟩ := List.mem_map.1 hl'
    simp only [List.cons.injEq] at h
    exact hne h.1.symm

theorem cart_length (k v : ℕ) : (cart k v).length = k ^ v := by
  induction v with
  | zero => simp [cart]
  | succ v ih =>
    simp only [cart, List.length_flatMap, List.length_map, ih]
    simp [pow_succ, mul_comm]

/-- An observation is a test observation of exactly one combination of folds. -/
theorem exists_unique_pick {n : ℕ} (k : ℕ) (i : Fin n) (vars : List (Fin n → ℤ))
    (sv : List (List (List ℤ × List ℤ))) (h : List.Forall₂ (GoodFolds k) vars sv) :
    (∃ ix ∈ cart k vars.length, ((vars.zip (pickFolds sv ix)).all fun q => q.2.2.contains (q.1 i)) = true) ∧
    ∀ ix ∈ cart k vars.length, ∀ ix' ∈ cart k vars.length,
      ((vars.zip (pickFolds sv ix)).all fun q => q.2.2.contains (q.1 i)) = true →
      ((vars.zip (pickFolds sv ix')).all fun q => q.2.2.contains (q.1 i)) = true → ix = ix' := by
  induction h with
  | nil => simp [cart, pickFolds]
  | cons hc _ ih =>
    rename_i c s vars sv _
    obtain ⟨⟨ix, hix, hall⟩, hun⟩ := ih
    obtain ⟨j, hj, hmem⟩ := hc.ex i
    constructor
    · refine ⟨j :: ix, ?_, ?_⟩
      · rw [mem_cart] at hix ⊢
        refine ⟨by simp [hix.1], ?_⟩
        intro a ha
        rcases List.mem_cons.1 ha with rfl | ha
        · exact hj
        · exact hix.2 a ha
      · simp only [pickFolds, List.zipWith_cons_cons, List.zip_cons_cons, List.all_cons, Bool.and_eq_true,
          List.contains_iff_mem]
        exact ⟨hmem, hall⟩
    · intro a ha b hb h1 h2
      rw [mem_cart] at ha hb
      cases a with
      | nil => simp at ha
      | cons a0 a =>
        cases b with
        | nil => simp at hb
        | cons b0 b =>
          simp only [pickFolds, List.zipWith_cons_cons, List.zip_cons_cons, List.all_cons, Bool.and_eq_true,
            List.contains_iff_mem] at h1 h2
          have e0 : a0 = b0 := hc.uniq i a0 (ha.2 a0 (by simp)) b0 (hb.2 b0 (by simp)) h1.1 h2.1
          have e1 : a = b := hun a ((mem_cart _ _ _).2 ⟨by simpa using ha.1, fun j hj => ha.2 j (by simp [hj])⟩)
            b ((mem_cart _ _ _).2 ⟨by simpa using hb.1, fun j hj => hb.2 j (by simp [hj])⟩) h1.2 h2.2
          rw [e0, e1]

theorem picks_perm {n : ℕ} (k : ℕ) (vars : List (Fin n → ℤ)) (sv : List (List (List ℤ × List ℤ)))
    (h : List.Forall₂ (GoodFolds k) vars sv) (ix : List ℕ) (hix : ix ∈ cart k vars.length) :
    List.Forall₂ (fun c p => (p.1 ++ p.2).Perm (uniqueSorted c)) vars (pickFolds sv ix) := by
  induction h generalizing ix with
  | nil => simp [pickFolds]
  | cons hc _ ih =>
    rw [mem_cart] at hix
    cases ix with
    | nil => simp at hix
    | cons a ix =>
      simp only [pickFolds, List.zipWith_cons_cons]
      refine List.Forall₂.cons (hc.perm a (hix.2 a (by simp))) ?_
      exact ih ix ((mem_cart _ _ _).2 ⟨by simpa using hix.1, fun j hj => hix.2 j (by simp [hj])⟩)

theorem drawClusterRep_ok {n : ℕ} (k : ℕ) (vars : List (Fin n → ℤ)) (σ : ℕ → (m : ℕ) → Equiv.Perm (Fin m))
    (rep : List (Fold n × ClusterPair)) (h : drawClusterRep k vars σ = .ok rep) :
    ∃ sv, List.Forall₂ (GoodFolds k) vars sv ∧ rep = (cart k vars.length).map (clusterFold vars sv) ∧
      (∀ c ∈ vars, 2 ≤ k ∧ k ≤ (uniqueSorted c).length) := by
  unfold drawClusterRep at h
  obtain ⟨sv, hsv, h⟩ := bind_ok h
  rw [mapM_ok_iff] at hsv
  have key : List.Forall₂ (fun c s => GoodFolds k c s ∧ 2 ≤ k ∧ k ≤ (uniqueSorted c).length) vars sv := by
    have h1 : List.Forall₂ (fun (cv : (Fin n → ℤ) × ℕ) s =>
        GoodFolds k cv.1 s ∧ 2 ≤ k ∧ k ≤ (uniqueSorted cv.1).length) vars.zipIdx sv := by
      refine hsv.imp ?_
      intro cv s hs
      by_cases hc : k < 2 ∨ (uniqueSorted cv.1).length < k
      · rw [if_pos hc] at hs; cases hs
      · rw [if_neg hc] at hs
        cases hs
        exact ⟨goodFolds_clusterKfold k (by omega) cv.1 _, by omega, by omega⟩
    rw [← List.forall₂_map_left_iff (f := Prod.fst) (R := fun c s =>
      GoodFolds k c s ∧ 2 ≤ k ∧ k ≤ (uniqueSorted c).length)] at h1
    simpa using h1
  refine ⟨sv, key.imp fun _ _ h => h.1, ?_, ?_⟩
  · cases h; rfl
  · intro c hc
    obtain ⟨i, hi, rfl⟩ := List.getElem_of_mem hc
    have hi' : i < sv.length := by rw [← key.length_eq]; exact hi
    exact ((List.forall₂_iff_get.1 key).2 i hi hi').2

/-! ## C24 -/

/-- Specification of a cluster split of one repetition (`vars`: the cluster variables): the number of
folds, test sets partition the observations, no cluster is shared between training and test set in any
dimension, and training (test) sets contain exactly the observations none (all) of whose clusters are test
clusters; the train and test clusters of each variable partition its clusters. -/
structure ClusterValid {n : ℕ} (k : ℕ) (vars : List (Fin n → ℤ)) (rep : List (Fold n × ClusterPair)) : Prop where
  length : rep.length = k ^ vars.length
  partition : (rep.flatMap fun f => f.1.test).Perm (List.finRange n)
  noLeak : ∀ f ∈ rep, ∀ i ∈ f.1.train, ∀ j ∈ f.1.test, ∀ c ∈ vars, c i ≠ c j
  train : ∀ f ∈ rep, ∀ i, i ∈ f.1.train ↔ ∀ q ∈ vars.zip f.2.2, q.1 i ∉ q.2
  test : ∀ f ∈ rep, ∀ i, i ∈ f.1.test ↔ ∀ q ∈ vars.zip f.2.2, q.1 i ∈ q.2
  clusters : ∀ f ∈ rep, f.2.1.length = vars.length ∧ f.2.2.length = vars.length ∧
    List.Forall₂ (fun c p => (p.1 ++ p.2).Perm (uniqueSorted c)) vars (f.2.1.zip f.2.2)

/-- **C24.** Every drawn cluster split satisfies the specification, for every cluster structure, number of
folds and random draw. -/
theorem C24_cluster_split_valid {n : ℕ} (k : ℕ) (vars : List (Fin n → ℤ))
    (σ : ℕ → (m : ℕ) → Equiv.Perm (Fin m)) (rep : List (Fold n × ClusterPair))
    (h : drawClusterRep k vars σ = .ok rep) : ClusterValid k vars rep := by
  obtain ⟨sv, hsv, rfl, _⟩ := drawClusterRep_ok k vars σ rep h
  have hmem : ∀ f ∈ (cart k vars.length).map (clusterFold vars sv),
      ∃ ix ∈ cart k vars.length, f = clusterFold vars sv ix := by
    intro f hf
    obtain ⟨ix, hix, rfl⟩ := List.mem_map.1 hf
    exact ⟨ix, hix, rfl⟩
  have htrain : ∀ ix ∈ cart k vars.length, ∀ i, i ∈ (clusterFold vars sv ix).1.train ↔
      ∀ q ∈ vars.zip (pickFolds sv ix), q.1 i ∈ q.2.1 := by
    intro ix _ i
    simp [clusterFold]
  have htest : ∀ ix ∈ cart k vars.length, ∀ i, i ∈ (clusterFold vars sv ix).1.test ↔
      ∀ q ∈ vars.zip (pickFolds sv ix), q.1 i ∈ q.2.2 := by
    intro ix _ i
    simp [clusterFold]
  have hq : ∀ ix ∈ cart k vars.length, ∀ q ∈ vars.zip (pickFolds sv ix), ∀ i,
      (q.1 i ∈ q.2.1 ↔ q.1 i ∉ q.2.2) ∧ ∀ j, q.1 i ∈ q.2.1 → q.1 j ∈ q.2.2 → q.1 i ≠ q.1 j := by
    intro ix hix q hqm i
    have hperm := @(List.forall₂_iff_zip.1 (picks_perm k vars sv hsv ix hix)).2 q.1 q.2 hqm
    have hnd : (q.2.1 ++ q.2.2).Nodup := hperm.nodup_iff.2 (uniqueSorted_nodup _)
    rw [List.nodup_append] at hnd
    have hcov := hperm.mem_iff.2 ((mem_uniqueSorted q.1 (q.1 i)).2 ⟨i, rfl⟩)
    rw [List.mem_append] at hcov
    refine ⟨⟨fun h1 h2 => hnd.2.2 _ h1 _ h2 rfl, fun h2 => by tauto⟩, ?_⟩
    intro j h1 h2
    exact hnd.2.2 _ h1 _ h2
  have hzip : ∀ ix, vars.zip (clusterFold vars sv ix).2.2 =
      (vars.zip (pickFolds sv ix)).map fun q => (q.1, q.2.2) := by
    intro ix
    simp only [clusterFold]
    rw [List.zip_map_right]
    rfl
  refine ⟨by simp [cart_length], ?_, ?_, ?_, ?_, ?_⟩
  · rw [List.flatMap_map]
    refine filter_partition (cart k vars.length) (cart_nodup _ _)
      (fun ix i => (vars.zip (pickFolds sv ix)).all fun q => q.2.2.contains (q.1 i)) ?_ ?_
    · intro i; exact (exists_unique_pick k i vars sv hsv).1
    · intro i; exact (exists_unique_pick k i vars sv hsv).2
  · intro f hf i hi j hj c hc
    obtain ⟨ix, hix, rfl⟩ := hmem f hf
    have hlen := (picks_perm k vars sv hsv ix hix).length_eq
    obtain ⟨v, hv, rfl⟩ := List.getElem_of_mem hc
    have hv' : v < (vars.zip (pickFolds sv ix)).length := by rw [List.length_zip]; omega
    have hqm := List.getElem_mem hv'
    have h1 := (htrain ix hix i).1 hi _ hqm
    have h2 := (htest ix hix j).1 hj _ hqm
    have := (hq ix hix _ hqm i).2 j h1 h2
    simpa using this
  · intro f hf i
    obtain ⟨ix, hix, rfl⟩ := hmem f hf
    rw [htrain ix hix, hzip]
    constructor
    · intro h q hqm
      obtain ⟨q', hq', rfl⟩ := List.mem_map.1 hqm
      exact (hq ix hix q' hq' i).1.1 (h q' hq')
    · intro h q hqm
      exact (hq ix hix q hqm i).1.2 (h _ (List.mem_map.2 ⟨q, hqm, rfl⟩))
  · intro f hf i
    obtain ⟨ix, hix, rfl⟩ := hmem f hf
    rw [htest ix hix, hzip]
    constructor
    · intro h q hqm
      obtain ⟨q', hq', rfl⟩ := List.mem_map.1 hqm
      exact h q' hq'
    · intro h q hqm
      exact h _ (List.mem_map.2 ⟨q, hqm, rfl⟩)
  · intro f hf
    obtain ⟨ix, hix, rfl⟩ := hmem f hf
    have hp := picks_perm k vars sv hsv ix hix
    simp only [clusterFold, List.length_map]
    refine ⟨hp.length_eq.symm, hp.length_eq.symm, ?_⟩
    rw [← List.unzip_fst, ← List.unzip_snd, List.zip_unzip]
    exact hp

theorem drawCluster_rep {n : ℕ} (k nRep : ℕ) (vars : List (Fin n → ℤ))
    (σ : ℕ → ℕ → (m : ℕ) → Equiv.Perm (Fin m)) (S : List (List (Fold n × ClusterPair)))
    (h : drawCluster k nRep vars σ = .ok S) :
    S.length = nRep ∧ ∀ r (hr : r < S.length), drawClusterRep k vars (σ r) = .ok S[r] := by
  unfold drawCluster at h
  rw [mapM_ok_iff] at h
  have hl : S.length = nRep := by rw [← h.length_eq]; simp
  refine ⟨hl, fun r hr => ?_⟩
  have := (List.forall₂_iff_get.1 h).2 r (by simp; omega) hr
  simpa using this

/-- **C24.** All repetitions. -/
theorem C24_all_repetitions {n : ℕ} (k nRep : ℕ) (vars : List (Fin n → ℤ))
    (σ : ℕ → ℕ → (m : ℕ) → Equiv.Perm (Fin m)) (S : List (List (Fold n × ClusterPair)))
    (h : drawCluster k nRep vars σ = .ok S) :
    S.length = nRep ∧ ∀ rep ∈ S, ClusterValid k vars rep := by
  obtain ⟨hl, hr⟩ := drawCluster_rep k nRep vars σ S h
  refine ⟨hl, fun rep hrep => ?_⟩
  obtain ⟨r, hr', rfl⟩ := List.getElem_of_mem hrep
  exact C24_cluster_split_valid k vars (σ r) _ (hr r hr')

/-- **C24.** A draw succeeds exactly if there are at least two folds and no cluster variable has fewer
clusters than folds (for at least one repetition and cluster variable). -/
theorem C24_draw_succeeds_iff {n : ℕ} (k : ℕ) (vars : List (Fin n → ℤ))
    (σ : ℕ → (m : ℕ) → Equiv.Perm (Fin m)) :
    (∃ rep, drawClusterRep k vars σ = .ok rep) ↔ ∀ c ∈ vars, 2 ≤ k ∧ k ≤ nUnique c := by
  have hu : ∀ c : Fin n → ℤ, (uniqueSorted c).length = nUnique c := fun c => by simp [uniqueSorted, nUnique]
  constructor
  · rintro ⟨rep, h⟩
    obtain ⟨_, _, _, h'⟩ := drawClusterRep_ok k vars σ rep h
    intro c hc
    have := h' c hc
    rwa [hu] at this
  · intro h
    have : ∃ sv, vars.zipIdx.mapM (fun cv =>
        if k < 2 ∨ (uniqueSorted cv.1).length < k then
          (.error .valueError : Except Exc (List (List ℤ × List ℤ)))
        else .ok (clusterKfold k (uniqueSorted cv.1) (σ cv.2 _))) = .ok sv := by
      refine ⟨vars.zipIdx.map fun cv => clusterKfold k (uniqueSorted cv.1) (σ cv.2 _), ?_⟩
      rw [mapM_ok_iff, List.forall₂_map_right_iff]
      refine List.forall₂_same.2 fun cv hcv => ?_
      have hmem : cv.1 ∈ vars := by
        have : cv.1 ∈ vars.zipIdx.map Prod.fst := List.mem_map.2 ⟨cv, hcv, rfl⟩
        simpa using this
      have := h cv.1 hmem
      rw [if_neg (by rw [hu]; omega)]
    obtain ⟨sv, hsv⟩ := this
    unfold drawClusterRep
    rw [hsv]
    exact ⟨_, rfl⟩

/-- Non-vacuity of C24: four observations in two dimensions with two clusters each. -/
example : ∃ rep, drawClusterRep (n := 4) 2 [![0, 0, 1, 1], ![0, 1, 0, 1]] (fun _ m => Equiv.refl (Fin m)) = .ok rep ∧
    ClusterValid 2 [![0, 0, 1, 1], ![0, 1, 0, 1]] rep := by
  obtain ⟨rep, h⟩ := (C24_draw_succeeds_iff (n := 4) 2 [![0, 0, 1, 1], ![0, 1, 0, 1]]
    (fun _ m => Equiv.refl (Fin m))).2 (by
      intro c hc
      simp only [List.mem_cons, List.not_mem_nil, or_false] at hc
      rcases hc with rfl | rfl <;> exact ⟨by norm_num, by decide⟩)
  exact ⟨rep, h, C24_cluster_split_valid _ _ _ _ h⟩

/-- **C24 (limit).** With two cluster variables a drawn fold can have an empty test set although every
cluster is non-empty (here: observations only on the diagonal of the cluster grid), so a fit with such a
split asks learners for predictions on no data. -/
theorem C24_empty_test_possible : ∃ rep, drawClusterRep (n := 2) 2 [![0, 1], ![0, 1]]
    (fun _ m => Equiv.refl (Fin m)) = .ok rep ∧ ∃ f ∈ rep, f.1.test = [] := by
  obtain ⟨rep, h⟩ := (C24_draw_succeeds_iff (n := 2) 2 [![0, 1], ![0, 1]]
    (fun _ m => Equiv.refl (Fin m))).2 (by
      intro c hc
      simp only [List.mem_cons, List.not_mem_nil, or_false] at hc
      rcases hc with rfl | rfl <;> exact ⟨by norm_num, by decide⟩)
  refine ⟨rep, h, ?_⟩
  have hv := C24_cluster_split_valid _ _ _ _ h
  by_contra hc
  push Not at hc
  have hlen := hv.length
  have hp := hv.partition.length_eq
  rw [List.length_flatMap] at hp
  have hge : rep.length ≤ (rep.map fun f => f.1.test.length).sum := by
    have : ∀ l : List (Fold 2 × ClusterPair), (∀ f ∈ l, f.1.test ≠ []) →
        l.length ≤ (l.map fun f => f.1.test.length).sum := by
      intro l
      induction l with
      | nil => simp
      | cons a l ih =>
        intro hl
        have h1 := ih fun f hf => hl f (List.mem_cons_of_mem _ hf)
        have h2 : 0 < a.1.test.length := List.length_pos_of_ne_nil (hl a (by simp))
        simp only [List.length_cons, List.map_cons, List.sum_cons]
        omega
    exact this rep hc
  simp at hlen hp
  omega

/-! ## C25 -/

/-- Specification: in every repetition and fold the train and test clusters of every cluster variable
together are exactly its clusters. -/
def ValidClusterSplit {n : ℕ} (vars : List (Fin n → ℤ)) (cl : List (List ClusterPair)) : Prop :=
  ∀ rep ∈ cl, ∀ f ∈ rep, ∀ v (hv : v < vars.length),
    ∃ tr te, f.1[v]? = some tr ∧ f.2[v]? = some te ∧ (tr ++ te).Perm (uniqueSorted vars[v])

theorem checkClusterPartitions_iff (tr te : List ℤ) (vals : List ℤ) :
    checkClusterPartitions [tr, te] vals = true ↔ (tr ++ te).Perm vals := by
  unfold checkClusterPartitions
  simp only [List.flatten_cons, List.flatten_nil, List.append_nil, Bool.and_eq_true, decide_eq_true_eq,
    isort_eq_iff]
  exact ⟨fun h => h.2, fun h => ⟨h.length_eq, h⟩⟩

theorem checkClusterVar_ok_iff {n : ℕ} (f : ClusterPair) (fs : List ClusterPair) (rs : List (List ClusterPair))
    (c : Fin n → ℤ) (v : ℕ) : checkClusterVar ((f :: fs) :: rs) c v = .ok () ↔
      ∃ tr te, f.1[v]? = some tr ∧ f.2[v]? = some te ∧ (tr ++ te).Perm (uniqueSorted c) := by
  unfold checkClusterVar
  simp only
  cases h1 : f.1[v]? with
  | none => simp
  | some tr =>
    cases h2 : f.2[v]? with
    | none => simp
    | some te =>
      simp only [← checkClusterPartitions_iff]
      by_cases hp : checkClusterPartitions [tr, te] (uniqueSorted c) = true
      · rw [if_pos hp]; simp [hp]
      · rw [if_neg hp]; simp [hp]

theorem mapM_unit_ok_iff {α β : Type} (g : α → Except Exc β) (l : List α) :
    (∃ r, l.mapM g = .ok r) ↔ ∀ a ∈ l, ∃ b, g a = .ok b := by
  constructor
  · rintro ⟨r, h⟩ a ha
    rw [mapM_ok_iff] at h
    obtain ⟨i, hi, rfl⟩ := List.getElem_of_mem ha
    have hi' : i < r.length := by rw [← h.length_eq]; exact hi
    exact ⟨_, (List.forall₂_iff_get.1 h).2 i hi hi'⟩
  · intro h
    induction l with
    | nil => exact ⟨[], rfl⟩
    | cons a l ih =>
      obtain ⟨b, hb⟩ := h a (by simp)
      obtain ⟨r, hr⟩ := ih fun a ha => h a (List.mem_cons_of_mem _ ha)
      refine ⟨b :: r, ?_⟩
      rw [mapM_ok_iff] at hr ⊢
      exact List.Forall₂.cons hb hr

/-- **C25 (what is checked).** A cluster split is accepted iff its dimensions match and the cluster
partition of *the first fold of the first repetition* is valid; it is stored unchanged. -/
theorem C25_accepted_iff_partial {n : ℕ} (vars : List (Fin n → ℤ)) (nRep nFolds : ℕ) (h1 : 1 ≤ nRep)
    (h2 : 1 ≤ nFolds) (cl out : List (List ClusterPair)) :
    checkClusterSplitting (some cl) vars nRep nFolds = .ok out ↔
      out = cl ∧ cl.length = nRep ∧ (∀ rep ∈ cl, rep.length = nFolds) ∧
      ∀ rep ∈ cl.head?, ∀ f ∈ rep.head?, ValidClusterSplit vars [[f]] := by
  have hstep : ∀ rep : List ClusterPair, (∃ u, (if rep.length ≠ nFolds then (.error .valueError : Except Exc Unit)
        else do
          let _ ← vars.zipIdx.mapM fun ci => checkClusterVar cl ci.1 ci.2
          return ()) = .ok u) ↔
      rep.length = nFolds ∧ ∀ ci ∈ vars.zipIdx, checkClusterVar cl ci.1 ci.2 = .ok () := by
    intro rep
    by_cases hl : rep.length = nFolds
    · rw [if_neg (not_not.2 hl)]
      simp only [hl, true_and]
      constructor
      · rintro ⟨u, hu⟩
        obtain ⟨r, hr, _⟩ := bind_ok hu
        intro ci hci
        obtain ⟨b, hb⟩ := (mapM_unit_ok_iff _ _).1 ⟨r, hr⟩ ci hci
        exact hb
      · intro h
        obtain ⟨r, hr⟩ := (mapM_unit_ok_iff (fun ci : (Fin n → ℤ) × ℕ => checkClusterVar cl ci.1 ci.2)
          vars.zipIdx).2 fun ci hci => ⟨_, h ci hci⟩
        exact ⟨(), by rw [hr]; rfl⟩
    · rw [if_pos hl]; simp [hl]
  have hzi : (∀ ci ∈ vars.zipIdx, checkClusterVar cl ci.1 ci.2 = .ok ()) ↔
      ∀ v (hv : v < vars.length), checkClusterVar cl vars[v] v = .ok () := by
    constructor
    · intro h v hv
      exact h (vars[v], v) (by rw [List.mem_zipIdx_iff_getElem?]; simp [hv])
    · rintro h ⟨c, v⟩ hci
      rw [List.mem_zipIdx_iff_getElem?] at hci
      simp only at hci
      obtain ⟨hv, rfl⟩ := List.getElem?_eq_some_iff.1 hci
      exact h v hv
  unfold checkClusterSplitting
  simp only
  by_cases hlen : cl.length = nRep
  swap
  · rw [if_pos hlen]
    simp only [reduceCtorEq, false_iff]
    rintro ⟨_, h, _⟩; exact hlen h
  rw [if_neg (not_not.2 hlen)]
  have hmain : (∃ r, cl.mapM (fun rep : List ClusterPair =>
        if rep.length ≠ nFolds then (.error .valueError : Except Exc Unit)
        else do
          let _ ← vars.zipIdx.mapM fun ci => checkClusterVar cl ci.1 ci.2
          return ()) = .ok r) ↔
      (∀ rep ∈ cl, rep.length = nFolds) ∧ ∀ rep ∈ cl.head?, ∀ f ∈ rep.head?, ValidClusterSplit vars [[f]] := by
    rw [mapM_unit_ok_iff]
    simp only [hstep, hzi]
    match cl, hlen with
    | [], hlen => simp at hlen; omega
    | [] :: rs, hlen =>
      constructor
      · intro h
        have := (h [] (by simp)).1
        simp at this; omega
      · rintro ⟨h, _⟩
        have := h [] (by simp)
        simp at this; omega
    | (f :: fs) :: rs, hlen =>
      have hv : ValidClusterSplit vars [[f]] ↔
          ∀ v (hv : v < vars.length), checkClusterVar ((f :: fs) :: rs) vars[v] v = .ok () := by
        simp only [ValidClusterSplit, List.mem_singleton, forall_eq, checkClusterVar_ok_iff]
      simp only [List.head?_cons, Option.mem_some_iff, forall_eq', hv]
      constructor
      · intro h
        exact ⟨fun rep hrep => (h rep hrep).1, (h (f :: fs) (by simp)).2⟩
      · rintro ⟨h1, h2⟩ rep hrep
        exact ⟨h1 rep hrep, h2⟩
  constructor
  · intro h
    obtain ⟨r, hr, h⟩ := bind_ok h
    cases h
    exact ⟨rfl, hlen, hmain.1 ⟨r, hr⟩⟩
  · rintro ⟨rfl, _, h⟩
    obtain ⟨r, hr⟩ := hmain.2 h
    rw [hr]; rfl

/-- **C25 (violated).** A split whose second fold contains clusters that do not exist is accepted. -/
theorem C25_violated : ∃ (vars : List (Fin 4 → ℤ)) (cl : List (List ClusterPair)),
    checkClusterSplitting (some cl) vars 1 2 = .ok cl ∧ ¬ ValidClusterSplit vars cl := by
  refine ⟨[![0, 0, 1, 1]], [[([[0]], [[1]]), ([[7]], [[8, 9]])]], ?_, ?_⟩
  · rw [C25_accepted_iff_partial _ _ _ le_rfl (by norm_num)]
    refine ⟨rfl, rfl, by simp, ?_⟩
    intro rep hrep f hf
    simp only [List.head?_cons, Option.mem_some_iff] at hrep
    subst hrep
    simp only [List.head?_cons, Option.mem_some_iff] at hf
    subst hf
    intro rep hrep f hf v hv
    simp only [List.mem_singleton] at hrep
    subst hrep
    simp only [List.mem_singleton] at hf
    subst hf
    have hv0 : v = 0 := by simpa using hv
    subst hv0
    refine ⟨[0], [1], rfl, rfl, ?_⟩
    refine (List.perm_ext_iff_of_nodup (by decide) (uniqueSorted_nodup _)).2 fun x => ?_
    rw [mem_uniqueSorted]
    simp [Fin.exists_fin_succ]
    tauto
  · intro h
    obtain ⟨tr, te, h1, h2, hp⟩ := h _ (List.mem_singleton.2 rfl) ([[7]], [[8, 9]]) (by simp) 0 (by simp)
    simp only [List.getElem?_cons_zero, Option.some.injEq] at h1 h2
    subst h1 h2
    have : (7 : ℤ) ∈ uniqueSorted (![0, 0, 1, 1] : Fin 4 → ℤ) := hp.mem_iff.1 (by simp)
    rw [mem_uniqueSorted] at this
    revert this
    decide

/-- **C24/C25.** Drawn cluster splits, passed back to `set_sample_splitting`, pass the cluster check and
are valid in every fold and repetition. -/
theorem C25_drawn_accepted {n : ℕ} (k nRep : ℕ) (vars : List (Fin n → ℤ)) (hvars : vars ≠ [])
    (σ : ℕ → ℕ → (m : ℕ) → Equiv.Perm (Fin m)) (S : List (List (Fold n × ClusterPair))) (h1 : 1 ≤ nRep)
    (h : drawCluster k nRep vars σ = .ok S) :
    ValidClusterSplit vars (S.map (List.map Prod.snd)) ∧
    checkClusterSplitting (some (S.map (List.map Prod.snd))) vars nRep (k ^ vars.length) =
      .ok (S.map (List.map Prod.snd)) := by
  obtain ⟨hlen, hS⟩ := C24_all_repetitions k nRep vars σ S h
  have hvalid : ValidClusterSplit vars (S.map (List.map Prod.snd)) := by
    intro rep hrep f hf v hv
    obtain ⟨rep0, hrep0, rfl⟩ := List.mem_map.1 hrep
    obtain ⟨f0, hf0, rfl⟩ := List.mem_map.1 hf
    obtain ⟨e1, e2, e3⟩ := (hS rep0 hrep0).clusters f0 hf0
    have hz : v < (f0.2.1.zip f0.2.2).length := by rw [List.length_zip]; omega
    have := (List.forall₂_iff_get.1 e3).2 v hv hz
    simp only [List.get_eq_getElem, List.getElem_zip] at this
    exact ⟨_, _, List.getElem?_eq_getElem (by omega), List.getElem?_eq_getElem (by omega), this⟩
  refine ⟨hvalid, ?_⟩
  have hk : 1 ≤ k := by
    obtain ⟨hl, hr⟩ := drawCluster_rep k nRep vars σ S h
    have h0 : 0 < S.length := by omega
    obtain ⟨c, hc⟩ := List.exists_mem_of_ne_nil _ hvars
    have := (C24_draw_succeeds_iff k vars (σ 0)).1 ⟨_, hr 0 h0⟩ c hc
    omega
  rw [C25_accepted_iff_partial vars nRep _ h1 (Nat.one_le_pow _ _ hk)]
  refine ⟨rfl, by simpa using hlen, ?_, ?_⟩
  · intro rep hrep
    obtain ⟨rep0, hrep0, rfl⟩ := List.mem_map.1 hrep
    rw [List.length_map]; exact (hS rep0 hrep0).length
  · intro rep hrep f hf rep' hrep' f' hf' v hv
    simp only [List.mem_singleton] at hrep'
    subst hrep'
    simp only [List.mem_singleton] at hf'
    subst hf'
    exact hvalid rep (List.mem_of_mem_head? hrep) f' (List.mem_of_mem_head? hf) v hv

end DML
