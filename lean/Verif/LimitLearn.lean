import Verif.LimitFit

/-!
# Large samples: learners

Fitted nuisance functions as functions of the training set; their measurability; the link to the predictions of a fit.
-/

namespace DML

open MeasureTheory ProbabilityTheory Filter Topology
open scoped ENNReal

variable {Ω : Type*} {mΩ : MeasurableSpace Ω} {P : Measure Ω} {S : Type*} [MeasurableSpace S] {W : ℕ → Ω → S}
  {𝒳 : Type*} [MeasurableSpace 𝒳] {Q : Type} {n : ℕ}

/-! ## Sample splits that do not depend on the data -/

/-- A split into `K` folds: the test sets form a partition, the training sets are listed in increasing order and contain
no observation of their test set. -/
structure CrossSplit (K : ℕ) (T : List (Fold n)) : Prop where
  length : T.length = K
  ok : SplitOk T
  sep : ∀ f ∈ T, ∀ i ∈ f.test, i ∉ f.train

open Classical in
/-- The split of repetition `q` (no folds if it is not a proper split). -/
noncomputable def splitAt (K : ℕ) (Ls : List (List (Fold n))) (q : ℕ) : List (Fold n) :=
  if CrossSplit K ((Ls[q]?).getD []) then (Ls[q]?).getD [] else []

/-- The training set of fold `k`. -/
def trainOf (T : List (Fold n)) (k : ℕ) : List (Fin n) := ((T[k]?).map Fold.train).getD []

theorem splitAt_eq {K : ℕ} {Ls : List (List (Fold n))} {q : ℕ} {T : List (Fold n)} (h : Ls[q]? = some T) (hT : CrossSplit K T) :
    splitAt K Ls q = T := by
  unfold splitAt
  rw [h, Option.getD_some, if_pos hT]

theorem splitAt_cases (K : ℕ) (Ls : List (List (Fold n))) (q : ℕ) : CrossSplit K (splitAt K Ls q) ∨ splitAt K Ls q = [] := by
  unfold splitAt
  split_ifs with h
  · exact Or.inl h
  · exact Or.inr rfl

open Classical in
/-- The cross-fitting scheme of repetition `q`. -/
noncomputable def schemeAt {K : ℕ} (hK : 0 < K) (Ls : List (List (Fold n))) (q : ℕ) : Scheme K n where
  fold i := if h : CrossSplit K (splitAt K Ls q) then Fin.cast h.length (C26_complete h.ok.partition i).choose else ⟨0, hK⟩
  train k := (trainOf (splitAt K Ls q) k).toFinset
  sep i := by
    split_ifs with h
    · have hi := (C26_complete h.ok.partition i).choose_spec.1
      generalize (C26_complete h.ok.partition i).choose = k at hi
      rw [List.mem_toFinset]
      unfold trainOf
      have e : (splitAt K Ls q)[(Fin.cast h.length k : ℕ)]? = some (splitAt K Ls q)[k] := by
        rw [Fin.val_cast]
        exact List.getElem?_eq_getElem k.2
      rw [e]
      exact h.sep _ (List.getElem_mem _) i hi
    · rcases splitAt_cases K Ls q with h' | h'
      · exact absurd h' h
      · rw [h']
        simp [trainOf]

/-- The fold of an observation. -/
theorem schemeAt_fold {K : ℕ} (hK : 0 < K) {Ls : List (List (Fold n))} {q : ℕ} {T : List (Fold n)} (h : Ls[q]? = some T)
    (hT : CrossSplit K T) (i : Fin n) : ∃ hk : ((schemeAt hK Ls q).fold i : ℕ) < T.length,
      i ∈ (T[((schemeAt hK Ls q).fold i : ℕ)]'hk).test := by
  have e := splitAt_eq h hT
  have h' : CrossSplit K (splitAt K Ls q) := by rw [e]; exact hT
  have hi := (C26_complete h'.ok.partition i).choose_spec.1
  have ef : (schemeAt hK Ls q).fold i = Fin.cast h'.length (C26_complete h'.ok.partition i).choose := by
    unfold schemeAt
    dsimp only
    rw [dif_pos h']
  rw [ef]
  generalize (C26_complete h'.ok.partition i).choose = k at hi
  obtain ⟨k, hk⟩ := k
  simp only [Fin.cast_mk]
  generalize splitAt K Ls q = T' at *
  subst e
  exact ⟨hk, hi⟩

open Classical in
/-- The test sets of the scheme are those of the split. -/
theorem schemeAt_test {K : ℕ} (hK : 0 < K) {Ls : List (List (Fold n))} {q : ℕ} {T : List (Fold n)} (h : Ls[q]? = some T)
    (hT : CrossSplit K T) (k : Fin K) :
    (schemeAt hK Ls q).test k = (T[(k : ℕ)]'(by rw [hT.length]; exact k.2)).test.toFinset := by
  ext i
  rw [Scheme.test, Finset.mem_filter, List.mem_toFinset]
  obtain ⟨hk, hi⟩ := schemeAt_fold hK h hT i
  constructor
  · rintro ⟨-, rfl⟩
    exact hi
  · intro hi2
    refine ⟨Finset.mem_univ _, ?_⟩
    have hu := (C26_complete hT.ok.partition i).unique (y₁ := ⟨_, hk⟩) (y₂ := ⟨k, by rw [hT.length]; exact k.2⟩) hi hi2
    exact Fin.ext (Fin.mk.inj hu)

/-- Splits whose folds are balanced over the strata give balanced schemes. -/
theorem strataBalanced_of {s K : ℕ} (hK : 0 < K) {Ls : ∀ n, (Fin n → Fin s) → List (List (Fold n))} {C : ℝ}
    (h : ∀ n α, ∀ T ∈ Ls n α, ∀ f ∈ T, ∀ a : Fin s, |(n : ℝ) * (f.test.filter fun i => decide (α i = a)).length -
      f.test.length * (Finset.univ.filter fun i => α i = a).card| ≤ C * n) (q : ℕ) :
    StrataBalanced fun n α => schemeAt hK (Ls n α) q := by
  classical
  refine ⟨max C 0, fun n α k a => ?_⟩
  have hpos : 0 ≤ max C 0 * (n : ℝ) := mul_nonneg (le_max_right _ _) (Nat.cast_nonneg _)
  by_cases hX : CrossSplit K (splitAt K (Ls n α) q)
  · obtain ⟨T, hT⟩ : ∃ T, (Ls n α)[q]? = some T := by
      cases e : (Ls n α)[q]? with
      | some T => exact ⟨T, rfl⟩
      | none =>
        have : splitAt K (Ls n α) q = [] := by
          unfold splitAt
          rw [e]
          split_ifs <;> rfl
        rw [this] at hX
        exact absurd hX.length (by simpa using hK.ne)
    have hXT : CrossSplit K T := by
      unfold splitAt at hX
      rw [hT, Option.getD_some] at hX
      split_ifs at hX with h'
      · exact h'
      · exact absurd hX.length (by simpa using hK.ne)
    have hk : (k : ℕ) < T.length := by rw [hXT.length]; exact k.2
    have hnd : (T[(k : ℕ)]'hk).test.Nodup := by
      have hperm := (isPartition_iff T).1 hXT.ok.partition
      have hall : (T.map Fold.test).flatten.Nodup := hperm.nodup_iff.2 (List.nodup_finRange n)
      exact (List.nodup_flatten.1 hall).1 _ (List.mem_map_of_mem (List.getElem_mem hk))
    have ef : (T[(k : ℕ)]'hk).test.toFinset.filter (fun i => α i = a) =
        ((T[(k : ℕ)]'hk).test.filter fun i => decide (α i = a)).toFinset := by
      ext i
      simp
    have hs := schemeAt_test hK hT hXT k
    have hs2 : ((schemeAt hK (Ls n α) q).test k).filter (fun i => α i = a) =
        ((T[(k : ℕ)]'hk).test.filter fun i => decide (α i = a)).toFinset := by rw [hs]; exact ef
    rw [hs2, hs, List.toFinset_card_of_nodup hnd, List.toFinset_card_of_nodup (hnd.filter _)]
    refine (h n α T (List.mem_of_getElem? hT) _ (List.getElem_mem hk) a).trans ?_
    exact mul_le_mul_of_nonneg_right (le_max_left _ _) (Nat.cast_nonneg _)
  · have hf : ∀ i, (schemeAt hK (Ls n α) q).fold i = ⟨0, hK⟩ := fun i => by
      unfold schemeAt
      dsimp only
      rw [dif_neg hX]
    unfold Scheme.test
    simp only [hf]
    by_cases hk : (⟨0, hK⟩ : Fin K) = k
    · simp only [hk, Finset.filter_true, Finset.card_univ, Fintype.card_fin, sub_self, abs_zero]
      exact hpos
    · simp only [hk, Finset.filter_false, Finset.filter_empty, Finset.card_empty]
      simpa using hpos

/-! ## Fitted nuisance functions -/

/-- The answer of a learner that was trained on the observations `t j`, `j` in `train`, satisfying `on`, with covariates
`ξ` (whose columns are given by `enc`) and target `y`. -/
noncomputable def fitted (L : Learner Q (List Cell)) (m : Method) (p : Option Q) (train : List (Fin n)) (enc : 𝒳 → List Cell)
    (ξ : S → 𝒳) (y : S → ℝ) (on : S → Prop) [DecidablePred on] (t : Fin n → S) (x : 𝒳) : ℝ :=
  (L.answer m p ((train.filter fun j => decide (on (t j))).map fun j => (enc (ξ (t j)), y (t j))) (enc x)).getD 0

/-- The hyper-parameters of fold `k` in repetition `q`. -/
def parAt (v : Option (List (Option (List Q)))) (q k : ℕ) : Option Q := (toParams (v.bind fun l => l[q]?).join).at k

/-- The nuisance function fitted for fold `k` of repetition `q` from the observations `t`. -/
noncomputable def nuis (L : Learner Q (List Cell)) (m : Method) (par : Option (List (Option (List Q)))) (enc : 𝒳 → List Cell)
    (ξ : S → 𝒳) (y : S → ℝ) (on : S → Prop) [DecidablePred on] {K : ℕ} (Ls : List (List (Fold n))) (q : ℕ) (k : Fin K)
    (t : Fin n → S) (x : 𝒳) : ℝ :=
  fitted L m (parAt par q k) (trainOf (splitAt K Ls q) k) enc ξ y on t x

/-- A learner whose answers depend measurably on the training data and on the point. -/
def MeasLearner (L : Learner Q (List Cell)) (m : Method) (enc : 𝒳 → List Cell) : Prop :=
  ∀ p k, Measurable fun z : (Fin k → 𝒳 × ℝ) × 𝒳 =>
    (L.answer m p (List.ofFn fun j => (enc (z.1 j).1, (z.1 j).2)) (enc z.2)).getD 0

section Fitted

variable {L : Learner Q (List Cell)} {m : Method} {enc : 𝒳 → List Cell} {ξ : S → 𝒳} {y : S → ℝ} {on : S → Prop}
  [DecidablePred on]

omit [MeasurableSpace S] [MeasurableSpace 𝒳] in
theorem fitted_uses (p : Option Q) (train : List (Fin n)) :
    Uses (fun (t : Fin n → S) w => fitted L m p train enc ξ y on t (ξ w)) train.toFinset := by
  intro t t' h
  funext w
  have hj : ∀ j ∈ train, t j = t' j := fun j hj => h j (List.mem_toFinset.2 hj)
  show fitted L m p train enc ξ y on t (ξ w) = fitted L m p train enc ξ y on t' (ξ w)
  unfold fitted
  have e : (train.filter fun j => decide (on (t j))) = train.filter fun j => decide (on (t' j)) :=
    List.filter_congr fun j hm => by rw [hj j hm]
  rw [e]
  congr 2
  refine List.map_congr_left fun j hm => ?_
  rw [hj j (List.mem_filter.1 hm).1]

theorem fitted_meas (hL : MeasLearner L m enc) (hξ : Measurable ξ) (hy : Measurable y) (hon : MeasurableSet {w | on w})
    (p : Option Q) (train : List (Fin n)) :
    Measurable (Function.uncurry fun (t : Fin n → S) (x : 𝒳) => fitted L m p train enc ξ y on t x) := by
  let _ : MeasurableSpace (List (Fin n)) := ⊤
  have _ : DiscreteMeasurableSpace (List (Fin n)) := ⟨fun _ => trivial⟩
  -- the selected training observations
  have hsel : ∀ tr : List (Fin n), Measurable fun t : Fin n → S => tr.filter fun j => decide (on (t j)) := by
    intro tr
    induction tr with
    | nil => exact measurable_const
    | cons j tr ih =>
      have e : (fun t : Fin n → S => (j :: tr).filter fun j => decide (on (t j))) =
          fun t => if on (t j) then j :: tr.filter fun j => decide (on (t j)) else tr.filter fun j => decide (on (t j)) := by
        funext t
        by_cases h : on (t j)
        · rw [List.filter_cons_of_pos (by simpa using h), if_pos h]
        · rw [List.filter_cons_of_neg (by simpa using h), if_neg h]
      rw [e]
      exact Measurable.ite (measurableSet_preimage (measurable_pi_apply j) hon) ((measurable_from_top (f := fun l => j :: l)).comp ih) ih
  -- for a fixed selection
  have hfix : ∀ tr : List (Fin n), Measurable fun z : (Fin n → S) × 𝒳 =>
      (L.answer m p (tr.map fun j => (enc (ξ (z.1 j)), y (z.1 j))) (enc z.2)).getD 0 := by
    intro tr
    have h1 : Measurable fun z : (Fin n → S) × 𝒳 => ((fun j : Fin tr.length => (ξ (z.1 (tr.get j)), y (z.1 (tr.get j)))), z.2) := by
      refine Measurable.prodMk (measurable_pi_lambda _ fun j => ?_) measurable_snd
      have h2 : Measurable fun z : (Fin n → S) × 𝒳 => z.1 (tr.get j) := (measurable_pi_apply _).comp measurable_fst
      exact (hξ.comp h2).prodMk (hy.comp h2)
    have h3 := (hL p tr.length).comp h1
    convert h3 using 2 with z
    simp only [Function.comp_apply]
    have e : ∀ g : Fin n → List Cell × ℝ, tr.map g = List.ofFn fun j => g (tr.get j) := fun g => by
      conv_lhs => rw [← List.ofFn_get tr]
      rw [List.map_ofFn]
      rfl
    rw [e]
  have hcount : Measurable fun q : List (Fin n) × ((Fin n → S) × 𝒳) =>
      (L.answer m p (q.1.map fun j => (enc (ξ (q.2.1 j)), y (q.2.1 j))) (enc q.2.2)).getD 0 :=
    measurable_from_prod_countable_right fun tr => hfix tr
  exact hcount.comp (((hsel train).comp measurable_fst).prodMk measurable_id)

end Fitted

/-! ## Predictions of a cell -/

theorem lookupKey_pair {α : Type} {ps : List (String × α)} {l : String} {v : α} (h : lookupKey l ps = some v) : (l, v) ∈ ps := by
  induction ps with
  | nil => cases h
  | cons a ps ih =>
    obtain ⟨k, u⟩ := a
    by_cases hk : k = l
    · subst hk
      simp [lookupKey] at h
      exact h ▸ List.mem_cons_self ..
    · have : lookupKey l ((k, u) :: ps) = lookupKey l ps := by simp [lookupKey, hk]
      rw [this] at h
      exact List.mem_cons_of_mem _ (ih h)

theorem lookupKey_some {α : Type} {ps : List (String × α)} {l : String} (h : l ∈ ps.map Prod.fst) : ∃ v, lookupKey l ps = some v := by
  induction ps with
  | nil => cases h
  | cons a ps ih =>
    obtain ⟨k, u⟩ := a
    by_cases hk : k = l
    · exact ⟨u, by simp [lookupKey, hk]⟩
    · have e : lookupKey l ((k, u) :: ps) = lookupKey l ps := by simp [lookupKey, hk]
      rw [e]
      rw [List.map_cons, List.mem_cons] at h
      exact ih (h.resolve_left fun h' => hk h'.symm)

theorem CellFrom.paramsAt {M : Type} {F : Frame n} {sp : Spec n Q M} {s : MState n Q M} {ext : ExtArg} {q j : ℕ} {c : CellIn n Q}
    (h : CellFrom F sp s ext q j c) {l : String} (hl : l ∈ sp.learners) (k : ℕ) :
    (c.paramsOf l).at k = parAt (s.params l c.treat) q k := by
  obtain ⟨v, hv⟩ := lookupKey_some (ps := c.params) (l := l) (by rw [h.params.1]; exact hl)
  obtain ⟨ps, h1, h2⟩ := h.params.2 _ (lookupKey_pair hv)
  unfold CellIn.paramsOf parAt
  dsimp only at h1 h2
  rw [hv, h1, Option.bind_some, h2]

/-- A learner that has seen what it needs gives an answer. -/
theorem ClassesSeen.isSome {L : Learner Q (List Cell)} {m : Method} {y : Fin n → ℝ} {tr : List (Fin n)}
    (h : ClassesSeen L m y tr) (p : Option Q) (x : Fin n → List Cell) (x0 : List Cell) :
    (L.answer m p (tr.map fun j => (x j, y j)) x0).isSome := by
  cases m with
  | predict => rfl
  | proba =>
    obtain ⟨hL, -, ⟨i, hi, e0⟩, j, hj, e1⟩ := h rfl
    unfold Learner.answer
    dsimp only
    have hlen : 1 < (L.proba p (tr.map fun j => (x j, y j)) x0).length := by
      rw [hL, classesOf, Finset.length_sort, Finset.one_lt_card]
      refine ⟨0, ?_, 1, ?_, zero_ne_one⟩
      · rw [List.mem_toFinset, List.mem_map]
        exact ⟨_, List.mem_map_of_mem hi, e0⟩
      · rw [List.mem_toFinset, List.mem_map]
        exact ⟨_, List.mem_map_of_mem hj, e1⟩
    rw [List.getElem?_eq_getElem hlen]
    rfl

omit [MeasurableSpace S] [MeasurableSpace 𝒳] in
/-- The predictions of a fit are the values of the nuisance functions fitted on the training sets. -/
theorem FoldRule.nuis {M : Type} {K : ℕ} (hK : 0 < K) {F : Frame n} {sp : Spec n Q M} {s : MState n Q M} {ext : ExtArg} {q j : ℕ}
    {c : CellIn n Q} (hc : CellFrom F sp s ext q j c) {l : String} (hl : l ∈ sp.learners) {Ls : List (List (Fold n))}
    (hLs : s.smpls = some Ls) {T : List (Fold n)} (hT : Ls[q]? = some T) (hX : CrossSplit K T)
    {L : Learner Q (List Cell)} {m : Method} {enc : 𝒳 → List Cell} {ξ : S → 𝒳} {y : S → ℝ} {on : S → Prop} [DecidablePred on]
    {on' : Fin n → Prop} [DecidablePred on'] {x' : Fin n → List Cell} {y' : Fin n → ℝ} {post : ℝ → ℝ} {p : NV n}
    (h : FoldRule c l L m on' x' y' post p) {t : Fin n → S} (hon : ∀ i, on' i ↔ on (t i)) (hx : ∀ i, x' i = enc (ξ (t i)))
    (hy : ∀ i, y' i = y (t i))
    (hseen : ∀ f ∈ T, ClassesSeen L m y' (f.train.filter fun j => decide (on' j))) (i : Fin n) :
    (p i).getD 0 = post (nuis L m (s.params l c.treat) enc ξ y on Ls q ((schemeAt hK Ls q).fold i) t (ξ (t i))) := by
  obtain ⟨hk, hi⟩ := schemeAt_fold hK hT hX i
  obtain ⟨Ls', h1, h2⟩ := hc.smpls
  rw [hLs] at h1
  obtain rfl := Option.some.inj h1
  rw [hT] at h2
  obtain h2 := Option.some.inj h2
  have hk' : ((schemeAt hK Ls q).fold i : ℕ) < c.smpls.length := h2 ▸ hk
  have hmem : i ∈ (c.smpls[((schemeAt hK Ls q).fold i : ℕ)]'hk').test := by
    have : (c.smpls[((schemeAt hK Ls q).fold i : ℕ)]'hk') = T[((schemeAt hK Ls q).fold i : ℕ)]'hk := by
      subst h2; rfl
    rw [this]; exact hi
  have htrain : trainOf (splitAt K Ls q) ((schemeAt hK Ls q).fold i) = (c.smpls[((schemeAt hK Ls q).fold i : ℕ)]'hk').train := by
    unfold trainOf
    rw [splitAt_eq hT hX, h2, List.getElem?_eq_getElem hk']
    rfl
  have hs := hseen (c.smpls[((schemeAt hK Ls q).fold i : ℕ)]'hk') (by rw [h2]; exact List.getElem_mem hk')
  have hr := h _ hk' i hmem hs
  have hsome := hs.isSome (parAt (s.params l c.treat) q ((schemeAt hK Ls q).fold i)) x' (x' i)
  have ef : ((c.smpls[((schemeAt hK Ls q).fold i : ℕ)]'hk').train.filter fun j => decide (on' j)) =
      (c.smpls[((schemeAt hK Ls q).fold i : ℕ)]'hk').train.filter fun j => decide (on (t j)) :=
    List.filter_congr fun j _ => by simp only [hon]
  rw [ef, hc.paramsAt hl] at hr
  rw [ef] at hsome
  simp only [hx, hy] at hr hsome
  unfold DML.nuis fitted
  rw [htrain, hr]
  obtain ⟨v, hv⟩ := Option.isSome_iff_exists.1 hsome
  rw [hv]
  rfl

end DML
