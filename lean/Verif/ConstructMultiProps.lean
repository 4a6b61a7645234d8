import Verif.ConstructFitProps
import Verif.MultiFitProps

/-!
# C64: creating `DoubleMLAPOS` and `DoubleMLQTE` objects
-/

namespace DML

variable {n : ℕ} {P M : Type}

/-! ## The draw -/

/-- What the stratified draw requires: integers for the numbers of folds (at least two) and repetitions (at least one),
integer strata, and one stratum with as many observations as there are folds. -/
def DrawOk (strata : Fin n → ℝ) (b : Resampling n) : Prop :=
  ∃ K R : ℤ, b.nFolds.asInt = some K ∧ b.nRep.asInt = some R ∧ 2 ≤ K ∧ 1 ≤ R ∧ (∀ i, ∃ z : ℤ, strata i = z) ∧
    ∃ v, K ≤ Nat.card {i // strata i = v}

theorem stratifiedDraw_ok_iff (strata : Fin n → ℝ) (nf nr : PyVal) (w : Draws n) (k r : ℕ) (S : List (List IdxPair)) :
    stratifiedDraw strata nf nr w = .ok (k, r, S) ↔ nf.asInt = some (k : ℤ) ∧ nr.asInt = some (r : ℤ) ∧
      (∀ i, ∃ z : ℤ, strata i = z) ∧ (∃ v, (k : ℤ) ≤ Nat.card {i // strata i = v}) ∧ multiDraw k r w = .ok S := by
  classical
  have hcount : ∀ v, ((List.finRange n).filter fun j => decide (strata j = v)).length = Nat.card {i // strata i = v} := by
    intro v
    rw [Nat.card_eq_fintype_card, Fintype.card_subtype, ← List.toFinset_card_of_nodup ((List.nodup_finRange n).filter _)]
    congr 1
    ext i
    simp
  have hmd : multiDraw k r w = .ok S → 2 ≤ k ∧ 1 ≤ r := fun h => ⟨(multiDraw_ok h).1, (multiDraw_ok h).2.1⟩
  have hex : ∀ K : ℕ, 1 ≤ K → ((∃ v, (K : ℤ) ≤ Nat.card {i // strata i = v}) ↔
      ¬ ∀ i, ((List.finRange n).filter fun j => decide (strata j = strata i)).length < K) := by
    intro K hK
    push Not
    constructor
    · rintro ⟨v, hv⟩
      by_cases hi : ∃ i, strata i = v
      · obtain ⟨i, rfl⟩ := hi
        exact ⟨i, by rw [hcount]; omega⟩
      · have : Nat.card {i // strata i = v} = 0 := by
          rw [Nat.card_eq_zero]
          exact Or.inl ⟨fun x => hi ⟨x.1, x.2⟩⟩
        omega
    · rintro ⟨i, hi⟩
      exact ⟨strata i, by rw [hcount] at hi; omega⟩
  unfold stratifiedDraw
  cases hv : nf.asInt with
  | none =>
    dsimp only
    refine ⟨fun h => ?_, fun h => (by cases h.1)⟩
    split at h <;> cases h
  | some K =>
    cases hn : nr.asInt with
    | none => simp
    | some R =>
      dsimp only
      unfold drawInts
      constructor
      · intro h
        split_ifs at h with h1 h2 h3 h4
        obtain ⟨S', hS, h⟩ := bind_ok h
        cases h
        refine ⟨by rw [Int.toNat_of_nonneg (by omega)], by rw [Int.toNat_of_nonneg (by omega)], h3, ?_, hS⟩
        exact (hex _ (by omega)).2 (by convert h4)
      · rintro ⟨h1, h2, h3, h4, h5⟩
        obtain rfl := Option.some.inj h1
        obtain rfl := Option.some.inj h2
        obtain ⟨h6, h7⟩ := hmd h5
        rw [if_neg (by omega), if_neg (by omega), if_neg (not_not.2 h3), if_neg]
        · simp only [Int.toNat_natCast, h5]
          rfl
        · rw [Int.toNat_natCast]
          convert (hex _ (by omega)).1 h4

theorem multiDraw_exists {k r : ℕ} (hk : 2 ≤ k) (hr : 1 ≤ r) (w : Draws n) : ∃ S, multiDraw k r w = .ok S := by
  unfold multiDraw
  rw [if_neg (by omega)]
  exact ⟨_, rfl⟩

theorem stratifiedDraw_exists_iff (strata : Fin n → ℝ) (b : Resampling n) (w : Draws n) :
    (∃ q, stratifiedDraw strata b.nFolds b.nRep w = .ok q) ↔ DrawOk strata b := by
  constructor
  · rintro ⟨⟨k, r, S⟩, h⟩
    obtain ⟨h1, h2, h3, h4, h5⟩ := (stratifiedDraw_ok_iff _ _ _ _ _ _ _).1 h
    exact ⟨k, r, h1, h2, by have := (multiDraw_ok h5).1; omega, by have := (multiDraw_ok h5).2.1; omega, h3, h4⟩
  · rintro ⟨K, R, h1, h2, h3, h4, h5, h6⟩
    obtain ⟨S, hS⟩ := multiDraw_exists (n := n) (k := K.toNat) (r := R.toNat) (by omega) (by omega) w
    refine ⟨(K.toNat, R.toNat, S), (stratifiedDraw_ok_iff _ _ _ _ _ _ _).2 ⟨?_, ?_, h5, ?_, hS⟩⟩
    · rw [h1, Int.toNat_of_nonneg (by omega)]
    · rw [h2, Int.toNat_of_nonneg (by omega)]
    · rw [Int.toNat_of_nonneg (by omega)]; exact h6

/-! ## The sub-models -/

theorem initSub_ok_iff {D : DataState n} {w : Draws n} {k r : ℕ} {S : List (List IdxPair)} (hS : multiDraw k r w = .ok S)
    (w' : Draws n) (c : SubClass n P M) : (∃ m, initSub D w' k r S c = .ok m) ↔ c.spec.vars = none ∧ c.check r = .ok () := by
  obtain ⟨h1, h2, _, h3, h4, h5, h6⟩ := multiDraw_ok hS
  have h0 : S ≠ [] := fun h => by rw [h] at h3; simp at h3; omega
  constructor
  · rintro ⟨m, h⟩
    unfold initSub at h
    obtain ⟨s, hs, h⟩ := bind_ok h
    obtain ⟨u, hc, h⟩ := bind_ok h
    refine ⟨?_, hc⟩
    cases hv : c.spec.vars with
    | none => rfl
    | some v =>
      unfold syncSplit setSampleSplitting at h
      rw [nested_accepted h0 (by omega) h4 h5 h6] at h
      have : ∀ nr nf, checkedCluster c.spec s none nr nf = .error .valueError := by
        intro nr nf
        unfold checkedCluster
        rw [hv]
        rfl
      simp only [this] at h
      cases h
  · rintro ⟨hv, hc⟩
    obtain ⟨s, hs, -⟩ := initModel_nodraw c.spec D c.start (k := k) (r := r) (by omega) h2 w' hv
    unfold initSub
    simp only [hs, hc, bind, Except.bind]
    have := syncSplit_eq (c := c) hv (by rw [← h3] at *; exact nested_accepted h0 (by omega) h4 h5 h6) s
    rw [this]
    exact ⟨_, rfl⟩

theorem initSub_on {D : DataState n} {w w' : Draws n} {k r : ℕ} {S : List (List IdxPair)} (hS : multiDraw k r w = .ok S)
    {c : SubClass n P M} {m : MState n P M} (h : initSub D w' k r S c = .ok m) : SubOn D S r k m := by
  obtain ⟨hv, hc⟩ := (initSub_ok_iff hS w' c).1 ⟨m, h⟩
  obtain ⟨h1, h2, _, h3, h4, h5, h6⟩ := multiDraw_ok hS
  have h0 : S ≠ [] := fun h => by rw [h] at h3; simp at h3; omega
  obtain ⟨s, hs, hd⟩ := initModel_nodraw c.spec D c.start (k := k) (r := r) (by omega) h2 w' hv
  unfold initSub at h
  simp only [hs, hc, bind, Except.bind] at h
  rw [syncSplit_eq (c := c) hv (nested_accepted h0 (by omega) h4 h5 h6) s] at h
  obtain rfl := Except.ok.inj h
  exact ⟨rfl, h3, rfl, by show SameData D s.data; rw [hd]; exact .refl _, initArrays_shaped (show 1 ≤ S.length by omega)⟩

theorem mapM_mem {α β : Type} {f : α → Except Exc β} {l : List α} {r : List β} (h : l.mapM f = .ok r) :
    ∀ y ∈ r, ∃ x ∈ l, f x = .ok y := by
  intro y hy
  obtain ⟨i, hi⟩ := List.mem_iff_getElem?.1 hy
  obtain ⟨x, hx, hxy⟩ := mapM_getElem? h hi
  exact ⟨x, List.mem_of_getElem? hx, hxy⟩

/-- The folds drawn for the sub-models. -/
theorem drawn_folds {D : DataState n} {k r : ℕ} {w : Draws n} {S : List (List IdxPair)} (hS : multiDraw k r w = .ok S)
    (hw : ∀ q i, w.assign q i < k) {m : MState n P M} (hm : SubOn D S r k m) {T : List (List (Fold n))} (hT : m.smpls = some T) :
    T = (List.range r).map fun q => assignFolds k (w.assign q) := by
  obtain ⟨-, -, h1, -⟩ := multiDraw_ok hS
  have hT' := hm.smpls
  rw [hT] at hT'
  obtain rfl := Option.some.inj hT'
  rw [h1, List.map_map]
  refine List.map_congr_left fun q _ => ?_
  have : (fun i => w.assign q i % k) = w.assign q := funext fun i => Nat.mod_eq_of_lt (hw q i)
  simp only [Function.comp, List.map_map, this]
  exact (List.map_congr_left fun f _ => toFold_idx f).trans (List.map_id _)

/-! ## APOS -/

theorem asNat_of_asInt {v : PyVal} {r : ℕ} (h : v.asInt = some (r : ℤ)) : v.asNat = some r := by
  cases v <;> simp_all [PyVal.asInt, PyVal.asNat]

theorem WArg.Dict.orOnes {w : WArg} (h : w.Dict) (k : ℕ) : (w.orOnes k).Dict := by
  cases w
  case none => trivial
  all_goals exact h

theorem goodWeights_orOnes {k R : ℕ} (hk : 0 < k) {w : WArg} : GoodWeights k R (w.orOnes k) .ate ↔ GoodWeights k R w .ate := by
  cases w with
  | none =>
    refine ⟨fun _ => .default _, fun _ => .ate _ ⟨rfl, ?_, ?_⟩⟩
    · intro x hx
      rw [List.eq_of_mem_replicate hx]
      norm_num
    · simpa using hk
  | _ => rfl

/-- The checks of the sub-model of one level. -/
theorem apoChecks_ok_iff {F : Frame n} {D : DataState n} (hD : FreshData F D) (a : ApoArgs P) (hw : a.weights.Dict) (R : ℕ) :
    apoChecks a D R = .ok () ↔ (∃ d, D.d = [d]) ∧ D.z = none ∧
      (∀ d, D.d.head? = some d → 5 ≤ Nat.card {i // nums (F.col d) i = a.level}) ∧ a.score = .str "APO" ∧
      a.ml_g.Usable a.ml_g.isClassifier ∧ a.ml_m.Usable true ∧ (a.ml_g.isClassifier = true → ZeroOne (F.col D.y)) ∧
      (∃ v, a.normalize = .bool v) ∧ TrimmingOk a.rule a.threshold ∧ GoodWeights n R a.weights .ate := by
  constructor
  · intro h
    unfold apoChecks at h
    obtain ⟨_, h1, h⟩ := bind_ok h
    obtain ⟨_, h2, h⟩ := bind_ok h
    obtain ⟨_, h3, h⟩ := bind_ok h
    obtain ⟨u, h4, h⟩ := bind_ok h
    obtain ⟨g, h6, h⟩ := bind_ok h
    obtain ⟨rfl, h6⟩ := (LearnerObj.check_ok_iff _ _ _ _).1 h6
    obtain ⟨m, h7, h⟩ := bind_ok h
    obtain ⟨rfl, h7⟩ := (LearnerObj.check_ok_iff _ _ _ _).1 h7
    obtain ⟨_, h8, h⟩ := bind_ok h
    obtain ⟨v, h9, h⟩ := bind_ok h
    obtain ⟨t, h10, h⟩ := bind_ok h
    obtain ⟨w, h11, h⟩ := bind_ok h
    exact ⟨(atMostOne_iff hD).1 h1, (checkNoInstr_ok_iff D).1 h2, (treated_iff hD a.level).1 h3, (one_score_iff _ _).1 ⟨_, h4⟩, h6, h7, (outcome_iff hD a.ml_g.isClassifier).1 h8, (bool_iff _).1 ⟨_, h9⟩, (trimming_iff _ _).1 ⟨_, h10⟩, (initWeights_ok_iff _ hw _ _ _).1 ⟨_, h11⟩⟩
  · rintro ⟨h1, h2, h3, h4, h6, h7, h8, h9, h10, h11⟩
    have h1 := (atMostOne_iff hD).2 h1
    have h2 := (checkNoInstr_ok_iff D).2 h2
    have h3 := (treated_iff hD a.level).2 h3
    obtain ⟨u, h4⟩ := (one_score_iff _ _).2 h4
    have h6 := (LearnerObj.check_ok_iff a.ml_g true true a.ml_g.isClassifier).2 ⟨rfl, h6⟩
    have h7 := (LearnerObj.check_ok_iff a.ml_m false true true).2 ⟨rfl, h7⟩
    have h8 := (outcome_iff hD a.ml_g.isClassifier).2 h8
    obtain ⟨v, h9⟩ := (bool_iff _).2 h9
    obtain ⟨t, h10⟩ := (trimming_iff _ _).2 h10
    obtain ⟨w, h11⟩ := (initWeights_ok_iff _ hw _ _ _).2 h11
    unfold apoChecks
    simp only [bind, Except.bind, h1, h2, h3, h4, h6, h7, h8, h9, h10, h11]
    rfl

/-- The checks that the constructor of `DoubleMLAPOS` repeats for the sub-models are those of `DoubleMLAPO`: apart from what
the base class requires, both accept the same arguments. -/
theorem apoChecks_iff_newApo {F : Frame n} {D : DataState n} (hD : FreshData F D) (read : List (Fin n → Cell) → ClusterVars n)
    (a : ApoArgs P) (hw : a.weights.Dict) {b : Resampling n} (hb : b.draw = .bool false) {R : ℕ}
    (hR : b.nRep.asInt = some (R : ℤ)) :
    (∃ r, newApo read a D b = .ok r) ↔ ResamplingOk read D b ∧ apoChecks a D R = .ok () := by
  rw [C64_apo hD read a hw b, apoChecks_ok_iff hD a hw R]
  refine and_congr_right fun _ => ⟨fun h => ⟨h.one, h.noInstr, h.treated, h.score, h.ml_g, h.ml_m, h.outcome, h.normalize, h.trimming, h.weights R hR⟩,
    fun ⟨h1, h2, h3, h4, h5, h6, h7, h8, h9, h10⟩ => ⟨h1, h2, h3, h4, ?_, h5, h6, h7, h8, h9, ?_⟩⟩
  · intro d _ h
    rw [hb] at h
    cases h
  · intro R' hR'
    rw [hR] at hR'
    obtain rfl : R = R' := by have := Option.some.inj hR'; omega
    exact h10

/-- The requirements of `DoubleMLAPOS` if the split is drawn. -/
structure AposSuitable (F : Frame n) (D : DataState n) (a : AposArgs P) (b : Resampling n) : Prop where
  plain : D.cluster = none
  one : ∃ d, D.d = [d]
  noInstr : D.z = none
  treated : ∀ l ∈ a.levels.list, ∀ d, D.d.head? = some d → 5 ≤ Nat.card {i // nums (F.col d) i = l}
  score : a.score = .str "APO"
  ml_g : a.ml_g.Usable a.ml_g.isClassifier
  ml_m : a.ml_m.Usable true
  outcome : a.ml_g.isClassifier = true → ZeroOne (F.col D.y)
  normalize : ∃ v, a.normalize = .bool v
  trimming : TrimmingOk a.rule a.threshold
  weights : ∀ R : ℕ, b.nRep.asInt = some (R : ℤ) → GoodWeights n R a.weights .ate
  draw : ∀ d, D.d.head? = some d → DrawOk (nums (F.col d)) b

/-- What a successful call went through. -/
theorem newApos_ok {read : List (Fin n → Cell) → ClusterVars n} {a : AposArgs P} {D : DataState n} {b : Resampling n}
    {ks : List (ApoClass n P)} {s : Multi n P (Option (List (FittedModel P (List Cell))))}
    (h : newApos read a D b = .ok (ks, s)) :
    D.z = none ∧ (∀ l ∈ a.levels.list, ∃ i, (D.dv i).val = l) ∧ a.score = .str "APO" ∧ a.ml_g.Usable a.ml_g.isClassifier ∧
    a.ml_m.Usable true ∧ (a.ml_g.isClassifier = true → D.binOut = true) ∧ checkAposWeights a.weights n b.nRep = .ok () ∧
    ∃ t norm w, checkTrimming a.rule a.threshold = .ok t ∧ a.normalize = .bool norm ∧ initWeights.store n (a.weights.orOnes n) = .ok w ∧
      (ks = a.levels.list.map fun l =>
        { ml_g := a.ml_g.run
          ml_m := a.ml_m.run
          gClassifier := a.ml_g.isClassifier
          level := l
          normalize := norm
          trimT := t
          weights := w
          vars := varsOf read D : ApoClass n P }) ∧
      ((b.draw.truthy = false ∧ s = multiEmpty ((b.nFolds.asNat).getD 0) ((b.nRep.asNat).getD 0)) ∨
        (b.draw.truthy = true ∧ ∃ k r S ms, stratifiedDraw (fun i => (D.dv i).val) b.nFolds b.nRep b.first = .ok (k, r, S) ∧
          (ks.map (aposSub a D)).mapM (initSub D b.first k r S) = .ok ms ∧ s = ⟨k, r, some S, some ms, none⟩)) := by
  unfold newApos at h
  obtain ⟨_, h1, h⟩ := bind_ok h
  obtain ⟨ls, h2, h⟩ := bind_ok h
  obtain ⟨u, h3, h⟩ := bind_ok h
  obtain ⟨t, h4, h⟩ := bind_ok h
  obtain ⟨norm, h5, h⟩ := bind_ok h
  obtain ⟨g, h6, h⟩ := bind_ok h
  obtain ⟨rfl, h6⟩ := (LearnerObj.check_ok_iff _ _ _ _).1 h6
  obtain ⟨m, h7, h⟩ := bind_ok h
  obtain ⟨rfl, h7⟩ := (LearnerObj.check_ok_iff _ _ _ _).1 h7
  obtain ⟨_, h8, h⟩ := bind_ok h
  obtain ⟨_, h9, h⟩ := bind_ok h
  obtain ⟨w, h10, h⟩ := bind_ok h
  unfold checkLevels at h2
  split_ifs at h2 with hl
  obtain rfl := Except.ok.inj h2
  refine ⟨(checkNoInstr_ok_iff D).1 h1, hl, (one_score_iff _ _).1 ⟨_, h3⟩, h6, h7, (checkOutcome_ok_iff _ _).1 h8, h9, t, norm, w, h4, (checkBool_ok_iff _ _).1 h5, h10, ?_⟩
  dsimp only at h
  split_ifs at h with hd
  · obtain ⟨⟨k, r, S⟩, h11, h⟩ := bind_ok h
    obtain ⟨ms, h12, h⟩ := bind_ok h
    cases h
    exact ⟨rfl, Or.inr ⟨hd, k, r, S, ms, h11, h12, rfl⟩⟩
  · cases h
    exact ⟨rfl, Or.inl ⟨by simpa using hd, rfl⟩⟩

/-- **C64, APOS.**  For data that were not changed since their creation and a non-empty list of levels, the constructor with a
draw succeeds exactly if the requirements are met. -/
theorem C64_apos {F : Frame n} {D : DataState n} (hD : FreshData F D) (read : List (Fin n → Cell) → ClusterVars n)
    (a : AposArgs P) (hw : a.weights.Dict) (hl : a.levels.list ≠ []) (b : Resampling n) (hb : b.draw.truthy = true) :
    (∃ r, newApos read a D b = .ok r) ↔ AposSuitable F D a b := by
  obtain ⟨d, hd, hv, -⟩ := hD.first
  obtain ⟨l₀, hl₀⟩ := List.exists_mem_of_ne_nil _ hl
  constructor
  · rintro ⟨⟨ks, s⟩, h⟩
    obtain ⟨h1, h2, h3, h4, h5, h6, h7, t, norm, w, h8, h9, h10, hks, h11⟩ := newApos_ok h
    rcases h11 with ⟨h11, -⟩ | ⟨-, k, r, S, ms, h11, h12, -⟩
    · rw [hb] at h11; cases h11
    have hS := (stratifiedDraw_ok_iff _ _ _ _ _ _ _).1 h11
    have hm := (mapM_exists_iff _ _).1 ⟨ms, h12⟩
    have hsub : ∀ l ∈ a.levels.list, varsOf read D = none ∧ apoChecks (a.sub n l) D r = .ok () := by
      intro l hl
      have := (initSub_ok_iff hS.2.2.2.2 _ _).1 (hm _ (List.mem_map.2 ⟨_, by rw [hks]; exact List.mem_map.2 ⟨l, hl, rfl⟩, rfl⟩))
      exact this
    have hck := (apoChecks_ok_iff hD (a.sub n l₀) (hw.orOnes n) r).1 (hsub l₀ hl₀).2
    have hn : 0 < n := by
      have h5' := hck.2.2.1 d hd
      rcases Nat.eq_zero_or_pos n with rfl | h0
      · have : Nat.card {i : Fin 0 // nums (F.col d) i = (a.sub 0 l₀).level} = 0 := by
          rw [Nat.card_eq_zero]; exact Or.inl ⟨fun x => x.1.elim0⟩
        omega
      · exact h0
    refine ⟨?_, hck.1, h1, ?_, h3, h4, h5, (outcome_iff hD _).1 ((checkOutcome_ok_iff _ _).2 h6), ⟨_, h9⟩, (trimming_iff _ _).1 ⟨_, h8⟩, ?_, ?_⟩
    · by_contra hc
      have := (varsOf_eq read D).2 hc
      rw [(hsub l₀ hl₀).1] at this
      cases this
    · intro l hl
      exact ((apoChecks_ok_iff hD (a.sub n l) (hw.orOnes n) r).1 (hsub l hl).2).2.2.1
    · intro R hR
      rw [hS.2.1] at hR
      obtain rfl : r = R := by have := Option.some.inj hR; omega
      exact (goodWeights_orOnes hn).1 hck.2.2.2.2.2.2.2.2.2
    · intro d' hd'
      rw [hd] at hd'
      obtain rfl := Option.some.inj hd'
      rw [hv] at h11
      exact (stratifiedDraw_exists_iff _ _ _).1 ⟨_, h11⟩
  · intro ha
    have hn : 0 < n := by
      have h5' := ha.treated l₀ hl₀ d hd
      rcases Nat.eq_zero_or_pos n with rfl | h0
      · have : Nat.card {i : Fin 0 // nums (F.col d) i = l₀} = 0 := by
          rw [Nat.card_eq_zero]; exact Or.inl ⟨fun x => x.1.elim0⟩
        omega
      · exact h0
    obtain ⟨⟨k, r, S⟩, h11⟩ := (stratifiedDraw_exists_iff (nums (F.col d)) b b.first).2 (ha.draw d hd)
    have hS := (stratifiedDraw_ok_iff _ _ _ _ _ _ _).1 h11
    have hgw := ha.weights r hS.2.1
    have h1 := (checkNoInstr_ok_iff D).2 ha.noInstr
    have h2 : checkLevels D a.levels = .ok a.levels.list := by
      unfold checkLevels
      rw [if_pos]
      intro l hl
      have := ha.treated l hl d hd
      by_contra hc
      have h0 : Nat.card {i // nums (F.col d) i = l} = 0 := by
        rw [Nat.card_eq_zero]
        exact Or.inl ⟨fun x => hc ⟨x.1, by rw [hv]; exact x.2⟩⟩
      omega
    obtain ⟨u, h3⟩ := (one_score_iff _ _).2 ha.score
    obtain ⟨t, h4⟩ := (trimming_iff _ _).2 ha.trimming
    obtain ⟨norm, h5⟩ := (bool_iff _).2 ha.normalize
    have h6 := (LearnerObj.check_ok_iff a.ml_g true true a.ml_g.isClassifier).2 ⟨rfl, ha.ml_g⟩
    have h7 := (LearnerObj.check_ok_iff a.ml_m false true true).2 ⟨rfl, ha.ml_m⟩
    have h8 := (outcome_iff hD a.ml_g.isClassifier).2 ha.outcome
    have h9 : checkAposWeights a.weights n b.nRep = .ok () := by
      unfold checkAposWeights
      rw [asNat_of_asInt hS.2.1]
      exact (C53_accepted_iff _ hw _ _ _).2 hgw
    obtain ⟨w, h10⟩ : ∃ w, initWeights.store n (a.weights.orOnes n) = .ok w := by
      obtain ⟨w, h⟩ := (initWeights_ok_iff _ (hw.orOnes n) .ate n r).2 ((goodWeights_orOnes hn).2 hgw)
      obtain ⟨_, -, h⟩ := bind_ok h
      exact ⟨w, h⟩
    have h11 : stratifiedDraw (fun i => (D.dv i).val) b.nFolds b.nRep b.first = .ok (k, r, S) := by rw [hv]; exact h11
    unfold newApos
    simp only [bind, Except.bind, h1, h2, h3, h4, h5, h6, h7, h8, h9, h10, hb, h11, if_true]
    obtain ⟨ms, hms⟩ := (mapM_exists_iff (initSub D b.first k r S) ((a.levels.list.map fun l =>
        { ml_g := a.ml_g.run
          ml_m := a.ml_m.run
          gClassifier := a.ml_g.isClassifier
          level := l
          normalize := norm
          trimT := t
          weights := w
          vars := varsOf read D : ApoClass n P }).map (aposSub a D))).2 (by
      intro c hc
      obtain ⟨k', hk', rfl⟩ := List.mem_map.1 hc
      obtain ⟨l, hl, rfl⟩ := List.mem_map.1 hk'
      refine (initSub_ok_iff hS.2.2.2.2 _ _).2 ⟨(varsOf_eq read D).1 ha.plain, ?_⟩
      exact (apoChecks_ok_iff hD (a.sub n l) (hw.orOnes n) r).2 ⟨ha.one, ha.noInstr, ha.treated l hl, ha.score, ha.ml_g, ha.ml_m, ha.outcome, ha.normalize, ha.trimming, (goodWeights_orOnes hn).2 hgw⟩)
    rw [hms]
    exact ⟨_, rfl⟩

/-- The classes of the sub-models in the form used in `C63_apos`. -/
noncomputable def aposSubs (a : AposArgs P) (D : DataState n) (ks : List (ApoClass n P)) :
    List (SubClass n P (Option (List (FittedModel P (List Cell))))) :=
  aposClasses (fun k => apoChecks (a.sub n k.level) D) ks

theorem usesWeights_orOnes {w : WArg} (hw : w.Dict) {k R : ℕ} {r : StoredWeights}
    (h : initWeights (w.orOnes k) .ate k R = .ok r) : UsesWeights w k R r := by
  cases w with
  | none =>
    obtain ⟨_, -, h⟩ := bind_ok h
    obtain rfl := Except.ok.inj h
    intro i q
    refine ⟨fun _ => ?_, fun _ h => (by cases h), fun _ _ _ h => (by cases h)⟩
    simp [StoredWeights.get]
  | _ => exact usesWeights hw h

theorem apoCreate_of {cs : List (SubClass n P M)} {D : DataState n} {k r : ℕ} {w : Draws n} {S : List (List IdxPair)}
    {ms : List (MState n P M)} (hS : multiDraw k r w = .ok S) (h : cs.mapM (initSub D w k r S) = .ok ms) :
    apoCreate cs D k r true w = .ok ⟨k, r, some S, some ms, none⟩ := by
  have h1 : apoDraw (multiEmpty (n := n) (P := P) (M := M) k r) w = (⟨k, r, some S, none, none⟩, .ok ()) := by
    unfold apoDraw setDrawn
    simp only [multiEmpty, hS]
  have h2 : reinit cs D w ⟨k, r, some S, none, none⟩ = (⟨k, r, some S, some ms, none⟩, .ok ()) := by
    unfold reinit initSubs
    simp only [h]
  unfold apoCreate
  simp only [h1, h2, if_true]

theorem qteCreate_of {cs : List (SubClass n P M)} {D : DataState n} {k r : ℕ} {w : Draws n} {S : List (List IdxPair)}
    {ms : List (MState n P M)} (hS : multiDraw k r w = .ok S) (h : cs.mapM (initSub D w k r S) = .ok ms) :
    qteCreate cs D k r true w = .ok ⟨k, r, some S, some ms, none⟩ := by
  have h2 : ∀ x, reinit cs D w ⟨k, r, some S, x, none⟩ = (⟨k, r, some S, some ms, none⟩, .ok ()) := by
    intro x
    unfold reinit initSubs
    simp only [h]
  have h1 : qteDraw cs D (multiEmpty (n := n) (P := P) (M := M) k r) w = (⟨k, r, some S, some ms, none⟩, .ok ()) := by
    unfold qteDraw setDrawn
    simp only [multiEmpty, hS, h2]
  unfold qteCreate
  simp only [h1, h2, if_true]

/-- **C64, APOS, the created object.**  There is one sub-model for every level, in the order given, all with the given
learners and settings; the object holds no results.  With a draw all sub-models are set up for the drawn split and use the
given weights. -/
theorem C64_apos_object {F : Frame n} {D : DataState n} (hD : FreshData F D) (read : List (Fin n → Cell) → ClusterVars n)
    (a : AposArgs P) (hw : a.weights.Dict) (b : Resampling n) {ks : List (ApoClass n P)}
    {s : Multi n P (Option (List (FittedModel P (List Cell))))} (h : newApos read a D b = .ok (ks, s)) :
    ks.map (fun k => k.level) = a.levels.list ∧
    (∀ k ∈ ks, k.ml_g = a.ml_g.run ∧ k.ml_m = a.ml_m.run ∧ k.gClassifier = a.ml_g.isClassifier ∧
      a.normalize = .bool k.normalize ∧ a.threshold = .float k.trimT ∧
      (D.cluster = none → k.vars = none) ∧ (D.cluster ≠ none → k.vars = some read)) ∧
    s.framework = none ∧
    (b.draw.truthy = true → b.nFolds.asInt = some (s.nFolds : ℤ) ∧ b.nRep.asInt = some (s.nRep : ℤ) ∧
      apoCreate (aposSubs a D ks) D s.nFolds s.nRep true b.first = .ok s ∧ s.subs.isSome ∧
      ∀ k ∈ ks, UsesWeights a.weights n s.nRep k.weights) ∧
    (b.draw.truthy = false → s.smpls = none ∧ s.subs = none) := by
  obtain ⟨h1, h2, h3, h4, h5, h6, h7, t, norm, w, h8, h9, h10, hks, h11⟩ := newApos_ok h
  refine ⟨by rw [hks, List.map_map]; exact List.map_id _, ?_, ?_, ?_, ?_⟩
  · intro k hk
    rw [hks] at hk
    obtain ⟨l, hl, rfl⟩ := List.mem_map.1 hk
    exact ⟨rfl, rfl, rfl, h9, ((C39_accepted_iff _ _ _).1 h8).2.1, varsOf_eq read D⟩
  · rcases h11 with ⟨-, rfl⟩ | ⟨-, k, r, S, ms, -, -, rfl⟩ <;> rfl
  · intro hd
    rcases h11 with ⟨h11, -⟩ | ⟨-, k, r, S, ms, h11, h12, rfl⟩
    · rw [hd] at h11; cases h11
    have hS := (stratifiedDraw_ok_iff _ _ _ _ _ _ _).1 h11
    refine ⟨hS.1, hS.2.1, ?_, rfl, ?_⟩
    · have h12 : (aposSubs a D ks).mapM (initSub D b.first k r S) = .ok ms := h12
      exact apoCreate_of hS.2.2.2.2 h12
    · intro k' hk'
      rw [hks] at hk'
      obtain ⟨l, hl, rfl⟩ := List.mem_map.1 hk'
      have hm := (initSub_ok_iff hS.2.2.2.2 _ _).1 ((mapM_exists_iff _ _).1 ⟨ms, h12⟩ _ (List.mem_map.2 ⟨_, by rw [hks]; exact List.mem_map.2 ⟨l, hl, rfl⟩, rfl⟩))
      have hck := ((apoChecks_ok_iff hD (a.sub n l) (hw.orOnes n) r).1 hm.2).2.2.2.2.2.2.2.2.2
      obtain ⟨w', hw'⟩ := (initWeights_ok_iff (a.weights.orOnes n) (hw.orOnes n) .ate n r).2 hck
      have : w' = w := by
        obtain ⟨_, -, h'⟩ := bind_ok hw'
        rw [h10] at h'
        exact (Except.ok.inj h').symm
      subst this
      exact usesWeights_orOnes hw hw'
  · intro hd
    rcases h11 with ⟨-, rfl⟩ | ⟨h11, -⟩
    · exact ⟨rfl, rfl⟩
    · rw [hd] at h11; cases h11

theorem isLevel_binary (l : ℝ) (v : Fin n → ℝ) (i : Fin n) : isLevel l v i = 0 ∨ isLevel l v i = 1 := by
  unfold isLevel
  split_ifs
  exacts [Or.inr rfl, Or.inl rfl]

/-- **C64, APOS: what is created can be fitted**, provided every training set contains observations at each level and at
other levels. -/
theorem C64_apos_fit (E : Ext) {F : Frame n} {D : DataState n} (hD : FreshData F D) (hcl : D.cluster = none)
    (hy : ¬ ZeroOne (F.col D.y)) (read : List (Fin n → Cell) → ClusterVars n) {a : AposArgs P} (hw : a.weights.Dict)
    (hl : a.levels.list ≠ []) (hg : a.ml_g.isClassifier = false) (hm : a.ml_m.run.Compliant) {b : Resampling n}
    (hdraw : b.draw.truthy = true) (hf : FoldsDrawn b b.first) {d : String} (hd : D.d = [d])
    (hs : ∀ l ∈ a.levels.list, Spread (isLevel l (nums (F.col d))) b.first)
    {ks : List (ApoClass n P)} {s : Multi n P (Option (List (FittedModel P (List Cell))))}
    (h : newApos read a D b = .ok (ks, s)) {args : FitArgs} (ha : PlainArgs args) {e : ApoExt ℝ} (he : e.Valid a.levels.list)
    (hsh : e.Shaped n s.nRep) : (apoFit F a.levels.list d (aposSubs a D ks) s args e).2 = .ok () := by
  obtain ⟨k1, k2, -, k3, -⟩ := C64_apos_object hD read a hw b h
  obtain ⟨k3, k4, k5, k6, -⟩ := k3 hdraw
  obtain ⟨-, -, -, -, -, -, -, t, norm, w, -, -, hst, hks, h11⟩ := newApos_ok h
  rcases h11 with ⟨h11, -⟩ | ⟨-, k, r, S, ms, h11, h12, rfl⟩
  · rw [hdraw] at h11; cases h11
  have hS := (stratifiedDraw_ok_iff _ _ _ _ _ _ _).1 h11
  have hdv := hD.treat hd
  have hlev : ∀ k' ∈ ks, k'.level ∈ a.levels.list := fun k' hk' => by rw [← k1]; exact List.mem_map_of_mem hk'
  have hon : ∀ m ∈ ms, SubOn D S r k m := fun m hm => by
    obtain ⟨c, -, hc⟩ := mapM_mem h12 m hm
    exact initSub_on hS.2.2.2.2 hc
  have hfold : ∀ m ∈ ms, ∀ T, m.smpls = some T → T = (List.range r).map fun q => assignFolds k (b.first.assign q) :=
    fun m hm T hT => drawn_folds hS.2.2.2.2 (fun q i => by exact_mod_cast hf _ hS.1 q i) (hon m hm) hT
  refine C63_apos (E := E) (w0 := b.first) hd (by rw [← k1, List.length_map]) ?_ k5 [] rfl (fun k hk => (k2 k hk).2.2.2.2.2.1 hcl)
    (fun k hk => (k2 k hk).2.2.1.trans hg) (fun k hk => by rw [(k2 k hk).2.1]; exact hm) (hD.notBinOut hy) ?_ ?_ ?_ ha he ?_
  · rintro rfl
    exact hl k1.symm
  · intro k hk
    rw [hdv]
    exact (hs _ (hlev k hk)).binary (isLevel_binary _ _)
  · intro m hm T hT S' hS' k' hk'
    rw [hfold m hm T hT] at hS'
    obtain ⟨q, -, rfl⟩ := List.mem_map.1 hS'
    rw [hdv]
    exact C63_stratified (hs _ (hlev k' hk') q)
  · intro m hm T hT k' hk' q hq
    rw [hfold m hm T hT, List.length_map, List.length_range] at hq
    rw [hks] at hk'
    obtain ⟨l, hl, rfl⟩ := List.mem_map.1 hk'
    have hmm := (initSub_ok_iff hS.2.2.2.2 _ _).1 ((mapM_exists_iff _ _).1 ⟨ms, h12⟩ _ (List.mem_map.2 ⟨_, by rw [hks]; exact List.mem_map.2 ⟨l, hl, rfl⟩, rfl⟩))
    have hck := ((apoChecks_ok_iff hD (a.sub n l) (hw.orOnes n) r).1 hmm.2).2.2.2.2.2.2.2.2.2
    obtain ⟨w', hw'⟩ := (initWeights_ok_iff (a.weights.orOnes n) (hw.orOnes n) .ate n r).2 hck
    have : w' = w := by
      obtain ⟨_, -, h'⟩ := bind_ok hw'
      rw [hst] at h'
      exact (Except.ok.inj h').symm
    subst this
    exact weights_at (hw.orOnes n) hw' q hq
  · intro m hm
    rw [(hon m hm).nRep]
    exact hsh

/-- **C64, APOS, violated: no levels.**  An empty list of levels is accepted, with or without a draw, but the object can never
be fitted: there is nothing to concatenate. -/
theorem C64_apos_empty_violated {D : DataState n} (read : List (Fin n → Cell) → ClusterVars n) {a : AposArgs P}
    (hl : a.levels.list = []) {b : Resampling n} (hb : b.draw.truthy = true) {ks : List (ApoClass n P)}
    {s : Multi n P (Option (List (FittedModel P (List Cell))))} (h : newApos read a D b = .ok (ks, s)) (F : Frame n) (d : String)
    (args : FitArgs) : ks = [] ∧ s.subs = some [] ∧ (apoFit F a.levels.list d (aposSubs a D ks) s args .none).2 = .error .typeError := by
  obtain ⟨-, -, -, -, -, -, -, t, norm, w, -, -, hst, hks, h11⟩ := newApos_ok h
  rw [hl] at hks
  obtain rfl : ks = [] := hks
  rcases h11 with ⟨h11, -⟩ | ⟨-, k, r, S, ms, h11, h12, rfl⟩
  · rw [hb] at h11; cases h11
  obtain rfl : [] = ms := Except.ok.inj h12
  refine ⟨rfl, rfl, ?_⟩
  rw [hl]
  rfl

/-- **C64, APOS, violated: clustered data.**  Clustered data pass the checks, but with the default draw the constructor always
fails, because the drawn split does not contain the clusters. -/
theorem C64_apos_cluster_violated {D : DataState n} (read : List (Fin n → Cell) → ClusterVars n) {a : AposArgs P}
    (hl : a.levels.list ≠ []) {b : Resampling n} (hb : b.draw.truthy = true) (hD : D.cluster ≠ none) :
    ¬ ∃ r, newApos read a D b = .ok r := by
  rintro ⟨⟨ks, s⟩, h⟩
  obtain ⟨-, -, -, -, -, -, -, t, norm, w, -, -, hst, hks, h11⟩ := newApos_ok h
  rcases h11 with ⟨h11, -⟩ | ⟨-, k, r, S, ms, h11, h12, rfl⟩
  · rw [hb] at h11; cases h11
  have hS := (stratifiedDraw_ok_iff _ _ _ _ _ _ _).1 h11
  obtain ⟨l₀, hl₀⟩ := List.exists_mem_of_ne_nil _ hl
  have := ((initSub_ok_iff hS.2.2.2.2 _ _).1 ((mapM_exists_iff _ _).1 ⟨ms, h12⟩ _ (List.mem_map.2 ⟨_, by rw [hks]; exact List.mem_map.2 ⟨l₀, hl₀, rfl⟩, rfl⟩))).1
  have h' : varsOf read D = none := this
  rw [(varsOf_eq read D).2 hD] at h'
  cases h'

/-- What `DoubleMLAPOS` requires without a draw: neither a single treatment nor observations at the levels. -/
structure AposUndrawn (D : DataState n) (a : AposArgs P) (b : Resampling n) : Prop where
  noInstr : D.z = none
  levels : ∀ l ∈ a.levels.list, ∃ i, (D.dv i).val = l
  score : a.score = .str "APO"
  ml_g : a.ml_g.Usable a.ml_g.isClassifier
  ml_m : a.ml_m.Usable true
  outcome : a.ml_g.isClassifier = true → D.binOut = true
  normalize : ∃ v, a.normalize = .bool v
  trimming : TrimmingOk a.rule a.threshold
  weights : ∃ R : ℕ, GoodWeights n R a.weights .ate ∧ ∀ kv, a.weights = .dict kv → b.nRep.asNat = some R

theorem checkAposWeights_iff (w : WArg) (hw : w.Dict) (k : ℕ) (v : PyVal) :
    checkAposWeights w k v = .ok () ↔ ∃ R : ℕ, GoodWeights k R w .ate ∧ ∀ kv, w = .dict kv → v.asNat = some R := by
  unfold checkAposWeights
  have hindep : ∀ R R', (∀ kv, w ≠ .dict kv) → GoodWeights k R w .ate → GoodWeights k R' w .ate := by
    intro R R' hd h
    cases h with
    | default => exact .default _
    | ate a ha => exact .ate a ha
    | dict kv _ _ _ _ _ => exact absurd rfl (hd kv)
  cases hv : v.asNat with
  | some R =>
    dsimp only
    rw [C53_accepted_iff w hw]
    refine ⟨fun h => ⟨R, h, fun _ _ => rfl⟩, ?_⟩
    rintro ⟨R', h1, h2⟩
    by_cases hd : ∃ kv, w = .dict kv
    · obtain ⟨kv, hd⟩ := hd
      rw [Option.some.inj (h2 kv hd)]
      exact h1
    · exact hindep _ _ (fun kv h => hd ⟨kv, h⟩) h1
  | none =>
    cases w with
    | dict kv =>
      refine ⟨fun h => (by cases h), ?_⟩
      rintro ⟨R, -, h⟩
      cases h kv rfl
    | none => exact ⟨fun _ => ⟨0, .default _, fun _ h => (by cases h)⟩, fun _ => rfl⟩
    | arr x =>
      dsimp only
      rw [C53_accepted_iff _ hw]
      exact ⟨fun h => ⟨0, h, fun _ h => (by cases h)⟩, fun ⟨R, h, _⟩ => hindep R 0 (fun _ h => (by cases h)) h⟩
    | other =>
      refine ⟨fun h => (by cases h), ?_⟩
      rintro ⟨R, h, -⟩
      cases h

/-- **C64, APOS without a draw.** -/
theorem C64_apos_undrawn {D : DataState n} (read : List (Fin n → Cell) → ClusterVars n) (a : AposArgs P) (hw : a.weights.Dict)
    (b : Resampling n) (hb : b.draw.truthy = false) : (∃ r, newApos read a D b = .ok r) ↔ AposUndrawn D a b := by
  constructor
  · rintro ⟨⟨ks, s⟩, h⟩
    obtain ⟨h1, h2, h3, h4, h5, h6, h7, t, norm, w, h8, h9, h10, -, -⟩ := newApos_ok h
    exact ⟨h1, h2, h3, h4, h5, h6, ⟨_, h9⟩, (trimming_iff _ _).1 ⟨_, h8⟩, (checkAposWeights_iff _ hw _ _).1 h7⟩
  · intro ha
    have h1 := (checkNoInstr_ok_iff D).2 ha.noInstr
    have h2 : checkLevels D a.levels = .ok a.levels.list := by
      unfold checkLevels
      rw [if_pos ha.levels]
    obtain ⟨u, h3⟩ := (one_score_iff _ _).2 ha.score
    obtain ⟨t, h4⟩ := (trimming_iff _ _).2 ha.trimming
    obtain ⟨norm, h5⟩ := (bool_iff _).2 ha.normalize
    have h6 := (LearnerObj.check_ok_iff a.ml_g true true a.ml_g.isClassifier).2 ⟨rfl, ha.ml_g⟩
    have h7 := (LearnerObj.check_ok_iff a.ml_m false true true).2 ⟨rfl, ha.ml_m⟩
    have h8 := (checkOutcome_ok_iff a.ml_g.isClassifier D.binOut).2 ha.outcome
    have h9 := (checkAposWeights_iff _ hw n b.nRep).2 ha.weights
    obtain ⟨w, h10⟩ : ∃ w, initWeights.store n (a.weights.orOnes n) = .ok w := by
      obtain ⟨R, hR, -⟩ := ha.weights
      cases hc : a.weights with
      | none => exact ⟨_, rfl⟩
      | arr x => exact ⟨_, rfl⟩
      | other => rw [hc] at hR; cases hR
      | dict kv =>
        rw [hc] at hR hw
        obtain ⟨w, h⟩ := (initWeights_ok_iff _ hw .ate n R).2 hR
        obtain ⟨_, -, h⟩ := bind_ok h
        exact ⟨w, h⟩
    unfold newApos
    simp only [bind, Except.bind, h1, h2, h3, h4, h5, h6, h7, h8, h9, h10, hb, Bool.false_eq_true, if_false]
    exact ⟨_, rfl⟩

/-! ## QTE -/

/-- The checks of one sub-model. -/
theorem quantChecks_ok_iff {F : Frame n} {D : DataState n} (hD : FreshData F D) (k : QuantKind) (a : QuantArgs P) :
    quantChecks k a D = .ok () ↔ ((k ≠ .lpq → D.z = none) ∧ (∃ d, D.d = [d] ∧ ZeroOne (F.col d)) ∧
      (k = .lpq → ∃ z, D.z = some [z] ∧ ZeroOne (F.col z))) ∧ a.score = .str k.score ∧
      (∃ x, a.quantile = .float x ∧ 0 < x ∧ x < 1) ∧ (a.treatment.asInt = some 0 ∨ a.treatment.asInt = some 1) ∧
      (∃ v, a.normalize = .bool v) ∧ TrimmingOk a.rule a.threshold ∧ a.ml_g.Usable (decide (k ≠ .cvar)) ∧ a.ml_m.Usable true := by
  constructor
  · intro h
    unfold quantChecks at h
    obtain ⟨_, h1, h⟩ := bind_ok h
    obtain ⟨_, h2, h⟩ := bind_ok h
    obtain ⟨_, h3, h⟩ := bind_ok h
    obtain ⟨_, h4, h⟩ := bind_ok h
    obtain ⟨_, h5, h⟩ := bind_ok h
    obtain ⟨_, h6, h⟩ := bind_ok h
    obtain ⟨_, h7, h⟩ := bind_ok h
    obtain ⟨_, h8, h⟩ := bind_ok h
    have h7 := (usable_iff _ _ _).1 ⟨_, h7⟩
    rw [k.asClassifier] at h7
    exact ⟨(QuantKind.checkData_ok_iff hD k).1 h1, (one_score_iff _ _).1 ⟨_, h2⟩, (quantile_iff _).1 ⟨_, h3⟩, (treatment_iff _).1 ⟨_, h4⟩,
      (bool_iff _).1 ⟨_, h5⟩, (trimming_iff _ _).1 ⟨_, h6⟩, h7, (usable_iff _ _ _).1 ⟨_, h8⟩⟩
  · rintro ⟨h1, h2, h3, h4, h5, h6, h7, h8⟩
    have h1 := (QuantKind.checkData_ok_iff hD k).2 h1
    obtain ⟨_, h2⟩ := (one_score_iff _ _).2 h2
    obtain ⟨_, h3⟩ := (quantile_iff _).2 h3
    obtain ⟨_, h4⟩ := (treatment_iff _).2 h4
    obtain ⟨_, h5⟩ := (bool_iff _).2 h5
    obtain ⟨_, h6⟩ := (trimming_iff _ _).2 h6
    rw [← k.asClassifier a.ml_g] at h7
    obtain ⟨_, h7⟩ := (usable_iff _ _ _).2 h7
    obtain ⟨_, h8⟩ := (usable_iff a.ml_m false true).2 h8
    unfold quantChecks
    simp only [bind, Except.bind, h1, h2, h3, h4, h5, h6, h7, h8]
    rfl

/-- The checks that the constructor of `DoubleMLQTE` repeats for the sub-models are those of the quantile models. -/
theorem quantChecks_iff_newQuant {F : Frame n} {D : DataState n} (hD : FreshData F D) (k : QuantKind)
    (read : List (Fin n → Cell) → ClusterVars n) (a : QuantArgs P) {b : Resampling n} (hb : b.draw = .bool false) :
    (∃ r, newQuant k read a D b = .ok r) ↔ ResamplingOk read D b ∧ quantChecks k a D = .ok () := by
  have hsc : a.score = .str k.score ↔
      (k = .pq → a.score = .str "PQ") ∧ (k = .cvar → a.score = .str "CVaR") ∧ (k = .lpq → a.score = .str "LPQ") := by
    cases k <;> simp [QuantKind.score]
  rw [C64_quant hD k read a b, quantChecks_ok_iff hD k a]
  refine and_congr_right fun _ => ⟨fun h => ⟨⟨h.noInstr, h.treat, h.instr⟩, hsc.2 h.score, h.quantile, h.treatment, h.normalize, h.trimming, h.ml_g, h.ml_m⟩,
    fun ⟨⟨h1, h2, h3⟩, h4, h5, h6, h7, h8, h9, h10⟩ => ⟨h1, h2, h3, hsc.1 h4, h5, h6, h7, ?_, h8, h9, h10⟩⟩
  split_ifs
  · intro d c _ _ h
    rw [hb] at h
    cases h
  · intro d _ h
    rw [hb] at h
    cases h

theorem qteScore_iff (v : PyVal) (k : QuantKind) : checkScore qteScores v = .ok k ↔ v = .str k.score := by
  rw [checkScore_ok_iff]
  constructor
  · rintro ⟨s, rfl, h⟩
    simp only [qteScores, lookupKey] at h
    by_cases h1 : s = "PQ"
    · subst h1; simp at h; subst h; rfl
    · by_cases h2 : s = "LPQ"
      · subst h2; simp at h; subst h; rfl
      · by_cases h3 : s = "CVaR"
        · subst h3; simp at h; subst h; rfl
        · simp [Ne.symm h1, Ne.symm h2, Ne.symm h3] at h
  · rintro rfl
    refine ⟨_, rfl, ?_⟩
    cases k <;> simp [qteScores, lookupKey, QuantKind.score]

theorem qteScore_exists_iff (v : PyVal) : (∃ k, checkScore qteScores v = .ok k) ↔ v = .str "PQ" ∨ v = .str "LPQ" ∨ v = .str "CVaR" := by
  simp only [qteScore_iff]
  constructor
  · rintro ⟨k, h⟩
    cases k
    exacts [Or.inl h, Or.inr (Or.inr h), Or.inr (Or.inl h)]
  · rintro (h | h | h)
    exacts [⟨.pq, h⟩, ⟨.lpq, h⟩, ⟨.cvar, h⟩]

theorem clone_ok_iff (L L' : LearnerObj P) : cloneLearner L = .ok L' ↔ L' = L ∧ L.isClass = false ∧ L.hasGetParams = true := by
  unfold cloneLearner
  cases h1 : L.isClass <;> cases h2 : L.hasGetParams <;> simp [eq_comm]

theorem cloneOpt_ok_iff (L : Option (LearnerObj P)) (L' : LearnerObj P) :
    cloneOpt L = .ok L' ↔ L = some L' ∧ L'.isClass = false ∧ L'.hasGetParams = true := by
  cases L with
  | none => simp [cloneOpt]
  | some L =>
    simp only [cloneOpt, clone_ok_iff]
    constructor
    · rintro ⟨rfl, h⟩; exact ⟨rfl, h⟩
    · rintro ⟨h, h'⟩; cases h; exact ⟨rfl, h'⟩

/-- The requirements of `DoubleMLQTE` if the split is drawn. -/
structure QteSuitable (F : Frame n) (D : DataState n) (a : QteArgs P) (b : Resampling n) : Prop where
  plain : D.cluster = none
  quantiles : ∀ q ∈ a.quantiles, 0 < q ∧ q < 1
  kde : a.kde ≠ .other
  score : a.score = .str "PQ" ∨ a.score = .str "LPQ" ∨ a.score = .str "CVaR"
  treat : ∃ d, D.d = [d] ∧ ZeroOne (F.col d)
  noInstr : a.score ≠ .str "LPQ" → D.z = none
  instr : a.score = .str "LPQ" → ∃ z, D.z = some [z] ∧ ZeroOne (F.col z)
  normalize : ∃ v, a.normalize = .bool v
  trimming : TrimmingOk a.rule a.threshold
  ml_g : (a.score ≠ .str "CVaR" → a.ml_g.Usable true) ∧ (a.score = .str "CVaR" → a.ml_g.Usable false)
  ml_m : ∃ m, a.ml_m = some m ∧ m.Usable true
  draw : ∀ d, D.d.head? = some d → DrawOk (nums (F.col d)) b

/-- What a successful call went through. -/
theorem newQte_ok {E : QuantEnv n} {read : List (Fin n → Cell) → ClusterVars n} {a : QteArgs P} {D : DataState n} {b : Resampling n}
    {cs : List (SubClass n P (Option (List (FittedModel P (List Cell)))))}
    {s : Multi n P (Option (List (FittedModel P (List Cell))))} (h : newQte E read a D b = .ok (cs, s)) :
    (∀ q ∈ a.quantiles, 0 < q ∧ q < 1) ∧ a.kde ≠ .other ∧ checkZeroOneTreat D = .ok () ∧
    ∃ k t norm m, a.score = .str k.score ∧ checkTrimming a.rule a.threshold = .ok t ∧ a.normalize = .bool norm ∧ a.ml_m = some m ∧
      a.ml_g.isClass = false ∧ a.ml_g.hasGetParams = true ∧ m.isClass = false ∧ m.hasGetParams = true ∧
      cs = (qteInits a.quantiles norm t).map (qteSub E read a m k D) ∧
      ((b.draw.truthy = false ∧ s = multiEmpty ((b.nFolds.asNat).getD 0) ((b.nRep.asNat).getD 0)) ∨
        (b.draw.truthy = true ∧ ∃ K r S ms, stratifiedDraw (fun i => (D.dv i).val) b.nFolds b.nRep b.first = .ok (K, r, S) ∧
          cs.mapM (initSub D b.first K r S) = .ok ms ∧ s = ⟨K, r, some S, some ms, none⟩)) := by
  unfold newQte at h
  obtain ⟨_, h1, h⟩ := bind_ok h
  obtain ⟨_, h2, h⟩ := bind_ok h
  obtain ⟨k, h3, h⟩ := bind_ok h
  obtain ⟨_, h4, h⟩ := bind_ok h
  obtain ⟨t, h5, h⟩ := bind_ok h
  obtain ⟨norm, h6, h⟩ := bind_ok h
  obtain ⟨g, h7, h⟩ := bind_ok h
  obtain ⟨m, h8, h⟩ := bind_ok h
  obtain ⟨-, h7, h7'⟩ := (clone_ok_iff _ _).1 h7
  obtain ⟨h8, h9, h10⟩ := (cloneOpt_ok_iff _ _).1 h8
  unfold checkQuantiles at h1
  split_ifs at h1 with hq
  push Not at hq
  refine ⟨hq, ?_, h4, k, t, norm, m, (qteScore_iff _ _).1 h3, h5, (checkBool_ok_iff _ _).1 h6, h8, h7, h7', h9, h10, ?_⟩
  · intro hk
    rw [hk] at h2
    cases h2
  dsimp only at h
  split_ifs at h with hd
  · obtain ⟨⟨K, r, S⟩, h11, h⟩ := bind_ok h
    obtain ⟨_, -, h⟩ := bind_ok h
    obtain ⟨ms, h12, h⟩ := bind_ok h
    cases h
    exact ⟨rfl, Or.inr ⟨hd, K, r, S, ms, h11, h12, rfl⟩⟩
  · cases h
    exact ⟨rfl, Or.inl ⟨by simpa using hd, rfl⟩⟩

theorem quantSpec_varsOf (E : QuantEnv n) (k : QuantKind) (g m : Learner P (List Cell)) (i : QuantInit)
    (vars : Option (List (Fin n → Cell) → ClusterVars n)) (y : Fin n → ℝ) : (quantSpec E k g m i vars y).vars = vars := by
  cases k <;> rfl

theorem mem_qteInits {l : List ℝ} {norm : Bool} {t : ℝ} {i : QuantInit} :
    i ∈ qteInits l norm t ↔ i.q ∈ l ∧ (i.treatment = 0 ∨ i.treatment = 1) ∧ i.normalize = norm ∧ i.trimT = t := by
  unfold qteInits
  simp only [List.mem_flatMap, List.mem_cons, List.not_mem_nil, or_false]
  constructor
  · rintro ⟨q, hq, rfl | rfl⟩
    · exact ⟨hq, Or.inl rfl, rfl, rfl⟩
    · exact ⟨hq, Or.inr rfl, rfl, rfl⟩
  · rcases i with ⟨z, q, v, x⟩
    rintro ⟨h1, h2 | h2, h3, h4⟩ <;> simp only at h1 h2 h3 h4 <;> subst h2 h3 h4
    · exact ⟨q, h1, Or.inl rfl⟩
    · exact ⟨q, h1, Or.inr rfl⟩

/-- **C64, QTE.**  For data that were not changed since their creation and a non-empty list of quantiles, the constructor with
a draw succeeds exactly if the requirements are met. -/
theorem C64_qte {F : Frame n} {D : DataState n} (hD : FreshData F D) (E : QuantEnv n) (read : List (Fin n → Cell) → ClusterVars n)
    (a : QteArgs P) (hl : a.quantiles ≠ []) (b : Resampling n) (hb : b.draw.truthy = true) :
    (∃ r, newQte E read a D b = .ok r) ↔ QteSuitable F D a b := by
  obtain ⟨d, hd, hv, -⟩ := hD.first
  obtain ⟨q₀, hq₀⟩ := List.exists_mem_of_ne_nil _ hl
  constructor
  · rintro ⟨⟨cs, s⟩, h⟩
    obtain ⟨h1, h2, h3, k, t, norm, m, h4, h5, h6, h7, h8, h9, h10, h11, hcs, h12⟩ := newQte_ok h
    rcases h12 with ⟨h12, -⟩ | ⟨-, K, r, S, ms, h12, h13, -⟩
    · rw [hb] at h12; cases h12
    have hS := (stratifiedDraw_ok_iff _ _ _ _ _ _ _).1 h12
    have hm := (initSub_ok_iff hS.2.2.2.2 _ _).1 ((mapM_exists_iff _ _).1 ⟨ms, h13⟩ (qteSub E read a m k D ⟨0, q₀, norm, t⟩)
      (by rw [hcs]; exact List.mem_map_of_mem (mem_qteInits.2 ⟨hq₀, Or.inl rfl, rfl, rfl⟩)))
    have hvars : varsOf read D = none := (quantSpec_varsOf E k _ _ _ _ _).symm.trans hm.1
    have hc := (quantChecks_ok_iff hD k _).1 hm.2
    refine ⟨?_, h1, h2, ?_, (treat_iff hD).1 h3, ?_, ?_, ⟨_, h6⟩, (trimming_iff _ _).1 ⟨_, h5⟩, ?_, ⟨m, h7, hc.2.2.2.2.2.2.2⟩, ?_⟩
    · by_contra hcl
      rw [(varsOf_eq read D).2 hcl] at hvars
      cases hvars
    · exact (qteScore_exists_iff _).1 ⟨k, (qteScore_iff _ _).2 h4⟩
    · intro hs
      refine hc.1.1 ?_
      rintro rfl
      exact hs h4
    · intro hs
      refine hc.1.2.2 ?_
      rw [h4] at hs
      cases k <;> simp [QuantKind.score] at hs ⊢
    · have hg := hc.2.2.2.2.2.2.1
      rw [h4]
      cases k <;> simp [QuantKind.score] at hg ⊢ <;> exact hg
    · intro d' hd'
      rw [hd] at hd'
      obtain rfl := Option.some.inj hd'
      rw [hv] at h12
      exact (stratifiedDraw_exists_iff _ _ _).1 ⟨_, h12⟩
  · intro ha
    obtain ⟨⟨K, r, S⟩, h11⟩ := (stratifiedDraw_exists_iff (nums (F.col d)) b b.first).2 (ha.draw d hd)
    have hS := (stratifiedDraw_ok_iff _ _ _ _ _ _ _).1 h11
    have h11 : stratifiedDraw (fun i => (D.dv i).val) b.nFolds b.nRep b.first = .ok (K, r, S) := by rw [hv]; exact h11
    have h1 : checkQuantiles a.quantiles = .ok () := by
      unfold checkQuantiles
      rw [if_neg]
      push Not
      exact ha.quantiles
    have h2 : checkKde a.kde = .ok () := by
      have := ha.kde
      cases hk : a.kde <;> simp_all [checkKde]
    obtain ⟨k, h3⟩ := (qteScore_exists_iff _).2 ha.score
    have hk := (qteScore_iff _ _).1 h3
    have h4 := (treat_iff hD).2 ha.treat
    obtain ⟨t, h5⟩ := (trimming_iff _ _).2 ha.trimming
    obtain ⟨norm, h6⟩ := (bool_iff _).2 ha.normalize
    obtain ⟨m, hm, hmu⟩ := ha.ml_m
    obtain ⟨hg1, hg2⟩ : a.ml_g.isClass = false ∧ a.ml_g.hasGetParams = true := by
      by_cases h : a.score = .str "CVaR"
      · exact ⟨(ha.ml_g.2 h).instance_, (ha.ml_g.2 h).get⟩
      · exact ⟨(ha.ml_g.1 h).instance_, (ha.ml_g.1 h).get⟩
    have h7 := (clone_ok_iff a.ml_g a.ml_g).2 ⟨rfl, hg1, hg2⟩
    have h8 := (cloneOpt_ok_iff a.ml_m m).2 ⟨hm, hmu.instance_, hmu.get⟩
    obtain ⟨ms, hms⟩ := (mapM_exists_iff (initSub D b.first K r S) ((qteInits a.quantiles norm t).map (qteSub E read a m k D))).2 (by
      intro c hc
      obtain ⟨i, hi, rfl⟩ := List.mem_map.1 hc
      obtain ⟨i1, i2, -, -⟩ := mem_qteInits.1 hi
      refine (initSub_ok_iff hS.2.2.2.2 _ _).2 ⟨?_, ?_⟩
      · exact (quantSpec_varsOf E k _ _ _ _ _).trans ((varsOf_eq read D).1 ha.plain)
      · refine (quantChecks_ok_iff hD k _).2 ⟨⟨?_, ha.treat, ?_⟩, rfl, ⟨_, rfl, ha.quantiles _ i1⟩, ?_, ha.normalize, ha.trimming, ?_, hmu⟩
        · intro h
          refine ha.noInstr ?_
          rw [hk]
          cases k <;> simp [QuantKind.score] at h ⊢
        · rintro rfl
          exact ha.instr hk
        · rcases i2 with h | h
          · exact Or.inl (by rw [← h]; rfl)
          · exact Or.inr (by rw [← h]; rfl)
        · have hg := ha.ml_g
          rw [hk] at hg
          cases k <;> simp [QuantKind.score] at hg ⊢ <;> exact hg)
    unfold newQte
    simp only [bind, Except.bind, h1, h2, h3, h4, h5, h6, h7, h8, hb, h11, if_true, hms]
    exact ⟨_, rfl⟩

theorem qteInits_pairs (l : List ℝ) (norm : Bool) (t : ℝ) :
    (qteInits l norm t).map (fun i => (i.q, i.treatment)) = l.flatMap fun q => [(q, 0), (q, 1)] := by
  unfold qteInits
  rw [List.map_flatMap]
  rfl

/-- What the three model classes are given for one setting: learners, setting, bounds and the functions they use. -/
def quantFields (E : QuantEnv n) (g m : Learner P (List Cell)) (lo hi : ℝ) (vars : Option (List (Fin n → Cell) → ClusterVars n))
    (i : QuantInit) : PqClass n P :=
  { ml_g := g
    ml_m := m
    treatment := i.treatment
    q := i.q
    trimT := i.trimT
    normalize := i.normalize
    lo := lo
    hi := hi
    nested := E.nested
    root := E.root
    kde := E.kde
    vars := vars }

/-- The same for local quantiles. -/
def localFields (E : QuantEnv n) (g m : Learner P (List Cell)) (lo hi : ℝ) (vars : Option (List (Fin n → Cell) → ClusterVars n))
    (i : QuantInit) : LpqClass n P :=
  { ml_g := g
    ml_m := m
    treatment := i.treatment
    q := i.q
    trimT := i.trimT
    normalize := i.normalize
    lo := lo
    hi := hi
    nested := E.nested
    root := E.root
    kde := E.kde
    vars := vars }

/-- **C64, QTE, the created object.**  For every quantile, in the order given, there is a model for the control group and one
for the treated, all of the class that belongs to the score and with the given learners and settings, with the smallest and
the largest outcome as bounds and the start value of the class; the object holds no results.  With a draw all sub-models are
set up for the drawn split. -/
theorem C64_qte_object (hn : 0 < n) (E : QuantEnv n) {D : DataState n} (read : List (Fin n → Cell) → ClusterVars n) (a : QteArgs P)
    (b : Resampling n) {cs : List (SubClass n P (Option (List (FittedModel P (List Cell)))))}
    {s : Multi n P (Option (List (FittedModel P (List Cell))))} (h : newQte E read a D b = .ok (cs, s)) :
    (∃ (m : LearnerObj P) (is : List QuantInit) (lo hi : ℝ) (vars : Option (List (Fin n → Cell) → ClusterVars n)),
      a.ml_m = some m ∧
      is.map (fun i => (i.q, i.treatment)) = (a.quantiles.flatMap fun q => [(q, 0), (q, 1)]) ∧
      (∀ i ∈ is, a.normalize = .bool i.normalize ∧ a.threshold = .float i.trimT) ∧
      IsLeast (Set.range (nums D.yv)) lo ∧ IsGreatest (Set.range (nums D.yv)) hi ∧
      (D.cluster = none → vars = none) ∧ (D.cluster ≠ none → vars = some read) ∧
      ((a.score = .str "PQ" ∧ cs.map (fun c => c.spec) = is.map (fun i => pqSpec (quantFields E a.ml_g.run m.run lo hi vars i)) ∧
          cs.map (fun c => c.start) = is.map (fun i => pqStart (nums D.yv) (nums D.dv) i.treatment i.q)) ∨
        (a.score = .str "LPQ" ∧ cs.map (fun c => c.spec) = is.map (fun i => lpqSpec (localFields E a.ml_g.run m.run lo hi vars i)) ∧
          cs.map (fun c => c.start) = is.map (fun i => pqStart (nums D.yv) (nums D.dv) i.treatment i.q)) ∨
        (a.score = .str "CVaR" ∧ cs.map (fun c => c.spec) = is.map (fun i => cvarSpec (quantFields E a.ml_g.run m.run lo hi vars i)) ∧
          cs.map (fun c => c.start) = is.map (fun i => cvarStart (nums D.yv) (nums D.dv) i.treatment i.q)))) ∧
    s.framework = none ∧
    (b.draw.truthy = true → b.nFolds.asInt = some (s.nFolds : ℤ) ∧ b.nRep.asInt = some (s.nRep : ℤ) ∧
      qteCreate cs D s.nFolds s.nRep true b.first = .ok s ∧ s.subs.isSome) ∧
    (b.draw.truthy = false → s.smpls = none ∧ s.subs = none) := by
  obtain ⟨h1, h2, h3, k, t, norm, m, h4, h5, h6, h7, h8, h9, h10, h11, hcs, h12⟩ := newQte_ok h
  have hne : Nonempty (Fin n) := ⟨⟨0, hn⟩⟩
  refine ⟨⟨m, qteInits a.quantiles norm t, (coefBounds (nums D.yv)).1, (coefBounds (nums D.yv)).2, varsOf read D, h7,
    qteInits_pairs _ _ _, ?_, ⟨(Set.finite_range (nums D.yv)).isCompact.sInf_mem (Set.range_nonempty _), fun x hx => csInf_le (Set.finite_range _).bddBelow hx⟩,
    ⟨(Set.finite_range (nums D.yv)).isCompact.sSup_mem (Set.range_nonempty _), fun x hx => le_csSup (Set.finite_range _).bddAbove hx⟩, (varsOf_eq read D).1, (varsOf_eq read D).2, ?_⟩, ?_, ?_, ?_⟩
  · intro i hi
    obtain ⟨-, -, rfl, rfl⟩ := mem_qteInits.1 hi
    exact ⟨h6, ((C39_accepted_iff _ _ _).1 h5).2.1⟩
  · rw [hcs, List.map_map, List.map_map]
    cases k
    · exact Or.inl ⟨h4, rfl, rfl⟩
    · exact Or.inr (Or.inr ⟨h4, rfl, rfl⟩)
    · exact Or.inr (Or.inl ⟨h4, rfl, rfl⟩)
  · rcases h12 with ⟨-, rfl⟩ | ⟨-, K, r, S, ms, -, -, rfl⟩ <;> rfl
  · intro hd
    rcases h12 with ⟨h12, -⟩ | ⟨-, K, r, S, ms, h12, h13, rfl⟩
    · rw [hd] at h12; cases h12
    have hS := (stratifiedDraw_ok_iff _ _ _ _ _ _ _).1 h12
    exact ⟨hS.1, hS.2.1, qteCreate_of hS.2.2.2.2 h13, rfl⟩
  · intro hd
    rcases h12 with ⟨-, rfl⟩ | ⟨h12, -⟩
    · exact ⟨rfl, rfl⟩
    · rw [hd] at h12; cases h12

/-- **C64, QTE: what is created can be fitted**, provided the training sets of the drawn folds can be halved. -/
theorem C64_qte_fit (X : Ext) {E : QuantEnv n} (hE : E.nested.Ok) {F : Frame n} {D : DataState n} (hcl : D.cluster = none)
    (read : List (Fin n → Cell) → ClusterVars n) {a : QteArgs P} (hl : a.quantiles ≠ []) {m : LearnerObj P} (ham : a.ml_m = some m)
    (hm : m.run.Compliant) {b : Resampling n} (hdraw : b.draw.truthy = true) (hf : FoldsDrawn b b.first) {d : String} (hd : D.d = [d])
    {k : QuantKind} (hk : a.score = .str k.score)
    (hs : ∀ (K r : ℕ), b.nFolds.asInt = some (K : ℤ) → QuantReady k E.nested D (assignFolds K (b.first.assign r)))
    {cs : List (SubClass n P (Option (List (FittedModel P (List Cell)))))}
    {s : Multi n P (Option (List (FittedModel P (List Cell))))} (h : newQte E read a D b = .ok (cs, s)) {args : FitArgs}
    (ha : PlainArgs args) (he : args.ext = .none) : (qteFit F cs s args).2 = .ok () := by
  obtain ⟨-, -, -, k', t, norm, m', h4, -, -, h7, -, -, -, -, hcs, h12⟩ := newQte_ok h
  obtain rfl : m' = m := by rw [ham] at h7; exact (Option.some.inj h7).symm
  obtain rfl : k' = k := by
    rw [h4] at hk
    cases k <;> cases k' <;> first | rfl | (exact absurd hk (by simp [QuantKind.score]))
  rcases h12 with ⟨h12, -⟩ | ⟨-, K, r, S, ms, h12, h13, rfl⟩
  · rw [hdraw] at h12; cases h12
  have hS := (stratifiedDraw_ok_iff _ _ _ _ _ _ _).1 h12
  have hcs' : cs = qteClasses E k' a.ml_g.run m'.run (fun i => (D.yv i).val)
      (fun i => quantStart k' i (fun i => (D.yv i).val) (fun i => (D.dv i).val))
      (fun i _ => quantChecks k' (a.sub m' k' i.q i.treatment) D) (qteInits a.quantiles norm t) := by
    rw [hcs]
    unfold qteClasses qteSub
    rw [(varsOf_eq read D).1 hcl]
  have hcr := qteCreate_of hS.2.2.2.2 h13
  have hon : ∀ m ∈ ms, SubOn D S r K m := fun m hm => by
    obtain ⟨c, -, hc⟩ := mapM_mem h13 m hm
    exact initSub_on hS.2.2.2.2 hc
  rw [hcs'] at hcr ⊢
  refine C63_qte (E := X) (w0 := b.first) (L := ℝ) hE hm ?_ hd hcr [] rfl ?_ ha he
  · obtain ⟨q, l, hq⟩ := List.exists_cons_of_ne_nil hl
    rw [hq]
    simp [qteInits]
  · intro m hm T hT S' hS'
    rw [drawn_folds hS.2.2.2.2 (fun q i => by exact_mod_cast hf _ hS.1 q i) (hon m hm) hT] at hS'
    obtain ⟨q, -, rfl⟩ := List.mem_map.1 hS'
    exact hs K q hS.1

/-- **C64, QTE, violated: the default.**  The learner `ml_m` may be left out according to the signature, but then the
constructor always fails. -/
theorem C64_qte_default_violated (E : QuantEnv n) {D : DataState n} (read : List (Fin n → Cell) → ClusterVars n) {a : QteArgs P}
    (ha : a.ml_m = none) (b : Resampling n) : ¬ ∃ r, newQte E read a D b = .ok r := by
  rintro ⟨⟨cs, s⟩, h⟩
  obtain ⟨-, -, -, -, -, -, m, -, -, -, h7, -⟩ := newQte_ok h
  rw [ha] at h7
  cases h7

/-- **C64, QTE, violated: no quantiles.**  An empty list of quantiles is accepted, but the object can never be fitted. -/
theorem C64_qte_empty_violated (E : QuantEnv n) {D : DataState n} (read : List (Fin n → Cell) → ClusterVars n) {a : QteArgs P}
    (hl : a.quantiles = []) {b : Resampling n} (hb : b.draw.truthy = true)
    {cs : List (SubClass n P (Option (List (FittedModel P (List Cell)))))}
    {s : Multi n P (Option (List (FittedModel P (List Cell))))} (h : newQte E read a D b = .ok (cs, s)) (F : Frame n) {args : FitArgs}
    (he : args.ext = .none) : cs = [] ∧ s.subs = some [] ∧ ∃ e, (qteFit F cs s args).2 = .error e := by
  obtain ⟨-, -, -, k, t, norm, m, -, -, -, -, -, -, -, -, hcs, h12⟩ := newQte_ok h
  rw [hl] at hcs
  obtain rfl : cs = [] := hcs
  rcases h12 with ⟨h12, -⟩ | ⟨-, K, r, S, ms, h12, h13, rfl⟩
  · rw [hb] at h12; cases h12
  obtain rfl : [] = ms := Except.ok.inj h13
  refine ⟨rfl, rfl, ?_⟩
  unfold qteFit
  rw [he, if_neg (by simp [ExtArg.given])]
  exact ⟨_, rfl⟩

/-- **C64, QTE, violated: clustered data.**  Clustered data pass the checks, but with the default draw the constructor always
fails. -/
theorem C64_qte_cluster_violated (E : QuantEnv n) {D : DataState n} (read : List (Fin n → Cell) → ClusterVars n) {a : QteArgs P}
    (hl : a.quantiles ≠ []) {b : Resampling n} (hb : b.draw.truthy = true) (hD : D.cluster ≠ none) :
    ¬ ∃ r, newQte E read a D b = .ok r := by
  rintro ⟨⟨cs, s⟩, h⟩
  obtain ⟨-, -, -, k, t, norm, m, -, -, -, -, -, -, -, -, hcs, h12⟩ := newQte_ok h
  rcases h12 with ⟨h12, -⟩ | ⟨-, K, r, S, ms, h12, h13, -⟩
  · rw [hb] at h12; cases h12
  have hS := (stratifiedDraw_ok_iff _ _ _ _ _ _ _).1 h12
  obtain ⟨q₀, hq₀⟩ := List.exists_mem_of_ne_nil _ hl
  have hm := (initSub_ok_iff hS.2.2.2.2 _ _).1 ((mapM_exists_iff _ _).1 ⟨ms, h13⟩ (qteSub E read a m k D ⟨0, q₀, norm, t⟩)
    (by rw [hcs]; exact List.mem_map_of_mem (mem_qteInits.2 ⟨hq₀, Or.inl rfl, rfl, rfl⟩)))
  have hvars : varsOf read D = none := (quantSpec_varsOf E k _ _ _ _ _).symm.trans hm.1
  rw [(varsOf_eq read D).2 hD] at hvars
  cases hvars

/-- What `DoubleMLQTE` requires without a draw: of the learners only that they can be cloned, of the instruments nothing. -/
structure QteUndrawn (F : Frame n) (D : DataState n) (a : QteArgs P) : Prop where
  quantiles : ∀ q ∈ a.quantiles, 0 < q ∧ q < 1
  kde : a.kde ≠ .other
  score : a.score = .str "PQ" ∨ a.score = .str "LPQ" ∨ a.score = .str "CVaR"
  treat : ∃ d, D.d = [d] ∧ ZeroOne (F.col d)
  normalize : ∃ v, a.normalize = .bool v
  trimming : TrimmingOk a.rule a.threshold
  ml_g : a.ml_g.isClass = false ∧ a.ml_g.hasGetParams = true
  ml_m : ∃ m, a.ml_m = some m ∧ m.isClass = false ∧ m.hasGetParams = true

/-- **C64, QTE without a draw.** -/
theorem C64_qte_undrawn {F : Frame n} {D : DataState n} (hD : FreshData F D) (E : QuantEnv n)
    (read : List (Fin n → Cell) → ClusterVars n) (a : QteArgs P) (b : Resampling n) (hb : b.draw.truthy = false) :
    (∃ r, newQte E read a D b = .ok r) ↔ QteUndrawn F D a := by
  constructor
  · rintro ⟨⟨cs, s⟩, h⟩
    obtain ⟨h1, h2, h3, k, t, norm, m, h4, h5, h6, h7, h8, h9, h10, h11, -, -⟩ := newQte_ok h
    exact ⟨h1, h2, (qteScore_exists_iff _).1 ⟨k, (qteScore_iff _ _).2 h4⟩, (treat_iff hD).1 h3, ⟨_, h6⟩, (trimming_iff _ _).1 ⟨_, h5⟩, ⟨h8, h9⟩, m, h7, h10, h11⟩
  · intro ha
    have h1 : checkQuantiles a.quantiles = .ok () := by
      unfold checkQuantiles
      rw [if_neg]
      push Not
      exact ha.quantiles
    have h2 : checkKde a.kde = .ok () := by
      have := ha.kde
      cases hk : a.kde <;> simp_all [checkKde]
    obtain ⟨k, h3⟩ := (qteScore_exists_iff _).2 ha.score
    have h4 := (treat_iff hD).2 ha.treat
    obtain ⟨t, h5⟩ := (trimming_iff _ _).2 ha.trimming
    obtain ⟨norm, h6⟩ := (bool_iff _).2 ha.normalize
    obtain ⟨m, hm, hm1, hm2⟩ := ha.ml_m
    have h7 := (clone_ok_iff a.ml_g a.ml_g).2 ⟨rfl, ha.ml_g.1, ha.ml_g.2⟩
    have h8 := (cloneOpt_ok_iff a.ml_m m).2 ⟨hm, hm1, hm2⟩
    unfold newQte
    simp only [bind, Except.bind, h1, h2, h3, h4, h5, h6, h7, h8, hb, Bool.false_eq_true, if_false]
    exact ⟨_, rfl⟩

/-! ## Concrete objects -/

theorem exDrawOk : DrawOk (nums (bit16 0)) exResampling := by
  refine ⟨2, 3, rfl, rfl, by norm_num, by norm_num, ?_, 0, ?_⟩
  · intro i
    rw [bit16_nums]
    split_ifs
    · exact ⟨0, by simp⟩
    · exact ⟨1, by simp⟩
  · have := card_ge (n := 16) (m := 2) (f := nums (bit16 0)) (v := 0) ![0, 2] (by decide) (by
      intro j
      fin_cases j <;> simp [bit16_nums])
    exact_mod_cast this

theorem exLevelCount {l : ℝ} (hl : l = 0 ∨ l = 1) : 5 ≤ Nat.card {i // nums (bit16 0) i = l} := by
  rcases hl with rfl | rfl
  · exact card_ge (n := 16) (m := 5) ![0, 2, 4, 6, 8] (by decide) (by intro j; fin_cases j <;> simp [bit16_nums])
  · exact card_ge (n := 16) (m := 5) ![1, 3, 5, 7, 9] (by decide) (by intro j; fin_cases j <;> simp [bit16_nums])

theorem exSpreadLevel {l : ℝ} (hl : l = 0 ∨ l = 1) : Spread (isLevel l (nums (bit16 0))) exResampling.first := by
  have ha : ∀ r i, exResampling.first.assign r i = if i.val < 8 then 0 else 1 := fun _ _ => rfl
  intro r v hv
  rcases hl with rfl | rfl <;> rcases hv with rfl | rfl
  · exact ⟨1, 9, by simp [isLevel, bit16_nums], by simp [isLevel, bit16_nums], by rw [ha, ha]; decide⟩
  · exact ⟨0, 8, by simp [isLevel, bit16_nums], by simp [isLevel, bit16_nums], by rw [ha, ha]; decide⟩
  · exact ⟨0, 8, by simp [isLevel, bit16_nums], by simp [isLevel, bit16_nums], by rw [ha, ha]; decide⟩
  · exact ⟨1, 9, by simp [isLevel, bit16_nums], by simp [isLevel, bit16_nums], by rw [ha, ha]; decide⟩

/-- The arguments of an APOS object with two levels. -/
noncomputable def exAposArgs (levels : List ℝ) : AposArgs ℕ :=
  ⟨exLearnerObj, exLearnerObj, .many levels, .str "APO", .none, .bool false, .str "truncate", .float (1 / 100)⟩

/-- APOS with default settings: data created from arrays are suitable, the object with three repetitions is created and
fitted; with an empty list of levels it is created but cannot be fitted. -/
example (E : Ext) (read : List (Fin 16 → Cell) → ClusterVars 16) : ∃ F D d, FreshData F D ∧
    (∃ ks s, newApos read (exAposArgs [0, 1]) D exResampling = .ok (ks, s) ∧
      (apoFit F ([0, 1] : List ℝ) d (aposSubs (exAposArgs [0, 1]) D ks) s {} .none).2 = .ok ()) ∧
    (∃ ks s, newApos read (exAposArgs []) D exResampling = .ok (ks, s) ∧
      (apoFit F ([] : List ℝ) d (aposSubs (exAposArgs []) D ks) s {} .none).2 = .error .typeError) := by
  obtain ⟨F, D, d, hD, hcl, hy, hd, hF, hz, -, -⟩ := exData16 none none none (by simp) (by simp) (by simp)
  have hz : D.z = none := Option.map_eq_none_iff.1 hz
  have hmem : ∀ l ∈ (exAposArgs [0, 1]).levels.list, l = 0 ∨ l = 1 := by
    intro l hl
    simpa [exAposArgs, RefArg.list] using hl
  obtain ⟨⟨ks, s⟩, h⟩ := (C64_apos (P := ℕ) hD read (exAposArgs [0, 1]) (by exact trivial) (by simp [exAposArgs, RefArg.list]) exResampling rfl).2
    ⟨hcl, ⟨d, hd⟩, hz, fun l hl d' hd' => by rw [hd] at hd'; obtain rfl := Option.some.inj hd'; rw [hF]; exact exLevelCount (hmem l hl),
      rfl, exLearnerObj_usable _, exLearnerObj_usable _, fun h => (by cases h), ⟨_, rfl⟩, exTrimming, fun _ _ => .default _,
      fun d' hd' => by rw [hd] at hd'; obtain rfl := Option.some.inj hd'; rw [hF]; exact exDrawOk⟩
  refine ⟨F, D, d, hD, ⟨ks, s, h, ?_⟩, ?_⟩
  · refine C64_apos_fit E hD hcl hy read (a := exAposArgs [0, 1]) trivial (by simp [exAposArgs, RefArg.list]) rfl exMeanL_compliant rfl exFoldsDrawn hd
      (fun l hl => by rw [hF]; exact exSpreadLevel (hmem l hl)) h ⟨.inl rfl, ⟨true, rfl⟩, ⟨false, rfl⟩⟩ ?_ ?_
    · exact trivial
    · exact trivial
  · have hex : ∃ r, newApos read (exAposArgs []) D exResampling = .ok r := by
      obtain ⟨⟨k, r, S⟩, hS⟩ := (stratifiedDraw_exists_iff (nums (bit16 0)) exResampling exResampling.first).2 exDrawOk
      have hS : stratifiedDraw (fun i => (D.dv i).val) exResampling.nFolds exResampling.nRep exResampling.first = .ok (k, r, S) := by
        rw [hD.treat hd, hF]; exact hS
      obtain ⟨t, ht⟩ := (trimming_iff _ _).2 exTrimming
      have h1 := (checkNoInstr_ok_iff D).2 hz
      have h2 : checkLevels D (exAposArgs []).levels = .ok [] := by
        unfold checkLevels
        rw [if_pos (by simp [exAposArgs, RefArg.list])]
        rfl
      have h3 : exResampling.draw.truthy = true := rfl
      unfold newApos
      simp only [bind, Except.bind, h1, h2, hS, h3]
      rw [show checkTrimming (exAposArgs []).rule (exAposArgs []).threshold = .ok t from ht]
      exact ⟨_, rfl⟩
    obtain ⟨⟨ks', s'⟩, h'⟩ := hex
    exact ⟨ks', s', h', (C64_apos_empty_violated read rfl rfl h' F d {}).2.2⟩

theorem exFolds16 : assignFolds (n := 16) 2 (fun i => if i.val < 8 then 0 else 1) =
    [⟨[8, 9, 10, 11, 12, 13, 14, 15], [0, 1, 2, 3, 4, 5, 6, 7]⟩, ⟨[0, 1, 2, 3, 4, 5, 6, 7], [8, 9, 10, 11, 12, 13, 14, 15]⟩] := by
  rfl

theorem exHalves16 (k : ℕ) (hk : k < 2) (strata : Fin 16 → ℝ) (r : ℕ) :
    HalvesReady (exNested 16) (assignFolds 2 (exResampling.first.assign r)) strata (nums (bit16 k)) := by
  have e : exResampling.first.assign r = fun i => if i.val < 8 then 0 else 1 := rfl
  rw [e, exFolds16]
  intro f hf
  have key : ∀ (l : List (Fin 16)), (∃ i, sub l (nums (bit16 k)) i = 0) → (∃ i, sub l (nums (bit16 k)) i = 1) →
      ∀ g ∈ [(⟨List.finRange l.length, List.finRange l.length⟩ : Fold l.length)], g.train.Nodup ∧ BothClasses (sub l (nums (bit16 k))) g := by
    rintro l ⟨i, hi⟩ ⟨j, hj⟩ g hg
    rw [List.mem_singleton.1 hg]
    exact ⟨List.nodup_finRange _, ⟨i, List.mem_finRange _, hi⟩, ⟨j, List.mem_finRange _, hj⟩⟩
  have h2 : k = 0 ∨ k = 1 := by omega
  rcases List.mem_cons.1 hf with rfl | hf
  · refine ⟨[8, 9, 10, 11], [12, 13, 14, 15], _, rfl, rfl, by simp, key [8, 9, 10, 11] ⟨0, ?_⟩ ⟨3, ?_⟩⟩
    · show nums (bit16 k) 8 = 0
      rcases h2 with rfl | rfl <;> simp [bit16_nums]
    · show nums (bit16 k) 11 = 1
      rcases h2 with rfl | rfl <;> simp [bit16_nums]
  · rw [List.mem_singleton.1 hf]
    refine ⟨[0, 1, 2, 3], [4, 5, 6, 7], _, rfl, rfl, by simp, key [0, 1, 2, 3] ⟨0, ?_⟩ ⟨3, ?_⟩⟩
    · show nums (bit16 k) 0 = 0
      rcases h2 with rfl | rfl <;> simp [bit16_nums]
    · show nums (bit16 k) 3 = 1
      rcases h2 with rfl | rfl <;> simp [bit16_nums]

theorem bit16_binary (k : ℕ) (hk : k < 2) : BinaryTarget (nums (bit16 k)) := by
  refine ⟨fun i => ?_, ⟨0, by simp [bit16_nums]⟩, ⟨3, ?_⟩⟩
  · rw [bit16_nums]
    split_ifs
    exacts [Or.inl rfl, Or.inr rfl]
  · have h2 : k = 0 ∨ k = 1 := by omega
    rcases h2 with rfl | rfl <;> simp [bit16_nums]

/-- The arguments of a QTE object. -/
noncomputable def exQteArgs (k : QuantKind) (m : Option (LearnerObj ℕ)) : QteArgs ℕ :=
  ⟨exLearnerObj, m, [1 / 4, 1 / 2, 3 / 4], .str k.score, .bool true, .none, .str "truncate", .float (1 / 100)⟩

/-- QTE for three quantiles with each of the three scores: the object with three repetitions is created and fitted, whatever the
root finder and the density estimate; without `ml_m` it is not created. -/
example (X : Ext) (k : QuantKind) (R : RootExt) (kde : (Fin 16 → ℝ) → (Fin 16 → ℝ) → ℝ) (read : List (Fin 16 → Cell) → ClusterVars 16) :
    ∃ F D, FreshData F D ∧
    (∃ cs s, newQte ⟨exNested 16, R, kde⟩ read (exQteArgs k (some exLearnerObj)) D exResampling = .ok (cs, s) ∧ (qteFit F cs s {}).2 = .ok ()) ∧
    ¬ ∃ r, newQte ⟨exNested 16, R, kde⟩ read (exQteArgs k none) D exResampling = .ok r := by
  obtain ⟨F, D, d, hD, hcl, hy, hd, hF, hz, -, -⟩ := exData16 (if k = .lpq then some [bit16 1] else none) none none (by
    intro l hl c hc
    split_ifs at hl
    · obtain rfl := Option.some.inj hl
      rw [List.mem_singleton.1 hc]
      exact fun i => ⟨_, rfl⟩
    · cases hl) (by simp) (by simp)
  have hno : k ≠ .lpq → D.z = none := fun h => by
    rw [if_neg h] at hz
    exact Option.map_eq_none_iff.1 hz
  have hin : k = .lpq → ∃ z, D.z = some [z] ∧ F.col z = bit16 1 := fun h => by
    rw [if_pos h] at hz
    obtain ⟨z', h1, h2⟩ := Option.map_eq_some_iff.1 hz
    obtain ⟨z, rfl, h3⟩ := List.map_eq_singleton_iff.1 h2
    exact ⟨z, h1, h3⟩
  have hlpq : (exQteArgs k (some exLearnerObj)).score = .str "LPQ" ↔ k = .lpq := by
    cases k <;> simp [exQteArgs, QuantKind.score]
  obtain ⟨⟨cs, s⟩, h⟩ := (C64_qte (P := ℕ) hD ⟨exNested 16, R, kde⟩ read (exQteArgs k (some exLearnerObj)) (by simp [exQteArgs]) exResampling rfl).2
    { plain := hcl
      quantiles := by
        intro q hq
        simp only [exQteArgs, List.mem_cons, List.not_mem_nil, or_false] at hq
        rcases hq with rfl | rfl | rfl <;> norm_num
      kde := by simp [exQteArgs]
      score := by cases k <;> simp [exQteArgs, QuantKind.score]
      treat := ⟨d, hd, hF ▸ bit16_zeroOne 0⟩
      noInstr := fun h => hno (fun h' => h (hlpq.2 h'))
      instr := fun h => by
        obtain ⟨z, h1, h2⟩ := hin (hlpq.1 h)
        exact ⟨z, h1, h2 ▸ bit16_zeroOne 1⟩
      normalize := ⟨_, rfl⟩
      trimming := exTrimming
      ml_g := ⟨fun _ => exLearnerObj_usable _, fun _ => exLearnerObj_usable _⟩
      ml_m := ⟨_, rfl, exLearnerObj_usable _⟩
      draw := fun d' hd' => by rw [hd] at hd'; obtain rfl := Option.some.inj hd'; rw [hF]; exact exDrawOk }
  refine ⟨F, D, hD, ⟨cs, s, h, ?_⟩, C64_qte_default_violated _ read rfl _⟩
  refine C64_qte_fit X (exNested_ok 16) hcl read (k := k) (by simp [exQteArgs]) rfl exMeanL_compliant rfl exFoldsDrawn hd rfl ?_ h
    ⟨.inl rfl, ⟨true, rfl⟩, ⟨false, rfl⟩⟩ rfl
  intro K r hK
  obtain rfl : K = 2 := by have := Option.some.inj hK; omega
  have hdv : nums D.dv = nums (bit16 0) := by rw [hD.treat hd, hF]
  cases k with
  | pq =>
    show BinaryTarget (nums D.dv) ∧ HalvesReady _ _ (nums D.dv) (nums D.dv)
    rw [hdv]
    exact ⟨bit16_binary 0 (by norm_num), exHalves16 0 (by norm_num) _ r⟩
  | cvar =>
    show BinaryTarget (nums D.dv) ∧ HalvesReady _ _ (nums D.dv) (nums D.dv)
    rw [hdv]
    exact ⟨bit16_binary 0 (by norm_num), exHalves16 0 (by norm_num) _ r⟩
  | lpq =>
    obtain ⟨z, h1, h2⟩ := hin rfl
    exact ⟨bit16 1, (hD.instr _).2 ⟨z, h1, h2.symm⟩, bit16_binary 1 (by norm_num), exHalves16 1 (by norm_num) _ r⟩

/-- Sixteen observations in eight clusters. -/
noncomputable def exClusters16 : Arrays 16 := { exArrays16 [bit16 0] none none none with cluster := some [fun i => .num (i.val / 2 : ℕ)] }

/-- Clustered data: `DoubleMLAPO` is created for both levels, `DoubleMLAPOS` and `DoubleMLQTE` are not. -/
example (E : QuantEnv 16) : ∃ (F : Frame 16) (D : DataState 16) (read : List (Fin 16 → Cell) → ClusterVars 16), FreshData F D ∧ D.cluster ≠ none ∧
    (∀ l ∈ ([0, 1] : List ℝ), ∃ r, newApo (P := ℕ) read ((exAposArgs [0, 1]).sub 16 l) D exResampling = .ok r) ∧
    (¬ ∃ r, newApos read (exAposArgs [0, 1]) D exResampling = .ok r) ∧
    (∃ r, newQuant .pq read ((exQteArgs .pq (some exLearnerObj)).sub exLearnerObj .pq (1 / 2) 1) D exResampling = .ok r) ∧
    ¬ ∃ r, newQte E read (exQteArgs .pq (some exLearnerObj)) D exResampling = .ok r := by
  obtain ⟨F, D, h⟩ := C36_from_arrays_accepts exClusters16 true true (by simp [exClusters16, exArrays16]) (by
    intro p hp
    simp only [arrayCols, exClusters16, exArrays16, optCols, optCol, List.append_nil, List.mem_append] at hp
    rcases hp with ((hp | hp) | hp) | hp
    · rw [List.mem_singleton.1 (List.of_mem_zip hp).2]
      exact fun i => ⟨_, rfl⟩
    · rw [List.mem_singleton.1 (List.of_mem_zip hp).2]
      exact fun i => ⟨_, rfl⟩
    · rw [List.mem_singleton.1 hp]
      exact fun i => ⟨_, rfl⟩
    · rw [List.mem_singleton.1 (List.of_mem_zip hp).2]
      exact fun i => ⟨_, rfl⟩)
  obtain ⟨-, -, -, -, -, -, -, hcv, hcs, -, -⟩ := C36_from_arrays_round_trip _ _ _ _ _ h
  obtain ⟨hD, -, h2, h3, -⟩ := arrays_fresh h
  have hcl : D.cluster ≠ none := by
    rw [← Option.isSome_iff_ne_none, hcs]
    rfl
  obtain ⟨d, -, -, l, hl⟩ := hD.first
  obtain ⟨hd, hF⟩ : D.d = [d] ∧ F.col d = bit16 0 := by
    rw [hl] at h2
    obtain ⟨g1, g2⟩ := List.cons.inj h2
    rw [List.map_eq_nil_iff] at g2
    exact ⟨by rw [hl, g2], g1⟩
  have hz : D.z = none := Option.map_eq_none_iff.1 h3
  have hR : ResamplingOk (fun _ => .one fun i => (i.val / 2 : ℕ)) D exResampling := by
    refine ⟨fun _ => by rw [hcv]; simp [exClusters16], 2, 3, true, rfl, by norm_num, rfl, by norm_num, rfl, fun _ => ?_⟩
    rw [if_pos (by rw [hcs]; rfl)]
    intro c hc
    rw [List.mem_singleton.1 hc]
    exact ⟨le_refl _, by decide⟩
  have hst : StrataByTreat F D exResampling := fun _ _ _ hc => absurd hc hcl
  refine ⟨F, D, fun _ => .one fun i => (i.val / 2 : ℕ), hD, hcl, ?_, C64_apos_cluster_violated _ (by simp [exAposArgs, RefArg.list]) rfl hcl, ?_,
    C64_qte_cluster_violated _ _ (by simp [exQteArgs]) rfl hcl⟩
  · intro l hl
    have hl : l = 0 ∨ l = 1 := by simpa using hl
    refine (C64_apo (P := ℕ) hD _ _ (by exact trivial) _).2 ⟨hR, ⟨d, hd⟩, hz, ?_, rfl, hst, exLearnerObj_usable _, exLearnerObj_usable _,
      fun h => (by cases h), ⟨_, rfl⟩, exTrimming, fun R _ => (goodWeights_orOnes (by norm_num)).2 (.default _)⟩
    intro d' hd'
    rw [hd] at hd'
    obtain rfl := Option.some.inj hd'
    rw [hF]
    exact exLevelCount hl
  · exact (C64_quant (P := ℕ) hD .pq _ _ _).2 ⟨hR, fun _ => hz, ⟨d, hd, hF ▸ bit16_zeroOne 0⟩, fun h => (by cases h),
      ⟨fun _ => rfl, fun h => (by cases h), fun h => (by cases h)⟩, ⟨1 / 2, rfl, by norm_num, by norm_num⟩, Or.inr rfl, ⟨_, rfl⟩, hst, exTrimming, exLearnerObj_usable _,
      exLearnerObj_usable _⟩

end DML
