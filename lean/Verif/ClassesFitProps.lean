import Verif.ClassesProps
import Verif.ScoreProps
import Verif.ParamProps

/-!
# The linear model classes inside `fit`

Which inputs make a cell succeed, the external predictions of a whole fit (C28), trimmed propensities (C39), the targets
of the evaluation (C58), independence of the number of folds (C60), and IRM as the contrast of two APO fits (C38).
-/

namespace DML

open Finset

variable {n : ℕ} {P : Type}

/-! ## Cells that succeed -/

/-- Both labels among the training observations of every fold. -/
def EveryFold (S : List (Fold n)) (on : Fin n → Prop) (y : Fin n → ℝ) : Prop :=
  ∀ f ∈ S, (∃ j ∈ f.train, on j ∧ y j = 0) ∧ ∃ j ∈ f.train, on j ∧ y j = 1

/-- Cross-fitting succeeds on a valid split, with or without fold-specific parameters, and keeps the targets. -/
theorem cvPredict_succeeds {X : Type} {L : Learner P X} {x : Fin n → X} {y : Fin n → ℝ} {smpls : List (Fold n)} {ps : Params P}
    {m : Method} (hps : ps.Fits smpls.length) (hp : isPartition smpls = true)
    (hm : m = .proba → L.Compliant ∧ BinaryTarget y ∧ ∀ f ∈ smpls, BothClasses y f) (hnd : ∀ f ∈ smpls, f.train.Nodup)
    (rt rm : Bool) :
    ∃ r, cvPredict L ⟨x, .plain y, smpls, ps, m, rt, rm⟩ = .ok r ∧ r.targets = (some fun i => some (y i)) ∧
      ∀ i, (r.preds i).isSome := by
  suffices h : ∃ r, cvPredict L ⟨x, .plain y, smpls, ps, m, rt, rm⟩ = .ok r ∧ r.targets = (some fun i => some (y i)) by
    obtain ⟨r, hr, ht⟩ := h
    refine ⟨r, hr, ht, fun i => ?_⟩
    obtain ⟨q, hq, -⟩ := C26_complete hp i
    cases m with
    | predict => rw [C26_prediction_rule rfl hp hnd hr q.val q.isLt i hq]; rfl
    | proba =>
      obtain ⟨hL, hy, hb⟩ := hm rfl
      exact (C26_prediction_rule_proba hL rfl rfl hy hp hr q.val q.isLt i hq (hb _ (List.getElem_mem q.isLt))).1
  by_cases hpar : ps.isPerFold = false
  · have hauto : ∀ r, cvPredict L ⟨x, .plain y, smpls, ps, m, false, false⟩ = .ok r →
        r.targets = (some fun i => some (y i)) := by
      intro r hr
      rw [cvPredict_auto hpar hp] at hr
      obtain ⟨_, _, hr⟩ := bind_ok hr
      rw [← Except.ok.inj hr]
    cases m with
    | predict =>
      obtain ⟨r, r', hr, hr', -, ht⟩ := C26_paths_agree L x y hpar hp hnd rt rm
      exact ⟨r', hr', by rw [← ht, hauto r hr]⟩
    | proba =>
      obtain ⟨hL, hy, hb⟩ := hm rfl
      obtain ⟨r, r', hr, hr', -, ht⟩ := C26_paths_agree_proba_partial hL x hy hpar hp hb rt rm
      exact ⟨r', hr', by rw [← ht, hauto r hr]⟩
  · obtain ⟨l, rfl⟩ : ∃ l, ps = .perFold l := by
      cases ps with
      | default => simp [Params.isPerFold] at hpar
      | same p => simp [Params.isPerFold] at hpar
      | perFold l => exact ⟨l, rfl⟩
    have hl : foldParams (.perFold l) smpls.length = .ok (l.map some) := by
      unfold foldParams
      dsimp only
      rw [if_neg (not_not.2 (hps l rfl))]
    have hy : fitTarget m y = y := by
      cases m with
      | predict => rfl
      | proba => exact (hm rfl).2.1.encode
    obtain ⟨b, hb⟩ := predictLoop_total (L := L) (m := m) (x := x)
      (smpls.zip (((l.map some).zip (smpls.map fun f => trainData x (fitTarget m y) f.train)).map fun pd =>
        (⟨pd.1, pd.2⟩ : FittedModel P X))) (by
        intro fm hfm i hi
        cases m with
        | predict => exact ⟨_, rfl⟩
        | proba =>
          obtain ⟨hL, hby, hbo⟩ := hm rfl
          obtain ⟨k, hk, hk'⟩ := List.mem_iff_getElem.1 hfm
          rw [List.length_zip] at hk
          have hk1 : k < smpls.length := lt_of_lt_of_le hk (min_le_left _ _)
          obtain ⟨p, hfm1⟩ : ∃ p, fm = (smpls[k], ⟨p, trainData x (fitTarget .proba y) smpls[k].train⟩) := by
            rw [← hk']
            simp
          subst hfm1
          obtain ⟨v, -, -, hv⟩ := autoEval_proba hL (x := x) hby (hbo _ (List.getElem_mem hk1)) p (x i)
          exact ⟨v, hv⟩) (fun _ => none)
    unfold cvPredict
    rw [if_pos (by simp [CvArgs.manual, Params.isPerFold])]
    unfold manualPredict
    simp only [hp, Target.isPerFold, Bool.not_true, Bool.false_and, Bool.and_false, Bool.false_eq_true, if_false, foldData, hl]
    simp only [bind, Except.bind] at hb ⊢
    rw [hb]
    refine ⟨_, rfl, ?_⟩
    show manualTargets (.plain y) m smpls = _
    rw [manualTargets_plain hp, hy]

/-- A valid cross-fitting partition: the test sets partition the observations, no training set repeats one. -/
structure FoldsOk (S : List (Fold n)) : Prop where
  partition : isPartition S = true
  nodup : ∀ f ∈ S, f.train.Nodup

theorem SplitOk.folds {S : List (Fold n)} (h : SplitOk S) : FoldsOk S :=
  ⟨h.partition, fun f hf => (h.sorted f hf).imp ne_of_lt⟩

theorem condSmpls_mem {on : Fin n → Prop} [DecidablePred on] {S : List (Fold n)} {f : Fold n} (h : f ∈ condSmpls on S) :
    f.train.Nodup ∧ ∃ g ∈ S, ∀ i, i ∈ f.train ↔ i ∈ g.train ∧ on i := by
  obtain ⟨k, hk, rfl⟩ := List.mem_iff_getElem.1 h
  have hl := (C27_training_sets on S).1
  obtain ⟨-, hn, hm⟩ := (C27_training_sets on S).2 k (by omega) hk
  exact ⟨hn, S[k], List.getElem_mem _, hm⟩

theorem crossFit_total {L : Learner P (List Cell)} {c : CellIn n P} {l : String} (x : Fin n → List Cell)
    (y : Fin n → ℝ) (on : Fin n → Prop) [DecidablePred on] (hS : FoldsOk c.smpls) {m : Method}
    (hpar : (c.paramsOf l).Fits c.smpls.length)
    (hm : m = .proba → L.Compliant ∧ BinaryTarget y ∧ EveryFold c.smpls on y) :
    ∃ r, crossFit L m c l x y (condSmpls on c.smpls) = .ok r ∧ r.targets = (some fun i => some (y i)) ∧
      ∀ i, (r.preds i).isSome := by
  have hp : isPartition (condSmpls on c.smpls) = true := by rw [isPartition_cond]; exact hS.partition
  have hlen : (c.paramsOf l).Fits (condSmpls on c.smpls).length := by
    intro q hq
    rw [hpar q hq, condSmpls, List.length_map]
  refine cvPredict_succeeds hlen hp (fun hq => ?_) (fun f hf => (condSmpls_mem hf).1) false c.wantModels
  obtain ⟨hL, hy, he⟩ := hm hq
  refine ⟨hL, hy, fun f hf => ?_⟩
  obtain ⟨-, g, hg, hfg⟩ := condSmpls_mem hf
  obtain ⟨⟨j0, h0, h0', h0''⟩, j1, h1, h1', h1''⟩ := he g hg
  exact ⟨⟨j0, (hfg j0).2 ⟨h0, h0'⟩, h0''⟩, j1, (hfg j1).2 ⟨h1, h1'⟩, h1''⟩

/-- Without restriction of the training sets. -/
theorem crossFit_total_all {L : Learner P (List Cell)} {c : CellIn n P} {l : String} (x : Fin n → List Cell)
    (y : Fin n → ℝ) (hS : FoldsOk c.smpls) {m : Method} (hpar : (c.paramsOf l).Fits c.smpls.length)
    (hm : m = .proba → L.Compliant ∧ BinaryTarget y ∧ EveryFold c.smpls (fun _ => True) y) :
    ∃ r, crossFit L m c l x y c.smpls = .ok r ∧ r.targets = (some fun i => some (y i)) ∧ ∀ i, (r.preds i).isSome := by
  refine cvPredict_succeeds hpar hS.partition (fun hq => ?_) hS.nodup false c.wantModels
  obtain ⟨hL, hy, he⟩ := hm hq
  refine ⟨hL, hy, fun f hf => ?_⟩
  obtain ⟨⟨j0, h0, -, h0''⟩, j1, h1, -, h1''⟩ := he f hf
  exact ⟨⟨j0, h0, h0''⟩, j1, h1, h1''⟩

theorem checkFinite_ok {p : NV n} (h : ∀ i, (p i).isSome) (S : List (Fold n)) : checkFinite p S = .ok () := by
  unfold checkFinite
  rw [if_pos (List.all_eq_true.2 fun i _ => h i)]

theorem condLearn_total {L : Learner P (List Cell)} {c : CellIn n P} {l : String} (x : Fin n → List Cell)
    (y : Fin n → ℝ) (on keep : Fin n → Prop) [DecidablePred on] [DecidablePred keep] (hS : FoldsOk c.smpls) {m : Method}
    (hpar : (c.paramsOf l).Fits c.smpls.length)
    (hm : m = .proba → L.Compliant ∧ BinaryTarget y ∧ EveryFold c.smpls on y) :
    ∃ r, condLearn L m c l x y on keep = .ok r := by
  obtain ⟨r, hr, ht, hs⟩ := crossFit_total x y on hS hpar hm
  unfold condLearn
  rw [hr]
  simp only [bind, Except.bind, checkFinite_ok hs c.smpls, pure, Except.pure]
  exact ⟨_, rfl⟩

theorem condSmpls_true {S : List (Fold n)} (hs : ∀ f ∈ S, f.train.Pairwise (· < ·)) :
    condSmpls (fun _ => True) S = S := by
  unfold condSmpls
  conv_rhs => rw [← List.map_id S]
  refine List.map_congr_left fun f hf => ?_
  rw [C27_training_sets_sorted _ f (hs f hf)]
  simp

theorem learn_total' {L : Learner P (List Cell)} {c : CellIn n P} {l : String} (y : Fin n → ℝ) (hS : FoldsOk c.smpls)
    {m : Method} (hpar : (c.paramsOf l).Fits c.smpls.length)
    (hm : m = .proba → L.Compliant ∧ BinaryTarget y ∧ EveryFold c.smpls (fun _ => True) y) :
    ∃ r, learn L m c l y = .ok r := by
  obtain ⟨r, hr, ht, hs⟩ := crossFit_total_all (rowX c.data) y hS hpar hm
  unfold crossFit at hr
  unfold learn
  rw [hr]
  simp only [bind, Except.bind, checkFinite_ok hs c.smpls, pure, Except.pure]
  exact ⟨_, rfl⟩

/-! ## A learner and a data set for the examples -/

open Classical in
/-- A learner that predicts the mean of its training targets; as a classifier it returns the class frequencies. -/
noncomputable def exMeanL : Learner ℕ (List Cell) where
  predict := fun _ D _ => (D.map Prod.snd).sum / D.length
  proba := fun _ D _ => (classesOf D).map fun v => ((D.filter fun q => decide (q.2 = v)).length : ℝ) / D.length

theorem exMeanL_compliant : exMeanL.Compliant := fun _ _ _ => by simp [exMeanL]

/-! ## C28: external predictions of a whole fit -/

theorem supplied_ext {ext : ExtArg} {learners : List String} {tv l : String} {k r q : ℕ} {A : ℕ → ℕ → ℝ}
    {e : List (String × Option (Fin n → ℝ))} (hs : setExt n ext learners tv k = .ok e) (hl : l ∈ learners)
    (hsup : ext.supplied tv l = some (.arr2 r q A)) : (lookupKey l e).join = some fun i : Fin n => A i k := by
  unfold setExt at hs
  obtain ⟨v, hv, hlook⟩ := lookupKey_of_mapM (by
    intro l' q' h
    cases ext with
    | none => rw [← Except.ok.inj h]
    | notDict => cases h
    | dict items =>
      dsimp only at h
      split at h
      · cases h
      · cases h
      · rw [← Except.ok.inj h]) hs hl
  rw [hlook]
  cases ext with
  | none => cases hsup
  | notDict => cases hsup
  | dict items =>
    unfold ExtArg.supplied at hsup
    dsimp only at hv hsup
    split at hsup
    · rename_i inner hi
      rw [hi] at hv
      dsimp only at hv
      rw [hsup] at hv
      have := (Prod.mk.inj (Except.ok.inj hv)).2
      rw [← this]
      rfl
    · cases hsup

/-- **C28.** A whole fit: the array supplied for a treatment and a learner is what `predictions` holds for them, column
`k` for repetition `k` (after trimming, for propensities). -/
theorem C28_stored {F : Frame n} {sp : LinSpec n P} {s : MState n P (Option (List (FittedModel P (List Cell))))} {a : FitArgs}
    (hp : a.storePredictions = .bool true) {mb : Bool} (hm : a.storeModels = .bool mb) (h : (fit F sp s a).2 = .ok ())
    {l : String} (hl : l ∈ sp.learners) {post : ℝ → ℝ} (hu : ExtUsed sp l post) {j k : ℕ} (hj : j < s.data.d.length)
    (hk : k < s.nRep) {r q : ℕ} {A : ℕ → ℕ → ℝ} (hsup : a.ext.supplied s.data.d[j] l = some (.arr2 r q A)) (i : Fin n) :
    predAt (fit F sp s a).1 j k l i = some (post (A i k)) := by
  obtain ⟨c, o, ls, hc, -, ho, -, -, -, -, -, hst, -⟩ := fit_cells h hp hm hj hk
  have ht : c.treat = s.data.d[j] := by
    have := hc.treat
    rw [List.getElem?_eq_getElem hj] at this
    exact (Option.some.inj this).symm
  have he : c.extOf l = some fun i : Fin n => A i k := supplied_ext hc.ext hl (by rw [ht]; exact hsup)
  have hlook := hu c o _ ho he
  have h2 := hst rfl
  unfold predAt
  cases hpr : (fit F sp s a).1.preds with
  | none => rw [hpr] at h2; cases h2
  | some f =>
    rw [hpr] at h2
    have h3 : f j k = some (o.preds, o.targets) := Option.some.inj h2
    simp only [bind, Option.bind, h3, hlook]

/-- **C28, IRM.** With predictions for both outcome regressions (for the propensity), the learner for the outcome
(the propensity) has no influence on anything. -/
theorem C28_irm_learner_unused (k : IrmClass n P) (c : CellIn n P) (L : Learner P (List Cell)) :
    ((∃ e0 e1, c.extOf "ml_g0" = some e0 ∧ c.extOf "ml_g1" = some e1) → irmEst { k with ml_g := L } c = irmEst k c) ∧
    ((∃ e, c.extOf "ml_m" = some e) → irmEst { k with ml_m := L } c = irmEst k c) := by
  constructor
  · rintro ⟨e0, e1, h0, h1⟩
    unfold irmEst irmG0 irmG1 irmWeights irmCheck1
    rw [h0, h1]
  · rintro ⟨e, h⟩
    unfold irmEst propM irmG0 irmG1 irmWeights irmCheck1
    rw [h]

/-- **C28, APO.** -/
theorem C28_apo_learner_unused (k : ApoClass n P) (c : CellIn n P) (L : Learner P (List Cell)) :
    ((∃ e0 e1, c.extOf "ml_g_d_lvl0" = some e0 ∧ c.extOf "ml_g_d_lvl1" = some e1) →
      apoEst { k with ml_g := L } c = apoEst k c) ∧
    ((∃ e, c.extOf "ml_m" = some e) → apoEst { k with ml_m := L } c = apoEst k c) := by
  constructor
  · rintro ⟨e0, e1, h0, h1⟩
    unfold apoEst apoG0 apoG1 apoM ApoClass.treated
    rw [h0, h1]
  · rintro ⟨e, h⟩
    unfold apoEst apoM apoG0 apoG1 ApoClass.treated
    rw [h]

/-- **C28, DID.** -/
theorem C28_did_learner_unused (k : DidClass n P) (c : CellIn n P) (L : Learner P (List Cell)) :
    ((∃ e0 e1, c.extOf "ml_g0" = some e0 ∧ c.extOf "ml_g1" = some e1) → didEst { k with ml_g := L } c = didEst k c) ∧
    ((∃ e, c.extOf "ml_m" = some e) → didEst { k with ml_m := L } c = didEst k c) := by
  constructor
  · rintro ⟨e0, e1, h0, h1⟩
    unfold didEst didG didM
    rw [h0, h1]
  · rintro ⟨e, h⟩
    unfold didEst didM didG propM
    rw [h]

/-- **C28, PLR.**  For the score `IV-type`, a prediction for `ml_g` makes the learner for `ml_l` superfluous too. -/
theorem C28_plr_learner_unused (k : PlrClass n P) (c : CellIn n P) (L : Learner P (List Cell)) :
    ((∃ e, c.extOf "ml_l" = some e) → plrEst { k with ml_l := L } c = plrEst k c) ∧
    ((∃ e, c.extOf "ml_m" = some e) → plrEst { k with ml_m := L } c = plrEst k c) ∧
    ((∃ e, c.extOf "ml_g" = some e) → plrEst { k with ml_g := L } c = plrEst k c) ∧
    (k.iv = true → (∃ e, c.extOf "ml_g" = some e) → plrEst { k with ml_l := L } c = plrEst k c) := by
  refine ⟨?_, ?_, ?_, ?_⟩
  · rintro ⟨e, h⟩
    unfold plrEst plrL plrM plrG
    rw [h]
  · rintro ⟨e, h⟩
    unfold plrEst plrL plrM plrG
    rw [h]
  · rintro ⟨e, h⟩
    unfold plrEst plrL plrM plrG
    rw [h]
  · rintro hiv ⟨e, h⟩
    unfold plrEst plrL plrM plrG
    dsimp only
    rw [h, hiv]
    rfl

/-- **C28, PLIV.** -/
theorem C28_pliv_learner_unused (k : PlivClass n P) (c : CellIn n P) (L : Learner P (List Cell)) :
    ((∃ e, c.extOf "ml_l" = some e) → plivEst { k with ml_l := L } c = plivEst k c) ∧
    ((∃ e, c.extOf "ml_m" = some e) → plivEst { k with ml_m := L } c = plivEst k c) ∧
    ((∃ e, c.extOf "ml_r" = some e) → plivEst { k with ml_r := L } c = plivEst k c) ∧
    ((∃ e, c.extOf "ml_g" = some e) → plivEst { k with ml_g := L } c = plivEst k c) := by
  refine ⟨?_, ?_, ?_, ?_⟩ <;>
  · rintro ⟨e, h⟩
    unfold plivEst plivG plivPart
    rw [h]

/-- The predictions of an excluded subgroup are constant, whatever is supplied. -/
theorem iivm_excluded (k : IivmClass n P) {c : CellIn n P} {o : LinOut n P} (h : (iivmSpec k).est c = .ok o) :
    (k.alwaysTakers = false → lookupKey "ml_r0" o.preds = some fun _ => some 0) ∧
    (k.neverTakers = false → lookupKey "ml_r1" o.preds = some fun _ => some 1) := by
  obtain ⟨z, g0, g1, m, r0, r1, hz, h0, -, h1, -, h3, h4, h5, -, hp, -⟩ := iivmEst_ok h
  have hR : ∀ {l v g}, iivmR k c z l v false = .ok g → g.preds = fun _ => some v := by
    intro l v g hg
    obtain ⟨r, hr, hg⟩ := bind_ok hg
    unfold iivmRRaw at hr
    rw [if_neg (by simp)] at hr
    obtain rfl := Except.ok.inj hr
    unfold iivmRTail at hg
    split at hg
    · obtain rfl := Except.ok.inj hg; rfl
    · obtain ⟨_, _, hg⟩ := bind_ok hg
      obtain rfl := Except.ok.inj hg; rfl
  rw [hp]
  refine ⟨fun ha => ?_, fun ha => ?_⟩
  · rw [ha] at h4; simp [lookupKey, hR h4]
  · rw [ha] at h5; simp [lookupKey, hR h5]

/-- A class that never uses its learners. -/
noncomputable def exIivm (a b : Bool) : IivmClass 2 ℕ :=
  { ml_g := exMeanL
    ml_m := exMeanL
    ml_r := exMeanL
    gClassifier := false
    alwaysTakers := a
    neverTakers := b
    normalize := false
    trimT := 1 / 100 }

/-- A cell of an IIVM model with all predictions supplied. -/
noncomputable def exIivmCell : CellIn 2 ℕ :=
  { data := { exState with zv := some [exFrame.col "d"] }
    treat := "d"
    smpls := twoFolds
    cluster := none
    params := []
    ext := [("ml_g0", some fun _ => 1), ("ml_g1", some fun _ => 2), ("ml_m", some fun _ => 1 / 2),
      ("ml_r0", some fun _ => 1 / 4), ("ml_r1", some fun _ => 3 / 4)]
    start := 0
    wantModels := false
    rep := 0 }

theorem exIivm_ok (a b : Bool) : ∃ o, (iivmSpec (exIivm a b)).est exIivmCell = .ok o := by
  cases a <;> cases b <;> exact ⟨_, rfl⟩

/-- **C28 is violated by IIVM**: without always-takers (never-takers) the predictions supplied for `ml_r0` (`ml_r1`) are
accepted and ignored. -/
theorem C28_iivm_violated : ∃ (k : IivmClass 2 ℕ) (c : CellIn 2 ℕ) (o : LinOut 2 ℕ) (e0 e1 : Fin 2 → ℝ),
    (iivmSpec k).est c = .ok o ∧ c.extOf "ml_r0" = some e0 ∧ c.extOf "ml_r1" = some e1 ∧ (∀ i, e0 i = 1 / 4) ∧
    (∀ i, e1 i = 3 / 4) ∧ (lookupKey "ml_r0" o.preds = some fun _ => some 0) ∧
    (lookupKey "ml_r1" o.preds = some fun _ => some 1) := by
  obtain ⟨o, ho⟩ := exIivm_ok false false
  obtain ⟨h0, h1⟩ := iivm_excluded _ ho
  exact ⟨_, _, o, _, _, ho, rfl, rfl, fun _ => rfl, fun _ => rfl, h0 rfl, h1 rfl⟩

/-- PLIV with partialled out instruments does not look at external predictions. -/
theorem plivZ_ext_ignored (k : PlivClass n P) (c : CellIn n P) (e : List (String × Option (Fin n → ℝ))) :
    plivZEst k { c with ext := e } = plivZEst k c ∧ plivXZEst k { c with ext := e } = plivXZEst k c :=
  ⟨rfl, rfl⟩

/-! ## C39: the propensities in use -/

/-- Whatever is stored and used under `l` lies in `[t, 1 - t]`. -/
def TrimmedIn (o : LinOut n P) (l : String) (t : ℝ) : Prop :=
  ∃ p, lookupKey l o.preds = some p ∧ ∀ i v, p i = some v → t ≤ v ∧ v ≤ 1 - t

theorem trimRes_range {t : ℝ} (ht : t < 1 / 2) (r : CvRes n P (List Cell)) (i : Fin n) (v : ℝ)
    (h : (trimRes t r).preds i = some v) : t ≤ v ∧ v ≤ 1 - t := by
  obtain ⟨w, -, rfl⟩ := Option.map_eq_some_iff.1 h
  exact ⟨(C39_range ht w).1, (C39_range ht w).2.1⟩

/-- **C39, IRM.** Estimated and supplied propensities alike. -/
theorem C39_irm (k : IrmClass n P) (ht : k.trimT < 1 / 2) {c : CellIn n P} {o : LinOut n P} (h : (irmSpec k).est c = .ok o) :
    TrimmedIn o "ml_m" k.trimT := by
  obtain ⟨g0, g1, m, w, -, -, -, -, -, -, hp, -⟩ := irmEst_ok h
  exact ⟨_, by rw [hp]; rfl, trimRes_range ht m⟩

/-- **C39, APO.** -/
theorem C39_apo (k : ApoClass n P) (ht : k.trimT < 1 / 2) {c : CellIn n P} {o : LinOut n P} (h : (apoSpec k).est c = .ok o) :
    TrimmedIn o "ml_m" k.trimT := by
  obtain ⟨g1, g0, m, w, -, -, -, -, -, -, -, hp, -⟩ := apoEst_ok h
  exact ⟨_, by rw [hp]; rfl, trimRes_range ht m⟩

/-- **C39, IIVM** (the propensity of the instrument). -/
theorem C39_iivm (k : IivmClass n P) (ht : k.trimT < 1 / 2) {c : CellIn n P} {o : LinOut n P}
    (h : (iivmSpec k).est c = .ok o) : TrimmedIn o "ml_m" k.trimT := by
  obtain ⟨z, g0, g1, m, r0, r1, -, -, -, -, -, -, -, -, -, hp, -⟩ := iivmEst_ok h
  exact ⟨_, by rw [hp]; rfl, trimRes_range ht m⟩

theorem didM_range {k : DidClass n P} (hs : k.score = .observational) (ht : k.trimT < 1 / 2) {c : CellIn n P}
    {m : CvRes n P (List Cell)} (h : didM k c = .ok m) (i : Fin n) (v : ℝ) (hv : m.preds i = some v) :
    k.trimT ≤ v ∧ v ≤ 1 - k.trimT := by
  unfold didM at h
  rw [hs] at h
  obtain ⟨r, -, h⟩ := bind_ok h
  obtain rfl := Except.ok.inj h
  exact trimRes_range ht r i v hv

/-- **C39, DID and DIDCS**, observational score. -/
theorem C39_did (k : DidClass n P) (hs : k.score = .observational) (ht : k.trimT < 1 / 2) {c : CellIn n P}
    {o : LinOut n P} (h : (didSpec k).est c = .ok o ∨ (csSpec k).est c = .ok o) : TrimmedIn o "ml_m" k.trimT := by
  rcases h with h | h
  · obtain ⟨g0, g1, m, -, -, hm, -, hp, -⟩ := didEst_ok h
    exact ⟨_, by rw [hp]; rfl, didM_range hs ht hm⟩
  · obtain ⟨t, g00, g01, g10, g11, m, -, -, -, -, -, hm, hp, -⟩ := csEst_ok h
    exact ⟨_, by rw [hp]; rfl, didM_range hs ht hm⟩

/-- **C39, SSM.** -/
theorem C39_ssm (k : SsmClass n P) (ht : k.trimT < 1 / 2) {c : CellIn n P} {o : LinOut n P} (h : (ssmSpec k).est c = .ok o) :
    TrimmedIn o "ml_m" k.trimT := by
  obtain ⟨s, pi, m, g1, g0, -, -, -, -, -, -, hp, -⟩ := ssmEst_ok h
  exact ⟨_, by rw [hp]; rfl, trimRes_range ht m⟩

/-! ## C58: the observations a nuisance is evaluated on -/

theorem crossFit_targets {L : Learner P (List Cell)} {m : Method} {c : CellIn n P} {l : String} {x : Fin n → List Cell}
    {y : Fin n → ℝ} {S : List (Fold n)} {r : CvRes n P (List Cell)} (hS : isPartition S = true)
    (hy : m = .proba → BinaryTarget y) (h : crossFit L m c l x y S = .ok r) : r.targets = some fun i => some (y i) := by
  have hfit : fitTarget m y = y := by
    cases m with
    | predict => rfl
    | proba => exact (hy rfl).encode
  unfold crossFit cvPredict at h
  split at h
  · obtain ⟨_, _, _, _, _, _, _, ht, _, _⟩ := manualPredict_unfold h
    rw [ht, manualTargets_plain hS, hfit]
  · generalize c.paramsOf l = ps at h
    cases ps with
    | default =>
      obtain ⟨_, _, h⟩ := bind_ok h
      rw [← Except.ok.inj h]
    | same q =>
      obtain ⟨_, _, h⟩ := bind_ok h
      rw [← Except.ok.inj h]
    | perFold q => cases h

open Classical in
/-- The nuisance `l` is evaluated on the observations in `group` only, against the target `y`. -/
def EvaluatedOn (o : LinOut n P) (l : String) (group : Fin n → Prop) (y : Fin n → ℝ) : Prop :=
  ∃ t, lookupKey l o.targets = some (some t) ∧ ∀ i, t i = if group i then some (y i) else none

theorem condLearn_evaluated {L : Learner P (List Cell)} {m : Method} {c : CellIn n P} {l : String} {x : Fin n → List Cell}
    {y : Fin n → ℝ} {on keep group : Fin n → Prop} [DecidablePred on] [DecidablePred keep] {r : CvRes n P (List Cell)}
    {o : LinOut n P} (hS : isPartition c.smpls = true) (hy : m = .proba → BinaryTarget y)
    (hk : ∀ i, keep i ↔ group i) (h : condLearn L m c l x y on keep = .ok r) (ho : lookupKey l o.targets = some r.targets) :
    EvaluatedOn o l group y := by
  obtain ⟨r', h1, rfl⟩ := condLearn_ok h
  have ht := crossFit_targets (by rw [isPartition_cond]; exact hS) hy h1
  unfold maskTargets at ho
  rw [ht] at ho
  refine ⟨_, ho, fun i => ?_⟩
  unfold condTargets
  beta_reduce
  by_cases hg : group i
  · rw [if_pos hg, if_pos ((hk i).2 hg)]
  · rw [if_neg hg, if_neg (fun q => hg ((hk i).1 q))]

theorem binary_of {b : Bool} {y : Fin n → ℝ} (h : b = true → BinaryTarget y) : methodOf b = .proba → BinaryTarget y := by
  cases b
  · intro q; cases q
  · exact fun _ => h rfl

/-- **C58, IRM.** The outcome regressions are evaluated on the group they are trained for. -/
theorem C58_irm {k : IrmClass n P} {c : CellIn n P} {o : LinOut n P} (hS : isPartition c.smpls = true)
    (hy : k.gClassifier = true → BinaryTarget c.y) (h : (irmSpec k).est c = .ok o) :
    (c.extOf "ml_g0" = none → EvaluatedOn o "ml_g0" (fun i => c.d i = 0) c.y) ∧
    (c.extOf "ml_g1" = none → EvaluatedOn o "ml_g1" (fun i => c.d i = 1) c.y) ∧
    (BinaryTarget c.d → c.extOf "ml_m" = none → EvaluatedOn o "ml_m" (fun _ => True) c.d) := by
  obtain ⟨g0, g1, m, w, h0, h1, h2, h3, h4, -, -, ht⟩ := irmEst_ok h
  refine ⟨fun he => ?_, fun he => ?_, fun hd he => ?_⟩
  · unfold irmG0 at h0
    rw [he] at h0
    obtain ⟨r, hr, h0⟩ := bind_ok h0
    obtain ⟨_, _, h0⟩ := bind_ok h0
    obtain rfl := Except.ok.inj h0
    exact condLearn_evaluated hS (binary_of hy) (fun _ => Iff.rfl) hr (by rw [ht]; rfl)
  · unfold irmG1 at h1
    rw [he] at h1
    exact condLearn_evaluated hS (binary_of hy) (fun _ => Iff.rfl) h1 (by rw [ht]; rfl)
  · unfold propM at h3
    rw [he] at h3
    exact ⟨_, by rw [ht, crossFit_targets hS (fun _ => hd) (learn_ok h3)]; rfl, fun i => by simp⟩

/-- **C58, APO.** Also with supplied predictions. -/
theorem C58_apo {k : ApoClass n P} {c : CellIn n P} {o : LinOut n P} (hS : isPartition c.smpls = true)
    (hy : k.gClassifier = true → BinaryTarget c.y) (h : (apoSpec k).est c = .ok o) :
    EvaluatedOn o "ml_g_d_lvl1" (fun i => c.d i = k.level) c.y ∧ EvaluatedOn o "ml_g_d_lvl0" (fun i => c.d i ≠ k.level) c.y := by
  have e1 : ∀ i, k.treated c i = 1 ↔ c.d i = k.level := by
    intro i; unfold ApoClass.treated; by_cases hd : c.d i = k.level <;> simp [hd]
  have e0 : ∀ i, k.treated c i = 0 ↔ c.d i ≠ k.level := by
    intro i; unfold ApoClass.treated; by_cases hd : c.d i = k.level <;> simp [hd]
  obtain ⟨g1, g0, m, w, h1, -, h0, -, h3, h4, -, -, ht⟩ := apoEst_ok h
  constructor
  · unfold apoG1 at h1
    split at h1
    · obtain rfl := Except.ok.inj h1
      refine ⟨_, by rw [ht]; rfl, fun i => ?_⟩
      unfold condTargets
      by_cases hg : c.d i = k.level
      · rw [if_pos hg, if_pos ((e1 i).2 hg)]
      · rw [if_neg hg, if_neg (fun q => hg ((e1 i).1 q))]
    · exact condLearn_evaluated hS (binary_of hy) e1 h1 (by rw [ht]; rfl)
  · unfold apoG0 at h0
    split at h0
    · obtain rfl := Except.ok.inj h0
      refine ⟨_, by rw [ht]; rfl, fun i => ?_⟩
      unfold condTargets
      by_cases hg : c.d i ≠ k.level
      · rw [if_pos hg, if_pos ((e0 i).2 hg)]
      · rw [if_neg hg, if_neg (fun q => hg ((e0 i).1 q))]
    · exact condLearn_evaluated hS (binary_of hy) e0 h0 (by rw [ht]; rfl)

/-- **C58, IIVM.** For a binary instrument. -/
theorem C58_iivm {k : IivmClass n P} {c : CellIn n P} {o : LinOut n P} (hS : isPartition c.smpls = true)
    (hy : k.gClassifier = true → BinaryTarget c.y) (h : (iivmSpec k).est c = .ok o) {z : Fin n → ℝ} (hz : c.instr = .ok z)
    (hb : ∀ i, z i = 0 ∨ z i = 1) :
    (c.extOf "ml_g0" = none → EvaluatedOn o "ml_g0" (fun i => z i = 0) c.y) ∧
    (c.extOf "ml_g1" = none → EvaluatedOn o "ml_g1" (fun i => z i = 1) c.y) := by
  obtain ⟨z', g0, g1, m, r0, r1, hz', h0, -, h1, -, h3, h4, h5, -, -, ht⟩ := iivmEst_ok h
  obtain rfl : z' = z := Except.ok.inj (hz'.symm.trans hz)
  refine ⟨fun he => ?_, fun he => ?_⟩
  · unfold iivmG at h0
    rw [he] at h0
    refine condLearn_evaluated hS (binary_of hy) (fun i => ?_) h0 (by rw [ht]; rfl)
    rcases hb i with q | q <;> simp [q]
  · unfold iivmG at h1
    rw [he] at h1
    refine condLearn_evaluated hS (binary_of hy) (fun i => ?_) h1 (by rw [ht]; rfl)
    rcases hb i with q | q <;> simp [q]

/-- **C58, DID.** -/
theorem C58_did {k : DidClass n P} {c : CellIn n P} {o : LinOut n P} (hS : isPartition c.smpls = true)
    (hy : k.gClassifier = true → BinaryTarget c.y) (hb : ∀ i, c.d i = 0 ∨ c.d i = 1) (h : (didSpec k).est c = .ok o) :
    (c.extOf "ml_g0" = none → EvaluatedOn o "ml_g0" (fun i => c.d i = 0) c.y) ∧
    (c.extOf "ml_g1" = none → EvaluatedOn o "ml_g1" (fun i => c.d i = 1) c.y) := by
  obtain ⟨g0, g1, m, h0, h1, h2, -, -, ht⟩ := didEst_ok h
  refine ⟨fun he => ?_, fun he => ?_⟩
  · unfold didG at h0
    rw [he] at h0
    refine condLearn_evaluated hS (binary_of hy) (fun i => ?_) h0 (by rw [ht]; rfl)
    rcases hb i with q | q <;> simp [q]
  · unfold didG at h1
    rw [he] at h1
    refine condLearn_evaluated hS (binary_of hy) (fun i => ?_) h1 (by rw [ht]; rfl)
    rcases hb i with q | q <;> simp [q]

/-- **C58, DIDCS.** -/
theorem C58_didcs {k : DidClass n P} {c : CellIn n P} {o : LinOut n P} (hS : isPartition c.smpls = true)
    (hy : k.gClassifier = true → BinaryTarget c.y) (h : (csSpec k).est c = .ok o) {t : Fin n → ℝ} (ht : c.time = .ok t) :
    ∀ l v w, (l, v, w) ∈ [("ml_g_d0_t0", (0 : ℝ), (0 : ℝ)), ("ml_g_d0_t1", 0, 1), ("ml_g_d1_t0", 1, 0), ("ml_g_d1_t1", 1, 1)] →
      c.extOf l = none → EvaluatedOn o l (fun i => c.d i = v ∧ t i = w) c.y := by
  obtain ⟨t', g00, g01, g10, g11, m, ht', h0, h1, h2, h3, h4, -, htar⟩ := csEst_ok h
  obtain rfl : t' = t := Except.ok.inj (ht'.symm.trans ht)
  have hG : ∀ {l v w g}, csG k c t' l v w = .ok g → c.extOf l = none → lookupKey l o.targets = some g.targets →
      EvaluatedOn o l (fun i => c.d i = v ∧ t' i = w) c.y := by
    intro l v w g hg he hl
    unfold csG at hg
    rw [he] at hg
    obtain ⟨r, hr, hg⟩ := bind_ok hg
    obtain rfl := Except.ok.inj hg
    have hrt := crossFit_targets (by rw [isPartition_cond]; exact hS) (binary_of hy) hr
    unfold maskTargets at hl
    rw [hrt] at hl
    refine ⟨_, hl, fun i => ?_⟩
    unfold condTargets
    beta_reduce
    by_cases hg : c.d i = v ∧ t' i = w
    · rw [if_pos hg, if_pos hg]
    · rw [if_neg hg, if_neg hg]
  intro l v w hm he
  simp only [List.mem_cons, Prod.mk.injEq, List.not_mem_nil, or_false] at hm
  rcases hm with ⟨rfl, rfl, rfl⟩ | ⟨rfl, rfl, rfl⟩ | ⟨rfl, rfl, rfl⟩ | ⟨rfl, rfl, rfl⟩
  · exact hG h0 he (by rw [htar]; rfl)
  · exact hG h1 he (by rw [htar]; rfl)
  · exact hG h2 he (by rw [htar]; rfl)
  · exact hG h3 he (by rw [htar]; rfl)

open Classical in
/-- **C58.** What `EvaluatedOn` means for the reported loss: it averages over the group only. -/
theorem C58_group_loss {o : LinOut n P} {l : String} {group : Fin n → Prop} {y : Fin n → ℝ}
    (h : EvaluatedOn o l group y) {p : Fin n → ℝ} (hp : lookupKey l o.preds = some fun i => some (p i))
    (hg : ∃ i, group i) (keys : List (String × Bool)) {key : String}
    (hkey : keys.filter (fun q => decide (q.1.toList <:+: l.toList)) = [(key, false)]) :
    learnerLoss keys o.preds o.targets l =
      .ok (l, some (Real.sqrt ((∑ i ∈ univ.filter group, (y i - p i) ^ 2) / (univ.filter group).card))) := by
  obtain ⟨t, ht, htv⟩ := h
  have hrel : relevant t = univ.filter group := by
    ext i
    simp only [relevant, Finset.mem_filter, Finset.mem_univ, true_and, htv]
    by_cases hi : group i <;> simp [hi]
  obtain ⟨i0, hi0⟩ := hg
  have hne : relevant t ≠ ∅ := by
    rw [hrel]
    exact Finset.ne_empty_of_mem (a := i0) (by simpa using hi0)
  unfold learnerLoss
  rw [hkey, ht, hp]
  dsimp only
  rw [C58_loss false (fun _ _ => rfl), if_neg hne]
  congr 3
  unfold specLoss
  rw [if_neg (by simp), hrel]
  congr 2
  refine Finset.sum_congr rfl fun i hi => ?_
  rw [htv, if_pos (by simpa using hi)]
  rfl

/-- **C58 is violated by SSM**: the outcome regressions are evaluated on all observations, also the unselected ones,
whose outcomes are placeholders, and the ones of the other treatment group. -/
theorem ssm_targets {k : SsmClass n P} {c : CellIn n P} {o : LinOut n P} (hS : isPartition c.smpls = true)
    (hy : k.gClassifier = true → BinaryTarget c.y) (h : (ssmSpec k).est c = .ok o) :
    EvaluatedOn o "ml_g_d0" (fun _ => True) c.y ∧ EvaluatedOn o "ml_g_d1" (fun _ => True) c.y := by
  obtain ⟨s, pi, m, g1, g0, -, -, -, h1, h0, -, -, ht⟩ := ssmEst_ok h
  have p0 := crossFit_targets (by rw [isPartition_cond]; exact hS) (binary_of hy) h0
  have p1 := crossFit_targets (by rw [isPartition_cond]; exact hS) (binary_of hy) h1
  exact ⟨⟨_, by rw [ht, p0]; rfl, fun i => by simp⟩, _, by rw [ht, p1]; rfl, fun i => by simp⟩

/-! ## C60: linear classes -/

/-- A part of the estimation whose result depends on the clusters and the start value only through the final
aggregation. -/
def Lin (g : Option (ClusterRep n) → ℝ → Except Exc (LinOut n P)) : Prop :=
  ∀ c₀ x₀ o, g c₀ x₀ = .ok o → ∃ e : PsiElems n, ∀ cr x, ∃ o', g cr x = .ok o' ∧ o'.fit = e.fit cr

theorem lin_bind {α : Type} {a : Option (ClusterRep n) → ℝ → Except Exc α}
    {g : α → Option (ClusterRep n) → ℝ → Except Exc (LinOut n P)} (ha : ∀ cr x, a cr x = a none 0) (h : ∀ v, Lin (g v)) :
    Lin fun cr x => a cr x >>= fun v => g v cr x := by
  intro c₀ x₀ o ho
  simp only [ha] at ho ⊢
  cases hv : a none 0 with
  | error e => rw [hv] at ho; cases ho
  | ok v => rw [hv] at ho; exact h v c₀ x₀ o ho

theorem lin_pure {e : Option (ClusterRep n) → ℝ → PsiElems n} {f : Option (ClusterRep n) → ℝ → LinOut n P}
    (h : ∀ cr x, (f cr x).fit = (e cr x).fit cr) (he : ∀ cr x, e cr x = e none 0) : Lin fun cr x => pure (f cr x) :=
  fun _ _ _ _ => ⟨e none 0, fun cr x => ⟨_, rfl, by rw [h, he]⟩⟩

theorem irm_linear (k : IrmClass n P) : LinearClass (irmSpec k) := fun c o h =>
  (show Lin fun cr x => irmEst k { c with cluster := cr, start := x } from
    lin_bind (fun _ _ => rfl) fun _ => lin_bind (fun _ _ => rfl) fun _ => lin_bind (fun _ _ => rfl) fun _ => lin_bind (fun _ _ => rfl) fun _ => lin_bind (fun _ _ => rfl) fun _ => lin_pure (fun _ _ => rfl) fun _ _ => rfl)
    c.cluster c.start o h

theorem apo_linear (k : ApoClass n P) : LinearClass (apoSpec k) := fun c o h =>
  (show Lin fun cr x => apoEst k { c with cluster := cr, start := x } from
    lin_bind (fun _ _ => rfl) fun _ => lin_bind (fun _ _ => rfl) fun _ => lin_bind (fun _ _ => rfl) fun _ => lin_bind (fun _ _ => rfl) fun _ => lin_bind (fun _ _ => rfl) fun _ => lin_bind (fun _ _ => rfl) fun _ =>
      lin_pure (fun _ _ => rfl) fun _ _ => rfl) c.cluster c.start o h

theorem iivm_linear (k : IivmClass n P) : LinearClass (iivmSpec k) := fun c o h =>
  (show Lin fun cr x => iivmEst k { c with cluster := cr, start := x } from
    lin_bind (fun _ _ => rfl) fun _ => lin_bind (fun _ _ => rfl) fun _ => lin_bind (fun _ _ => rfl) fun _ => lin_bind (fun _ _ => rfl) fun _ => lin_bind (fun _ _ => rfl) fun _ => lin_bind (fun _ _ => rfl) fun _ =>
      lin_bind (fun _ _ => rfl) fun _ => lin_bind (fun _ _ => rfl) fun _ => lin_pure (fun _ _ => rfl) fun _ _ => rfl) c.cluster c.start o h

theorem did_linear (k : DidClass n P) : LinearClass (didSpec k) := fun c o h =>
  (show Lin fun cr x => didEst k { c with cluster := cr, start := x } from
    lin_bind (fun _ _ => rfl) fun _ => lin_bind (fun _ _ => rfl) fun _ => lin_bind (fun _ _ => rfl) fun _ => lin_pure (fun _ _ => rfl) fun _ _ => rfl) c.cluster c.start o h

theorem cs_linear (k : DidClass n P) : LinearClass (csSpec k) := fun c o h =>
  (show Lin fun cr x => csEst k { c with cluster := cr, start := x } from
    lin_bind (fun _ _ => rfl) fun _ => lin_bind (fun _ _ => rfl) fun _ => lin_bind (fun _ _ => rfl) fun _ => lin_bind (fun _ _ => rfl) fun _ => lin_bind (fun _ _ => rfl) fun _ => lin_bind (fun _ _ => rfl) fun _ =>
      lin_pure (fun _ _ => rfl) fun _ _ => rfl) c.cluster c.start o h

theorem pliv_linear (k : PlivClass n P) : LinearClass (plivSpec k) := fun c o h =>
  (show Lin fun cr x => plivEst k { c with cluster := cr, start := x } from
    lin_bind (fun _ _ => rfl) fun _ => lin_bind (fun _ _ => rfl) fun _ => lin_bind (fun _ _ => rfl) fun _ => lin_bind (fun _ _ => rfl) fun _ => lin_bind (fun _ _ => rfl) fun _ => lin_pure (fun _ _ => rfl) fun _ _ => rfl)
    c.cluster c.start o h

theorem plivMulti_linear (k : PlivClass n P) (zs : List String) : LinearClass (plivMultiSpec k zs) := fun c o h =>
  (show Lin fun cr x => plivMultiEst k { c with cluster := cr, start := x } from
    lin_bind (fun _ _ => rfl) fun _ => lin_bind (fun _ _ => rfl) fun _ => lin_bind (fun _ _ => rfl) fun _ => lin_pure (fun _ _ => rfl) fun _ _ => rfl) c.cluster c.start o h

theorem plivZ_linear (k : PlivClass n P) : LinearClass (plivZSpec k) := fun c o h =>
  (show Lin fun cr x => plivZEst k { c with cluster := cr, start := x } from
    lin_bind (fun _ _ => rfl) fun _ => lin_pure (fun _ _ => rfl) fun _ _ => rfl) c.cluster c.start o h

theorem plivXZ_linear (k : PlivClass n P) : LinearClass (plivXZSpec k) := fun c o h =>
  (show Lin fun cr x => plivXZEst k { c with cluster := cr, start := x } from
    lin_bind (fun _ _ => rfl) fun _ => lin_bind (fun _ _ => rfl) fun _ => lin_bind (fun _ _ => rfl) fun _ => lin_pure (fun _ _ => rfl) fun _ _ => rfl) c.cluster c.start o h

/-- **C60 (partial)** for every linear class that can be used with clusters: on the same split, the number of folds of
the constructor changes only the standard error, by the known factor (which is 1 without clusters). -/
theorem C60_linear_classes_partial {F : Frame n} {sp : LinSpec n P} (hsp : LinearScoreClass sp) (hne : ∀ k, sp ≠ ssmSpec k)
    {D : DataState n} {x x' : ℝ} {K K' : ℤ} {nr nr' dr dr' : PyVal} {w w' : Draws n}
    {s s' : MState n P (Option (List (FittedModel P (List Cell))))} (hi : initModel sp D x (.int K) nr dr w = .ok s)
    (hi' : initModel sp D x' (.int K') nr' dr' w' = .ok s') {sa : SplitArg} {cl : Option (List (List ClusterPair))}
    (hset : (setSampleSplitting sp s sa cl).2 = .ok ()) {a : FitArgs}
    {t t' : MState n P (Option (List (FittedModel P (List Cell))))}
    (h : fit F sp (setSampleSplitting sp s sa cl).1 a = (t, .ok ()))
    (h' : fit F sp (setSampleSplitting sp s' sa cl).1 a = (t', .ok ())) {j k : ℕ} (hj : j < D.d.length)
    (hk : k < (setSampleSplitting sp s sa cl).1.nRep) :
    ∃ coef se, (t.heap t.arr).coef j k = some coef ∧ (t.heap t.arr).se j k = some se ∧
      (t'.heap t'.arr).coef j k = some coef ∧
      (t'.heap t'.arr).se j k = some (foldsFactor (sp.vars.map fun v => v D.cv) K.toNat K'.toNat * se) := by
  have hlin : LinearClass sp := by
    cases hsp with
    | plr k => exact plr_linear k
    | irm k => exact irm_linear k
    | apo k => exact apo_linear k
    | iivm k => exact iivm_linear k
    | did k => exact did_linear k
    | didCs k => exact cs_linear k
    | ssm k => exact absurd rfl (hne k)
    | pliv k => exact pliv_linear k
    | plivMulti k zs => exact plivMulti_linear k zs
    | plivZ k => exact plivZ_linear k
    | plivXZ k => exact plivXZ_linear k
  exact C60_constructed_partial hlin hi hi' hset h h' hj hk

/-! ## C38: the interactive model as a contrast of potential outcomes -/

/-- The APO model of a level with the settings of an IRM model. -/
def IrmClass.apo (k : IrmClass n P) (level : ℝ) : ApoClass n P :=
  { ml_g := k.ml_g
    ml_m := k.ml_m
    gClassifier := k.gClassifier
    level := level
    normalize := k.normalize
    trimT := k.trimT
    weights := k.weights
    vars := k.vars }

/-- Two cells of different models on the same data and split, without external predictions and tuned parameters. -/
structure SiblingCell (c c' : CellIn n P) : Prop where
  data : c'.data = c.data
  smpls : c'.smpls = c.smpls
  cluster : c'.cluster = c.cluster
  rep : c'.rep = c.rep
  wantModels : c'.wantModels = c.wantModels
  ext : ∀ l, c'.extOf l = none
  params : ∀ l, c'.paramsOf l = .default

/-- A classifier whose probabilities do not depend on which label is called 1. -/
def LabelSymmetric (L : Learner P (List Cell)) : Prop :=
  ∀ p D x, (∀ q ∈ D, q.2 = 0 ∨ q.2 = 1) → (∃ q ∈ D, q.2 = 0) → (∃ q ∈ D, q.2 = 1) →
    ∃ a, L.proba p D x = [1 - a, a] ∧ L.proba p (D.map fun q => (q.1, 1 - q.2)) x = [a, 1 - a]

theorem condSmpls_congr {on on' : Fin n → Prop} [DecidablePred on] [DecidablePred on'] (h : ∀ i, on i ↔ on' i)
    (S : List (Fold n)) : condSmpls on S = condSmpls on' S := by
  have : on = on' := funext fun i => propext (h i)
  subst this
  congr

theorem crossFit_same {L : Learner P (List Cell)} {m : Method} {c c' : CellIn n P} (hw : c'.wantModels = c.wantModels)
    {l l' : String} (hp : c'.paramsOf l' = c.paramsOf l) (x : Fin n → List Cell) (y : Fin n → ℝ) (S : List (Fold n)) :
    crossFit L m c' l' x y S = crossFit L m c l x y S := by
  unfold crossFit
  rw [hw, hp]

theorem condLearn_same {L : Learner P (List Cell)} {m : Method} {c c' : CellIn n P} (hw : c'.wantModels = c.wantModels)
    (hs : c'.smpls = c.smpls) {l l' : String} (hp : c'.paramsOf l' = c.paramsOf l) {x : Fin n → List Cell} {y : Fin n → ℝ}
    {on keep on' keep' : Fin n → Prop} [DecidablePred on] [DecidablePred keep] [DecidablePred on'] [DecidablePred keep']
    (ho : ∀ i, on i ↔ on' i) {r r' : CvRes n P (List Cell)} (h : condLearn L m c l x y on keep = .ok r)
    (h' : condLearn L m c' l' x y on' keep' = .ok r') : r'.preds = r.preds := by
  obtain ⟨q, hq, rfl⟩ := condLearn_ok h
  obtain ⟨q', hq', rfl⟩ := condLearn_ok h'
  rw [crossFit_same hw hp, hs, ← condSmpls_congr ho, hq] at hq'
  obtain rfl := Except.ok.inj hq'
  rfl

theorem trim_complement {t : ℝ} (ht : t < 1 / 2) (p : ℝ) : trim t (1 - p) = 1 - trim t p := by
  unfold trim
  rcases le_total p t with h1 | h1 <;> rcases le_total p (1 - t) with h2 | h2
  · rw [max_eq_right h1, max_eq_left (by linarith : t ≤ 1 - p), min_eq_left (by linarith), min_eq_right (by linarith)]
  · linarith
  · rw [max_eq_left h1, max_eq_left (by linarith : t ≤ 1 - p), min_eq_right (by linarith), min_eq_right (by linarith)]
  · rw [max_eq_left h1, max_eq_right (by linarith : 1 - p ≤ t), min_eq_right (by linarith), min_eq_left (by linarith)]
    ring

/-- **C38.** From data to estimate: with the same learners, split, weights and settings, the ATE of an IRM model is the
contrast of the APO models of levels 1 and 0 — the estimates, and the scores observation by observation, so that the
standard errors and confidence intervals of the contrast are those of the IRM model.  The classifier has to treat the two
labels symmetrically. -/
theorem C38_irm_is_apo_contrast {k : IrmClass n P} (hk : k.atte = false) (ht : k.trimT < 1 / 2) (hL : k.ml_m.Compliant)
    (hsym : LabelSymmetric k.ml_m) {c c1 c0 : CellIn n P} (hc : SiblingCell c c) (hc1 : SiblingCell c c1) (hc0 : SiblingCell c c0)
    (hS : SplitOk c.smpls) (hd : BinaryTarget c.d) (hf : EveryFold c.smpls (fun _ => True) c.d) {o o1 o0 : LinOut n P}
    (h : (irmSpec k).est c = .ok o) (h1 : (apoSpec (k.apo 1)).est c1 = .ok o1) (h0 : (apoSpec (k.apo 0)).est c0 = .ok o0) :
    o.fit.coef = o1.fit.coef - o0.fit.coef ∧ (∀ i, o.fit.psi i = o1.fit.psi i - o0.fit.psi i) ∧
      o.fit.deriv = o1.fit.deriv ∧ o.fit.deriv = o0.fit.deriv := by
  obtain ⟨g0, g1, m, w, hg0, hg1, -, hm, hw, hfit, hp, -⟩ := irmEst_ok h
  obtain ⟨g1', -, m1, w1, hg1', -, -, -, hm1, hw1, hfit1, -, -⟩ := apoEst_ok h1
  obtain ⟨g0', -, m0, w0, hg0', -, -, -, hm0, hw0, hfit0, -, -⟩ := apoEst_ok h0
  have hd1 : c1.d = c.d := by funext i; unfold CellIn.d; rw [hc1.data]
  have hd0 : c0.d = c.d := by funext i; unfold CellIn.d; rw [hc0.data]
  have hy1 : c1.y = c.y := by funext i; unfold CellIn.y; rw [hc1.data]
  have hy0 : c0.y = c.y := by funext i; unfold CellIn.y; rw [hc0.data]
  have ht1 : (k.apo 1).treated c1 = c.d := by
    funext i
    unfold ApoClass.treated
    rw [hd1]
    rcases hd.values i with q | q <;> simp [IrmClass.apo, q]
  have ht0 : (k.apo 0).treated c0 = fun i => 1 - c.d i := by
    funext i
    unfold ApoClass.treated
    rw [hd0]
    rcases hd.values i with q | q <;> simp [IrmClass.apo, q]
  -- outcome regressions
  have eg1 : g1'.preds = g1.preds := by
    unfold irmG1 at hg1
    unfold apoG1 at hg1'
    rw [hc.ext] at hg1
    rw [hc1.ext] at hg1'
    dsimp only at hg1 hg1'
    rw [hc1.data, hy1] at hg1'
    refine condLearn_same hc1.wantModels hc1.smpls ((hc1.params _).trans (hc.params _).symm) (fun i => ?_) hg1 hg1'
    rw [ht1]
  have eg0 : g0'.preds = g0.preds := by
    unfold irmG0 at hg0
    unfold apoG1 at hg0'
    rw [hc.ext] at hg0
    rw [hc0.ext] at hg0'
    obtain ⟨r, hr, hg0⟩ := bind_ok hg0
    obtain ⟨_, _, hg0⟩ := bind_ok hg0
    obtain rfl := Except.ok.inj hg0
    dsimp only at hg0'
    rw [hc0.data, hy0] at hg0'
    refine condLearn_same hc0.wantModels hc0.smpls ((hc0.params _).trans (hc.params _).symm) (fun i => ?_) hr hg0'
    rw [ht0]
    constructor <;> intro q <;> linarith
  -- propensities
  unfold propM at hm
  rw [hc.ext] at hm
  unfold apoM at hm1 hm0
  rw [hc1.ext] at hm1
  rw [hc0.ext] at hm0
  have hcr := learn_ok hm
  have em1 : m1.preds = m.preds := by
    have := learn_ok hm1
    rw [crossFit_same hc1.wantModels ((hc1.params "ml_m").trans (hc.params "ml_m").symm), hc1.data, hc1.smpls, ht1] at this
    have e := hcr.symm.trans this
    rw [Except.ok.inj e]
  have em0 : ∀ i, ∃ a, m.preds i = some a ∧ m0.preds i = some (1 - a) := by
    intro i
    obtain ⟨q, hq, -⟩ := C26_complete hS.partition i
    have hq' : i ∈ c.smpls[q.val].test := hq
    obtain ⟨⟨j0, hj0, -, hj0'⟩, j1, hj1, -, hj1'⟩ := hf _ (List.getElem_mem q.isLt)
    have r := crossFit_plain hS hcr q.val q.isLt i hq' (fun _ =>
      ⟨hL, hd, ⟨j0, by simpa using hj0, hj0'⟩, j1, by simpa using hj1, hj1'⟩)
    have hcr0 := learn_ok hm0
    rw [crossFit_same hc0.wantModels ((hc0.params "ml_m").trans (hc.params "ml_m").symm), hc0.data, hc0.smpls, ht0] at hcr0
    have hd' : BinaryTarget fun i => 1 - c.d i := by
      refine ⟨fun i => ?_, ?_, ?_⟩
      · rcases hd.values i with q | q <;> simp [q]
      · obtain ⟨i, hi⟩ := hd.one; exact ⟨i, by simp [hi]⟩
      · obtain ⟨i, hi⟩ := hd.zero; exact ⟨i, by simp [hi]⟩
    have r0 := crossFit_plain hS hcr0 q.val q.isLt i hq' (fun _ =>
      ⟨hL, hd', ⟨j1, by simpa using hj1, by simp [hj1']⟩, j0, by simpa using hj0, by simp [hj0']⟩)
    simp only [decide_true, List.filter_true, Option.map_id, id] at r r0
    obtain ⟨a, ha, ha'⟩ := hsym ((c.paramsOf "ml_m").at q.val)
      (c.smpls[q.val].train.map fun j => (rowX c.data j, c.d j)) (rowX c.data i)
      (by
        intro p hp
        obtain ⟨j, -, rfl⟩ := List.mem_map.1 hp
        exact hd.values j)
      ⟨_, List.mem_map.2 ⟨j0, hj0, rfl⟩, hj0'⟩ ⟨_, List.mem_map.2 ⟨j1, hj1, rfl⟩, hj1'⟩
    refine ⟨a, ?_, ?_⟩
    · rw [r]
      show (k.ml_m.proba _ _ _)[1]? = _
      rw [ha]; rfl
    · rw [r0]
      show (k.ml_m.proba _ _ _)[1]? = _
      rw [List.map_map] at ha'
      have ha'' := ha'
      simp only [Function.comp_def] at ha''
      rw [ha'']; rfl
  have hwe : w1 = w ∧ w0 = w := by
    unfold irmWeights at hw
    rw [hk, if_neg (by simp)] at hw
    rw [hc1.rep] at hw1
    rw [hc0.rep] at hw0
    exact ⟨Except.ok.inj (hw1.symm.trans hw), Except.ok.inj (hw0.symm.trans hw)⟩
  obtain ⟨rfl, rfl⟩ := hwe
  have vg1 : g1'.vec = g1.vec := by funext i; unfold CvRes.vec; rw [eg1]
  have vg0 : g0'.vec = g0.vec := by funext i; unfold CvRes.vec; rw [eg0]
  have vm1 : (trimRes (k.apo 1).trimT m1).vec = (trimRes k.trimT m).vec := by
    funext i; unfold CvRes.vec trimRes; rw [em1]; rfl
  have vm0 : (trimRes (k.apo 0).trimT m0).vec = fun i => 1 - (trimRes k.trimT m).vec i := by
    funext i
    obtain ⟨a, ha, ha'⟩ := em0 i
    unfold CvRes.vec trimRes
    simp only [ha, ha', Option.map_some, Option.getD_some]
    exact trim_complement ht a
  rw [hfit, hfit1, hfit0, ht1, ht0, hy1, hy0, vg1, vg0, vm1, vm0, hc1.cluster, hc0.cluster]
  have hcoef := C38_ate_estimate k.normalize c.y c.d g0.vec g1.vec (trimRes k.trimT m).vec w0.1 w0.2 c.cluster
  have hsc := C38_ate_is_apo_contrast k.normalize c.y c.d g0.vec g1.vec (trimRes k.trimT m).vec w0.1 w0.2
  refine ⟨hcoef, fun i => ?_, rfl, rfl⟩
  unfold irmAte at hcoef hsc
  simp only [PsiElems.fit, PsiElems.score]
  rw [hcoef]
  have hi := (hsc i).1
  have ea : ∀ t m' g', (apoElems k.normalize c.y t g' m' w0.1 w0.2).a i = (irmElems c.y c.d g0.vec g1.vec
      (adjust k.normalize (trimRes k.trimT m).vec c.d) w0.1 w0.2).a i := fun _ _ _ => rfl
  show _ = (_ : ℝ) - _
  have en : ∀ lv, (k.apo lv).normalize = k.normalize := fun _ => rfl
  rw [en, en, hi, ea, ea]
  ring

/-! ## Non-vacuity: cells that satisfy all hypotheses -/

/-- Settings under which every cross-fitting step succeeds: valid split, parameters for the right number of folds,
continuous outcome. -/
structure PlainCell (c : CellIn n P) : Prop where
  split : FoldsOk c.smpls
  params : ∀ l, (c.paramsOf l).Fits c.smpls.length
  out : c.data.binOut = false

theorem checkOut_ok {c : CellIn n P} (h : c.data.binOut = false) (p : NV n) : checkOut c p = .ok () := by
  unfold checkOut
  rw [h]
  rfl

theorem regr {b : Bool} (h : b = false) {p : Prop} : methodOf b = .proba → p := by subst h; intro q; cases q

theorem propM_total {L : Learner P (List Cell)} {c : CellIn n P} (hc : PlainCell c) (hL : L.Compliant) {y : Fin n → ℝ}
    (hd : BinaryTarget y) (hf : EveryFold c.smpls (fun _ => True) y) : ∃ m, propM L c y = .ok m := by
  unfold propM
  cases c.extOf "ml_m" with
  | some e => exact ⟨_, rfl⟩
  | none => exact learn_total' y hc.split (hc.params _) (fun _ => ⟨hL, hd, hf⟩)

theorem irm_total {k : IrmClass n P} {c : CellIn n P} (hc : PlainCell c) (hg : k.gClassifier = false) (hL : k.ml_m.Compliant)
    (hd : BinaryTarget c.d) (hf : EveryFold c.smpls (fun _ => True) c.d) {w : (Fin n → ℝ) × (Fin n → ℝ)}
    (hw : k.weights.at c.rep = .ok w) : ∃ o, (irmSpec k).est c = .ok o := by
  obtain ⟨g0, h0⟩ := condLearn_total (L := k.ml_g) (l := "ml_g0") (rowX c.data) c.y (fun i => c.d i = 0) (fun i => c.d i = 0)
    hc.split (hc.params _) (regr hg)
  obtain ⟨g1, h1⟩ := condLearn_total (L := k.ml_g) (l := "ml_g1") (rowX c.data) c.y (fun i => c.d i = 1) (fun i => c.d i = 1)
    hc.split (hc.params _) (regr hg)
  obtain ⟨g0, e0⟩ : ∃ g0, irmG0 k c = .ok g0 := by
    unfold irmG0
    cases c.extOf "ml_g0" with
    | some e => exact ⟨_, rfl⟩
    | none =>
      simp only [h0, bind, Except.bind, checkOut_ok hc.out, pure, Except.pure]
      exact ⟨_, rfl⟩
  obtain ⟨g1, e1⟩ : ∃ g1, irmG1 k c = .ok g1 := by
    unfold irmG1
    cases c.extOf "ml_g1" with
    | some e => exact ⟨_, rfl⟩
    | none => exact ⟨_, h1⟩
  obtain ⟨m, em⟩ := propM_total (L := k.ml_m) hc hL hd hf
  have ec : irmCheck1 k c g1.preds = .ok () := by
    unfold irmCheck1
    rw [checkOut_ok hc.out]
    split <;> rfl
  obtain ⟨w', hw'⟩ : ∃ w', irmWeights k c (adjust k.normalize (trimRes k.trimT m).vec c.d) = .ok w' := by
    unfold irmWeights
    split
    · exact ⟨_, rfl⟩
    · exact ⟨w, hw⟩
  show ∃ o, irmEst k c = .ok o
  unfold irmEst
  simp only [e0, e1, em, ec, hw', bind, Except.bind, pure, Except.pure]
  exact ⟨_, rfl⟩

theorem apo_total {k : ApoClass n P} {c : CellIn n P} (hc : PlainCell c) (hg : k.gClassifier = false) (hL : k.ml_m.Compliant)
    (hd : BinaryTarget (k.treated c)) (hf : EveryFold c.smpls (fun _ => True) (k.treated c)) {w : (Fin n → ℝ) × (Fin n → ℝ)}
    (hw : k.weights.at c.rep = .ok w) : ∃ o, (apoSpec k).est c = .ok o := by
  obtain ⟨g1, h1⟩ := condLearn_total (L := k.ml_g) (l := "ml_g_d_lvl1") (rowX c.data) c.y (fun i => k.treated c i = 1)
    (fun i => k.treated c i = 1) hc.split (hc.params _) (regr hg)
  obtain ⟨g0, h0⟩ := condLearn_total (L := k.ml_g) (l := "ml_g_d_lvl0") c.dx c.y (fun i => k.treated c i = 0)
    (fun i => k.treated c i = 0) hc.split (hc.params _) (regr hg)
  obtain ⟨m, hm⟩ := learn_total' (L := k.ml_m) (l := "ml_m") (k.treated c) hc.split (hc.params _) (fun _ => ⟨hL, hd, hf⟩)
  obtain ⟨g1, e1⟩ : ∃ g, apoG1 k c = .ok g := by
    unfold apoG1
    cases c.extOf "ml_g_d_lvl1" with
    | some e => exact ⟨_, rfl⟩
    | none => exact ⟨_, h1⟩
  obtain ⟨g0, e0⟩ : ∃ g, apoG0 k c = .ok g := by
    unfold apoG0
    cases c.extOf "ml_g_d_lvl0" with
    | some e => exact ⟨_, rfl⟩
    | none => exact ⟨_, h0⟩
  obtain ⟨m, em⟩ : ∃ m, apoM k c = .ok m := by
    unfold apoM
    cases c.extOf "ml_m" with
    | some e => exact ⟨_, rfl⟩
    | none => exact ⟨_, hm⟩
  show ∃ o, apoEst k c = .ok o
  unfold apoEst
  simp only [e0, e1, em, checkOut_ok hc.out, hw, bind, Except.bind, pure, Except.pure]
  exact ⟨_, rfl⟩

theorem iivm_total {k : IivmClass n P} {c : CellIn n P} (hc : PlainCell c) (hg : k.gClassifier = false)
    (hL : k.ml_m.Compliant) (hR : k.ml_r.Compliant) {z : Fin n → ℝ} (hz : c.instr = .ok z) (hd : BinaryTarget c.d)
    (hb : BinaryTarget z) (hf : EveryFold c.smpls (fun _ => True) z)
    (h0 : k.alwaysTakers = true → EveryFold c.smpls (fun i => z i = 0) c.d)
    (h1 : k.neverTakers = true → EveryFold c.smpls (fun i => z i = 1) c.d) : ∃ o, (iivmSpec k).est c = .ok o := by
  have hG : ∀ l v, ∃ g, iivmG k c z l v = .ok g := by
    intro l v
    unfold iivmG
    cases c.extOf l with
    | some e => exact ⟨_, rfl⟩
    | none => exact condLearn_total (rowX c.data) c.y _ _ hc.split (hc.params _) (regr hg)
  have hRR : ∀ l v b, (b = true → EveryFold c.smpls (fun i => z i = v) c.d) → ∃ g, iivmR k c z l v b = .ok g := by
    intro l v b hb
    have key : ∀ r : CvRes n P (List Cell), (∀ i, (r.preds i).isSome) → ∃ g, iivmRTail c z l v r = .ok g := by
      intro r hr
      unfold iivmRTail
      cases c.extOf l with
      | some e => exact ⟨_, rfl⟩
      | none =>
        simp only [checkFinite_ok hr, bind, Except.bind, pure, Except.pure]
        exact ⟨_, rfl⟩
    unfold iivmR iivmRRaw
    cases b with
    | false => exact key _ fun _ => rfl
    | true =>
      obtain ⟨r, hr, -, hs⟩ := crossFit_total (L := k.ml_r) (m := .proba) (l := l) (rowX c.data) c.d (fun i => z i = v) hc.split
        (hc.params _) (fun _ => ⟨hR, hd, hb rfl⟩)
      rw [if_pos rfl]
      cases c.extOf l with
      | some e => exact key _ fun _ => rfl
      | none =>
        simp only [hr, bind, Except.bind]
        exact key r hs
  obtain ⟨g0, e0⟩ := hG "ml_g0" 0
  obtain ⟨g1, e1⟩ := hG "ml_g1" 1
  obtain ⟨r0, er0⟩ := hRR "ml_r0" 0 _ h0
  obtain ⟨r1, er1⟩ := hRR "ml_r1" 1 _ h1
  obtain ⟨m, em⟩ := propM_total (L := k.ml_m) hc hL hb hf
  show ∃ o, iivmEst k c = .ok o
  unfold iivmEst
  simp only [hz, e0, e1, er0, er1, em, checkOut_ok hc.out, bind, Except.bind, pure, Except.pure]
  exact ⟨_, rfl⟩

theorem did_total {k : DidClass n P} {c : CellIn n P} (hc : PlainCell c) (hg : k.gClassifier = false)
    (hL : k.ml_m.Compliant) (hd : BinaryTarget c.d) (hf : EveryFold c.smpls (fun _ => True) c.d) :
    (∃ o, (didSpec k).est c = .ok o) ∧ ∀ t, c.time = .ok t → ∃ o, (csSpec k).est c = .ok o := by
  have hM : ∃ m, didM k c = .ok m := by
    unfold didM
    split
    · exact ⟨_, rfl⟩
    · obtain ⟨m, em⟩ := propM_total (L := k.ml_m) hc hL hd hf
      rw [em]
      exact ⟨_, rfl⟩
  obtain ⟨m, hm⟩ := hM
  constructor
  · have hG : ∀ l v, ∃ g, didG k c l v = .ok g := by
      intro l v
      unfold didG
      cases c.extOf l with
      | some e => exact ⟨_, rfl⟩
      | none => exact condLearn_total (rowX c.data) c.y _ _ hc.split (hc.params _) (regr hg)
    obtain ⟨g0, e0⟩ := hG "ml_g0" 0
    obtain ⟨g1, e1⟩ := hG "ml_g1" 1
    show ∃ o, didEst k c = .ok o
    unfold didEst
    simp only [e0, e1, hm, bind, Except.bind, pure, Except.pure]
    exact ⟨_, rfl⟩
  · intro t ht
    have hG : ∀ l v w, ∃ g, csG k c t l v w = .ok g := by
      intro l v w
      obtain ⟨r, hr, -⟩ := crossFit_total (L := k.ml_g) (m := methodOf k.gClassifier) (l := l) (rowX c.data) c.y
        (fun i => c.d i = v ∧ t i = w) hc.split (hc.params _) (regr hg)
      unfold csG
      cases c.extOf l with
      | some e => exact ⟨_, rfl⟩
      | none =>
        simp only [hr, bind, Except.bind, pure, Except.pure]
        exact ⟨_, rfl⟩
    obtain ⟨g00, e00⟩ := hG "ml_g_d0_t0" 0 0
    obtain ⟨g01, e01⟩ := hG "ml_g_d0_t1" 0 1
    obtain ⟨g10, e10⟩ := hG "ml_g_d1_t0" 1 0
    obtain ⟨g11, e11⟩ := hG "ml_g_d1_t1" 1 1
    show ∃ o, csEst k c = .ok o
    unfold csEst
    simp only [ht, e00, e01, e10, e11, hm, bind, Except.bind, pure, Except.pure]
    exact ⟨_, rfl⟩

theorem ssmPart_total {L : Learner P (List Cell)} {c : CellIn n P} {l : String} (x : Fin n → List Cell)
    (y : Fin n → ℝ) (on : Fin n → Prop) [DecidablePred on] (hS : FoldsOk c.smpls) {m : Method}
    (hpar : (c.paramsOf l).Fits c.smpls.length)
    (hm : m = .proba → L.Compliant ∧ BinaryTarget y ∧ EveryFold c.smpls on y) :
    ∃ r, ssmPart L m c l x y (condSmpls on c.smpls) = .ok r := by
  obtain ⟨r, hr, -, hs⟩ := crossFit_total x y on hS hpar hm
  unfold ssmPart
  simp only [hr, checkFinite_ok hs, bind, Except.bind, pure, Except.pure]
  exact ⟨_, rfl⟩

theorem ssmPart_total_all {L : Learner P (List Cell)} {c : CellIn n P} {l : String} (x : Fin n → List Cell)
    (y : Fin n → ℝ) (hS : FoldsOk c.smpls) {m : Method} (hpar : (c.paramsOf l).Fits c.smpls.length)
    (hm : m = .proba → L.Compliant ∧ BinaryTarget y ∧ EveryFold c.smpls (fun _ => True) y) :
    ∃ r, ssmPart L m c l x y c.smpls = .ok r := by
  obtain ⟨r, hr, -, hs⟩ := crossFit_total_all x y hS hpar hm
  unfold ssmPart
  simp only [hr, checkFinite_ok hs, bind, Except.bind, pure, Except.pure]
  exact ⟨_, rfl⟩

theorem ssm_total {k : SsmClass n P} {c : CellIn n P} (hc : PlainCell c) (hg : k.gClassifier = false)
    (hL : k.ml_m.Compliant) (hP : k.ml_pi.Compliant) {s : Fin n → ℝ} (hs : c.sel = .ok s) (hd : BinaryTarget c.d)
    (hf : EveryFold c.smpls (fun _ => True) c.d) (hb : BinaryTarget s) (hfs : EveryFold c.smpls (fun _ => True) s)
    (hcl : c.cluster = none) : ∃ o, (ssmSpec k).est c = .ok o := by
  obtain ⟨pi, e1⟩ := ssmPart_total_all (L := k.ml_pi) (m := .proba) (l := "ml_pi") c.xd s hc.split (hc.params _)
    (fun _ => ⟨hP, hb, hfs⟩)
  obtain ⟨m, e2⟩ := ssmPart_total_all (L := k.ml_m) (m := .proba) (l := "ml_m") (rowX c.data) c.d hc.split
    (hc.params _) (fun _ => ⟨hL, hd, hf⟩)
  obtain ⟨g1, e3⟩ := ssmPart_total (L := k.ml_g) (m := methodOf k.gClassifier) (l := "ml_g_d1") (rowX c.data) c.y
    (fun i => c.d i = 1 ∧ s i = 1) hc.split (hc.params _) (regr hg)
  obtain ⟨g0, e4⟩ := ssmPart_total (L := k.ml_g) (m := methodOf k.gClassifier) (l := "ml_g_d0") (rowX c.data) c.y
    (fun i => c.d i = 0 ∧ s i = 1) hc.split (hc.params _) (regr hg)
  have e5 : ssmCluster c = .ok () := by unfold ssmCluster; rw [hcl]; rfl
  show ∃ o, ssmEst k c = .ok o
  unfold ssmEst
  simp only [hs, e1, e2, e3, e4, e5, bind, Except.bind, pure, Except.pure]
  exact ⟨_, rfl⟩

theorem pliv_total {k : PlivClass n P} {c : CellIn n P} (hc : PlainCell c) {z : Fin n → ℝ} (hz : c.instr = .ok z) :
    ∃ o, (plivSpec k).est c = .ok o := by
  have hP : ∀ L l y, ∃ r, plivPart L c l y = .ok r := by
    intro L l y
    unfold plivPart
    cases c.extOf l with
    | some e => exact ⟨_, rfl⟩
    | none => exact learn_total' y hc.split (hc.params _) (fun q => by cases q)
  obtain ⟨l, e1⟩ := hP k.ml_l "ml_l" c.y
  obtain ⟨m, e2⟩ := hP k.ml_m "ml_m" z
  obtain ⟨r, e3⟩ := hP k.ml_r "ml_r" c.d
  obtain ⟨g, e4⟩ : ∃ g, plivG k c z l m r = .ok g := by
    unfold plivG
    split
    · exact hP _ _ _
    · exact ⟨_, rfl⟩
  show ∃ o, plivEst k c = .ok o
  unfold plivEst
  simp only [hz, e1, e2, e3, e4, bind, Except.bind, pure, Except.pure]
  exact ⟨_, rfl⟩

theorem exMeanL_both {D : List (List Cell × ℝ)} (hv : ∀ q ∈ D, q.2 = 0 ∨ q.2 = 1) (h0 : ∃ q ∈ D, q.2 = 0) (h1 : ∃ q ∈ D, q.2 = 1) :
    classesOf D = [0, 1] := by
  have : (D.map Prod.snd).toFinset = {0, 1} := by
    ext v
    simp only [List.mem_toFinset, List.mem_map, Finset.mem_insert, Finset.mem_singleton]
    constructor
    · rintro ⟨q, hq, rfl⟩; exact hv q hq
    · rintro (rfl | rfl)
      · obtain ⟨q, hq, e⟩ := h0; exact ⟨q, hq, e⟩
      · obtain ⟨q, hq, e⟩ := h1; exact ⟨q, hq, e⟩
  unfold classesOf
  rw [this]
  exact Finset.sort_insert (r := fun a b : ℝ => a ≤ b) (a := 0) (s := {1}) (by simp) (by simp) |>.trans (by simp)

theorem exMeanL_symmetric : LabelSymmetric exMeanL := by
  intro p D x hv h0 h1
  have e := exMeanL_both hv h0 h1
  have e' : classesOf (D.map fun q => (q.1, 1 - q.2)) = [0, 1] := by
    refine exMeanL_both ?_ ?_ ?_
    · intro q hq
      obtain ⟨r, hr, rfl⟩ := List.mem_map.1 hq
      rcases hv r hr with h | h <;> simp [h]
    · obtain ⟨q, hq, h⟩ := h1; exact ⟨_, List.mem_map.2 ⟨q, hq, rfl⟩, by simp [h]⟩
    · obtain ⟨q, hq, h⟩ := h0; exact ⟨_, List.mem_map.2 ⟨q, hq, rfl⟩, by simp [h]⟩
  have hpos : (D.length : ℝ) ≠ 0 := by
    obtain ⟨q, hq, -⟩ := h0
    exact_mod_cast (List.length_pos_of_mem hq).ne'
  have hsum : ∀ D : List (List Cell × ℝ), (∀ q ∈ D, q.2 = 0 ∨ q.2 = 1) →
      ((D.filter fun q => decide (q.2 = 0)).length : ℝ) + (D.filter fun q => decide (q.2 = 1)).length = D.length := by
    intro D hv
    induction D with
    | nil => simp
    | cons q D ih =>
      have ih := ih fun r hr => hv r (List.mem_cons_of_mem _ hr)
      rcases hv q (List.mem_cons_self ..) with h | h
      · simp [h]; linarith
      · simp [h]; linarith
  have hflip : ∀ v : ℝ, (((D.map fun q => (q.1, 1 - q.2)).filter fun q => decide (q.2 = 1 - v)).length : ℝ) =
      (D.filter fun q => decide (q.2 = v)).length := by
    intro v
    rw [List.filter_map, List.length_map]
    congr 2
    refine List.filter_congr fun q _ => ?_
    simp only [Function.comp_def, sub_right_inj]
  refine ⟨((D.filter fun q => decide (q.2 = 1)).length : ℝ) / D.length, ?_, ?_⟩
  · show (classesOf D).map _ = _
    rw [e]
    simp only [List.map_cons, List.map_nil]
    congr 1
    rw [eq_sub_iff_add_eq, ← add_div]
    rw [div_eq_one_iff_eq hpos]
    convert hsum D hv
  · show (classesOf _).map _ = _
    rw [e']
    simp only [List.map_cons, List.map_nil, List.length_map]
    have f0 := hflip 1
    have f1 := hflip 0
    rw [sub_self] at f0
    rw [sub_zero] at f1
    congr 1
    · congr 1
    · congr 1
      rw [eq_sub_iff_add_eq, ← add_div, div_eq_one_iff_eq hpos]
      have := hsum D hv
      rw [← f1] at this
      convert this

/-- Four observations; outcome 1, 2, 3, 5; treatment 0, 1, 0, 1; instrument 0, 1, 1, 0; time 1, 0, 1, 0;
selection 1, 0, 0, 1. -/
noncomputable def exData4 (y : Fin 4 → ℝ) : DataState 4 :=
  { y := "y", d := ["d"], x := ["x"], z := some ["z"], t := some "t", s := some "s", cluster := none, useOther := true,
    force := .yes
    yv := fun i => .num (y i)
    zv := some [fun i => .num (![0, 1, 1, 0] i)]
    tv := some fun i => .num (![1, 0, 1, 0] i)
    sv := some fun i => .num (![1, 0, 0, 1] i)
    dv := fun i => .num (![0, 1, 0, 1] i)
    xv := [fun i => .num i.val]
    cv := [], binTreats := [("d", true)], binOut := false }

/-- Two folds. -/
def exFolds4 : List (Fold 4) := [⟨[2, 3], [0, 1]⟩, ⟨[0, 1], [2, 3]⟩]

/-- A cell on these data. -/
noncomputable def exCell4 (y : Fin 4 → ℝ) : CellIn 4 ℕ :=
  { data := exData4 y, treat := "d", smpls := exFolds4, cluster := none, params := [], ext := [], start := 0
    wantModels := false, rep := 0 }

theorem exCell4_split (y : Fin 4 → ℝ) : SplitOk (exCell4 y).smpls :=
  ⟨(by decide : isPartition exFolds4 = true), (by decide : ∀ f ∈ exFolds4, f.train.Pairwise (· < ·))⟩

theorem exCell4_plain (y : Fin 4 → ℝ) : PlainCell (exCell4 y) where
  split := (exCell4_split y).folds
  params := fun _ _ h => by cases h
  out := rfl

theorem exBinary {v : Fin 4 → ℝ} (h : ∀ i, v i = 0 ∨ v i = 1) (h1 : v 0 = 1 - v 1) (h2 : v 2 = 1 - v 3) :
    BinaryTarget v ∧ EveryFold exFolds4 (fun _ => True) v := by
  refine ⟨⟨h, ?_, ?_⟩, ?_⟩
  · rcases h 0 with q | q
    · exact ⟨0, q⟩
    · exact ⟨1, by linarith⟩
  · rcases h 0 with q | q
    · exact ⟨1, by linarith⟩
    · exact ⟨0, q⟩
  · intro f hf
    simp only [exFolds4, List.mem_cons, List.not_mem_nil, or_false] at hf
    rcases hf with rfl | rfl
    · rcases h 2 with q | q
      · exact ⟨⟨2, by simp, trivial, q⟩, 3, by simp, trivial, by linarith⟩
      · exact ⟨⟨3, by simp, trivial, by linarith⟩, 2, by simp, trivial, q⟩
    · rcases h 0 with q | q
      · exact ⟨⟨0, by simp, trivial, q⟩, 1, by simp, trivial, by linarith⟩
      · exact ⟨⟨1, by simp, trivial, by linarith⟩, 0, by simp, trivial, q⟩

theorem exCell4_d (y : Fin 4 → ℝ) : (exCell4 y).d = ![0, 1, 0, 1] := rfl

theorem ex_d4 : BinaryTarget ![(0 : ℝ), 1, 0, 1] ∧ EveryFold exFolds4 (fun _ => True) ![(0 : ℝ), 1, 0, 1] :=
  exBinary (fun i => by fin_cases i <;> simp) (by simp) (by simp)

theorem ex_z4 : BinaryTarget ![(0 : ℝ), 1, 1, 0] ∧ EveryFold exFolds4 (fun _ => True) ![(0 : ℝ), 1, 1, 0] :=
  exBinary (fun i => by fin_cases i <;> simp) (by simp) (by simp)

theorem ex_s4 : BinaryTarget ![(1 : ℝ), 0, 0, 1] ∧ EveryFold exFolds4 (fun _ => True) ![(1 : ℝ), 0, 0, 1] :=
  exBinary (fun i => by fin_cases i <;> simp) (by simp) (by simp)

/-- An IRM class for the examples. -/
noncomputable def exIrm4 : IrmClass 4 ℕ :=
  { ml_g := exMeanL, ml_m := exMeanL, gClassifier := false, atte := false, normalize := true, trimT := 1 / 100
    weights := ⟨⟨[4], [1, 1, 1, 1]⟩, none⟩ }

/-- All hypotheses of the IRM theorems (C27, C39, C58, C38) hold for a cell whose learners depend on their training data. -/
example (y : Fin 4 → ℝ) : PlainCell (exCell4 y) ∧ SiblingCell (exCell4 y) (exCell4 y) ∧ exIrm4.atte = false ∧
    exIrm4.trimT < 1 / 2 ∧ exIrm4.ml_m.Compliant ∧ LabelSymmetric exIrm4.ml_m ∧ BinaryTarget (exCell4 y).d ∧
    EveryFold (exCell4 y).smpls (fun _ => True) (exCell4 y).d ∧ (∃ o, (irmSpec exIrm4).est (exCell4 y) = .ok o) ∧
    (∃ o, (apoSpec (exIrm4.apo 1)).est (exCell4 y) = .ok o) ∧ ∃ o, (apoSpec (exIrm4.apo 0)).est (exCell4 y) = .ok o := by
  have hp := exCell4_plain y
  obtain ⟨hb, hf⟩ := ex_d4
  have ht1 : (exIrm4.apo 1).treated (exCell4 y) = ![0, 1, 0, 1] := by
    funext i; fin_cases i <;> simp [ApoClass.treated, IrmClass.apo, exCell4_d]
  have ht0 : (exIrm4.apo 0).treated (exCell4 y) = fun i => ![1, 0, 1, 0] i := by
    funext i; fin_cases i <;> simp [ApoClass.treated, IrmClass.apo, exCell4_d]
  obtain ⟨hb', hf'⟩ : BinaryTarget ![(1 : ℝ), 0, 1, 0] ∧ EveryFold exFolds4 (fun _ => True) ![(1 : ℝ), 0, 1, 0] :=
    exBinary (fun i => by fin_cases i <;> simp) (by simp) (by simp)
  refine ⟨hp, ⟨rfl, rfl, rfl, rfl, rfl, fun _ => rfl, fun _ => rfl⟩, rfl, by norm_num [exIrm4], exMeanL_compliant, exMeanL_symmetric,
    hb, hf, irm_total hp rfl exMeanL_compliant hb hf rfl, ?_, ?_⟩
  · exact apo_total hp rfl exMeanL_compliant (by rw [ht1]; exact hb) (by rw [ht1]; exact hf) rfl
  · exact apo_total hp rfl exMeanL_compliant (by rw [ht0]; exact hb') (by rw [ht0]; exact hf') rfl

/-- The same for IIVM, DID, DIDCS, SSM and PLIV. -/
example (y : Fin 4 → ℝ) (score : DidScore) :
    (∃ o, (iivmSpec ⟨exMeanL, exMeanL, exMeanL, false, false, false, true, 1 / 100, none⟩).est (exCell4 y) = .ok o) ∧
    (∃ o, (didSpec ⟨exMeanL, exMeanL, false, score, true, 1 / 100, none⟩).est (exCell4 y) = .ok o) ∧
    (∃ o, (csSpec ⟨exMeanL, exMeanL, false, score, true, 1 / 100, none⟩).est (exCell4 y) = .ok o) ∧
    (∃ o, (ssmSpec ⟨exMeanL, exMeanL, exMeanL, false, true, 1 / 100, none⟩).est (exCell4 y) = .ok o) ∧
    (∃ o, (plivSpec ⟨exMeanL, exMeanL, exMeanL, exMeanL, true, fun _ v => v, none⟩).est (exCell4 y) = .ok o) ∧
    ∀ i, ![(0 : ℝ), 1, 1, 0] i = 0 ∨ ![(0 : ℝ), 1, 1, 0] i = 1 := by
  have hp := exCell4_plain y
  have hdid := fun k hg hL => did_total (k := k) hp hg hL (c := exCell4 y) ex_d4.1 ex_d4.2
  refine ⟨?_, (hdid _ rfl exMeanL_compliant).1, (hdid _ rfl exMeanL_compliant).2 _ rfl, ?_, pliv_total hp rfl, ex_z4.1.values⟩
  · exact iivm_total hp rfl exMeanL_compliant exMeanL_compliant rfl ex_d4.1 ex_z4.1 ex_z4.2 (fun h => by cases h) (fun h => by cases h)
  · exact ssm_total hp rfl exMeanL_compliant exMeanL_compliant rfl ex_d4.1 ex_d4.2 ex_s4.1 ex_s4.2 rfl

/-- The class of the SSM examples. -/
noncomputable def exSsm4 : SsmClass 4 ℕ := ⟨exMeanL, exMeanL, exMeanL, false, true, 1 / 100, none⟩

theorem exSsm4_loss {y : Fin 4 → ℝ} (h : y 3 = 5) {o : LinOut 4 ℕ} (ho : (ssmSpec exSsm4).est (exCell4 y) = .ok o) :
    lookupKey "ml_g_d1" o.preds = some (fun i => some (![5, 5, 0, 0] i)) ∧
    learnerLoss (ssmSpec exSsm4).keys o.preds o.targets "ml_g_d1" =
      .ok ("ml_g_d1", some (Real.sqrt (((y 0 - 5) ^ 2 + (y 1 - 5) ^ 2 + y 2 ^ 2 + 25) / 4))) := by
  have hS := exCell4_split y
  obtain ⟨s, hs, -, ⟨p, hp, hr⟩, -, -⟩ := C27_ssm hS ho
  obtain rfl : s = ![1, 0, 0, 1] := (Except.ok.inj (hs.symm.trans (rfl : (exCell4 y).sel = .ok ![1, 0, 0, 1])))
  have q0 : ∀ i ∈ [(0 : Fin 4), 1], p i = some 5 := by
    intro i hi
    rw [hr 0 (by show 0 < exFolds4.length; simp [exFolds4]) i hi (fun q => by cases q), Option.map_id, id]
    have e : ((exCell4 y).smpls[0]'(by show 0 < exFolds4.length; simp [exFolds4])).train.filter
        (fun j => decide ((exCell4 y).d j = 1 ∧ ![(1 : ℝ), 0, 0, 1] j = 1)) = [3] := by
      show [(2 : Fin 4), 3].filter _ = _
      simp [exCell4_d]
    rw [e]
    show some (exMeanL.predict _ _ _) = _
    have : (exCell4 y).y 3 = y 3 := rfl
    simp [exMeanL, this, h]
  have q1 : ∀ i ∈ [(2 : Fin 4), 3], p i = some 0 := by
    intro i hi
    rw [hr 1 (by show 1 < exFolds4.length; simp [exFolds4]) i hi (fun q => by cases q), Option.map_id, id]
    have e : ((exCell4 y).smpls[1]'(by show 1 < exFolds4.length; simp [exFolds4])).train.filter
        (fun j => decide ((exCell4 y).d j = 1 ∧ ![(1 : ℝ), 0, 0, 1] j = 1)) = [] := by
      show [(0 : Fin 4), 1].filter _ = _
      simp [exCell4_d]
    rw [e]
    show some (exMeanL.predict _ _ _) = _
    simp [exMeanL]
  have hpv : p = fun i => some (![5, 5, 0, 0] i) := by
    funext i
    fin_cases i
    · exact q0 0 (by simp)
    · exact q0 1 (by simp)
    · exact q1 2 (by simp)
    · exact q1 3 (by simp)
  rw [hpv] at hp
  refine ⟨hp, ?_⟩
  have hev := (ssm_targets hS.partition (fun q => by cases q) ho).2
  rw [C58_group_loss hev hp ⟨0, trivial⟩ (ssmSpec exSsm4).keys (key := "ml_g") (by
    show List.filter _ [("ml_g", false), ("ml_pi", true), ("ml_m", true)] = _
    decide)]
  congr 4
  rw [Finset.filter_true, Fin.sum_univ_four]
  have : ∀ i, (exCell4 y).y i = y i := fun _ => rfl
  simp only [this, h]
  simp
  norm_num

/-- **C58 is violated by SSM**: changing the placeholder outcome of an *unselected* observation changes neither the
fitted outcome regression nor its predictions, but the reported loss. -/
theorem C58_ssm_violated : ∃ (k : SsmClass 4 ℕ) (c c' : CellIn 4 ℕ) (o o' : LinOut 4 ℕ) (s : Fin 4 → ℝ),
    c.sel = .ok s ∧ c' = { c with data := { c.data with yv := c'.data.yv } } ∧ (∀ i, s i = 1 → c.y i = c'.y i) ∧
    (ssmSpec k).est c = .ok o ∧ (ssmSpec k).est c' = .ok o' ∧
    lookupKey "ml_g_d1" o.preds = lookupKey "ml_g_d1" o'.preds ∧
    learnerLoss (ssmSpec k).keys o.preds o.targets "ml_g_d1" ≠ learnerLoss (ssmSpec k).keys o'.preds o'.targets "ml_g_d1" := by
  have ex : ∀ y, ∃ o, (ssmSpec exSsm4).est (exCell4 y) = .ok o := fun y =>
    ssm_total (exCell4_plain y) rfl exMeanL_compliant exMeanL_compliant rfl ex_d4.1 ex_d4.2 ex_s4.1 ex_s4.2 rfl
  obtain ⟨o, ho⟩ := ex ![1, 5, 3, 5]
  obtain ⟨o', ho'⟩ := ex ![1, 2, 3, 5]
  obtain ⟨p, l⟩ := exSsm4_loss (by simp) ho
  obtain ⟨p', l'⟩ := exSsm4_loss (by simp) ho'
  refine ⟨exSsm4, _, _, o, o', ![1, 0, 0, 1], rfl, rfl, ?_, ho, ho', p.trans p'.symm, ?_⟩
  · intro i hi
    fin_cases i
    · rfl
    · simp at hi
    · simp at hi
    · rfl
  · rw [l, l']
    intro e
    have e1 := Option.some.inj (Prod.mk.inj (Except.ok.inj e)).2
    rw [Real.sqrt_inj (by positivity) (by positivity)] at e1
    have a2 : (![1, 5, 3, 5] : Fin 4 → ℝ) 2 = 3 := rfl
    have b2 : (![1, 2, 3, 5] : Fin 4 → ℝ) 2 = 3 := rfl
    rw [a2, b2] at e1
    norm_num at e1

/-- **C28 is violated by PLIV** when the instruments are partialled out: supplied predictions are accepted and
ignored. -/
theorem C28_plivz_violated : ∃ (k : PlivClass 4 ℕ) (c : CellIn 4 ℕ) (o : LinOut 4 ℕ) (e : Fin 4 → ℝ),
    (plivZSpec k).extImpl = true ∧ (plivZSpec k).est c = .ok o ∧ c.extOf "ml_r" = some e ∧
    lookupKey "ml_r" o.preds ≠ some fun i => some (e i) := by
  set k : PlivClass 4 ℕ := ⟨exMeanL, exMeanL, exMeanL, exMeanL, false, fun _ v => v, none⟩
  set c : CellIn 4 ℕ := { exCell4 (fun _ => 0) with ext := [("ml_r", some fun _ => 7)] }
  have hS := exCell4_split fun _ => 0
  obtain ⟨r, hr⟩ := ssmPart_total (L := k.ml_r) (c := c) (l := "ml_r") (m := .predict) c.xz c.d (fun _ => True) hS.folds
    (fun _ h => by cases h) (fun q => by cases q)
  rw [condSmpls_true hS.sorted] at hr
  have ho : ∃ o, (plivZSpec k).est c = .ok o ∧ o.preds = [("ml_r", r.preds)] := by
    show ∃ o, plivZEst k c = .ok o ∧ _
    unfold plivZEst
    rw [hr]
    exact ⟨_, rfl, rfl⟩
  obtain ⟨o, ho, hp⟩ := ho
  refine ⟨k, c, o, _, rfl, ho, rfl, ?_⟩
  rw [hp]
  intro q
  have q0 : r.preds 0 = some 7 := congrFun (Option.some.inj q) 0
  have := crossFit_plain (c := c) hS (ssmPart_ok hr) 0 (by show 0 < exFolds4.length; simp [exFolds4]) 0
    (by show (0 : Fin 4) ∈ [0, 1]; simp) (fun q => by cases q)
  rw [this] at q0
  simp only [decide_true, List.filter_true, Option.map_id, id] at q0
  have e : (exMeanL.predict ((c.paramsOf "ml_r").at 0) ([(2 : Fin 4), 3].map fun j => (c.xz j, c.d j)) (c.xz 0)) = 7 :=
    Option.some.inj q0
  have hd : c.d = ![0, 1, 0, 1] := rfl
  rw [hd] at e
  simp [exMeanL] at e
  norm_num at e

end DML
