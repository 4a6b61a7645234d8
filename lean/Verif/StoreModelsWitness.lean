import Verif.StoreModelsProps

/-!
# C81: what stored models can break

Storing the fitted models makes the package predict fold by fold instead of calling `cross_val_predict`.  For a classifier
the two ways differ when a training set contains a single class: a fit that succeeds without storing the models then fails
with it.  The other finding: a fit that does not store its models leaves the models of an earlier fit in the object.

The examples at the end show that the hypotheses of the theorems of C81 can be met.
-/

open Finset

namespace DML

variable {n : ℕ} {P X : Type}

/-- What `cross_val_predict` returns for a classifier always has the column of class one. -/
theorem autoEval_proba_ok {L : Learner P X} (hL : L.Compliant) {k : ℕ} (hk : k = 2) (p : Option P) (D : List (X × ℝ)) (x : X) :
    ∃ v, autoEval L .proba k p D x = .ok v := by
  have hlen := hL p D x
  unfold autoEval
  dsimp only
  unfold autoColumn
  split_ifs with h1 h2
  · have : 1 < (L.proba p D x).length := by omega
    rw [List.getElem?_eq_getElem this]
    exact ⟨_, rfl⟩
  · have : (classesOf D).idxOf 1 < (L.proba p D x).length := by
      rw [hlen]
      exact List.idxOf_lt_length_iff.2 h2
    rw [List.getElem?_eq_getElem this]
    exact ⟨_, rfl⟩
  · exact ⟨0, rfl⟩

/-! ## The witness -/

/-- A classifier without hyperparameters that gives the same probability to every class it has seen. -/
noncomputable def exEvenL : Learner Empty (List Cell) where
  predict := fun _ D _ => (D.map Prod.snd).sum / D.length
  proba := fun _ D _ => (classesOf D).map fun _ => 1 / ((classesOf D).length : ℝ)

theorem exEvenL_compliant : exEvenL.Compliant := fun _ _ _ => by simp [exEvenL]

/-- Three treated observations, all in the first half. -/
noncomputable def exThree (i : Fin 12) : ℝ := if i.val < 3 then 1 else 0

theorem exThree_binary : BinaryTarget exThree := by
  refine ⟨fun i => ?_, ⟨3, by norm_num [exThree]⟩, ⟨0, by norm_num [exThree]⟩⟩
  unfold exThree
  split_ifs
  · exact .inr rfl
  · exact .inl rfl

/-- A partially linear model with a classifier for the treatment. -/
noncomputable def exPlrC : PlrClass 12 Empty := ⟨exEvenL, exEvenL, exEvenL, true, false, none⟩

theorem exPlrC_params {y d z : Fin 12 → ℝ} {q : ℕ} {c : CellIn 12 Empty} (hc : CellOf (exData12 y d z) "d" q [exF0, exF1] c)
    (l : String) : c.paramsOf l = .default := by
  have h := hc.params l
  cases hp : c.paramsOf l with
  | default => rfl
  | same p => exact p.elim
  | perFold ps =>
    rw [hp] at h
    have h2 : ps.length = 2 := h ps rfl
    cases ps with
    | nil => cases h2
    | cons p _ => exact p.elim

theorem exF0_class (x : Fin 12 → List Cell) : classesOf (trainData x exThree exF0.train) = [0] := by
  unfold classesOf trainData
  have : (exF0.train.map fun i => (x i, exThree i)).map Prod.snd = [0, 0, 0, 0, 0, 0] := by
    simp [exF0, exThree]
  rw [this]
  simp

theorem exPlrC_ext {c : CellIn 12 Empty} (h : setExt 12 .none (plrSpec exPlrC).learners "d" c.rep = .ok c.ext) (l : String) :
    c.extOf l = none := by
  have : c.ext = [("ml_l", none), ("ml_m", none)] := by
    have := Except.ok.inj h
    rw [← this]
    rfl
  unfold CellIn.extOf
  rw [this]
  simp only [lookupKey]
  split_ifs <;> rfl

/-- The outcome regression does not depend on the switch. -/
theorem exPlrC_l {y z : Fin 12 → ℝ} {q : ℕ} {c : CellIn 12 Empty}
    (hc : CellOf (exData12 y exThree z) "d" q [exF0, exF1] c) (hS : FoldsOk [exF0, exF1]) (he : ∀ l, c.extOf l = none) :
    ∃ r, plrL exPlrC c = .ok r := by
  unfold plrL
  rw [he]
  dsimp only
  rw [if_neg (by simp [exPlrC])]
  exact learn_total' _ (by rw [hc.smpls]; exact hS) (by rw [hc.smpls]; exact hc.params _) (fun h => by cases h)

/-- Without storing models the cell can be estimated. -/
theorem exPlrC_est {y z : Fin 12 → ℝ} {q : ℕ} {c : CellIn 12 Empty}
    (hc : CellOf (exData12 y exThree z) "d" q [exF0, exF1] c) (hS : FoldsOk [exF0, exF1]) (he : ∀ l, c.extOf l = none)
    (hw : c.wantModels = false) : ∃ o, plrEst exPlrC c = .ok o := by
  obtain ⟨l, hl⟩ := exPlrC_l hc hS he
  have hd : (fun i => (c.data.dv i).val) = exThree := by
    rw [hc.data]
    rfl
  obtain ⟨m, hm⟩ : ∃ m, plrM exPlrC c = .ok m := by
    obtain ⟨r, hr⟩ := autoPredict_total (L := exEvenL) (x := rowX c.data) (y := exThree) (smpls := [exF0, exF1]) (p := none)
      (m := .proba) fun f _ i _ => autoEval_proba_ok exEvenL_compliant exThree_binary.card _ _ _
    have hsome : ∀ i, (r.preds i).isSome := by
      intro i
      obtain ⟨f, hf, hi⟩ : ∃ f ∈ [exF0, exF1], i ∈ f.test := by fin_cases i <;> decide
      obtain ⟨v, -, hv⟩ := autoPredict_ok exPartition hr hf hi
      rw [hv]
      rfl
    have h6 : r.preds 6 = some (1 / 2) := by
      obtain ⟨v, hv, h6⟩ := autoPredict_ok exPartition hr (f := exF1) (by simp) (i := 6) (by decide)
      rw [h6]
      have hb : BothClasses exThree exF1 := ⟨⟨3, by decide, by norm_num [exThree]⟩, ⟨0, by decide, by norm_num [exThree]⟩⟩
      have hl := classesOf_both (x := rowX c.data) exThree_binary hb
      simp only [autoEval, fitTarget, exThree_binary.encode, exThree_binary.card, autoColumn] at hv
      rw [if_pos hl.symm] at hv
      simp only [exEvenL, List.getElem?_map, hl] at hv
      rw [List.getElem?_eq_getElem (by omega)] at hv
      have := Except.ok.inj hv
      rw [← this]
      norm_num
    have hcv : learn exEvenL .proba c "ml_m" exThree = .ok r := by
      unfold learn
      rw [hw, hc.smpls, exPlrC_params hc, cvPredict_auto rfl exPartition]
      have hr' : autoPredict exEvenL (rowX c.data) exThree [exF0, exF1] (Params.default.at 0) .proba = .ok r := hr
      rw [hr']
      simp only [bind, Except.bind, checkFinite_ok hsome, pure, Except.pure]
    have hchk : checkTreatPreds c r.preds = .ok () := by
      unfold checkTreatPreds
      rw [hc.treat, hc.data]
      show checkBinaryPreds r.preds = _
      unfold checkBinaryPreds
      rw [if_neg]
      intro hall
      rcases hall 6 with h | h <;> rw [h6] at h <;> have := Option.some.inj h <;> norm_num at this
    unfold plrM
    rw [he, hd]
    show ∃ m, (learn exEvenL .proba c "ml_m" exThree >>= _) = _
    rw [hcv]
    simp only [bind, Except.bind, hchk]
    exact ⟨_, rfl⟩
  unfold plrEst
  simp only [hl, hm, bind, Except.bind]
  exact ⟨_, rfl⟩

/-- With it, the classifier of the first fold has one column and the second is asked for. -/
theorem exPlrC_fails {y z : Fin 12 → ℝ} {q : ℕ} {c : CellIn 12 Empty}
    (hc : CellOf (exData12 y exThree z) "d" q [exF0, exF1] c) (hS : FoldsOk [exF0, exF1]) (he : ∀ l, c.extOf l = none)
    (hw : c.wantModels = true) : plrEst exPlrC c = .error .indexError := by
  obtain ⟨l, hl⟩ := exPlrC_l hc hS he
  have hd : (fun i => (c.data.dv i).val) = exThree := by
    rw [hc.data]
    rfl
  have hcv : learn exEvenL .proba c "ml_m" exThree = .error .indexError := by
    unfold learn
    rw [hw, hc.smpls, exPlrC_params hc, cvPredict_manual rfl]
    have : manualPredict exEvenL ⟨rowX c.data, .plain exThree, [exF0, exF1], .default, .proba, false, true⟩ =
        .error .indexError := by
      unfold manualPredict
      rw [if_neg (by simp [exPartition]), if_neg (by simp [Target.isPerFold])]
      have hp : predictFold exEvenL .proba (rowX c.data) (fun _ => none)
          (exF0, ⟨none, trainData (rowX c.data) exThree exF0.train⟩) = .error .indexError := by
        have hv : ∀ x, manualEval exEvenL .proba ⟨none, trainData (rowX c.data) exThree exF0.train⟩ x = .error .indexError := by
          intro x
          simp only [manualEval, exEvenL, exF0_class, manualColumn]
          simp
        unfold predictFold
        dsimp only
        have ht : exF0.test = [0, 1, 2, 3, 4, 5] := rfl
        rw [ht]
        simp only [List.mapM_cons, hv, bind, Except.bind]
      simp only [foldData, foldParams, List.map_cons, List.map_nil, List.length_cons, List.length_nil,
        List.replicate, fitTarget, exThree_binary.encode, bind, Except.bind, List.zip_cons_cons, List.zip_nil_right,
        List.foldlM_cons, hp]
    rw [this]
    rfl
  have hm : plrM exPlrC c = .error .indexError := by
    unfold plrM
    rw [he, hd]
    show (learn exEvenL .proba c "ml_m" exThree >>= _) = _
    rw [hcv]
    rfl
  unfold plrEst
  simp only [hl, hm, bind, Except.bind]

theorem exFoldsOk : FoldsOk [exF0, exF1] := ⟨exPartition, by decide⟩

/-- **C81 is violated**: a fit that succeeds can fail when the fitted models are to be stored.  In a partially linear model
with a classifier for the treatment, whose first training set has no treated observation, the fit goes through without storing
the models and raises an `IndexError` with it. -/
theorem C81_missing_class_violated (E : Ext) (F : Frame 12) (y z : Fin 12 → ℝ) (start : ℝ) :
    ∃ s, Reached E F (plrSpec exPlrC) (exData12 y exThree z) "d" s ∧ s.smpls = some [[exF0, exF1]] ∧
      (fit F (plrSpec exPlrC) s {}).2 = .ok () ∧
      (fit F (plrSpec exPlrC) s { storeModels := .bool true }).2 = .error .indexError := by
  obtain ⟨s₀, s, -, -, hr, hL, hrep, -, hdat, hpar, -⟩ := exReached12 E F (sp := plrSpec exPlrC) rfl y exThree z start
  have hsig : (plrSpec exPlrC).sensImpl = true → ∀ c o, (plrSpec exPlrC).est c = .ok o → 0 ≤ o.sens.sigma2 := by
    intro _ c o ho
    obtain ⟨l, -, ho⟩ := bind_ok ho
    obtain ⟨m, -, ho⟩ := bind_ok ho
    obtain ⟨g, -, ho⟩ := bind_ok ho
    rw [← Except.ok.inj ho]
    show 0 ≤ mean (plrResid2 _ _ _ _ _ _ _)
    unfold plrResid2
    split_ifs
    · exact mean_sq_nonneg _
    · exact mean_sq_nonneg _
  have hS : ∀ (q : ℕ) (S : List (Fold 12)), [[exF0, exF1]][q]? = some S → S = [exF0, exF1] := by
    intro q S hq
    have := List.mem_of_getElem? hq
    simpa using this
  have hva : ∀ b, ValidArgs (plrSpec exPlrC) "d" s.nRep { storeModels := .bool b } := fun b =>
    ⟨.inl rfl, ⟨true, rfl⟩, ⟨b, rfl⟩, .inl rfl⟩
  obtain ⟨hready, -⟩ := hr.ready rfl
  have hd : s.data.d = ["d"] := by rw [hdat]; rfl
  refine ⟨s, hr, hL, ?_, ?_⟩
  · refine C63_of_cells_args rfl hsig hr hL (hva false) ?_ ?_ ?_
    · intro q S c hq _ hc hx hw
      obtain rfl := hS q S hq
      have hw' : c.wantModels = false := (PyVal.bool.inj hw).symm
      exact exPlrC_est hc exFoldsOk (exPlrC_ext (hc.rep ▸ hx)) hw'
    · exact plr_keys _
    · intro c o ho
      obtain ⟨_, -, ho⟩ := bind_ok ho
      obtain ⟨_, -, ho⟩ := bind_ok ho
      obtain ⟨_, -, ho⟩ := bind_ok ho
      rw [← Except.ok.inj ho]
      intro l hl
      have hl' : l = "ml_l" ∨ l = "ml_m" := by simpa [plrSpec, exPlrC] using hl
      rcases hl' with rfl | rfl <;> exact ⟨rfl, rfl⟩
  · obtain ⟨⟨p, m, hcf⟩, hx⟩ := (hva true).check hd
    have hm : m = true := by
      have := (checkFit_ok hcf).2
      exact (PyVal.bool.inj this).symm
    subst hm
    have h := ready_fit_or (F := F) .indexError rfl hsig hready hL hcf (fun _ _ => hx) (fun hl => by
        rw [hd] at hl
        simp at hl) fun tv htv q S c hq _ hc hx' hw => by
      rw [hd] at htv
      obtain rfl := List.mem_singleton.1 htv
      obtain rfl := hS q S hq
      have hD : activeData F s.data "d" = exData12 y exThree z := by
        unfold activeData
        rw [if_neg (by rw [hd]; simp), hdat]
      rw [hD] at hc
      exact .inr (exPlrC_fails hc exFoldsOk (exPlrC_ext (hc.rep ▸ hx')) hw)
    rcases h with h | h
    · exfalso
      obtain ⟨c, o, l, hc, hw, ho, -⟩ := fit_cells h (p := true) rfl (m := true) rfl (j := 0) (k := 0) (by rw [hd]; simp)
        (by rw [hrep]; omega)
      have ht : c.treat = "d" := by
        have := hc.treat
        rw [hd] at this
        exact (Option.some.inj this).symm
      obtain ⟨sl, hsl, hcs⟩ := hc.smpls
      rw [hL] at hsl
      obtain rfl := Option.some.inj hsl
      have hcell : CellOf (exData12 y exThree z) "d" 0 [exF0, exF1] c := by
        refine ⟨?_, ht, hS _ _ hcs, hc.noCluster rfl, hc.rep, fun l => toParams_fits fun ps hps => ?_⟩
        · rw [hc.data, ht]
          unfold activeData
          rw [if_neg (by rw [hd]; simp), hdat]
        · exfalso
          have hnone : ∀ lp ∈ c.params, lp.2 = none := by
            intro lp hlp
            obtain ⟨ps, h1, h2⟩ := hc.params.2 lp hlp
            rw [ht, hpar lp.1 (hc.params.1 ▸ List.mem_map_of_mem hlp)] at h1
            obtain rfl := Option.some.inj h1
            exact (Option.some.inj h2).symm
          have key : ∀ ls : List (String × Option (List Empty)), (∀ lp ∈ ls, lp.2 = none) → (lookupKey l ls).join = none := by
            intro ls
            induction ls with
            | nil => intro _; rfl
            | cons a ls ih =>
              intro h
              unfold lookupKey
              split_ifs
              · exact h a (by simp)
              · exact ih fun lp hlp => h lp (by simp [hlp])
          rw [key _ hnone] at hps
          cases hps
      have hf := exPlrC_fails hcell exFoldsOk (exPlrC_ext (c := c) (by rw [hc.rep, ← ht]; exact hc.ext)) hw
      exact absurd (hf.symm.trans ho) (by simp)
    · exact h

/-! ## Models of an earlier fit -/

/-- A fit that does not store its models leaves those of an earlier fit in the object. -/
theorem C81_kept_models {F : Frame n} {sp : LinSpec n P} {s : LinState n P} (hP : s.Partitions)
    (hsp : StoreClass (ActiveIn F s.data) sp) {a : FitArgs}
    (h : (fit F sp s { a with storeModels := .bool true }).2 = .ok ()) :
    (fit F sp s { a with storeModels := .bool false }).1.models = s.models ∧
      (fit F sp s { a with storeModels := .bool false }).1.preds = (fit F sp s { a with storeModels := .bool true }).1.preds := by
  rw [C81_storing_is_harmless hP hsp h]
  exact ⟨rfl, rfl⟩

/-- A learner whose prediction is its hyperparameter. -/
def exParL : Learner ℕ (List Cell) := ⟨fun p _ _ => p.getD 0, fun _ _ _ => []⟩

/-- A partially linear instrumental variables model with this learner. -/
def exPlivP : PlivClass 12 ℕ := ⟨exParL, exParL, exParL, exParL, false, fun _ v => v, none⟩

theorem Reached.setParams {E : Ext} {F : Frame n} {sp : LinSpec n P} {D : DataState n} {tv : String} {s : LinState n P}
    (h : Reached E F sp D tv s) (l t : String) (p : ParamArg P) : Reached E F sp D tv (setNuisanceParams sp s l t p).1 := by
  obtain ⟨hd, start, nf, nr, dr, w, s₀, os, h1, h2, h3, rfl⟩ := h
  refine ⟨hd, start, nf, nr, dr, w, s₀, os ++ [.setParams l t p], h1, h2, h3.snoc (o := .setParams l t p) trivial, ?_⟩
  rw [mrun_snoc]
  rfl

theorem exSplitOk : SplitOk [exF0, exF1] := ⟨exPartition, by decide⟩

/-- What a fit with stored models leaves for `ml_l` if all its hyperparameters are `v`. -/
theorem exPlivP_stored {F : Frame 12} {y d z : Fin 12 → ℝ} {s : LinState 12 ℕ} (hL : s.smpls = some [[exF0, exF1]])
    (hrep : s.nRep = 1) (hd : s.data = exData12 y d z) {v : Option ℕ}
    (hp : ∀ f < 2, s.paramAt "ml_l" "d" 0 f = v) (h : (fit F (plivSpec exPlivP) s { storeModels := .bool true }).2 = .ok ()) :
    (∀ i, predAt (fit F (plivSpec exPlivP) s { storeModels := .bool true }).1 0 0 "ml_l" i = some ((v.getD 0 : ℕ) : ℝ)) ∧
    ∃ M ms, (fit F (plivSpec exPlivP) s { storeModels := .bool true }).1.models.map (fun f => f 0 0) = some (some M) ∧
      lookupKey "ml_l" M = some (some ms) ∧ ms.length = 2 ∧ ∀ f ∈ ms, f.params = v := by
  obtain ⟨c, o, hc, h1, h2, hw, hs, ho⟩ := C81_fit h rfl rfl
    (Q := fun c o => c.wantModels = true ∧ SplitOk c.smpls ∧ (plivSpec exPlivP).est c = .ok o)
    (fun c o hs hw ho => ⟨hw, hs, ho⟩) (by
      intro l hl S hS
      rw [hL] at hl
      obtain rfl := Option.some.inj hl
      rw [List.mem_singleton.1 hS]
      exact exSplitOk) (j := 0) (k := 0) (by rw [hd]; simp [exData12]) (by omega)
  have ht : c.treat = "d" := by
    have := hc.treat
    rw [hd] at this
    exact (Option.some.inj this).symm
  obtain ⟨sl, hsl, hcs⟩ := hc.smpls
  rw [hL] at hsl
  obtain rfl := Option.some.inj hsl
  have hcs : c.smpls = [exF0, exF1] := (Option.some.inj hcs).symm
  obtain ⟨zz, -, hl, -⟩ := C81_pliv hs hw ho
  obtain ⟨p, ms, hpp, hmm, hmade⟩ := hl.1 (extOf_none hc "ml_l")
  have hlen : ms.length = 2 := by rw [hmade.length, hcs]; rfl
  have hpar : ∀ q (hq : q < ms.length), ms[q].params = v := by
    intro q hq
    rw [hmade.params q hq, hc.paramsOf (by simp [plivSpec, exPlivP]), ht]
    exact hp q (by omega)
  refine ⟨fun i => ?_, o.models, ms, h2, hmm, hlen, fun f hf => ?_⟩
  · obtain ⟨q, hq, hi⟩ : ∃ q, ∃ hq : q < c.smpls.length, i ∈ c.smpls[q].test := by
      have : ∃ f ∈ c.smpls, i ∈ f.test := by rw [hcs]; fin_cases i <;> decide
      obtain ⟨f, hf, hi⟩ := this
      obtain ⟨q, hq, rfl⟩ := List.getElem_of_mem hf
      exact ⟨q, hq, hi⟩
    have hq' : q < ms.length := by rw [hmade.length]; exact hq
    obtain ⟨w, hw1, hw2⟩ := hmade.answers q hq hq' i hi
    rw [hpar q hq'] at hw1
    have hw3 : w = ((v.getD 0 : ℕ) : ℝ) := (Option.some.inj hw1).symm
    unfold predAt
    cases hpr : (fit F (plivSpec exPlivP) s { storeModels := .bool true }).1.preds with
    | none => rw [hpr] at h1; cases h1
    | some f =>
      rw [hpr] at h1
      have h3 : f 0 0 = some (o.preds, o.targets) := Option.some.inj h1
      simp only [bind, Option.bind, h3, hpp, hw2, hw3, id]
  · obtain ⟨q, hq, rfl⟩ := List.getElem_of_mem hf
    exact hpar q hq

/-- **C81 is violated**: stored models need not be those of the stored predictions.  A model is fitted with stored models, the
hyperparameter of a learner is changed, and the model is fitted again without storing the models.  The predictions are those of
the second fit (all equal to 1), the models in the object are those of the first (all predict 0). -/
theorem C81_stale_models_violated (E : Ext) (F : Frame 12) (y d z : Fin 12 → ℝ) (start : ℝ) :
    ∃ s s' t : LinState 12 ℕ, Reached E F (plivSpec exPlivP) (exData12 y d z) "d" s ∧
      fit F (plivSpec exPlivP) s { storeModels := .bool true } = (s', .ok ()) ∧
      fit F (plivSpec exPlivP) (setNuisanceParams (plivSpec exPlivP) s' "ml_l" "d" (.dict 1)).1 {} = (t, .ok ()) ∧
      (∀ i, predAt t 0 0 "ml_l" i = some 1) ∧
      ∃ M ms, t.models.map (fun f => f 0 0) = some (some M) ∧ lookupKey "ml_l" M = some (some ms) ∧ ms.length = 2 ∧
        ∀ f ∈ ms, ∀ x, exParL.predict f.params f.data x = 0 := by
  obtain ⟨s₀, s, -, -, hr, hL, hrep, -, hdat, hpar, -⟩ := exReached12 E F (sp := plivSpec exPlivP) rfl y d z start
  have hva : ∀ (m : ℕ) b, ValidArgs (plivSpec exPlivP) "d" m { storeModels := .bool b } := fun m b =>
    ⟨.inl rfl, ⟨true, rfl⟩, ⟨b, rfl⟩, .inl rfl⟩
  have hfit1 := C63_pliv (k := exPlivP) rfl rfl rfl hr hL (hva _ true)
  obtain ⟨hA, M, ms, hM, hms, hlen, hall⟩ := exPlivP_stored (v := none) hL hrep hdat (by
    intro f _
    unfold MState.paramAt
    rw [hpar _ (by simp [plivSpec, exPlivP])]
    rfl) hfit1
  have hsame := (fit_frame F (plivSpec exPlivP) s { storeModels := .bool true }).1
  have hr1 := hr.fit { storeModels := .bool true }
  set s' := (fit F (plivSpec exPlivP) s { storeModels := .bool true }).1 with hs'
  have hr2 := hr1.setParams "ml_l" "d" (.dict 1)
  have hL' : s'.smpls = some [[exF0, exF1]] := hsame.smpls.trans hL
  obtain ⟨hready, hdat'⟩ := hr1.ready rfl
  have hfolds : s'.nFolds = 2 := by
    obtain ⟨-, h2⟩ := hready.split _ hL'
    exact (h2 [exF0, exF1] (List.mem_singleton.2 rfl)).2.symm
  have hrep' : s'.nRep = 1 := hsame.nRep.trans hrep
  have hset : setNuisanceParams (plivSpec exPlivP) s' "ml_l" "d" (.dict 1) =
      ({ s' with params := setNuisanceParams.set2' s'.params "ml_l" "d" [some [1, 1]] }, .ok ()) := by
    unfold setNuisanceParams
    rw [if_neg (by simp [plivSpec, exPlivP]), if_neg (by rw [hdat']; simp [exData12]), hrep', hfolds]
    rfl
  rw [hset] at hr2
  obtain ⟨u, hu⟩ : ∃ u : LinState 12 ℕ, u = { s' with params := setNuisanceParams.set2' s'.params "ml_l" "d" [some [1, 1]] } := ⟨_, rfl⟩
  rw [← hu] at hr2 hset
  have huL : u.smpls = some [[exF0, exF1]] := by rw [hu]; exact hL'
  have hurep : u.nRep = 1 := by rw [hu]; exact hrep'
  have hudat : u.data = exData12 y d z := by rw [hu]; exact hdat'
  have humod : u.models = s'.models := by rw [hu]
  have hfit2 := C63_pliv (k := exPlivP) rfl rfl rfl hr2 huL (hva _ true)
  obtain ⟨hB, -⟩ := exPlivP_stored (s := u) (v := some 1) huL hurep hudat (by
    intro f hf
    unfold MState.paramAt
    rw [hu]
    dsimp only
    unfold setNuisanceParams.set2'
    rw [if_pos ⟨rfl, rfl⟩]
    interval_cases f <;> rfl) hfit2
  have hP : u.Partitions := by
    intro l hl S hS
    rw [huL] at hl
    obtain rfl := Option.some.inj hl
    rw [List.mem_singleton.1 hS]
    exact exPartition
  have hk := C81_storing_is_harmless (F := F) (a := {}) hP (.pliv exPlivP) hfit2
  refine ⟨s, s', { (fit F (plivSpec exPlivP) u { storeModels := .bool true }).1 with models := u.models }, hr, Prod.ext rfl hfit1, ?_, ?_, M, ms, ?_, hms, hlen, fun f hf x => ?_⟩
  · rw [hset]
    exact hk
  · intro i
    have h := hB i
    simp only [Option.getD_some, Nat.cast_one] at h
    exact h
  · show u.models.map _ = _
    rw [humod]
    exact hM
  · rw [show f.params = none from hall f hf]
    simp [exParL]

/-! ## Examples -/

/-- The hypotheses of `C81_storing_is_harmless`, `C81_kept_models`, `C81_fit` and `C81_pliv` can be met. -/
example (E : Ext) (F : Frame 12) (y d z : Fin 12 → ℝ) (start : ℝ) : ∃ s : LinState 12 ℕ,
    s.Partitions ∧ StoreClass (ActiveIn F s.data) (plivSpec exPlivP) ∧ (∀ l, s.smpls = some l → ∀ S ∈ l, SplitOk S) ∧
      (fit F (plivSpec exPlivP) s { storeModels := .bool true }).2 = .ok () := by
  obtain ⟨s₀, s, -, -, hr, hL, hrep, -, hdat, hpar, -⟩ := exReached12 E F (sp := plivSpec exPlivP) rfl y d z start
  have hS : ∀ l, s.smpls = some l → ∀ S ∈ l, SplitOk S := by
    intro l hl S hS
    rw [hL] at hl
    obtain rfl := Option.some.inj hl
    rw [List.mem_singleton.1 hS]
    exact exSplitOk
  exact ⟨s, fun l hl S hl' => (hS l hl S hl').partition, .pliv _, hS,
    C63_pliv (k := exPlivP) rfl rfl rfl hr hL ⟨.inl rfl, ⟨true, rfl⟩, ⟨true, rfl⟩, .inl rfl⟩⟩

/-- The same for a potential quantile, with a classifier on halved training sets. -/
example (E : Ext) (F : Frame 12) (R : RootExt) (kde : (Fin 12 → ℝ) → (Fin 12 → ℝ) → ℝ) (y : Fin 12 → ℝ) : ∃ s : LinState 12 ℕ,
    s.Partitions ∧ StoreClass (ActiveIn F s.data) (pqSpec (exPq12 R kde)) ∧
      (fit F (pqSpec (exPq12 R kde)) s { storeModels := .bool true }).2 = .ok () := by
  obtain ⟨s₀, s, -, -, hr, hL, hrep, -, hdat, hpar, -⟩ := exReached12 E F (sp := pqSpec (exPq12 R kde)) rfl y exD exD 0
  refine ⟨s, fun l hl S hS => ?_, .pq _, ?_⟩
  · rw [hL] at hl
    obtain rfl := Option.some.inj hl
    rw [List.mem_singleton.1 hS]
    exact exPartition
  · have hd : nums (exData12 y exD exD).dv = exD := rfl
    exact C63_pq (k := exPq12 R kde) rfl (exNested_ok 12) exMeanL_compliant (by rw [hd]; exact exD_binary) hr hL
      (by rw [hd]; exact exHalves12 exD) ⟨.inl rfl, ⟨true, rfl⟩, ⟨true, rfl⟩, .inl rfl⟩ (.inr rfl)

end DML
