import Verif.StoreModelsFit
import Verif.NestedClassesProps

/-!
# C81: the stored models are the models that made the predictions

After `fit(store_models=True)`, the model stored for fold `q` was trained with the parameters and on the training rows of
fold `q`, and its answer at a test observation of fold `q` is the stored prediction.
-/

namespace DML

open Finset

variable {n : ℕ} {P M : Type}

/-! ## Specification -/

/-- The models `ms` made the predictions `p`: one model per fold; model `q` has the parameters of fold `q`, was trained on the
training observations of fold `q` that satisfy `on`, with features `x` and target `y` (classifiers: binary targets), and its
answers at the test observations of fold `q`, transformed by `post`, are the predictions. -/
structure MadeBy (c : CellIn n P) (l : String) (L : Learner P (List Cell)) (m : Method) (on : Fin n → Prop) [DecidablePred on]
    (x : Fin n → List Cell) (y : Fin n → ℝ) (post : ℝ → ℝ) (p : NV n) (ms : List (FittedModel P (List Cell))) : Prop where
  length : ms.length = c.smpls.length
  params : ∀ q (hq : q < ms.length), ms[q].params = (c.paramsOf l).at q
  data : (m = .proba → BinaryTarget y) → ∀ q (hq : q < c.smpls.length) (hq' : q < ms.length),
    ms[q].data = (c.smpls[q].train.filter fun j => decide (on j)).map fun j => (x j, y j)
  answers : ∀ q (hq : q < c.smpls.length) (hq' : q < ms.length), ∀ i ∈ c.smpls[q].test,
    ∃ v, L.answer m ms[q].params ms[q].data (x i) = some v ∧ p i = some (post v)

/-- The models and predictions stored for `l` belong together; there are no models for a supplied prediction. -/
def ModelsOf (c : CellIn n P) (o : LinOut n P) (l : String) (L : Learner P (List Cell)) (m : Method) (on : Fin n → Prop)
    [DecidablePred on] (x : Fin n → List Cell) (y : Fin n → ℝ) (post : ℝ → ℝ) : Prop :=
  (c.extOf l = none → ∃ p ms, lookupKey l o.preds = some p ∧ lookupKey l o.models = some (some ms) ∧
    MadeBy c l L m on x y post p ms) ∧
  (c.extOf l ≠ none → lookupKey l o.models = some none)

/-- As `ModelsOf`, for classes that do not look at external predictions. -/
def ModelsFor (c : CellIn n P) (o : LinOut n P) (l : String) (L : Learner P (List Cell)) (m : Method) (on : Fin n → Prop)
    [DecidablePred on] (x : Fin n → List Cell) (y : Fin n → ℝ) (post : ℝ → ℝ) : Prop :=
  ∃ p ms, lookupKey l o.preds = some p ∧ lookupKey l o.models = some (some ms) ∧ MadeBy c l L m on x y post p ms

/-- Fold `q`, with test observations `f.test`: the model stored for it has the parameters set for the fold, was trained on exactly
the observations `rows`, in this order, with features `x` and labels `y`, and its answers at the test observations are the
predictions `p`. -/
def StoredFold (ps : Option (List P)) (ev : FittedModel P (List Cell) → List Cell → ℝ) (x : Fin n → List Cell)
    (rows : List (Fin n)) (y : Fin n → ℝ) (p : NV n) (ms : List (FittedModel P (List Cell))) (q : ℕ) (f : Fold n) : Prop :=
  ∃ a, paramAt ps q = .ok a ∧ ms[q]? = some ⟨a, rows.map fun j => (x j, y j)⟩ ∧
    ∀ i ∈ f.test, p i = some (ev ⟨a, rows.map fun j => (x j, y j)⟩ (x i))

/-- Predictions and models of learner `l` are stored, with one model per fold. -/
def StoredFor (c : CellIn n P) (o : LinOut n P) (l : String) (p : NV n) (ms : List (FittedModel P (List Cell))) : Prop :=
  lookupKey l o.preds = some p ∧ lookupKey l o.models = some (some ms) ∧ ms.length = c.smpls.length

/-! ## Lemmas -/

theorem manualEval_answer {L : Learner P (List Cell)} {m : Method} {f : FittedModel P (List Cell)} {x : List Cell} {v : ℝ}
    (h : manualEval L m f x = .ok v) : L.answer m f.params f.data x = some v := by
  cases m with
  | predict => exact congrArg some (Except.ok.inj h)
  | proba =>
    change manualColumn (L.proba f.params f.data x) = .ok v at h
    show (L.proba f.params f.data x)[1]? = some v
    unfold manualColumn at h
    cases hc : (L.proba f.params f.data x)[1]? with
    | none => rw [hc] at h; cases h
    | some w => rw [hc] at h; rw [Except.ok.inj h]

/-- Models and predictions of one call of `_dml_cv_predict`. -/
theorem cvPredict_models {L : Learner P (List Cell)} {x : Fin n → List Cell} {y : Fin n → ℝ} {S : List (Fold n)} {ps : Params P}
    {m : Method} {rt : Bool} {r : CvRes n P (List Cell)} (hS : isPartition S = true)
    (h : cvPredict L ⟨x, .plain y, S, ps, m, rt, true⟩ = .ok r) :
    ∃ ms : List (FittedModel P (List Cell)), r.models = some ms ∧ ms.length = S.length ∧
      (∀ q (hq : q < ms.length), ms[q].params = ps.at q) ∧
      (∀ q (hq : q < S.length) (hq' : q < ms.length), ms[q].data = trainData x (fitTarget m y) S[q].train) ∧
      ∀ q (hq : q < S.length) (hq' : q < ms.length), ∀ i ∈ S[q].test,
        ∃ v, L.answer m ms[q].params ms[q].data (x i) = some v ∧ r.preds i = some v := by
  rw [cvPredict_manual (by simp)] at h
  obtain ⟨data, pl, preds, hd, hps, hpr, h1, -, hmod, -⟩ := manualPredict_unfold h
  obtain ⟨hpl, hpv⟩ := foldParams_ok hps
  have hd := foldData_plain_ok hd
  dsimp only at hd hpl hmod
  have hdl : data.length = S.length := by rw [hd, List.length_map]
  rw [if_pos rfl] at hmod
  refine ⟨_, hmod, by simp [hdl, hpl], fun q hq => ?_, fun q hq hq' => ?_, fun q hq hq' i hi => ?_⟩
  · simp only [List.getElem_map, List.getElem_zip]
    exact hpv q _
  · simp only [List.getElem_map, List.getElem_zip]
    simp only [hd, List.getElem_map]
  · obtain ⟨v, hv, hv'⟩ := manual_value (a := ⟨x, .plain y, S, ps, m, rt, true⟩) hS hdl hpl hpr q hq i hi
    refine ⟨v, ?_, by rw [h1]; exact hv'⟩
    have := manualEval_answer hv
    simp only [List.getElem_map, List.getElem_zip]
    exact this

theorem MadeBy.trim {c : CellIn n P} {l : String} {L : Learner P (List Cell)} {m : Method} {on : Fin n → Prop} [DecidablePred on]
    {x : Fin n → List Cell} {y : Fin n → ℝ} {r : CvRes n P (List Cell)} {ms : List (FittedModel P (List Cell))} (t : ℝ)
    (h : MadeBy c l L m on x y id r.preds ms) : MadeBy c l L m on x y (trim t) (trimRes t r).preds ms := by
  refine ⟨h.length, h.params, h.data, fun q hq hq' i hi => ?_⟩
  obtain ⟨v, h1, h2⟩ := h.answers q hq hq' i hi
  refine ⟨v, h1, ?_⟩
  show (r.preds i).map (DML.trim t) = _
  rw [h2]
  rfl

section parts

variable {c : CellIn n P} (hS : SplitOk c.smpls) (hw : c.wantModels = true)

include hS hw

theorem crossFit_made {L : Learner P (List Cell)} {m : Method} {l : String} {x : Fin n → List Cell}
    {y : Fin n → ℝ} {on : Fin n → Prop} [DecidablePred on] {r : CvRes n P (List Cell)}
    (h : crossFit L m c l x y (condSmpls on c.smpls) = .ok r) :
    ∃ ms, r.models = some ms ∧ MadeBy c l L m on x y id r.preds ms := by
  unfold crossFit at h
  rw [hw] at h
  obtain ⟨ms, h1, h2, h3, h4, h5⟩ := cvPredict_models (by rw [isPartition_cond]; exact hS.partition) h
  have hl : (condSmpls on c.smpls).length = c.smpls.length := by simp [condSmpls]
  have he : ∀ q (hq : q < c.smpls.length), (condSmpls on c.smpls)[q]'(by rw [hl]; exact hq) =
      ⟨c.smpls[q].train.filter fun j => decide (on j), c.smpls[q].test⟩ := by
    intro q hq
    have := C27_training_sets_sorted on c.smpls[q] (hS.sorted _ (List.getElem_mem hq))
    simp only [condSmpls, List.getElem_map, this]
  refine ⟨ms, h1, h2.trans hl, h3, fun hb q hq hq' => ?_, fun q hq hq' i hi => ?_⟩
  · rw [h4 q (by rw [hl]; exact hq) hq', he q hq]
    unfold trainData
    cases m with
    | predict => rfl
    | proba =>
      show List.map (fun i => (x i, encode y i)) _ = _
      rw [(hb rfl).encode]
  · exact h5 q (by rw [hl]; exact hq) hq' i (by rw [he q hq]; exact hi)

theorem crossFit_made_all {L : Learner P (List Cell)} {m : Method} {l : String} {x : Fin n → List Cell}
    {y : Fin n → ℝ} {r : CvRes n P (List Cell)} (h : crossFit L m c l x y c.smpls = .ok r) :
    ∃ ms, r.models = some ms ∧ MadeBy c l L m (fun _ => True) x y id r.preds ms := by
  unfold crossFit at h
  rw [hw] at h
  obtain ⟨ms, h1, h2, h3, h4, h5⟩ := cvPredict_models hS.partition h
  refine ⟨ms, h1, h2, h3, fun hb q hq hq' => ?_, h5⟩
  rw [h4 q hq hq']
  unfold trainData
  simp only [decide_true, List.filter_true]
  cases m with
  | predict => rfl
  | proba =>
    show List.map (fun i => (x i, encode y i)) _ = _
    rw [(hb rfl).encode]

theorem condLearn_made {L : Learner P (List Cell)} {m : Method} {l : String} {x : Fin n → List Cell}
    {y : Fin n → ℝ} {on keep : Fin n → Prop} [DecidablePred on] [DecidablePred keep] {r : CvRes n P (List Cell)}
    (h : condLearn L m c l x y on keep = .ok r) : ∃ ms, r.models = some ms ∧ MadeBy c l L m on x y id r.preds ms := by
  obtain ⟨r', h1, rfl⟩ := condLearn_ok h
  have := crossFit_made hS hw h1
  exact this

theorem propM_made {L : Learner P (List Cell)} {y : Fin n → ℝ} {r : CvRes n P (List Cell)} (he : c.extOf "ml_m" = none)
    (h : propM L c y = .ok r) (t : ℝ) :
    ∃ ms, (trimRes t r).models = some ms ∧
      MadeBy c "ml_m" L .proba (fun _ => True) (rowX c.data) y (trim t) (trimRes t r).preds ms := by
  unfold propM at h
  rw [he] at h
  obtain ⟨ms, h1, h2⟩ := crossFit_made_all hS hw (learn_ok h)
  exact ⟨ms, h1, h2.trim t⟩

theorem plivPart_made {L : Learner P (List Cell)} {l : String} {y : Fin n → ℝ} {r : CvRes n P (List Cell)} (he : c.extOf l = none)
    (h : plivPart L c l y = .ok r) :
    ∃ ms, r.models = some ms ∧ MadeBy c l L .predict (fun _ => True) (rowX c.data) y id r.preds ms := by
  unfold plivPart at h
  rw [he] at h
  exact crossFit_made_all hS hw (learn_ok h)

end parts

/-- From the result of a part to the stored entries. -/
theorem modelsOf_part {c : CellIn n P} {o : LinOut n P} {l : String} {L : Learner P (List Cell)} {m : Method}
    {on : Fin n → Prop} [DecidablePred on] {x : Fin n → List Cell} {y : Fin n → ℝ} {post : ℝ → ℝ} {r : CvRes n P (List Cell)}
    (hp : lookupKey l o.preds = some r.preds) (hm : lookupKey l o.models = some r.models)
    (h1 : c.extOf l = none → ∃ ms, r.models = some ms ∧ MadeBy c l L m on x y post r.preds ms)
    (h2 : ∀ e, c.extOf l = some e → r.models = none) : ModelsOf c o l L m on x y post := by
  refine ⟨fun he => ?_, fun he => ?_⟩
  · obtain ⟨ms, h3, h4⟩ := h1 he
    exact ⟨r.preds, ms, hp, by rw [hm, h3], h4⟩
  · obtain ⟨e, he⟩ := Option.ne_none_iff_exists'.1 he
    rw [hm, h2 e he]

theorem propM_given {L : Learner P (List Cell)} {c : CellIn n P} {y : Fin n → ℝ} {r : CvRes n P (List Cell)} (t : ℝ)
    (h : propM L c y = .ok r) {e : Fin n → ℝ} (he : c.extOf "ml_m" = some e) : (trimRes t r).models = none := by
  unfold propM at h
  rw [he] at h
  obtain rfl := Except.ok.inj h
  rfl

theorem plivPart_given {L : Learner P (List Cell)} {c : CellIn n P} {l : String} {y : Fin n → ℝ} {r : CvRes n P (List Cell)}
    (h : plivPart L c l y = .ok r) {e : Fin n → ℝ} (he : c.extOf l = some e) : r.models = none := by
  unfold plivPart at h
  rw [he] at h
  obtain rfl := Except.ok.inj h
  rfl

/-! ## The theorems: one cell -/

section classes

variable {c : CellIn n P} {o : LinOut n P} (hS : SplitOk c.smpls) (hw : c.wantModels = true)

include hS hw

/-- **C81, IRM.** -/
theorem C81_irm {k : IrmClass n P} (h : (irmSpec k).est c = .ok o) :
    ModelsOf c o "ml_g0" k.ml_g (methodOf k.gClassifier) (fun i => c.d i = 0) (rowX c.data) c.y id ∧
    ModelsOf c o "ml_g1" k.ml_g (methodOf k.gClassifier) (fun i => c.d i = 1) (rowX c.data) c.y id ∧
    ModelsOf c o "ml_m" k.ml_m .proba (fun _ => True) (rowX c.data) c.d (trim k.trimT) := by
  obtain ⟨g0, h0, h⟩ := bind_ok h
  obtain ⟨g1, h1, h⟩ := bind_ok h
  obtain ⟨_, -, h⟩ := bind_ok h
  obtain ⟨m, h3, h⟩ := bind_ok h
  obtain ⟨w, -, h⟩ := bind_ok h
  obtain rfl := Except.ok.inj h
  refine ⟨modelsOf_part rfl rfl (fun he => ?_) fun e he => ?_, modelsOf_part rfl rfl (fun he => ?_) fun e he => ?_,
    modelsOf_part (r := trimRes k.trimT m) rfl rfl (fun he => propM_made hS hw he h3 _) fun e he => propM_given _ h3 he⟩
  · unfold irmG0 at h0
    rw [he] at h0
    obtain ⟨r, hr, h0⟩ := bind_ok h0
    obtain ⟨_, -, h0⟩ := bind_ok h0
    obtain rfl := Except.ok.inj h0
    exact condLearn_made hS hw hr
  · unfold irmG0 at h0
    rw [he] at h0
    obtain rfl := Except.ok.inj h0
    rfl
  · unfold irmG1 at h1
    rw [he] at h1
    exact condLearn_made hS hw h1
  · unfold irmG1 at h1
    rw [he] at h1
    obtain rfl := Except.ok.inj h1
    rfl

/-- **C81, APO.** -/
theorem C81_apo {k : ApoClass n P} (h : (apoSpec k).est c = .ok o) :
    ModelsOf c o "ml_g_d_lvl0" k.ml_g (methodOf k.gClassifier) (fun i => k.treated c i = 0) c.dx c.y id ∧
    ModelsOf c o "ml_g_d_lvl1" k.ml_g (methodOf k.gClassifier) (fun i => k.treated c i = 1) (rowX c.data) c.y id ∧
    ModelsOf c o "ml_m" k.ml_m .proba (fun _ => True) (rowX c.data) (k.treated c) (trim k.trimT) := by
  obtain ⟨g1, h1, h⟩ := bind_ok h
  obtain ⟨_, -, h⟩ := bind_ok h
  obtain ⟨g0, h0, h⟩ := bind_ok h
  obtain ⟨_, -, h⟩ := bind_ok h
  obtain ⟨m, h3, h⟩ := bind_ok h
  obtain ⟨w, -, h⟩ := bind_ok h
  obtain rfl := Except.ok.inj h
  refine ⟨modelsOf_part rfl rfl (fun he => ?_) fun e he => ?_, modelsOf_part rfl rfl (fun he => ?_) fun e he => ?_,
    modelsOf_part (r := trimRes k.trimT m) rfl rfl (fun he => ?_) fun e he => ?_⟩
  · unfold apoG0 at h0
    rw [he] at h0
    exact condLearn_made hS hw h0
  · unfold apoG0 at h0
    rw [he] at h0
    obtain rfl := Except.ok.inj h0
    rfl
  · unfold apoG1 at h1
    rw [he] at h1
    exact condLearn_made hS hw h1
  · unfold apoG1 at h1
    rw [he] at h1
    obtain rfl := Except.ok.inj h1
    rfl
  · unfold apoM at h3
    rw [he] at h3
    obtain ⟨ms, h4, h5⟩ := crossFit_made_all hS hw (learn_ok h3)
    exact ⟨ms, h4, h5.trim _⟩
  · unfold apoM at h3
    rw [he] at h3
    obtain rfl := Except.ok.inj h3
    rfl

/-- **C81, IIVM.** There are no models for the treatment probabilities of an excluded subgroup. -/
theorem C81_iivm {k : IivmClass n P} (h : (iivmSpec k).est c = .ok o) : ∃ z, c.instr = .ok z ∧
    ModelsOf c o "ml_g0" k.ml_g (methodOf k.gClassifier) (fun i => z i = 0) (rowX c.data) c.y id ∧
    ModelsOf c o "ml_g1" k.ml_g (methodOf k.gClassifier) (fun i => z i = 1) (rowX c.data) c.y id ∧
    ModelsOf c o "ml_m" k.ml_m .proba (fun _ => True) (rowX c.data) z (trim k.trimT) ∧
    (if k.alwaysTakers then ModelsOf c o "ml_r0" k.ml_r .proba (fun i => z i = 0) (rowX c.data) c.d id
      else lookupKey "ml_r0" o.models = some none) ∧
    (if k.neverTakers then ModelsOf c o "ml_r1" k.ml_r .proba (fun i => z i = 1) (rowX c.data) c.d id
      else lookupKey "ml_r1" o.models = some none) := by
  obtain ⟨z, hz, h⟩ := bind_ok h
  obtain ⟨g0, h0, h⟩ := bind_ok h
  obtain ⟨_, -, h⟩ := bind_ok h
  obtain ⟨g1, h1, h⟩ := bind_ok h
  obtain ⟨_, -, h⟩ := bind_ok h
  obtain ⟨m, h3, h⟩ := bind_ok h
  obtain ⟨r0, h4, h⟩ := bind_ok h
  obtain ⟨r1, h5, h⟩ := bind_ok h
  obtain rfl := Except.ok.inj h
  have hG : ∀ {l v g}, iivmG k c z l v = .ok g → c.extOf l = none → ∃ ms, g.models = some ms ∧
      MadeBy c l k.ml_g (methodOf k.gClassifier) (fun i => z i = v) (rowX c.data) c.y id g.preds ms := by
    intro l v g hg he
    unfold iivmG at hg
    rw [he] at hg
    exact condLearn_made hS hw hg
  have hG' : ∀ {l v g}, iivmG k c z l v = .ok g → ∀ e, c.extOf l = some e → g.models = none := by
    intro l v g hg e he
    unfold iivmG at hg
    rw [he] at hg
    obtain rfl := Except.ok.inj hg
    rfl
  have hR : ∀ {l v g}, iivmR k c z l v true = .ok g → c.extOf l = none → ∃ ms, g.models = some ms ∧
      MadeBy c l k.ml_r .proba (fun i => z i = v) (rowX c.data) c.d id g.preds ms := by
    intro l v g hg he
    obtain ⟨r, hr, hg⟩ := bind_ok hg
    unfold iivmRRaw at hr
    unfold iivmRTail at hg
    rw [if_pos rfl, he] at hr
    rw [he] at hg
    obtain ⟨_, _, hg⟩ := bind_ok hg
    rw [← Except.ok.inj hg]
    have := crossFit_made hS hw hr
    exact this
  have hR' : ∀ {l v g}, iivmR k c z l v true = .ok g → ∀ e, c.extOf l = some e → g.models = none := by
    intro l v g hg e he
    obtain ⟨r, hr, hg⟩ := bind_ok hg
    unfold iivmRRaw at hr
    unfold iivmRTail at hg
    rw [if_pos rfl, he] at hr
    rw [he] at hg
    obtain rfl := Except.ok.inj hr
    obtain rfl := Except.ok.inj hg
    rfl
  have hN : ∀ {l v g}, iivmR k c z l v false = .ok g → g.models = none := by
    intro l v g hg
    obtain ⟨r, hr, hg⟩ := bind_ok hg
    unfold iivmRRaw at hr
    rw [if_neg Bool.false_ne_true] at hr
    obtain rfl := Except.ok.inj hr
    unfold iivmRTail at hg
    cases he : c.extOf l with
    | some e => rw [he] at hg; obtain rfl := Except.ok.inj hg; rfl
    | none =>
      rw [he] at hg
      obtain ⟨_, _, hg⟩ := bind_ok hg
      rw [← Except.ok.inj hg]
      rfl
  refine ⟨z, hz, modelsOf_part rfl rfl (hG h0) (hG' h0), modelsOf_part rfl rfl (hG h1) (hG' h1),
    modelsOf_part (r := trimRes k.trimT m) rfl rfl (fun he => propM_made hS hw he h3 _) fun e he => propM_given _ h3 he, ?_, ?_⟩
  · cases ha : k.alwaysTakers with
    | true => rw [ha] at h4; rw [if_pos rfl]; exact modelsOf_part rfl rfl (hR h4) (hR' h4)
    | false =>
      rw [ha] at h4
      rw [if_neg Bool.false_ne_true]
      show some r0.models = _
      rw [hN h4]
  · cases ha : k.neverTakers with
    | true => rw [ha] at h5; rw [if_pos rfl]; exact modelsOf_part rfl rfl (hR h5) (hR' h5)
    | false =>
      rw [ha] at h5
      rw [if_neg Bool.false_ne_true]
      show some r1.models = _
      rw [hN h5]

theorem didM_made {k : DidClass n P} {m : CvRes n P (List Cell)} (h : didM k c = .ok m)
    (hp : lookupKey "ml_m" o.preds = some m.preds) (hm : lookupKey "ml_m" o.models = some m.models) :
    (k.score = .observational → ModelsOf c o "ml_m" k.ml_m .proba (fun _ => True) (rowX c.data) c.d (trim k.trimT)) ∧
    (k.score = .experimental → lookupKey "ml_m" o.models = some none) := by
  unfold didM at h
  refine ⟨fun hs => ?_, fun hs => ?_⟩
  · rw [hs] at h
    obtain ⟨r, hr, h⟩ := bind_ok h
    obtain rfl := Except.ok.inj h
    exact modelsOf_part hp hm (fun he => propM_made hS hw he hr _) fun e he => propM_given _ hr he
  · rw [hs] at h
    obtain rfl := Except.ok.inj h
    exact hm

/-- **C81, DID.** -/
theorem C81_did {k : DidClass n P} (h : (didSpec k).est c = .ok o) :
    ModelsOf c o "ml_g0" k.ml_g (methodOf k.gClassifier) (fun i => c.d i = 0) (rowX c.data) c.y id ∧
    ModelsOf c o "ml_g1" k.ml_g (methodOf k.gClassifier) (fun i => c.d i = 1) (rowX c.data) c.y id ∧
    (k.score = .observational → ModelsOf c o "ml_m" k.ml_m .proba (fun _ => True) (rowX c.data) c.d (trim k.trimT)) ∧
    (k.score = .experimental → lookupKey "ml_m" o.models = some none) := by
  obtain ⟨g0, h0, h⟩ := bind_ok h
  obtain ⟨g1, h1, h⟩ := bind_ok h
  obtain ⟨m, h2, h⟩ := bind_ok h
  obtain rfl := Except.ok.inj h
  have hG : ∀ {l v g}, didG k c l v = .ok g → c.extOf l = none → ∃ ms, g.models = some ms ∧
      MadeBy c l k.ml_g (methodOf k.gClassifier) (fun i => c.d i = v) (rowX c.data) c.y id g.preds ms := by
    intro l v g hg he
    unfold didG at hg
    rw [he] at hg
    exact condLearn_made hS hw hg
  have hG' : ∀ {l v g}, didG k c l v = .ok g → ∀ e, c.extOf l = some e → g.models = none := by
    intro l v g hg e he
    unfold didG at hg
    rw [he] at hg
    obtain rfl := Except.ok.inj hg
    rfl
  exact ⟨modelsOf_part rfl rfl (hG h0) (hG' h0), modelsOf_part rfl rfl (hG h1) (hG' h1), didM_made hS hw h2 rfl rfl⟩

/-- **C81, DIDCS.** -/
theorem C81_didcs {k : DidClass n P} (h : (csSpec k).est c = .ok o) : ∃ t, c.time = .ok t ∧
    ModelsOf c o "ml_g_d0_t0" k.ml_g (methodOf k.gClassifier) (fun i => c.d i = 0 ∧ t i = 0) (rowX c.data) c.y id ∧
    ModelsOf c o "ml_g_d0_t1" k.ml_g (methodOf k.gClassifier) (fun i => c.d i = 0 ∧ t i = 1) (rowX c.data) c.y id ∧
    ModelsOf c o "ml_g_d1_t0" k.ml_g (methodOf k.gClassifier) (fun i => c.d i = 1 ∧ t i = 0) (rowX c.data) c.y id ∧
    ModelsOf c o "ml_g_d1_t1" k.ml_g (methodOf k.gClassifier) (fun i => c.d i = 1 ∧ t i = 1) (rowX c.data) c.y id ∧
    (k.score = .observational → ModelsOf c o "ml_m" k.ml_m .proba (fun _ => True) (rowX c.data) c.d (trim k.trimT)) ∧
    (k.score = .experimental → lookupKey "ml_m" o.models = some none) := by
  obtain ⟨t, ht, h⟩ := bind_ok h
  obtain ⟨g00, h0, h⟩ := bind_ok h
  obtain ⟨g01, h1, h⟩ := bind_ok h
  obtain ⟨g10, h2, h⟩ := bind_ok h
  obtain ⟨g11, h3, h⟩ := bind_ok h
  obtain ⟨m, h4, h⟩ := bind_ok h
  obtain rfl := Except.ok.inj h
  have hG : ∀ {l v w g}, csG k c t l v w = .ok g → c.extOf l = none → ∃ ms, g.models = some ms ∧
      MadeBy c l k.ml_g (methodOf k.gClassifier) (fun i => c.d i = v ∧ t i = w) (rowX c.data) c.y id g.preds ms := by
    intro l v w g hg he
    unfold csG at hg
    rw [he] at hg
    obtain ⟨r, hr, hg⟩ := bind_ok hg
    rw [← Except.ok.inj hg]
    have := crossFit_made hS hw hr
    exact this
  have hG' : ∀ {l v w g}, csG k c t l v w = .ok g → ∀ e, c.extOf l = some e → g.models = none := by
    intro l v w g hg e he
    unfold csG at hg
    rw [he] at hg
    obtain rfl := Except.ok.inj hg
    rfl
  exact ⟨t, ht, modelsOf_part rfl rfl (hG h0) (hG' h0), modelsOf_part rfl rfl (hG h1) (hG' h1),
    modelsOf_part rfl rfl (hG h2) (hG' h2), modelsOf_part rfl rfl (hG h3) (hG' h3), didM_made hS hw h4 rfl rfl⟩

/-- **C81, PLR.** With the IV-type score, `ml_g` learns `y - θ d` for the preliminary estimate `θ` from the other
predictions.  If only `ml_g` is supplied, `ml_l` is not estimated and has no models. -/
theorem C81_plr {k : PlrClass n P} (h : (plrSpec k).est c = .ok o) :
    ((k.iv = true → c.extOf "ml_g" = none) → ModelsOf c o "ml_l" k.ml_l .predict (fun _ => True) (rowX c.data) c.y id) ∧
    (k.iv = true → c.extOf "ml_g" ≠ none → lookupKey "ml_l" o.models = some none) ∧
    ModelsOf c o "ml_m" k.ml_m (if k.mClassifier then .proba else .predict) (fun _ => True) (rowX c.data) c.d id ∧
    (k.iv = true → ∃ pl pm, lookupKey "ml_l" o.preds = some pl ∧ lookupKey "ml_m" o.preds = some pm ∧
      ModelsOf c o "ml_g" k.ml_g .predict (fun _ => True) (rowX c.data)
        (fun i => c.y i - plrInitial c.y c.d (fun j => (pl j).getD 0) (fun j => (pm j).getD 0) * c.d i) id) ∧
    (k.iv = false → lookupKey "ml_g" o.models = some none) := by
  obtain ⟨l, h1, h⟩ := bind_ok h
  obtain ⟨m, h2, h⟩ := bind_ok h
  obtain ⟨g, h3, h⟩ := bind_ok h
  obtain rfl := Except.ok.inj h
  refine ⟨fun hg => ?_, fun hiv hg => ?_, ?_, fun hiv => ⟨_, _, rfl, rfl, ?_⟩, fun hiv => ?_⟩
  · have hb : (k.iv && (c.extOf "ml_g").isSome) = false := by
      cases hv : k.iv with
      | false => rfl
      | true => rw [hg hv]; rfl
    unfold plrL at h1
    refine modelsOf_part rfl rfl (fun he => ?_) fun e he => ?_
    · rw [he] at h1
      dsimp only at h1
      rw [if_neg (by rw [hb]; exact Bool.false_ne_true)] at h1
      exact crossFit_made_all hS hw (learn_ok h1)
    · rw [he] at h1
      obtain rfl := Except.ok.inj h1
      rfl
  · show some l.models = _
    unfold plrL at h1
    cases he : c.extOf "ml_l" with
    | some e => rw [he] at h1; obtain rfl := Except.ok.inj h1; rfl
    | none =>
      rw [he] at h1
      dsimp only at h1
      rw [if_pos (by rw [hiv, Option.isSome_iff_ne_none.2 hg]; rfl)] at h1
      obtain rfl := Except.ok.inj h1
      rfl
  · unfold plrM at h2
    refine modelsOf_part rfl rfl (fun he => ?_) fun e he => ?_
    · rw [he] at h2
      obtain ⟨r, hr, h2⟩ := bind_ok h2
      obtain ⟨_, -, h2⟩ := bind_ok h2
      obtain rfl := Except.ok.inj h2
      exact crossFit_made_all hS hw (learn_ok hr)
    · rw [he] at h2
      obtain ⟨r, hr, h2⟩ := bind_ok h2
      obtain rfl := Except.ok.inj hr
      obtain ⟨_, -, h2⟩ := bind_ok h2
      obtain rfl := Except.ok.inj h2
      rfl
  · unfold plrG at h3
    rw [if_pos hiv] at h3
    refine modelsOf_part rfl rfl (fun he => ?_) fun e he => ?_
    · rw [he] at h3
      exact crossFit_made_all hS hw (learn_ok h3)
    · rw [he] at h3
      obtain rfl := Except.ok.inj h3
      rfl
  · unfold plrG at h3
    rw [if_neg (by rw [hiv]; exact Bool.false_ne_true)] at h3
    obtain rfl := Except.ok.inj h3
    rfl

/-- **C81, PLIV** with one instrument. -/
theorem C81_pliv {k : PlivClass n P} (h : (plivSpec k).est c = .ok o) : ∃ z, c.instr = .ok z ∧
    ModelsOf c o "ml_l" k.ml_l .predict (fun _ => True) (rowX c.data) c.y id ∧
    ModelsOf c o "ml_m" k.ml_m .predict (fun _ => True) (rowX c.data) z id ∧
    ModelsOf c o "ml_r" k.ml_r .predict (fun _ => True) (rowX c.data) c.d id ∧
    (k.iv = true → ∃ pl pm pr, lookupKey "ml_l" o.preds = some pl ∧ lookupKey "ml_m" o.preds = some pm ∧
      lookupKey "ml_r" o.preds = some pr ∧ ModelsOf c o "ml_g" k.ml_g .predict (fun _ => True) (rowX c.data)
        (fun i => c.y i - (plivPo c.y z c.d (fun j => (pl j).getD 0) (fun j => (pm j).getD 0)
          (fun j => (pr j).getD 0)).coef none * c.d i) id) ∧
    (k.iv = false → lookupKey "ml_g" o.models = some none) := by
  obtain ⟨l, h1, h⟩ := bind_ok h
  obtain ⟨z, hz, h⟩ := bind_ok h
  obtain ⟨m, h2, h⟩ := bind_ok h
  obtain ⟨r, h3, h⟩ := bind_ok h
  obtain ⟨g, h4, h⟩ := bind_ok h
  obtain rfl := Except.ok.inj h
  refine ⟨z, hz, modelsOf_part rfl rfl (fun he => plivPart_made hS hw he h1) fun e he => plivPart_given h1 he,
    modelsOf_part rfl rfl (fun he => plivPart_made hS hw he h2) fun e he => plivPart_given h2 he,
    modelsOf_part rfl rfl (fun he => plivPart_made hS hw he h3) fun e he => plivPart_given h3 he,
    fun hiv => ⟨_, _, _, rfl, rfl, rfl, ?_⟩, fun hiv => ?_⟩
  · unfold plivG at h4
    rw [if_pos hiv] at h4
    exact modelsOf_part rfl rfl (fun he => plivPart_made hS hw he h4) fun e he => plivPart_given h4 he
  · unfold plivG at h4
    rw [if_neg (by rw [hiv]; exact Bool.false_ne_true)] at h4
    obtain rfl := Except.ok.inj h4
    rfl

/-- **C81, PLIV** with several instruments. -/
theorem C81_pliv_multi {k : PlivClass n P} {zs : List String} (hz : (c.data.z.getD []).Nodup)
    (h : (plivMultiSpec k zs).est c = .ok o) :
    ModelsOf c o "ml_l" k.ml_l .predict (fun _ => True) (rowX c.data) c.y id ∧
    (∀ zc ∈ c.data.instrs, ModelsOf c o (plivName zc.1) k.ml_m .predict (fun _ => True) (rowX c.data)
      (fun i => (zc.2 i).val) id) ∧
    ModelsOf c o "ml_r" k.ml_r .predict (fun _ => True) (rowX c.data) c.d id := by
  obtain ⟨l, h1, h⟩ := bind_ok h
  obtain ⟨ms, h2, h⟩ := bind_ok h
  obtain ⟨r, h3, h⟩ := bind_ok h
  obtain rfl := Except.ok.inj h
  have nd : ∀ {α : Type} (f : CvRes n P (List Cell) → α),
      (([("ml_l", f l)] ++ (ms.map fun q => (q.1, f q.2)) ++ [("ml_r", f r)]).map Prod.fst).Nodup := by
    intro α f
    obtain ⟨hk, -⟩ := mapM_keys f h2
    rw [List.map_append, List.map_append, hk]
    have hi := DataState.instrs_nodup hz
    refine List.nodup_append'.2 ⟨List.nodup_append'.2 ⟨by simp, hi, ?_⟩, by simp, ?_⟩
    · intro x hx hy
      obtain ⟨q, -, rfl⟩ := List.mem_map.1 hy
      exact (plivName_ne q.1).1 (by simpa using hx)
    · intro x hx hy
      obtain rfl : x = "ml_r" := by simpa using hy
      rcases List.mem_append.1 hx with hx | hx
      · simp at hx
      · obtain ⟨q, -, hq⟩ := List.mem_map.1 hx
        exact (plivName_ne q.1).2 hq
  obtain ⟨-, hm⟩ := mapM_keys CvRes.preds h2
  refine ⟨modelsOf_part (lookupKey_eq_of_nodup (nd CvRes.preds) (by simp)) (lookupKey_eq_of_nodup (nd CvRes.models) (by simp))
      (fun he => plivPart_made hS hw he h1) fun e he => plivPart_given h1 he, fun zc hzc => ?_,
    modelsOf_part (lookupKey_eq_of_nodup (nd CvRes.preds) (by simp)) (lookupKey_eq_of_nodup (nd CvRes.models) (by simp))
      (fun he => plivPart_made hS hw he h3) fun e he => plivPart_given h3 he⟩
  obtain ⟨q, hq1, hq2⟩ := hm zc hzc
  exact modelsOf_part
    (lookupKey_eq_of_nodup (nd CvRes.preds) (List.mem_append_left _ (List.mem_append_right _ (List.mem_map.2 ⟨_, hq1, rfl⟩))))
    (lookupKey_eq_of_nodup (nd CvRes.models) (List.mem_append_left _ (List.mem_append_right _ (List.mem_map.2 ⟨_, hq1, rfl⟩))))
    (fun he => plivPart_made hS hw he hq2) fun e he => plivPart_given hq2 he

/-- **C81, SSM** (missing at random). -/
theorem C81_ssm {k : SsmClass n P} (h : (ssmSpec k).est c = .ok o) : ∃ s, c.sel = .ok s ∧
    ModelsFor c o "ml_g_d0" k.ml_g (methodOf k.gClassifier) (fun i => c.d i = 0 ∧ s i = 1) (rowX c.data) c.y id ∧
    ModelsFor c o "ml_g_d1" k.ml_g (methodOf k.gClassifier) (fun i => c.d i = 1 ∧ s i = 1) (rowX c.data) c.y id ∧
    ModelsFor c o "ml_pi" k.ml_pi .proba (fun _ => True) c.xd s id ∧
    ModelsFor c o "ml_m" k.ml_m .proba (fun _ => True) (rowX c.data) c.d (trim k.trimT) := by
  obtain ⟨s, hs, h⟩ := bind_ok h
  obtain ⟨pi, h1, h⟩ := bind_ok h
  obtain ⟨m, h2, h⟩ := bind_ok h
  obtain ⟨g1, h3, h⟩ := bind_ok h
  obtain ⟨g0, h4, h⟩ := bind_ok h
  obtain ⟨_, -, h⟩ := bind_ok h
  obtain rfl := Except.ok.inj h
  obtain ⟨ms1, e1, f1⟩ := crossFit_made_all hS hw (ssmPart_ok h1)
  obtain ⟨ms2, e2, f2⟩ := crossFit_made_all hS hw (ssmPart_ok h2)
  obtain ⟨ms3, e3, f3⟩ := crossFit_made hS hw (ssmPart_ok h3)
  obtain ⟨ms4, e4, f4⟩ := crossFit_made hS hw (ssmPart_ok h4)
  exact ⟨s, hs, ⟨_, ms4, rfl, congrArg some e4, f4⟩, ⟨_, ms3, rfl, congrArg some e3, f3⟩,
    ⟨_, ms1, rfl, congrArg some e1, f1⟩, ⟨_, ms2, rfl, congrArg some e2, f2.trim _⟩⟩

/-- **C81, PLIV partialling out the instruments.** -/
theorem C81_pliv_z {k : PlivClass n P} (h : (plivZSpec k).est c = .ok o) :
    ModelsFor c o "ml_r" k.ml_r .predict (fun _ => True) c.xz c.d id := by
  obtain ⟨r, h1, h⟩ := bind_ok h
  obtain rfl := Except.ok.inj h
  obtain ⟨ms1, e1, f1⟩ := crossFit_made_all hS hw (ssmPart_ok h1)
  exact ⟨_, ms1, rfl, congrArg some e1, f1⟩

omit hw in
theorem cvPredict_perFold_models {L : Learner P (List Cell)} {x : Fin n → List Cell} {ts : List (List ℝ)} {ps : Params P}
    {r : CvRes n P (List Cell)} (h : cvPredict L ⟨x, .perFold ts, c.smpls, ps, .predict, false, true⟩ = .ok r) :
    ∃ ms : List (FittedModel P (List Cell)), r.models = some ms ∧ ms.length = c.smpls.length ∧
      (∀ q (hq : q < ms.length), ms[q].params = ps.at q) ∧
      (∀ q (hq : q < c.smpls.length) (hq' : q < ms.length),
        ms[q].data = (c.smpls[q].train.map x).zip ((ts[q]?).getD [])) ∧
      ∀ q (hq : q < c.smpls.length) (hq' : q < ms.length), ∀ i ∈ c.smpls[q].test,
        r.preds i = some (L.predict ms[q].params ms[q].data (x i)) := by
  rw [cvPredict_manual (by simp)] at h
  obtain ⟨data, pl, preds, hd, hps, hpr, h1, -, hmod, -⟩ := manualPredict_unfold h
  obtain ⟨hpl, hpv⟩ := foldParams_ok hps
  obtain ⟨hdl, hdv⟩ := foldData_ok hd fun f hf => (hS.sorted f hf).imp fun h => ne_of_lt h
  dsimp only at hpl hdl hdv hmod
  rw [if_pos rfl] at hmod
  refine ⟨_, hmod, by simp [hdl, hpl], fun q hq => ?_, fun q hq hq' => ?_, fun q hq hq' i hi => ?_⟩
  · simp only [List.getElem_map, List.getElem_zip]
    exact hpv q _
  · simp only [List.getElem_map, List.getElem_zip]
    exact hdv q hq _
  · obtain ⟨v, hv, hv'⟩ := manual_value (a := ⟨x, .perFold ts, c.smpls, ps, .predict, false, true⟩) hS.partition hdl hpl hpr q hq i hi
    simp only [List.getElem_map, List.getElem_zip]
    rw [h1, hv', ← Except.ok.inj hv]

omit hS hw in
/-- Training predictions are those of the models. -/
theorem cvPredict_train_models {L : Learner P (List Cell)} {x : Fin n → List Cell} {y : Fin n → ℝ} {ps : Params P}
    {r : CvRes n P (List Cell)} (h : cvPredict L ⟨x, .plain y, c.smpls, ps, .predict, true, true⟩ = .ok r)
    {ms : List (FittedModel P (List Cell))} (hm : r.models = some ms) (hl : ms.length = c.smpls.length) :
    ∀ q (hq : q < c.smpls.length) (hq' : q < ms.length), ((r.trainPreds.getD [])[q]?).getD [] =
      c.smpls[q].train.map fun j => L.predict ms[q].params ms[q].data (x j) := by
  rw [cvPredict_manual (by simp)] at h
  obtain ⟨data, pl, preds, -, -, -, -, -, hmod, htr⟩ := manualPredict_unfold h
  rw [if_pos rfl] at hmod
  rw [if_pos rfl] at htr
  dsimp only at htr hmod
  obtain rfl := Option.some.inj (hm.symm.trans hmod)
  intro q hq hq'
  rw [htr, Option.getD_some, List.getElem?_map, List.getElem?_eq_getElem (by rw [List.length_zip, hl, min_self]; exact hq)]
  simp

/-- **C81, PLIV partialling out covariates and instruments.** The second stage `ml_r` learns, fold by fold, the predictions of
that fold's `ml_m` for the training observations. -/
theorem C81_pliv_xz {k : PlivClass n P} (h : (plivXZSpec k).est c = .ok o) :
    ModelsFor c o "ml_l" k.ml_l .predict (fun _ => True) (rowX c.data) c.y id ∧
    ∃ pm mm pr mr, StoredFor c o "ml_m" pm mm ∧ StoredFor c o "ml_r" pr mr ∧
      MadeBy c "ml_m" k.ml_m .predict (fun _ => True) c.xz c.d id pm mm ∧
      ∀ q (hq : q < c.smpls.length) (hm : q < mm.length) (hr : q < mr.length), mr[q].params = (c.paramsOf "ml_r").at q ∧
        (mr[q].data = c.smpls[q].train.map fun j => (rowX c.data j, k.ml_m.predict mm[q].params mm[q].data (c.xz j))) ∧
        ∀ i ∈ c.smpls[q].test, pr i = some (k.ml_r.predict mr[q].params mr[q].data (rowX c.data i)) := by
  obtain ⟨l, h1, h⟩ := bind_ok h
  obtain ⟨m, h2, h⟩ := bind_ok h
  obtain ⟨r, h3, h⟩ := bind_ok h
  obtain rfl := Except.ok.inj h
  obtain ⟨ms1, e1, f1⟩ := crossFit_made_all hS hw (ssmPart_ok h1)
  obtain ⟨m', hA, hx⟩ := bind_ok h2
  obtain ⟨_, -, hx⟩ := bind_ok hx
  obtain rfl := Except.ok.inj hx
  obtain ⟨r', hB, hx⟩ := bind_ok h3
  obtain ⟨_, -, hx⟩ := bind_ok hx
  obtain rfl := Except.ok.inj hx
  rw [hw] at hA hB
  obtain ⟨mm, a1, a2, a3, a4, a5⟩ := cvPredict_models hS.partition hA
  have a6 := cvPredict_train_models hA a1 a2
  obtain ⟨mr, b1, b2, b3, b4, b5⟩ := cvPredict_perFold_models hS hB
  refine ⟨⟨_, ms1, rfl, congrArg some e1, f1⟩, m'.preds, mm, r'.preds, mr, ⟨rfl, congrArg some a1, a2⟩, ⟨rfl, congrArg some b1, b2⟩,
    ⟨a2, a3, fun _ q hq hq' => ?_, a5⟩, fun q hq hm hr => ⟨b3 q hr, ?_, b5 q hq hr⟩⟩
  · rw [a4 q hq hq']
    unfold trainData
    simp only [decide_true, List.filter_true]
    rfl
  · rw [b4 q hq hr, a6 q hq hm, List.zip_map']

end classes

/-! ## Classes with nested estimation -/

/-- The loop over the folds: pass `q` is entry `q` of the result. -/
theorem passes_getElem {R : Type} {pass : Fold n × ℕ → Except Exc (Fold n × R)} {S : List (Fold n)} {rs : List (Fold n × R)}
    (hpass : ∀ fk r, pass fk = .ok r → r.1 = fk.1) (h : S.zipIdx.mapM pass = .ok rs) :
    rs.length = S.length ∧ ∀ (q : ℕ) (f : Fold n), S[q]? = some f → ∃ r : R, pass (f, q) = .ok (f, r) ∧ rs[q]? = some (f, r) := by
  obtain ⟨hl, hall⟩ := forall₂_getElem ((mapM_ok_iff pass _ _).1 h)
  rw [List.length_zipIdx] at hl
  refine ⟨hl.symm, fun q f hf => ?_⟩
  obtain ⟨hq, rfl⟩ := List.getElem?_eq_some_iff.1 hf
  have h1 := hall q (by simpa using hq) (by rw [← hl]; exact hq)
  rw [List.getElem_zipIdx] at h1
  simp only [Nat.zero_add] at h1
  have h2 := hpass _ _ h1
  refine ⟨(rs[q]'(by rw [← hl]; exact hq)).2, ?_, ?_⟩
  · rw [h1]
    exact congrArg Except.ok (Prod.ext h2 rfl)
  · rw [List.getElem?_eq_getElem (by rw [← hl]; exact hq)]
    exact congrArg some (Prod.ext h2 rfl)

theorem gather_value {R : Type} {rs : List (Fold n × R)} {S : List (Fold n)} (hp : isPartition S = true)
    (hf : rs.map Prod.fst = S) {q : ℕ} {f : Fold n} {r : R} (hr : rs[q]? = some (f, r)) {i : Fin n} (hi : i ∈ f.test)
    (val : R → Fin n → Option ℝ) : gather val rs i = val r i := by
  have hnd : (rs.map fun r => r.1.test).flatten.Nodup := by
    have : (rs.map fun r => r.1.test) = S.map Fold.test := by rw [← hf, List.map_map]; rfl
    rw [this]
    exact ((isPartition_iff S).1 hp).nodup_iff.2 (List.nodup_finRange n)
  exact gather_eq val (fr := (f, r)) rs none hnd (List.mem_of_getElem? hr) hi

theorem mapM_some_getElem {A B : Type} {f : A → Option B} : ∀ {l : List A}, (∀ a ∈ l, ∃ b, f a = some b) →
    ∃ bs, l.mapM f = some bs ∧ bs.length = l.length ∧ ∀ (q : ℕ) (a : A), l[q]? = some a → bs[q]? = f a
  | [], _ => ⟨[], rfl, rfl, fun q a h => by simp at h⟩
  | a :: l, h => by
    obtain ⟨b, hb⟩ := h a List.mem_cons_self
    obtain ⟨bs, h1, h2, h3⟩ := mapM_some_getElem fun x hx => h x (List.mem_cons_of_mem _ hx)
    refine ⟨b :: bs, by simp [List.mapM_cons, hb, h1], by simp [h2], fun q x hx => ?_⟩
    cases q with
    | zero => obtain rfl : a = x := by simpa using hx
              simp [hb]
    | succ q => simpa using h3 q x (by simpa using hx)

/-- The models and predictions of PQ and CVaR. -/
theorem quant_stored {E : NestedExt n} (hE : E.Ok) {L : Learner P (List Cell)} {ev : FittedModel P (List Cell) → List Cell → ℝ}
    {c : QuantSet} {t : ℝ → ℝ → ℝ} {D : Obs n (List Cell)} {S : List (Fold n)} {psG psM : Option (List P)}
    {gExt mExt : Option (Fin n → ℝ)} {o : QuantOut n P (List Cell)} (hp : isPartition S = true)
    (h : quantNuisance E L ev c t D S psG psM gExt mExt true = .ok o) :
    ∃ gs ms, o.folds.mapM (fun r => r.2.g) = some gs ∧ o.folds.mapM (fun r => r.2.m) = some ms ∧ gs.length = S.length ∧
      ms.length = S.length ∧ ∀ (q : ℕ) (f : Fold n), S[q]? = some f →
      ∃ (h₁ h₂ : List (Fin n)) (v : ℝ), (h₁ ++ h₂).Perm f.train ∧
        StoredFold psG ev D.x (h₂.filter fun j => decide (D.d j = c.treatment)) (fun j => t v (D.y j)) o.g gs q f ∧
        StoredFold psM (fun a x => trim c.trimT (zeroOne L a x)) D.x f.train D.d o.m ms q f := by
  have hn : gExt = none ∧ mExt = none := by
    unfold quantNuisance at h
    obtain ⟨rs, -, h⟩ := bind_ok h
    cases gExt <;> cases mExt <;> first | exact ⟨rfl, rfl⟩ | cases h
  obtain ⟨rfl, rfl⟩ := hn
  obtain ⟨h1, h2, h3⟩ := quantNuisance_ok h
  unfold quantPasses at h1
  rw [if_neg (by exact Bool.false_ne_true)] at h1
  obtain ⟨hlen, hall⟩ := passes_getElem quantPass_fst h1
  have hfst := (passes_at quantPass_fst h1).1
  have key : ∀ (q : ℕ) (f : Fold n), S[q]? = some f → ∃ (r : QuantFold P (List Cell)) (h₁ h₂ : List (Fin n)) (pg pm : Option P),
      o.folds[q]? = some (f, r) ∧ paramAt psG q = .ok pg ∧ paramAt psM q = .ok pm ∧ (h₁ ++ h₂).Perm f.train ∧
      r.g = some ⟨pg, (h₂.filter fun j => decide (D.d j = c.treatment)).map fun j => (D.x j, t r.ipw (D.y j))⟩ ∧
      r.m = some ⟨pm, f.train.map fun j => (D.x j, D.d j)⟩ := by
    intro q f hf
    obtain ⟨r, hr, hq⟩ := hall q f hf
    unfold quantPass at hr
    obtain ⟨pg, hpg, hr⟩ := bind_ok hr
    obtain ⟨pm, hpm, hr⟩ := bind_ok hr
    obtain ⟨r', hr', hr⟩ := bind_ok hr
    obtain rfl : r' = r := (Prod.mk.inj (Except.ok.inj hr)).2
    unfold quantFold at hr'
    obtain ⟨hs, hh, hr'⟩ := bind_ok hr'
    obtain ⟨s, _, hr'⟩ := bind_ok hr'
    obtain ⟨mp, _, hr'⟩ := bind_ok hr'
    have hr' := Except.ok.inj hr'
    exact ⟨r', hs.1, hs.2, pg, pm, hq, hpg, hpm, hE.halves hh, by rw [← hr']; rfl, by rw [← hr']; rfl⟩
  have hex : ∀ fr ∈ o.folds, (∃ b, fr.2.g = some b) ∧ ∃ b, fr.2.m = some b := by
    intro fr hfr
    obtain ⟨q, hq, rfl⟩ := List.getElem_of_mem hfr
    have hq' : q < S.length := by rw [← hlen]; exact hq
    obtain ⟨r, h₁, h₂, pg, pm, hr, -, -, -, hg, hm⟩ := key q S[q] (List.getElem?_eq_getElem hq')
    rw [List.getElem?_eq_getElem hq] at hr
    rw [Option.some.inj hr]
    exact ⟨⟨_, hg⟩, ⟨_, hm⟩⟩
  obtain ⟨gs, g1, g2, g3⟩ := mapM_some_getElem fun fr hfr => (hex fr hfr).1
  obtain ⟨ms, m1, m2, m3⟩ := mapM_some_getElem fun fr hfr => (hex fr hfr).2
  refine ⟨gs, ms, g1, m1, g2.trans hlen, m2.trans hlen, fun q f hf => ?_⟩
  obtain ⟨r, h₁, h₂, pg, pm, hr, hpg, hpm, hperm, hg, hm⟩ := key q f hf
  refine ⟨h₁, h₂, r.ipw, hperm, ⟨pg, hpg, (g3 q _ hr).trans hg, fun i hi => ?_⟩, pm, hpm, (m3 q _ hr).trans hm, fun i hi => ?_⟩
  · rw [h2, orExt_none, gather_value hp hfst hr hi, hg]
    rfl
  · rw [h3]
    dsimp only
    rw [orExt_none, gather_value hp hfst hr hi, hm]
    rfl

section nested

variable {c : CellIn n P} {o : LinOut n P} (hS : isPartition c.smpls = true) (hw : c.wantModels = true)

include hS hw

/-- **C81, PQ.** -/
theorem C81_pq {k : PqClass n P} (hE : k.nested.Ok) (h : (pqSpec k).est c = .ok o) :
    ∃ g gs m ms, StoredFor c o "ml_g" g gs ∧ StoredFor c o "ml_m" m ms ∧
    ∀ (q : ℕ) (f : Fold n), c.smpls[q]? = some f → ∃ (h₁ h₂ : List (Fin n)) (v : ℝ), (h₁ ++ h₂).Perm f.train ∧
      StoredFold (lookupKey "ml_g" c.params).join (zeroOne k.ml_g) (rowX c.data)
        (h₂.filter fun j => decide (c.d j = k.treatment)) (fun j => if c.y j ≤ v then 1 else 0) g gs q f ∧
      StoredFold (lookupKey "ml_m" c.params).join (fun a x => trim k.trimT (zeroOne k.ml_m a x)) (rowX c.data) f.train c.d
        m ms q f := by
  obtain ⟨r, h1, h⟩ := bind_ok h
  obtain rfl := Except.ok.inj h
  rw [hw] at h1
  obtain ⟨gs, ms, e1, e2, l1, l2, hq⟩ := quant_stored hE hS h1
  refine ⟨r.g, gs, r.m, ms, ⟨rfl, ?_, l1⟩, ⟨rfl, ?_, l2⟩, hq⟩
  · show some (if c.wantModels = true then r.folds.mapM (fun r => r.2.g) else none) = _
    rw [if_pos hw, e1]
  · show some (if c.wantModels = true then r.folds.mapM (fun r => r.2.m) else none) = _
    rw [if_pos hw, e2]

/-- **C81, CVaR.** -/
theorem C81_cvar {k : PqClass n P} (hE : k.nested.Ok) (h : (cvarSpec k).est c = .ok o) :
    ∃ g gs m ms, StoredFor c o "ml_g" g gs ∧ StoredFor c o "ml_m" m ms ∧
    ∀ (q : ℕ) (f : Fold n), c.smpls[q]? = some f → ∃ (h₁ h₂ : List (Fin n)) (v : ℝ), (h₁ ++ h₂).Perm f.train ∧
      StoredFold (lookupKey "ml_g" c.params).join (fun a x => k.ml_g.predict a.params a.data x) (rowX c.data)
        (h₂.filter fun j => decide (c.d j = k.treatment)) (fun j => cvarTarget k.q v (c.y j)) g gs q f ∧
      StoredFold (lookupKey "ml_m" c.params).join (fun a x => trim k.trimT (zeroOne k.ml_m a x)) (rowX c.data) f.train c.d
        m ms q f := by
  obtain ⟨r, h1, h⟩ := bind_ok h
  obtain rfl := Except.ok.inj h
  rw [hw] at h1
  obtain ⟨gs, ms, e1, e2, l1, l2, hq⟩ := quant_stored hE hS h1
  refine ⟨r.g, gs, r.m, ms, ⟨rfl, ?_, l1⟩, ⟨rfl, ?_, l2⟩, hq⟩
  · show some (if c.wantModels = true then r.folds.mapM (fun r => r.2.g) else none) = _
    rw [if_pos hw, e1]
  · show some (if c.wantModels = true then r.folds.mapM (fun r => r.2.m) else none) = _
    rw [if_pos hw, e2]

/-- **C81, LPQ.** -/
theorem C81_lpq {k : LpqClass n P} (hE : k.nested.Ok) {z : Fin n → ℝ} (hz : c.instr = .ok z) (h : (lpqSpec k).est c = .ok o) :
    ∃ mz mzs m0 m0s m1 m1s g0 g0s g1 g1s, StoredFor c o "ml_m_z" mz mzs ∧ StoredFor c o "ml_m_d_z0" m0 m0s ∧
    StoredFor c o "ml_m_d_z1" m1 m1s ∧ StoredFor c o "ml_g_du_z0" g0 g0s ∧ StoredFor c o "ml_g_du_z1" g1 g1s ∧
    ∀ (q : ℕ) (f : Fold n), c.smpls[q]? = some f → ∃ (h₁ h₂ : List (Fin n)) (v : ℝ), (h₁ ++ h₂).Perm f.train ∧
      StoredFold (lookupKey "ml_m_z" c.params).join (zeroOne k.ml_m) (rowX c.data) f.train z mz mzs q f ∧
      StoredFold (lookupKey "ml_m_d_z0" c.params).join (zeroOne k.ml_m) (rowX c.data)
        (f.train.filter fun j => decide (z j = 0)) c.d m0 m0s q f ∧
      StoredFold (lookupKey "ml_m_d_z1" c.params).join (zeroOne k.ml_m) (rowX c.data)
        (f.train.filter fun j => decide (z j = 1)) c.d m1 m1s q f ∧
      StoredFold (lookupKey "ml_g_du_z0" c.params).join (zeroOne k.ml_g) (rowX c.data) (h₂.filter fun j => decide (z j = 0))
        (fun j => (if c.d j = k.treatment then 1 else 0) * if c.y j ≤ v then 1 else 0) g0 g0s q f ∧
      StoredFold (lookupKey "ml_g_du_z1" c.params).join (zeroOne k.ml_g) (rowX c.data) (h₂.filter fun j => decide (z j = 1))
        (fun j => (if c.d j = k.treatment then 1 else 0) * if c.y j ≤ v then 1 else 0) g1 g1s q f := by
  obtain ⟨z', hz', h⟩ := bind_ok h
  obtain rfl : z' = z := Except.ok.inj (hz'.symm.trans hz)
  obtain ⟨r, h1, h⟩ := bind_ok h
  obtain rfl := Except.ok.inj h
  rw [hw] at h1
  unfold lpqNuisance at h1
  by_cases ha : (lpqEntries c.extOf).all = true
  · rw [if_pos ha, if_pos rfl] at h1
    cases h1
  rw [if_neg ha] at h1
  unfold lpqEstimate at h1
  obtain ⟨rs, hrs, hr⟩ := bind_ok h1
  obtain rfl := Except.ok.inj hr
  obtain ⟨hlen, hall⟩ := passes_getElem lpqPass_fst hrs
  have hfst := (passes_at lpqPass_fst hrs).1
  have hst : ∀ sel : LpqFold P (List Cell) → FittedModel P (List Cell),
      lpqModels c.wantModels sel rs = some (rs.map fun r => sel r.2) := by
    intro sel
    unfold lpqModels
    rw [if_pos hw]
  have hl : ∀ sel : LpqFold P (List Cell) → FittedModel P (List Cell), (rs.map fun r => sel r.2).length = c.smpls.length := by
    intro sel
    rw [List.length_map, hlen]
  refine ⟨_, rs.map fun r => r.2.mz, _, rs.map fun r => r.2.mdz0, _, rs.map fun r => r.2.mdz1, _, rs.map fun r => r.2.g0, _,
    rs.map fun r => r.2.g1, ⟨rfl, congrArg some (hst _), hl _⟩, ⟨rfl, congrArg some (hst _), hl _⟩,
    ⟨rfl, congrArg some (hst _), hl _⟩, ⟨rfl, congrArg some (hst _), hl _⟩, ⟨rfl, congrArg some (hst _), hl _⟩, fun q f hf => ?_⟩
  obtain ⟨r, hr, hq⟩ := hall q f hf
  unfold lpqPass at hr
  obtain ⟨a, ha', hr⟩ := bind_ok hr
  obtain ⟨r', hr', hr⟩ := bind_ok hr
  obtain rfl : r' = r := (Prod.mk.inj (Except.ok.inj hr)).2
  unfold lpqFold at hr'
  obtain ⟨hs, hh, hr'⟩ := bind_ok hr'
  obtain ⟨v, _, hr'⟩ := bind_ok hr'
  have hr' := Except.ok.inj hr'
  obtain ⟨p1, p2, p3, p4, p5⟩ := lpqParamsAt_ok ha'
  have hg : ∀ sel : LpqFold P (List Cell) → FittedModel P (List Cell), (rs.map fun r => sel r.2)[q]? = some (sel r') := by
    intro sel
    rw [List.getElem?_map, hq]
    rfl
  have hv : ∀ i ∈ f.test, ∀ sel : LpqRow → ℝ, lpqGather k.learners (c.obsZ z') sel rs i =
      some (sel (r'.row k.learners (rowX c.data i))) := by
    intro i hi sel
    exact gather_value hS hfst hq hi _
  refine ⟨hs.1, hs.2, v, hE.halves hh, ⟨a.mz, p1, (hg _).trans ?_, fun i hi => (hv i hi _).trans ?_⟩,
    ⟨a.mdz0, p2, (hg _).trans ?_, fun i hi => (hv i hi _).trans ?_⟩, ⟨a.mdz1, p3, (hg _).trans ?_, fun i hi => (hv i hi _).trans ?_⟩,
    ⟨a.g0, p4, (hg _).trans ?_, fun i hi => (hv i hi _).trans ?_⟩, ⟨a.g1, p5, (hg _).trans ?_, fun i hi => (hv i hi _).trans ?_⟩⟩ <;>
  · rw [← hr']
    rfl

omit hS in
/-- **C81, SSM with nonignorable nonresponse.** The propensity and outcome models have the prediction of the selection model of
the same fold as additional covariate. -/
theorem C81_ssm_nonignorable {k : SsmNonClass n P} (hE : k.nested.Ok) (hS : FoldsOk c.smpls) {s : Fin n → ℝ} (hs : c.sel = .ok s)
    {zs : List (Fin n → Cell)} (hz : c.data.zv = some zs) (h : (ssmNonSpec k).est c = .ok o) :
    ∃ pi pis m ms g0 g0s g1 g1s, StoredFor c o "ml_pi" pi pis ∧ StoredFor c o "ml_m" m ms ∧ StoredFor c o "ml_g_d0" g0 g0s ∧
    StoredFor c o "ml_g_d1" g1 g1s ∧
    ∀ (q : ℕ) (f : Fold n), c.smpls[q]? = some f → ∃ (h₁ h₂ l₀ l₁ : List (Fin n)) (ph : Fin n → ℝ), (h₁ ++ h₂).Perm f.train ∧
      (∀ j, j ∈ l₀ ↔ j ∈ h₂ ∧ c.d j = 0 ∧ s j = 1) ∧ (∀ j, j ∈ l₁ ↔ j ∈ h₂ ∧ c.d j = 1 ∧ s j = 1) ∧ l₀.Nodup ∧ l₁.Nodup ∧
      StoredFold (lookupKey "ml_pi" c.params).join (zeroOne k.ml_pi)
        (fun j => rowX c.data j ++ [c.data.dv j] ++ zs.map fun z => z j) h₁ s pi pis q f ∧
      (∀ a, pis[q]? = some a → ∀ j, ph j = zeroOne k.ml_pi a (rowX c.data j ++ [c.data.dv j] ++ zs.map fun z => z j)) ∧
      StoredFold (lookupKey "ml_m" c.params).join (fun a x => trim k.trimT (zeroOne k.ml_m a x))
        (fun j => rowX c.data j ++ [.num (ph j)]) h₂ c.d m ms q f ∧
      StoredFold (lookupKey "ml_g_d0" c.params).join (fun a x => k.ml_g.predict a.params a.data x)
        (fun j => rowX c.data j ++ [.num (ph j)]) l₀ c.y g0 g0s q f ∧
      StoredFold (lookupKey "ml_g_d1" c.params).join (fun a x => k.ml_g.predict a.params a.data x)
        (fun j => rowX c.data j ++ [.num (ph j)]) l₁ c.y g1 g1s q f := by
  obtain ⟨s', hs', h⟩ := bind_ok h
  obtain rfl : s' = s := Except.ok.inj (hs'.symm.trans hs)
  obtain ⟨dx, hdx, h⟩ := bind_ok h
  obtain rfl : (fun i => rowX c.data i ++ [c.data.dv i] ++ zs.map fun z => z i) = dx := by
    unfold CellIn.xdz at hdx
    rw [hz] at hdx
    exact Except.ok.inj hdx
  obtain ⟨r, h1, h⟩ := bind_ok h
  obtain ⟨_, -, h⟩ := bind_ok h
  obtain rfl := Except.ok.inj h
  unfold ssmNuisance at h1
  obtain ⟨rs, hrs, hr⟩ := bind_ok h1
  obtain rfl := Except.ok.inj hr
  obtain ⟨hlen, hall⟩ := passes_getElem ssmPass_fst hrs
  have hfst := (passes_at ssmPass_fst hrs).1
  have hst : ∀ sel : SsmFold P (List Cell) (List Cell) → FittedModel P (List Cell),
      lpqModels c.wantModels sel rs = some (rs.map fun r => sel r.2) := by
    intro sel
    unfold lpqModels
    rw [if_pos hw]
  have hl : ∀ sel : SsmFold P (List Cell) (List Cell) → FittedModel P (List Cell),
      (rs.map fun r => sel r.2).length = c.smpls.length := by
    intro sel
    rw [List.length_map, hlen]
  refine ⟨_, rs.map fun r => r.2.pi, _, rs.map fun r => r.2.m.withCol, _, rs.map fun r => r.2.g0.withCol, _,
    rs.map fun r => r.2.g1.withCol, ⟨rfl, congrArg some (hst SsmFold.pi), hl SsmFold.pi⟩,
    ⟨rfl, congrArg some (hst fun r => r.m.withCol), hl fun r => r.m.withCol⟩,
    ⟨rfl, congrArg some (hst fun r => r.g0.withCol), hl fun r => r.g0.withCol⟩,
    ⟨rfl, congrArg some (hst fun r => r.g1.withCol), hl fun r => r.g1.withCol⟩, fun q f hf => ?_⟩
  obtain ⟨t, ht, hq⟩ := hall q f hf
  unfold ssmPass at ht
  obtain ⟨a1, p1, ht⟩ := bind_ok ht
  obtain ⟨a2, p2, ht⟩ := bind_ok ht
  obtain ⟨a3, p3, ht⟩ := bind_ok ht
  obtain ⟨a4, p4, ht⟩ := bind_ok ht
  obtain ⟨t', ht', ht⟩ := bind_ok ht
  obtain rfl : t' = t := (Prod.mk.inj (Except.ok.inj ht)).2
  obtain ⟨h₁, h₂, hperm, -, e1, e2, ⟨l₁, i1, n1, e3⟩, l₀, i0, n0, e4⟩ := C55_ssm_halves hE (hS.nodup f (List.mem_of_getElem? hf)) ht'
  have hg : ∀ sel : SsmFold P (List Cell) (List Cell) → FittedModel P (List Cell), (rs.map fun r => sel r.2)[q]? = some (sel t') := by
    intro sel
    rw [List.getElem?_map, hq]
    rfl
  have hv : ∀ i ∈ f.test, ∀ val : SsmFold P (List Cell) (List Cell) → Fin n → Option ℝ, gather val rs i = val t' i :=
    fun i hi val => gather_value hS.partition hfst hq hi val
  have d2 : t'.m.withCol = ⟨a2, h₂.map fun j => (rowX c.data j ++ [.num (zeroOne k.ml_pi t'.pi
      (rowX c.data j ++ [c.data.dv j] ++ zs.map fun z => z j))], c.d j)⟩ := by
    unfold FittedModel.withCol
    rw [e2]
    dsimp only
    rw [List.map_map]
    rfl
  have d3 : t'.g1.withCol = ⟨a3, l₁.map fun j => (rowX c.data j ++ [.num (zeroOne k.ml_pi t'.pi
      (rowX c.data j ++ [c.data.dv j] ++ zs.map fun z => z j))], c.y j)⟩ := by
    unfold FittedModel.withCol
    rw [e3]
    dsimp only
    rw [List.map_map]
    rfl
  have d4 : t'.g0.withCol = ⟨a4, l₀.map fun j => (rowX c.data j ++ [.num (zeroOne k.ml_pi t'.pi
      (rowX c.data j ++ [c.data.dv j] ++ zs.map fun z => z j))], c.y j)⟩ := by
    unfold FittedModel.withCol
    rw [e4]
    dsimp only
    rw [List.map_map]
    rfl
  refine ⟨h₁, h₂, l₀, l₁, fun j => zeroOne k.ml_pi t'.pi (rowX c.data j ++ [c.data.dv j] ++ zs.map fun z => z j), hperm, i0, i1, n0, n1,
    ⟨a1, p1, (hg SsmFold.pi).trans ?_, fun i hi => ?_⟩, fun a ha j => ?_,
    ⟨a2, p2, (hg fun r => r.m.withCol).trans (congrArg some d2), fun i hi => ?_⟩,
    ⟨a4, p4, (hg fun r => r.g0.withCol).trans (congrArg some d4), fun i hi => ?_⟩,
    ⟨a3, p3, (hg fun r => r.g1.withCol).trans (congrArg some d3), fun i hi => ?_⟩⟩
  · rw [e1]
    rfl
  · refine (hv i hi fun r i => some (r.row k.learners (c.obsS (fun i => rowX c.data i ++ [c.data.dv i] ++ zs.map fun z => z i) s') i).pi).trans ?_
    show some (zeroOne k.ml_pi t'.pi _) = _
    rw [e1]
    rfl
  · rw [hg] at ha
    rw [Option.some.inj ha]
  · rw [← d2]
    exact hv i hi fun r i => some (trim k.trimT (r.row k.learners (c.obsS (fun i => rowX c.data i ++ [c.data.dv i] ++ zs.map fun z => z i) s') i).m)
  · rw [← d4]
    exact hv i hi fun r i => some (r.row k.learners (c.obsS (fun i => rowX c.data i ++ [c.data.dv i] ++ zs.map fun z => z i) s') i).g0
  · rw [← d3]
    exact hv i hi fun r i => some (r.row k.learners (c.obsS (fun i => rowX c.data i ++ [c.data.dv i] ++ zs.map fun z => z i) s') i).g1

end nested

/-! ## Whole fits -/

/-- **C81, whole fits.** Whatever holds of models and predictions of one cell (the theorems above) holds of the entries stored for
treatment `j` and repetition `k` after a successful fit that stores predictions and models. -/
theorem C81_fit {F : Frame n} {sp : LinSpec n P} {s : LinState n P} {a : FitArgs} (h : (fit F sp s a).2 = .ok ())
    (hp : a.storePredictions = .bool true) (hm : a.storeModels = .bool true) {Q : CellIn n P → LinOut n P → Prop}
    (hQ : ∀ c o, SplitOk c.smpls → c.wantModels = true → sp.est c = .ok o → Q c o)
    (hS : ∀ l, s.smpls = some l → ∀ S ∈ l, SplitOk S) {j k : ℕ} (hj : j < s.data.d.length) (hk : k < s.nRep) :
    ∃ c o, CellFrom F sp s a.ext k j c ∧ (fit F sp s a).1.preds.map (fun f => f j k) = some (some (o.preds, o.targets)) ∧
      (fit F sp s a).1.models.map (fun f => f j k) = some (some o.models) ∧ Q c o := by
  obtain ⟨c, o, l, hc, hw, ho, -, -, -, -, -, h1, h2⟩ := fit_cells h hp hm hj hk
  obtain ⟨sl, hsl, hcs⟩ := hc.smpls
  exact ⟨c, o, hc, h1 rfl, h2 rfl, hQ c o (hS sl hsl _ (List.mem_of_getElem? hcs)) hw ho⟩

end DML
