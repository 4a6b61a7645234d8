import Verif.Covariates
import Verif.ClassesProps
import Verif.NestedClasses

/-!
# Estimating a cell with and without keeping the fitted models

Nothing here models code of the package.  `cvPredict` takes another branch if the fitted models are asked for (scikit-learn's
`cross_val_predict` does not return them).  Whenever the estimation that keeps the models succeeds, so does the one that does
not keep them, and all other results are the same.
-/

namespace DML

open Finset

variable {n : ℕ} {P : Type} {X : Type}

/-! ## Specification -/

/-- If `q` succeeds, `q'` succeeds and agrees with it in `f`. -/
def Keeps {α γ : Type} (f : α → γ) (q q' : Except Exc α) : Prop := ∀ a, q = .ok a → ∃ a', q' = .ok a' ∧ f a' = f a

/-- The same cell, the fitted models are not asked for. -/
def CellIn.quiet (c : CellIn n P) : CellIn n P := { c with wantModels := false }

/-- A target with the values 0 and 1. -/
def OnlyZeroOne (y : Fin n → ℝ) : Prop := ∀ i, y i = 0 ∨ y i = 1

/-- What is asked of a classifier: one column per class, a target with the values 0 and 1.  Nothing is asked of a regressor. -/
def Suits (L : Learner P X) (m : Method) (y : Fin n → ℝ) : Prop := m = .proba → L.Compliant ∧ OnlyZeroOne y

/-! ## One step after the other -/

theorem Keeps.refl {α γ : Type} (f : α → γ) (q : Except Exc α) : Keeps f q q := fun a h => ⟨a, h, rfl⟩

theorem bind_keeps {α β γ δ : Type} {f : α → γ} {g : β → δ} {q q' : Except Exc α} {k k' : α → Except Exc β}
    (h : Keeps f q q') (hk : ∀ a a', f a' = f a → Keeps g (k a) (k' a')) : Keeps g (q >>= k) (q' >>= k') := by
  intro b hb
  obtain ⟨a, ha, hb⟩ := bind_ok hb
  obtain ⟨a', ha', hf⟩ := h a ha
  obtain ⟨b', hb', hg⟩ := hk a a' hf b hb
  exact ⟨b', by rw [ha']; exact hb', hg⟩

theorem bind_keeps_same {α β δ : Type} {g : β → δ} {q q' : Except Exc α} {k k' : α → Except Exc β}
    (h : q' = q) (hk : ∀ a, Keeps g (k a) (k' a)) : Keeps g (q >>= k) (q' >>= k') := by
  subst h
  exact bind_keeps (f := id) (Keeps.refl id _) fun a a' e => by cases e; exact hk a

theorem bind_keeps_eq {α β δ : Type} {g : β → δ} {q q' : Except Exc α} {k k' : α → Except Exc β}
    (h : q' = q) (hk : ∀ a, q = .ok a → Keeps g (k a) (k' a)) : Keeps g (q >>= k) (q' >>= k') := by
  subst h
  intro b hb
  obtain ⟨a, ha, hb⟩ := bind_ok hb
  obtain ⟨b', hb', hg⟩ := hk a ha b hb
  exact ⟨b', by rw [ha]; exact hb', hg⟩

theorem pure_keeps {α γ : Type} {f : α → γ} {a a' : α} (h : f a' = f a) :
    Keeps f (pure a : Except Exc α) (pure a') := by
  intro b hb
  cases hb
  exact ⟨a', rfl, h⟩

theorem keeps_of_map {α γ : Type} {f : α → γ} {q q' : Except Exc α} (h : q'.map f = q.map f) : Keeps f q q' := by
  intro a ha
  subst ha
  cases q' with
  | error e => cases h
  | ok a' => exact ⟨a', rfl, Except.ok.inj h⟩

/-! ## Cross-fitting -/

theorem manual_models_free (L : Learner P X) (x : Fin n → X) (y : Target n) (S : List (Fold n)) (ps : Params P) (m : Method)
    (rt b b' : Bool) : (manualPredict L ⟨x, y, S, ps, m, rt, b'⟩).map CvRes.noModels =
      (manualPredict L ⟨x, y, S, ps, m, rt, b⟩).map CvRes.noModels := by
  unfold manualPredict
  dsimp only
  split_ifs
  · rfl
  · rfl
  all_goals
    cases foldData x y m S with
    | error _ => rfl
    | ok D =>
      cases foldParams ps S.length with
      | error _ => rfl
      | ok pl =>
        show ((S.zip ((pl.zip D).map _)).foldlM (predictFold L m x) _ >>= _).map _ =
          ((S.zip ((pl.zip D).map _)).foldlM (predictFold L m x) _ >>= _).map _
        cases (S.zip ((pl.zip D).map fun pd => (⟨pd.1, pd.2⟩ : FittedModel P X))).foldlM (predictFold L m x) fun _ => none with
        | error _ => rfl
        | ok _ => rfl

theorem encode_card (y : Fin n → ℝ) (t : List (Fin n)) (x : Fin n → X) :
    (classesOf (trainData x (encode y) t)).length ≤ (univ.image y).card := by
  unfold classesOf trainData
  rw [Finset.length_sort, List.map_map]
  have h : (t.map (Prod.snd ∘ fun i => (x i, encode y i))).toFinset ⊆
      (univ.image y).image fun v => (((univ.image y).filter fun w => w < v).card : ℝ) := by
    intro v hv
    simp only [List.mem_toFinset, List.mem_map, Function.comp] at hv
    obtain ⟨i, _, rfl⟩ := hv
    exact Finset.mem_image.2 ⟨y i, Finset.mem_image_of_mem y (Finset.mem_univ i), rfl⟩
  exact (Finset.card_le_card h).trans Finset.card_image_le

theorem OnlyZeroOne.card {y : Fin n → ℝ} (h : OnlyZeroOne y) : (univ.image y).card ≤ 2 := by
  have : univ.image y ⊆ {0, 1} := by
    intro v hv
    obtain ⟨i, _, rfl⟩ := Finset.mem_image.1 hv
    rcases h i with e | e <;> rw [e] <;> simp
  exact (Finset.card_le_card this).trans Finset.card_le_two

theorem OnlyZeroOne.binary {y : Fin n → ℝ} (h : OnlyZeroOne y) (h2 : (univ.image y).card = 2) : BinaryTarget y := by
  refine ⟨h, ?_, ?_⟩
  · by_contra hn
    push Not at hn
    have : univ.image y ⊆ {1} := by
      intro v hv
      obtain ⟨i, _, rfl⟩ := Finset.mem_image.1 hv
      rcases h i with e | e
      · exact absurd e (hn i)
      · rw [e]; simp
    have := Finset.card_le_card this
    rw [h2, Finset.card_singleton] at this
    omega
  · by_contra hn
    push Not at hn
    have : univ.image y ⊆ {0} := by
      intro v hv
      obtain ⟨i, _, rfl⟩ := Finset.mem_image.1 hv
      rcases h i with e | e
      · rw [e]; simp
      · exact absurd e (hn i)
    have := Finset.card_le_card this
    rw [h2, Finset.card_singleton] at this
    omega

/-- If the manual branch can predict with a classifier, both classes are in the training set. -/
theorem manual_both {L : Learner P X} {y : Fin n → ℝ} (hL : L.Compliant) (hy : OnlyZeroOne y) {p : Option P} {t : List (Fin n)}
    {x : Fin n → X} {z : X} {v : ℝ} (h : manualEval L .proba ⟨p, trainData x (encode y) t⟩ z = .ok v) :
    (univ.image y).card = (classesOf (trainData x (encode y) t)).length ∧ (univ.image y).card = 2 ∧
      (L.proba p (trainData x (encode y) t) z)[1]? = some v := by
  have hc : (L.proba p (trainData x (encode y) t) z)[1]? = some v := by
    change manualColumn (L.proba p (trainData x (encode y) t) z) = .ok v at h
    unfold manualColumn at h
    cases hq : (L.proba p (trainData x (encode y) t) z)[1]? with
    | none => rw [hq] at h; cases h
    | some w => rw [hq] at h; cases h; rfl
  have h1 : 1 < (L.proba p (trainData x (encode y) t) z).length := by
    by_contra hn
    rw [List.getElem?_eq_none (by omega)] at hc
    cases hc
  rw [hL] at h1
  have h2 := encode_card y t x
  have h3 := hy.card
  exact ⟨by omega, by omega, hc⟩

theorem eval_agrees {L : Learner P X} {m : Method} {y : Fin n → ℝ} (hs : Suits L m y) {p : Option P} {t : List (Fin n)}
    {x : Fin n → X} {z : X} {v : ℝ} (h : manualEval L m ⟨p, trainData x (fitTarget m y) t⟩ z = .ok v) :
    autoEval L m (univ.image y).card p (trainData x (fitTarget m y) t) z = .ok v := by
  cases m with
  | predict => exact h
  | proba =>
    obtain ⟨hL, hy⟩ := hs rfl
    obtain ⟨h1, -, h3⟩ := manual_both hL hy h
    show autoColumn _ _ _ = _
    unfold autoColumn
    show (if (univ.image y).card = (classesOf (trainData x (encode y) t)).length then _ else _) = _
    rw [if_pos h1]
    show (match (L.proba p (trainData x (encode y) t) z)[1]? with | some v => _ | none => _) = _
    rw [h3]

theorem params_at {ps : Params P} (h : ps.isPerFold = false) (k : ℕ) : ps.at k = ps.at 0 := by
  cases ps with
  | default => rfl
  | same p => rfl
  | perFold l => cases h

theorem foldData_plain_ok {x : Fin n → X} {y : Fin n → ℝ} {m : Method} {S : List (Fold n)} {data : List (List (X × ℝ))}
    (h : foldData x (.plain y) m S = .ok data) : data = S.map fun f => trainData x (fitTarget m y) f.train := by
  cases h
  rfl

/-- Cross-fitting that keeps the models and cross-fitting that does not. -/
theorem cvPredict_keeps {L : Learner P X} {x : Fin n → X} {y : Fin n → ℝ} {S : List (Fold n)} (hS : isPartition S = true)
    (ps : Params P) {m : Method} (hs : Suits L m y) (b : Bool) :
    Keeps CvRes.noModels (cvPredict L ⟨x, .plain y, S, ps, m, false, b⟩) (cvPredict L ⟨x, .plain y, S, ps, m, false, false⟩) := by
  cases b with
  | false => exact Keeps.refl _ _
  | true =>
    rw [cvPredict_manual (a := ⟨x, .plain y, S, ps, m, false, true⟩) rfl]
    cases hps : ps.isPerFold with
    | true =>
      have e : cvPredict L ⟨x, .plain y, S, ps, m, false, false⟩ = manualPredict L ⟨x, .plain y, S, ps, m, false, false⟩ := by
        unfold cvPredict
        rw [if_pos (by simp [CvArgs.manual, hps])]
      rw [e]
      exact keeps_of_map (manual_models_free L x (.plain y) S ps m false true false)
    | false =>
      rw [cvPredict_auto hps hS]
      intro r hr
      obtain ⟨data, pl, preds, hd, hp, hpr, h1, h2, -, h4⟩ := manualPredict_unfold hr
      have hd' : data = S.map fun f => trainData x (fitTarget m y) f.train := foldData_plain_ok hd
      have hdl : data.length = S.length := by rw [hd', List.length_map]
      obtain ⟨hpl, hpa⟩ := foldParams_ok hp
      have key : ∀ k (hk : k < S.length), ∀ i ∈ S[k].test, ∃ v,
          manualEval L m ⟨ps.at 0, trainData x (fitTarget m y) S[k].train⟩ (x i) = .ok v ∧ r.preds i = some v := by
        intro k hk i hi
        obtain ⟨v, hv, hv'⟩ := manual_value (a := ⟨x, .plain y, S, ps, m, false, true⟩) hS hdl hpl hpr k hk i hi
        refine ⟨v, ?_, by rw [h1]; exact hv'⟩
        have e1 : pl[k]'(by rw [hpl]; exact hk) = ps.at 0 := by rw [hpa k (by rw [hpl]; exact hk), params_at hps]
        have e2 : data[k]'(by rw [hdl]; exact hk) = trainData x (fitTarget m y) S[k].train := by
          subst hd'; rw [List.getElem_map]
        rw [← hv]
        show manualEval L m _ _ = manualEval L m ⟨pl[k]'(by rw [hpl]; exact hk), data[k]'(by rw [hdl]; exact hk)⟩ (x i)
        rw [e1, e2]
      have key' : ∀ f ∈ S, ∀ i ∈ f.test, ∃ v,
          manualEval L m ⟨ps.at 0, trainData x (fitTarget m y) f.train⟩ (x i) = .ok v ∧ r.preds i = some v := by
        intro f hf i hi
        obtain ⟨k, hk, rfl⟩ := List.mem_iff_getElem.1 hf
        exact key k hk i hi
      obtain ⟨r', hr'⟩ := autoPredict_total (L := L) (x := x) (y := y) (smpls := S) (p := ps.at 0) (m := m)
        fun f hf i hi => by
          obtain ⟨v, hv, _⟩ := key' f hf i hi
          exact ⟨v, eval_agrees hs hv⟩
      refine ⟨r', hr', ?_⟩
      have hpreds : r'.preds = r.preds := by
        funext i
        obtain ⟨k, hk, -⟩ := C26_complete hS i
        obtain ⟨v, hv, hv'⟩ := key k k.2 i hk
        obtain ⟨w, hw, hw'⟩ := autoPredict_ok hS hr' (List.getElem_mem k.2) hk
        rw [eval_agrees hs hv] at hw
        cases hw
        rw [hv', hw']
      have ht : r'.targets = some fun i => some (y i) := by
        unfold autoPredict at hr'
        obtain ⟨_, _, hr'⟩ := bind_ok hr'
        cases hr'; rfl
      have htp : r'.trainPreds = none := by
        unfold autoPredict at hr'
        obtain ⟨_, _, hr'⟩ := bind_ok hr'
        cases hr'; rfl
      have hfit : fitTarget m y = y := by
        cases m with
        | predict => rfl
        | proba =>
          obtain ⟨hL, hy⟩ := hs rfl
          funext i
          obtain ⟨k, hk, -⟩ := C26_complete hS i
          obtain ⟨v, hv, _⟩ := key k k.2 i hk
          obtain ⟨-, h2, -⟩ := manual_both hL hy hv
          exact congrFun (hy.binary h2).encode i
      have ht' : r.targets = some fun i => some (y i) := by
        rw [h2]
        show manualTargets (.plain y) m S = _
        rw [manualTargets_plain hS, hfit]
      have htp' : r.trainPreds = none := h4
      unfold CvRes.noModels
      rw [hpreds, ht, ht', htp, htp']

/-- Training predictions are asked for: the manual branch in both cases. -/
theorem cvPredict_train_keeps (L : Learner P X) (x : Fin n → X) (y : Target n) (S : List (Fold n)) (ps : Params P) (m : Method)
    (b : Bool) : Keeps CvRes.noModels (cvPredict L ⟨x, y, S, ps, m, true, b⟩) (cvPredict L ⟨x, y, S, ps, m, true, false⟩) := by
  rw [cvPredict_manual (a := ⟨x, y, S, ps, m, true, b⟩) rfl, cvPredict_manual (a := ⟨x, y, S, ps, m, true, false⟩) rfl]
  exact keeps_of_map (manual_models_free L x y S ps m true b false)

/-- Fold-specific targets: the manual branch in both cases. -/
theorem cvPredict_perFold_keeps (L : Learner P X) (x : Fin n → X) (ts : List (List ℝ)) (S : List (Fold n)) (ps : Params P)
    (m : Method) (b : Bool) : Keeps CvRes.noModels (cvPredict L ⟨x, .perFold ts, S, ps, m, false, b⟩)
      (cvPredict L ⟨x, .perFold ts, S, ps, m, false, false⟩) := by
  have e : ∀ b, cvPredict L ⟨x, .perFold ts, S, ps, m, false, b⟩ = manualPredict L ⟨x, .perFold ts, S, ps, m, false, b⟩ := by
    intro b
    unfold cvPredict
    rw [if_pos (by simp [CvArgs.manual, Target.isPerFold])]
  rw [e, e]
  exact keeps_of_map (manual_models_free L x (.perFold ts) S ps m false b false)

/-! ## The parts of a cell -/

section parts

variable {c : CellIn n P} (hS : isPartition c.smpls = true)

theorem crossFit_keeps {L : Learner P (List Cell)} {m : Method} {y : Fin n → ℝ} (hs : Suits L m y) (l : String)
    (x : Fin n → List Cell) {S : List (Fold n)} (hS' : isPartition S = true) :
    Keeps CvRes.noModels (crossFit L m c l x y S) (crossFit L m c.quiet l x y S) :=
  cvPredict_keeps hS' (c.paramsOf l) hs c.wantModels

include hS

theorem learn_keeps {L : Learner P (List Cell)} {m : Method} {y : Fin n → ℝ} (hs : Suits L m y) (l : String) :
    Keeps CvRes.noModels (learn L m c l y) (learn L m c.quiet l y) := by
  unfold learn
  refine bind_keeps (cvPredict_keeps hS (c.paramsOf l) hs c.wantModels) fun a a' h => ?_
  rw [(noModels_parts h).1]
  exact bind_keeps_same rfl fun _ => pure_keeps h

theorem condLearn_keeps {L : Learner P (List Cell)} {m : Method} {y : Fin n → ℝ} (hs : Suits L m y) (l : String)
    (x : Fin n → List Cell) (on keep : Fin n → Prop) [DecidablePred on] [DecidablePred keep] :
    Keeps CvRes.noModels (condLearn L m c l x y on keep) (condLearn L m c.quiet l x y on keep) := by
  unfold condLearn
  refine bind_keeps (crossFit_keeps hs l x (by rw [← hS]; exact isPartition_cond on c.smpls)) fun a a' h => ?_
  rw [(noModels_parts h).1]
  exact bind_keeps_same rfl fun _ => pure_keeps (mask_alike h keep)

omit hS in
theorem ssmPart_keeps {L : Learner P (List Cell)} {m : Method} {y : Fin n → ℝ} (hs : Suits L m y) (l : String)
    (x : Fin n → List Cell) {S : List (Fold n)} (hS' : isPartition S = true) :
    Keeps CvRes.noModels (ssmPart L m c l x y S) (ssmPart L m c.quiet l x y S) := by
  unfold ssmPart
  refine bind_keeps (crossFit_keeps hs l x hS') fun a a' h => ?_
  rw [(noModels_parts h).1]
  exact bind_keeps_same rfl fun _ => pure_keeps h

theorem propM_keeps {L : Learner P (List Cell)} {y : Fin n → ℝ} (hs : Suits L .proba y) :
    Keeps CvRes.noModels (propM L c y) (propM L c.quiet y) := by
  show Keeps _ (match c.extOf "ml_m" with | some e => _ | none => _) (match c.extOf "ml_m" with | some e => _ | none => _)
  cases c.extOf "ml_m" with
  | some e => exact Keeps.refl _ _
  | none => exact learn_keeps hS hs "ml_m"

theorem plivPart_keeps (L : Learner P (List Cell)) (l : String) (y : Fin n → ℝ) :
    Keeps CvRes.noModels (plivPart L c l y) (plivPart L c.quiet l y) := by
  show Keeps _ (match c.extOf l with | some e => _ | none => _) (match c.extOf l with | some e => _ | none => _)
  cases c.extOf l with
  | some e => exact Keeps.refl _ _
  | none => exact learn_keeps hS (fun h => by cases h) l

/-! ## The classes -/

theorem plr_keeps (k : PlrClass n P) (hm : Suits k.ml_m (if k.mClassifier then .proba else .predict) c.d) :
    Keeps CellOut.noModels (plrEst k c) (plrEst k c.quiet) := by
  unfold plrEst
  refine bind_keeps (f := CvRes.noModels) ?_ fun l l' el => bind_keeps (f := CvRes.noModels) ?_ fun m m' em =>
    bind_keeps (f := CvRes.noModels) ?_ fun g g' eg => ?_
  · unfold plrL
    show Keeps _ (match c.extOf "ml_l" with | some e => _ | none => _) (match c.extOf "ml_l" with | some e => _ | none => _)
    cases c.extOf "ml_l" with
    | some e => exact Keeps.refl _ _
    | none =>
      show Keeps _ (if (k.iv && (c.extOf "ml_g").isSome) = true then _ else _)
        (if (k.iv && (c.extOf "ml_g").isSome) = true then _ else _)
      split_ifs
      · exact Keeps.refl _ _
      · exact learn_keeps hS (fun h => by cases h) "ml_l"
  · unfold plrM
    have key : ∀ a a' : CvRes n P (List Cell), a'.noModels = a.noModels →
        Keeps CvRes.noModels (checkTreatPreds c a.preds >>= fun _ => pure a)
          (checkTreatPreds c.quiet a'.preds >>= fun _ => pure a') := fun a a' h => by
      rw [(noModels_parts h).1]
      exact bind_keeps_same rfl fun _ => pure_keeps h
    have e : c.quiet.extOf "ml_m" = c.extOf "ml_m" := rfl
    rw [e]
    cases c.extOf "ml_m" with
    | some e => exact key _ _ rfl
    | none => exact bind_keeps (learn_keeps hS hm "ml_m") key
  · unfold plrG
    rw [vec_alike el, vec_alike em]
    cases k.iv with
    | false => exact Keeps.refl _ _
    | true =>
      show Keeps _ (match c.extOf "ml_g" with | some e => _ | none => _) (match c.extOf "ml_g" with | some e => _ | none => _)
      cases c.extOf "ml_g" with
      | some e => exact Keeps.refl _ _
      | none => exact learn_keeps hS (fun h => by cases h) "ml_g"
  · obtain ⟨l1, l2, _⟩ := noModels_parts el
    obtain ⟨m1, m2, _⟩ := noModels_parts em
    obtain ⟨g1, g2, _⟩ := noModels_parts eg
    refine pure_keeps ?_
    simp only [CellOut.noModels, vec_alike el, vec_alike em, vec_alike eg, l1, l2, m1, m2, g1, g2]
    rfl

theorem irm_keeps (k : IrmClass n P) (hg : Suits k.ml_g (methodOf k.gClassifier) c.y) (hm : Suits k.ml_m .proba c.d) :
    Keeps CellOut.noModels (irmEst k c) (irmEst k c.quiet) := by
  unfold irmEst
  refine bind_keeps (f := CvRes.noModels) ?_ fun g0 g0' e0 => bind_keeps (f := CvRes.noModels) ?_ fun g1 g1' e1 =>
    bind_keeps_same ?_ fun _ => bind_keeps (propM_keeps hS hm) fun m m' em => bind_keeps_same ?_ fun w => ?_
  · unfold irmG0
    show Keeps _ (match c.extOf "ml_g0" with | some e => _ | none => _) (match c.extOf "ml_g0" with | some e => _ | none => _)
    cases c.extOf "ml_g0" with
    | some e => exact Keeps.refl _ _
    | none =>
      refine bind_keeps (condLearn_keeps hS hg _ _ _ _) fun a a' h => ?_
      rw [(noModels_parts h).1]
      exact bind_keeps_same rfl fun _ => pure_keeps h
  · unfold irmG1
    show Keeps _ (match c.extOf "ml_g1" with | some e => _ | none => _) (match c.extOf "ml_g1" with | some e => _ | none => _)
    cases c.extOf "ml_g1" with
    | some e => exact Keeps.refl _ _
    | none => exact condLearn_keeps hS hg _ _ _ _
  · rw [(noModels_parts e1).1]
    rfl
  · rw [vec_alike (trim_alike em k.trimT)]
    rfl
  · obtain ⟨a1, a2, _⟩ := noModels_parts e0
    obtain ⟨b1, b2, _⟩ := noModels_parts e1
    obtain ⟨m1, m2, _⟩ := noModels_parts (trim_alike em k.trimT)
    refine pure_keeps ?_
    simp only [CellOut.noModels, vec_alike e0, vec_alike e1, vec_alike (trim_alike em k.trimT), a1, a2, b1, b2, m1, m2]
    rfl

theorem apo_keeps (k : ApoClass n P) (hg : Suits k.ml_g (methodOf k.gClassifier) c.y) (hm : k.ml_m.Compliant) :
    Keeps CellOut.noModels (apoEst k c) (apoEst k c.quiet) := by
  unfold apoEst
  refine bind_keeps (f := CvRes.noModels) ?_ fun g1 g1' e1 => bind_keeps_same ?_ fun _ => bind_keeps (f := CvRes.noModels) ?_
    fun g0 g0' e0 => bind_keeps_same ?_ fun _ => bind_keeps (f := CvRes.noModels) ?_ fun m m' em => bind_keeps_same rfl fun w => ?_
  · unfold apoG1
    show Keeps _ (match c.extOf "ml_g_d_lvl1" with | some e => _ | none => _)
      (match c.extOf "ml_g_d_lvl1" with | some e => _ | none => _)
    cases c.extOf "ml_g_d_lvl1" with
    | some e => exact Keeps.refl _ _
    | none => exact condLearn_keeps hS hg _ _ _ _
  · rw [(noModels_parts e1).1]
    rfl
  · unfold apoG0
    show Keeps _ (match c.extOf "ml_g_d_lvl0" with | some e => _ | none => _)
      (match c.extOf "ml_g_d_lvl0" with | some e => _ | none => _)
    cases c.extOf "ml_g_d_lvl0" with
    | some e => exact Keeps.refl _ _
    | none => exact condLearn_keeps hS hg _ _ _ _
  · rw [(noModels_parts e0).1]
    rfl
  · unfold apoM
    show Keeps _ (match c.extOf "ml_m" with | some e => _ | none => _) (match c.extOf "ml_m" with | some e => _ | none => _)
    cases c.extOf "ml_m" with
    | some e => exact Keeps.refl _ _
    | none =>
      refine learn_keeps hS (fun _ => ⟨hm, fun i => ?_⟩) "ml_m"
      unfold ApoClass.treated
      split_ifs <;> simp
  · obtain ⟨a1, a2, _⟩ := noModels_parts e0
    obtain ⟨b1, b2, _⟩ := noModels_parts e1
    obtain ⟨m1, m2, _⟩ := noModels_parts (trim_alike em k.trimT)
    refine pure_keeps ?_
    simp only [CellOut.noModels, vec_alike e0, vec_alike e1, vec_alike (trim_alike em k.trimT), a1, a2, b1, b2, m1, m2]
    rfl

theorem iivm_keeps (k : IivmClass n P) (hg : Suits k.ml_g (methodOf k.gClassifier) c.y)
    (hm : ∀ z, c.instr = .ok z → Suits k.ml_m .proba z) (hr : Suits k.ml_r .proba c.d) :
    Keeps CellOut.noModels (iivmEst k c) (iivmEst k c.quiet) := by
  have G : ∀ z l v, Keeps CvRes.noModels (iivmG k c z l v) (iivmG k c.quiet z l v) := fun z l v => by
    unfold iivmG
    show Keeps _ (match c.extOf l with | some e => _ | none => _) (match c.extOf l with | some e => _ | none => _)
    cases c.extOf l with
    | some e => exact Keeps.refl _ _
    | none => exact condLearn_keeps hS hg _ _ _ _
  have R : ∀ z l v b, Keeps CvRes.noModels (iivmR k c z l v b) (iivmR k c.quiet z l v b) := fun z l v b => by
    unfold iivmR
    refine bind_keeps (f := CvRes.noModels) ?_ fun q q' h => ?_
    · unfold iivmRRaw
      cases b with
      | false => exact Keeps.refl _ _
      | true =>
        show Keeps _ (match c.extOf l with | some e => _ | none => _) (match c.extOf l with | some e => _ | none => _)
        cases c.extOf l with
        | some e => exact Keeps.refl _ _
        | none => exact crossFit_keeps hr _ _ (by rw [← hS]; exact isPartition_cond _ c.smpls)
    · unfold iivmRTail
      rw [(noModels_parts h).1]
      show Keeps _ (match c.extOf l with | some e => _ | none => _) (match c.extOf l with | some e => _ | none => _)
      cases c.extOf l with
      | some e => exact pure_keeps h
      | none => exact bind_keeps_same rfl fun _ => pure_keeps (mask_alike h _)
  unfold iivmEst
  refine bind_keeps_eq rfl fun z hz => bind_keeps (G z "ml_g0" 0) fun g0 g0' e0 => bind_keeps_same ?_ fun _ =>
    bind_keeps (G z "ml_g1" 1) fun g1 g1' e1 => bind_keeps_same ?_ fun _ => bind_keeps (propM_keeps hS (hm z hz)) fun m m' em =>
    bind_keeps (R z "ml_r0" 0 k.alwaysTakers) fun r0 r0' h0 => bind_keeps (R z "ml_r1" 1 k.neverTakers) fun r1 r1' h1 => ?_
  · rw [(noModels_parts e0).1]
    rfl
  · rw [(noModels_parts e1).1]
    rfl
  · obtain ⟨a1, a2, _⟩ := noModels_parts e0
    obtain ⟨b1, b2, _⟩ := noModels_parts e1
    obtain ⟨m1, m2, _⟩ := noModels_parts (trim_alike em k.trimT)
    obtain ⟨p1, p2, _⟩ := noModels_parts h0
    obtain ⟨q1, q2, _⟩ := noModels_parts h1
    refine pure_keeps ?_
    simp only [CellOut.noModels, vec_alike e0, vec_alike e1, vec_alike (trim_alike em k.trimT),
      vec_alike h0, vec_alike h1, a1, a2, b1, b2, m1, m2, p1, p2, q1, q2]
    rfl

theorem didM_keeps (k : DidClass n P) (hm : k.score = .observational → Suits k.ml_m .proba c.d) :
    Keeps CvRes.noModels (didM k c) (didM k c.quiet) := by
  unfold didM
  cases hs : k.score with
  | experimental => exact Keeps.refl _ _
  | observational => exact bind_keeps (propM_keeps hS (hm hs)) fun _ _ h => pure_keeps (trim_alike h _)

theorem did_keeps (k : DidClass n P) (hg : Suits k.ml_g (methodOf k.gClassifier) c.y)
    (hm : k.score = .observational → Suits k.ml_m .proba c.d) :
    Keeps CellOut.noModels (didEst k c) (didEst k c.quiet) := by
  have G : ∀ l v, Keeps CvRes.noModels (didG k c l v) (didG k c.quiet l v) := fun l v => by
    unfold didG
    show Keeps _ (match c.extOf l with | some e => _ | none => _) (match c.extOf l with | some e => _ | none => _)
    cases c.extOf l with
    | some e => exact Keeps.refl _ _
    | none => exact condLearn_keeps hS hg _ _ _ _
  unfold didEst
  refine bind_keeps (G "ml_g0" 0) fun g0 g0' e0 => bind_keeps (G "ml_g1" 1) fun g1 g1' e1 =>
    bind_keeps (didM_keeps hS k hm) fun m m' em => ?_
  obtain ⟨a1, a2, _⟩ := noModels_parts e0
  obtain ⟨b1, b2, _⟩ := noModels_parts e1
  obtain ⟨m1, m2, _⟩ := noModels_parts em
  refine pure_keeps ?_
  simp only [CellOut.noModels, vec_alike e0, vec_alike e1, vec_alike em, a1, a2, b1, b2, m1, m2]
  rfl

theorem cs_keeps (k : DidClass n P) (hg : Suits k.ml_g (methodOf k.gClassifier) c.y)
    (hm : k.score = .observational → Suits k.ml_m .proba c.d) :
    Keeps CellOut.noModels (csEst k c) (csEst k c.quiet) := by
  have G : ∀ t l v w, Keeps CvRes.noModels (csG k c t l v w) (csG k c.quiet t l v w) := fun t l v w => by
    unfold csG
    show Keeps _ (match c.extOf l with | some e => _ | none => _) (match c.extOf l with | some e => _ | none => _)
    cases c.extOf l with
    | some e => exact Keeps.refl _ _
    | none =>
      exact bind_keeps (crossFit_keeps hg _ _ (by rw [← hS]; exact isPartition_cond _ c.smpls)) fun _ _ h =>
        pure_keeps (mask_alike h _)
  unfold csEst
  refine bind_keeps_same rfl fun t => bind_keeps (G t "ml_g_d0_t0" 0 0) fun g0 g0' e0 =>
    bind_keeps (G t "ml_g_d0_t1" 0 1) fun g1 g1' e1 => bind_keeps (G t "ml_g_d1_t0" 1 0) fun g2 g2' e2 =>
    bind_keeps (G t "ml_g_d1_t1" 1 1) fun g3 g3' e3 => bind_keeps (didM_keeps hS k hm) fun m m' em => ?_
  obtain ⟨a1, a2, _⟩ := noModels_parts e0
  obtain ⟨b1, b2, _⟩ := noModels_parts e1
  obtain ⟨p1, p2, _⟩ := noModels_parts e2
  obtain ⟨q1, q2, _⟩ := noModels_parts e3
  obtain ⟨m1, m2, _⟩ := noModels_parts em
  refine pure_keeps ?_
  simp only [CellOut.noModels, vec_alike e0, vec_alike e1, vec_alike e2, vec_alike e3,
    vec_alike em, a1, a2, b1, b2, p1, p2, q1, q2, m1, m2]
  rfl

theorem ssm_keeps (k : SsmClass n P) (hg : Suits k.ml_g (methodOf k.gClassifier) c.y) (hm : Suits k.ml_m .proba c.d)
    (hp : ∀ s, c.sel = .ok s → Suits k.ml_pi .proba s) :
    Keeps CellOut.noModels (ssmEst k c) (ssmEst k c.quiet) := by
  unfold ssmEst
  refine bind_keeps_eq rfl fun s hs => bind_keeps (ssmPart_keeps (hp s hs) _ _ hS) fun p p' ep => bind_keeps (ssmPart_keeps hm _ _ hS) fun m m' em =>
    bind_keeps (ssmPart_keeps hg _ _ (by rw [← hS]; exact isPartition_cond _ c.smpls)) fun g1 g1' e1 =>
    bind_keeps (ssmPart_keeps hg _ _ (by rw [← hS]; exact isPartition_cond _ c.smpls)) fun g0 g0' e0 =>
    bind_keeps_same rfl fun _ => ?_
  obtain ⟨a1, a2, _⟩ := noModels_parts e0
  obtain ⟨b1, b2, _⟩ := noModels_parts e1
  obtain ⟨p1, p2, _⟩ := noModels_parts ep
  obtain ⟨m1, m2, _⟩ := noModels_parts (trim_alike em k.trimT)
  refine pure_keeps ?_
  simp only [CellOut.noModels, vec_alike e0, vec_alike e1, vec_alike ep,
    vec_alike (trim_alike em k.trimT), a1, a2, b1, b2, p1, p2, m1, m2]
  rfl

theorem pliv_keeps (k : PlivClass n P) : Keeps CellOut.noModels (plivEst k c) (plivEst k c.quiet) := by
  unfold plivEst
  refine bind_keeps (plivPart_keeps hS _ _ _) fun l l' el => bind_keeps_same rfl fun z =>
    bind_keeps (plivPart_keeps hS _ _ _) fun m m' em => bind_keeps (plivPart_keeps hS _ _ _) fun r r' er =>
    bind_keeps (f := CvRes.noModels) ?_ fun g g' eg => ?_
  · unfold plivG
    rw [vec_alike el, vec_alike em, vec_alike er]
    cases k.iv with
    | false => exact Keeps.refl _ _
    | true => exact plivPart_keeps hS _ _ _
  · obtain ⟨a1, a2, _⟩ := noModels_parts el
    obtain ⟨b1, b2, _⟩ := noModels_parts em
    obtain ⟨p1, p2, _⟩ := noModels_parts er
    obtain ⟨m1, m2, _⟩ := noModels_parts eg
    refine pure_keeps ?_
    simp only [CellOut.noModels, vec_alike el, vec_alike em, vec_alike er, vec_alike eg, a1, a2, b1, b2, p1, p2, m1, m2]
    rfl

theorem plivMulti_keeps (k : PlivClass n P) : Keeps CellOut.noModels (plivMultiEst k c) (plivMultiEst k c.quiet) := by
  let f : List (String × CvRes n P (List Cell)) → List (String × CvRes n P (List Cell)) := List.map fun q => (q.1, q.2.noModels)
  have M : ∀ zs : List (String × (Fin n → Cell)), Keeps f (zs.mapM (plivInstr k c)) (zs.mapM (plivInstr k c.quiet)) := fun zs => by
    induction zs with
    | nil => exact Keeps.refl _ _
    | cons z zs ih =>
      rw [List.mapM_cons, List.mapM_cons]
      refine bind_keeps (f := fun q : String × CvRes n P (List Cell) => (q.1, q.2.noModels)) ?_ fun a a' h =>
        bind_keeps ih fun b b' h' => pure_keeps ?_
      · unfold plivInstr
        exact bind_keeps (plivPart_keeps hS _ _ _) fun q q' h => pure_keeps (by simp only [h])
      · exact congrArg₂ List.cons h h'
  unfold plivMultiEst
  refine bind_keeps (plivPart_keeps hS _ _ _) fun l l' el => bind_keeps (M _) fun ms ms' em =>
    bind_keeps (plivPart_keeps hS _ _ _) fun r r' er => ?_
  obtain ⟨a1, a2, _⟩ := noModels_parts el
  obtain ⟨p1, p2, _⟩ := noModels_parts er
  have m1 : (ms'.map fun q => (q.1, q.2.preds)) = ms.map fun q => (q.1, q.2.preds) := by
    have := congrArg (List.map fun q : String × CvRes n P (List Cell) => (q.1, q.2.preds)) em
    simpa [f, CvRes.noModels, List.map_map, Function.comp_def] using this
  have m2 : (ms'.map fun q => (q.1, q.2.targets)) = ms.map fun q => (q.1, q.2.targets) := by
    have := congrArg (List.map fun q : String × CvRes n P (List Cell) => (q.1, q.2.targets)) em
    simpa [f, CvRes.noModels, List.map_map, Function.comp_def] using this
  have mv : vecs ms' = vecs ms := by
    have := congrArg (List.map fun q : String × CvRes n P (List Cell) => q.2.vec) em
    simp only [f, List.map_map] at this
    exact this
  have ev : plivMulti k.proj c.quiet.y c.quiet.d l.vec r.vec (instrCol c.quiet) (instrPred ms') =
      plivMulti k.proj c.y c.d l.vec r.vec (instrCol c) (instrPred ms) :=
    instrPred_vec (fun q m => plivMulti k.proj c.y c.d l.vec r.vec (instrCol c : Fin n → Fin q → ℝ) m) mv
  refine pure_keeps ?_
  simp only [CellOut.noModels, vec_alike el, vec_alike er, ev, a1, a2, p1, p2, m1, m2]
  rfl

theorem plivZ_keeps (k : PlivClass n P) : Keeps CellOut.noModels (plivZEst k c) (plivZEst k c.quiet) := by
  unfold plivZEst
  refine bind_keeps (ssmPart_keeps (fun h => by cases h) _ _ hS) fun r r' er => ?_
  obtain ⟨p1, p2, _⟩ := noModels_parts er
  refine pure_keeps ?_
  simp only [CellOut.noModels, vec_alike er, p1, p2]
  rfl

theorem plivXZ_keeps (k : PlivClass n P) : Keeps CellOut.noModels (plivXZEst k c) (plivXZEst k c.quiet) := by
  unfold plivXZEst
  refine bind_keeps (ssmPart_keeps (fun h => by cases h) _ _ hS) fun l l' el => bind_keeps (f := CvRes.noModels) ?_
    fun m m' em => bind_keeps (f := CvRes.noModels) ?_ fun r r' er => ?_
  · unfold plivXZM
    refine bind_keeps (cvPredict_train_keeps _ _ _ _ _ _ _) fun a a' h => ?_
    rw [(noModels_parts h).1]
    exact bind_keeps_same rfl fun _ => pure_keeps h
  · unfold plivXZR
    rw [(noModels_parts em).2.2]
    refine bind_keeps (cvPredict_perFold_keeps _ _ _ _ _ _ _) fun a a' h => ?_
    rw [(noModels_parts h).1]
    exact bind_keeps_same rfl fun _ => pure_keeps h
  · obtain ⟨a1, a2, _⟩ := noModels_parts el
    obtain ⟨b1, b2, _⟩ := noModels_parts em
    obtain ⟨p1, p2, _⟩ := noModels_parts er
    refine pure_keeps ?_
    simp only [CellOut.noModels, vec_alike el, vec_alike em, vec_alike er, a1, a2, b1, b2, p1, p2]
    rfl

end parts

/-! ## The classes with nested sample splits -/

theorem quantNuisance_keeps (E : NestedExt n) (mlM : Learner P X) (evG : FittedModel P X → X → ℝ) (q : QuantSet)
    (target : ℝ → ℝ → ℝ) (D : Obs n X) (smpls : List (Fold n)) (psG psM : Option (List P))
    (gExt mExt : Option (Fin n → ℝ)) (b : Bool) :
    Keeps id (quantNuisance E mlM evG q target D smpls psG psM gExt mExt b)
      (quantNuisance E mlM evG q target D smpls psG psM gExt mExt false) := by
  unfold quantNuisance
  refine bind_keeps_same rfl fun rs => ?_
  cases hb : (b && (gExt.isSome || mExt.isSome)) with
  | true =>
    intro a ha
    rw [if_pos rfl] at ha
    cases ha
  | false => exact Keeps.refl _ _

theorem pq_keeps (k : PqClass n P) (c : CellIn n P) : Keeps CellOut.noModels (pqEst k c) (pqEst k c.quiet) := by
  unfold pqEst
  refine bind_keeps (quantNuisance_keeps _ _ _ _ _ _ _ _ _ _ _ _) fun o o' e => ?_
  cases e
  exact pure_keeps rfl

theorem cvar_keeps (k : PqClass n P) (c : CellIn n P) : Keeps CellOut.noModels (cvarEst k c) (cvarEst k c.quiet) := by
  unfold cvarEst
  refine bind_keeps (quantNuisance_keeps _ _ _ _ _ _ _ _ _ _ _ _) fun o o' e => ?_
  cases e
  exact pure_keeps rfl

theorem lpqNuisance_keeps (E : NestedExt n) (K : LpqLearners P X) (q : QuantSet) (D : ObsZ n X) (smpls : List (Fold n))
    (ps : LpqParams (List P)) (ext : LpqParams (Fin n → ℝ)) (b : Bool) :
    Keeps id (lpqNuisance E K q D smpls ps ext b) (lpqNuisance E K q D smpls ps ext false) := by
  cases b with
  | false => exact Keeps.refl _ _
  | true =>
    unfold lpqNuisance
    cases ext.all with
    | true => intro a ha; cases ha
    | false => exact Keeps.refl _ _

theorem lpq_keeps (k : LpqClass n P) (c : CellIn n P) : Keeps CellOut.noModels (lpqEst k c) (lpqEst k c.quiet) := by
  unfold lpqEst
  refine bind_keeps_same rfl fun z => bind_keeps (lpqNuisance_keeps _ _ _ _ _ _ _ _) fun o o' e => ?_
  cases e
  exact pure_keeps rfl

theorem ssmNon_keeps (k : SsmNonClass n P) (c : CellIn n P) :
    Keeps CellOut.noModels (ssmNonEst k c) (ssmNonEst k c.quiet) := by
  unfold ssmNonEst
  exact bind_keeps_same rfl fun s => bind_keeps_same rfl fun dx => bind_keeps_same rfl fun o => bind_keeps_same rfl fun _ =>
    pure_keeps rfl

end DML
