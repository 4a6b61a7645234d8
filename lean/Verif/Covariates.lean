import Verif.Classes
import Verif.Py

/-!
# Two sets of covariates a learner treats alike

Cross-fitting and the estimation of a cell see the covariates only through the learners: if a learner makes the same
predictions from the rows `x' i` as from the rows `x i`, whatever observations it is trained on, all results agree (up to the
stored fitted models, which contain their training data).
-/

namespace DML

open Finset

variable {n : ℕ} {P X X' : Type}

/-! ## Specification -/

/-- The learner makes the same predictions from the rows `x'` as from the rows `x`, whatever observations it is trained on
and whatever the targets are. -/
structure Learner.Alike (L : Learner P X) (x x' : Fin n → X) : Prop where
  predict : ∀ p (t : List (Fin n × ℝ)) i,
    L.predict p (t.map fun q => (x' q.1, q.2)) (x' i) = L.predict p (t.map fun q => (x q.1, q.2)) (x i)
  proba : ∀ p (t : List (Fin n × ℝ)) i,
    L.proba p (t.map fun q => (x' q.1, q.2)) (x' i) = L.proba p (t.map fun q => (x q.1, q.2)) (x i)

/-- A learner result without the fitted models. -/
def CvRes.noModels (r : CvRes n P X) : CvRes n P X := { r with models := none }

/-- The result of a cell without the fitted models. -/
def CellOut.noModels {M : Type} (o : CellOut n M) : CellOut n M := { o with models := [] }

/-! ## Cross-fitting -/

/-- The learner on observation numbers instead of rows. -/
def Learner.onRows (L : Learner P X) (x : Fin n → X) : Learner P (Fin n) :=
  { predict := fun p t i => L.predict p (t.map fun q => (x q.1, q.2)) (x i)
    proba := fun p t i => L.proba p (t.map fun q => (x q.1, q.2)) (x i) }

theorem Learner.Alike.onRows {L : Learner P X} {x x' : Fin n → X} (h : L.Alike x x') : L.onRows x' = L.onRows x := by
  unfold Learner.onRows
  congr 1
  · funext p t i; exact h.predict p t i
  · funext p t i; exact h.proba p t i

/-- Training data given by observation numbers, with the rows put in. -/
def putRows (x : Fin n → X) (t : List (Fin n × ℝ)) : List (X × ℝ) := t.map fun q => (x q.1, q.2)

/-- A learner result on observation numbers, with the rows put in. -/
def CvRes.putRows (x : Fin n → X) (r : CvRes n P (Fin n)) : CvRes n P X :=
  ⟨r.preds, r.targets, r.trainPreds, r.models.map fun l => l.map fun f => ⟨f.params, DML.putRows x f.data⟩⟩

theorem trainData_rows (x : Fin n → X) (y : Fin n → ℝ) (t : List (Fin n)) :
    trainData x y t = putRows x (trainData id y t) := by
  unfold trainData putRows
  rw [List.map_map]
  rfl

theorem classesOf_rows (x : Fin n → X) (t : List (Fin n × ℝ)) : classesOf (putRows x t) = classesOf t := by
  unfold classesOf putRows
  rw [List.map_map]
  rfl

theorem autoEval_rows (L : Learner P X) (x : Fin n → X) (m : Method) (q : ℕ) (p : Option P) (t : List (Fin n × ℝ)) (i : Fin n) :
    autoEval L m q p (putRows x t) (x i) = autoEval (L.onRows x) m q p t i := by
  cases m with
  | predict => rfl
  | proba =>
    show autoColumn q (putRows x t) _ = autoColumn q t _
    unfold autoColumn
    rw [classesOf_rows]
    rfl

theorem autoPredict_rows (L : Learner P X) (x : Fin n → X) (y : Fin n → ℝ) (S : List (Fold n)) (p : Option P) (m : Method) :
    autoPredict L x y S p m = (autoPredict (L.onRows x) id y S p m).map (CvRes.putRows x) := by
  unfold autoPredict
  have e : ∀ f : Fold n, (fun i => autoEval L m (univ.image y).card p (trainData x (fitTarget m y) f.train) (x i)) =
      fun i => autoEval (L.onRows x) m (univ.image y).card p (trainData id (fitTarget m y) f.train) (id i) := fun f => by
    funext i
    rw [trainData_rows, autoEval_rows]
    rfl
  simp only [e]
  cases S.mapM fun f : Fold n => f.test.mapM fun i =>
    autoEval (L.onRows x) m (univ.image y).card p (trainData id (fitTarget m y) f.train) (id i) with
  | error _ => rfl
  | ok _ => rfl

theorem mapM_map_except {α β γ : Type} (f : α → Except Exc β) (g : β → γ) (l : List α) :
    (l.mapM fun a => (f a).map g) = (l.mapM f).map (List.map g) := by
  induction l with
  | nil => rfl
  | cons a t ih =>
    rw [List.mapM_cons, List.mapM_cons, ih]
    cases f a with
    | error _ => rfl
    | ok b =>
      cases t.mapM f with
      | error _ => rfl
      | ok _ => rfl

theorem perFoldData_rows (x : Fin n → X) (f : Fold n) (yk : Option (List ℝ)) :
    perFoldData x f yk = (perFoldData id f yk).map (putRows x) := by
  unfold perFoldData
  cases yk with
  | none => rfl
  | some v =>
    dsimp only
    by_cases h : v.length ≠ f.train.length
    · rw [if_pos h, if_pos h]; rfl
    · rw [if_neg h, if_neg h]
      unfold putRows
      simp only [Except.map, List.map_map]
      rfl

theorem foldData_rows (x : Fin n → X) (y : Target n) (m : Method) (S : List (Fold n)) :
    foldData x y m S = (foldData id y m S).map (List.map (putRows x)) := by
  cases y with
  | plain y =>
    show Except.ok _ = Except.ok _
    rw [List.map_map]
    congr 1
    apply List.map_congr_left
    intro f _
    exact trainData_rows x _ f.train
  | perFold ys =>
    unfold foldData
    dsimp only
    rw [← mapM_map_except]
    congr 1
    funext fk
    exact perFoldData_rows x fk.1 _

/-- A fitted model on observation numbers, with the rows put in. -/
def FittedModel.putRows (x : Fin n → X) (f : FittedModel P (Fin n)) : FittedModel P X := ⟨f.params, DML.putRows x f.data⟩

theorem manualEval_rows (L : Learner P X) (x : Fin n → X) (m : Method) (f : FittedModel P (Fin n)) (i : Fin n) :
    manualEval L m (f.putRows x) (x i) = manualEval (L.onRows x) m f i := by
  cases m <;> rfl

theorem predictLoop_rows (L : Learner P X) (x : Fin n → X) (m : Method) (S : List (Fold n)) (fs : List (FittedModel P (Fin n)))
    (a : Fin n → Option ℝ) : (S.zip (fs.map (FittedModel.putRows x))).foldlM (predictFold L m x) a =
      (S.zip fs).foldlM (predictFold (L.onRows x) m id) a := by
  induction S generalizing fs a with
  | nil => rfl
  | cons f S ih =>
    cases fs with
    | nil => rfl
    | cons g fs =>
      rw [List.map_cons, List.zip_cons_cons, List.zip_cons_cons, List.foldlM_cons, List.foldlM_cons]
      have e : predictFold L m x a (f, g.putRows x) = predictFold (L.onRows x) m id a (f, g) := by
        unfold predictFold
        simp only [manualEval_rows, id]
      rw [e]
      congr 1
      funext b
      exact ih fs b

theorem manualPredict_rows (L : Learner P X) (x : Fin n → X) (y : Target n) (S : List (Fold n)) (ps : Params P) (m : Method)
    (rt rm : Bool) : manualPredict L ⟨x, y, S, ps, m, rt, rm⟩ =
      (manualPredict (L.onRows x) ⟨id, y, S, ps, m, rt, rm⟩).map (CvRes.putRows x) := by
  unfold manualPredict
  dsimp only
  split_ifs with h1 h2
  · rfl
  · rfl
  all_goals
    rw [foldData_rows]
    cases foldData id y m S with
    | error _ => rfl
    | ok D =>
      cases foldParams ps S.length with
      | error _ => rfl
      | ok pl =>
        have e : (pl.zip (D.map (putRows x))).map (fun pd => (⟨pd.1, pd.2⟩ : FittedModel P X)) =
            ((pl.zip D).map fun pd => (⟨pd.1, pd.2⟩ : FittedModel P (Fin n))).map (FittedModel.putRows x) := by
          rw [List.zip_map_right, List.map_map, List.map_map]
          rfl
        show ((S.zip ((pl.zip (D.map (putRows x))).map _)).foldlM (predictFold L m x) _ >>= _) =
          (((S.zip ((pl.zip D).map _)).foldlM (predictFold (L.onRows x) m id) _) >>= _).map _
        rw [e, predictLoop_rows]
        cases (S.zip ((pl.zip D).map fun pd => (⟨pd.1, pd.2⟩ : FittedModel P (Fin n)))).foldlM
            (predictFold (L.onRows x) m id) fun _ => none with
        | error _ => rfl
        | ok b =>
          simp [Except.map, CvRes.putRows, bind, Except.bind, pure, Except.pure, FittedModel.putRows, Learner.onRows,
            List.zip_map_right, putRows]

theorem cvPredict_rows (L : Learner P X) (x : Fin n → X) (y : Target n) (S : List (Fold n)) (ps : Params P) (m : Method)
    (rt rm : Bool) : cvPredict L ⟨x, y, S, ps, m, rt, rm⟩ =
      (cvPredict (L.onRows x) ⟨id, y, S, ps, m, rt, rm⟩).map (CvRes.putRows x) := by
  unfold cvPredict
  show (if (!isPartition S || rt || ps.isPerFold || y.isPerFold || rm) = true then _ else _) =
    Except.map _ (if (!isPartition S || rt || ps.isPerFold || y.isPerFold || rm) = true then _ else _)
  split_ifs
  · exact manualPredict_rows L x y S ps m rt rm
  · cases y with
    | plain y =>
      cases ps with
      | default => exact autoPredict_rows L x y S none m
      | same p => exact autoPredict_rows L x y S (some p) m
      | perFold _ => rfl
    | perFold _ => cases ps <;> rfl

/-- Two results that agree up to the fitted models, including the exception. -/
def SameRes (q q' : Except Exc (CvRes n P X)) : Prop := q'.map CvRes.noModels = q.map CvRes.noModels

/-- Cross-fitting a learner that treats two sets of covariates alike. -/
theorem cvPredict_alike {L : Learner P X} {x x' : Fin n → X} (h : L.Alike x x') (y : Target n) (S : List (Fold n))
    (ps : Params P) (m : Method) (rt rm : Bool) :
    SameRes (cvPredict L ⟨x, y, S, ps, m, rt, rm⟩) (cvPredict L ⟨x', y, S, ps, m, rt, rm⟩) := by
  unfold SameRes
  rw [cvPredict_rows L x, cvPredict_rows L x', h.onRows]
  cases cvPredict (L.onRows x) ⟨id, y, S, ps, m, rt, rm⟩ <;> rfl

/-! ## One step after the other -/

theorem bind_alike {α β γ δ : Type} {f : α → γ} {g : β → δ} {q q' : Except Exc α} {k k' : α → Except Exc β}
    (h : q'.map f = q.map f) (hk : ∀ a a', f a' = f a → (k' a').map g = (k a).map g) :
    (q' >>= k').map g = (q >>= k).map g := by
  cases q with
  | error e =>
    cases q' with
    | error e' =>
      rw [Except.error.inj (show (Except.error e' : Except Exc γ) = .error e from h)]
      rfl
    | ok a' => cases h
  | ok a =>
    cases q' with
    | error e' => cases h
    | ok a' => exact hk a a' (Except.ok.inj h)

theorem bind_same {α β δ : Type} {g : β → δ} {q q' : Except Exc α} {k k' : α → Except Exc β}
    (h : q' = q) (hk : ∀ a, (k' a).map g = (k a).map g) : (q' >>= k').map g = (q >>= k).map g := by
  subst h
  cases q' with
  | error e => rfl
  | ok a => exact hk a

theorem pure_alike {α γ : Type} {f : α → γ} {a a' : α} (h : f a' = f a) :
    (pure a' : Except Exc α).map f = (pure a : Except Exc α).map f := congrArg Except.ok h

theorem noModels_parts {q q' : CvRes n P X} (h : q'.noModels = q.noModels) :
    q'.preds = q.preds ∧ q'.targets = q.targets ∧ q'.trainPreds = q.trainPreds :=
  ⟨show q'.noModels.preds = q.noModels.preds by rw [h], show q'.noModels.targets = q.noModels.targets by rw [h],
    show q'.noModels.trainPreds = q.noModels.trainPreds by rw [h]⟩

theorem vec_alike {q q' : CvRes n P (List Cell)} (h : q'.noModels = q.noModels) : q'.vec = q.vec := by
  funext i
  unfold CvRes.vec
  rw [(noModels_parts h).1]

theorem mask_alike {q q' : CvRes n P (List Cell)} (h : q'.noModels = q.noModels) (keep : Fin n → Prop) [DecidablePred keep] :
    (maskTargets keep q').noModels = (maskTargets keep q).noModels := by
  obtain ⟨h1, h2, h3⟩ := noModels_parts h
  unfold maskTargets CvRes.noModels
  dsimp only
  rw [h1, h2, h3]

theorem trim_alike {q q' : CvRes n P (List Cell)} (h : q'.noModels = q.noModels) (t : ℝ) :
    (trimRes t q').noModels = (trimRes t q).noModels := by
  obtain ⟨h1, h2, h3⟩ := noModels_parts h
  unfold trimRes CvRes.noModels
  dsimp only
  rw [h1, h2, h3]

/-- The prediction vectors. -/
noncomputable def vecs (ms : List (String × CvRes n P (List Cell))) : List (Fin n → ℝ) := ms.map fun q => q.2.vec

/-- The predictions of the instruments enter through the prediction vectors only. -/
theorem instrPred_vec {β : Type} (Φ : (q : ℕ) → (Fin n → Fin q → ℝ) → β) {ms ms' : List (String × CvRes n P (List Cell))}
    (h : vecs ms' = vecs ms) : Φ ms'.length (instrPred ms') = Φ ms.length (instrPred ms) := by
  have hlen : ms'.length = ms.length := by
    have := congrArg List.length h
    unfold vecs at this
    rwa [List.length_map, List.length_map] at this
  have gen : ∀ q (e : q = ms'.length), Φ q (fun i j => (ms'[j.cast e]).2.vec i) = Φ ms'.length (instrPred ms') := fun q e => by
    subst e; rfl
  rw [← gen _ hlen.symm]
  congr 1
  funext i j
  have h1 : (vecs ms')[(j : ℕ)]? = (vecs ms)[(j : ℕ)]? := by rw [h]
  unfold vecs at h1
  rw [List.getElem?_map, List.getElem?_map, List.getElem?_eq_getElem (by rw [hlen]; exact j.2),
    List.getElem?_eq_getElem j.2] at h1
  exact congrFun (Option.some.inj h1) i

/-! ## The parts of a cell -/

/-- Two cells that differ at most in the covariates. -/
def CellIn.SameButX (c c' : CellIn n P) : Prop :=
  c' = { c with data := { c.data with x := c'.data.x, xv := c'.data.xv } }

section parts

variable {c c' : CellIn n P} (hc : c.SameButX c')

include hc

theorem CellIn.SameButX.y : c'.y = c.y := by rw [hc]; rfl
theorem CellIn.SameButX.dd : c'.d = c.d := by rw [hc]; rfl
theorem CellIn.SameButX.smpls : c'.smpls = c.smpls := by rw [hc]
theorem CellIn.SameButX.cluster : c'.cluster = c.cluster := by rw [hc]
theorem CellIn.SameButX.start : c'.start = c.start := by rw [hc]
theorem CellIn.SameButX.rep : c'.rep = c.rep := by rw [hc]
theorem CellIn.SameButX.ext (l : String) : c'.extOf l = c.extOf l := by rw [hc]; rfl
theorem CellIn.SameButX.params (l : String) : c'.paramsOf l = c.paramsOf l := by rw [hc]; rfl
theorem CellIn.SameButX.want : c'.wantModels = c.wantModels := by rw [hc]
theorem CellIn.SameButX.instr : c'.instr = c.instr := by rw [hc]; rfl
theorem CellIn.SameButX.instrs : c'.instrs = c.instrs := by rw [hc]; rfl
theorem CellIn.SameButX.time : c'.time = c.time := by rw [hc]; rfl
theorem CellIn.SameButX.sel : c'.sel = c.sel := by rw [hc]; rfl
theorem CellIn.SameButX.binOut : c'.data.binOut = c.data.binOut := by rw [hc]
theorem CellIn.SameButX.treat (p : NV n) : checkTreatPreds c' p = checkTreatPreds c p := by rw [hc]; rfl
theorem CellIn.SameButX.checkOut (p : NV n) : checkOut c' p = checkOut c p := by
  unfold DML.checkOut; rw [hc.binOut]

theorem crossFit_alike {L : Learner P (List Cell)} {x x' : Fin n → List Cell} (hL : L.Alike x x') (m : Method) (l : String)
    (y : Fin n → ℝ) (S : List (Fold n)) : SameRes (crossFit L m c l x y S) (crossFit L m c' l x' y S) := by
  unfold crossFit
  rw [hc.params, hc.want]
  exact cvPredict_alike hL (.plain y) S (c.paramsOf l) m false c.wantModels

theorem learn_alike {L : Learner P (List Cell)} (hL : L.Alike (rowX c.data) (rowX c'.data)) (m : Method) (l : String)
    (y : Fin n → ℝ) : SameRes (learn L m c l y) (learn L m c' l y) := by
  unfold learn
  rw [hc.params, hc.want, hc.smpls]
  refine bind_alike (cvPredict_alike hL (.plain y) c.smpls (c.paramsOf l) m false c.wantModels) fun a a' h => ?_
  rw [(noModels_parts h).1]
  exact bind_same rfl fun _ => pure_alike h

theorem condLearn_alike {L : Learner P (List Cell)} {x x' : Fin n → List Cell} (hL : L.Alike x x') (m : Method) (l : String)
    (y : Fin n → ℝ) (on keep : Fin n → Prop) [DecidablePred on] [DecidablePred keep] :
    SameRes (condLearn L m c l x y on keep) (condLearn L m c' l x' y on keep) := by
  unfold condLearn
  rw [hc.smpls]
  refine bind_alike (crossFit_alike hc hL m l y _) fun a a' h => ?_
  rw [(noModels_parts h).1]
  exact bind_same rfl fun _ => pure_alike (mask_alike h keep)

theorem ssmPart_alike {L : Learner P (List Cell)} {x x' : Fin n → List Cell} (hL : L.Alike x x') (m : Method) (l : String)
    (y : Fin n → ℝ) (S : List (Fold n)) : SameRes (ssmPart L m c l x y S) (ssmPart L m c' l x' y S) := by
  unfold ssmPart
  refine bind_alike (crossFit_alike hc hL m l y _) fun a a' h => ?_
  rw [(noModels_parts h).1, hc.smpls]
  exact bind_same rfl fun _ => pure_alike h

theorem propM_alike {L : Learner P (List Cell)} (hL : L.Alike (rowX c.data) (rowX c'.data)) (y : Fin n → ℝ) :
    SameRes (propM L c y) (propM L c' y) := by
  unfold propM
  rw [hc.ext]
  cases c.extOf "ml_m" with
  | some e => exact rfl
  | none => exact learn_alike hc hL .proba "ml_m" y

theorem plivPart_alike {L : Learner P (List Cell)} (hL : L.Alike (rowX c.data) (rowX c'.data)) (l : String) (y : Fin n → ℝ) :
    SameRes (plivPart L c l y) (plivPart L c' l y) := by
  unfold plivPart
  rw [hc.ext]
  cases c.extOf l with
  | some e => exact rfl
  | none => exact learn_alike hc hL .predict l y

/-! ## The classes -/

theorem plr_alike (k : PlrClass n P) (hl : k.ml_l.Alike (rowX c.data) (rowX c'.data))
    (hm : k.ml_m.Alike (rowX c.data) (rowX c'.data)) (hg : k.ml_g.Alike (rowX c.data) (rowX c'.data)) :
    (plrEst k c').map CellOut.noModels = (plrEst k c).map CellOut.noModels := by
  have ey : (fun i => (c'.data.yv i).val) = fun i => (c.data.yv i).val := hc.y
  have ed : (fun i => (c'.data.dv i).val) = fun i => (c.data.dv i).val := hc.dd
  unfold plrEst
  refine bind_alike (f := CvRes.noModels) ?_ fun l l' el => bind_alike (f := CvRes.noModels) ?_ fun m m' em =>
    bind_alike (f := CvRes.noModels) ?_ fun g g' eg => ?_
  · unfold plrL
    rw [hc.ext, hc.ext, ey]
    cases c.extOf "ml_l" with
    | some e => rfl
    | none =>
      dsimp only
      split_ifs
      · rfl
      · exact learn_alike hc hl .predict "ml_l" _
  · unfold plrM
    rw [hc.ext, ed]
    have key : ∀ a a' : CvRes n P (List Cell), a'.noModels = a.noModels →
        (checkTreatPreds c' a'.preds >>= fun _ => pure a').map CvRes.noModels =
          (checkTreatPreds c a.preds >>= fun _ => pure a).map CvRes.noModels := fun a a' h => by
      rw [(noModels_parts h).1, hc.treat]
      exact bind_same rfl fun _ => pure_alike h
    cases c.extOf "ml_m" with
    | some e => exact key _ _ rfl
    | none => exact bind_alike (learn_alike hc hm _ "ml_m" _) key
  · unfold plrG
    rw [hc.ext, vec_alike el, vec_alike em]
    cases k.iv with
    | false => rfl
    | true =>
      cases c.extOf "ml_g" with
      | some e => rfl
      | none =>
        have e : (fun i => (c'.data.yv i).val - plrInitial (fun i => (c'.data.yv i).val) (fun i => (c'.data.dv i).val) l.vec m.vec *
            (c'.data.dv i).val) = fun i => (c.data.yv i).val - plrInitial (fun i => (c.data.yv i).val)
            (fun i => (c.data.dv i).val) l.vec m.vec * (c.data.dv i).val := by rw [hc]
        dsimp only
        rw [e]
        exact learn_alike hc hg .predict "ml_g" _
  · obtain ⟨l1, l2, _⟩ := noModels_parts el
    obtain ⟨m1, m2, _⟩ := noModels_parts em
    obtain ⟨g1, g2, _⟩ := noModels_parts eg
    simp only [Except.map, pure, Except.pure, CellOut.noModels, vec_alike el, vec_alike em, vec_alike eg, l1, l2, m1, m2, g1, g2,
      ey, ed, hc.cluster, hc.start]

theorem irm_alike (k : IrmClass n P) (hg : k.ml_g.Alike (rowX c.data) (rowX c'.data))
    (hm : k.ml_m.Alike (rowX c.data) (rowX c'.data)) :
    (irmEst k c').map CellOut.noModels = (irmEst k c).map CellOut.noModels := by
  unfold irmEst
  refine bind_alike (f := CvRes.noModels) ?_ fun g0 g0' e0 => bind_alike (f := CvRes.noModels) ?_ fun g1 g1' e1 =>
    bind_same ?_ fun _ => bind_alike (f := CvRes.noModels) ?_ fun m m' em => bind_same ?_ fun w => ?_
  · unfold irmG0
    rw [hc.ext, hc.y, hc.dd]
    cases c.extOf "ml_g0" with
    | some e => rfl
    | none =>
      refine bind_alike (condLearn_alike hc hg _ _ _ _ _) fun a a' h => ?_
      rw [(noModels_parts h).1, hc.checkOut]
      exact bind_same rfl fun _ => pure_alike h
  · unfold irmG1
    rw [hc.ext, hc.y, hc.dd]
    cases c.extOf "ml_g1" with
    | some e => rfl
    | none => exact condLearn_alike hc hg _ _ _ _ _
  · unfold irmCheck1
    rw [(noModels_parts e1).1, hc.checkOut]
  · rw [hc.dd]
    exact propM_alike hc hm _
  · unfold irmWeights
    rw [vec_alike (trim_alike em k.trimT), hc.dd, hc.rep]
  · obtain ⟨a1, a2, _⟩ := noModels_parts e0
    obtain ⟨b1, b2, _⟩ := noModels_parts e1
    obtain ⟨m1, m2, _⟩ := noModels_parts (trim_alike em k.trimT)
    simp only [Except.map, pure, Except.pure, CellOut.noModels, vec_alike e0, vec_alike e1, vec_alike (trim_alike em k.trimT),
      a1, a2, b1, b2, m1, m2, hc.y, hc.dd, hc.cluster, hc.start]

theorem apo_alike (k : ApoClass n P) (hg : k.ml_g.Alike (rowX c.data) (rowX c'.data)) (hg0 : k.ml_g.Alike c.dx c'.dx)
    (hm : k.ml_m.Alike (rowX c.data) (rowX c'.data)) :
    (apoEst k c').map CellOut.noModels = (apoEst k c).map CellOut.noModels := by
  have et : k.treated c' = k.treated c := by unfold ApoClass.treated; rw [hc.dd]
  unfold apoEst
  refine bind_alike (f := CvRes.noModels) ?_ fun g1 g1' e1 => bind_same ?_ fun _ => bind_alike (f := CvRes.noModels) ?_
    fun g0 g0' e0 => bind_same ?_ fun _ => bind_alike (f := CvRes.noModels) ?_ fun m m' em => bind_same ?_ fun w => ?_
  · unfold apoG1
    rw [hc.ext, hc.y, et]
    cases c.extOf "ml_g_d_lvl1" with
    | some e => rfl
    | none => exact condLearn_alike hc hg _ _ _ _ _
  · rw [(noModels_parts e1).1, hc.checkOut]
  · unfold apoG0
    rw [hc.ext, hc.y, et]
    cases c.extOf "ml_g_d_lvl0" with
    | some e => rfl
    | none => exact condLearn_alike hc hg0 _ _ _ _ _
  · rw [(noModels_parts e0).1, hc.checkOut]
  · unfold apoM
    rw [hc.ext, et]
    cases c.extOf "ml_m" with
    | some e => rfl
    | none => exact learn_alike hc hm _ _ _
  · rw [hc.rep]
  · obtain ⟨a1, a2, _⟩ := noModels_parts e0
    obtain ⟨b1, b2, _⟩ := noModels_parts e1
    obtain ⟨m1, m2, _⟩ := noModels_parts (trim_alike em k.trimT)
    simp only [Except.map, pure, Except.pure, CellOut.noModels, vec_alike e0, vec_alike e1, vec_alike (trim_alike em k.trimT),
      a1, a2, b1, b2, m1, m2, hc.y, et, hc.cluster, hc.start]

theorem iivm_alike (k : IivmClass n P) (hg : k.ml_g.Alike (rowX c.data) (rowX c'.data))
    (hm : k.ml_m.Alike (rowX c.data) (rowX c'.data)) (hr : k.ml_r.Alike (rowX c.data) (rowX c'.data)) :
    (iivmEst k c').map CellOut.noModels = (iivmEst k c).map CellOut.noModels := by
  have G : ∀ z l v, SameRes (iivmG k c z l v) (iivmG k c' z l v) := fun z l v => by
    unfold iivmG
    rw [hc.ext, hc.y]
    cases c.extOf l with
    | some e => exact rfl
    | none => exact condLearn_alike hc hg _ _ _ _ _
  have R : ∀ z l v b, SameRes (iivmR k c z l v b) (iivmR k c' z l v b) := fun z l v b => by
    unfold iivmR
    refine bind_alike (f := CvRes.noModels) ?_ fun q q' h => ?_
    · unfold iivmRRaw
      cases b with
      | false => rfl
      | true =>
        rw [hc.ext, hc.dd, hc.smpls]
        cases c.extOf l with
        | some e => rfl
        | none => exact crossFit_alike hc hr _ _ _ _
    · unfold iivmRTail
      rw [hc.ext, hc.smpls, (noModels_parts h).1]
      cases c.extOf l with
      | some e => exact congrArg Except.ok h
      | none => exact bind_same rfl fun _ => pure_alike (mask_alike h _)
  unfold iivmEst
  refine bind_same hc.instr fun z => bind_alike (G z "ml_g0" 0) fun g0 g0' e0 => bind_same ?_ fun _ =>
    bind_alike (G z "ml_g1" 1) fun g1 g1' e1 => bind_same ?_ fun _ => bind_alike (propM_alike hc hm z) fun m m' em =>
    bind_alike (R z "ml_r0" 0 k.alwaysTakers) fun r0 r0' h0 => bind_alike (R z "ml_r1" 1 k.neverTakers) fun r1 r1' h1 => ?_
  · rw [(noModels_parts e0).1, hc.checkOut]
  · rw [(noModels_parts e1).1, hc.checkOut]
  · obtain ⟨a1, a2, _⟩ := noModels_parts e0
    obtain ⟨b1, b2, _⟩ := noModels_parts e1
    obtain ⟨m1, m2, _⟩ := noModels_parts (trim_alike em k.trimT)
    obtain ⟨p1, p2, _⟩ := noModels_parts h0
    obtain ⟨q1, q2, _⟩ := noModels_parts h1
    simp only [Except.map, pure, Except.pure, CellOut.noModels, vec_alike e0, vec_alike e1, vec_alike (trim_alike em k.trimT),
      vec_alike h0, vec_alike h1, a1, a2, b1, b2, m1, m2, p1, p2, q1, q2, hc.y, hc.dd, hc.cluster, hc.start]

theorem didM_alike (k : DidClass n P) (hm : k.ml_m.Alike (rowX c.data) (rowX c'.data)) :
    SameRes (didM k c) (didM k c') := by
  unfold didM
  cases k.score with
  | experimental => exact rfl
  | observational =>
    rw [hc.dd]
    exact bind_alike (propM_alike hc hm _) fun _ _ h => pure_alike (trim_alike h _)

theorem did_alike (k : DidClass n P) (hg : k.ml_g.Alike (rowX c.data) (rowX c'.data))
    (hm : k.ml_m.Alike (rowX c.data) (rowX c'.data)) :
    (didEst k c').map CellOut.noModels = (didEst k c).map CellOut.noModels := by
  have G : ∀ l v, SameRes (didG k c l v) (didG k c' l v) := fun l v => by
    unfold didG
    rw [hc.ext, hc.y, hc.dd]
    cases c.extOf l with
    | some e => exact rfl
    | none => exact condLearn_alike hc hg _ _ _ _ _
  unfold didEst
  refine bind_alike (G "ml_g0" 0) fun g0 g0' e0 => bind_alike (G "ml_g1" 1) fun g1 g1' e1 =>
    bind_alike (didM_alike hc k hm) fun m m' em => ?_
  obtain ⟨a1, a2, _⟩ := noModels_parts e0
  obtain ⟨b1, b2, _⟩ := noModels_parts e1
  obtain ⟨m1, m2, _⟩ := noModels_parts em
  simp only [Except.map, pure, Except.pure, CellOut.noModels, vec_alike e0, vec_alike e1, vec_alike em, a1, a2, b1, b2, m1, m2,
    hc.y, hc.dd, hc.cluster, hc.start, hc.smpls]

theorem cs_alike (k : DidClass n P) (hg : k.ml_g.Alike (rowX c.data) (rowX c'.data))
    (hm : k.ml_m.Alike (rowX c.data) (rowX c'.data)) :
    (csEst k c').map CellOut.noModels = (csEst k c).map CellOut.noModels := by
  have G : ∀ t l v w, SameRes (csG k c t l v w) (csG k c' t l v w) := fun t l v w => by
    unfold csG
    rw [hc.ext, hc.y, hc.dd, hc.smpls]
    cases c.extOf l with
    | some e => exact rfl
    | none => exact bind_alike (crossFit_alike hc hg _ _ _ _) fun _ _ h => pure_alike (mask_alike h _)
  unfold csEst
  refine bind_same hc.time fun t => bind_alike (G t "ml_g_d0_t0" 0 0) fun g0 g0' e0 =>
    bind_alike (G t "ml_g_d0_t1" 0 1) fun g1 g1' e1 => bind_alike (G t "ml_g_d1_t0" 1 0) fun g2 g2' e2 =>
    bind_alike (G t "ml_g_d1_t1" 1 1) fun g3 g3' e3 => bind_alike (didM_alike hc k hm) fun m m' em => ?_
  obtain ⟨a1, a2, _⟩ := noModels_parts e0
  obtain ⟨b1, b2, _⟩ := noModels_parts e1
  obtain ⟨p1, p2, _⟩ := noModels_parts e2
  obtain ⟨q1, q2, _⟩ := noModels_parts e3
  obtain ⟨m1, m2, _⟩ := noModels_parts em
  simp only [Except.map, pure, Except.pure, CellOut.noModels, vec_alike e0, vec_alike e1, vec_alike e2, vec_alike e3,
    vec_alike em, a1, a2, b1, b2, p1, p2, q1, q2, m1, m2, hc.y, hc.dd, hc.cluster, hc.start, hc.smpls]

theorem ssm_alike (k : SsmClass n P) (hg : k.ml_g.Alike (rowX c.data) (rowX c'.data))
    (hm : k.ml_m.Alike (rowX c.data) (rowX c'.data)) (hp : k.ml_pi.Alike c.xd c'.xd) :
    (ssmEst k c').map CellOut.noModels = (ssmEst k c).map CellOut.noModels := by
  have ec : ssmCluster c' = ssmCluster c := by unfold ssmCluster; rw [hc.cluster]
  have ei : ∀ v, c'.dIs v = c.dIs v := fun v => by unfold CellIn.dIs; rw [hc.dd]
  unfold ssmEst
  rw [hc.smpls, hc.dd, hc.y]
  refine bind_same hc.sel fun s => bind_alike (ssmPart_alike hc hp _ _ _ _) fun p p' ep =>
    bind_alike (ssmPart_alike hc hm _ _ _ _) fun m m' em => bind_alike (ssmPart_alike hc hg _ _ _ _) fun g1 g1' e1 =>
    bind_alike (ssmPart_alike hc hg _ _ _ _) fun g0 g0' e0 => bind_same ec fun _ => ?_
  obtain ⟨a1, a2, _⟩ := noModels_parts e0
  obtain ⟨b1, b2, _⟩ := noModels_parts e1
  obtain ⟨p1, p2, _⟩ := noModels_parts ep
  obtain ⟨m1, m2, _⟩ := noModels_parts (trim_alike em k.trimT)
  simp only [Except.map, pure, Except.pure, CellOut.noModels, vec_alike e0, vec_alike e1, vec_alike ep,
    vec_alike (trim_alike em k.trimT), a1, a2, b1, b2, p1, p2, m1, m2, ei, hc.cluster, hc.start]

theorem pliv_alike (k : PlivClass n P) (hl : k.ml_l.Alike (rowX c.data) (rowX c'.data))
    (hm : k.ml_m.Alike (rowX c.data) (rowX c'.data)) (hr : k.ml_r.Alike (rowX c.data) (rowX c'.data))
    (hg : k.ml_g.Alike (rowX c.data) (rowX c'.data)) :
    (plivEst k c').map CellOut.noModels = (plivEst k c).map CellOut.noModels := by
  unfold plivEst
  rw [hc.y, hc.dd]
  refine bind_alike (plivPart_alike hc hl _ _) fun l l' el => bind_same hc.instr fun z =>
    bind_alike (plivPart_alike hc hm _ _) fun m m' em => bind_alike (plivPart_alike hc hr _ _) fun r r' er =>
    bind_alike (f := CvRes.noModels) ?_ fun g g' eg => ?_
  · unfold plivG
    rw [vec_alike el, vec_alike em, vec_alike er, hc.y, hc.dd]
    cases k.iv with
    | false => rfl
    | true => exact plivPart_alike hc hg _ _
  · obtain ⟨a1, a2, _⟩ := noModels_parts el
    obtain ⟨b1, b2, _⟩ := noModels_parts em
    obtain ⟨p1, p2, _⟩ := noModels_parts er
    obtain ⟨m1, m2, _⟩ := noModels_parts eg
    simp only [Except.map, pure, Except.pure, CellOut.noModels, vec_alike el, vec_alike em, vec_alike er, vec_alike eg,
      a1, a2, b1, b2, p1, p2, m1, m2, hc.cluster, hc.start]

theorem plivMulti_alike (k : PlivClass n P) (hl : k.ml_l.Alike (rowX c.data) (rowX c'.data))
    (hm : k.ml_m.Alike (rowX c.data) (rowX c'.data)) (hr : k.ml_r.Alike (rowX c.data) (rowX c'.data)) :
    (plivMultiEst k c').map CellOut.noModels = (plivMultiEst k c).map CellOut.noModels := by
  let f : List (String × CvRes n P (List Cell)) → List (String × CvRes n P (List Cell)) := List.map fun q => (q.1, q.2.noModels)
  have M : ∀ zs : List (String × (Fin n → Cell)), (zs.mapM (plivInstr k c')).map f = (zs.mapM (plivInstr k c)).map f := fun zs => by
    induction zs with
    | nil => rfl
    | cons z zs ih =>
      rw [List.mapM_cons, List.mapM_cons]
      refine bind_alike (f := fun q : String × CvRes n P (List Cell) => (q.1, q.2.noModels)) ?_ fun a a' h =>
        bind_alike ih fun b b' h' => pure_alike ?_
      · unfold plivInstr
        exact bind_alike (plivPart_alike hc hm _ _) fun q q' h => pure_alike (by simp only [h])
      · exact congrArg₂ List.cons h h'
  unfold plivMultiEst
  rw [hc.y, hc.dd, hc.instrs]
  refine bind_alike (plivPart_alike hc hl _ _) fun l l' el => bind_alike (M _) fun ms ms' em =>
    bind_alike (plivPart_alike hc hr _ _) fun r r' er => ?_
  obtain ⟨a1, a2, _⟩ := noModels_parts el
  obtain ⟨p1, p2, _⟩ := noModels_parts er
  have m1 : (ms'.map fun q => (q.1, q.2.preds)) = ms.map fun q => (q.1, q.2.preds) := by
    have := congrArg (List.map fun q : String × CvRes n P (List Cell) => (q.1, q.2.preds)) em
    simpa [f, CvRes.noModels, List.map_map, Function.comp_def] using this
  have m2 : (ms'.map fun q => (q.1, q.2.targets)) = ms.map fun q => (q.1, q.2.targets) := by
    have := congrArg (List.map fun q : String × CvRes n P (List Cell) => (q.1, q.2.targets)) em
    simpa [f, CvRes.noModels, List.map_map, Function.comp_def] using this
  have mv : vecs ms' = vecs ms := by
    have := congrArg (List.map fun q : String × CvRes n P (List Cell) => q.2.vec) em
    simp only [f, List.map_map] at this
    exact this
  have ev : plivMulti k.proj c.y c.d l.vec r.vec (instrCol c') (instrPred ms') =
      plivMulti k.proj c.y c.d l.vec r.vec (instrCol c) (instrPred ms) := by
    have ec : ∀ q, (instrCol c' : Fin n → Fin q → ℝ) = instrCol c := fun q => by
      funext i j; unfold instrCol; rw [hc.instrs]
    rw [ec]
    exact instrPred_vec (fun q m => plivMulti k.proj c.y c.d l.vec r.vec (instrCol c : Fin n → Fin q → ℝ) m) mv
  simp only [Except.map, pure, Except.pure, CellOut.noModels, vec_alike el, vec_alike er, ev, a1, a2, p1, p2, m1, m2,
    hc.cluster, hc.start]

theorem plivZ_alike (k : PlivClass n P) (hr : k.ml_r.Alike c.xz c'.xz) :
    (plivZEst k c').map CellOut.noModels = (plivZEst k c).map CellOut.noModels := by
  unfold plivZEst
  rw [hc.y, hc.dd, hc.smpls]
  refine bind_alike (ssmPart_alike hc hr _ _ _ _) fun r r' er => ?_
  obtain ⟨p1, p2, _⟩ := noModels_parts er
  simp only [Except.map, pure, Except.pure, CellOut.noModels, vec_alike er, p1, p2, hc.cluster, hc.start]

theorem plivXZ_alike (k : PlivClass n P) (hl : k.ml_l.Alike (rowX c.data) (rowX c'.data)) (hm : k.ml_m.Alike c.xz c'.xz)
    (hr : k.ml_r.Alike (rowX c.data) (rowX c'.data)) :
    (plivXZEst k c').map CellOut.noModels = (plivXZEst k c).map CellOut.noModels := by
  unfold plivXZEst
  rw [hc.y, hc.dd, hc.smpls]
  refine bind_alike (ssmPart_alike hc hl _ _ _ _) fun l l' el => bind_alike (f := CvRes.noModels) ?_ fun m m' em =>
    bind_alike (f := CvRes.noModels) ?_ fun r r' er => ?_
  · unfold plivXZM
    rw [hc.dd, hc.smpls, hc.params, hc.want]
    refine bind_alike (cvPredict_alike hm _ _ _ _ _ _) fun a a' h => ?_
    rw [(noModels_parts h).1]
    exact bind_same rfl fun _ => pure_alike h
  · unfold plivXZR
    rw [hc.smpls, hc.params, hc.want, (noModels_parts em).2.2]
    refine bind_alike (cvPredict_alike hr _ _ _ _ _ _) fun a a' h => ?_
    rw [(noModels_parts h).1]
    exact bind_same rfl fun _ => pure_alike h
  · obtain ⟨a1, a2, _⟩ := noModels_parts el
    obtain ⟨b1, b2, _⟩ := noModels_parts em
    obtain ⟨p1, p2, _⟩ := noModels_parts er
    simp only [Except.map, pure, Except.pure, CellOut.noModels, vec_alike el, vec_alike em, vec_alike er, a1, a2, b1, b2,
      p1, p2, hc.cluster, hc.start]

end parts

end DML
