import Mathlib.Data.Finset.Sort
import Verif.Py
import Verif.VarEst

/-!
# Cross-fitted predictions

`_dml_cv_predict` and the sample helpers of /repo/doubleml/utils/_estimation.py:15-147,325-343, with the
checks of predictions in /repo/doubleml/utils/_checks.py.

Learners are arbitrary deterministic functions of their parameters and their training data; they never
raise (simplification: a real learner may reject, e.g., an empty training set).  `NaN` is `none`.
-/

namespace DML

open Finset

/-- A learner: `predict` is what `clone(est).set_params(p).fit(X, y).predict` computes and `proba` the row
`predict_proba` computes, one column per class that occurs in the training labels, in increasing order.
The parameter `none` stands for a clone without `set_params`. -/
structure Learner (P X : Type) where
  predict : Option P → List (X × ℝ) → X → ℝ
  proba : Option P → List (X × ℝ) → X → List ℝ

/-- `estimator.classes_`: the sorted labels of the training data. -/
noncomputable def classesOf {X : Type} (D : List (X × ℝ)) : List ℝ := (D.map Prod.snd).toFinset.sort (· ≤ ·)

/-- The interface of scikit-learn classifiers: one column per class. -/
def Learner.Compliant {P X : Type} (L : Learner P X) : Prop :=
  ∀ p D x, (L.proba p D x).length = (classesOf D).length

/-- `method`. -/
inductive Method | predict | proba
  deriving DecidableEq

/-- `y`: one target vector or one vector of training targets per fold. -/
inductive Target (n : ℕ)
  | plain (y : Fin n → ℝ)
  | perFold (ys : List (List ℝ))

/-- `est_params`: `None`, a dictionary, or a list of dictionaries. -/
inductive Params (P : Type)
  | default
  | same (p : P)
  | perFold (ps : List P)

variable {n : ℕ} {P X : Type}

/-- Arguments of `_dml_cv_predict` (/repo/doubleml/utils/_estimation.py:46-48); `n_jobs` has no effect on the
result. -/
structure CvArgs (n : ℕ) (P X : Type) where
  x : Fin n → X
  y : Target n
  smpls : List (Fold n)
  params : Params P
  method : Method
  returnTrain : Bool
  returnModels : Bool

/-- A fitted model: its parameters and its training data determine it. -/
structure FittedModel (P X : Type) where
  params : Option P
  data : List (X × ℝ)

/-- The returned dictionary. -/
structure CvRes (n : ℕ) (P X : Type) where
  preds : Fin n → Option ℝ
  targets : Option (Fin n → Option ℝ)
  trainPreds : Option (List (List ℝ))
  models : Option (List (FittedModel P X))

/-- `_check_is_partition` (/repo/doubleml/utils/_checks.py:54-62) for index arrays. -/
def isPartition (smpls : List (Fold n)) : Bool :=
  decide ((smpls.map Fold.test).flatten.length = n) &&
    (List.finRange n).all fun i => decide (i ∈ (smpls.map Fold.test).flatten)

/-- `LabelEncoder().fit_transform(y)`: the rank of the label among all labels. -/
noncomputable def encode (y : Fin n → ℝ) (i : Fin n) : ℝ := ((univ.image y).filter fun v => v < y i).card

/-- `a[idx] = vals` for arrays with missing values. -/
noncomputable def scatter (a : Fin n → Option ℝ) (idx : List (Fin n)) (vals : List ℝ) : Fin n → Option ℝ :=
  (idx.zip vals).foldl (fun a p => Function.update a p.1 (some p.2)) a

/-- `x[train_index, :], y[train_index]`. -/
def trainData (x : Fin n → X) (y : Fin n → ℝ) (train : List (Fin n)) : List (X × ℝ) :=
  train.map fun i => (x i, y i)

/-- `cross_val_predict` with `predict_proba` (scikit-learn): probabilities of the classes missing from a
training set are filled with 0, then `preds[:, 1]` is taken
(/repo/doubleml/utils/_estimation.py:60-70).  `nClasses` is the number of labels in the whole target. -/
noncomputable def autoColumn (nClasses : ℕ) (D : List (X × ℝ)) (cols : List ℝ) : Except Exc ℝ :=
  if nClasses = (classesOf D).length then
    match cols[1]? with
    | some v => .ok v
    | none => .error .indexError
  else if (1 : ℝ) ∈ classesOf D then
    match cols[(classesOf D).idxOf 1]? with
    | some v => .ok v
    | none => .error .indexError
  else .ok 0

/-- `pred_fun(x[test_index, :])[:, 1]` (/repo/doubleml/utils/_estimation.py:121). -/
def manualColumn (cols : List ℝ) : Except Exc ℝ :=
  match cols[1]? with
  | some v => .ok v
  | none => .error .indexError

/-- Prediction of one row by `cross_val_predict`. -/
noncomputable def autoEval (L : Learner P X) (m : Method) (nClasses : ℕ) (p : Option P) (D : List (X × ℝ)) (x : X) :
    Except Exc ℝ :=
  match m with
  | .predict => .ok (L.predict p D x)
  | .proba => autoColumn nClasses D (L.proba p D x)

/-- Prediction of one row in the manual branch. -/
def manualEval (L : Learner P X) (m : Method) (f : FittedModel P X) (x : X) : Except Exc ℝ :=
  match m with
  | .predict => .ok (L.predict f.params f.data x)
  | .proba => manualColumn (L.proba f.params f.data x)

/-- The labels the learner is trained on: encoded for `predict_proba`. -/
noncomputable def fitTarget (m : Method) (y : Fin n → ℝ) : Fin n → ℝ :=
  match m with
  | .predict => y
  | .proba => encode y

/-- The branch that redirects to scikit-learn's `cross_val_predict`
(/repo/doubleml/utils/_estimation.py:58-72): predictions of the folds are concatenated and put in the order
of the observations. -/
noncomputable def autoPredict (L : Learner P X) (x : Fin n → X) (y : Fin n → ℝ) (smpls : List (Fold n))
    (p : Option P) (m : Method) : Except Exc (CvRes n P X) := do
  let parts ← smpls.mapM fun f =>
    f.test.mapM fun i => autoEval L m (univ.image y).card p (trainData x (fitTarget m y) f.train) (x i)
  let idx := (smpls.map Fold.test).flatten
  return { preds := fun i => parts.flatten[idx.idxOf i]?
           targets := some fun i => some (y i)
           trainPreds := none
           models := none }

/-- `y_list[idx][train_index]` of one fold for fold-specific targets
(/repo/doubleml/utils/_estimation.py:84-89); a length mismatch raises (simplification: numpy also accepts
arrays of length 1). -/
noncomputable def perFoldData (x : Fin n → X) (f : Fold n) (yk : Option (List ℝ)) : Except Exc (List (X × ℝ)) :=
  match yk with
  | none => .error .indexError
  | some v =>
    if v.length ≠ f.train.length then .error .valueError
    else .ok (f.train.map fun i => (x i, (scatter (fun _ => none) f.train v i).getD 0))

/-- The training data of all folds. -/
noncomputable def foldData (x : Fin n → X) (y : Target n) (m : Method) (smpls : List (Fold n)) :
    Except Exc (List (List (X × ℝ))) :=
  match y with
  | .plain y => .ok (smpls.map fun f => trainData x (fitTarget m y) f.train)
  | .perFold ys => smpls.zipIdx.mapM fun fk => perFoldData x fk.1 ys[fk.2]?

/-- The parameters of all folds (/repo/doubleml/utils/_estimation.py:94-110). -/
def foldParams (ps : Params P) (k : ℕ) : Except Exc (List (Option P)) :=
  match ps with
  | .default => .ok (List.replicate k none)
  | .same p => .ok (List.replicate k (some p))
  | .perFold l => if l.length ≠ k then .error .assertion else .ok (l.map some)

/-- One pass of the prediction loop (/repo/doubleml/utils/_estimation.py:117-124). -/
noncomputable def predictFold (L : Learner P X) (m : Method) (x : Fin n → X) (preds : Fin n → Option ℝ)
    (fm : Fold n × FittedModel P X) : Except Exc (Fin n → Option ℝ) := do
  let vals ← fm.1.test.mapM fun i => manualEval L m fm.2 (x i)
  return scatter preds fm.1.test vals

/-- The targets the manual branch returns (/repo/doubleml/utils/_estimation.py:126-130). -/
noncomputable def manualTargets (y : Target n) (m : Method) (smpls : List (Fold n)) : Option (Fin n → Option ℝ) :=
  match y with
  | .perFold _ => none
  | .plain y => some (smpls.foldl (fun a f => scatter a f.test (f.test.map (fitTarget m y))) fun _ => none)

/-- `isinstance(y, list)`. -/
def Target.isPerFold : Target n → Bool
  | .plain _ => false
  | .perFold _ => true

/-- `(est_params is not None) & (not isinstance(est_params, dict))`. -/
def Params.isPerFold : Params P → Bool
  | .perFold _ => true
  | _ => false

/-- The manual branch (/repo/doubleml/utils/_estimation.py:73-147).  `train_preds` uses `pred_fun`, i.e. for
`predict_proba` whole rows; only the `predict` case is used by the package and modelled. -/
noncomputable def manualPredict (L : Learner P X) (a : CvArgs n P X) : Except Exc (CvRes n P X) :=
  if !isPartition a.smpls && (a.y.isPerFold || decide (a.smpls.length ≠ 1)) then .error .assertion
  else if decide (a.method = .proba) && a.y.isPerFold then .error .assertion
  else do
  let data ← foldData a.x a.y a.method a.smpls
  let ps ← foldParams a.params a.smpls.length
  let models := (ps.zip data).map fun pd => (⟨pd.1, pd.2⟩ : FittedModel P X)
  let preds ← (a.smpls.zip models).foldlM (predictFold L a.method a.x) fun _ => none
  return { preds := preds
           targets := manualTargets a.y a.method a.smpls
           trainPreds := if a.returnTrain then
               some ((a.smpls.zip models).map fun fm => fm.1.train.map fun i => L.predict fm.2.params fm.2.data (a.x i))
             else none
           models := if a.returnModels then some models else none }

/-- `manual_cv_predict` (/repo/doubleml/utils/_estimation.py:52-56). -/
def CvArgs.manual (a : CvArgs n P X) : Bool :=
  !isPartition a.smpls || a.returnTrain || a.params.isPerFold || a.y.isPerFold || a.returnModels

/-- `_dml_cv_predict` (/repo/doubleml/utils/_estimation.py:46-147). -/
noncomputable def cvPredict (L : Learner P X) (a : CvArgs n P X) : Except Exc (CvRes n P X) :=
  if a.manual then manualPredict L a
  else
    match a.y, a.params with
    | .plain y, .default => autoPredict L a.x y a.smpls none a.method
    | .plain y, .same p => autoPredict L a.x y a.smpls (some p) a.method
    | _, _ => .error .assertion

/-! ## Conditional samples -/

/-- `np.intersect1d(a, b)`: the sorted distinct common elements. -/
def intersect1d (a b : List (Fin n)) : List (Fin n) := (a.toFinset ∩ b.toFinset).sort (· ≤ ·)

/-- `np.where(mask)[0]`. -/
def whereIdx (mask : Fin n → Prop) [DecidablePred mask] : List (Fin n) := (List.finRange n).filter fun i => decide (mask i)

/-- The samples with training sets reduced to `mask`. -/
def condSmpls (mask : Fin n → Prop) [DecidablePred mask] (smpls : List (Fold n)) : List (Fold n) :=
  smpls.map fun f => ⟨intersect1d (whereIdx mask) f.train, f.test⟩

/-- `_get_cond_smpls` (/repo/doubleml/utils/_estimation.py:23-26). -/
noncomputable def getCondSmpls (smpls : List (Fold n)) (b : Fin n → ℝ) : List (Fold n) × List (Fold n) :=
  (condSmpls (fun i => b i = 0) smpls, condSmpls (fun i => b i = 1) smpls)

/-- `_get_cond_smpls_2d` (/repo/doubleml/utils/_estimation.py:29-38). -/
noncomputable def getCondSmpls2d (smpls : List (Fold n)) (b₁ b₂ : Fin n → ℝ) :
    List (Fold n) × List (Fold n) × List (Fold n) × List (Fold n) :=
  (condSmpls (fun i => b₁ i = 0 ∧ b₂ i = 0) smpls, condSmpls (fun i => b₁ i = 0 ∧ b₂ i = 1) smpls,
   condSmpls (fun i => b₁ i = 1 ∧ b₂ i = 0) smpls, condSmpls (fun i => b₁ i = 1 ∧ b₂ i = 1) smpls)

/-- `_cond_targets` (/repo/doubleml/utils/_estimation.py:325-328). -/
def condTargets (t : Fin n → Option ℝ) (mask : Fin n → Prop) [DecidablePred mask] (i : Fin n) : Option ℝ :=
  if mask i then t i else none

/-- `_check_finite_predictions` (/repo/doubleml/utils/_checks.py:111-115). -/
def checkFinite (preds : Fin n → Option ℝ) (smpls : List (Fold n)) : Except Exc Unit :=
  if (smpls.map Fold.test).flatten.all fun i => (preds i).isSome then .ok () else .error .valueError

/-! ## External predictions -/

/-- A value of the inner dictionary of `external_predictions`: an array (its shape and entries; only
two-dimensional arrays have a shape that can be accepted) or something else. -/
inductive ExtVal
  | arr2 (rows cols : ℕ) (a : ℕ → ℕ → ℝ)
  | otherShape
  | notArray

/-- A value of the outer dictionary. -/
inductive ExtInner
  | dict (items : List (String × ExtVal))
  | notDict

/-- `external_predictions`. -/
inductive ExtArg
  | none
  | dict (items : List (String × ExtInner))
  | notDict

/-- `dict[key]` for association lists with distinct keys. -/
def lookupKey {α : Type} (k : String) : List (String × α) → Option α
  | [] => none
  | p :: l => if p.1 = k then some p.2 else lookupKey k l

/-- The checks of one inner value (/repo/doubleml/utils/_checks.py:314-341). -/
def checkExtVal (nObs nRep : ℕ) : ExtVal → Except Exc Unit
  | .notArray => .error .typeError
  | .otherShape => .error .valueError
  | .arr2 r c _ => if r = nObs ∧ c = nRep then .ok () else .error .valueError

/-- The checks of one treatment (/repo/doubleml/utils/_checks.py:299-341). -/
def checkExtInner (learners : List String) (nObs nRep : ℕ) : ExtInner → Except Exc Unit
  | .notDict => .error .typeError
  | .dict items =>
    if items.map Prod.fst ⊆ learners then do
      let _ ← items.mapM fun kv => checkExtVal nObs nRep kv.2
      return ()
    else .error .valueError

/-- `_check_external_predictions` (/repo/doubleml/utils/_checks.py:285-341). -/
def checkExt (treats learners : List String) (nObs nRep : ℕ) : ExtArg → Except Exc Unit
  | .none => .ok ()
  | .notDict => .error .typeError
  | .dict items =>
    if items.map Prod.fst ⊆ treats then do
      let _ ← items.mapM fun kv => checkExtInner learners nObs nRep kv.2
      return ()
    else .error .valueError

/-- The column `[:, i_rep]` of an array. -/
def extColumn (n : ℕ) (iRep : ℕ) : ExtVal → Option (Fin n → ℝ)
  | .arr2 _ _ a => some fun i => a i iRep
  | _ => none

/-- `_set_external_predictions` (/repo/doubleml/utils/_estimation.py:331-343): one entry per learner;
`external_predictions[treatment]` raises `KeyError` if the treatment has no entry.  (A treatment entry that is
not a dictionary cannot occur after the check; it is an `AttributeError`.) -/
def setExt (n : ℕ) (ext : ExtArg) (learners : List String) (treatment : String) (iRep : ℕ) :
    Except Exc (List (String × Option (Fin n → ℝ))) :=
  learners.mapM fun l =>
    match ext with
    | .none => .ok (l, none)
    | .notDict => .error .typeError
    | .dict items =>
      match lookupKey treatment items with
      | none => .error .keyError
      | some .notDict => .error .attributeError
      | some (.dict inner) => .ok (l, (lookupKey l inner).bind (extColumn n iRep))

/-- How every `_nuisance_est` uses an external prediction: verbatim if present, otherwise the estimate
(e.g. /repo/doubleml/plm/plr.py:173-190, /repo/doubleml/irm/irm.py:272-330). -/
def useExt (ext : Option (Fin n → ℝ)) (est : Except Exc (CvRes n P X)) : Except Exc (CvRes n P X) :=
  match ext with
  | some e => .ok ⟨fun i => some (e i), none, none, none⟩
  | none => est

end DML
