import Verif.Model

/-!
# The partially linear regression model as a model class

`DoubleMLPLR` (/repo/doubleml/plm/plr.py) as an instance of `Spec`: nuisance estimation by cross-fitting,
score elements, estimation, sensitivity elements.
-/

namespace DML

open Finset

variable {n : ℕ} {P : Type}

/-- The number in a cell.  Outcome and treatment are checked to be finite, so that the other cases do not
occur for them. -/
def Cell.val : Cell → ℝ
  | .num x => x
  | _ => 0

/-- Row `i` of the active covariates. -/
def rowX (D : DataState n) (i : Fin n) : List Cell := D.xv.map fun c => c i

/-- `self._get_params(learner)` as argument of `_dml_cv_predict`. -/
def toParams : Option (List P) → Params P
  | none => .default
  | some l => .perFold l

/-- `external_predictions[learner]`. -/
def CellIn.extOf (c : CellIn n P) (l : String) : Option (Fin n → ℝ) := (lookupKey l c.ext).join

/-- `self._get_params(learner)`. -/
def CellIn.paramsOf (c : CellIn n P) (l : String) : Params P := toParams (lookupKey l c.params).join

/-- Cross-fitting one learner: `_dml_cv_predict` and `_check_finite_predictions`
(e.g. /repo/doubleml/plm/plr.py:165-178). -/
noncomputable def learn (L : Learner P (List Cell)) (m : Method) (c : CellIn n P) (l : String) (target : Fin n → ℝ) :
    Except Exc (CvRes n P (List Cell)) := do
  let r ← cvPredict L { x := rowX c.data, y := .plain target, smpls := c.smpls, params := c.paramsOf l, method := m,
                        returnTrain := false, returnModels := c.wantModels }
  let _ ← checkFinite r.preds c.smpls
  return r

/-- An external prediction as a learner result. -/
def extRes (e : Fin n → ℝ) : CvRes n P (List Cell) := ⟨fun i => some (e i), none, none, none⟩

/-- No prediction (`{"preds": None, "targets": None, "models": None}`). -/
def noRes : CvRes n P (List Cell) := ⟨fun _ => none, none, none, none⟩

open Classical in
/-- `_check_binary_predictions` (/repo/doubleml/utils/_checks.py:200-209). -/
noncomputable def checkBinaryPreds (p : NV n) : Except Exc Unit :=
  if ∀ i, p i = some 0 ∨ p i = some 1 then .error .valueError else .ok ()

/-- The check of the predictions of a binary treatment (/repo/doubleml/plm/plr.py:197-198). -/
noncomputable def checkTreatPreds (c : CellIn n P) (p : NV n) : Except Exc Unit :=
  match lookupKey c.treat c.data.binTreats with
  | none => .error .keyError
  | some true => checkBinaryPreds p
  | some false => .ok ()

/-- The learners of a PLR model: `ml_l`, `ml_m`, `ml_g`; whether `ml_m` is a classifier; the score. -/
structure PlrClass (n : ℕ) (P : Type) where
  ml_l : Learner P (List Cell)
  ml_m : Learner P (List Cell)
  ml_g : Learner P (List Cell)
  mClassifier : Bool
  iv : Bool
  vars : Option (List (Fin n → Cell) → ClusterVars n) := none

/-- The predictions as numbers. -/
noncomputable def CvRes.vec (r : CvRes n P (List Cell)) (i : Fin n) : ℝ := (r.preds i).getD 0

/-- `l_hat` (/repo/doubleml/plm/plr.py:162-178). -/
noncomputable def plrL (k : PlrClass n P) (c : CellIn n P) : Except Exc (CvRes n P (List Cell)) :=
  match c.extOf "ml_l" with
  | some e => .ok (extRes e)
  | none =>
    if k.iv && (c.extOf "ml_g").isSome then .ok noRes
    else learn k.ml_l .predict c "ml_l" fun i => (c.data.yv i).val

/-- `m_hat` (/repo/doubleml/plm/plr.py:180-198). -/
noncomputable def plrM (k : PlrClass n P) (c : CellIn n P) : Except Exc (CvRes n P (List Cell)) := do
  let r ← match c.extOf "ml_m" with
    | some e => (.ok (extRes e) : Except Exc (CvRes n P (List Cell)))
    | none => learn k.ml_m (if k.mClassifier then .proba else .predict) c "ml_m" fun i => (c.data.dv i).val
  let _ ← checkTreatPreds c r.preds
  return r

/-- `g_hat` (/repo/doubleml/plm/plr.py:200-224). -/
noncomputable def plrG (k : PlrClass n P) (c : CellIn n P) (l m : CvRes n P (List Cell)) :
    Except Exc (CvRes n P (List Cell)) :=
  if k.iv then
    match c.extOf "ml_g" with
    | some e => .ok (extRes e)
    | none => learn k.ml_g .predict c "ml_g" fun i => (c.data.yv i).val -
        plrInitial (fun i => (c.data.yv i).val) (fun i => (c.data.dv i).val) l.vec m.vec * (c.data.dv i).val
  else .ok noRes

/-- The score elements (/repo/doubleml/plm/plr.py:236-251). -/
def plrElems (iv : Bool) (y d l m g : Fin n → ℝ) : PsiElems n := if iv then plrIv y d m g else plrPo y d l m

/-- The squared residuals used by the sensitivity elements (/repo/doubleml/plm/plr.py:261-268). -/
def plrResid2 (iv : Bool) (y d l m g : Fin n → ℝ) (theta : ℝ) : Fin n → ℝ :=
  if iv then plrIvResid2 y d g theta else plrPoResid2 y d l m theta

/-- The estimation of one cell (/repo/doubleml/plm/plr.py:152-287 with
/repo/doubleml/double_ml.py:1036-1063). -/
noncomputable def plrEst (k : PlrClass n P) (c : CellIn n P) :
    Except Exc (CellOut n (Option (List (FittedModel P (List Cell))))) := do
  let l ← plrL k c
  let m ← plrM k c
  let g ← plrG k c l m
  let y := fun i => (c.data.yv i).val
  let d := fun i => (c.data.dv i).val
  let f := (plrElems k.iv y d l.vec m.vec g.vec).fit c.cluster
  return { fit := f
           preds := [("ml_l", l.preds), ("ml_m", m.preds), ("ml_g", g.preds)]
           targets := [("ml_l", l.targets), ("ml_m", m.targets), ("ml_g", g.targets)]
           models := [("ml_l", l.models), ("ml_m", m.models), ("ml_g", g.models)]
           sens := plrSens (plrResid2 k.iv y d l.vec m.vec g.vec f.coef) d m.vec
           start := c.start }

/-- `DoubleMLPLR` (/repo/doubleml/plm/plr.py:87-138). -/
noncomputable def plrSpec (k : PlrClass n P) : Spec n P (Option (List (FittedModel P (List Cell)))) :=
  { learners := if k.iv then ["ml_l", "ml_m", "ml_g"] else ["ml_l", "ml_m"]
    keys := if k.iv then [("ml_l", false), ("ml_m", k.mClassifier), ("ml_g", false)]
      else [("ml_l", false), ("ml_m", k.mClassifier)]
    extImpl := true
    sensImpl := true
    stratified := false
    vars := k.vars
    est := plrEst k }

end DML
