import Verif.Classes
import Verif.Weights

/-!
# Creating model objects

The constructors of the model classes: the checks of the data, the settings and the learners, in the order of the
code, followed by the creation of the object.  Callable scores, which are passed through unchecked, are not
modelled: `PyVal.other` stands for objects that are not callable.  Warnings are not modelled.
-/

namespace DML

variable {n : ℕ} {P : Type}

/-! ## Learners -/

/-- A learner handed to a constructor: what `_check_learner` inspects, and its behaviour.  `isClass` stands for
`isinstance(learner, type)`, `isClassifier` for scikit-learn's `is_classifier`; the others are `hasattr`. -/
structure LearnerObj (P : Type) where
  isClass : Bool
  hasFit : Bool
  hasSetParams : Bool
  hasGetParams : Bool
  hasPredict : Bool
  hasProba : Bool
  isClassifier : Bool
  run : Learner P (List Cell)

/-- `learner_is_classifier` (/repo/doubleml/double_ml.py:942-962). -/
def LearnerObj.asClassifier (L : LearnerObj P) (regressor classifier : Bool) : Bool :=
  if regressor && classifier then L.isClassifier else classifier

/-- `_check_learner` (/repo/doubleml/double_ml.py:928-972). -/
def LearnerObj.check (L : LearnerObj P) (regressor classifier : Bool) : Except Exc Bool :=
  if L.isClass then .error .typeError
  else if !L.hasFit then .error .typeError
  else if !L.hasSetParams then .error .typeError
  else if !L.hasGetParams then .error .typeError
  else if L.asClassifier regressor classifier then
    (if !L.hasProba then .error .typeError else .ok true)
  else
    (if !L.hasPredict then .error .typeError else .ok false)

/-- `_check_learner` for an argument that may be `None`, which has no method `fit`. -/
def checkLearnerOpt (L : Option (LearnerObj P)) (regressor classifier : Bool) : Except Exc Bool :=
  match L with
  | some L => L.check regressor classifier
  | none => .error .typeError

/-! ## Settings -/

/-- `_check_score` for a score that is not callable (/repo/doubleml/utils/_checks.py:118-128); the table maps the
valid names to what they mean. -/
def checkScore {α : Type} (table : List (String × α)) (v : PyVal) : Except Exc α :=
  match v with
  | .str s =>
    match lookupKey s table with
    | some a => .ok a
    | none => .error .valueError
  | _ => .error .typeError

/-- `_check_quantile` (/repo/doubleml/utils/_checks.py:173-179). -/
noncomputable def checkQuantile (v : PyVal) : Except Exc ℝ :=
  match v with
  | .float x => if x ≤ 0 ∨ x ≥ 1 then .error .valueError else .ok x
  | _ => .error .typeError

/-- `_check_treatment` (/repo/doubleml/utils/_checks.py:164-170). -/
def checkTreatmentArg (v : PyVal) : Except Exc ℤ :=
  match v.asInt with
  | none => .error .typeError
  | some z => if z ≠ 0 ∧ z ≠ 1 then .error .valueError else .ok z

/-- The argument `subgroups` of IIVM: `None`, a dictionary (keys are unique) or something else. -/
inductive SubgroupArg
  | none
  | dict (kv : List (String × PyVal))
  | other

/-- `subgroups[key]`. -/
def subgroupOf (kv : List (String × PyVal)) (key : String) : Except Exc Bool :=
  match lookupKey key kv with
  | some v => checkBool v
  | none => .error .keyError

/-- The subgroups (/repo/doubleml/irm/iivm.py:177-196): always-takers and never-takers. -/
def checkSubgroups (a : SubgroupArg) : Except Exc (Bool × Bool) :=
  match a with
  | .none => .ok (true, true)
  | .other => .error .typeError
  | .dict kv =>
    if ¬ ("always_takers" ∈ kv.map Prod.fst ∧ "never_takers" ∈ kv.map Prod.fst) ∨
        ¬ (∀ k ∈ kv.map Prod.fst, k = "always_takers" ∨ k = "never_takers") then .error .valueError
    else do
      let b ← subgroupOf kv "always_takers"
      let c ← subgroupOf kv "never_takers"
      return (b, c)

/-! ## Data -/

/-- The answers of scikit-learn's `type_of_target` that occur for one column of numbers. -/
inductive TargetType | binary | multiclass | continuous
  deriving DecidableEq

open Classical in
/-- scikit-learn's `type_of_target` of one column: raises on missing and infinite values; `continuous` if a value
is not an integer, otherwise `multiclass` if there are more than two different values. -/
noncomputable def typeOfTarget (c : Fin n → Cell) : Except Exc TargetType :=
  if ¬ finiteCol c then .error .valueError
  else if ¬ (∀ i, ∃ z : ℤ, (c i).val = z) then .ok .continuous
  else if (Finset.univ.image fun i => (c i).val).card > 2 then .ok .multiclass
  else .ok .binary

open Classical in
/-- `np.all((np.power(c, 2) - c) == 0)`. -/
noncomputable def zeroOneCol (c : Fin n → Cell) : Bool := decide (∀ i, (c i).val ^ 2 - (c i).val = 0)

/-- `type_of_target(c) == "binary"` and all values zero or one, for a column that is not missing. -/
noncomputable def isZeroOne (c : Fin n → Cell) : Except Exc Bool := do
  let t ← typeOfTarget c
  return decide (t = .binary) && zeroOneCol c

/-- The data may not contain instruments (e.g. /repo/doubleml/irm/irm.py:245-249). -/
def checkNoInstr (D : DataState n) : Except Exc Unit := if D.z.isSome then .error .valueError else .ok ()

/-- Raises unless the condition holds. -/
def require (b : Bool) : Except Exc Unit := if b then .ok () else .error .valueError

/-- One treatment variable with values zero and one (e.g. /repo/doubleml/irm/irm.py:250-259,
utils/_checks.py:151-161). -/
noncomputable def checkZeroOneTreat (D : DataState n) : Except Exc Unit := do
  let b ← isZeroOne D.dv
  require (decide (D.d.length = 1) && b)

/-- One instrument with values zero and one (/repo/doubleml/irm/iivm.py:239-252, irm/lpq.py:665-678). -/
noncomputable def checkZeroOneInstr (D : DataState n) : Except Exc Unit :=
  match D.zv with
  | some [z] => do
    let b ← isZeroOne z
    require b
  | _ => .error .valueError

/-- The time variable of DIDCS (/repo/doubleml/did/did_cs.py:202-211); `type_of_target(None)` raises a
`ValueError`. -/
noncomputable def checkZeroOneTime (D : DataState n) : Except Exc Unit :=
  match D.tv with
  | some t => do
    let b ← isZeroOne t
    require b
  | none => .error .valueError

/-- At least five observations have the treatment level (/repo/doubleml/irm/apo.py:102,439-443). -/
noncomputable def checkTreated (D : DataState n) (level : ℝ) : Except Exc Unit :=
  require (decide (5 ≤ ((List.finRange n).filter fun i => decide ((D.dv i).val = level)).length))

/-- A classifier for the outcome needs a binary outcome (e.g. /repo/doubleml/irm/irm.py:155-164). -/
def checkOutcome (classifier binOut : Bool) : Except Exc Unit := if classifier && !binOut then .error .valueError else .ok ()

/-! ## The base class -/

/-- The resampling arguments and the random draws: `first` is drawn by the base class, `second` by the classes
which stratify. -/
structure Resampling (n : ℕ) where
  nFolds : PyVal
  nRep : PyVal
  draw : PyVal
  first : Draws n
  second : Draws n

/-- How cluster variables are read off the data, which is done for `DoubleMLClusterData` only
(/repo/doubleml/double_ml.py:32-37). -/
def varsOf (read : List (Fin n → Cell) → ClusterVars n) (D : DataState n) :
    Option (List (Fin n → Cell) → ClusterVars n) := if D.cluster.isSome then some read else none

/-- The object while `DoubleML.__init__` runs: no learners, no strata. -/
def bareSpec (learners : List String) (vars : Option (List (Fin n → Cell) → ClusterVars n)) : LinSpec n P :=
  { learners := learners
    keys := []
    extImpl := false
    sensImpl := false
    stratified := false
    vars := vars
    est := fun _ => .error .notImplemented }

/-- `super().__init__(obj_dml_data, n_folds, n_rep, score, draw_sample_splitting)`
(/repo/doubleml/double_ml.py:24-112). -/
def baseInit (read : List (Fin n → Cell) → ClusterVars n) (D : DataState n) (b : Resampling n) :
    Except Exc (MState n P (Option (List (FittedModel P (List Cell))))) :=
  initModel (bareSpec [] (varsOf read D)) D 0 b.nFolds b.nRep b.draw b.first

open Classical in
/-- What scikit-learn's `StratifiedKFold` requires of the strata: integers, and not all strata smaller than the
number of folds.  Only called if a split is drawn and the data are not clustered
(/repo/doubleml/double_ml.py:1217-1230, utils/resampling.py:12-27). -/
noncomputable def checkStrata (strata : Fin n → ℝ) (D : DataState n) (b : Resampling n) (nFolds : ℕ) : Except Exc Unit :=
  match b.draw with
  | .bool true =>
    if D.cluster.isSome then .ok ()
    else if ¬ (∀ i, ∃ z : ℤ, strata i = z) then .error .valueError
    else if ∀ i, ((List.finRange n).filter fun j => decide (strata j = strata i)).length < nFolds then .error .valueError
    else .ok ()
  | _ => .ok ()

/-! ## The model classes -/

/-- Arguments of `DoubleMLIRM`. -/
structure IrmArgs (P : Type) where
  ml_g : LearnerObj P
  ml_m : LearnerObj P
  score : PyVal
  weights : WArg
  normalize : PyVal
  rule : PyVal
  threshold : PyVal

/-- The score as an argument of `_check_weights`. -/
def wScoreOf (atte : Bool) : WScore := if atte then .atte else .ate

/-- `DoubleMLIRM(obj_dml_data, ml_g, ml_m, …)` (/repo/doubleml/irm/irm.py:124-177). -/
noncomputable def newIrm (read : List (Fin n → Cell) → ClusterVars n) (a : IrmArgs P) (D : DataState n) (b : Resampling n) :
    Except Exc (IrmClass n P × MState n P (Option (List (FittedModel P (List Cell))))) := do
  let s ← baseInit (P := P) read D b
  let _ ← checkNoInstr D
  let _ ← checkZeroOneTreat D
  let atte ← checkScore [("ATE", false), ("ATTE", true)] a.score
  let _ ← checkStrata (fun i => (D.dv i).val) D b s.nFolds
  let g ← a.ml_g.check true true
  let _ ← a.ml_m.check false true
  let _ ← checkOutcome g D.binOut
  let norm ← checkBool a.normalize
  let t ← checkTrimming a.rule a.threshold
  let w ← initWeights a.weights (wScoreOf atte) n s.nRep
  let k : IrmClass n P :=
    { ml_g := a.ml_g.run
      ml_m := a.ml_m.run
      gClassifier := g
      atte := atte
      normalize := norm
      trimT := t
      weights := w
      vars := varsOf read D }
  let s ← initModel (irmSpec k) D 0 b.nFolds b.nRep b.draw b.second
  return (k, s)

/-- Arguments of `DoubleMLAPO`; the treatment level is a number. -/
structure ApoArgs (P : Type) where
  ml_g : LearnerObj P
  ml_m : LearnerObj P
  level : ℝ
  score : PyVal
  weights : WArg
  normalize : PyVal
  rule : PyVal
  threshold : PyVal

/-- `DoubleMLAPO(obj_dml_data, ml_g, ml_m, treatment_level, …)` (/repo/doubleml/irm/apo.py:83-142,427-451). -/
noncomputable def newApo (read : List (Fin n → Cell) → ClusterVars n) (a : ApoArgs P) (D : DataState n) (b : Resampling n) :
    Except Exc (ApoClass n P × MState n P (Option (List (FittedModel P (List Cell))))) := do
  let s ← baseInit (P := P) read D b
  let _ ← require (decide (D.d.length ≤ 1))
  let _ ← checkNoInstr D
  let _ ← checkTreated D a.level
  let _ ← checkScore [("APO", ())] a.score
  let _ ← checkStrata (fun i => (D.dv i).val) D b s.nFolds
  let g ← a.ml_g.check true true
  let _ ← a.ml_m.check false true
  let _ ← checkOutcome g D.binOut
  let norm ← checkBool a.normalize
  let t ← checkTrimming a.rule a.threshold
  let w ← initWeights a.weights .ate n s.nRep
  let k : ApoClass n P :=
    { ml_g := a.ml_g.run
      ml_m := a.ml_m.run
      gClassifier := g
      level := a.level
      normalize := norm
      trimT := t
      weights := w
      vars := varsOf read D }
  let s ← initModel (apoSpec k) D 0 b.nFolds b.nRep b.draw b.second
  return (k, s)

/-- Arguments of `DoubleMLIIVM`. -/
structure IivmArgs (P : Type) where
  ml_g : LearnerObj P
  ml_m : LearnerObj P
  ml_r : LearnerObj P
  score : PyVal
  subgroups : SubgroupArg
  normalize : PyVal
  rule : PyVal
  threshold : PyVal

/-- `d + 2 * v` (e.g. /repo/doubleml/irm/iivm.py:148). -/
def strata2 (D : DataState n) (v : Fin n → Cell) (i : Fin n) : ℝ := (D.dv i).val + 2 * (v i).val

/-- The first instrument; only used after `checkZeroOneInstr`. -/
def firstInstr (D : DataState n) : Fin n → Cell := ((D.zv.getD []).head?).getD fun _ => .nan

/-- `DoubleMLIIVM(obj_dml_data, ml_g, ml_m, ml_r, …)` (/repo/doubleml/irm/iivm.py:126-197). -/
noncomputable def newIivm (read : List (Fin n → Cell) → ClusterVars n) (a : IivmArgs P) (D : DataState n) (b : Resampling n) :
    Except Exc (IivmClass n P × MState n P (Option (List (FittedModel P (List Cell))))) := do
  let s ← baseInit (P := P) read D b
  let _ ← checkZeroOneTreat D
  let _ ← checkZeroOneInstr D
  let _ ← checkScore [("LATE", ())] a.score
  let _ ← checkStrata (strata2 D (firstInstr D)) D b s.nFolds
  let g ← a.ml_g.check true true
  let _ ← a.ml_m.check false true
  let _ ← a.ml_r.check false true
  let _ ← checkOutcome g D.binOut
  let norm ← checkBool a.normalize
  let t ← checkTrimming a.rule a.threshold
  let u ← checkSubgroups a.subgroups
  let k : IivmClass n P :=
    { ml_g := a.ml_g.run
      ml_m := a.ml_m.run
      ml_r := a.ml_r.run
      gClassifier := g
      alwaysTakers := u.1
      neverTakers := u.2
      normalize := norm
      trimT := t
      vars := varsOf read D }
  let s ← initModel (iivmSpec k) D 0 b.nFolds b.nRep b.draw b.second
  return (k, s)

/-- Arguments of `DoubleMLDID` and `DoubleMLDIDCS`. -/
structure DidArgs (P : Type) where
  ml_g : LearnerObj P
  ml_m : Option (LearnerObj P)
  score : PyVal
  inSample : PyVal
  rule : PyVal
  threshold : PyVal

/-- The propensity learner is only looked at for the score `observational` (/repo/doubleml/did/did.py:115-127). -/
def checkDidM (a : DidArgs P) (score : DidScore) : Except Exc Bool :=
  match score with
  | .observational => checkLearnerOpt a.ml_m false true
  | .experimental => .ok false

/-- The object: without `ml_m` its place is taken by `ml_g`, which is then never used as propensity learner. -/
def didOf (a : DidArgs P) (g : Bool) (score : DidScore) (norm : Bool) (t : ℝ)
    (vars : Option (List (Fin n → Cell) → ClusterVars n)) : DidClass n P :=
  { ml_g := a.ml_g.run
    ml_m := (a.ml_m.getD a.ml_g).run
    gClassifier := g
    score := score
    normalize := norm
    trimT := t
    vars := vars }

/-- The valid scores. -/
def didScores : List (String × DidScore) := [("observational", .observational), ("experimental", .experimental)]

/-- `DoubleMLDID(obj_dml_data, ml_g, ml_m, …)` (/repo/doubleml/did/did.py:82-148). -/
noncomputable def newDid (read : List (Fin n → Cell) → ClusterVars n) (a : DidArgs P) (D : DataState n) (b : Resampling n) :
    Except Exc (DidClass n P × MState n P (Option (List (FittedModel P (List Cell))))) := do
  let s ← baseInit (P := P) read D b
  let _ ← checkNoInstr D
  let _ ← checkZeroOneTreat D
  let score ← checkScore didScores a.score
  let norm ← checkBool a.inSample
  let _ ← checkStrata (fun i => (D.dv i).val) D b s.nFolds
  let g ← a.ml_g.check true true
  let _ ← checkDidM a score
  let _ ← checkOutcome g D.binOut
  let t ← checkTrimming a.rule a.threshold
  let k := didOf a g score norm t (varsOf read D)
  let s ← initModel (didSpec k) D 0 b.nFolds b.nRep b.draw b.second
  return (k, s)

/-- The time variable; only used after `checkZeroOneTime`. -/
def timeCol (D : DataState n) : Fin n → Cell := D.tv.getD fun _ => .nan

/-- `DoubleMLDIDCS(obj_dml_data, ml_g, ml_m, …)` (/repo/doubleml/did/did_cs.py:82-149). -/
noncomputable def newDidCs (read : List (Fin n → Cell) → ClusterVars n) (a : DidArgs P) (D : DataState n) (b : Resampling n) :
    Except Exc (DidClass n P × MState n P (Option (List (FittedModel P (List Cell))))) := do
  let s ← baseInit (P := P) read D b
  let _ ← checkNoInstr D
  let _ ← checkZeroOneTreat D
  let _ ← checkZeroOneTime D
  let score ← checkScore didScores a.score
  let norm ← checkBool a.inSample
  let _ ← checkStrata (strata2 D (timeCol D)) D b s.nFolds
  let g ← a.ml_g.check true true
  let _ ← checkDidM a score
  let _ ← checkOutcome g D.binOut
  let t ← checkTrimming a.rule a.threshold
  let k := didOf a g score norm t (varsOf read D)
  let s ← initModel (csSpec k) D 0 b.nFolds b.nRep b.draw b.second
  return (k, s)

/-- Arguments of `DoubleMLSSM`. -/
structure SsmArgs (P : Type) where
  ml_g : LearnerObj P
  ml_pi : LearnerObj P
  ml_m : LearnerObj P
  score : PyVal
  normalize : PyVal
  rule : PyVal
  threshold : PyVal

/-- `_check_data` of SSM (/repo/doubleml/irm/ssm.py:185-202): neither the treatment nor the selection variable is
looked at.  The score has not been checked yet. -/
def checkSsmData (score : PyVal) (D : DataState n) : Except Exc Unit :=
  match score with
  | .str s => require (D.z.isSome || decide (s ≠ "nonignorable"))
  | _ => .ok ()

/-- `self._dml_data.s.reshape(-1, 1)` (/repo/doubleml/irm/ssm.py:130). -/
def selCol (D : DataState n) : Except Exc (Fin n → Cell) :=
  match D.sv with
  | some s => .ok s
  | none => .error .attributeError

/-- `DoubleMLSSM(obj_dml_data, ml_g, ml_pi, ml_m, …)` (/repo/doubleml/irm/ssm.py:102-158).  The flag tells whether the
score is `nonignorable`.  The outcome check `_check_binary_outcome` reads the data afresh; it agrees with the stored
flag for data that were not changed. -/
noncomputable def newSsm (read : List (Fin n → Cell) → ClusterVars n) (a : SsmArgs P) (D : DataState n) (b : Resampling n) :
    Except Exc (Bool × SsmClass n P × MState n P (Option (List (FittedModel P (List Cell))))) := do
  let s ← baseInit (P := P) read D b
  let t ← checkTrimming a.rule a.threshold
  let _ ← checkSsmData a.score D
  let nonign ← checkScore [("missing-at-random", false), ("nonignorable", true)] a.score
  let sel ← selCol D
  let _ ← checkStrata (strata2 D sel) D b s.nFolds
  let g ← a.ml_g.check true true
  let _ ← a.ml_pi.check false true
  let _ ← a.ml_m.check false true
  let _ ← checkOutcome g (isBinaryCol D.yv)
  let norm ← checkBool a.normalize
  let k : SsmClass n P :=
    { ml_g := a.ml_g.run
      ml_pi := a.ml_pi.run
      ml_m := a.ml_m.run
      gClassifier := g
      normalize := norm
      trimT := t
      vars := varsOf read D }
  let s ← initModel (ssmSpec k) D 0 b.nFolds b.nRep b.draw b.second
  return (nonign, k, s)

/-- Arguments of `DoubleMLPLR`. -/
structure PlrArgs (P : Type) where
  ml_l : LearnerObj P
  ml_m : LearnerObj P
  ml_g : Option (LearnerObj P)
  score : PyVal

/-- `ml_g` is only looked at for the score `IV-type` (/repo/doubleml/plm/plr.py:103-117). -/
def checkPlrG (a : PlrArgs P) (iv : Bool) : Except Exc Bool :=
  match a.ml_g with
  | some g => if iv then g.check true false else .ok false
  | none => .ok false

/-- The names of the two scores of PLR and PLIV. -/
def plScores : List (String × Bool) := [("IV-type", true), ("partialling out", false)]

/-- A classifier for the treatment needs binary treatments (/repo/doubleml/plm/plr.py:122-131). -/
def checkTreatClassifier (classifier : Bool) (D : DataState n) : Except Exc Unit :=
  if classifier && !(D.binTreats.all fun q => q.2) then .error .valueError else .ok ()

/-- `DoubleMLPLR(obj_dml_data, ml_l, ml_m, ml_g, …)` (/repo/doubleml/plm/plr.py:90-135): without `ml_g` a clone of
`ml_l` is used. -/
noncomputable def newPlr (read : List (Fin n → Cell) → ClusterVars n) (a : PlrArgs P) (D : DataState n) (b : Resampling n) :
    Except Exc (PlrClass n P × MState n P (Option (List (FittedModel P (List Cell))))) := do
  let _ ← baseInit (P := P) read D b
  let _ ← checkNoInstr D
  let iv ← checkScore plScores a.score
  let _ ← a.ml_l.check true false
  let m ← a.ml_m.check true true
  let _ ← checkPlrG a iv
  let _ ← checkTreatClassifier m D
  let k : PlrClass n P :=
    { ml_l := a.ml_l.run
      ml_m := a.ml_m.run
      ml_g := (a.ml_g.getD a.ml_l).run
      mClassifier := m
      iv := iv
      vars := varsOf read D }
  let s ← initModel (plrSpec k) D 0 b.nFolds b.nRep b.draw b.first
  return (k, s)

/-- Arguments of `DoubleMLPLIV`. -/
structure PlivArgs (n : ℕ) (P : Type) where
  ml_l : LearnerObj P
  ml_m : LearnerObj P
  ml_r : LearnerObj P
  ml_g : Option (LearnerObj P)
  score : PyVal
  proj : {k : ℕ} → (Fin n → Fin k → ℝ) → (Fin n → ℝ) → Fin n → ℝ

/-- `n_instr`. -/
def DataState.nInstr (D : DataState n) : ℕ := (D.z.getD []).length

/-- `_check_score` of PLIV (/repo/doubleml/plm/pliv.py:193-204). -/
def plivScores (D : DataState n) : List (String × Bool) :=
  if D.nInstr = 1 then plScores else [("partialling out", false)]

/-- `ml_g` is required for the score `IV-type` (/repo/doubleml/plm/pliv.py:118-131). -/
def checkPlivG (a : PlivArgs n P) (iv : Bool) : Except Exc Bool :=
  if iv then
    match a.ml_g with
    | some g => g.check true false
    | none => .error .valueError
  else .ok false

/-- The specification of the object: several instruments have a nuisance part each. -/
noncomputable def plivSpecOf (k : PlivClass n P) (D : DataState n) : LinSpec n P :=
  if D.nInstr = 1 then plivSpec k else plivMultiSpec k (D.z.getD [])

/-- `DoubleMLPLIV(obj_dml_data, ml_l, ml_m, ml_r, ml_g, …)` (/repo/doubleml/plm/pliv.py:96-136). -/
noncomputable def newPliv (read : List (Fin n → Cell) → ClusterVars n) (a : PlivArgs n P) (D : DataState n) (b : Resampling n) :
    Except Exc (PlivClass n P × MState n P (Option (List (FittedModel P (List Cell))))) := do
  let _ ← baseInit (P := P) read D b
  let _ ← require (decide (D.nInstr ≠ 0))
  let iv ← checkScore (plivScores D) a.score
  let _ ← a.ml_l.check true false
  let _ ← a.ml_m.check true false
  let _ ← a.ml_r.check true false
  let _ ← checkPlivG a iv
  let k : PlivClass n P :=
    { ml_l := a.ml_l.run
      ml_m := a.ml_m.run
      ml_r := a.ml_r.run
      ml_g := (a.ml_g.getD a.ml_l).run
      iv := iv
      proj := a.proj
      vars := varsOf read D }
  let s ← initModel (plivSpecOf k D) D 0 b.nFolds b.nRep b.draw b.first
  return (k, s)

/-- Arguments of `DoubleMLPQ`, `DoubleMLCVAR` and `DoubleMLLPQ`. -/
structure QuantArgs (P : Type) where
  ml_g : LearnerObj P
  ml_m : LearnerObj P
  treatment : PyVal
  quantile : PyVal
  score : PyVal
  normalize : PyVal
  rule : PyVal
  threshold : PyVal

/-- The checked settings of a quantile model. -/
structure QuantInit where
  treatment : ℤ
  q : ℝ
  normalize : Bool
  trimT : ℝ

/-- Which of the quantile models. -/
inductive QuantKind | pq | cvar | lpq
  deriving DecidableEq

/-- The score name of the class. -/
def QuantKind.score : QuantKind → String
  | .pq => "PQ"
  | .cvar => "CVaR"
  | .lpq => "LPQ"

/-- The nuisance parts (/repo/doubleml/irm/pq.py:251-252, irm/cvar.py:201-202, irm/lpq.py:272-276). -/
def QuantKind.learners : QuantKind → List String
  | .lpq => ["ml_m_z", "ml_g_du_z0", "ml_g_du_z1", "ml_m_d_z0", "ml_m_d_z1"]
  | _ => ["ml_g", "ml_m"]

/-- `_check_data` (/repo/doubleml/irm/pq.py:447-454, irm/lpq.py:659-679). -/
noncomputable def QuantKind.checkData (q : QuantKind) (D : DataState n) : Except Exc Unit := do
  let _ ← (match q with | .lpq => .ok () | _ => checkNoInstr D)
  let _ ← checkZeroOneTreat D
  match q with
  | .lpq => checkZeroOneInstr D
  | _ => .ok ()

/-- The strata (/repo/doubleml/irm/pq.py:151, irm/lpq.py:144). -/
def QuantKind.strata (q : QuantKind) (D : DataState n) : Fin n → ℝ :=
  match q with
  | .lpq => strata2 D (firstInstr D)
  | _ => fun i => (D.dv i).val

/-- The constructors of the quantile models (/repo/doubleml/irm/pq.py:106-167, irm/cvar.py:90-150,
irm/lpq.py:99-172): `ml_g` is a regressor for CVaR and a classifier otherwise.  The starting value, which the object
computes from the outcomes of the treatment arm, and the density estimator are not modelled. -/
noncomputable def newQuant (q : QuantKind) (read : List (Fin n → Cell) → ClusterVars n) (a : QuantArgs P)
    (D : DataState n) (b : Resampling n) :
    Except Exc (QuantInit × MState n P (Option (List (FittedModel P (List Cell))))) := do
  let s ← baseInit (P := P) read D b
  let _ ← q.checkData D
  let _ ← checkScore [(q.score, ())] a.score
  let u ← checkQuantile a.quantile
  let v ← checkTreatmentArg a.treatment
  let norm ← checkBool a.normalize
  let _ ← checkStrata (q.strata D) D b s.nFolds
  let t ← checkTrimming a.rule a.threshold
  let _ ← a.ml_g.check (decide (q = .cvar)) (decide (q ≠ .cvar))
  let _ ← a.ml_m.check false true
  let s ← initModel (bareSpec q.learners (varsOf read D)) D 0 b.nFolds b.nRep b.draw b.second
  return (⟨v, u, norm, t⟩, s)

end DML
