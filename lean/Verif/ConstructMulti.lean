import Verif.Construct
import Verif.Multi
import Verif.NestedClasses

/-!
# Creating `DoubleMLAPOS` and `DoubleMLQTE` objects

The constructors of the two classes that hold a list of sub-models (/repo/doubleml/irm/apos.py:23-95,
/repo/doubleml/irm/qte.py:90-153): their own checks in the order of the code, the stratified draw and the creation of
the sub-models, each of which repeats the checks of its own constructor.

Simplifications: treatment levels and quantiles are numbers; the argument `draw_sample_splitting` is read as in an `if`
statement, arrays counting as true; if no split is drawn, an `n_folds` or `n_rep` that is not a natural number is
recorded as 0 (it is stored unchecked by the code and replaced by `set_sample_splitting`).
-/

namespace DML

variable {n : ℕ} {P : Type}

/-! ## Arguments -/

open Classical in
/-- `if draw_sample_splitting:` (/repo/doubleml/irm/apos.py:91, irm/qte.py:150). -/
noncomputable def PyVal.truthy : PyVal → Bool
  | .bool b => b
  | .int z => decide (z ≠ 0)
  | .float x => decide (x ≠ 0)
  | .str s => decide (s ≠ "")
  | .none => false
  | _ => true

open Classical in
/-- The natural number a value is equal to in a comparison of shapes. -/
noncomputable def PyVal.asNat (v : PyVal) : Option ℕ :=
  match v with
  | .float x => if x = (⌊x⌋₊ : ℝ) then some ⌊x⌋₊ else Option.none
  | v =>
    match v.asInt with
    | some z => if 0 ≤ z then some z.toNat else Option.none
    | Option.none => Option.none

open Classical in
/-- `DoubleMLResampling(n_folds, n_rep, n_obs, stratify=d).split_samples()` (/repo/doubleml/utils/resampling.py:5-27) for
integers `n_folds` and `n_rep`, with what scikit-learn's `RepeatedStratifiedKFold` requires of the number of repetitions
and of the strata (see `checkStrata`). -/
noncomputable def drawInts (strata : Fin n → ℝ) (K R : ℤ) (w : Draws n) : Except Exc (ℕ × ℕ × List (List IdxPair)) :=
  if K < 2 then .error .valueError
  else if R < 1 then .error .valueError
  else if ¬ (∀ i, ∃ z : ℤ, strata i = z) then .error .valueError
  else if ∀ i, ((List.finRange n).filter fun j => decide (strata j = strata i)).length < K.toNat then .error .valueError
  else do
    let S ← multiDraw K.toNat R.toNat w
    return (K.toNat, R.toNat, S)

/-- The same for unchecked `n_folds` and `n_rep`: the comparison `n_folds < 2`
(/repo/doubleml/utils/resampling.py:12) raises for strings and the like, scikit-learn refuses everything that is not an
integer. -/
noncomputable def stratifiedDraw (strata : Fin n → ℝ) (nFolds nRep : PyVal) (w : Draws n) :
    Except Exc (ℕ × ℕ × List (List IdxPair)) :=
  match nFolds.asInt, nRep.asInt with
  | some K, some R => drawInts strata K R w
  | some _, none => .error .valueError
  | none, _ =>
    match nFolds with
    | .float _ => .error .valueError
    | _ => .error .typeError

/-! ## APOS -/

/-- Arguments of `DoubleMLAPOS`. -/
structure AposArgs (P : Type) where
  ml_g : LearnerObj P
  ml_m : LearnerObj P
  levels : RefArg ℝ
  score : PyVal
  weights : WArg
  normalize : PyVal
  rule : PyVal
  threshold : PyVal

open Classical in
/-- `_check_treatment_levels` (/repo/doubleml/irm/apos.py:811-823): the values of the treatment variable. -/
noncomputable def checkLevels (D : DataState n) (l : RefArg ℝ) : Except Exc (List ℝ) :=
  if ∀ v ∈ l.list, ∃ i, (D.dv i).val = v then .ok l.list else .error .valueError

/-- `_check_weights(weights, score="ATE", n_obs, n_rep)` (/repo/doubleml/irm/apos.py:86) with an unchecked `n_rep`, which
only matters for dictionaries. -/
noncomputable def checkAposWeights (w : WArg) (nObs : ℕ) (nRep : PyVal) : Except Exc Unit :=
  match nRep.asNat with
  | some R => checkWeights w .ate nObs R
  | none =>
    match w with
    | .dict _ => .error .valueError
    | w => checkWeights w .ate nObs 0

/-- `_initialize_weights` (/repo/doubleml/irm/apos.py:873-880): the argument handed on to the sub-models. -/
def WArg.orOnes (w : WArg) (nObs : ℕ) : WArg :=
  match w with
  | .none => .arr ⟨[nObs], List.replicate nObs 1⟩
  | w => w

/-- The arguments of the sub-model of one level (/repo/doubleml/irm/apos.py:884-902). -/
def AposArgs.sub (a : AposArgs P) (nObs : ℕ) (l : ℝ) : ApoArgs P :=
  { ml_g := a.ml_g
    ml_m := a.ml_m
    level := l
    score := a.score
    weights := a.weights.orOnes nObs
    normalize := a.normalize
    rule := a.rule
    threshold := a.threshold }

/-- The checks of `DoubleMLAPO.__init__` after those of the base class, without a draw
(/repo/doubleml/irm/apo.py:98-142,427-451). -/
noncomputable def apoChecks (a : ApoArgs P) (D : DataState n) (nRep : ℕ) : Except Exc Unit := do
  let _ ← require (decide (D.d.length ≤ 1))
  let _ ← checkNoInstr D
  let _ ← checkTreated D a.level
  let _ ← checkScore [("APO", ())] a.score
  let g ← a.ml_g.check true true
  let _ ← a.ml_m.check false true
  let _ ← checkOutcome g D.binOut
  let _ ← checkBool a.normalize
  let _ ← checkTrimming a.rule a.threshold
  let _ ← initWeights a.weights .ate n nRep
  return ()

/-- The sub-model of one level (/repo/doubleml/irm/apos.py:897-902). -/
noncomputable def aposSub (a : AposArgs P) (D : DataState n) (k : ApoClass n P) :
    SubClass n P (Option (List (FittedModel P (List Cell)))) :=
  { spec := apoSpec k
    start := 0
    check := apoChecks (a.sub n k.level) D }

/-- `DoubleMLAPOS(obj_dml_data, ml_g, ml_m, treatment_levels, …)` (/repo/doubleml/irm/apos.py:23-95,811-909): the classes
of the sub-models and the object. -/
noncomputable def newApos (read : List (Fin n → Cell) → ClusterVars n) (a : AposArgs P) (D : DataState n) (b : Resampling n) :
    Except Exc (List (ApoClass n P) × Multi n P (Option (List (FittedModel P (List Cell))))) := do
  let _ ← checkNoInstr D
  let ls ← checkLevels D a.levels
  let _ ← checkScore [("APO", ())] a.score
  let t ← checkTrimming a.rule a.threshold
  let norm ← checkBool a.normalize
  let g ← a.ml_g.check true true
  let _ ← a.ml_m.check false true
  let _ ← checkOutcome g D.binOut
  let _ ← checkAposWeights a.weights n b.nRep
  let w ← initWeights.store n (a.weights.orOnes n)
  let ks := ls.map fun l =>
    { ml_g := a.ml_g.run
      ml_m := a.ml_m.run
      gClassifier := g
      level := l
      normalize := norm
      trimT := t
      weights := w
      vars := varsOf read D : ApoClass n P }
  if b.draw.truthy then do
    let q ← stratifiedDraw (fun i => (D.dv i).val) b.nFolds b.nRep b.first
    let ms ← (ks.map (aposSub a D)).mapM (initSub D b.first q.1 q.2.1 q.2.2)
    return (ks, ⟨q.1, q.2.1, some q.2.2, some ms, none⟩)
  else return (ks, multiEmpty ((b.nFolds.asNat).getD 0) ((b.nRep.asNat).getD 0))

/-! ## QTE -/

/-- The argument `kde`: `None`, a function, or something else. -/
inductive KdeArg | none | callable | other

/-- Arguments of `DoubleMLQTE`; a single quantile is a list with one element. -/
structure QteArgs (P : Type) where
  ml_g : LearnerObj P
  ml_m : Option (LearnerObj P)
  quantiles : List ℝ
  score : PyVal
  normalize : PyVal
  kde : KdeArg
  rule : PyVal
  threshold : PyVal

/-- What the quantile models use besides their arguments: the split of the training sets, the root finder and the
density estimator. -/
structure QuantEnv (n : ℕ) where
  nested : NestedExt n
  root : RootExt
  kde : (Fin n → ℝ) → (Fin n → ℝ) → ℝ

/-- scikit-learn's `clone`: raises for classes and for objects without `get_params`. -/
def cloneLearner (L : LearnerObj P) : Except Exc (LearnerObj P) :=
  if L.isClass || !L.hasGetParams then .error .typeError else .ok L

/-- `clone` of an argument that may be `None`, which has no `get_params`. -/
def cloneOpt (L : Option (LearnerObj P)) : Except Exc (LearnerObj P) :=
  match L with
  | some L => cloneLearner L
  | none => .error .typeError

open Classical in
/-- `_check_quantile` (/repo/doubleml/irm/qte.py:603-605). -/
noncomputable def checkQuantiles (l : List ℝ) : Except Exc Unit :=
  if ∃ q ∈ l, q ≤ 0 ∨ 1 ≤ q then .error .valueError else .ok ()

/-- /repo/doubleml/irm/qte.py:110-115. -/
def checkKde (k : KdeArg) : Except Exc Unit :=
  match k with
  | .other => .error .typeError
  | _ => .ok ()

/-- The arguments of one sub-model (/repo/doubleml/irm/qte.py:610-632); `score` is the default of its class. -/
def QteArgs.sub (a : QteArgs P) (m : LearnerObj P) (k : QuantKind) (q : ℝ) (treatment : ℤ) : QuantArgs P :=
  { ml_g := a.ml_g
    ml_m := m
    treatment := .int treatment
    quantile := .float q
    score := .str k.score
    normalize := a.normalize
    rule := a.rule
    threshold := a.threshold }

/-- The checks of the constructors of the quantile models after those of the base class, without a draw
(/repo/doubleml/irm/pq.py:125-167, irm/cvar.py:108-150, irm/lpq.py:117-172). -/
noncomputable def quantChecks (k : QuantKind) (a : QuantArgs P) (D : DataState n) : Except Exc Unit := do
  let _ ← k.checkData D
  let _ ← checkScore [(k.score, ())] a.score
  let _ ← checkQuantile a.quantile
  let _ ← checkTreatmentArg a.treatment
  let _ ← checkBool a.normalize
  let _ ← checkTrimming a.rule a.threshold
  let _ ← a.ml_g.check (decide (k = .cvar)) (decide (k ≠ .cvar))
  let _ ← a.ml_m.check false true
  return ()

/-- The created quantile model (/repo/doubleml/irm/pq.py:106-167, irm/cvar.py:90-150, irm/lpq.py:99-172): settings,
bounds and learners. -/
noncomputable def quantSpec (E : QuantEnv n) (k : QuantKind) (g m : Learner P (List Cell)) (i : QuantInit)
    (vars : Option (List (Fin n → Cell) → ClusterVars n)) (y : Fin n → ℝ) : LinSpec n P :=
  match k with
  | .pq => pqSpec ⟨g, m, i.treatment, i.q, i.trimT, i.normalize, (coefBounds y).1, (coefBounds y).2, E.nested, E.root, E.kde, vars⟩
  | .cvar => cvarSpec ⟨g, m, i.treatment, i.q, i.trimT, i.normalize, (coefBounds y).1, (coefBounds y).2, E.nested, E.root, E.kde, vars⟩
  | .lpq => lpqSpec ⟨g, m, i.treatment, i.q, i.trimT, i.normalize, (coefBounds y).1, (coefBounds y).2, E.nested, E.root, E.kde, vars⟩

/-- The start value (/repo/doubleml/irm/pq.py:148, irm/cvar.py:131-133, irm/lpq.py:141). -/
noncomputable def quantStart (k : QuantKind) (i : QuantInit) (y d : Fin n → ℝ) : ℝ :=
  match k with
  | .cvar => cvarStart y d i.treatment i.q
  | _ => pqStart y d i.treatment i.q

/-- One sub-model (/repo/doubleml/irm/qte.py:621-632). -/
noncomputable def qteSub (E : QuantEnv n) (read : List (Fin n → Cell) → ClusterVars n) (a : QteArgs P) (m : LearnerObj P)
    (k : QuantKind) (D : DataState n) (i : QuantInit) : SubClass n P (Option (List (FittedModel P (List Cell)))) :=
  { spec := quantSpec E k a.ml_g.run m.run i (varsOf read D) (fun i => (D.yv i).val)
    start := quantStart k i (fun i => (D.yv i).val) (fun i => (D.dv i).val)
    check := fun _ => quantChecks k (a.sub m k i.q i.treatment) D }

/-- The settings of the sub-models: for every quantile first control, then treatment. -/
def qteInits (l : List ℝ) (norm : Bool) (t : ℝ) : List QuantInit := l.flatMap fun q => [⟨0, q, norm, t⟩, ⟨1, q, norm, t⟩]

/-- The valid scores (/repo/doubleml/irm/qte.py:122-124). -/
def qteScores : List (String × QuantKind) := [("PQ", .pq), ("LPQ", .lpq), ("CVaR", .cvar)]

/-- `DoubleMLQTE(obj_dml_data, ml_g, ml_m, quantiles, …)` (/repo/doubleml/irm/qte.py:90-153,445-463,595-644): the sub-models
and the object.  With a draw the sub-models are created twice. -/
noncomputable def newQte (E : QuantEnv n) (read : List (Fin n → Cell) → ClusterVars n) (a : QteArgs P) (D : DataState n)
    (b : Resampling n) : Except Exc (List (SubClass n P (Option (List (FittedModel P (List Cell))))) ×
      Multi n P (Option (List (FittedModel P (List Cell))))) := do
  let _ ← checkQuantiles a.quantiles
  let _ ← checkKde a.kde
  let k ← checkScore qteScores a.score
  let _ ← checkZeroOneTreat D
  let t ← checkTrimming a.rule a.threshold
  let norm ← checkBool a.normalize
  let _ ← cloneLearner a.ml_g
  let m ← cloneOpt a.ml_m
  let cs := (qteInits a.quantiles norm t).map (qteSub E read a m k D)
  if b.draw.truthy then do
    let q ← stratifiedDraw (fun i => (D.dv i).val) b.nFolds b.nRep b.first
    let _ ← cs.mapM (initSub D b.first q.1 q.2.1 q.2.2)
    let ms ← cs.mapM (initSub D b.first q.1 q.2.1 q.2.2)
    return (cs, ⟨q.1, q.2.1, some q.2.2, some ms, none⟩)
  else return (cs, multiEmpty ((b.nFolds.asNat).getD 0) ((b.nRep.asNat).getD 0))

end DML
