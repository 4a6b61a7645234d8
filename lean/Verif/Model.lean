import Verif.Data
import Verif.Splitting
import Verif.CrossFit
import Verif.LinearScore
import Verif.Scores
import Verif.FrameworkState

/-!
# The model object as a state machine

`DoubleML` (/repo/doubleml/double_ml.py): construction, `fit`, `draw_sample_splitting`,
`set_sample_splitting`, `set_ml_nuisance_params`, `tune` and the delegation of inference to the framework.

What a concrete model class adds (`_nuisance_est`, `_est_coef`, `_sensitivity_element_est`) is a parameter
(`Spec.est`): a deterministic function of what these methods read.

Python lists and arrays that are shared between objects matter for the properties: the arrays `_all_coef`,
`_all_se` and `_var_scaling_factors` are handed to the framework without copying
(/repo/doubleml/double_ml.py:552-559, /repo/doubleml/double_ml_framework.py:54-59) and live in a heap here.
`NaN` is `none`.
-/

namespace DML

open Finset

/-- A float vector with missing values. -/
abbrev NV (n : ℕ) := Fin n → Option ℝ

/-- What `_nuisance_est` and the estimation of one treatment and repetition read
(/repo/doubleml/double_ml.py:1015-1053): the data with the active treatment, the folds of the repetition, the
cluster information, `_get_params(learner)` of every learner, the external predictions, `_coef_start_val` of
nonlinear scores, `return_models` and the index of the repetition (read by `_get_weights`). -/
structure CellIn (n : ℕ) (P : Type) where
  data : DataState n
  treat : String
  smpls : List (Fold n)
  cluster : Option (ClusterRep n)
  params : List (String × Option (List P))
  ext : List (String × Option (Fin n → ℝ))
  start : ℝ
  wantModels : Bool
  rep : ℕ

/-- What the estimation of one treatment and repetition produces. -/
structure CellOut (n : ℕ) (M : Type) where
  fit : FitOne n
  preds : List (String × NV n)
  targets : List (String × Option (NV n))
  models : List (String × M)
  sens : SensElems n
  start : ℝ

/-- A model class: `params_names`, the keys of `_learner` with the answer of `is_classifier`, whether external
predictions and sensitivity analysis are implemented, whether drawn splits are stratified, how cluster labels
are read off the cluster columns (`none`: no cluster data), and the estimation of one cell. -/
structure Spec (n : ℕ) (P M : Type) where
  learners : List String
  keys : List (String × Bool)
  extImpl : Bool
  sensImpl : Bool
  stratified : Bool
  vars : Option (List (Fin n → Cell) → ClusterVars n)
  est : CellIn n P → Except Exc (CellOut n M)

/-- The arrays `_all_coef`, `_all_se` (treatments × repetitions) and `_var_scaling_factors`. -/
structure Arr where
  nT : ℕ
  nR : ℕ
  coef : ℕ → ℕ → Option ℝ
  se : ℕ → ℕ → Option ℝ
  vsf : ℕ → Option ℝ

/-- `np.full(…, np.nan)` (/repo/doubleml/double_ml.py:1064-1079). -/
def Arr.fresh (nT nR : ℕ) : Arr := ⟨nT, nR, fun _ _ => none, fun _ _ => none, fun _ => none⟩

/-- A framework object: its number of repetitions, its own state, and the address of the arrays it shares
with the model that made it. -/
structure FwObj (n : ℕ) where
  r : ℕ
  addr : ℕ
  st : RState n r

/-- The attributes of a model object. -/
structure MState (n : ℕ) (P M : Type) where
  data : DataState n
  heap : ℕ → Arr
  next : ℕ
  arr : ℕ
  scores : ℕ → ℕ → Option ((Fin n → ℝ) × (Fin n → ℝ))
  coef : ℕ → Option ℝ
  se : ℕ → Option ℝ
  nRep : ℕ
  nFolds : ℕ
  nFoldsPer : ℕ
  smpls : Option (List (List (Fold n)))
  smplsCluster : Option (List (List ClusterFold))
  params : String → String → Option (List (Option (List P)))
  preds : Option (ℕ → ℕ → Option (List (String × NV n) × List (String × Option (NV n))))
  loss : Option (ℕ → ℕ → Option (List (String × Option ℝ)))
  models : Option (ℕ → ℕ → Option (List (String × M)))
  sens : Option (ℕ → ℕ → Option (SensElems n))
  framework : Option (FwObj n)
  start : ℝ

variable {n : ℕ} {P M : Type}

/-- `a[j, k] = v`. -/
def set2 {α : Type} (f : ℕ → ℕ → α) (j k : ℕ) (v : α) (a b : ℕ) : α := if a = j ∧ b = k then v else f a b

/-- The framework as its methods see it: the shared arrays are read from the heap. -/
noncomputable def FwObj.view (h : ℕ → Arr) (o : FwObj n) : RState n o.r :=
  { o.st with
    fw := { o.st.fw with
      blocks := o.st.fw.blocks.zipIdx.map fun bj =>
        { bj.1 with
          allTheta := fun k => ((h o.addr).coef bj.2 k).getD 0
          allSe := fun k => ((h o.addr).se bj.2 k).getD 0
          vsf := ((h o.addr).vsf bj.2).getD 0 } } }

/-! ## Nuisance losses -/

/-- `np.nanmean`. -/
noncomputable def nanmean (f : NV n) : Option ℝ :=
  if (univ.filter fun i => (f i).isSome).card = 0 then none
  else some ((∑ i, (f i).getD 0) / (univ.filter fun i => (f i).isSome).card)

/-- The term of observation `i` in the loss (/repo/doubleml/double_ml.py:1119-1126). -/
noncomputable def lossTerm (cls : Bool) (p t : Option ℝ) : Option ℝ :=
  match p, t with
  | some p, some t =>
    if cls then
      some (t * Real.log (min (1 - 1e-15) (max p 1e-15)) + (1 - t) * Real.log (1 - min (1 - 1e-15) (max p 1e-15)))
    else some ((t - p) ^ 2)
  | _, _ => none

/-- The loss of one learner: minus the mean log likelihood for classifiers, the root mean squared error for
regressors (/repo/doubleml/double_ml.py:1119-1126). -/
noncomputable def lossOf (cls : Bool) (p t : NV n) : Option ℝ :=
  if cls then (nanmean fun i => lossTerm true (p i) (t i)).map fun v => -v
  else (nanmean fun i => lossTerm false (p i) (t i)).map Real.sqrt

/-- The loss reported for one learner (/repo/doubleml/double_ml.py:1106-1128): `NaN` without target. -/
noncomputable def learnerLoss (keys : List (String × Bool)) (preds : List (String × NV n))
    (targets : List (String × Option (NV n))) (l : String) : Except Exc (String × Option ℝ) :=
  match keys.filter fun k => decide (k.1.toList <:+: l.toList) with
  | [k] =>
    match lookupKey l targets with
    | none => .error .keyError
    | some none => .ok (l, none)
    | some (some t) =>
      match lookupKey l preds with
      | none => .error .keyError
      | some p => .ok (l, lossOf k.2 p t)
  | _ => .error .assertion

/-- `_calc_nuisance_loss` (/repo/doubleml/double_ml.py:1104-1128). -/
noncomputable def calcLoss (sp : Spec n P M) (preds : List (String × NV n)) (targets : List (String × Option (NV n))) :
    Except Exc (List (String × Option ℝ)) :=
  sp.learners.mapM (learnerLoss sp.keys preds targets)

/-! ## fit -/

/-- Arguments of `fit` (/repo/doubleml/double_ml.py:473). -/
structure FitArgs where
  nJobs : PyVal := .none
  storePredictions : PyVal := .bool true
  ext : ExtArg := .none
  storeModels : PyVal := .bool false

/-- `n_jobs_cv` is `None` or an integer. -/
def checkJobs (v : PyVal) : Except Exc Unit :=
  match v with
  | .none => .ok ()
  | v => match v.asInt with
    | some _ => .ok ()
    | none => .error .typeError

/-- `external_predictions is not None`. -/
def ExtArg.given : ExtArg → Bool
  | .none => false
  | _ => true

/-- The check of the external predictions in `_check_fit` (/repo/doubleml/double_ml.py:986-998). -/
def checkFitExt (sp : Spec n P M) (s : MState n P M) (e : ExtArg) : Except Exc Unit :=
  if sp.extImpl then checkExt s.data.d sp.learners n s.nRep e
  else if e.given then .error .notImplemented
  else .ok ()

/-- `_check_fit` (/repo/doubleml/double_ml.py:974-998): whether predictions and models are stored. -/
def checkFit (sp : Spec n P M) (s : MState n P M) (a : FitArgs) : Except Exc (Bool × Bool) := do
  let _ ← checkJobs a.nJobs
  let p ← checkBool a.storePredictions
  let m ← checkBool a.storeModels
  let _ ← checkFitExt sp s a.ext
  return (p, m)

/-- `_initalize_fit` (/repo/doubleml/double_ml.py:1000-1013). -/
def initFit (sp : Spec n P M) (s : MState n P M) (storeP storeM : Bool) : MState n P M :=
  { s with
    loss := some fun _ _ => none
    preds := if storeP then some fun _ _ => none else s.preds
    models := if storeM then some fun _ _ => none else s.models
    sens := if sp.sensImpl then some fun _ _ => none else s.sens }

/-- The selection of the treatment in the loop (/repo/doubleml/double_ml.py:512-513): only with several
treatments. -/
noncomputable def activate (F : Frame n) (D : DataState n) (j : ℕ) : Except Exc (DataState n) :=
  match D.d[j]? with
  | none => .error .indexError
  | some tv => if D.d.length > 1 then setXD F D tv else .ok D

/-- `self._smpls[self._i_rep]` (/repo/doubleml/double_ml.py:451-453). -/
def repSmpls (s : MState n P M) (k : ℕ) : Except Exc (List (Fold n)) :=
  match s.smpls with
  | none => .error .typeError
  | some l => match l[k]? with
    | none => .error .indexError
    | some f => .ok f

/-- The cluster information of repetition `k` (/repo/doubleml/double_ml.py:1312-1338). -/
def repCluster (sp : Spec n P M) (s : MState n P M) (smpls : List (Fold n)) (k : ℕ) : Except Exc (Option (ClusterRep n)) :=
  match sp.vars with
  | none => .ok none
  | some v =>
    match s.smplsCluster with
    | none => .error .typeError
    | some l => match l[k]? with
      | none => .error .indexError
      | some c => .ok (some ⟨v s.data.cv, smpls, c, s.nFoldsPer⟩)

/-- `_get_params(learner)` (/repo/doubleml/double_ml.py:296-297). -/
def getParams (s : MState n P M) (tv : String) (k : ℕ) (l : String) : Except Exc (String × Option (List P)) :=
  match s.params l tv with
  | none => .error .keyError
  | some ps => match ps[k]? with
    | none => .error .indexError
    | some p => .ok (l, p)

/-- The inputs of one cell, for the state in which the treatment is active
(/repo/doubleml/double_ml.py:1015-1023). -/
def cellIn (sp : Spec n P M) (s : MState n P M) (ext : ExtArg) (wantModels : Bool) (tv : String) (k : ℕ) :
    Except Exc (CellIn n P) := do
  let e ← setExt n ext sp.learners tv k
  let f ← repSmpls s k
  let c ← repCluster sp s f k
  let p ← sp.learners.mapM (getParams s tv k)
  return ⟨s.data, tv, f, c, p, e, s.start, wantModels, k⟩

/-- The writes of one cell (/repo/doubleml/double_ml.py:1025-1063). -/
def writeCell (sp : Spec n P M) (storeP storeM : Bool) (s : MState n P M) (k j : ℕ) (o : CellOut n M)
    (loss : List (String × Option ℝ)) : MState n P M :=
  { s with
    heap := Function.update s.heap s.arr
      { s.heap s.arr with
        coef := set2 (s.heap s.arr).coef j k (some o.fit.coef)
        se := set2 (s.heap s.arr).se j k (some o.fit.se)
        vsf := Function.update (s.heap s.arr).vsf j (some o.fit.vsf) }
    scores := set2 s.scores j k (some (o.fit.psi, o.fit.deriv))
    loss := s.loss.map fun f => set2 f j k (some loss)
    preds := if storeP then s.preds.map fun f => set2 f j k (some (o.preds, o.targets)) else s.preds
    models := if storeM then s.models.map fun f => set2 f j k (some o.models) else s.models
    sens := if sp.sensImpl then s.sens.map fun f => set2 f j k (some o.sens) else s.sens }

/-- Storing the results of one cell: writing outside the arrays raises; the losses are computed before the
coefficient is stored. -/
noncomputable def storeCell (sp : Spec n P M) (storeP storeM : Bool) (s : MState n P M) (k j : ℕ) (o : CellOut n M) :
    MState n P M × Except Exc Unit :=
  if j < (s.heap s.arr).nT ∧ k < (s.heap s.arr).nR then
    match calcLoss sp o.preds o.targets with
    | .error e => (s, .error e)
    | .ok l => (writeCell sp storeP storeM s k j o l, .ok ())
  else (s, .error .indexError)

/-- One pass of the inner loop of `fit` (/repo/doubleml/double_ml.py:508-524). -/
noncomputable def fitCell (F : Frame n) (sp : Spec n P M) (ext : ExtArg) (storeP storeM : Bool) (s : MState n P M)
    (kj : ℕ × ℕ) : MState n P M × Except Exc Unit :=
  match activate F s.data kj.2 with
  | .error e => (s, .error e)
  | .ok D =>
    match (cellIn sp { s with data := D } ext storeM (D.d.getD kj.2 "") kj.1).bind sp.est with
    | .error e => ({ s with data := D }, .error e)
    | .ok o => storeCell sp storeP storeM { s with data := D, start := o.start } kj.1 kj.2 o

/-- The pairs (repetition, treatment) in the order of the loops. -/
def cellOrder (nRep nTreat : ℕ) : List (ℕ × ℕ) :=
  (List.range nRep).flatMap fun k => (List.range nTreat).map fun j => (k, j)

/-- The loops of `fit` (/repo/doubleml/double_ml.py:505-524); an exception ends them and keeps what has been
written. -/
noncomputable def fitLoop (F : Frame n) (sp : Spec n P M) (ext : ExtArg) (storeP storeM : Bool) :
    MState n P M → List (ℕ × ℕ) → MState n P M × Except Exc Unit
  | s, [] => (s, .ok ())
  | s, c :: cs =>
    match fitCell F sp ext storeP storeM s c with
    | (s, .error e) => (s, .error e)
    | (s, .ok ()) => fitLoop F sp ext storeP storeM s cs

/-- The row `j` of an array over repetitions. -/
noncomputable def rowOf (f : ℕ → ℕ → Option ℝ) (r j : ℕ) (k : Fin r) : ℝ := (f j k).getD 0

open Classical in
/-- `_aggregate_coefs_and_ses` (/repo/doubleml/utils/_estimation.py:242-256), estimate of treatment `j`;
`NaN` if a repetition is `NaN`. -/
noncomputable def aggCoef (A : Arr) (j : ℕ) : Option ℝ :=
  if j < A.nT ∧ ∀ k < A.nR, (A.coef j k).isSome then some (aggTheta (rowOf A.coef A.nR j)) else none

open Classical in
/-- `_aggregate_coefs_and_ses`, standard error of treatment `j`. -/
noncomputable def aggSes (A : Arr) (j : ℕ) : Option ℝ :=
  if j < A.nT ∧ ∀ k < A.nR, (A.coef j k).isSome ∧ (A.se j k).isSome then
    some (aggSe (rowOf A.coef A.nR j) (rowOf A.se A.nR j) fun _ => (A.vsf j).getD 0)
  else none

/-- Placeholder for sensitivity elements that have not been computed. -/
def SensElems.zero : SensElems n := ⟨0, 0, fun _ => 0, fun _ => 0, fun _ => 0⟩

/-- `_validate_sensitivity_elements` (/repo/doubleml/double_ml.py:1439-1458) on the stored arrays. -/
noncomputable def validAt (S : ℕ → ℕ → Option (SensElems n)) (r j k : ℕ) : Option (SensElems n) :=
  if h : k < r then some (validateSens (fun i : Fin r => (S j i).getD .zero) ⟨k, h⟩) else none

/-- `_compute_sensitivity_bias` (/repo/doubleml/utils/_sensitivity.py:4-7), second component. -/
noncomputable def SensElems.psiMaxBias (e : SensElems n) (i : Fin n) : ℝ :=
  (e.sigma2 * e.psiNu2 i + e.nu2 * e.psiSigma2 i) / (2 * e.maxBias)

/-- Block `j` of the framework (/repo/doubleml/double_ml.py:548-560). -/
noncomputable def blockOf (r : ℕ) (s : MState n P M) (j : ℕ) : Block n r :=
  { theta := (s.coef j).getD 0
    se := (s.se j).getD 0
    allTheta := rowOf (s.heap s.arr).coef r j
    allSe := rowOf (s.heap s.arr).se r j
    vsf := ((s.heap s.arr).vsf j).getD 0
    psi := fun i k => ((s.scores j k).map fun p => p.1 i / mean p.2).getD 0 }

/-- Sensitivity elements of treatment `j` (/repo/doubleml/double_ml.py:562-583). -/
noncomputable def sensBlock (S : ℕ → ℕ → Option (SensElems n)) (r j : ℕ) : Sens n r × Bench r :=
  (⟨fun k => ((S j k).getD .zero).maxBias, fun i k => ((S j k).getD .zero).psiMaxBias i⟩,
   ⟨fun k => ((S j k).getD .zero).sigma2, fun k => ((S j k).getD .zero).nu2⟩)

/-- `construct_framework` (/repo/doubleml/double_ml.py:537-599) with `r` repetitions. -/
noncomputable def frameworkOf (r : ℕ) (sp : Spec n P M) (s : MState n P M) : FW n r :=
  { blocks := (List.range (s.heap s.arr).nT).map (blockOf r s)
    cluster := sp.vars.map fun v k =>
      ⟨v s.data.cv, ((s.smpls.getD []).getD k []), ((s.smplsCluster.getD []).getD k []), s.nFoldsPer⟩
    sens := if sp.sensImpl then s.sens.map fun S => (List.range s.data.d.length).map fun j => (sensBlock S _ j).1 else none
    bench := if sp.sensImpl then s.sens.map fun S => (List.range s.data.d.length).map fun j => (sensBlock S _ j).2 else none
    names := some s.data.d }

/-- The aggregation after the loops (/repo/doubleml/double_ml.py:527-530). -/
noncomputable def aggregate (sp : Spec n P M) (s : MState n P M) : MState n P M :=
  { s with
    coef := aggCoef (s.heap s.arr)
    se := aggSes (s.heap s.arr)
    sens := if sp.sensImpl then s.sens.map fun S => validAt S s.nRep else s.sens }

/-- `self._framework = self.construct_framework()` (/repo/doubleml/double_ml.py:533). -/
noncomputable def finishAt (r : ℕ) (sp : Spec n P M) (s : MState n P M) : MState n P M × Except Exc Unit :=
  match (frameworkOf r sp s).construct with
  | .error e => (s, .error e)
  | .ok fw => ({ s with framework := some ⟨r, s.arr, { fw := fw }⟩ }, .ok ())

/-- `fit` (/repo/doubleml/double_ml.py:473-535). -/
noncomputable def fit (F : Frame n) (sp : Spec n P M) (s : MState n P M) (a : FitArgs) : MState n P M × Except Exc Unit :=
  match checkFit sp s a with
  | .error e => (s, .error e)
  | .ok (p, m) =>
    match fitLoop F sp a.ext p m (initFit sp s p m) (cellOrder s.nRep s.data.d.length) with
    | (s, .error e) => (s, .error e)
    | (s, .ok ()) => finishAt (s.heap s.arr).nR sp (aggregate sp s)

/-! ## Sample splits and parameters -/

/-- `{learner: {treat: [None] * n_rep}}` (e.g. /repo/doubleml/plm/plr.py:137-138). -/
def initParams (learners treats : List String) (nRep : ℕ) (l tv : String) : Option (List (Option (List P))) :=
  if l ∈ learners ∧ tv ∈ treats then some (List.replicate nRep none) else none

/-- The columns of the cluster variables. -/
def ClusterVars.cols : ClusterVars n → List (Fin n → ℤ)
  | .one c => [c]
  | .two c d => [c, d]

/-- Index arrays as lists of observations. -/
def toFold (p : IdxPair) : Fold n :=
  ⟨p.1.filterMap fun (z : ℤ) => if h : 0 ≤ z ∧ z < n then some ⟨z.toNat, by omega⟩ else none,
   p.2.filterMap fun (z : ℤ) => if h : 0 ≤ z ∧ z < n then some ⟨z.toNat, by omega⟩ else none⟩

/-- The test clusters of one fold. -/
def toClusterFold (p : ClusterPair) : ClusterFold := ⟨p.2.getD 0 [], p.2.getD 1 []⟩

/-- The random draws of one call of `draw_sample_splitting`: shuffles, strata assignments, cluster shuffles. -/
structure Draws (n : ℕ) where
  shuffle : ℕ → Equiv.Perm (Fin n)
  assign : ℕ → Fin n → ℕ
  clusters : ℕ → ℕ → (m : ℕ) → Equiv.Perm (Fin m)

/-- The drawn split (/repo/doubleml/double_ml.py:1218-1230): observation folds and cluster folds. -/
def drawnSplit (sp : Spec n P M) (s : MState n P M) (w : Draws n) :
    Except Exc (List (List (Fold n)) × Option (List (List ClusterFold))) :=
  match sp.vars with
  | some v => do
    let l ← drawCluster s.nFoldsPer s.nRep (v s.data.cv).cols w.clusters
    return (l.map fun r => r.map Prod.fst, some (l.map fun r => r.map fun q => toClusterFold q.2))
  | none =>
    if sp.stratified then
      if s.nFolds < 2 then .error .valueError
      else .ok ((List.range s.nRep).map fun (r : ℕ) => assignFolds s.nFolds (w.assign r), s.smplsCluster)
    else do
      let l ← drawSplit s.nFolds s.nRep w.shuffle
      return (l, s.smplsCluster)

/-- `draw_sample_splitting` (/repo/doubleml/double_ml.py:1206-1232): only the split is replaced. -/
def drawSampleSplitting (sp : Spec n P M) (s : MState n P M) (w : Draws n) : MState n P M × Except Exc Unit :=
  match drawnSplit sp s w with
  | .error e => (s, .error e)
  | .ok (l, c) => ({ s with smpls := some l, smplsCluster := c }, .ok ())

/-- The cluster part of `_check_sample_splitting` (/repo/doubleml/utils/_checks.py:507-510). -/
def checkedCluster (sp : Spec n P M) (s : MState n P M) (cl : Option (List (List ClusterPair))) (nRep nFolds : ℕ) :
    Except Exc (Option (List (List ClusterFold))) :=
  match sp.vars with
  | none => .ok none
  | some v => do
    let l ← checkClusterSplitting cl (v s.data.cv).cols nRep nFolds
    return some (l.map fun r => r.map toClusterFold)

/-- `_initialize_arrays` (/repo/doubleml/double_ml.py:1064-1079): fresh arrays, all `NaN`. -/
def initArrays (s : MState n P M) : MState n P M :=
  { s with
    heap := Function.update s.heap s.next (Arr.fresh s.data.d.length s.nRep)
    arr := s.next
    next := s.next + 1
    scores := fun _ _ => none
    coef := fun _ => none
    se := fun _ => none }

/-- `set_sample_splitting` (/repo/doubleml/double_ml.py:1234-1310): neither the framework nor predictions,
losses, models and sensitivity elements are reset; `_n_folds_per_cluster` keeps its value. -/
def setSampleSplitting (sp : Spec n P M) (s : MState n P M) (a : SplitArg) (cl : Option (List (List ClusterPair))) :
    MState n P M × Except Exc Unit :=
  match checkSampleSplitting n a with
  | .error e => (s, .error e)
  | .ok (l, nr, nf) =>
    match checkedCluster sp s cl nr nf with
    | .error e => (s, .error e)
    | .ok c =>
      let s1 : MState n P M := { s with
        smpls := some (l.map fun r => r.map toFold)
        smplsCluster := c
        nRep := nr
        nFolds := nf
        params := initParams sp.learners s.data.d nr }
      (initArrays s1, .ok ())

/-- `params` of `set_ml_nuisance_params`: `None`, a dictionary, or a nested list. -/
inductive ParamArg (P : Type)
  | none
  | dict (p : P)
  | list (l : List (List P))

/-- The value stored by `set_ml_nuisance_params` (/repo/doubleml/double_ml.py:899-908). -/
def paramValue (nRep nFolds : ℕ) : ParamArg P → Except Exc (List (Option (List P)))
  | .none => .ok (List.replicate nRep Option.none)
  | .dict p => .ok (List.replicate nRep (some (List.replicate nFolds p)))
  | .list l =>
    if l.length ≠ nRep then .error .assertion
    else if l.all fun x => decide (x.length = nFolds) then .ok (l.map some)
    else .error .assertion

/-- `set_ml_nuisance_params` (/repo/doubleml/double_ml.py:862-911). -/
def setNuisanceParams (sp : Spec n P M) (s : MState n P M) (l tv : String) (a : ParamArg P) :
    MState n P M × Except Exc Unit :=
  if l ∉ sp.learners then (s, .error .valueError)
  else if tv ∉ s.data.d then (s, .error .valueError)
  else
    match paramValue s.nRep s.nFolds a with
    | .error e => (s, .error e)
    | .ok v => ({ s with params := set2' s.params l tv v }, .ok ())
where
  /-- `self._params[learner][treat_var] = …`. -/
  set2' (f : String → String → Option (List (Option (List P)))) (l tv : String) (v : List (Option (List P)))
      (a b : String) : Option (List (Option (List P))) := if a = l ∧ b = tv then some v else f a b

/-! ## Tuning -/

/-- The result of `_nuisance_tuning`: the parameters per learner and fold (`res["params"]`). -/
abbrev TuneRes (P : Type) := List (String × List P)

/-- `_nuisance_tuning`: an arbitrary function of the data and the folds.  The treatment and the repetition it is
called for are further arguments, because the search draws its own folds at random in every call
(/repo/doubleml/utils/_estimation.py:155). -/
abbrev Search (n : ℕ) (P : Type) := ℕ → ℕ → DataState n → List (Fold n) → Except Exc (TuneRes P)

/-- `tuning_res = [[None] * n_rep] * n_treat` (/repo/doubleml/double_ml.py:805): one row object that
appears `rows` times. -/
structure TuneTable (P : Type) where
  rows : ℕ
  row : List (Option (TuneRes P))

/-- `tuning_res[i][j] = res`. -/
def TuneTable.set (t : TuneTable P) (i j : ℕ) (v : TuneRes P) : Except Exc (TuneTable P) :=
  if i < t.rows then
    if j < t.row.length then .ok { t with row := t.row.set j (some v) } else .error .indexError
  else .error .indexError

/-- `tuning_res[i][j]`. -/
def TuneTable.get (t : TuneTable P) (i j : ℕ) : Option (Option (TuneRes P)) :=
  if i < t.rows then t.row[j]? else none

/-- The loop over repetitions of fold-wise tuning (/repo/doubleml/double_ml.py:817-835); note the indices
`tuning_res[i_rep][i_d]`. -/
def tuneReps (f : ℕ → List (Fold n) → Except Exc (TuneRes P)) (s : MState n P M) (j : ℕ) :
    List ℕ → TuneTable P → Except Exc (TuneTable P × List (TuneRes P))
  | [], t => .ok (t, [])
  | k :: ks, t => do
    let sm ← repSmpls s k
    let r ← f k sm
    let t' ← t.set k j r
    let (t'', rs) ← tuneReps f s j ks t'
    return (t'', r :: rs)

/-- The assignment loops after tuning (/repo/doubleml/double_ml.py:837-840,850-853). -/
def setAll (sp : Spec n P M) (tv : String) (arg : String → Except Exc (ParamArg P)) :
    MState n P M → List String → MState n P M × Except Exc Unit
  | s, [] => (s, .ok ())
  | s, l :: ls =>
    match arg l with
    | .error e => (s, .error e)
    | .ok a =>
      match setNuisanceParams sp s l tv a with
      | (s, .error e) => (s, .error e)
      | (s, .ok ()) => setAll sp tv arg s ls

/-- `[x[nuisance_model] for x in nuisance_params]`. -/
def foldArg (rs : List (TuneRes P)) (l : String) : Except Exc (ParamArg P) := do
  let ps ← rs.mapM (entry l)
  return .list ps
where
  /-- `x[nuisance_model]`. -/
  entry (l : String) (r : TuneRes P) : Except Exc (List P) :=
    match lookupKey l r with
    | none => .error .keyError
    | some p => .ok p

/-- `res["params"][nuisance_model][0]`. -/
def globalArg (r : TuneRes P) (l : String) : Except Exc (ParamArg P) :=
  match lookupKey l r with
  | none => .error .keyError
  | some [] => .error .indexError
  | some (p :: _) => .ok (.dict p)

/-- The names of the nuisance models in a tuning result. -/
def tuneKeys (r : TuneRes P) : List String := r.map Prod.fst

/-- One treatment of `tune` with `tune_on_folds=True` (/repo/doubleml/double_ml.py:815-840). -/
def tuneTreatFolds (sp : Spec n P M) (f : Search n P) (setAs : Bool)
    (s : MState n P M) (j : ℕ) (t : TuneTable P) : MState n P M × Except Exc (TuneTable P) :=
  match tuneReps (fun k => f j k s.data) s j (List.range s.nRep) t with
  | .error e => (s, .error e)
  | .ok (t, rs) =>
    if setAs then
      match rs with
      | [] => (s, .error .indexError)
      | r :: _ =>
        match setAll sp (s.data.d.getD j "") (foldArg rs) s (tuneKeys r) with
        | (s, .error e) => (s, .error e)
        | (s, .ok ()) => (s, .ok t)
    else (s, .ok t)

/-- The loop over treatments of fold-wise tuning. -/
noncomputable def tuneFolds (F : Frame n) (sp : Spec n P M) (f : Search n P)
    (setAs : Bool) : MState n P M → List ℕ → TuneTable P → MState n P M × Except Exc (TuneTable P)
  | s, [], t => (s, .ok t)
  | s, j :: js, t =>
    match activate F s.data j with
    | .error e => (s, .error e)
    | .ok D =>
      match tuneTreatFolds sp f setAs { s with data := D } j t with
      | (s, .error e) => (s, .error e)
      | (s, .ok t) => tuneFolds F sp f setAs s js t

/-- One treatment of `tune` with `tune_on_folds=False` (/repo/doubleml/double_ml.py:842-853): one "fold"
that consists of all observations. -/
def tuneTreatGlobal (sp : Spec n P M) (f : Search n P) (setAs : Bool)
    (s : MState n P M) (j : ℕ) : MState n P M × Except Exc (TuneRes P) :=
  match f j 0 s.data [⟨List.finRange n, List.finRange n⟩] with
  | .error e => (s, .error e)
  | .ok r =>
    if setAs then
      match setAll sp (s.data.d.getD j "") (globalArg r) s (tuneKeys r) with
      | (s, .error e) => (s, .error e)
      | (s, .ok ()) => (s, .ok r)
    else (s, .ok r)

/-- The loop over treatments of global tuning: `tuning_res[i_d] = res`. -/
noncomputable def tuneGlobal (F : Frame n) (sp : Spec n P M) (f : Search n P)
    (setAs : Bool) : MState n P M → List ℕ → List (TuneRes P) → MState n P M × Except Exc (List (TuneRes P))
  | s, [], acc => (s, .ok acc)
  | s, j :: js, acc =>
    match activate F s.data j with
    | .error e => (s, .error e)
    | .ok D =>
      match tuneTreatGlobal sp f setAs { s with data := D } j with
      | (s, .error e) => (s, .error e)
      | (s, .ok r) => tuneGlobal F sp f setAs s js (acc ++ [r])

/-- What `tune(return_tune_res=True)` returns. -/
inductive TuneOut (P : Type)
  | table (t : TuneTable P)
  | list (l : List (TuneRes P))

/-- `tune` (/repo/doubleml/double_ml.py:678-860) after the argument checks; the search itself
(`_nuisance_tuning`) is an arbitrary function `f` of the data and the folds. -/
noncomputable def tune (F : Frame n) (sp : Spec n P M) (f : Search n P)
    (onFolds setAs : Bool) (s : MState n P M) : MState n P M × Except Exc (TuneOut P) :=
  if onFolds then
    match tuneFolds F sp f setAs s (List.range s.data.d.length) ⟨s.data.d.length, List.replicate s.nRep none⟩ with
    | (s, .error e) => (s, .error e)
    | (s, .ok t) => (s, .ok (.table t))
  else
    match tuneGlobal F sp f setAs s (List.range s.data.d.length) [] with
    | (s, .error e) => (s, .error e)
    | (s, .ok l) => (s, .ok (.list l))

/-! ## Construction and histories -/

/-- More than two cluster variables are rejected (/repo/doubleml/double_ml.py:33-35). -/
def checkClusterVars (sp : Spec n P M) (D : DataState n) : Except Exc Unit :=
  if sp.vars.isSome && decide (D.cv.length > 2) then .error .notImplemented else .ok ()

/-- `DoubleML.__init__` (/repo/doubleml/double_ml.py:24-112) followed by `_initialize_ml_nuisance_params` of
the model class. -/
def initModel (sp : Spec n P M) (D : DataState n) (start : ℝ) (nFolds nRep draw : PyVal) (w : Draws n) :
    Except Exc (MState n P M) := do
  let _ ← checkClusterVars sp D
  let k ← checkInteger nFolds (some 1) none
  let r ← checkInteger nRep (some 1) none
  let b ← checkBool draw
  let s : MState n P M :=
    { data := D
      heap := fun _ => Arr.fresh 0 0
      next := 0
      arr := 0
      scores := fun _ _ => none
      coef := fun _ => none
      se := fun _ => none
      nRep := r.toNat
      nFolds := if sp.vars.isSome then k.toNat ^ D.cv.length else k.toNat
      nFoldsPer := k.toNat
      smpls := none
      smplsCluster := none
      params := initParams sp.learners D.d r.toNat
      preds := none
      loss := none
      models := none
      sens := none
      framework := none
      start := start }
  if b then
    match drawSampleSplitting sp s w with
    | (_, .error e) => .error e
    | (s, .ok ()) => .ok (initArrays s)
  else .ok (initArrays s)

/-- Method calls on a model. -/
inductive MOp (n : ℕ) (P : Type)
  | fit (a : FitArgs)
  | draw (w : Draws n)
  | setSplit (a : SplitArg) (cl : Option (List (List ClusterPair)))
  | setParams (learner treat : String) (p : ParamArg P)
  | tune (f : Search n P) (onFolds setAs : Bool)
  | infer (o : ∀ r, Op n r)
  | data (o : DataOp)

/-- Results of method calls. -/
inductive MOut (P : Type)
  | self
  | tuned (t : TuneOut P)
  | fw (o : Out)

/-- `bootstrap`, `confint`, `p_adjust`, `sensitivity_analysis`, `sensitivity_plot` of the model
(/repo/doubleml/double_ml.py:601-676,1483-1619): delegated to the framework. -/
noncomputable def infer (E : Ext) (s : MState n P M) (o : ∀ r, Op n r) : MState n P M × Except Exc Out :=
  match s.framework with
  | none => (s, .error .valueError)
  | some fw =>
    let q := (fw.view s.heap).step E (o fw.r)
    ({ s with framework := some { fw with st := q.1 } }, q.2)

/-- One method call. -/
noncomputable def mstep (E : Ext) (F : Frame n) (sp : Spec n P M) (s : MState n P M) :
    MOp n P → MState n P M × Except Exc (MOut P)
  | .fit a => let q := fit F sp s a; (q.1, q.2.map fun _ => .self)
  | .draw w => let q := drawSampleSplitting sp s w; (q.1, q.2.map fun _ => .self)
  | .setSplit a cl => let q := setSampleSplitting sp s a cl; (q.1, q.2.map fun _ => .self)
  | .setParams l tv p => let q := setNuisanceParams sp s l tv p; (q.1, q.2.map fun _ => .self)
  | .tune f onFolds setAs => let q := tune F sp f onFolds setAs s; (q.1, q.2.map .tuned)
  | .infer o => let q := infer E s o; (q.1, q.2.map .fw)
  | .data o => let q := dataStep F s.data o; ({ s with data := q.1 }, q.2.map fun _ => .self)

/-- A history of method calls. -/
noncomputable def mrun (E : Ext) (F : Frame n) (sp : Spec n P M) (s : MState n P M) : List (MOp n P) → MState n P M
  | [] => s
  | o :: os => mrun E F sp (mstep E F sp s o).1 os

end DML
