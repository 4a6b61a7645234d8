import Verif.PlrModel
import Verif.Weights

/-!
# The other linear model classes

`_nuisance_est`, score and sensitivity elements of `DoubleMLIRM`, `DoubleMLAPO`, `DoubleMLIIVM`, `DoubleMLDID`,
`DoubleMLDIDCS`, `DoubleMLSSM` (missing at random) and `DoubleMLPLIV` as instances of `Spec`.

Callable scores are not modelled.  `_check_is_propensity` only warns and has no effect on the result.  Indicator
variables are read from the data object when they are needed (`DoubleMLAPO` stores the indicator of its level at
construction; the data object is not changed in between).
-/

namespace DML

open Finset

variable {n : ℕ} {P : Type}

/-- The stored learners' results of all these classes. -/
abbrev LinSpec (n : ℕ) (P : Type) := Spec n P (Option (List (FittedModel P (List Cell))))

/-- The result of one cell. -/
abbrev LinOut (n : ℕ) (P : Type) := CellOut n (Option (List (FittedModel P (List Cell))))

/-- The outcome as numbers. -/
def CellIn.y (c : CellIn n P) (i : Fin n) : ℝ := (c.data.yv i).val

/-- The treatment as numbers. -/
def CellIn.d (c : CellIn n P) (i : Fin n) : ℝ := (c.data.dv i).val

/-- `np.ravel(self._dml_data.z)` with a single instrument; anything else fails in `check_X_y` (lengths differ). -/
def CellIn.instr (c : CellIn n P) : Except Exc (Fin n → ℝ) :=
  match c.data.zv with
  | some [z] => .ok fun i => (z i).val
  | _ => .error .valueError

/-- `self._dml_data.t`; without time variable `check_X_y` fails. -/
def CellIn.time (c : CellIn n P) : Except Exc (Fin n → ℝ) :=
  match c.data.tv with
  | some t => .ok fun i => (t i).val
  | none => .error .valueError

/-- `self._dml_data.s`; without selection variable `check_X_y` fails. -/
def CellIn.sel (c : CellIn n P) : Except Exc (Fin n → ℝ) :=
  match c.data.sv with
  | some s => .ok fun i => (s i).val
  | none => .error .valueError

/-- A call of `_dml_cv_predict` with covariates `x`, target `y` and samples `S` for the learner listed as `l`. -/
noncomputable def crossFit (L : Learner P (List Cell)) (m : Method) (c : CellIn n P) (l : String) (x : Fin n → List Cell)
    (y : Fin n → ℝ) (S : List (Fold n)) : Except Exc (CvRes n P (List Cell)) :=
  cvPredict L { x := x, y := .plain y, smpls := S, params := c.paramsOf l, method := m, returnTrain := false,
                returnModels := c.wantModels }

/-- Replacing the targets of observations outside `keep` by `NaN` (`_cond_targets`,
/repo/doubleml/utils/_estimation.py:325-328, or the assignments in e.g. /repo/doubleml/irm/iivm.py:278-280). -/
def maskTargets (keep : Fin n → Prop) [DecidablePred keep] (r : CvRes n P (List Cell)) : CvRes n P (List Cell) :=
  { r with targets := r.targets.map fun t => condTargets t keep }

/-- An outcome regression on the training observations in `on`, with finiteness check and targets restricted to
`keep` (e.g. /repo/doubleml/irm/irm.py:276-287). -/
noncomputable def condLearn (L : Learner P (List Cell)) (m : Method) (c : CellIn n P) (l : String) (x : Fin n → List Cell)
    (y : Fin n → ℝ) (on keep : Fin n → Prop) [DecidablePred on] [DecidablePred keep] :
    Except Exc (CvRes n P (List Cell)) := do
  let r ← crossFit L m c l x y (condSmpls on c.smpls)
  let _ ← checkFinite r.preds c.smpls
  return maskTargets keep r

/-- `_trimm(m_hat["preds"])` (/repo/doubleml/utils/_propensity_score.py:14-20). -/
noncomputable def trimRes (t : ℝ) (r : CvRes n P (List Cell)) : CvRes n P (List Cell) :=
  { r with preds := fun i => (r.preds i).map (trim t) }

/-- The check of outcome predictions for binary outcomes (e.g. /repo/doubleml/irm/iivm.py:282-284). -/
noncomputable def checkOut (c : CellIn n P) (p : NV n) : Except Exc Unit :=
  if c.data.binOut then checkBinaryPreds p else .ok ()

/-- The prediction method of a learner (e.g. /repo/doubleml/irm/irm.py:155-167). -/
def methodOf (classifier : Bool) : Method := if classifier then .proba else .predict

/-- `weights` and the column of `weights_bar` for the repetition of the cell (/repo/doubleml/irm/irm.py:222-227,
irm/apo.py:199-207); a repetition without column raises. -/
def StoredWeights.at (w : StoredWeights) (k : ℕ) : Except Exc ((Fin n → ℝ) × (Fin n → ℝ)) :=
  match w.bar with
  | Option.none => .ok (fun i => w.weights.entries.getD i 0, fun i => w.weights.entries.getD i 0)
  | some b =>
    if k < b.shape.getD 1 0 then
      .ok (fun i => w.weights.entries.getD i 0, fun i => b.entries.getD (i * b.shape.getD 1 0 + k) 0)
    else .error .indexError

/-! ## IRM -/

/-- `DoubleMLIRM` (/repo/doubleml/irm/irm.py:124-177): learners, score (`atte`), normalisation, threshold,
weights. -/
structure IrmClass (n : ℕ) (P : Type) where
  ml_g : Learner P (List Cell)
  ml_m : Learner P (List Cell)
  gClassifier : Bool
  atte : Bool
  normalize : Bool
  trimT : ℝ
  weights : StoredWeights
  vars : Option (List (Fin n → Cell) → ClusterVars n) := none

/-- The check of `g_hat1` (/repo/doubleml/irm/irm.py:310-311). -/
noncomputable def irmCheck1 (k : IrmClass n P) (c : CellIn n P) (p : NV n) : Except Exc Unit :=
  if k.atte then .ok () else checkOut c p

/-- `g_hat0` (/repo/doubleml/irm/irm.py:271-290): only estimates are checked. -/
noncomputable def irmG0 (k : IrmClass n P) (c : CellIn n P) : Except Exc (CvRes n P (List Cell)) :=
  match c.extOf "ml_g0" with
  | some e => .ok (extRes e)
  | none => do
    let r ← condLearn k.ml_g (methodOf k.gClassifier) c "ml_g0" (rowX c.data) c.y (fun i => c.d i = 0) (fun i => c.d i = 0)
    let _ ← checkOut c r.preds
    return r

/-- `g_hat1` before its check (/repo/doubleml/irm/irm.py:292-308). -/
noncomputable def irmG1 (k : IrmClass n P) (c : CellIn n P) : Except Exc (CvRes n P (List Cell)) :=
  match c.extOf "ml_g1" with
  | some e => .ok (extRes e)
  | none => condLearn k.ml_g (methodOf k.gClassifier) c "ml_g1" (rowX c.data) c.y (fun i => c.d i = 1) (fun i => c.d i = 1)

/-- An untrimmed propensity: `m_hat` (e.g. /repo/doubleml/irm/irm.py:313-329). -/
noncomputable def propM (L : Learner P (List Cell)) (c : CellIn n P) (target : Fin n → ℝ) :
    Except Exc (CvRes n P (List Cell)) :=
  match c.extOf "ml_m" with
  | some e => .ok (extRes e)
  | none => learn L .proba c "ml_m" target

/-- `weights` and `weights_bar` (/repo/doubleml/irm/irm.py:220-238). -/
noncomputable def irmWeights (k : IrmClass n P) (c : CellIn n P) (mAdj : Fin n → ℝ) :
    Except Exc ((Fin n → ℝ) × (Fin n → ℝ)) :=
  if k.atte then .ok (atteWeights (fun i => k.weights.weights.entries.getD i 0) c.d mAdj) else k.weights.at c.rep

/-- The estimation of one cell (/repo/doubleml/irm/irm.py:262-398). -/
noncomputable def irmEst (k : IrmClass n P) (c : CellIn n P) : Except Exc (LinOut n P) := do
  let g0 ← irmG0 k c
  let g1 ← irmG1 k c
  let _ ← irmCheck1 k c g1.preds
  let m0 ← propM k.ml_m c c.d
  let m := trimRes k.trimT m0
  let mAdj := adjust k.normalize m.vec c.d
  let w ← irmWeights k c mAdj
  return { fit := (irmElems c.y c.d g0.vec g1.vec mAdj w.1 w.2).fit c.cluster
           preds := [("ml_g0", g0.preds), ("ml_g1", g1.preds), ("ml_m", m.preds)]
           targets := [("ml_g0", g0.targets), ("ml_g1", g1.targets), ("ml_m", m.targets)]
           models := [("ml_g0", g0.models), ("ml_g1", g1.models), ("ml_m", m.models)]
           sens := irmSens c.y c.d g0.vec g1.vec mAdj w.1 w.2
           start := c.start }

/-- `DoubleMLIRM`. -/
noncomputable def irmSpec (k : IrmClass n P) : LinSpec n P :=
  { learners := ["ml_g0", "ml_g1", "ml_m"]
    keys := [("ml_g", k.gClassifier), ("ml_m", true)]
    extImpl := true
    sensImpl := true
    stratified := true
    vars := k.vars
    est := irmEst k }

/-! ## APO -/

/-- `DoubleMLAPO` (/repo/doubleml/irm/apo.py:83-137). -/
structure ApoClass (n : ℕ) (P : Type) where
  ml_g : Learner P (List Cell)
  ml_m : Learner P (List Cell)
  gClassifier : Bool
  level : ℝ
  normalize : Bool
  trimT : ℝ
  weights : StoredWeights
  vars : Option (List (Fin n → Cell) → ClusterVars n) := none

open Classical in
/-- `self._treated` (/repo/doubleml/irm/apo.py:102). -/
noncomputable def ApoClass.treated (k : ApoClass n P) (c : CellIn n P) (i : Fin n) : ℝ := if c.d i = k.level then 1 else 0

/-- `dx` (/repo/doubleml/irm/apo.py:212). -/
def CellIn.dx (c : CellIn n P) (i : Fin n) : List Cell := c.data.dv i :: rowX c.data i

/-- An external prediction with its target (/repo/doubleml/irm/apo.py:223-229,249-255,275-277). -/
def extTarget (e : Fin n → ℝ) (t : NV n) : CvRes n P (List Cell) := ⟨fun i => some (e i), some t, none, none⟩

/-- `g_hat_d_lvl1` (/repo/doubleml/irm/apo.py:222-243). -/
noncomputable def apoG1 (k : ApoClass n P) (c : CellIn n P) : Except Exc (CvRes n P (List Cell)) :=
  match c.extOf "ml_g_d_lvl1" with
  | some e => .ok (extTarget e (condTargets (fun i => some (c.y i)) fun i => k.treated c i = 1))
  | none => condLearn k.ml_g (methodOf k.gClassifier) c "ml_g_d_lvl1" (rowX c.data) c.y (fun i => k.treated c i = 1)
      (fun i => k.treated c i = 1)

/-- `g_hat_d_lvl0` (/repo/doubleml/irm/apo.py:248-269): the other levels together, with the treatment as
covariate. -/
noncomputable def apoG0 (k : ApoClass n P) (c : CellIn n P) : Except Exc (CvRes n P (List Cell)) :=
  match c.extOf "ml_g_d_lvl0" with
  | some e => .ok (extTarget e (condTargets (fun i => some (c.y i)) fun i => k.treated c i = 0))
  | none => condLearn k.ml_g (methodOf k.gClassifier) c "ml_g_d_lvl0" c.dx c.y (fun i => k.treated c i = 0)
      (fun i => k.treated c i = 0)

/-- `m_hat` before trimming (/repo/doubleml/irm/apo.py:274-290). -/
noncomputable def apoM (k : ApoClass n P) (c : CellIn n P) : Except Exc (CvRes n P (List Cell)) :=
  match c.extOf "ml_m" with
  | some e => .ok (extTarget e fun i => some (k.treated c i))
  | none => learn k.ml_m .proba c "ml_m" (k.treated c)

/-- The estimation of one cell (/repo/doubleml/irm/apo.py:209-358). -/
noncomputable def apoEst (k : ApoClass n P) (c : CellIn n P) : Except Exc (LinOut n P) := do
  let g1 ← apoG1 k c
  let _ ← checkOut c g1.preds
  let g0 ← apoG0 k c
  let _ ← checkOut c g0.preds
  let m0 ← apoM k c
  let m := trimRes k.trimT m0
  let w ← k.weights.at c.rep
  return { fit := (apoElems k.normalize c.y (k.treated c) g1.vec m.vec w.1 w.2).fit c.cluster
           preds := [("ml_g_d_lvl0", g0.preds), ("ml_g_d_lvl1", g1.preds), ("ml_m", m.preds)]
           targets := [("ml_g_d_lvl0", g0.targets), ("ml_g_d_lvl1", g1.targets), ("ml_m", m.targets)]
           models := [("ml_g_d_lvl0", g0.models), ("ml_g_d_lvl1", g1.models), ("ml_m", m.models)]
           sens := apoSens c.y (k.treated c) g0.vec g1.vec (adjust k.normalize m.vec (k.treated c)) w.1 w.2
           start := c.start }

/-- `DoubleMLAPO`. -/
noncomputable def apoSpec (k : ApoClass n P) : LinSpec n P :=
  { learners := ["ml_g_d_lvl0", "ml_g_d_lvl1", "ml_m"]
    keys := [("ml_g", k.gClassifier), ("ml_m", true)]
    extImpl := true
    sensImpl := true
    stratified := true
    vars := k.vars
    est := apoEst k }

/-! ## IIVM -/

/-- `DoubleMLIIVM` (/repo/doubleml/irm/iivm.py:126-197). -/
structure IivmClass (n : ℕ) (P : Type) where
  ml_g : Learner P (List Cell)
  ml_m : Learner P (List Cell)
  ml_r : Learner P (List Cell)
  gClassifier : Bool
  alwaysTakers : Bool
  neverTakers : Bool
  normalize : Bool
  trimT : ℝ
  vars : Option (List (Fin n → Cell) → ClusterVars n) := none

/-- `g_hat0` and `g_hat1` before the check (/repo/doubleml/irm/iivm.py:263-280,286-302): trained where the
instrument equals `v`, targets removed where it equals `1 - v`. -/
noncomputable def iivmG (k : IivmClass n P) (c : CellIn n P) (z : Fin n → ℝ) (l : String) (v : ℝ) :
    Except Exc (CvRes n P (List Cell)) :=
  match c.extOf l with
  | some e => .ok (extRes e)
  | none => condLearn k.ml_g (methodOf k.gClassifier) c l (rowX c.data) c.y (fun i => z i = v) (fun i => ¬ z i = 1 - v)

/-- A constant prediction (/repo/doubleml/irm/iivm.py:344,367). -/
def constRes (v : ℝ) : CvRes n P (List Cell) := ⟨fun _ => some v, some fun _ => some v, none, none⟩

/-- `r_hat0`, `r_hat1` as first computed (/repo/doubleml/irm/iivm.py:327-344,351-367): constant for an excluded
subgroup, even if external predictions are given. -/
noncomputable def iivmRRaw (k : IivmClass n P) (c : CellIn n P) (z : Fin n → ℝ) (l : String) (v : ℝ) (included : Bool) :
    Except Exc (CvRes n P (List Cell)) :=
  if included then
    match c.extOf l with
    | some e => .ok (extRes e)
    | none => crossFit k.ml_r .proba c l (rowX c.data) c.d (condSmpls (fun i => z i = v) c.smpls)
  else .ok (constRes v)

/-- The check and the targets, only without external predictions (/repo/doubleml/irm/iivm.py:345-349,368-372). -/
noncomputable def iivmRTail (c : CellIn n P) (z : Fin n → ℝ) (l : String) (v : ℝ) (r : CvRes n P (List Cell)) :
    Except Exc (CvRes n P (List Cell)) :=
  match c.extOf l with
  | some _ => .ok r
  | none => do
    let _ ← checkFinite r.preds c.smpls
    return maskTargets (fun i => ¬ z i = 1 - v) r

/-- `r_hat0` (`v = 0`) and `r_hat1` (`v = 1`) (/repo/doubleml/irm/iivm.py:327-372). -/
noncomputable def iivmR (k : IivmClass n P) (c : CellIn n P) (z : Fin n → ℝ) (l : String) (v : ℝ) (included : Bool) :
    Except Exc (CvRes n P (List Cell)) := do
  let r ← iivmRRaw k c z l v included
  iivmRTail c z l v r

/-- The estimation of one cell (/repo/doubleml/irm/iivm.py:255-436). -/
noncomputable def iivmEst (k : IivmClass n P) (c : CellIn n P) : Except Exc (LinOut n P) := do
  let z ← c.instr
  let g0 ← iivmG k c z "ml_g0" 0
  let _ ← checkOut c g0.preds
  let g1 ← iivmG k c z "ml_g1" 1
  let _ ← checkOut c g1.preds
  let m0 ← propM k.ml_m c z
  let m := trimRes k.trimT m0
  let r0 ← iivmR k c z "ml_r0" 0 k.alwaysTakers
  let r1 ← iivmR k c z "ml_r1" 1 k.neverTakers
  return { fit := (iivmElems k.normalize c.y z c.d g0.vec g1.vec m.vec r0.vec r1.vec).fit c.cluster
           preds := [("ml_g0", g0.preds), ("ml_g1", g1.preds), ("ml_m", m.preds), ("ml_r0", r0.preds), ("ml_r1", r1.preds)]
           targets := [("ml_g0", g0.targets), ("ml_g1", g1.targets), ("ml_m", m.targets), ("ml_r0", r0.targets),
             ("ml_r1", r1.targets)]
           models := [("ml_g0", g0.models), ("ml_g1", g1.models), ("ml_m", m.models), ("ml_r0", r0.models),
             ("ml_r1", r1.models)]
           sens := .zero
           start := c.start }

/-- `DoubleMLIIVM`; sensitivity analysis is not implemented. -/
noncomputable def iivmSpec (k : IivmClass n P) : LinSpec n P :=
  { learners := ["ml_g0", "ml_g1", "ml_m", "ml_r0", "ml_r1"]
    keys := [("ml_g", k.gClassifier), ("ml_m", true), ("ml_r", true)]
    extImpl := true
    sensImpl := false
    stratified := true
    vars := k.vars
    est := iivmEst k }

/-! ## Difference in differences -/

/-- `DoubleMLDID` (/repo/doubleml/did/did.py:82-147) and `DoubleMLDIDCS` (/repo/doubleml/did/did_cs.py:82-149). -/
structure DidClass (n : ℕ) (P : Type) where
  ml_g : Learner P (List Cell)
  ml_m : Learner P (List Cell)
  gClassifier : Bool
  score : DidScore
  normalize : Bool
  trimT : ℝ
  vars : Option (List (Fin n → Cell) → ClusterVars n) := none

/-- `g_hat0` and `g_hat1` (/repo/doubleml/did/did.py:206-248). -/
noncomputable def didG (k : DidClass n P) (c : CellIn n P) (l : String) (v : ℝ) : Except Exc (CvRes n P (List Cell)) :=
  match c.extOf l with
  | some e => .ok (extRes e)
  | none => condLearn k.ml_g (methodOf k.gClassifier) c l (rowX c.data) c.y (fun i => c.d i = v) (fun i => ¬ c.d i = 1 - v)

/-- `m_hat`, trimmed (/repo/doubleml/did/did.py:250-269, did_cs.py:295-314); for the experimental score there is
none. -/
noncomputable def didM (k : DidClass n P) (c : CellIn n P) : Except Exc (CvRes n P (List Cell)) :=
  match k.score with
  | .experimental => .ok noRes
  | .observational => do
    let r ← propM k.ml_m c c.d
    return trimRes k.trimT r

/-- The shares as numbers; with a partition every observation has one. -/
noncomputable def shareOf (d : Fin n → ℝ) (S : List (Fold n)) (i : Fin n) : ℝ := (foldShare d S i).getD 0

/-- The estimation of one cell (/repo/doubleml/did/did.py:202-370). -/
noncomputable def didEst (k : DidClass n P) (c : CellIn n P) : Except Exc (LinOut n P) := do
  let g0 ← didG k c "ml_g0" 0
  let g1 ← didG k c "ml_g1" 1
  let m ← didM k c
  return { fit := (didElems k.score k.normalize c.y c.d g0.vec g1.vec m.vec (shareOf c.d c.smpls)).fit c.cluster
           preds := [("ml_g0", g0.preds), ("ml_g1", g1.preds), ("ml_m", m.preds)]
           targets := [("ml_g0", g0.targets), ("ml_g1", g1.targets), ("ml_m", m.targets)]
           models := [("ml_g0", g0.models), ("ml_g1", g1.models), ("ml_m", m.models)]
           sens := didSens k.score k.normalize c.y c.d g0.vec g1.vec m.vec
           start := c.start }

/-- The keys of `_learner` (/repo/doubleml/did/did.py:113-126). -/
def DidClass.keys (k : DidClass n P) : List (String × Bool) :=
  match k.score with
  | .observational => [("ml_g", k.gClassifier), ("ml_m", true)]
  | .experimental => [("ml_g", k.gClassifier)]

/-- `DoubleMLDID`. -/
noncomputable def didSpec (k : DidClass n P) : LinSpec n P :=
  { learners := match k.score with
      | .observational => ["ml_g0", "ml_g1", "ml_m"]
      | .experimental => ["ml_g0", "ml_g1"]
    keys := k.keys
    extImpl := true
    sensImpl := true
    stratified := true
    vars := k.vars
    est := didEst k }

/-- `g_hat_d0_t0` to `g_hat_d1_t1` (/repo/doubleml/did/did_cs.py:231-293): no finiteness check. -/
noncomputable def csG (k : DidClass n P) (c : CellIn n P) (t : Fin n → ℝ) (l : String) (v w : ℝ) :
    Except Exc (CvRes n P (List Cell)) :=
  match c.extOf l with
  | some e => .ok (extRes e)
  | none => do
    let r ← crossFit k.ml_g (methodOf k.gClassifier) c l (rowX c.data) c.y (condSmpls (fun i => c.d i = v ∧ t i = w) c.smpls)
    return maskTargets (fun i => c.d i = v ∧ t i = w) r

/-- The estimation of one cell (/repo/doubleml/did/did_cs.py:215-542). -/
noncomputable def csEst (k : DidClass n P) (c : CellIn n P) : Except Exc (LinOut n P) := do
  let t ← c.time
  let g00 ← csG k c t "ml_g_d0_t0" 0 0
  let g01 ← csG k c t "ml_g_d0_t1" 0 1
  let g10 ← csG k c t "ml_g_d1_t0" 1 0
  let g11 ← csG k c t "ml_g_d1_t1" 1 1
  let m ← didM k c
  let g : Cells n := ⟨g11.vec, g10.vec, g01.vec, g00.vec⟩
  return { fit := (didCsElems k.score k.normalize c.y c.d t g m.vec (shareOf c.d c.smpls) (shareOf t c.smpls)).fit c.cluster
           preds := [("ml_g_d0_t0", g00.preds), ("ml_g_d0_t1", g01.preds), ("ml_g_d1_t0", g10.preds),
             ("ml_g_d1_t1", g11.preds), ("ml_m", m.preds)]
           targets := [("ml_g_d0_t0", g00.targets), ("ml_g_d0_t1", g01.targets), ("ml_g_d1_t0", g10.targets),
             ("ml_g_d1_t1", g11.targets), ("ml_m", m.targets)]
           models := [("ml_g_d0_t0", g00.models), ("ml_g_d0_t1", g01.models), ("ml_g_d1_t0", g10.models),
             ("ml_g_d1_t1", g11.models), ("ml_m", m.models)]
           sens := csSens k.score k.normalize c.y c.d t g m.vec
           start := c.start }

/-- `DoubleMLDIDCS`. -/
noncomputable def csSpec (k : DidClass n P) : LinSpec n P :=
  { learners := match k.score with
      | .observational => ["ml_g_d0_t0", "ml_g_d0_t1", "ml_g_d1_t0", "ml_g_d1_t1", "ml_m"]
      | .experimental => ["ml_g_d0_t0", "ml_g_d0_t1", "ml_g_d1_t0", "ml_g_d1_t1"]
    keys := k.keys
    extImpl := true
    sensImpl := true
    stratified := true
    vars := k.vars
    est := csEst k }

/-! ## SSM, missing at random -/

/-- `DoubleMLSSM` with score `missing-at-random` (/repo/doubleml/irm/ssm.py:102-158). -/
structure SsmClass (n : ℕ) (P : Type) where
  ml_g : Learner P (List Cell)
  ml_pi : Learner P (List Cell)
  ml_m : Learner P (List Cell)
  gClassifier : Bool
  normalize : Bool
  trimT : ℝ
  vars : Option (List (Fin n → Cell) → ClusterVars n) := none

/-- `dx` (/repo/doubleml/irm/ssm.py:213): the treatment is the last column. -/
def CellIn.xd (c : CellIn n P) (i : Fin n) : List Cell := rowX c.data i ++ [c.data.dv i]

/-- A cross-fitted nuisance of SSM (/repo/doubleml/irm/ssm.py:217-270): the targets are *not* restricted. -/
noncomputable def ssmPart (L : Learner P (List Cell)) (m : Method) (c : CellIn n P) (l : String) (x : Fin n → List Cell)
    (y : Fin n → ℝ) (S : List (Fold n)) : Except Exc (CvRes n P (List Cell)) := do
  let r ← crossFit L m c l x y S
  let _ ← checkFinite r.preds c.smpls
  return r

/-- `psi_a` is the number -1 (/repo/doubleml/irm/ssm.py:408), which the estimation with clusters tries to index
(/repo/doubleml/double_ml_score_mixins.py:52-62). -/
def ssmCluster (c : CellIn n P) : Except Exc Unit := if c.cluster.isSome then .error .typeError else .ok ()

open Classical in
/-- The indicator of `d == v` (/repo/doubleml/irm/ssm.py:374-375). -/
noncomputable def CellIn.dIs (c : CellIn n P) (v : ℝ) (i : Fin n) : ℝ := if c.d i = v then 1 else 0

/-- The estimation of one cell (/repo/doubleml/irm/ssm.py:204-426). -/
noncomputable def ssmEst (k : SsmClass n P) (c : CellIn n P) : Except Exc (LinOut n P) := do
  let s ← c.sel
  let pi ← ssmPart k.ml_pi .proba c "ml_pi" c.xd s c.smpls
  let m0 ← ssmPart k.ml_m .proba c "ml_m" (rowX c.data) c.d c.smpls
  let g1 ← ssmPart k.ml_g (methodOf k.gClassifier) c "ml_g_d1" (rowX c.data) c.y
    (condSmpls (fun i => c.d i = 1 ∧ s i = 1) c.smpls)
  let g0 ← ssmPart k.ml_g (methodOf k.gClassifier) c "ml_g_d0" (rowX c.data) c.y
    (condSmpls (fun i => c.d i = 0 ∧ s i = 1) c.smpls)
  let m := trimRes k.trimT m0
  let _ ← ssmCluster c
  return { fit := (ssmElems k.normalize (c.dIs 1) (c.dIs 0) g1.vec g0.vec pi.vec m.vec s c.y).fit c.cluster
           preds := [("ml_g_d0", g0.preds), ("ml_g_d1", g1.preds), ("ml_pi", pi.preds), ("ml_m", m.preds)]
           targets := [("ml_g_d0", g0.targets), ("ml_g_d1", g1.targets), ("ml_pi", pi.targets), ("ml_m", m.targets)]
           models := [("ml_g_d0", g0.models), ("ml_g_d1", g1.models), ("ml_pi", pi.models), ("ml_m", m.models)]
           sens := .zero
           start := c.start }

/-- `DoubleMLSSM`; neither external predictions nor sensitivity analysis are implemented. -/
noncomputable def ssmSpec (k : SsmClass n P) : LinSpec n P :=
  { learners := ["ml_g_d0", "ml_g_d1", "ml_pi", "ml_m"]
    keys := [("ml_g", k.gClassifier), ("ml_pi", true), ("ml_m", true)]
    extImpl := false
    sensImpl := false
    stratified := true
    vars := k.vars
    est := ssmEst k }

/-! ## PLIV -/

/-- `DoubleMLPLIV` (/repo/doubleml/plm/pliv.py:96-187).  `ml_g` is given exactly for the score `IV-type`.  `proj` is
the least-squares projection of the second stage (`LinearRegression().fit(v_hat, w_hat).predict(v_hat)`). -/
structure PlivClass (n : ℕ) (P : Type) where
  ml_l : Learner P (List Cell)
  ml_m : Learner P (List Cell)
  ml_r : Learner P (List Cell)
  ml_g : Learner P (List Cell)
  iv : Bool
  proj : {k : ℕ} → (Fin n → Fin k → ℝ) → (Fin n → ℝ) → Fin n → ℝ
  vars : Option (List (Fin n → Cell) → ClusterVars n) := none

/-- The branch of a nuisance that may be external; the finiteness check runs in both cases
(/repo/doubleml/plm/pliv.py:253-267). -/
noncomputable def plivPart (L : Learner P (List Cell)) (c : CellIn n P) (l : String) (y : Fin n → ℝ) :
    Except Exc (CvRes n P (List Cell)) :=
  match c.extOf l with
  | some e => .ok (extRes e)
  | none => learn L .predict c l y

/-- `g_hat` (/repo/doubleml/plm/pliv.py:348-369). -/
noncomputable def plivG (k : PlivClass n P) (c : CellIn n P) (z : Fin n → ℝ) (l m r : CvRes n P (List Cell)) :
    Except Exc (CvRes n P (List Cell)) :=
  if k.iv then
    plivPart k.ml_g c "ml_g" fun i => c.y i - (plivPo c.y z c.d l.vec m.vec r.vec).coef none * c.d i
  else .ok noRes

/-- The score elements with one instrument (/repo/doubleml/plm/pliv.py:392-400). -/
def plivElems (iv : Bool) (y z d l m r g : Fin n → ℝ) : PsiElems n := if iv then plivIv y z d m g else plivPo y z d l m r

/-- `partialX` with one instrument (/repo/doubleml/plm/pliv.py:249-413). -/
noncomputable def plivEst (k : PlivClass n P) (c : CellIn n P) : Except Exc (LinOut n P) := do
  let l ← plivPart k.ml_l c "ml_l" c.y
  let z ← c.instr
  let m ← plivPart k.ml_m c "ml_m" z
  let r ← plivPart k.ml_r c "ml_r" c.d
  let g ← plivG k c z l m r
  return { fit := (plivElems k.iv c.y z c.d l.vec m.vec r.vec g.vec).fit c.cluster
           preds := [("ml_l", l.preds), ("ml_m", m.preds), ("ml_r", r.preds), ("ml_g", g.preds)]
           targets := [("ml_l", l.targets), ("ml_m", m.targets), ("ml_r", r.targets), ("ml_g", g.targets)]
           models := [("ml_l", l.models), ("ml_m", m.models), ("ml_r", r.models), ("ml_g", g.models)]
           sens := .zero
           start := c.start }

/-- `DoubleMLPLIV` with one instrument; splits are not stratified, sensitivity analysis is not implemented. -/
noncomputable def plivSpec (k : PlivClass n P) : LinSpec n P :=
  { learners := if k.iv then ["ml_l", "ml_m", "ml_r", "ml_g"] else ["ml_l", "ml_m", "ml_r"]
    keys := if k.iv then [("ml_l", false), ("ml_m", false), ("ml_r", false), ("ml_g", false)]
      else [("ml_l", false), ("ml_m", false), ("ml_r", false)]
    extImpl := true
    sensImpl := false
    stratified := false
    vars := k.vars
    est := plivEst k }

/-- The name of the nuisance of instrument `z` (/repo/doubleml/plm/pliv.py:186-191). -/
def plivName (z : String) : String := "ml_m_" ++ z

/-- The instruments with their columns. -/
def CellIn.instrs (c : CellIn n P) : List (String × (Fin n → Cell)) := (c.data.z.getD []).zip (c.data.zv.getD [])

/-- The nuisance of one instrument (/repo/doubleml/plm/pliv.py:292-327).  Simplification: finiteness is checked after
each instrument instead of once after all of them. -/
noncomputable def plivInstr (k : PlivClass n P) (c : CellIn n P) (zc : String × (Fin n → Cell)) :
    Except Exc (String × CvRes n P (List Cell)) := do
  let r ← plivPart k.ml_m c (plivName zc.1) fun i => (zc.2 i).val
  return (plivName zc.1, r)

/-- Column `j` of the instruments, as numbers (/repo/doubleml/plm/pliv.py:300,384). -/
noncomputable def instrCol (c : CellIn n P) {k : ℕ} (i : Fin n) (j : Fin k) : ℝ :=
  (c.instrs[(j : ℕ)]?.map fun zc => (zc.2 i).val).getD 0

/-- Column `j` of the predictions of the instruments (/repo/doubleml/plm/pliv.py:303,320). -/
noncomputable def instrPred (ms : List (String × CvRes n P (List Cell))) (i : Fin n) (j : Fin ms.length) : ℝ :=
  (ms[j].2).vec i

/-- `partialX` with several instruments (/repo/doubleml/plm/pliv.py:249-413). -/
noncomputable def plivMultiEst (k : PlivClass n P) (c : CellIn n P) : Except Exc (LinOut n P) := do
  let l ← plivPart k.ml_l c "ml_l" c.y
  let ms ← c.instrs.mapM (plivInstr k c)
  let r ← plivPart k.ml_r c "ml_r" c.d
  return { fit := (plivMulti k.proj c.y c.d l.vec r.vec (instrCol c) (instrPred ms)).fit c.cluster
           preds := [("ml_l", l.preds)] ++ (ms.map fun q => (q.1, q.2.preds)) ++ [("ml_r", r.preds)]
           targets := [("ml_l", l.targets)] ++ (ms.map fun q => (q.1, q.2.targets)) ++ [("ml_r", r.targets)]
           models := [("ml_l", l.models)] ++ (ms.map fun q => (q.1, q.2.models)) ++ [("ml_r", r.models)]
           sens := .zero
           start := c.start }

/-- `DoubleMLPLIV` with several instruments `zs`. -/
noncomputable def plivMultiSpec (k : PlivClass n P) (zs : List String) : LinSpec n P :=
  { learners := ["ml_l", "ml_r"] ++ zs.map plivName
    keys := [("ml_l", false), ("ml_m", false), ("ml_r", false)]
    extImpl := true
    sensImpl := false
    stratified := false
    vars := k.vars
    est := plivMultiEst k }

/-- Covariates and instruments (/repo/doubleml/plm/pliv.py:417,451). -/
def CellIn.xz (c : CellIn n P) (i : Fin n) : List Cell := rowX c.data i ++ (c.data.zv.getD []).map fun z => z i

/-- `_partialZ` (/repo/doubleml/plm/pliv.py:415-447): external predictions are not looked at. -/
noncomputable def plivZEst (k : PlivClass n P) (c : CellIn n P) : Except Exc (LinOut n P) := do
  let r ← ssmPart k.ml_r .predict c "ml_r" c.xz c.d c.smpls
  return { fit := (plivZ c.y c.d r.vec).fit c.cluster
           preds := [("ml_r", r.preds)]
           targets := [("ml_r", r.targets)]
           models := [("ml_r", r.models)]
           sens := .zero
           start := c.start }

/-- `DoubleMLPLIV._partialZ`. -/
noncomputable def plivZSpec (k : PlivClass n P) : LinSpec n P :=
  { learners := ["ml_r"]
    keys := [("ml_r", false)]
    extImpl := true
    sensImpl := false
    stratified := false
    vars := k.vars
    est := plivZEst k }

/-- `m_hat` with its training predictions (/repo/doubleml/plm/pliv.py:467-479). -/
noncomputable def plivXZM (k : PlivClass n P) (c : CellIn n P) : Except Exc (CvRes n P (List Cell)) := do
  let r ← cvPredict k.ml_m { x := c.xz, y := .plain c.d, smpls := c.smpls, params := c.paramsOf "ml_m", method := .predict,
                             returnTrain := true, returnModels := c.wantModels }
  let _ ← checkFinite r.preds c.smpls
  return r

/-- `m_hat_tilde` (/repo/doubleml/plm/pliv.py:481-492): the projection is learned from the training predictions of
each fold. -/
noncomputable def plivXZR (k : PlivClass n P) (c : CellIn n P) (ts : List (List ℝ)) : Except Exc (CvRes n P (List Cell)) := do
  let r ← cvPredict k.ml_r { x := rowX c.data, y := .perFold ts, smpls := c.smpls, params := c.paramsOf "ml_r",
                             method := .predict, returnTrain := false, returnModels := c.wantModels }
  let _ ← checkFinite r.preds c.smpls
  return r

/-- `_partialXZ` (/repo/doubleml/plm/pliv.py:449-513): external predictions are not looked at. -/
noncomputable def plivXZEst (k : PlivClass n P) (c : CellIn n P) : Except Exc (LinOut n P) := do
  let l ← ssmPart k.ml_l .predict c "ml_l" (rowX c.data) c.y c.smpls
  let m ← plivXZM k c
  let r ← plivXZR k c (m.trainPreds.getD [])
  return { fit := (plivXZ c.y c.d l.vec m.vec r.vec).fit c.cluster
           preds := [("ml_l", l.preds), ("ml_m", m.preds), ("ml_r", r.preds)]
           targets := [("ml_l", l.targets), ("ml_m", m.targets), ("ml_r", r.targets)]
           models := [("ml_l", l.models), ("ml_m", m.models), ("ml_r", r.models)]
           sens := .zero
           start := c.start }

/-- `DoubleMLPLIV._partialXZ`. -/
noncomputable def plivXZSpec (k : PlivClass n P) : LinSpec n P :=
  { learners := ["ml_l", "ml_m", "ml_r"]
    keys := [("ml_l", false), ("ml_m", false), ("ml_r", false)]
    extImpl := true
    sensImpl := false
    stratified := false
    vars := k.vars
    est := plivXZEst k }

end DML
