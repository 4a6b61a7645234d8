import Verif.Nested
import Verif.Classes

/-!
# LPQ and SSM with nonignorable nonresponse as model classes

`DoubleMLLPQ` (/repo/doubleml/irm/lpq.py) and `DoubleMLSSM` with score `nonignorable` (/repo/doubleml/irm/ssm.py) as
instances of the generic model object of `Verif.Model`.
-/

namespace DML

open Finset

variable {n : ℕ} {P : Type}

/-! ## LPQ -/

/-- `DoubleMLLPQ` (/repo/doubleml/irm/lpq.py:99-172): learners, settings, bounds, density estimator and root finder. -/
structure LpqClass (n : ℕ) (P : Type) where
  ml_g : Learner P (List Cell)
  ml_m : Learner P (List Cell)
  treatment : ℝ
  q : ℝ
  trimT : ℝ
  normalize : Bool
  lo : ℝ
  hi : ℝ
  nested : NestedExt n
  root : RootExt
  /-- `kde(u, weights)`: the density estimate at 0. -/
  kde : (Fin n → ℝ) → (Fin n → ℝ) → ℝ
  /-- How cluster labels are read off; `none` without clustered data. -/
  vars : Option (List (Fin n → Cell) → ClusterVars n) := none

/-- `self._learner` (/repo/doubleml/irm/lpq.py:157-163). -/
def LpqClass.learners (k : LpqClass n P) : LpqLearners P (List Cell) := ⟨k.ml_m, k.ml_m, k.ml_m, k.ml_g, k.ml_g⟩

/-- The settings with the current start value. -/
def LpqClass.set (k : LpqClass n P) (start : ℝ) : QuantSet := ⟨k.treatment, k.q, k.trimT, k.normalize, start, k.lo, k.hi⟩

/-- One entry per learner of a dictionary (/repo/doubleml/irm/lpq.py:283-288,323-333). -/
def lpqEntries {A : Type} (f : String → Option A) : LpqParams A :=
  ⟨f "ml_m_z", f "ml_m_d_z0", f "ml_m_d_z1", f "ml_g_du_z0", f "ml_g_du_z1"⟩

/-- The weights of the density estimate (/repo/doubleml/irm/lpq.py:265). -/
noncomputable def lpqDerivWeight (treatment ind mz z comp : ℝ) : ℝ :=
  (2 * treatment - 1) * (z / mz - (1 - z) / (1 - mz)) * ind / comp

/-- Score and derivative of LPQ (/repo/doubleml/irm/lpq.py:228-270). -/
noncomputable def lpqFit (k : LpqClass n P) (start : ℝ) (ind mz g0 g1 y z : Fin n → ℝ) (comp : ℝ)
    (cr : Option (ClusterRep n)) : FitOne n :=
  nonlinFit k.root (fun theta i => lpqScore k.treatment k.q theta (ind i) (mz i) (g0 i) (g1 i) (y i) (z i) comp)
    (fun theta => k.kde (fun i => y i - theta) fun i => lpqDerivWeight k.treatment (ind i) (mz i) (z i) comp)
    start (k.lo, k.hi) cr

/-- The observations of a cell with the instrument. -/
def CellIn.obsZ (c : CellIn n P) (z : Fin n → ℝ) : ObsZ n (List Cell) := ⟨c.obs, z⟩

/-- The models of one learner, if they are asked for. -/
def lpqModels {R : Type} (want : Bool) (sel : R → FittedModel P (List Cell)) (rs : List (Fold n × R)) :
    Option (List (FittedModel P (List Cell))) :=
  if want then some (rs.map fun r => sel r.2) else none

/-- The estimation of one cell (/repo/doubleml/irm/lpq.py:278-555).  The stored propensities of the instrument are the
untrimmed ones; the start value is overwritten unless all predictions are supplied. -/
noncomputable def lpqEst (k : LpqClass n P) (c : CellIn n P) : Except Exc (LinOut n P) := do
  let z ← c.instr
  let o ← lpqNuisance k.nested k.learners (k.set c.start) (c.obsZ z) c.smpls
    (lpqEntries fun l => (lookupKey l c.params).join) (lpqEntries c.extOf) c.wantModels
  return { fit := lpqFit k o.start (fun i => indEq (c.obs.d i) k.treatment) o.mAdj (fun i => (o.g0 i).getD 0)
             (fun i => (o.g1 i).getD 0) c.obs.y z o.comp c.cluster
           preds := [("ml_m_z", o.mz), ("ml_m_d_z0", o.mdz0), ("ml_m_d_z1", o.mdz1), ("ml_g_du_z0", o.g0),
             ("ml_g_du_z1", o.g1)]
           targets := [("ml_m_z", some fun i => some (z i)),
             ("ml_m_d_z0", some (condTargets (fun i => some (c.obs.d i)) fun i => z i = 0)),
             ("ml_m_d_z1", some (condTargets (fun i => some (c.obs.d i)) fun i => z i = 1)),
             ("ml_g_du_z0", some o.g0Target), ("ml_g_du_z1", some o.g1Target)]
           models := [("ml_m_z", lpqModels c.wantModels LpqFold.mz o.folds),
             ("ml_m_d_z0", lpqModels c.wantModels LpqFold.mdz0 o.folds),
             ("ml_m_d_z1", lpqModels c.wantModels LpqFold.mdz1 o.folds),
             ("ml_g_du_z0", lpqModels c.wantModels LpqFold.g0 o.folds),
             ("ml_g_du_z1", lpqModels c.wantModels LpqFold.g1 o.folds)]
           sens := .zero
           start := o.start }

/-- The names of the learners (/repo/doubleml/irm/lpq.py:272-276). -/
def lpqNames : List String := ["ml_m_z", "ml_g_du_z0", "ml_g_du_z1", "ml_m_d_z0", "ml_m_d_z1"]

/-- `DoubleMLLPQ`: all learners are classifiers; external predictions are accepted, sensitivity analysis is not
implemented. -/
noncomputable def lpqSpec (k : LpqClass n P) : LinSpec n P :=
  { learners := lpqNames
    keys := [("ml_m_z", true), ("ml_g_du_z0", true), ("ml_g_du_z1", true), ("ml_m_d_z0", true), ("ml_m_d_z1", true)]
    extImpl := true
    sensImpl := false
    stratified := true
    vars := k.vars
    est := lpqEst k }

/-! ## SSM with nonignorable nonresponse -/

/-- `np.column_stack((x, pi))` for one row (/repo/doubleml/irm/ssm.py:329). -/
def addCol (r : List Cell × ℝ) : List Cell := r.1 ++ [.num r.2]

/-- A learner applied to rows with an additional column. -/
def Learner.withCol (L : Learner P (List Cell)) : Learner P (List Cell × ℝ) where
  predict p D x := L.predict p (D.map fun r => (addCol r.1, r.2)) (addCol x)
  proba p D x := L.proba p (D.map fun r => (addCol r.1, r.2)) (addCol x)

/-- The model that was fitted to rows with an additional column. -/
def FittedModel.withCol (f : FittedModel P (List Cell × ℝ)) : FittedModel P (List Cell) :=
  ⟨f.params, f.data.map fun r => (addCol r.1, r.2)⟩

/-- `DoubleMLSSM` with score `nonignorable` (/repo/doubleml/irm/ssm.py:102-158). -/
structure SsmNonClass (n : ℕ) (P : Type) extends SsmClass n P where
  nested : NestedExt n

/-- The learners on the features they are trained on. -/
def SsmNonClass.learners (k : SsmNonClass n P) : SsmLearners P (List Cell) (List Cell) :=
  ⟨k.ml_pi, k.ml_m.withCol, k.ml_g.withCol⟩

/-- `dx` with score `nonignorable` (/repo/doubleml/irm/ssm.py:210-211): covariates, treatment, instruments; without
instruments `check_X_y` fails. -/
def CellIn.xdz (c : CellIn n P) : Except Exc (Fin n → List Cell) :=
  match c.data.zv with
  | some zs => .ok fun i => rowX c.data i ++ [c.data.dv i] ++ zs.map fun z => z i
  | none => .error .valueError

/-- The observations of a cell with the selection indicator. -/
def CellIn.obsS (c : CellIn n P) (dx : Fin n → List Cell) (s : Fin n → ℝ) : ObsS n (List Cell) (List Cell) := ⟨c.obs, dx, s⟩

/-- The estimation of one cell with score `nonignorable` (/repo/doubleml/irm/ssm.py:204-404): the targets are those of
the test sets, for all observations; `ml_g` predicts with `predict` also if it is a classifier. -/
noncomputable def ssmNonEst (k : SsmNonClass n P) (c : CellIn n P) : Except Exc (LinOut n P) := do
  let s ← c.sel
  let dx ← c.xdz
  let o ← ssmNuisance k.nested k.learners (c.obsS dx s) k.trimT c.smpls
    ⟨(lookupKey "ml_pi" c.params).join, (lookupKey "ml_m" c.params).join, (lookupKey "ml_g_d1" c.params).join,
      (lookupKey "ml_g_d0" c.params).join⟩
  let _ ← ssmCluster c
  let onTest : (Fin n → ℝ) → NV n := fun v => gather (fun _ i => some (v i)) o.folds
  return { fit := (ssmElems k.normalize (c.dIs 1) (c.dIs 0) (fun i => (o.g1 i).getD 0) (fun i => (o.g0 i).getD 0)
             (fun i => (o.pi i).getD 0) (fun i => (o.m i).getD 0) s c.y).fit c.cluster
           preds := [("ml_g_d0", o.g0), ("ml_g_d1", o.g1), ("ml_pi", o.pi), ("ml_m", o.m)]
           targets := [("ml_g_d0", some (onTest c.y)), ("ml_g_d1", some (onTest c.y)), ("ml_pi", some (onTest s)),
             ("ml_m", some (onTest c.d))]
           models := [("ml_g_d0", lpqModels c.wantModels (fun r => r.g0.withCol) o.folds),
             ("ml_g_d1", lpqModels c.wantModels (fun r => r.g1.withCol) o.folds),
             ("ml_pi", lpqModels c.wantModels SsmFold.pi o.folds),
             ("ml_m", lpqModels c.wantModels (fun r => r.m.withCol) o.folds)]
           sens := .zero
           start := c.start }

/-- `DoubleMLSSM` with score `nonignorable`. -/
noncomputable def ssmNonSpec (k : SsmNonClass n P) : LinSpec n P :=
  { learners := ["ml_g_d0", "ml_g_d1", "ml_pi", "ml_m"]
    keys := [("ml_g", k.gClassifier), ("ml_pi", true), ("ml_m", true)]
    extImpl := false
    sensImpl := false
    stratified := true
    vars := k.vars
    est := ssmNonEst k }

end DML
