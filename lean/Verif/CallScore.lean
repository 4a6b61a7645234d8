import Verif.Classes

/-!
# Callable scores

PLR, IRM, IIVM and PLIV (`partialX`, one instrument) accept a function in place of the name of a score.  The function
receives data, predictions and folds and returns `psi_a` and `psi_b`.  It is an arbitrary function that may raise.

Sensitivity elements are not computed for callable scores (/repo/doubleml/double_ml.py:1055-1063): they stay `NaN` and a
warning is issued.  The model describes this as a class without sensitivity analysis; so the `NaN` results of
`sensitivity_analysis` in the code are an exception in the model.
-/

namespace DML

variable {n : ℕ} {P : Type}

/-! ## PLR -/

/-- The signature `score(y, d, l_hat, m_hat, g_hat, smpls)` (/repo/doubleml/plm/plr.py:248-249); `g_hat` is `None`
without `ml_g`. -/
abbrev PlrScore (n : ℕ) : Type :=
  (y d l m : Fin n → ℝ) → (g : Option (Fin n → ℝ)) → (smpls : List (Fold n)) → Except Exc (PsiElems n)

/-- `DoubleMLPLR` with a callable score (/repo/doubleml/plm/plr.py:100-138): `ml_g` is optional and kept if given. -/
structure PlrCall (n : ℕ) (P : Type) where
  ml_l : Learner P (List Cell)
  ml_m : Learner P (List Cell)
  ml_g : Option (Learner P (List Cell))
  mClassifier : Bool
  score : PlrScore n
  vars : Option (List (Fin n → Cell) → ClusterVars n) := none

/-- `l_hat` (/repo/doubleml/plm/plr.py:162-178): estimated unless external, also with an external `g_hat`. -/
noncomputable def plrCallL (k : PlrCall n P) (c : CellIn n P) : Except Exc (CvRes n P (List Cell)) :=
  match c.extOf "ml_l" with
  | some e => .ok (extRes e)
  | none => learn k.ml_l .predict c "ml_l" fun i => (c.data.yv i).val

/-- `m_hat` (/repo/doubleml/plm/plr.py:180-198). -/
noncomputable def plrCallM (k : PlrCall n P) (c : CellIn n P) : Except Exc (CvRes n P (List Cell)) := do
  let r ← match c.extOf "ml_m" with
    | some e => (.ok (extRes e) : Except Exc (CvRes n P (List Cell)))
    | none => learn k.ml_m (if k.mClassifier then .proba else .predict) c "ml_m" fun i => (c.data.dv i).val
  let _ ← checkTreatPreds c r.preds
  return r

/-- `g_hat` (/repo/doubleml/plm/plr.py:200-224): estimated for callable scores if `ml_g` is given. -/
noncomputable def plrCallG (k : PlrCall n P) (c : CellIn n P) (l m : CvRes n P (List Cell)) :
    Except Exc (CvRes n P (List Cell)) :=
  match k.ml_g with
  | none => .ok noRes
  | some L =>
    match c.extOf "ml_g" with
    | some e => .ok (extRes e)
    | none => learn L .predict c "ml_g" fun i => (c.data.yv i).val -
        plrInitial (fun i => (c.data.yv i).val) (fun i => (c.data.dv i).val) l.vec m.vec * (c.data.dv i).val

/-- The estimation of one cell (/repo/doubleml/plm/plr.py:152-251 with /repo/doubleml/double_ml.py:1036-1063). -/
noncomputable def plrCallEst (k : PlrCall n P) (c : CellIn n P) : Except Exc (LinOut n P) := do
  let l ← plrCallL k c
  let m ← plrCallM k c
  let g ← plrCallG k c l m
  let e ← k.score (fun i => (c.data.yv i).val) (fun i => (c.data.dv i).val) l.vec m.vec (k.ml_g.map fun _ => g.vec) c.smpls
  return { fit := e.fit c.cluster
           preds := [("ml_l", l.preds), ("ml_m", m.preds), ("ml_g", g.preds)]
           targets := [("ml_l", l.targets), ("ml_m", m.targets), ("ml_g", g.targets)]
           models := [("ml_l", l.models), ("ml_m", m.models), ("ml_g", g.models)]
           sens := .zero
           start := c.start }

/-- `DoubleMLPLR` with a callable score (/repo/doubleml/plm/plr.py:87-138). -/
noncomputable def plrCallSpec (k : PlrCall n P) : LinSpec n P :=
  { learners := if k.ml_g.isSome then ["ml_l", "ml_m", "ml_g"] else ["ml_l", "ml_m"]
    keys := if k.ml_g.isSome then [("ml_l", false), ("ml_m", k.mClassifier), ("ml_g", false)]
      else [("ml_l", false), ("ml_m", k.mClassifier)]
    extImpl := true
    sensImpl := false
    stratified := false
    vars := k.vars
    est := plrCallEst k }

/-! ## IRM -/

/-- The signature `score(y, d, g_hat0, g_hat1, m_hat, smpls)` (/repo/doubleml/irm/irm.py:358-359). -/
abbrev IrmScore (n : ℕ) : Type :=
  (y d g0 g1 m : Fin n → ℝ) → (smpls : List (Fold n)) → Except Exc (PsiElems n)

/-- The estimation of one cell (/repo/doubleml/irm/irm.py:262-361): the checks are those of the score `ATE`; the function
receives the trimmed and, if requested, normalised propensities; the weights of the object are not used. -/
noncomputable def irmCallEst (k : IrmClass n P) (score : IrmScore n) (c : CellIn n P) : Except Exc (LinOut n P) := do
  let g0 ← irmG0 k c
  let g1 ← irmG1 k c
  let _ ← checkOut c g1.preds
  let m0 ← propM k.ml_m c c.d
  let m := trimRes k.trimT m0
  let e ← score c.y c.d g0.vec g1.vec (adjust k.normalize m.vec c.d) c.smpls
  return { fit := e.fit c.cluster
           preds := [("ml_g0", g0.preds), ("ml_g1", g1.preds), ("ml_m", m.preds)]
           targets := [("ml_g0", g0.targets), ("ml_g1", g1.targets), ("ml_m", m.targets)]
           models := [("ml_g0", g0.models), ("ml_g1", g1.models), ("ml_m", m.models)]
           sens := .zero
           start := c.start }

/-- `DoubleMLIRM` with a callable score; the field `atte` of the class plays no role. -/
noncomputable def irmCallSpec (k : IrmClass n P) (score : IrmScore n) : LinSpec n P :=
  { learners := ["ml_g0", "ml_g1", "ml_m"]
    keys := [("ml_g", k.gClassifier), ("ml_m", true)]
    extImpl := true
    sensImpl := false
    stratified := true
    vars := k.vars
    est := irmCallEst k score }

/-! ## IIVM -/

/-- The signature `score(y, z, d, g_hat0, g_hat1, m_hat, r_hat0, r_hat1, smpls)` (/repo/doubleml/irm/iivm.py:430-434). -/
abbrev IivmScore (n : ℕ) : Type :=
  (y z d g0 g1 m r0 r1 : Fin n → ℝ) → (smpls : List (Fold n)) → Except Exc (PsiElems n)

/-- The estimation of one cell (/repo/doubleml/irm/iivm.py:255-436); the propensities of the instrument are normalised
with the treatment (line 412). -/
noncomputable def iivmCallEst (k : IivmClass n P) (score : IivmScore n) (c : CellIn n P) : Except Exc (LinOut n P) := do
  let z ← c.instr
  let g0 ← iivmG k c z "ml_g0" 0
  let _ ← checkOut c g0.preds
  let g1 ← iivmG k c z "ml_g1" 1
  let _ ← checkOut c g1.preds
  let m0 ← propM k.ml_m c z
  let m := trimRes k.trimT m0
  let r0 ← iivmR k c z "ml_r0" 0 k.alwaysTakers
  let r1 ← iivmR k c z "ml_r1" 1 k.neverTakers
  let e ← score c.y z c.d g0.vec g1.vec (if k.normalize then normalizeIpw m.vec c.d else m.vec) r0.vec r1.vec c.smpls
  return { fit := e.fit c.cluster
           preds := [("ml_g0", g0.preds), ("ml_g1", g1.preds), ("ml_m", m.preds), ("ml_r0", r0.preds), ("ml_r1", r1.preds)]
           targets := [("ml_g0", g0.targets), ("ml_g1", g1.targets), ("ml_m", m.targets), ("ml_r0", r0.targets),
             ("ml_r1", r1.targets)]
           models := [("ml_g0", g0.models), ("ml_g1", g1.models), ("ml_m", m.models), ("ml_r0", r0.models),
             ("ml_r1", r1.models)]
           sens := .zero
           start := c.start }

/-- `DoubleMLIIVM` with a callable score. -/
noncomputable def iivmCallSpec (k : IivmClass n P) (score : IivmScore n) : LinSpec n P :=
  { learners := ["ml_g0", "ml_g1", "ml_m", "ml_r0", "ml_r1"]
    keys := [("ml_g", k.gClassifier), ("ml_m", true), ("ml_r", true)]
    extImpl := true
    sensImpl := false
    stratified := true
    vars := k.vars
    est := iivmCallEst k score }

/-! ## PLIV -/

/-- The signature `score(y, z, d, l_hat, m_hat, r_hat, g_hat, smpls)` (/repo/doubleml/plm/pliv.py:411); `g_hat` is `None`
without `ml_g`. -/
abbrev PlivScore (n : ℕ) : Type :=
  (y z d l m r : Fin n → ℝ) → (g : Option (Fin n → ℝ)) → (smpls : List (Fold n)) → Except Exc (PsiElems n)

/-- `partialX` with one instrument (/repo/doubleml/plm/pliv.py:249-413); the field `iv` of the class says whether `ml_g`
is given. -/
noncomputable def plivCallEst (k : PlivClass n P) (score : PlivScore n) (c : CellIn n P) : Except Exc (LinOut n P) := do
  let l ← plivPart k.ml_l c "ml_l" c.y
  let z ← c.instr
  let m ← plivPart k.ml_m c "ml_m" z
  let r ← plivPart k.ml_r c "ml_r" c.d
  let g ← plivG k c z l m r
  let e ← score c.y z c.d l.vec m.vec r.vec (if k.iv then some g.vec else none) c.smpls
  return { fit := e.fit c.cluster
           preds := [("ml_l", l.preds), ("ml_m", m.preds), ("ml_r", r.preds), ("ml_g", g.preds)]
           targets := [("ml_l", l.targets), ("ml_m", m.targets), ("ml_r", r.targets), ("ml_g", g.targets)]
           models := [("ml_l", l.models), ("ml_m", m.models), ("ml_r", r.models), ("ml_g", g.models)]
           sens := .zero
           start := c.start }

/-- `DoubleMLPLIV` with one instrument and a callable score. -/
noncomputable def plivCallSpec (k : PlivClass n P) (score : PlivScore n) : LinSpec n P :=
  { plivSpec k with est := plivCallEst k score }

/-- `partialX` with several instruments and a callable score (/repo/doubleml/plm/pliv.py:405-408): after the estimation
of the nuisances an exception is raised. -/
noncomputable def plivCallMultiSpec (k : PlivClass n P) (zs : List String) : LinSpec n P :=
  { plivMultiSpec k zs with est := fun c => do
      let _ ← (plivMultiSpec k zs).est c
      .error .notImplemented }

/-- `partialZ` and a callable score (/repo/doubleml/plm/pliv.py:436-438). -/
noncomputable def plivCallZSpec (k : PlivClass n P) : LinSpec n P :=
  { plivZSpec k with est := fun c => do
      let _ ← (plivZSpec k).est c
      .error .notImplemented }

/-- `partialXZ` and a callable score (/repo/doubleml/plm/pliv.py:502-504). -/
noncomputable def plivCallXZSpec (k : PlivClass n P) : LinSpec n P :=
  { plivXZSpec k with est := fun c => do
      let _ ← (plivXZSpec k).est c
      .error .notImplemented }

end DML
