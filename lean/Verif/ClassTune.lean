import Verif.PlrTune
import Verif.NestedClasses

/-!
# Tuning of the other model classes

`_nuisance_tuning` of `DoubleMLIRM`, `DoubleMLAPO`, `DoubleMLIIVM`, `DoubleMLDID`, `DoubleMLDIDCS`, `DoubleMLSSM`,
`DoubleMLPLIV`, `DoubleMLPQ`, `DoubleMLCVAR` and `DoubleMLLPQ`.  The candidates, the scoring method and the settings of
the search are part of the search functions, one for every nuisance.
-/

namespace DML

open Finset

variable {n : ℕ} {P : Type}

/-- The searches of a model for nuisance `l`, treatment `j` and repetition `k`. -/
abbrev Searches (P : Type) := String → ℕ → ℕ → SearchFn P (List Cell)

/-- `[xx.best_params_ for xx in _dml_tune(y, x, train_inds, …)]` (e.g. /repo/doubleml/irm/irm.py:413-450). -/
def plainTune (f : SearchFn P (List Cell)) (x : Fin n → List Cell) (y : Fin n → ℝ) (S : List (Fold n)) : List P :=
  (dmlTune f x y (S.map Fold.train)).map Found.best

/-- The same on the training observations in `on` (`_get_cond_smpls`, `_get_cond_smpls_2d` or `np.intersect1d` with
`np.where`; e.g. /repo/doubleml/irm/irm.py:405-425, irm/pq.py:407, irm/lpq.py:567-568). -/
def condTune (f : SearchFn P (List Cell)) (x : Fin n → List Cell) (y : Fin n → ℝ) (on : Fin n → Prop) [DecidablePred on]
    (S : List (Fold n)) : List P := plainTune f x y (condSmpls on S)

/-- The outcome as numbers. -/
def DataState.yNum (D : DataState n) (i : Fin n) : ℝ := (D.yv i).val

/-- The treatment as numbers. -/
def DataState.dNum (D : DataState n) (i : Fin n) : ℝ := (D.dv i).val

/-- `check_X_y(x, np.ravel(self._dml_data.z))`: fails unless there is exactly one instrument. -/
def DataState.instr (D : DataState n) : Except Exc (Fin n → ℝ) :=
  match D.zv with
  | some [z] => .ok fun i => (z i).val
  | _ => .error .valueError

/-- `check_X_y(x, self._dml_data.t)`. -/
def DataState.time (D : DataState n) : Except Exc (Fin n → ℝ) :=
  match D.tv with
  | some t => .ok fun i => (t i).val
  | none => .error .valueError

/-- `check_X_y(x, self._dml_data.s)`. -/
def DataState.sel (D : DataState n) : Except Exc (Fin n → ℝ) :=
  match D.sv with
  | some s => .ok fun i => (s i).val
  | none => .error .valueError

/-- `np.hstack((self._dml_data.x, self._dml_data.z))`. -/
def DataState.xz (D : DataState n) (i : Fin n) : List Cell := rowX D i ++ (D.zv.getD []).map fun z => z i

/-- `DoubleMLIRM._nuisance_tuning` (/repo/doubleml/irm/irm.py:400-461). -/
noncomputable def irmTune (T : Searches P) : Search n P := fun j k D S =>
  .ok [("ml_g0", condTune (T "ml_g0" j k) (rowX D) D.yNum (fun i => D.dNum i = 0) S),
       ("ml_g1", condTune (T "ml_g1" j k) (rowX D) D.yNum (fun i => D.dNum i = 1) S),
       ("ml_m", plainTune (T "ml_m" j k) (rowX D) D.dNum S)]

open Classical in
/-- `self.treated` (/repo/doubleml/irm/apo.py:102). -/
noncomputable def DataState.treated (D : DataState n) (level : ℝ) (i : Fin n) : ℝ := if D.dNum i = level then 1 else 0

/-- `DoubleMLAPO._nuisance_tuning` (/repo/doubleml/irm/apo.py:360-425). -/
noncomputable def apoTune (k : ApoClass n P) (T : Searches P) : Search n P := fun j r D S =>
  .ok [("ml_g_d_lvl0", condTune (T "ml_g_d_lvl0" j r) (fun i => D.dv i :: rowX D i) D.yNum
          (fun i => D.treated k.level i = 0) S),
       ("ml_g_d_lvl1", condTune (T "ml_g_d_lvl1" j r) (rowX D) D.yNum (fun i => D.treated k.level i = 1) S),
       ("ml_m", plainTune (T "ml_m" j r) (rowX D) (D.treated k.level) S)]

/-- The search for `ml_r0` or `ml_r1` (/repo/doubleml/irm/iivm.py:493-527): none for an excluded subgroup, where the
parameters are `[None] * len(smpls)`.  Simplification: `None` is an element `skip` of the type of parameters; such
parameters are never used, since `fit` does not train a learner for an excluded subgroup. -/
noncomputable def iivmTuneR (skip : P) (f : SearchFn P (List Cell)) (D : DataState n) (z : Fin n → ℝ) (v : ℝ)
    (included : Bool) (S : List (Fold n)) : List P :=
  if included then condTune f (rowX D) D.dNum (fun i => z i = v) S else List.replicate S.length skip

/-- `DoubleMLIIVM._nuisance_tuning` (/repo/doubleml/irm/iivm.py:438-549). -/
noncomputable def iivmTune (k : IivmClass n P) (skip : P) (T : Searches P) : Search n P := fun j r D S => do
  let z ← D.instr
  return [("ml_g0", condTune (T "ml_g0" j r) (rowX D) D.yNum (fun i => z i = 0) S),
          ("ml_g1", condTune (T "ml_g1" j r) (rowX D) D.yNum (fun i => z i = 1) S),
          ("ml_m", plainTune (T "ml_m" j r) (rowX D) z S),
          ("ml_r0", iivmTuneR skip (T "ml_r0" j r) D z 0 k.alwaysTakers S),
          ("ml_r1", iivmTuneR skip (T "ml_r1" j r) D z 1 k.neverTakers S)]

/-- The search for `ml_m`, only with the observational score (/repo/doubleml/did/did.py:411-430, did_cs.py:613-661). -/
noncomputable def didTuneM (k : DidClass n P) (f : SearchFn P (List Cell)) (D : DataState n) (S : List (Fold n)) : TuneRes P :=
  match k.score with
  | .observational => [("ml_m", plainTune f (rowX D) D.dNum S)]
  | .experimental => []

/-- `DoubleMLDID._nuisance_tuning` (/repo/doubleml/did/did.py:370-434). -/
noncomputable def didTune (k : DidClass n P) (T : Searches P) : Search n P := fun j r D S =>
  .ok ([("ml_g0", condTune (T "ml_g0" j r) (rowX D) D.yNum (fun i => D.dNum i = 0) S),
        ("ml_g1", condTune (T "ml_g1" j r) (rowX D) D.yNum (fun i => D.dNum i = 1) S)] ++ didTuneM k (T "ml_m" j r) D S)

/-- `DoubleMLDIDCS._nuisance_tuning` (/repo/doubleml/did/did_cs.py:544-666). -/
noncomputable def csTune (k : DidClass n P) (T : Searches P) : Search n P := fun j r D S => do
  let t ← D.time
  return [("ml_g_d0_t0", condTune (T "ml_g_d0_t0" j r) (rowX D) D.yNum (fun i => D.dNum i = 0 ∧ t i = 0) S),
          ("ml_g_d0_t1", condTune (T "ml_g_d0_t1" j r) (rowX D) D.yNum (fun i => D.dNum i = 0 ∧ t i = 1) S),
          ("ml_g_d1_t0", condTune (T "ml_g_d1_t0" j r) (rowX D) D.yNum (fun i => D.dNum i = 1 ∧ t i = 0) S),
          ("ml_g_d1_t1", condTune (T "ml_g_d1_t1" j r) (rowX D) D.yNum (fun i => D.dNum i = 1 ∧ t i = 1) S)]
    ++ didTuneM k (T "ml_m" j r) D S

/-- `dx` (/repo/doubleml/irm/ssm.py:434-438): with score `nonignorable` also the instruments, without which `check_X_y`
fails. -/
def ssmTuneX (non : Bool) (D : DataState n) : Except Exc (Fin n → List Cell) :=
  if non then
    match D.zv with
    | some zs => .ok fun i => rowX D i ++ [D.dv i] ++ zs.map fun z => z i
    | none => .error .valueError
  else .ok fun i => rowX D i ++ [D.dv i]

/-- `DoubleMLSSM._nuisance_tuning` (/repo/doubleml/irm/ssm.py:426-510). -/
noncomputable def ssmTune (non : Bool) (T : Searches P) : Search n P := fun j r D S => do
  let s ← D.sel
  let dx ← ssmTuneX non D
  return [("ml_g_d0", condTune (T "ml_g_d0" j r) (rowX D) D.yNum (fun i => D.dNum i = 0 ∧ s i = 1) S),
          ("ml_g_d1", condTune (T "ml_g_d1" j r) (rowX D) D.yNum (fun i => D.dNum i = 1 ∧ s i = 1) S),
          ("ml_pi", plainTune (T "ml_pi" j r) dx s S),
          ("ml_m", plainTune (T "ml_m" j r) (rowX D) D.dNum S)]

/-- `theta_initial` of PLIV (/repo/doubleml/plm/pliv.py:595-606); both `nanmean`s run over the same observations. -/
noncomputable def plivTheta (y z d : Fin n → ℝ) (l m r : NV n) : ℝ :=
  -(∑ i, ((m i).bind fun b => (l i).map fun a => (z i - b) * (y i - a)).getD 0) /
    ∑ i, ((r i).bind fun q => (m i).map fun b => -((d i - q) * (z i - b))).getD 0

/-- The search for `ml_g` of PLIV (/repo/doubleml/plm/pliv.py:593-619). -/
noncomputable def plivTuneG (f : SearchFn P (List Cell)) (D : DataState n) (z : Fin n → ℝ) (trains : List (List (Fin n)))
    (l m r : List (Found P (List Cell))) : List P :=
  let theta := plivTheta D.yNum z D.dNum (trainHat (rowX D) (trains.zip l)) (trainHat (rowX D) (trains.zip m))
    (trainHat (rowX D) (trains.zip r))
  (dmlTune f (rowX D) (fun i => D.yNum i - theta * D.dNum i) trains).map Found.best

/-- `_nuisance_tuning_partial_x` with one instrument (/repo/doubleml/plm/pliv.py:515-630). -/
noncomputable def plivTune (iv : Bool) (T : Searches P) : Search n P := fun j k D S => do
  let z ← D.instr
  let trains := S.map Fold.train
  let l := dmlTune (T "ml_l" j k) (rowX D) D.yNum trains
  let m := dmlTune (T "ml_m" j k) (rowX D) z trains
  let r := dmlTune (T "ml_r" j k) (rowX D) D.dNum trains
  let base := [("ml_l", l.map Found.best), ("ml_m", m.map Found.best), ("ml_r", r.map Found.best)]
  return if iv then base ++ [("ml_g", plivTuneG (T "ml_g" j k) D z trains l m r)] else base

/-- `_nuisance_tuning_partial_x` with several instruments (/repo/doubleml/plm/pliv.py:538-556,584-589). -/
noncomputable def plivMultiTune (T : Searches P) : Search n P := fun j k D S =>
  .ok ([("ml_l", plainTune (T "ml_l" j k) (rowX D) D.yNum S), ("ml_r", plainTune (T "ml_r" j k) (rowX D) D.dNum S)] ++
    (((D.z.getD []).zip (D.zv.getD [])).map fun zc =>
      (plivName zc.1, plainTune (T (plivName zc.1) j k) (rowX D) (fun i => (zc.2 i).val) S)))

/-- `_nuisance_tuning_partial_z` (/repo/doubleml/plm/pliv.py:632-662). -/
noncomputable def plivZTune (T : Searches P) : Search n P := fun j k D S =>
  .ok [("ml_r", plainTune (T "ml_r" j k) D.xz D.dNum S)]

/-- `_nuisance_tuning_partial_xz` (/repo/doubleml/plm/pliv.py:664-735): `ml_r` is tuned on the predictions of the
tuned `ml_m` for its own training observations. -/
noncomputable def plivXZTune (T : Searches P) : Search n P := fun j k D S =>
  let trains := S.map Fold.train
  let m := dmlTune (T "ml_m" j k) D.xz D.dNum trains
  let r := ((trains.zip m).zipIdx).map fun q => T "ml_r" j k q.2 (q.1.1.map fun i => (rowX D i, q.1.2.predict (D.xz i)))
  .ok [("ml_l", plainTune (T "ml_l" j k) (rowX D) D.yNum S), ("ml_m", m.map Found.best), ("ml_r", r.map Found.best)]

/-- `np.quantile(y[d == self.treatment], self.quantile)` (/repo/doubleml/irm/pq.py:410, cvar.py:341, lpq.py:570). -/
noncomputable def DataState.quant (D : DataState n) (treatment q : ℝ) : ℝ := quantileOf (treatedY D.yNum D.dNum treatment) q

/-- `DoubleMLPQ._nuisance_tuning` (/repo/doubleml/irm/pq.py:397-445). -/
noncomputable def pqTune (k : PqClass n P) (T : Searches P) : Search n P := fun j r D S =>
  .ok [("ml_g", condTune (T "ml_g" j r) (rowX D) (fun i => indLe (D.yNum i) (D.quant k.treatment k.q))
          (fun i => D.dNum i = k.treatment) S),
       ("ml_m", plainTune (T "ml_m" j r) (rowX D) D.dNum S)]

/-- `DoubleMLCVAR._nuisance_tuning` (/repo/doubleml/irm/cvar.py:328-379). -/
noncomputable def cvarTune (k : PqClass n P) (T : Searches P) : Search n P := fun j r D S =>
  .ok [("ml_g", condTune (T "ml_g" j r) (rowX D) (fun i => cvarTarget k.q (D.quant k.treatment k.q) (D.yNum i))
          (fun i => D.dNum i = k.treatment) S),
       ("ml_m", plainTune (T "ml_m" j r) (rowX D) D.dNum S)]

/-- `du` (/repo/doubleml/irm/lpq.py:571). -/
noncomputable def lpqTuneTarget (k : LpqClass n P) (D : DataState n) (i : Fin n) : ℝ :=
  indEq (D.dNum i) k.treatment * indLe (D.yNum i) (D.quant k.treatment k.q)

/-- `DoubleMLLPQ._nuisance_tuning` (/repo/doubleml/irm/lpq.py:556-657). -/
noncomputable def lpqTune (k : LpqClass n P) (T : Searches P) : Search n P := fun j r D S => do
  let z ← D.instr
  return [("ml_m_z", plainTune (T "ml_m_z" j r) (rowX D) z S),
          ("ml_m_d_z0", condTune (T "ml_m_d_z0" j r) (rowX D) D.dNum (fun i => z i = 0) S),
          ("ml_m_d_z1", condTune (T "ml_m_d_z1" j r) (rowX D) D.dNum (fun i => z i = 1) S),
          ("ml_g_du_z0", condTune (T "ml_g_du_z0" j r) (rowX D) (lpqTuneTarget k D) (fun i => z i = 0) S),
          ("ml_g_du_z1", condTune (T "ml_g_du_z1" j r) (rowX D) (lpqTuneTarget k D) (fun i => z i = 1) S)]

end DML
