import Verif.Nonlinear
import Verif.Scores
import Verif.PlrModel
import Verif.LinearScore

/-!
# Nested cross-fitting

The nuisance estimation of `DoubleMLPQ`, `DoubleMLCVAR`, `DoubleMLLPQ` and of `DoubleMLSSM` with score
`nonignorable` (/repo/doubleml/irm/pq.py:254-395, /repo/doubleml/irm/cvar.py:204-325,
/repo/doubleml/irm/lpq.py:278-555, /repo/doubleml/irm/ssm.py:204-404): every training set is split into two
halves, a preliminary estimate comes from the first half, the outcome models are fitted on the second half.

Learners never raise, as in `Verif.CrossFit`.
-/

namespace DML

open Finset

variable {n : ℕ} {P X : Type}

/-- The external routines of nested cross-fitting. -/
structure NestedExt (n : ℕ) where
  /-- `train_test_split(idx, test_size=0.5, random_state=42, stratify=strata)`: a function of the indices and of
  the strata of these indices; it raises if a stratum is too small. -/
  halves : List (Fin n) → List ℝ → Except Exc (List (Fin n) × List (Fin n))
  /-- `StratifiedKFold(n_splits=k).split(X, y)`: folds of positions, a function of `k` and of the strata. -/
  skf : ∀ m : ℕ, ℕ → (Fin m → ℝ) → Except Exc (List (Fold m))
  /-- `minimize_scalar(f, bracket=b, method="brent").x` -/
  minScalar : (ℝ → ℝ) → ℝ × ℝ → ℝ

/-- The contract of scikit-learn: the halves split the indices; the folds split the positions. -/
structure NestedExt.Ok (E : NestedExt n) : Prop where
  halves : ∀ {l s a b}, E.halves l s = .ok (a, b) → (a ++ b).Perm l
  skf : ∀ {m k s f}, E.skf m k s = .ok f → isPartition f = true

/-- `v[idx]`. -/
def sub {α : Type} (idx : List (Fin n)) (v : Fin n → α) (i : Fin idx.length) : α := v (idx.get i)

/-- `_predict_zero_one_propensity` of a model fitted with parameters `p` on `D`
(/repo/doubleml/utils/_estimation.py:200-207). -/
def zeroOne (L : Learner P X) (f : FittedModel P X) (x : X) : ℝ :=
  match L.proba f.params f.data x with
  | [_, v] => v
  | _ => L.predict f.params f.data x

/-- The parameters of fold `k`: `est_params[i_fold]`, or none if no parameters are set
(/repo/doubleml/irm/pq.py:282-292). -/
def paramAt (ps : Option (List P)) (k : ℕ) : Except Exc (Option P) :=
  match ps with
  | none => .ok none
  | some l =>
    match l[k]? with
    | none => .error .indexError
    | some p => .ok (some p)

/-- `clone(fitted_models[…][i_fold])` has its parameters set already. -/
def ofParam : Option P → Params P
  | none => .default
  | some p => .same p

/-- The preliminary propensities of the first half by cross-fitting within it
(/repo/doubleml/irm/pq.py:320-325, /repo/doubleml/irm/cvar.py:246-250, /repo/doubleml/irm/lpq.py:380-384). -/
noncomputable def prelimFit (L : Learner P X) (p : Option P) (h1 : List (Fin n)) (x : Fin n → X) (d : Fin n → ℝ)
    (s : List (Fold h1.length)) : Except Exc (Fin h1.length → ℝ) := do
  let r ← cvPredict L { x := sub h1 x, y := .plain (sub h1 d), smpls := s, params := ofParam p, method := .proba,
                        returnTrain := false, returnModels := false }
  return fun i => (r.preds i).getD 0

/-! ## Quantiles and conditional values at risk -/

/-- The settings of PQ and CVaR and the attributes `_coef_start_val` and `_coef_bounds`. -/
structure QuantSet where
  treatment : ℝ
  q : ℝ
  trimT : ℝ
  normalize : Bool
  start : ℝ
  lo : ℝ
  hi : ℝ

/-- The observations. -/
structure Obs (n : ℕ) (X : Type) where
  x : Fin n → X
  y : Fin n → ℝ
  d : Fin n → ℝ

/-- Trimming, normalising and `1 - m` for treatment 0 (/repo/doubleml/irm/pq.py:328-332,366-377,
/repo/doubleml/irm/cvar.py:252-257,306-316). -/
noncomputable def QuantSet.adj {k : ℕ} (c : QuantSet) (m d : Fin k → ℝ) (i : Fin k) : ℝ :=
  if c.treatment = 0 then 1 - adjust c.normalize (fun j => trim c.trimT (m j)) d i
  else adjust c.normalize (fun j => trim c.trimT (m j)) d i

/-- `ipw_score` of the first half (/repo/doubleml/irm/pq.py:335-337, /repo/doubleml/irm/cvar.py:260-262). -/
noncomputable def QuantSet.ipwMean {k : ℕ} (c : QuantSet) (d y m : Fin k → ℝ) (theta : ℝ) : ℝ :=
  mean fun i => ipwScore c.treatment c.q theta (d i) (y i) (c.adj m d i)

/-- `_solve_ipw_score` with the bracket of `_get_bracket_guess`
(/repo/doubleml/utils/_estimation.py:232-239, /repo/doubleml/irm/pq.py:339-340). -/
noncomputable def solveIpw (E : NestedExt n) (score : ℝ → ℝ) (start lo hi : ℝ) : ℝ :=
  E.minScalar (fun t => |score t|) (bracketGuess score start lo hi).2

/-- The preliminary propensities if `ml_m` is supplied (/repo/doubleml/irm/pq.py:327): the supplied vector is
indexed by the concatenated *positions* of the test folds.  Positions are smaller than the number of
observations, the `0` is not reached. -/
def prelimExt (m : Fin n → ℝ) {k : ℕ} (s : List (Fold k)) (i : Fin k) : ℝ :=
  match (s.map Fold.test).flatten[i.val]? with
  | none => 0
  | some j => if h : j.val < n then m ⟨j.val, h⟩ else 0

/-- What one pass of the loop over folds leaves behind: the preliminary estimate and the fitted models. -/
structure QuantFold (P X : Type) where
  ipw : ℝ
  g : Option (FittedModel P X)
  m : Option (FittedModel P X)

/-- The preliminary propensities (/repo/doubleml/irm/pq.py:320-327). -/
noncomputable def prelimM (L : Learner P X) (p : Option P) (h1 : List (Fin n)) (D : Obs n X)
    (mExt : Option (Fin n → ℝ)) (s : List (Fold h1.length)) : Except Exc (Fin h1.length → ℝ) :=
  match mExt with
  | none => prelimFit L p h1 D.x D.d s
  | some m => .ok (prelimExt m s)

/-- The training data of the outcome model: the treated observations of the second half with target `t`
(/repo/doubleml/irm/pq.py:344-352, /repo/doubleml/irm/cvar.py:269-283). -/
noncomputable def secondHalf (treatment : ℝ) (t : ℝ → ℝ) (D : Obs n X) (h2 : List (Fin n)) : List (X × ℝ) :=
  (h2.filter fun i => decide (D.d i = treatment)).map fun i => (D.x i, t (D.y i))

/-- One pass of the loop over folds of PQ and CVaR (/repo/doubleml/irm/pq.py:304-360,
/repo/doubleml/irm/cvar.py:233-292).  `target` is `y <= ipw_est` for PQ and the CVaR target for CVaR; `mExt`,
`gExt` are `none` for CVaR. -/
noncomputable def quantFold (E : NestedExt n) (mlM : Learner P X) (c : QuantSet) (target : ℝ → ℝ → ℝ) (D : Obs n X)
    (nFolds : ℕ) (pg pm : Option P) (gExt mExt : Option (Fin n → ℝ)) (f : Fold n) : Except Exc (QuantFold P X) := do
  let h ← E.halves f.train (f.train.map D.d)
  let s ← E.skf h.1.length nFolds (sub h.1 D.d)
  let mp ← prelimM mlM pm h.1 D mExt s
  let ipw := solveIpw E (c.ipwMean (sub h.1 D.d) (sub h.1 D.y) mp) c.start c.lo c.hi
  return { ipw := ipw
           g := if gExt.isSome then none else some ⟨pg, secondHalf c.treatment (target ipw) D h.2⟩
           m := if mExt.isSome then none else some ⟨pm, trainData D.x D.d f.train⟩ }

/-- `fitted_models[learner]` before fitting (/repo/doubleml/irm/pq.py:277-292): external learners have no
models, their parameters are not looked at. -/
def paramFor (ext : Option (Fin n → ℝ)) (ps : Option (List P)) (k : ℕ) : Except Exc (Option P) :=
  if ext.isSome then .ok none else paramAt ps k

/-- The pass for fold `k`. -/
noncomputable def quantPass (E : NestedExt n) (mlM : Learner P X) (c : QuantSet) (target : ℝ → ℝ → ℝ) (D : Obs n X)
    (nFolds : ℕ) (psG psM : Option (List P)) (gExt mExt : Option (Fin n → ℝ)) (fk : Fold n × ℕ) :
    Except Exc (Fold n × QuantFold P X) := do
  let pg ← paramFor gExt psG fk.2
  let pm ← paramFor mExt psM fk.2
  let r ← quantFold E mlM c target D nFolds pg pm gExt mExt fk.1
  return (fk.1, r)

/-- `v[test_inds] = val(test_inds)` for all folds in turn, starting from `NaN`. -/
noncomputable def gather {R : Type} (val : R → Fin n → Option ℝ) (rs : List (Fold n × R)) (i : Fin n) : Option ℝ :=
  rs.foldl (fun a fr => if i ∈ fr.1.test then val fr.2 i else a) none

/-- `np.mean(ipw_vec)`. -/
noncomputable def meanIpw (rs : List (Fold n × QuantFold P X)) : ℝ := (rs.map fun r => r.2.ipw).sum / rs.length

/-- The folds of the loop: none if everything is supplied (/repo/doubleml/irm/pq.py:303-305).  The number of
folds is the length of the sample splitting. -/
noncomputable def quantPasses (E : NestedExt n) (mlM : Learner P X) (c : QuantSet) (target : ℝ → ℝ → ℝ) (D : Obs n X)
    (smpls : List (Fold n)) (psG psM : Option (List P)) (gExt mExt : Option (Fin n → ℝ)) :
    Except Exc (List (Fold n × QuantFold P X)) :=
  if gExt.isSome && mExt.isSome then .ok []
  else smpls.zipIdx.mapM (quantPass E mlM c target D smpls.length psG psM gExt mExt)

/-- A prediction of the first-stage model. -/
def modelPred (ev : FittedModel P X → X → ℝ) (x : Fin n → X) (m : Option (FittedModel P X)) (i : Fin n) : Option ℝ :=
  m.map fun m => ev m (x i)

/-- A supplied prediction, or the one gathered over the folds. -/
def orExt (ext : Option (Fin n → ℝ)) (v : Fin n → Option ℝ) : Fin n → Option ℝ :=
  match ext with
  | some e => fun i => some (e i)
  | none => v

/-- The result of the nuisance estimation of PQ and CVaR. -/
structure QuantOut (n : ℕ) (P X : Type) where
  g : Fin n → Option ℝ
  gTarget : Fin n → Option ℝ
  m : Fin n → Option ℝ
  mAdj : Fin n → ℝ
  folds : List (Fold n × QuantFold P X)

/-- The nuisance estimation of PQ and CVaR (/repo/doubleml/irm/pq.py:254-395,
/repo/doubleml/irm/cvar.py:204-325).  `evG` is how the outcome model predicts; returning models of an external
learner raises (/repo/doubleml/irm/pq.py:369-371). -/
noncomputable def quantNuisance (E : NestedExt n) (mlM : Learner P X) (evG : FittedModel P X → X → ℝ) (c : QuantSet)
    (target : ℝ → ℝ → ℝ) (D : Obs n X) (smpls : List (Fold n)) (psG psM : Option (List P))
    (gExt mExt : Option (Fin n → ℝ)) (wantModels : Bool) : Except Exc (QuantOut n P X) := do
  let rs ← quantPasses E mlM c target D smpls psG psM gExt mExt
  if wantModels && (gExt.isSome || mExt.isSome) then .error .keyError
  else
    let m := orExt mExt (gather (fun r => modelPred (zeroOne mlM) D.x r.m) rs)
    return { g := orExt gExt (gather (fun r => modelPred evG D.x r.g) rs)
             gTarget := condTargets
               (if gExt.isSome then fun _ => none else gather (fun r i => some (target r.ipw (D.y i))) rs)
               (fun i => D.d i = c.treatment)
             m := fun i => (m i).map (trim c.trimT)
             mAdj := c.adj (fun i => (m i).getD 0) D.d
             folds := rs }

/-- `np.quantile(v, q)` of the values that satisfy a condition. -/
noncomputable def quantileOf (l : List ℝ) (q : ℝ) : ℝ := quantile (fun i : Fin l.length => l.get i) q

/-- `y[d == treatment]`. -/
noncomputable def treatedY (y d : Fin n → ℝ) (treatment : ℝ) : List ℝ :=
  ((List.finRange n).filter fun i => decide (d i = treatment)).map y

/-- `_coef_bounds` (/repo/doubleml/irm/pq.py:146, /repo/doubleml/irm/cvar.py:130, /repo/doubleml/irm/lpq.py:140);
there is at least one observation. -/
noncomputable def coefBounds (y : Fin n → ℝ) : ℝ × ℝ := (⨅ i, y i, ⨆ i, y i)

/-- `_coef_start_val` of PQ and LPQ after construction (/repo/doubleml/irm/pq.py:147,
/repo/doubleml/irm/lpq.py:141). -/
noncomputable def pqStart (y d : Fin n → ℝ) (treatment q : ℝ) : ℝ := quantileOf (treatedY y d treatment) q

/-- `_coef_start_val` of CVaR (/repo/doubleml/irm/cvar.py:131-132). -/
noncomputable def cvarStart (y d : Fin n → ℝ) (treatment q : ℝ) : ℝ :=
  let t := treatedY y d treatment
  let u := t.filter fun v => decide (quantileOf t q ≤ v)
  u.sum / u.length

/-- The settings of a PQ object after construction (/repo/doubleml/irm/pq.py:146-147). -/
noncomputable def pqSettings (treatment q trimT : ℝ) (normalize : Bool) (y d : Fin n → ℝ) : QuantSet :=
  ⟨treatment, q, trimT, normalize, pqStart y d treatment q, (coefBounds y).1, (coefBounds y).2⟩

/-- The settings of a CVaR object after construction (/repo/doubleml/irm/cvar.py:130-132). -/
noncomputable def cvarSettings (treatment q trimT : ℝ) (normalize : Bool) (y d : Fin n → ℝ) : QuantSet :=
  ⟨treatment, q, trimT, normalize, cvarStart y d treatment q, (coefBounds y).1, (coefBounds y).2⟩

/-! ## PQ as a model class -/

/-- A potential-quantile model: learners, settings, bounds, density estimator and root finder. -/
structure PqClass (n : ℕ) (P : Type) where
  ml_g : Learner P (List Cell)
  ml_m : Learner P (List Cell)
  treatment : ℝ
  q : ℝ
  trimT : ℝ
  normalize : Bool
  lo : ℝ
  hi : ℝ
  nested : NestedExt n
  root : RootExt
  /-- `kde(u, weights)`: the density estimate at 0. -/
  kde : (Fin n → ℝ) → (Fin n → ℝ) → ℝ
  /-- How cluster labels are read off; `none` without clustered data. -/
  vars : Option (List (Fin n → Cell) → ClusterVars n) := none

/-- The observations of a cell. -/
def CellIn.obs (c : CellIn n P) : Obs n (List Cell) :=
  ⟨rowX c.data, fun i => (c.data.yv i).val, fun i => (c.data.dv i).val⟩

/-- The settings with the current start value. -/
def PqClass.set (k : PqClass n P) (start : ℝ) : QuantSet := ⟨k.treatment, k.q, k.trimT, k.normalize, start, k.lo, k.hi⟩

/-- The start value after nuisance estimation (/repo/doubleml/irm/pq.py:378-380). -/
noncomputable def newStart (start : ℝ) (gExt mExt : Option (Fin n → ℝ)) (rs : List (Fold n × QuantFold P X)) : ℝ :=
  if gExt.isSome && mExt.isSome then start else meanIpw rs

/-- `_solve_score_and_estimate_se` with a nonlinear score (/repo/doubleml/double_ml.py:1036-1053,1312-1357 with
/repo/doubleml/double_ml_score_mixins.py:103-212): for clustered data the root of the weighted sum over the test sets
is searched, while the fall-back searches use the plain average.  The density estimate is one number that is broadcast
into the array of derivatives; the derivative of the aggregated score is only needed without bounds. -/
noncomputable def nonlinFit (R : RootExt) (score : ℝ → Fin n → ℝ) (deriv : ℝ → ℝ) (start : ℝ) (bounds : ℝ × ℝ)
    (cr : Option (ClusterRep n)) : FitOne n :=
  let coef := nonlinearCoef R (fun theta => aggObs cr (score theta)) (fun theta => mean (score theta))
    (fun theta => aggObs cr fun _ => deriv theta) start (some bounds)
  let v := varEst (score coef) (fun _ => deriv coef) cr
  { coef := coef
    se := Real.sqrt v.1
    vsf := v.2
    psi := score coef
    deriv := fun _ => deriv coef }

/-- Score and derivative of PQ (/repo/doubleml/irm/pq.py:219-248). -/
noncomputable def pqFit (k : PqClass n P) (start : ℝ) (ind g m y : Fin n → ℝ) (cr : Option (ClusterRep n)) : FitOne n :=
  nonlinFit k.root (fun theta i => pqScore k.q theta (ind i) (g i) (m i) (y i))
    (fun theta => k.kde (fun i => y i - theta) fun i => ind i / m i) start (k.lo, k.hi) cr

/-- The estimation of one cell (/repo/doubleml/irm/pq.py:254-395). -/
noncomputable def pqEst (k : PqClass n P) (c : CellIn n P) :
    Except Exc (CellOut n (Option (List (FittedModel P (List Cell))))) := do
  let o ← quantNuisance k.nested k.ml_m (zeroOne k.ml_g) (k.set c.start) (fun ipw y => indLe y ipw) c.obs c.smpls
    (lookupKey "ml_g" c.params).join (lookupKey "ml_m" c.params).join (c.extOf "ml_g") (c.extOf "ml_m") c.wantModels
  let start := newStart c.start (c.extOf "ml_g") (c.extOf "ml_m") o.folds
  return { fit := pqFit k start (fun i => indEq (c.obs.d i) k.treatment) (fun i => (o.g i).getD 0) o.mAdj c.obs.y c.cluster
           preds := [("ml_g", o.g), ("ml_m", o.m)]
           targets := [("ml_g", some o.gTarget), ("ml_m", some fun i => some (c.obs.d i))]
           models := [("ml_g", if c.wantModels then o.folds.mapM (fun r => r.2.g) else none),
                      ("ml_m", if c.wantModels then o.folds.mapM (fun r => r.2.m) else none)]
           sens := SensElems.zero
           start := start }

/-- `DoubleMLPQ` (/repo/doubleml/irm/pq.py:103-171). -/
noncomputable def pqSpec (k : PqClass n P) : Spec n P (Option (List (FittedModel P (List Cell)))) :=
  { learners := ["ml_g", "ml_m"]
    keys := [("ml_g", true), ("ml_m", true)]
    extImpl := true
    sensImpl := false
    stratified := true
    vars := k.vars
    est := pqEst k }

/-! ## CVaR as a model class -/

/-- The estimation of one cell of CVaR (/repo/doubleml/irm/cvar.py:204-325): no external predictions, a linear
score, the start value is not changed. -/
noncomputable def cvarEst (k : PqClass n P) (c : CellIn n P) :
    Except Exc (CellOut n (Option (List (FittedModel P (List Cell))))) := do
  let o ← quantNuisance k.nested k.ml_m (fun m x => k.ml_g.predict m.params m.data x) (k.set c.start)
    (fun ipw y => cvarTarget k.q ipw y) c.obs c.smpls
    (lookupKey "ml_g" c.params).join (lookupKey "ml_m" c.params).join none none c.wantModels
  return { fit := (cvarElems k.treatment k.q (meanIpw o.folds) c.obs.y c.obs.d (fun i => (o.g i).getD 0) o.mAdj).fit c.cluster
           preds := [("ml_g", o.g), ("ml_m", o.m)]
           targets := [("ml_g", some o.gTarget), ("ml_m", some fun i => some (c.obs.d i))]
           models := [("ml_g", if c.wantModels then o.folds.mapM (fun r => r.2.g) else none),
                      ("ml_m", if c.wantModels then o.folds.mapM (fun r => r.2.m) else none)]
           sens := SensElems.zero
           start := c.start }

/-- `DoubleMLCVAR` (/repo/doubleml/irm/cvar.py:98-156). -/
noncomputable def cvarSpec (k : PqClass n P) : Spec n P (Option (List (FittedModel P (List Cell)))) :=
  { learners := ["ml_g", "ml_m"]
    keys := [("ml_g", false), ("ml_m", true)]
    extImpl := false
    sensImpl := false
    stratified := true
    vars := k.vars
    est := cvarEst k }

/-! ## LPQ -/

/-- The observations with an instrument. -/
structure ObsZ (n : ℕ) (X : Type) extends Obs n X where
  z : Fin n → ℝ

/-- The learners of LPQ; all are classifiers. -/
structure LpqLearners (P X : Type) where
  mz : Learner P X
  mdz0 : Learner P X
  mdz1 : Learner P X
  g0 : Learner P X
  g1 : Learner P X

/-- One optional value per learner of LPQ: the parameters of one fold, the parameters of all folds, or the
external predictions. -/
structure LpqParams (P : Type) where
  mz : Option P
  mdz0 : Option P
  mdz1 : Option P
  g0 : Option P
  g1 : Option P

/-- The fitted models of one fold and the preliminary estimate. -/
structure LpqFold (P X : Type) where
  ipw : ℝ
  mz : FittedModel P X
  mdz0 : FittedModel P X
  mdz1 : FittedModel P X
  g0 : FittedModel P X
  g1 : FittedModel P X

/-- Features and target of the indices with `z = v`. -/
noncomputable def dataAt (D : ObsZ n X) (v : ℝ) (t : Fin n → ℝ) (l : List (Fin n)) : List (X × ℝ) :=
  (l.filter fun i => decide (D.z i = v)).map fun i => (D.x i, t i)

/-- `comp_prob` (/repo/doubleml/irm/lpq.py:411-416,509-514). -/
noncomputable def compProb {k : ℕ} (z d m m0 m1 : Fin k → ℝ) : ℝ :=
  mean fun i => m1 i - m0 i + z i / m i * (d i - m1 i) - (1 - z i) / (1 - m i) * (d i - m0 i)

/-- The score of the preliminary estimate (/repo/doubleml/irm/lpq.py:418-423). -/
noncomputable def lpqIpwMean {k : ℕ} (c : QuantSet) (d y z m : Fin k → ℝ) (comp theta : ℝ) : ℝ :=
  mean fun i => lpqIpwScore c.treatment c.q theta (d i) (y i) (m i) (z i) comp

/-- `strata` (/repo/doubleml/irm/lpq.py:291). -/
def ObsZ.strata (D : ObsZ n X) (i : Fin n) : ℝ := D.d i + 2 * D.z i

/-- The preliminary estimate of LPQ from the first half (/repo/doubleml/irm/lpq.py:372-428). -/
noncomputable def lpqPrelim (E : NestedExt n) (K : LpqLearners P X) (c : QuantSet) (D : ObsZ n X) (nFolds : ℕ)
    (p : LpqParams P) (h1 : List (Fin n)) : Except Exc ℝ := do
  let s ← E.skf h1.length nFolds (sub h1 D.strata)
  let mp ← prelimFit K.mz p.mz h1 D.x D.z s
  let m := adjust c.normalize (fun j => trim c.trimT (mp j)) (sub h1 D.z)
  let m0 := fun i : Fin h1.length => zeroOne K.mdz0 ⟨p.mdz0, dataAt D 0 D.d h1⟩ (sub h1 D.x i)
  let m1 := fun i : Fin h1.length => zeroOne K.mdz1 ⟨p.mdz1, dataAt D 1 D.d h1⟩ (sub h1 D.x i)
  let comp := compProb (sub h1 D.z) (sub h1 D.d) m m0 m1
  return solveIpw E (lpqIpwMean c (sub h1 D.d) (sub h1 D.y) (sub h1 D.z) m comp) c.start c.lo c.hi

/-- One pass of the loop over folds of LPQ (/repo/doubleml/irm/lpq.py:359-487). -/
noncomputable def lpqFold (E : NestedExt n) (K : LpqLearners P X) (c : QuantSet) (D : ObsZ n X) (nFolds : ℕ)
    (p : LpqParams P) (f : Fold n) : Except Exc (LpqFold P X) := do
  let h ← E.halves f.train (f.train.map D.strata)
  let ipw ← lpqPrelim E K c D nFolds p h.1
  return { ipw := ipw
           mz := ⟨p.mz, trainData D.x D.z f.train⟩
           mdz0 := ⟨p.mdz0, dataAt D 0 D.d f.train⟩
           mdz1 := ⟨p.mdz1, dataAt D 1 D.d f.train⟩
           g0 := ⟨p.g0, dataAt D 0 (fun i => indEq (D.d i) c.treatment * indLe (D.y i) ipw) h.2⟩
           g1 := ⟨p.g1, dataAt D 1 (fun i => indEq (D.d i) c.treatment * indLe (D.y i) ipw) h.2⟩ }

/-- The five predictions of LPQ for observation `i` from the models of one fold. -/
structure LpqRow where
  mz : ℝ
  mdz0 : ℝ
  mdz1 : ℝ
  g0 : ℝ
  g1 : ℝ

/-- `_predict_zero_one_propensity` of the five models (/repo/doubleml/irm/lpq.py:446-487). -/
def LpqFold.row (K : LpqLearners P X) (r : LpqFold P X) (x : X) : LpqRow :=
  ⟨zeroOne K.mz r.mz x, zeroOne K.mdz0 r.mdz0 x, zeroOne K.mdz1 r.mdz1 x, zeroOne K.g0 r.g0 x, zeroOne K.g1 r.g1 x⟩

/-- The parameters of fold `k` (/repo/doubleml/irm/lpq.py:323-333). -/
def lpqParamsAt (ps : LpqParams (List P)) (k : ℕ) : Except Exc (LpqParams P) := do
  let a ← paramAt ps.mz k
  let b ← paramAt ps.mdz0 k
  let c ← paramAt ps.mdz1 k
  let d ← paramAt ps.g0 k
  let e ← paramAt ps.g1 k
  return ⟨a, b, c, d, e⟩

/-- The pass for fold `k`. -/
noncomputable def lpqPass (E : NestedExt n) (K : LpqLearners P X) (c : QuantSet) (D : ObsZ n X) (nFolds : ℕ)
    (ps : LpqParams (List P)) (fk : Fold n × ℕ) : Except Exc (Fold n × LpqFold P X) := do
  let p ← lpqParamsAt ps fk.2
  let r ← lpqFold E K c D nFolds p fk.1
  return (fk.1, r)

/-- The result of the nuisance estimation of LPQ: predictions, the targets of the outcome models, the adjusted
propensity, the complier probability, the start value, the folds. -/
structure LpqOut (n : ℕ) (P X : Type) where
  mz : Fin n → Option ℝ
  mdz0 : Fin n → Option ℝ
  mdz1 : Fin n → Option ℝ
  g0 : Fin n → Option ℝ
  g1 : Fin n → Option ℝ
  g0Target : Fin n → Option ℝ
  g1Target : Fin n → Option ℝ
  mAdj : Fin n → ℝ
  comp : ℝ
  start : ℝ
  folds : List (Fold n × LpqFold P X)

/-- `all(ext_preds)` (/repo/doubleml/irm/lpq.py:283-288). -/
def LpqParams.all {A : Type} (e : LpqParams A) : Bool :=
  e.mz.isSome && e.mdz0.isSome && e.mdz1.isSome && e.g0.isSome && e.g1.isSome

/-- The prediction of one model, gathered over the folds. -/
noncomputable def lpqGather (K : LpqLearners P X) (D : ObsZ n X) (sel : LpqRow → ℝ) (rs : List (Fold n × LpqFold P X)) :
    Fin n → Option ℝ :=
  gather (fun r i => some (sel (r.row K (D.x i)))) rs

/-- The target of an outcome model (/repo/doubleml/irm/lpq.py:456-463). -/
noncomputable def lpqTarget (c : QuantSet) (D : ObsZ n X) (v : ℝ) (rs : List (Fold n × LpqFold P X)) : Fin n → Option ℝ :=
  condTargets (gather (fun r i => some (indEq (D.d i) c.treatment * indLe (D.y i) r.ipw)) rs) fun i => D.z i = v

/-- Estimation of all folds (/repo/doubleml/irm/lpq.py:295-334,359-487). -/
noncomputable def lpqEstimate (E : NestedExt n) (K : LpqLearners P X) (c : QuantSet) (D : ObsZ n X) (smpls : List (Fold n))
    (ps : LpqParams (List P)) : Except Exc (LpqOut n P X) := do
  let rs ← smpls.zipIdx.mapM (lpqPass E K c D smpls.length ps)
  let mz := lpqGather K D LpqRow.mz rs
  let m0 := lpqGather K D LpqRow.mdz0 rs
  let m1 := lpqGather K D LpqRow.mdz1 rs
  let adj := adjust c.normalize (fun i => trim c.trimT ((mz i).getD 0)) D.z
  return { mz := mz
           mdz0 := m0
           mdz1 := m1
           g0 := lpqGather K D LpqRow.g0 rs
           g1 := lpqGather K D LpqRow.g1 rs
           g0Target := lpqTarget c D 0 rs
           g1Target := lpqTarget c D 1 rs
           mAdj := adj
           comp := compProb D.z D.d adj (fun i => (m0 i).getD 0) fun i => (m1 i).getD 0
           start := (rs.map fun r => r.2.ipw).sum / rs.length
           folds := rs }

/-- A supplied vector as an array without missing values. -/
def given (e : Option (Fin n → ℝ)) (i : Fin n) : Option ℝ := e.map fun v => v i

/-- The nuisance estimation of LPQ (/repo/doubleml/irm/lpq.py:278-555).  External predictions are used only if
all five are supplied (the test of line 335 can never succeed); models asked for are then an unbound local
variable (line 496), which is modelled as `AttributeError`. -/
noncomputable def lpqNuisance (E : NestedExt n) (K : LpqLearners P X) (c : QuantSet) (D : ObsZ n X) (smpls : List (Fold n))
    (ps : LpqParams (List P)) (ext : LpqParams (Fin n → ℝ)) (wantModels : Bool) : Except Exc (LpqOut n P X) :=
  if ext.all then
    if wantModels then .error .attributeError
    else
      let adj := adjust c.normalize (fun i => trim c.trimT ((given ext.mz i).getD 0)) D.z
      .ok { mz := given ext.mz
            mdz0 := given ext.mdz0
            mdz1 := given ext.mdz1
            g0 := given ext.g0
            g1 := given ext.g1
            g0Target := fun _ => none
            g1Target := fun _ => none
            mAdj := adj
            comp := compProb D.z D.d adj (fun i => (given ext.mdz0 i).getD 0) fun i => (given ext.mdz1 i).getD 0
            start := c.start
            folds := [] }
  else lpqEstimate E K c D smpls ps

/-! ## SSM with nonignorable nonresponse -/

/-- The observations of a sample-selection model; `dx` has the covariates, the treatment and the instrument. -/
structure ObsS (n : ℕ) (X XD : Type) extends Obs n X where
  dx : Fin n → XD
  s : Fin n → ℝ

/-- The learners of SSM: `ml_pi` is trained on `dx`, the others on `x` with the predicted selection
propensity. -/
structure SsmLearners (P X XD : Type) where
  pi : Learner P XD
  m : Learner P (X × ℝ)
  g : Learner P (X × ℝ)

/-- The fitted models of one fold. -/
structure SsmFold (P X XD : Type) where
  pi : FittedModel P XD
  m : FittedModel P (X × ℝ)
  g1 : FittedModel P (X × ℝ)
  g0 : FittedModel P (X × ℝ)

variable {XD : Type}

/-- `strata` (/repo/doubleml/irm/ssm.py:306). -/
def ObsS.strata (D : ObsS n X XD) (i : Fin n) : ℝ := D.d i + 2 * D.s i

/-- `xpi` (/repo/doubleml/irm/ssm.py:329). -/
def xpi (K : SsmLearners P X XD) (pi : FittedModel P XD) (D : ObsS n X XD) (i : Fin n) : X × ℝ :=
  (D.x i, zeroOne K.pi pi (D.dx i))

/-- The selected observations of the second half with treatment `v`, in increasing order
(/repo/doubleml/irm/ssm.py:342-345,354-357). -/
noncomputable def ssmSel (D : ObsS n X XD) (v : ℝ) (h2 : List (Fin n)) : List (Fin n) :=
  intersect1d (whereIdx fun i => D.d i = v) (intersect1d (whereIdx fun i => D.s i = 1) h2)

/-- One pass of the loop over folds (/repo/doubleml/irm/ssm.py:309-363).  `p` are the parameters of `ml_pi`,
`ml_m`, `ml_g_d1` and `ml_g_d0`. -/
noncomputable def ssmFold (E : NestedExt n) (K : SsmLearners P X XD) (D : ObsS n X XD)
    (p : Option P × Option P × Option P × Option P) (f : Fold n) : Except Exc (SsmFold P X XD) := do
  let h ← E.halves f.train (f.train.map D.strata)
  let pi : FittedModel P XD := ⟨p.1, trainData D.dx D.s h.1⟩
  return { pi := pi
           m := ⟨p.2.1, trainData (xpi K pi D) D.d h.2⟩
           g1 := ⟨p.2.2.1, trainData (xpi K pi D) D.y (ssmSel D 1 h.2)⟩
           g0 := ⟨p.2.2.2, trainData (xpi K pi D) D.y (ssmSel D 0 h.2)⟩ }

/-- The predictions of SSM for one observation. -/
structure SsmRow where
  pi : ℝ
  m : ℝ
  g1 : ℝ
  g0 : ℝ

/-- The predictions from the models of one fold (/repo/doubleml/irm/ssm.py:324-363). -/
def SsmFold.row (K : SsmLearners P X XD) (r : SsmFold P X XD) (D : ObsS n X XD) (i : Fin n) : SsmRow :=
  ⟨zeroOne K.pi r.pi (D.dx i), zeroOne K.m r.m (xpi K r.pi D i), K.g.predict r.g1.params r.g1.data (xpi K r.pi D i),
   K.g.predict r.g0.params r.g0.data (xpi K r.pi D i)⟩

/-- The parameters of `ml_pi`, `ml_m`, `ml_g_d1`, `ml_g_d0` for all folds. -/
structure SsmParams (P : Type) where
  pi : Option (List P)
  m : Option (List P)
  g1 : Option (List P)
  g0 : Option (List P)

/-- The pass for fold `k` (/repo/doubleml/irm/ssm.py:285-303). -/
noncomputable def ssmPass (E : NestedExt n) (K : SsmLearners P X XD) (D : ObsS n X XD) (ps : SsmParams P)
    (fk : Fold n × ℕ) : Except Exc (Fold n × SsmFold P X XD) := do
  let a ← paramAt ps.pi fk.2
  let b ← paramAt ps.m fk.2
  let c ← paramAt ps.g1 fk.2
  let d ← paramAt ps.g0 fk.2
  let r ← ssmFold E K D (a, b, c, d) fk.1
  return (fk.1, r)

/-- The predictions of SSM. -/
structure SsmOut (n : ℕ) (P X XD : Type) where
  pi : Fin n → Option ℝ
  m : Fin n → Option ℝ
  g1 : Fin n → Option ℝ
  g0 : Fin n → Option ℝ
  folds : List (Fold n × SsmFold P X XD)

/-- The nuisance estimation with score `nonignorable` (/repo/doubleml/irm/ssm.py:272-369); the propensities are
trimmed at the end (line 371). -/
noncomputable def ssmNuisance (E : NestedExt n) (K : SsmLearners P X XD) (D : ObsS n X XD) (trimT : ℝ) (smpls : List (Fold n))
    (ps : SsmParams P) : Except Exc (SsmOut n P X XD) := do
  let rs ← smpls.zipIdx.mapM (ssmPass E K D ps)
  return { pi := gather (fun r i => some (r.row K D i).pi) rs
           m := gather (fun r i => some (trim trimT (r.row K D i).m)) rs
           g1 := gather (fun r i => some (r.row K D i).g1) rs
           g0 := gather (fun r i => some (r.row K D i).g0) rs
           folds := rs }

end DML
