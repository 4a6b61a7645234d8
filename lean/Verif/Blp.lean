import Verif.Framework
import Verif.Scores

/-!
# Best linear predictors, CATEs and GATEs

`DoubleMLBLP` of /repo/doubleml/utils/blp.py and the methods `cate`, `gate`, `capo`, `gapo` of
/repo/doubleml/irm/irm.py, irm/apo.py and plm/plr.py.  The least squares fit of statsmodels is external: an arbitrary
function `Ols`, with its specification stated as `Ols.Correct` in the theorems that need it.
-/

namespace DML

open Finset

variable {n d : ℕ}

/-! ## Least squares -/

/-- The fitted `statsmodels` results that are used: `params`, `cov_params()` and `conf_int` (which for
heteroscedasticity robust covariances uses normal quantiles). -/
structure OlsRes (d : ℕ) where
  params : Fin d → ℝ
  omega : Fin d → Fin d → ℝ

/-- `sm.OLS(signal, basis).fit(cov_type="HC0")`. -/
abbrev Ols := {n d : ℕ} → (Fin n → ℝ) → (Fin n → Fin d → ℝ) → OlsRes d

/-- `blp_model.bse`. -/
noncomputable def OlsRes.bse (o : OlsRes d) (j : Fin d) : ℝ := Real.sqrt (o.omega j j)

/-- `blp_model.conf_int(alpha)` for robust covariances: level `1 - alpha`. -/
noncomputable def OlsRes.confInt (o : OlsRes d) (alpha : ℝ) (j : Fin d) : ℝ × ℝ :=
  (o.params j - ppf (1 - alpha / 2) * o.bse j, o.params j + ppf (1 - alpha / 2) * o.bse j)

/-- `blp_model.predict(basis)` for one row. -/
noncomputable def OlsRes.predict (o : OlsRes d) (row : Fin d → ℝ) : ℝ := ∑ j, row j * o.params j

/-- The entry of `blp_se` for one row (/repo/doubleml/utils/blp.py:211). -/
noncomputable def OlsRes.se (o : OlsRes d) (row : Fin d → ℝ) : ℝ :=
  Real.sqrt (∑ k, (∑ j, row j * o.omega j k) * row k)

/-! ## `DoubleMLBLP` -/

/-- A `DoubleMLBLP` object; `model` is `None` before `fit`. -/
structure Blp (n d : ℕ) where
  signal : Fin n → ℝ
  names : List String
  basis : Fin n → Fin d → ℝ
  isGate : Bool
  model : Option (OlsRes d)

/-- `__init__` (/repo/doubleml/utils/blp.py:29-51) for a signal and a basis of the right types. -/
def blpCreate (signal : Fin n → ℝ) (names : List String) (basis : Fin n → Fin d → ℝ) (isGate : Bool) :
    Except Exc (Blp n d) :=
  if names.Nodup then .ok ⟨signal, names, basis, isGate, none⟩ else .error .valueError

/-- `fit` (/repo/doubleml/utils/blp.py:107-129). -/
def Blp.fit (ols : Ols) (b : Blp n d) : Blp n d := { b with model := some (ols b.signal b.basis) }

/-- The argument `basis` of `confint`: `None`, a data frame with another number of columns, or a data frame with `p`
rows and `d` named columns. -/
inductive BasisArg (d : ℕ)
  | none
  | wrongShape
  | given (p : ℕ) (names : List String) (rows : Fin p → Fin d → ℝ)

/-- The returned data frame: labels of the rows (`none`: the index of the given basis) and the columns lower bound,
effect, upper bound. -/
structure CiTable where
  p : ℕ
  labels : Option (List String)
  rows : Fin p → ℝ × ℝ × ℝ

/-- `np.max(np.abs(bootstrap_samples), axis=0)` (/repo/doubleml/utils/blp.py:218), where row `b` of `bootstrap_samples`
holds bootstrap repetition `b` and column `q` the evaluated point `q`: the maximum is taken over the *repetitions*. -/
noncomputable def maxOverReps {B p : ℕ} (t : Fin B → Fin p → ℝ) (q : Fin p) : ℝ := maxList (List.ofFn fun b => |t b q|)

/-- `bootstrap_samples` (/repo/doubleml/utils/blp.py:215-216); `z` are the normal draws and `root` is
`sqrtm(blp_omega)`.  Where the standard error is zero numpy divides by zero (not modelled). -/
noncomputable def bootSamples {B p : ℕ} (o : OlsRes d) (root : Fin d → Fin d → ℝ) (z : Fin d → Fin B → ℝ)
    (rows : Fin p → Fin d → ℝ) (b : Fin B) (q : Fin p) : ℝ :=
  (∑ j, rows q j * ∑ l, root j l * z l b) * (1 / o.se (rows q))

/-- `max_t_stat`. -/
noncomputable def maxT {B p : ℕ} (o : OlsRes d) (root : Fin d → Fin d → ℝ) (z : Fin d → Fin B → ℝ)
    (rows : Fin p → Fin d → ℝ) (level : ℝ) : ℝ :=
  quantile (maxOverReps (bootSamples o root z rows)) level

/-- Lines 205-243 for an evaluated basis. -/
noncomputable def Blp.table {B p : ℕ} (o : OlsRes d) (root : Fin d → Fin d → ℝ) (z : Fin d → Fin B → ℝ)
    (rows : Fin p → Fin d → ℝ) (joint : Bool) (level : ℝ) (q : Fin p) : ℝ × ℝ × ℝ :=
  let alpha := 1 - level
  let g := o.predict (rows q)
  let se := o.se (rows q)
  if joint then
    (g - maxT o root z rows level * se, g, g + maxT o root z rows level * se)
  else (g + ppf (alpha / 2) * se, g, g + ppf (1 - alpha / 2) * se)

/-- Lines 181-199: the coefficients branch. -/
noncomputable def coefTable (o : OlsRes d) (level : ℝ) (j : Fin d) : ℝ × ℝ × ℝ :=
  let alpha := 1 - level
  ((o.confInt (alpha / 2) j).1, o.params j, (o.confInt (alpha / 2) j).2)

/-- Lines 176-245: the table for checked arguments; `root` is the matrix root and `z` are the normal draws used for joint
intervals. -/
noncomputable def Blp.tableFor {B : ℕ} (b : Blp n d) (o : OlsRes d) (root : Fin d → Fin d → ℝ) (z : Fin d → Fin B → ℝ)
    (joint : Bool) (level : ℝ) : BasisArg d → Except Exc CiTable
  | .none =>
    if b.isGate then .ok ⟨d, some b.names, Blp.table o root z (fun q j => if q = j then 1 else 0) joint level⟩
    else .ok ⟨d, some b.names, coefTable o level⟩
  | .wrongShape => .error .valueError
  | .given p names rows =>
    if names = b.names then .ok ⟨p, none, Blp.table o root z rows joint level⟩ else .error .valueError

/-- `if self._blp_model is None: raise ValueError`. -/
def Blp.fitted (b : Blp n d) : Except Exc (OlsRes d) :=
  match b.model with
  | none => .error .valueError
  | some o => .ok o

/-- `confint` (/repo/doubleml/utils/blp.py:131-245); `root` is `sqrtm`, `z` gives the normal draws for every number of
bootstrap repetitions. -/
noncomputable def Blp.confint (b : Blp n d) (root : (Fin d → Fin d → ℝ) → Fin d → Fin d → ℝ)
    (z : (B : ℕ) → Fin d → Fin B → ℝ) (basis : BasisArg d) (joint level nRepBoot : PyVal) : Except Exc CiTable := do
  let j ← checkBool joint
  let l ← checkInZeroOne level false false
  let B ← checkInteger nRepBoot (some 1) none
  let o ← b.fitted
  b.tableFor o (root o.omega) (z B.toNat) j l basis

/-! ## Groups -/

/-- A column of the data frame `groups`, by type; `none` is a missing string. -/
inductive GCol (n : ℕ)
  | bool (v : Fin n → Bool)
  | int (v : Fin n → ℤ)
  | float (v : Fin n → ℝ)
  | str (v : Fin n → Option String)

/-- The argument `groups`: a data frame or something else. -/
inductive GArg (n : ℕ)
  | frame (cols : List (String × GCol n))
  | other

/-- `dtype == bool`. -/
def GCol.isBool : GCol n → Bool
  | .bool _ => true
  | _ => false

/-- `dtype == int`. -/
def GCol.isInt : GCol n → Bool
  | .int _ => true
  | _ => false

/-- The numeric values statsmodels sees; string columns never reach it. -/
noncomputable def GCol.values : GCol n → Fin n → ℝ
  | .bool v, i => if v i then 1 else 0
  | .int v, i => v i
  | .float v, i => v i
  | .str _, _ => 0

/-- The sorted distinct strings of a column. -/
def strLevels (v : Fin n → Option String) : List String :=
  ((List.finRange n).filterMap v).dedup.mergeSort fun a b => decide (a ≤ b)

/-- `pd.get_dummies(groups, prefix="Group", prefix_sep="_")` for a frame with one column: only string columns are
encoded, one boolean column per level; other columns are returned unchanged. -/
def getDummies (c : String × GCol n) : List (String × GCol n) :=
  match c.2 with
  | .str v => (strLevels v).map fun s => ("Group_" ++ s, .bool fun i => v i == some s)
  | _ => [c]

/-- The checks and the encoding of `gate` / `gapo` (/repo/doubleml/irm/irm.py:518-528, irm/apo.py:508-518,
plm/plr.py:419-428). -/
def gateGroups : GArg n → Except Exc (List (String × GCol n))
  | .other => .error .typeError
  | .frame cols =>
    if !(cols.all fun c => c.2.isBool) || (cols.all fun c => c.2.isInt) then
      match cols with
      | [c] => .ok (getDummies c)
      | _ => .error .typeError
    else .ok cols

/-- The matrix of a list of columns. -/
noncomputable def colMatrix (cols : List (String × GCol n)) (i : Fin n) (j : Fin cols.length) : ℝ := (cols[j].2).values i

/-- `IRM.cate` / `APO.capo` (/repo/doubleml/irm/irm.py:463-497, irm/apo.py:453-487) for a model with an admissible score:
`nRep` repetitions, `psiB` the element `psi_b`. -/
def irmCate (ols : Ols) (nRep : ℕ) (psiB : Fin n → ℝ) (names : List String) (basis : Fin n → Fin d → ℝ) (isGate : Bool) :
    Except Exc (Blp n d) :=
  if nRep ≠ 1 then .error .notImplemented
  else do
    let b ← blpCreate psiB names basis isGate
    pure (b.fit ols)

/-- `IRM.gate` / `APO.gapo` (/repo/doubleml/irm/irm.py:499-534, irm/apo.py:489-524). -/
noncomputable def irmGate (ols : Ols) (nRep : ℕ) (psiB : Fin n → ℝ) (g : GArg n) :
    Except Exc (Σ cols : List (String × GCol n), Blp n cols.length) := do
  let cols ← gateGroups g
  let b ← irmCate ols nRep psiB (cols.map Prod.fst) (colMatrix cols) true
  pure ⟨cols, b⟩

/-- `PLR._partial_out` (/repo/doubleml/plm/plr.py:436-465) for the score `"partialling out"`. -/
def plrResid (y d l m : Fin n → ℝ) : (Fin n → ℝ) × (Fin n → ℝ) := (fun i => y i - l i, fun i => d i - m i)

/-- `PLR._partial_out` for the score `"IV-type"`. -/
def plrResidIv (y d m g : Fin n → ℝ) (theta : ℝ) : (Fin n → ℝ) × (Fin n → ℝ) :=
  (fun i => y i - theta * m i - g i, fun i => d i - m i)

/-- `PLR.cate` (/repo/doubleml/plm/plr.py:359-397) on the residuals: the basis is multiplied by the residual of the
treatment. -/
def plrCate (ols : Ols) (nTreat nRep : ℕ) (resid : (Fin n → ℝ) × (Fin n → ℝ)) (names : List String)
    (basis : Fin n → Fin d → ℝ) (isGate : Bool) : Except Exc (Blp n d) :=
  if nTreat > 1 then .error .notImplemented
  else if nRep ≠ 1 then .error .notImplemented
  else do
    let b ← blpCreate resid.1 names (fun i j => basis i j * resid.2 i) isGate
    pure (b.fit ols)

/-- `PLR.gate` (/repo/doubleml/plm/plr.py:399-434). -/
noncomputable def plrGate (ols : Ols) (nTreat nRep : ℕ) (resid : (Fin n → ℝ) × (Fin n → ℝ)) (g : GArg n) :
    Except Exc (Σ cols : List (String × GCol n), Blp n cols.length) := do
  let cols ← gateGroups g
  let b ← plrCate ols nTreat nRep resid (cols.map Prod.fst) (colMatrix cols) true
  pure ⟨cols, b⟩

end DML
