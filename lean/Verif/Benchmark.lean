import Verif.Gain
import Verif.Multi
import Verif.PlrModel

/-!
# `sensitivity_benchmark` of a model object

`DoubleML.sensitivity_benchmark` (/repo/doubleml/double_ml.py:1621-1661) with `gain_statistics`
(/repo/doubleml/utils/gain_statistics.py) on model objects.
-/

namespace DML

variable {n : ℕ} {P M : Type}

/-- `np.var` (population variance). -/
noncomputable def npVar (y : Fin n → ℝ) : ℝ := mean fun i => (y i - mean y) ^ 2

/-- A row of the data frame returned by `sensitivity_benchmark`; `rho` and `delta_theta` are `NaN` (`none`) if an estimate
is. -/
structure BenchRow where
  name : String
  cfY : ℝ
  cfD : ℝ
  rho : Option ℝ
  delta : Option ℝ

/-- What `gain_statistics` reads from `framework.sensitivity_elements` and `all_coef`: missing estimates are read as zero here
and treated by `blankRow`. -/
noncomputable def gainInput (A : DynFW n) (H : Arr) : GainInput where
  nCoef := (A.fw.bench.map List.length).getD 0
  nRep := A.r
  sens := A.fw.bench.map fun B =>
    (fun j k => ((B[(j : ℕ)]?).map fun b => b.sigma2 k).getD 0, fun j k => ((B[(j : ℕ)]?).map fun b => b.nu2 k).getD 0)
  coef := fun j k => (H.coef j k).getD 0

/-- A statistic that is `NaN` if an estimate of treatment `j` is: `np.sign`, `np.clip` and `np.median` propagate `NaN`. -/
def blankRow (H : Arr) (r j : ℕ) (x : ℝ) : Option ℝ :=
  if ∀ k < r, (H.coef j k).isSome = true then some x else none

/-- `gain_statistics(dml_long=s, dml_short=t)` (/repo/doubleml/utils/gain_statistics.py:4-125).  The attribute
`framework` is `None` before `fit`, so that reading its elements raises an `AttributeError`.  The type checks of the arrays are
met by every fitted object.  Divisions by zero give zero here (`NaN` or infinity in the code). -/
noncomputable def gainModels (s t : MState n P M) : Except Exc (List Gain) :=
  match s.fw?, t.fw? with
  | none, _ => .error .attributeError
  | some _, none => .error .attributeError
  | some A, some B => do
    let g ← gainStatistics (npVar fun i => (s.data.yv i).val) (gainInput A (s.heap s.arr)) (gainInput B (t.heap t.arr))
    if (s.heap s.arr).nT = (gainInput A (s.heap s.arr)).nCoef ∧ (s.heap s.arr).nR = A.r ∧
        (t.heap t.arr).nT = (gainInput A (s.heap s.arr)).nCoef ∧ (t.heap t.arr).nR = A.r then .ok g
    else .error .valueError

/-- The rows of the data frame. -/
noncomputable def benchRows (s : MState n P M) (g : List Gain) : List BenchRow :=
  (g.zip s.data.d).zipIdx.map fun q => ⟨q.1.2, q.1.1.cfY, q.1.1.cfD,
    blankRow (s.heap s.arr) (s.heap s.arr).nR q.2 q.1.1.rho, blankRow (s.heap s.arr) (s.heap s.arr).nR q.2 q.1.1.deltaTheta⟩

/-- The data frame (/repo/doubleml/double_ml.py:1659-1661): one row per treatment. -/
noncomputable def benchFrame (s : MState n P M) (g : List Gain) : Except Exc (List BenchRow) :=
  if g.length = s.data.d.length then .ok (benchRows s g) else .error .valueError

/-- The copy with fewer covariates (/repo/doubleml/double_ml.py:1652-1654). -/
noncomputable def shortModel (F : Frame n) (s : MState n P M) (xs : List String) : Except Exc (MState n P M) :=
  match dataStep F s.data (.setX (.list xs)) with
  | (_, .error e) => .error e
  | (D, .ok ()) => .ok { s with data := D }

/-- `sensitivity_benchmark` (/repo/doubleml/double_ml.py:1621-1661).  `isList` and `argsOk` say whether the arguments have the
documented types; `a` are the arguments of `fit` (defaults without `fit_args`).  The model itself is not changed: a deep copy is
refitted. -/
noncomputable def benchmark (F : Frame n) (sp : Spec n P M) (s : MState n P M) (isList : Bool) (set : List String) (argsOk : Bool)
    (a : FitArgs) : Except Exc (List BenchRow) :=
  if s.sens.isNone then .error .notImplemented
  else do
    let xs ← benchmarkShort s.data.x isList set argsOk
    let t ← shortModel F s xs
    match fit F sp t a with
    | (_, .error e) => .error e
    | (t, .ok ()) => do
      let g ← gainModels s t
      benchFrame s g

end DML
