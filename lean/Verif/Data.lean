import Verif.Py
import Mathlib.Data.List.Nodup

/-!
# The data backend

Model of `DoubleMLData` and `DoubleMLClusterData` (/repo/doubleml/double_ml_data.py): column roles, their
setters with the state after exceptions, and the cached arrays derived from them.
-/

namespace DML

/-- A cell of the data frame. -/
inductive Cell
  | num (x : ℝ)
  | nan
  | inf

/-- A pandas data frame with unique column names (`DoubleMLBaseData.__init__`,
/repo/doubleml/double_ml_data.py:17-22, rejects duplicate names).  The data are numeric. -/
structure Frame (n : ℕ) where
  cols : List String
  col : String → Fin n → Cell

variable {n : ℕ}

/-- The value passed to a setter of column roles. -/
inductive ColArg
  | str (s : String)
  | list (l : List String)
  | none
  | other

/-- `force_all_x_finite`. -/
inductive ForceFinite
  | yes | no | allowNan
  deriving DecidableEq

/-- The attributes of a data object.  `cluster = none` for the class `DoubleMLData`.  The fields from `yv` on
are the cached arrays `_y`, `_z`, `_t`, `_s`, `_d`, `_X`, `_cluster_vars`, `_binary_treats`,
`_binary_outcome`. -/
structure DataState (n : ℕ) where
  y : String
  d : List String
  x : List String
  z : Option (List String)
  t : Option String
  s : Option String
  cluster : Option (List String)
  useOther : Bool
  force : ForceFinite
  yv : Fin n → Cell
  zv : Option (List (Fin n → Cell))
  tv : Option (Fin n → Cell)
  sv : Option (Fin n → Cell)
  dv : Fin n → Cell
  xv : List (Fin n → Cell)
  cv : List (Fin n → Cell)
  binTreats : List (String × Bool)
  binOut : Bool

/-- `assert_all_finite` on one column passes. -/
def finiteCol (c : Fin n → Cell) : Prop := ∀ i, ∃ v, c i = .num v

/-- `assert_all_finite(..., allow_nan=True)` on one column passes. -/
def notInfCol (c : Fin n → Cell) : Prop := ∀ i, c i ≠ .inf

/-- Sets are modelled by lists: `a.isdisjoint(b)`. -/
def disj (a b : List String) : Bool := a.all fun x => !b.contains x

/-- `_check_disjoint_sets_t_s` passes (/repo/doubleml/double_ml_data.py:724-771); a role that is `None` is
not checked. -/
def disjointTS (S : DataState n) : Bool :=
  (S.t.all fun t => disj [t] S.x && disj [t] S.d && disj [t] [S.y] && S.z.all fun z => disj [t] z) &&
  (S.s.all fun s => disj [s] S.x && disj [s] S.d && disj [s] [S.y] && (S.z.all fun z => disj [s] z) &&
    S.t.all fun t => disj [s] [t])

/-- `_check_disjoint_sets_y_d_x_z_t_s` passes (/repo/doubleml/double_ml_data.py:684-722). -/
def disjointBase (S : DataState n) : Bool :=
  disj [S.y] S.x && disj [S.y] S.d && disj S.d S.x &&
  (S.z.all fun z => disj [S.y] z && disj S.d z && disj S.x z) && disjointTS S

/-- The additional checks of `_check_disjoint_sets_cluster_cols`
(/repo/doubleml/double_ml_data.py:1048-1091). -/
def disjointCluster (S : DataState n) : Bool :=
  S.cluster.all fun c => disj [S.y] c && disj S.d c && disj S.x c && (S.z.all fun z => disj z c) &&
    (S.t.all fun t => disj [t] c) && S.s.all fun s => disj [s] c

/-- `_check_disjoint_sets` of either class passes (/repo/doubleml/double_ml_data.py:680-682,1043-1046). -/
def disjointAll (S : DataState n) : Bool := disjointBase S && disjointCluster S

/-- The list of covariates used with treatment `tv` (/repo/doubleml/double_ml_data.py:651-657). -/
def xdList (S : DataState n) (tv : String) : List String :=
  if S.useOther then (S.x ++ S.d).erase tv else S.x

open Classical in
/-- `set_x_d` for a string argument (/repo/doubleml/double_ml_data.py:636-662); the state is unchanged on
failure. -/
noncomputable def setXD (F : Frame n) (S : DataState n) (tv : String) : Except Exc (DataState n) :=
  if tv ∉ S.d then .error .valueError
  else if ¬ finiteCol (F.col tv) then .error .valueError
  else if S.force = .yes ∧ ¬ (∀ c ∈ xdList S tv, finiteCol (F.col c)) then .error .valueError
  else if S.force = .allowNan ∧ ¬ (∀ c ∈ xdList S tv, notInfCol (F.col c)) then .error .valueError
  else .ok { S with dv := F.col tv, xv := (xdList S tv).map F.col }

/-- `self.set_x_d(self.d_cols[0])`. -/
noncomputable def setXDFirst (F : Frame n) (S : DataState n) : Except Exc (DataState n) :=
  match S.d with
  | [] => .error .indexError
  | tv :: _ => setXD F S tv

open Classical in
/-- `_set_y_z_t_s` (/repo/doubleml/double_ml_data.py:615-634): the arrays are assigned one after the other,
a failed finiteness assertion keeps the assignments before it. -/
noncomputable def setYZTS (F : Frame n) (S : DataState n) : DataState n × Except Exc Unit :=
  if ¬ finiteCol (F.col S.y) then (S, .error .valueError)
  else
    let S : DataState n := { S with yv := F.col S.y }
    if ¬ (∀ z ∈ S.z, ∀ c ∈ z, finiteCol (F.col c)) then (S, .error .valueError)
    else
      let S : DataState n := { S with zv := S.z.map fun z => z.map F.col }
      if ¬ (∀ t ∈ S.t, finiteCol (F.col t)) then (S, .error .valueError)
      else
        let S : DataState n := { S with tv := S.t.map F.col }
        if ¬ (∀ s ∈ S.s, finiteCol (F.col s)) then (S, .error .valueError)
        else ({ S with sv := S.s.map F.col }, .ok ())

/-- Validation of a list-valued role (x, d, z, cluster): type, duplicates, existence
(/repo/doubleml/double_ml_data.py:421-433,457-468,505-518,975-986). -/
def colList (F : Frame n) : ColArg → Except Exc (List String)
  | .str s => if [s] ⊆ F.cols then .ok [s] else .error .valueError
  | .list l => if ¬ l.Nodup then .error .valueError else if l ⊆ F.cols then .ok l else .error .valueError
  | _ => .error .typeError

/-- Validation of a string-valued role (y, t, s) (/repo/doubleml/double_ml_data.py:484-490,536-545). -/
def colStr (F : Frame n) : ColArg → Except Exc String
  | .str s => if s ∈ F.cols then .ok s else .error .valueError
  | _ => .error .typeError

/-- The columns excluded from the default covariates (/repo/doubleml/double_ml_data.py:435-441; for cluster
data lines 1013-1039, whose eight cases all form this union with the cluster columns). -/
def excludedCols (S : DataState n) : List String :=
  [S.y] ++ S.d ++ S.z.getD [] ++ S.t.toList ++ S.s.toList ++ S.cluster.getD []

/-- Default covariates. -/
def defaultX (F : Frame n) (S : DataState n) : List String := F.cols.filter fun c => !(excludedCols S).contains c

/-- Validation of the argument of the `x_cols` setter. -/
def xArg (F : Frame n) (S : DataState n) : ColArg → Except Exc (List String)
  | .none => .ok (defaultX F S)
  | a => colList F a

/-- `None` or a list of instruments. -/
def zArg (F : Frame n) : ColArg → Except Exc (Option (List String))
  | .none => .ok none
  | a => (colList F a).map some

/-- `None` or a single column. -/
def optArg (F : Frame n) : ColArg → Except Exc (Option String)
  | .none => .ok none
  | a => (colStr F a).map some

/-- The cluster columns passed to the constructor (`none`: class without cluster columns). -/
def clusterArg (F : Frame n) : Option ColArg → Except Exc (Option (List String))
  | none => .ok none
  | some c => (colList F c).map some

/-- Validation of `force_all_x_finite` (/repo/doubleml/double_ml_data.py:603-609). -/
def forceArg : PyVal → Except Exc ForceFinite
  | .str s => if s = "allow-nan" then .ok .allowNan else .error .valueError
  | .bool b => .ok (if b then .yes else .no)
  | _ => .error .typeError

/-- Setter calls and `set_x_d`. -/
inductive DataOp
  | setX (a : ColArg)
  | setD (a : ColArg)
  | setY (a : ColArg)
  | setZ (a : ColArg)
  | setT (a : ColArg)
  | setS (a : ColArg)
  | setCluster (a : ColArg)
  | setUseOther (v : PyVal)
  | setForce (v : PyVal)
  | setTreat (a : ColArg)

/-- After a role has been assigned: disjointness check, then `set_x_d(d_cols[0])`. -/
noncomputable def finishXD (F : Frame n) (S : DataState n) : DataState n × Except Exc Unit :=
  if disjointAll S then
    match setXDFirst F S with
    | .ok S' => (S', .ok ())
    | .error e => (S, .error e)
  else (S, .error .valueError)

/-- After a role has been assigned: disjointness check, then `_set_y_z_t_s`. -/
noncomputable def finishYZTS (F : Frame n) (S : DataState n) : DataState n × Except Exc Unit :=
  if disjointAll S then setYZTS F S else (S, .error .valueError)

open Classical in
/-- After the cluster columns have been assigned: disjointness check, then `_set_cluster_vars`
(/repo/doubleml/double_ml_data.py:987-990,1093-1095). -/
noncomputable def finishCluster (F : Frame n) (S : DataState n) : DataState n × Except Exc Unit :=
  if disjointAll S then
    if ∀ cs ∈ S.cluster, ∀ c ∈ cs, finiteCol (F.col c) then
      ({ S with cv := (S.cluster.getD []).map F.col }, .ok ())
    else (S, .error .valueError)
  else (S, .error .valueError)

/-- One setter call on an existing object (/repo/doubleml/double_ml_data.py:418-662,973-990,1007-1041). -/
noncomputable def dataStep (F : Frame n) (S : DataState n) : DataOp → DataState n × Except Exc Unit
  | .setX a =>
    match xArg F S a with
    | .error e => (S, .error e)
    | .ok v => finishXD F { S with x := v }
  | .setD a =>
    match colList F a with
    | .error e => (S, .error e)
    | .ok v => finishXD F { S with d := v }
  | .setY a =>
    match colStr F a with
    | .error e => (S, .error e)
    | .ok v => finishYZTS F { S with y := v }
  | .setZ a =>
    match zArg F a with
    | .error e => (S, .error e)
    | .ok v => finishYZTS F { S with z := v }
  | .setT a =>
    match optArg F a with
    | .error e => (S, .error e)
    | .ok v => finishYZTS F { S with t := v }
  | .setS a =>
    match optArg F a with
    | .error e => (S, .error e)
    | .ok v => finishYZTS F { S with s := v }
  | .setCluster a =>
    match S.cluster with
    | none => (S, .error .attributeError)
    | some _ =>
      match colList F a with
      | .error e => (S, .error e)
      | .ok v => finishCluster F { S with cluster := some v }
  | .setUseOther v =>
    match checkBool v with
    | .error e => (S, .error e)
    | .ok b =>
      match setXDFirst F { S with useOther := b } with
      | .ok S' => (S', .ok ())
      | .error e => ({ S with useOther := b }, .error e)
  | .setForce v =>
    match forceArg v with
    | .error e => (S, .error e)
    | .ok f =>
      match setXDFirst F { S with force := f } with
      | .ok S' => (S', .ok ())
      | .error e => ({ S with force := f }, .error e)
  | .setTreat a =>
    match a with
    | .str tv =>
      match setXD F S tv with
      | .ok S' => (S', .ok ())
      | .error e => (S, .error e)
    | _ => (S, .error .typeError)

/-- A history of setter calls: the state and whether all calls succeeded. -/
noncomputable def dataRun (F : Frame n) (S : DataState n) : List DataOp → DataState n
  | [] => S
  | o :: os => dataRun F (dataStep F S o).1 os

/-- All calls of the history succeed. -/
def allSucceed (F : Frame n) (S : DataState n) : List DataOp → Prop
  | [] => True
  | o :: os => (dataStep F S o).2 = .ok () ∧ allSucceed F (dataStep F S o).1 os

open Classical in
/-- The binary indicator of a column (/repo/doubleml/double_ml_data.py:664-678): scikit-learn's
`type_of_target(c) == "binary"` (at most two different values) and all values zero or one. -/
noncomputable def isBinaryCol (c : Fin n → Cell) : Bool := decide (∀ i, c i = .num 0 ∨ c i = .num 1)

/-- Arguments of the constructors. -/
structure DataArgs where
  y : ColArg
  d : ColArg
  x : ColArg
  z : ColArg
  t : ColArg
  s : ColArg
  useOther : PyVal
  force : PyVal

open Classical in
/-- The constructor of `DoubleMLData` (/repo/doubleml/double_ml_data.py:142-169) and, with
`cluster = some _`, of `DoubleMLClusterData` (lines 834-857).  `type_of_target` raises a `ValueError` on
missing and infinite values.  The class without cluster columns passes `cluster = none`. -/
noncomputable def dataInit (F : Frame n) (cluster : Option ColArg) (a : DataArgs) : Except Exc (DataState n) := do
  let cl ← clusterArg F cluster
  if ¬ (∀ cs ∈ cl, ∀ c ∈ cs, finiteCol (F.col c)) then .error .valueError
  else
    let y ← colStr F a.y
    let d ← colList F a.d
    let z ← zArg F a.z
    let t ← optArg F a.t
    let s ← optArg F a.s
    let S0 : DataState n :=
      { y := y, d := d, x := [], z := z, t := t, s := s, cluster := cl, useOther := true, force := .yes,
        yv := fun _ => .nan, zv := none, tv := none, sv := none, dv := fun _ => .nan, xv := [],
        cv := (cl.getD []).map F.col, binTreats := [], binOut := false }
    let x ← xArg F S0 a.x
    let S1 := { S0 with x := x }
    if disjointBase S1 = false then .error .valueError
    else
      let u ← checkBool a.useOther
      let f ← forceArg a.force
      if ¬ (∀ c ∈ d, finiteCol (F.col c)) then .error .valueError
      else if ¬ finiteCol (F.col y) then .error .valueError
      else
        let S2 := { S1 with
          useOther := u
          force := f
          binTreats := d.map fun c => (c, isBinaryCol (F.col c))
          binOut := isBinaryCol (F.col y) }
        let r := setYZTS F S2
        let _ ← r.2
        let S3 ← setXDFirst F r.1
        if disjointAll S3 then .ok S3 else .error .valueError

/-! ## Construction from arrays -/

/-- Names `prefix`, or `prefix1, prefix2, …` for several columns
(/repo/doubleml/double_ml_data.py:269-272,288-291,946-949). -/
def genNames (p : String) (k : ℕ) : List String :=
  if k = 1 then [p] else (List.range k).map fun (i : ℕ) => p ++ toString (i + 1)

/-- Names of the covariates, always numbered (/repo/doubleml/double_ml_data.py:293). -/
def xNames (k : ℕ) : List String := (List.range k).map fun (i : ℕ) => "X" ++ toString (i + 1)

/-- The arrays passed to `from_arrays`, as lists of columns of equal length (`check_consistent_length`). -/
structure Arrays (n : ℕ) where
  x : List (Fin n → Cell)
  y : Fin n → Cell
  d : List (Fin n → Cell)
  z : Option (List (Fin n → Cell))
  t : Option (Fin n → Cell)
  s : Option (Fin n → Cell)
  cluster : Option (List (Fin n → Cell))

/-- Columns with generated names, if the array was passed. -/
def optCols (p : String) : Option (List (Fin n → Cell)) → List (String × (Fin n → Cell))
  | none => []
  | some c => (genNames p c.length).zip c

/-- A single column, if the array was passed. -/
def optCol (p : String) : Option (Fin n → Cell) → List (String × (Fin n → Cell))
  | none => []
  | some c => [(p, c)]

/-- The columns of the data frame built by `from_arrays`, with their names, in order
(/repo/doubleml/double_ml_data.py:295-310,951): cluster variables first. -/
def arrayCols (a : Arrays n) : List (String × (Fin n → Cell)) :=
  optCols "cluster_var" a.cluster ++
  (xNames a.x.length).zip a.x ++ [("y", a.y)] ++ (genNames "d" a.d.length).zip a.d ++
  optCols "z" a.z ++ optCol "t" a.t ++ optCol "s" a.s

/-- The frame with the given columns; looking up a name gives the first column with that name. -/
noncomputable def frameOf (l : List (String × (Fin n → Cell))) : Frame n :=
  { cols := l.map Prod.fst
    col := fun c => ((l.find? fun p => p.1 == c).map Prod.snd).getD fun _ => .nan }

/-- The role argument belonging to an optional list of columns. -/
def optListArg (p : String) : Option (List (Fin n → Cell)) → ColArg
  | none => .none
  | some c => .list (genNames p c.length)

/-- The role argument belonging to an optional column. -/
def optStrArg (p : String) : Option (Fin n → Cell) → ColArg
  | none => .none
  | some _ => .str p

/-- The constructor arguments used by `from_arrays` (/repo/doubleml/double_ml_data.py:312,953-964). -/
def arrayArgs (a : Arrays n) (useOther force : PyVal) : DataArgs :=
  { y := .str "y"
    d := .list (genNames "d" a.d.length)
    x := .list (xNames a.x.length)
    z := optListArg "z" a.z
    t := optStrArg "t" a.t
    s := optStrArg "s" a.s
    useOther := useOther
    force := force }

/-- `from_arrays` of either class (/repo/doubleml/double_ml_data.py:200-312,943-964).  The finiteness checks
`check_array` makes beforehand are repeated by the constructor.  An array has at least one column. -/
noncomputable def fromArrays (a : Arrays n) (useOther force : PyVal) : Except Exc (Frame n × DataState n) := do
  let F := frameOf (arrayCols a)
  let S ← dataInit F (a.cluster.map fun c => .list (genNames "cluster_var" c.length)) (arrayArgs a useOther force)
  return (F, S)

end DML
