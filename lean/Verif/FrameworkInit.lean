import Verif.FrameworkState

/-!
# The constructor of `DoubleMLFramework`, `concat` for any operands, and programs with several objects

* `frameworkInit`: `DoubleMLFramework(doubleml_dict)` on dictionaries with arrays of arbitrary shapes
  (/repo/doubleml/double_ml_framework.py:35-77,920-1066); `Framework.lean` models the same constructor for
  arrays whose shapes are already right (`FW.construct`).
* `Framework.concat`: `concat` for operands of arbitrary dimensions and types.
* `Pool`: the framework objects of a program, created by arithmetic and `concat` and used by method calls.
-/

namespace DML

/-- A numpy array: its shape and its entry at an index tuple (only indices below the shape matter). -/
structure NArr where
  shape : List ℕ
  val : List ℕ → ℝ

/-- An index tuple of an array. -/
def NArr.InRange (a : NArr) (idx : List ℕ) : Prop := List.Forall₂ (· < ·) idx a.shape

/-- `np.any(a < 0)`. -/
def NArr.anyNeg (a : NArr) : Prop := ∃ idx, a.InRange idx ∧ a.val idx < 0

/-- A value of the dictionary where an array is expected: an array, or something without the attribute `shape`
(objects of other classes with a `shape` are left out). -/
inductive RawVal
  | arr (a : NArr)
  | other

/-- `value.shape`. -/
def RawVal.shape : RawVal → Except Exc (List ℕ)
  | .arr a => .ok a.shape
  | .other => .error .attributeError

/-- `value[idx]` for arrays. -/
def RawVal.at : RawVal → List ℕ → ℝ
  | .arr a, idx => a.val idx
  | .other, _ => 0

/-- The value of `cluster_dict`: a dictionary with all four keys, one with a missing key, or something else.  The
content is not looked at by the constructor; `content n r` is what an object with `n` observations and `r`
repetitions finds in it. -/
inductive RawCluster
  | dict (content : ∀ n r : ℕ, ClusterInfo n r)
  | incomplete
  | other

/-- The value of `sensitivity_elements`: a dictionary with or without the four keys, or something else. -/
inductive RawSens
  | dict (maxBias psiMaxBias sigma2 nu2 : Option RawVal)
  | other

/-- The value of `treatment_names`: a list, whose elements are strings or something else (`none`), or not a list. -/
inductive RawNames
  | list (l : List (Option String))
  | other

/-- `doubleml_dict`: the value of every key that is present. -/
structure RawDict where
  thetas : Option RawVal
  ses : Option RawVal
  allThetas : Option RawVal
  allSes : Option RawVal
  vsf : Option RawVal
  psi : Option RawVal
  isCluster : Option PyVal := none
  cluster : Option RawCluster := none
  sens : Option RawSens := none
  names : Option RawNames := none

/-- The argument of the constructor. -/
inductive RawArg
  | dict (d : RawDict)
  | other

/-- The six arrays that must be present. -/
structure Required where
  thetas : RawVal
  ses : RawVal
  allThetas : RawVal
  allSes : RawVal
  vsf : RawVal
  psi : RawVal

/-- The check for the expected keys (/repo/doubleml/double_ml_framework.py:44-46). -/
def RawDict.required (d : RawDict) : Except Exc Required :=
  match d.thetas, d.ses, d.allThetas, d.allSes, d.vsf, d.psi with
  | some a, some b, some c, some e, some f, some g => .ok ⟨a, b, c, e, f, g⟩
  | _, _, _, _, _, _ => .error .valueError

/-- `n_thetas`, `n_rep` and `n_obs` are read off the shape of `scaled_psi`
(/repo/doubleml/double_ml_framework.py:49-51); result `(n_obs, n_thetas, n_rep)`. -/
def psiDims (v : RawVal) : Except Exc (ℕ × ℕ × ℕ) := do
  match ← v.shape with
  | n :: p :: r :: _ => .ok (n, p, r)
  | _ => .error .indexError

/-- The flag `is_cluster_data` (/repo/doubleml/double_ml_framework.py:923-925), `False` without the key. -/
def clusterFlag : Option PyVal → Except Exc Bool
  | none => .ok false
  | some v => checkBool v

/-- The checks of `cluster_dict` (/repo/doubleml/double_ml_framework.py:927-942). -/
def clusterContent (n r : ℕ) : Option RawCluster → Except Exc (ClusterInfo n r)
  | none => .error .valueError
  | some .other => .error .typeError
  | some .incomplete => .error .valueError
  | some (.dict c) => .ok (c n r)

/-- `_check_and_set_cluster_data` (/repo/doubleml/double_ml_framework.py:920-944). -/
def initCluster (n r : ℕ) (flag : Option PyVal) (c : Option RawCluster) : Except Exc (Option (ClusterInfo n r)) := do
  if ← clusterFlag flag then return some (← clusterContent n r c) else return none

/-- `isinstance(value, np.ndarray)`. -/
def needArr : RawVal → Except Exc NArr
  | .arr a => .ok a
  | .other => .error .typeError

open Classical in
/-- `_check_sensitivity_benchmark` (/repo/doubleml/double_ml_framework.py:982-1010): both keys or nothing; the
values must be arrays without negative entries. -/
noncomputable def initBench : Option RawVal → Option RawVal → Except Exc (Option (NArr × NArr))
  | some s, some v => do
    let s ← needArr s
    let v ← needArr v
    if s.anyNeg ∨ v.anyNeg then .error .valueError else .ok (some (s, v))
  | _, _ => .ok none

/-- `_check_and_set_sensitivity_elements` (/repo/doubleml/double_ml_framework.py:946-980): `max_bias`,
`psi_max_bias` and, if available, `sigma2` and `nu2`. -/
noncomputable def initSens : Option RawSens → Except Exc (Option (NArr × NArr × Option (NArr × NArr)))
  | none => .ok none
  | some .other => .error .typeError
  | some (.dict (some b) (some pb) s v) => do
    let b ← needArr b
    let pb ← needArr pb
    let be ← initBench s v
    return some (b, pb, be)
  | some (.dict _ _ _ _) => .error .valueError

/-- One comparison of `_check_framework_shapes` (/repo/doubleml/double_ml_framework.py:1022-1025). -/
def checkShape (v : RawVal) (expected : List ℕ) : Except Exc Unit := do
  let s ← v.shape
  if s ≠ expected then .error .valueError else .ok ()

/-- `_check_sensitivity_elements_shapes` (/repo/doubleml/double_ml_framework.py:1032-1049). -/
def checkSensShapes (n p r : ℕ) : Option (NArr × NArr × Option (NArr × NArr)) → Except Exc Unit
  | none => .ok ()
  | some (b, pb, none) => do
    checkShape (.arr b) [1, p, r]
    checkShape (.arr pb) [n, p, r]
  | some (b, pb, some (s, v)) => do
    checkShape (.arr b) [1, p, r]
    checkShape (.arr pb) [n, p, r]
    checkShape (.arr s) [1, p, r]
    checkShape (.arr v) [1, p, r]

/-- `_check_framework_shapes` (/repo/doubleml/double_ml_framework.py:1012-1030). -/
def checkShapes (q : Required) (n p r : ℕ) (s : Option (NArr × NArr × Option (NArr × NArr))) : Except Exc Unit := do
  checkShape q.thetas [p]
  checkShape q.ses [p]
  checkShape q.allThetas [p, r]
  checkShape q.allSes [p, r]
  checkShape q.vsf [p]
  checkShape q.psi [n, p, r]
  checkSensShapes n p r s

/-- `_check_treatment_names` (/repo/doubleml/double_ml_framework.py:1051-1066): a list of `p` strings. -/
def checkNames (p : ℕ) : RawNames → Except Exc (List String)
  | .other => .error .typeError
  | .list l =>
    if l.any Option.isNone then .error .typeError
    else if l.length ≠ p then .error .valueError
    else .ok (l.filterMap id)

/-- The names of a new object (/repo/doubleml/double_ml_framework.py:69-72). -/
def initNames (p : ℕ) : Option RawNames → Except Exc (Option (List String))
  | none => .ok none
  | some v => do return some (← checkNames p v)

/-- The slices of the six arrays that belong to parameter `i`. -/
def Required.block (q : Required) (n r : ℕ) (i : ℕ) : Block n r where
  theta := q.thetas.at [i]
  se := q.ses.at [i]
  allTheta := fun k => q.allThetas.at [i, k]
  allSe := fun k => q.allSes.at [i, k]
  vsf := q.vsf.at [i]
  psi := fun j k => q.psi.at [j, i, k]

/-- The slices of `max_bias` and `psi_max_bias` that belong to parameter `i`. -/
def sensSlice (b pb : NArr) (n r : ℕ) (i : ℕ) : Sens n r where
  maxBias := fun k => b.val [0, i, k]
  psiMaxBias := fun j k => pb.val [j, i, k]

/-- The slices of `sigma2` and `nu2` that belong to parameter `i`. -/
def benchSlice (s v : NArr) (r : ℕ) (i : ℕ) : Bench r where
  sigma2 := fun k => s.val [0, i, k]
  nu2 := fun k => v.val [0, i, k]

/-- The object with the given arrays, read parameter by parameter. -/
def assemble (q : Required) (n p r : ℕ) (cl : Option (ClusterInfo n r))
    (s : Option (NArr × NArr × Option (NArr × NArr))) (names : Option (List String)) : FW n r where
  blocks := (List.range p).map (q.block n r)
  cluster := cl
  sens := s.map fun t => (List.range p).map (sensSlice t.1 t.2.1 n r)
  bench := (s.bind fun t => t.2.2).map fun t => (List.range p).map (benchSlice t.1 t.2 r)
  names := names

/-- `DoubleMLFramework(doubleml_dict)` (/repo/doubleml/double_ml_framework.py:35-77). -/
noncomputable def frameworkInit : RawArg → Except Exc Framework
  | .other => .error .typeError
  | .dict d => do
    let q ← d.required
    let (n, p, r) ← psiDims q.psi
    let cl ← initCluster n r d.isCluster d.cluster
    let s ← initSens d.sens
    checkShapes q n p r s
    let names ← initNames p d.names
    return ⟨n, r, assemble q n p r cl s names⟩

/-! ## The dictionaries the code itself builds -/

/-- An entry of a vector, `0` outside its range. -/
def entryFin {r : ℕ} (f : Fin r → ℝ) (k : ℕ) : ℝ := if h : k < r then f ⟨k, h⟩ else 0

/-- The array `(p, r)` or `(1, p, r)` with one row per element of a list. -/
def rowsArr {α : Type} {r : ℕ} (l : List α) (f : α → Fin r → ℝ) (lead : List ℕ) : NArr where
  shape := lead ++ [l.length, r]
  val := fun idx => ((l[idx.getD lead.length 0]?).map fun x => entryFin (f x) (idx.getD (lead.length + 1) 0)).getD 0

/-- The array `(p,)` with one entry per element of a list. -/
def colArr {α : Type} (l : List α) (f : α → ℝ) : NArr where
  shape := [l.length]
  val := fun idx => ((l[idx.getD 0 0]?).map f).getD 0

/-- The array `(n, p, r)` with one slice per element of a list. -/
def cubeArr {α : Type} {n r : ℕ} (l : List α) (f : α → Fin n → Fin r → ℝ) : NArr where
  shape := [n, l.length, r]
  val := fun idx => ((l[idx.getD 1 0]?).map fun x =>
    entryFin (fun j => entryFin (f x j) (idx.getD 2 0)) (idx.getD 0 0)).getD 0

/-- The content of a cluster dictionary for objects of the dimensions it was made for. -/
def clusterFor {n r : ℕ} (c : ClusterInfo n r) (n' r' : ℕ) : ClusterInfo n' r' :=
  if h : n = n' ∧ r = r' then h.1 ▸ h.2 ▸ c else fun _ => ⟨.one fun _ => 0, [], [], 1⟩

/-- The dictionary that the arithmetic operations, `concat` and `construct_framework` hand to the constructor
(/repo/doubleml/double_ml_framework.py:314-323,364-372,404-413,1096-1120). -/
def FW.toDict {n r : ℕ} (A : FW n r) : RawDict where
  thetas := some (.arr (colArr A.blocks Block.theta))
  ses := some (.arr (colArr A.blocks Block.se))
  allThetas := some (.arr (rowsArr A.blocks Block.allTheta []))
  allSes := some (.arr (rowsArr A.blocks Block.allSe []))
  vsf := some (.arr (colArr A.blocks Block.vsf))
  psi := some (.arr (cubeArr A.blocks Block.psi))
  isCluster := some (.bool A.cluster.isSome)
  cluster := some (A.cluster.elim .other fun c => .dict (clusterFor c))
  sens := A.sens.map fun es => .dict (some (.arr (rowsArr es Sens.maxBias [1]))) (some (.arr (cubeArr es Sens.psiMaxBias)))
    (A.bench.map fun bs => .arr (rowsArr bs Bench.sigma2 [1])) (A.bench.map fun bs => .arr (rowsArr bs Bench.nu2 [1]))
  names := A.names.map fun l => .list (l.map some)

/-! ## `concat` for arbitrary operands -/

/-- `isinstance(obj, DoubleMLFramework)`. -/
def Operand.fw? : Operand → Option Framework
  | .fw A => some A
  | .other _ => none

/-- The framework read with the dimensions of another one; `none` if they differ. -/
def Framework.cast? (n r : ℕ) (A : Framework) : Option (FW n r) :=
  if h : A.n = n ∧ A.r = r then some (h.1 ▸ h.2 ▸ A.fw) else none

/-- `concat(objs)` (/repo/doubleml/double_ml_framework.py:1069-1125).  The check of the internal shapes of all
operands (first) and the comparison of `n_obs` and `n_rep` with the first operand raise the same exception. -/
noncomputable def Framework.concat (l : List Operand) : Except Exc Framework :=
  match l.mapM Operand.fw? with
  | none => .error .typeError
  | some [] => .error .typeError
  | some (A :: As) =>
    match As.mapM (Framework.cast? A.n A.r) with
    | none => .error .valueError
    | some Bs => do return ⟨A.n, A.r, ← FW.concat (A.fw :: Bs)⟩

/-- `__rmul__` (/repo/doubleml/double_ml_framework.py:439-440): `other * A` where `other` is not a framework. -/
noncomputable def Framework.rmul (A : Framework) (other : Operand) : Except Exc Framework := A.mul other

/-! ## Programs with several objects -/

/-- A framework object together with its mutable attributes. -/
structure FObj where
  n : ℕ
  r : ℕ
  st : RState n r

/-- The object as an operand. -/
def FObj.framework (x : FObj) : Framework := ⟨x.n, x.r, x.st.fw⟩

/-- A new object: the constructor sets no bootstrap results (/repo/doubleml/double_ml_framework.py:74-77) and no
sensitivity parameters (line 978). -/
def Framework.fresh (A : Framework) : FObj := ⟨A.n, A.r, { fw := A.fw }⟩

/-- An argument in a program: one of the objects, or another Python value. -/
inductive PArg
  | obj (i : ℕ)
  | val (v : PyVal)

/-- Statements of a program.  `call i o` calls a method of object `i` (`o` gives the call for every dimension, because
the number of bootstrap multipliers depends on it); the other statements create an object. -/
inductive PStmt
  | call (i : ℕ) (o : ∀ n r : ℕ, Op n r)
  | init (d : RawArg)
  | add (i : ℕ) (a : PArg)
  | sub (i : ℕ) (a : PArg)
  | mul (i : ℕ) (a : PArg)
  | concat (l : List PArg)

/-- The objects of a program in the order of their creation. -/
abbrev Pool := List FObj

/-- The operand an argument refers to (`none`: no such object). -/
def Pool.operand (s : Pool) : PArg → Option Operand
  | .obj i => (s[i]?).map fun x => .fw x.framework
  | .val v => some (.other v)

/-- Create an object if the expression succeeds.  A reference to an object that does not exist does nothing. -/
noncomputable def Pool.create (s : Pool) : Option (Except Exc Framework) → Pool
  | some (.ok A) => s ++ [A.fresh]
  | _ => s

/-- One statement. -/
noncomputable def Pool.step (E : Ext) (s : Pool) : PStmt → Pool
  | .call i o => s.modify i fun x => { x with st := (x.st.step E (o x.n x.r)).1 }
  | .init d => s.create (some (frameworkInit d))
  | .add i a => s.create (do return Framework.bin Block.add (← s[i]?).framework (← s.operand a))
  | .sub i a => s.create (do return Framework.bin Block.sub (← s[i]?).framework (← s.operand a))
  | .mul i a => s.create (do return Framework.mul (← s[i]?).framework (← s.operand a))
  | .concat l => s.create (do return Framework.concat (← l.mapM s.operand))

/-- A program. -/
noncomputable def Pool.run (E : Ext) (s : Pool) : List PStmt → Pool
  | [] => s
  | o :: os => Pool.run E (s.step E o) os

/-- The method calls of a program addressed to object `i`. -/
def callsTo (i : ℕ) (n r : ℕ) : List PStmt → List (Op n r)
  | [] => []
  | .call j o :: os => if j = i then o n r :: callsTo i n r os else callsTo i n r os
  | _ :: os => callsTo i n r os

end DML
