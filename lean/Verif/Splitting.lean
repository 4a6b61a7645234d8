import Verif.Py
import Verif.VarEst
import Mathlib.Data.List.Sort

/-!
# Sample splitting: validation of user-supplied splits and drawn splits

Models /repo/doubleml/utils/_checks.py:54-108,406-512 and /repo/doubleml/utils/resampling.py.
-/

namespace DML

/-- An index array as it arrives after `np.array(...)`: whether its dtype is an integer type, and its
values (irrelevant if the dtype is not an integer type). -/
structure IdxIn where
  isInt : Bool
  vals : List ℤ

/-- `np.sort`. -/
def isort (l : List ℤ) : List ℤ := l.mergeSort (fun a b => decide (a ≤ b))

/-- A checked pair `(train_index, test_index)`. -/
abbrev IdxPair := List ℤ × List ℤ

/-- `_check_smpl_split_tpl` (/repo/doubleml/utils/_checks.py:79-108). -/
def checkTpl (n : ℕ) (checkIntersect : Bool) (tr te : IdxIn) : Except Exc IdxPair :=
  let train := isort tr.vals
  let test := isort te.vals
  if !tr.isInt then .error .typeError
  else if !te.isInt then .error .typeError
  else if checkIntersect && train.any (fun x => test.contains x) then .error .valueError
  else if ¬ train.Nodup then .error .valueError
  else if ¬ test.Nodup then .error .valueError
  else if ¬ ∀ x ∈ train, 0 ≤ x ∧ x < n then .error .valueError
  else if ¬ ∀ x ∈ test, 0 ≤ x ∧ x < n then .error .valueError
  else .ok (train, test)

/-- `_check_is_partition` (/repo/doubleml/utils/_checks.py:54-62).  `np.concatenate` of an empty list
raises a `ValueError`; all indices have been checked to be in range before. -/
def checkIsPartition (n : ℕ) (smpls : List IdxPair) : Except Exc Bool :=
  if smpls = [] then .error .valueError
  else
    let t := smpls.flatMap Prod.snd
    .ok (decide (t.length = n) && (List.range n).all fun i => t.contains (i : ℤ))

/-- An element of an inner list: a Python tuple (of index arrays) or something else. -/
inductive InnerItem
  | tuple (elems : List IdxIn)
  | other

/-- An element of the outer list. -/
inductive SplitItem
  | tuple (elems : List IdxIn)
  | list (inner : List InnerItem)
  | other

/-- The argument `all_smpls` of `set_sample_splitting`. -/
inductive SplitArg
  | tuple (elems : List IdxIn)
  | list (items : List SplitItem)
  | other

/-- `tpl` with `len(tpl) == 2`. -/
def pairOf : List IdxIn → Option (IdxIn × IdxIn)
  | [a, b] => some (a, b)
  | _ => none

/-- Re-checking an already checked pair (its arrays have integer dtype). -/
def recheck (n : ℕ) (p : IdxPair) : Except Exc IdxPair := checkTpl n true ⟨true, p.1⟩ ⟨true, p.2⟩

/-- All elements are tuples (`all([isinstance(tpl, tuple) for tpl in all_smpls])`). -/
def allTuples (items : List SplitItem) : Option (List (List IdxIn)) :=
  items.mapM fun | .tuple e => some e | _ => none

/-- All elements are lists. -/
def allLists (items : List SplitItem) : Option (List (List InnerItem)) :=
  items.mapM fun | .list l => some l | _ => none

/-- All elements of all inner lists are tuples. -/
def allInnerTuples (ls : List (List InnerItem)) : Option (List (List (List IdxIn))) :=
  ls.mapM fun l => l.mapM fun | .tuple e => some e | _ => none

/-- The list-of-tuples branch (/repo/doubleml/utils/_checks.py:460-475). -/
def checkFlat (n : ℕ) (ts : List (List IdxIn)) : Except Exc (List (List IdxPair) × ℕ × ℕ) :=
  match ts.mapM pairOf with
  | none => .error .valueError
  | some ps => do
    let smpl ← ps.mapM fun p => checkTpl n false p.1 p.2
    if ← checkIsPartition n smpl then
      match smpl with
      | [f] =>
        if ← checkIsPartition n [(f.2, f.1)] then return ([smpl], 1, 1)
        else
          let s ← smpl.mapM (recheck n)
          return ([s], 1, smpl.length)
      | _ =>
        let s ← smpl.mapM (recheck n)
        return ([s], 1, smpl.length)
    else .error .valueError

/-- The list-of-lists branch (/repo/doubleml/utils/_checks.py:476-505). -/
def checkNested (n : ℕ) (ls : List (List InnerItem)) : Except Exc (List (List IdxPair) × ℕ × ℕ) :=
  match allInnerTuples ls with
  | none => .error .typeError
  | some ts =>
    match ts.mapM fun l => l.mapM pairOf with
    | none => .error .valueError
    | some ps => do
      let k := (ps.head?.map List.length).getD 0
      if ¬ ∀ l ∈ ps, l.length = k then .error .valueError
      else
        let smpls ← ps.mapM fun l => l.mapM fun p => checkTpl n false p.1 p.2
        let parts ← smpls.mapM (checkIsPartition n)
        if parts.all id then
          let s ← smpls.mapM fun l => l.mapM (recheck n)
          return (s, smpls.length, k)
        else .error .valueError

/-- `_check_sample_splitting` up to the cluster part (/repo/doubleml/utils/_checks.py:441-505): the
checked splits, `n_rep` and `n_folds`. -/
def checkSampleSplitting (n : ℕ) : SplitArg → Except Exc (List (List IdxPair) × ℕ × ℕ)
  | .tuple elems =>
    match pairOf elems with
    | none => .error .valueError
    | some (a, b) => do
      let p ← checkTpl n false a b
      let x ← checkIsPartition n [p]
      let y ← checkIsPartition n [(p.2, p.1)]
      if x && y then return ([[p]], 1, 1) else .error .valueError
  | .list items =>
    match allTuples items with
    | some ts => checkFlat n ts
    | none =>
      match allLists items with
      | none => .error .valueError
      | some ls => checkNested n ls
  | .other => .error .typeError

/-! ## Cluster splits -/

/-- `all_smpls_cluster[i_rep][i_fold]`: train and test clusters per cluster variable. -/
abbrev ClusterPair := List (List ℤ) × List (List ℤ)

/-- `np.unique(this_cluster_var)`. -/
def uniqueSorted {n : ℕ} (c : Fin n → ℤ) : List ℤ := (Finset.univ.image c).sort (· ≤ ·)

/-- `_check_cluster_partitions` (/repo/doubleml/utils/_checks.py:406-412). -/
def checkClusterPartitions (parts : List (List ℤ)) (values : List ℤ) : Bool :=
  decide (parts.flatten.length = values.length) && decide (isort parts.flatten = isort values)

/-- The inner check of `_check_cluster_sample_splitting` for cluster variable `i`
(/repo/doubleml/utils/_checks.py:430-436): it always looks at repetition `0`, fold `0`. -/
def checkClusterVar {n : ℕ} (cl : List (List ClusterPair)) (c : Fin n → ℤ) (i : ℕ) : Except Exc Unit :=
  match cl with
  | (f :: _) :: _ =>
    match f.1[i]?, f.2[i]? with
    | some tr, some te => if checkClusterPartitions [tr, te] (uniqueSorted c) then .ok () else .error .valueError
    | _, _ => .error .indexError
  | _ => .error .indexError

/-- `_check_cluster_sample_splitting` (/repo/doubleml/utils/_checks.py:415-438). -/
def checkClusterSplitting {n : ℕ} (cl : Option (List (List ClusterPair))) (vars : List (Fin n → ℤ))
    (nRep nFolds : ℕ) : Except Exc (List (List ClusterPair)) :=
  match cl with
  | none => .error .valueError
  | some cl =>
    if cl.length ≠ nRep then .error .valueError
    else do
      let _ ← cl.mapM fun rep =>
        if rep.length ≠ nFolds then (.error .valueError : Except Exc Unit)
        else do
          let _ ← vars.zipIdx.mapM fun ci => checkClusterVar cl ci.1 ci.2
          return ()
      return cl

/-! ## Drawn splits -/

/-- First index of fold `j` in the shuffled order: scikit-learn's `KFold` gives the first `n % k` folds
`n / k + 1` elements and the others `n / k`. -/
def foldStart (n k j : ℕ) : ℕ := j * (n / k) + min j (n % k)

/-- The test set of fold `j` for the shuffled order `σ` (ascending, because scikit-learn builds a mask). -/
def kfoldTest {n : ℕ} (k : ℕ) (σ : Equiv.Perm (Fin n)) (j : ℕ) : List (Fin n) :=
  (List.finRange n).filter fun i => decide (foldStart n k j ≤ (σ.symm i).val ∧ (σ.symm i).val < foldStart n k (j + 1))

/-- The training set of fold `j`. -/
def kfoldTrain {n : ℕ} (k : ℕ) (σ : Equiv.Perm (Fin n)) (j : ℕ) : List (Fin n) :=
  (List.finRange n).filter fun i => ! decide (foldStart n k j ≤ (σ.symm i).val ∧ (σ.symm i).val < foldStart n k (j + 1))

/-- One pass of `KFold(n_splits=k, shuffle=True).split`. -/
def kfold {n : ℕ} (k : ℕ) (σ : Equiv.Perm (Fin n)) : List (Fold n) :=
  (List.range k).map fun j => ⟨kfoldTrain k σ j, kfoldTest k σ j⟩

/-- `DoubleMLResampling.split_samples` (/repo/doubleml/utils/resampling.py:24-27) without strata:
`RepeatedKFold` yields the folds of all repetitions in one stream, which is cut into slices of length
`n_folds`.  The permutations are the random draws; scikit-learn raises if `n_folds > n_obs`. -/
def drawSplit {n : ℕ} (nFolds nRep : ℕ) (σ : ℕ → Equiv.Perm (Fin n)) : Except Exc (List (List (Fold n))) :=
  if nFolds < 2 then .error .valueError
  else if nFolds > n then .error .valueError
  else
    let all := (List.range nRep).flatMap fun r => kfold nFolds (σ r)
    .ok ((List.range nRep).map fun i => (all.drop (i * nFolds)).take ((i + 1) * nFolds - i * nFolds))

/-- A stratified draw assigns every observation to one fold (`test_folds` in scikit-learn's
`StratifiedKFold`); here an arbitrary assignment `a`. -/
def assignFolds {n : ℕ} (k : ℕ) (a : Fin n → ℕ) : List (Fold n) :=
  (List.range k).map fun j =>
    ⟨(List.finRange n).filter fun i => ! decide (a i = j), (List.finRange n).filter fun i => decide (a i = j)⟩

/-! ## Drawn cluster splits -/

/-- The folds of the clusters of one cluster variable: `KFold(shuffle=True)` on positions, then
`clusters[train], clusters[test]` (/repo/doubleml/utils/resampling.py:50-52). -/
def clusterKfold (k : ℕ) (clusters : List ℤ) (σ : Equiv.Perm (Fin clusters.length)) : List (List ℤ × List ℤ) :=
  (kfold k σ).map fun f => (f.train.map clusters.get, f.test.map clusters.get)

/-- The cartesian product of the fold numbers (/repo/doubleml/utils/resampling.py:57-59).  For one or two
cluster variables, the only numbers the library admits, this is the order of numpy's `meshgrid` too. -/
def cart (k : ℕ) : ℕ → List (List ℕ)
  | 0 => [[]]
  | v + 1 => (List.range k).flatMap fun a => (cart k v).map (a :: ·)

/-- The folds chosen for each cluster variable: `smpls_cluster_vars[i_var][cart[i_smpl, i_var]]`. -/
def pickFolds (sv : List (List (List ℤ × List ℤ))) (ix : List ℕ) : List (List ℤ × List ℤ) :=
  List.zipWith (fun s j => s.getD j ([], [])) sv ix

/-- One fold of a cluster split (/repo/doubleml/utils/resampling.py:60-77). -/
def clusterFold {n : ℕ} (vars : List (Fin n → ℤ)) (sv : List (List (List ℤ × List ℤ))) (ix : List ℕ) :
    Fold n × ClusterPair :=
  let picks := pickFolds sv ix
  (⟨(List.finRange n).filter fun i => (vars.zip picks).all fun q => q.2.1.contains (q.1 i),
    (List.finRange n).filter fun i => (vars.zip picks).all fun q => q.2.2.contains (q.1 i)⟩,
   (picks.map Prod.fst, picks.map Prod.snd))

/-- One repetition of `DoubleMLClusterResampling.split_samples`
(/repo/doubleml/utils/resampling.py:45-79).  `σ v m` is the shuffle of `m` clusters drawn for cluster
variable `v`; `KFold` raises if it has fewer than two folds or more folds than clusters. -/
def drawClusterRep {n : ℕ} (k : ℕ) (vars : List (Fin n → ℤ)) (σ : ℕ → (m : ℕ) → Equiv.Perm (Fin m)) :
    Except Exc (List (Fold n × ClusterPair)) := do
  let sv ← vars.zipIdx.mapM fun cv =>
    if k < 2 ∨ (uniqueSorted cv.1).length < k then (.error .valueError : Except Exc (List (List ℤ × List ℤ)))
    else .ok (clusterKfold k (uniqueSorted cv.1) (σ cv.2 _))
  return (cart k vars.length).map (clusterFold vars sv)

/-- `DoubleMLClusterResampling.split_samples` (/repo/doubleml/utils/resampling.py:42-79): all repetitions.
The observation folds (`smpls`) and the cluster folds (`smpls_cluster`) are returned zipped. -/
def drawCluster {n : ℕ} (k nRep : ℕ) (vars : List (Fin n → ℤ)) (σ : ℕ → ℕ → (m : ℕ) → Equiv.Perm (Fin m)) :
    Except Exc (List (List (Fold n × ClusterPair))) :=
  (List.range nRep).mapM fun r => drawClusterRep k vars (σ r)

end DML
