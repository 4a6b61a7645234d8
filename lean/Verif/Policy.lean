import Verif.Scores
import Verif.Py
import Mathlib.Data.Sign.Basic
import Mathlib.Algebra.Order.Floor.Ring

/-!
# `DoubleMLPolicyTree` and `DoubleMLIRM.policy_tree`

/repo/doubleml/utils/policytree.py and /repo/doubleml/irm/irm.py:536-577.  scikit-learn's decision tree is a parameter:
an arbitrary function from the training data to a map from rows to one of the labels it was trained with.  What is
modelled of scikit-learn are the refusals that depend on what DoubleML passes: labels that are not whole numbers are
not classes (`check_classification_targets`), `max_depth` must be at least one (`_validate_params`), and the columns
must have the names and the order of the training data (`_check_feature_names`).
-/

namespace DML

/-- A data frame of features: the column names and the rows. -/
structure Feats (n : ℕ) where
  cols : List String
  row : Fin n → List ℝ

/-- An argument that should be a data frame. -/
inductive FeatArg (n : ℕ)
  | frame (f : Feats n)
  | other

/-- `DecisionTreeClassifier.fit`: features, labels and weights to a map from rows to labels. -/
abbrev TreeLearner := ∀ n : ℕ, ℕ → Feats n → (Fin n → ℝ) → (Fin n → ℝ) → List ℝ → ℝ

/-- A learner predicts labels of the training data (as every scikit-learn classifier). -/
def TreeLearner.PredictsLabels (T : TreeLearner) : Prop :=
  ∀ n, 0 < n → ∀ k X (y w : Fin n → ℝ) x, ∃ i, T n k X y w x = y i

/-- A `DoubleMLPolicyTree` object: signal, features, depth and the fitted tree. -/
structure PolicyTree (n : ℕ) where
  signal : Fin n → ℝ
  feats : Feats n
  depth : ℕ
  tree : Option (List ℝ → ℝ)

variable {n : ℕ}

/-- `bin_signal = (np.sign(self._orth_signal) + 1) / 2` (/repo/doubleml/utils/policytree.py:99). -/
noncomputable def binSignal (s : Fin n → ℝ) (i : Fin n) : ℝ := ((SignType.sign (s i) : ℝ) + 1) / 2

/-- `abs_signal = np.abs(self._orth_signal)` (/repo/doubleml/utils/policytree.py:100). -/
def absSignal (s : Fin n → ℝ) (i : Fin n) : ℝ := |s i|

open Classical in
/-- `self._policy_tree.fit(X=features, y=bin_signal, sample_weight=abs_signal)`
(/repo/doubleml/utils/policytree.py:104), with scikit-learn's refusals. -/
noncomputable def treeFit (T : TreeLearner) (k : ℕ) (X : Feats n) (y w : Fin n → ℝ) : Except Exc (List ℝ → ℝ) :=
  if k = 0 then .error .valueError
  else if ∀ i, ∃ z : ℤ, y i = z then .ok (T n k X y w)
  else .error .valueError

/-- The constructor (/repo/doubleml/utils/policytree.py:31-53) for a one-dimensional signal array. -/
def policyCreate (s : Fin n → ℝ) (X : FeatArg n) (k : ℕ) : Except Exc (PolicyTree n) :=
  match X with
  | .other => .error .typeError
  | .frame X => if X.cols.Nodup then .ok ⟨s, X, k, none⟩ else .error .valueError

/-- `fit` (/repo/doubleml/utils/policytree.py:91-106). -/
noncomputable def PolicyTree.fit (T : TreeLearner) (p : PolicyTree n) : Except Exc (PolicyTree n) :=
  match treeFit T p.depth p.feats (binSignal p.signal) (absSignal p.signal) with
  | .error e => .error e
  | .ok t => .ok { p with tree := some t }

/-- `predict` (/repo/doubleml/utils/policytree.py:127-156): the features with the additional column `pred_treatment`; the
conversion to `int` truncates towards zero. -/
noncomputable def PolicyTree.predict {m : ℕ} (p : PolicyTree n) (X : FeatArg m) : Except Exc (Feats m × (Fin m → ℤ)) :=
  match p.tree with
  | none => .error .valueError
  | some t =>
    match X with
    | .other => .error .typeError
    | .frame X =>
      if ¬ (X.cols ⊆ p.feats.cols ∧ p.feats.cols ⊆ X.cols) then .error .keyError
      else if X.cols ≠ p.feats.cols then .error .valueError
      else .ok (X, fun i => if 0 ≤ t (X.row i) then ⌊t (X.row i)⌋ else ⌈t (X.row i)⌉)

/-- `policy_tree` of `DoubleMLIRM` (/repo/doubleml/irm/irm.py:561-577); `psiB` is the score element of the only treatment
and repetition. -/
noncomputable def irmPolicyTree (T : TreeLearner) (score : String) (nRep : ℕ) (psiB : Fin n → ℝ) (depth : PyVal) (X : FeatArg n) :
    Except Exc (PolicyTree n) :=
  if score ≠ "ATE" then .error .valueError
  else if nRep ≠ 1 then .error .notImplemented
  else do
    let k ← checkInteger depth (some 0) Option.none
    let p ← policyCreate psiB X k.toNat
    p.fit T

end DML
