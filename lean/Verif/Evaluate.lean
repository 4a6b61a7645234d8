import Verif.Model

/-!
# Evaluation of learners

`DoubleML.evaluate_learners` (/repo/doubleml/double_ml.py:1134-1204) and the metric `_rmse`
(/repo/doubleml/utils/_estimation.py:190-193).
-/

namespace DML

open Finset

variable {n : ℕ} {P M : Type}

/-- A metric, called with `y_true` and `y_pred`; `none` is a value that is not finite. -/
abbrev Metric (n : ℕ) := NV n → NV n → Except Exc (Option ℝ)

open Classical in
/-- `_rmse` (/repo/doubleml/utils/_estimation.py:190-193): scikit-learn's `root_mean_squared_error` on the observations
with a target; it rejects empty arrays and missing predictions. -/
noncomputable def rmse : Metric n := fun t p =>
  let A := univ.filter fun i => (t i).isSome
  if A.card = 0 then .error .valueError
  else if ∃ i ∈ A, p i = none then .error .valueError
  else .ok (some (Real.sqrt ((∑ i ∈ A, ((t i).getD 0 - (p i).getD 0) ^ 2) / A.card)))

/-- `self.predictions[learner][:, rep, coef_idx]`: `NaN` where nothing has been stored.  (Simplification: an index
outside the stored array raises in the code.) -/
def MState.predOf (f : ℕ → ℕ → Option (List (String × NV n) × List (String × Option (NV n)))) (l : String) (j k : ℕ) : NV n :=
  ((f j k).bind fun q => lookupKey l q.1).getD fun _ => none

/-- `self.nuisance_targets[learner][:, rep, coef_idx]`; a target `None` is stored as `NaN`s. -/
def MState.targetOf (f : ℕ → ℕ → Option (List (String × NV n) × List (String × Option (NV n)))) (l : String) (j k : ℕ) : NV n :=
  (((f j k).bind fun q => lookupKey l q.2).bind id).getD fun _ => none

/-- One evaluation: a value that is not finite raises (/repo/doubleml/double_ml.py:1193-1198). -/
def evalCell (m : Metric n) (f : ℕ → ℕ → Option (List (String × NV n) × List (String × Option (NV n)))) (l : String)
    (k j : ℕ) : Except Exc ℝ :=
  match m (MState.targetOf f l j k) (MState.predOf f l j k) with
  | .error e => .error e
  | .ok none => .error .valueError
  | .ok (some v) => .ok v

/-- The evaluations of one learner: one row per repetition, one column per treatment. -/
def evalLearner (m : Metric n) (f : ℕ → ℕ → Option (List (String × NV n) × List (String × Option (NV n)))) (nRep nT : ℕ)
    (l : String) : Except Exc (String × List (List ℝ)) := do
  let rows ← (List.range nRep).mapM fun k => (List.range nT).mapM fun j => evalCell m f l k j
  return (l, rows)

/-- `evaluate_learners` (/repo/doubleml/double_ml.py:1134-1204).  `metric = none` stands for an argument that is not
callable, `learners = none` for `None`. -/
def evaluateLearners (sp : Spec n P M) (s : MState n P M) (learners : Option (List String)) (metric : Option (Metric n)) :
    Except Exc (List (String × List (List ℝ))) :=
  match metric with
  | none => .error .typeError
  | some m =>
    if (learners.getD sp.learners).all fun l => decide (l ∈ sp.learners) then
      match s.preds with
      | none => .error .valueError
      | some f => (learners.getD sp.learners).mapM (evalLearner m f s.nRep s.data.d.length)
    else .error .valueError

end DML
