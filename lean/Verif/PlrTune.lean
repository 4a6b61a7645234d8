import Verif.PlrModel

/-!
# Tuning of the partially linear regression model

`DoubleMLPLR._nuisance_tuning` (/repo/doubleml/plm/plr.py:286-357) and `_dml_tune`
(/repo/doubleml/utils/_estimation.py:150-171).
-/

namespace DML

open Finset

variable {n : ℕ} {P X : Type}

/-- A fitted `GridSearchCV`/`RandomizedSearchCV`: `best_params_` and `predict` of the refitted best estimator. -/
structure Found (P X : Type) where
  best : P
  predict : X → ℝ

/-- A search: from the training data to the fitted search object.  The first argument is the number of the call; the
search draws its folds (and candidates) at random, so that equal data need not give equal results. -/
abbrev SearchFn (P X : Type) := ℕ → List (X × ℝ) → Found P X

/-- `_dml_tune` (/repo/doubleml/utils/_estimation.py:150-171): one search per training set, on the rows of this
training set. -/
def dmlTune (f : SearchFn P X) (x : Fin n → X) (y : Fin n → ℝ) (trains : List (List (Fin n))) : List (Found P X) :=
  trains.zipIdx.map fun q => f q.2 (q.1.map fun i => (x i, y i))

/-- `hat[train_index] = res[idx].predict(x[train_index, :])` for all training sets one after the other
(/repo/doubleml/plm/plr.py:327-331).  `np.full_like(y, np.nan)` is taken as an array of floats. -/
def trainHat (x : Fin n → X) (L : List (List (Fin n) × Found P X)) : NV n :=
  L.foldl (fun h q i => if i ∈ q.1 then some (q.2.predict (x i)) else h i) fun _ => none

/-- `theta_initial` (/repo/doubleml/plm/plr.py:332-334); both `nanmean`s run over the same observations, so that the
number of observations cancels. -/
noncomputable def tuneTheta (y d : Fin n → ℝ) (l m : NV n) : ℝ :=
  -(∑ i, ((m i).bind fun b => (l i).map fun a => (d i - b) * (y i - a)).getD 0) /
    ∑ i, ((m i).map fun b => -((d i - b) * (d i - b))).getD 0

/-- The searches of a PLR model for treatment `j` and repetition `k`. -/
structure PlrSearch (P : Type) where
  l : ℕ → ℕ → SearchFn P (List Cell)
  m : ℕ → ℕ → SearchFn P (List Cell)
  g : ℕ → ℕ → SearchFn P (List Cell)

/-- The search for `ml_g` (/repo/doubleml/plm/plr.py:324-348). -/
noncomputable def plrTuneG (T : PlrSearch P) (j k : ℕ) (D : DataState n) (trains : List (List (Fin n)))
    (l m : List (Found P (List Cell))) : List (Found P (List Cell)) :=
  let y := fun i => (D.yv i).val
  let d := fun i => (D.dv i).val
  let theta := tuneTheta y d (trainHat (rowX D) (trains.zip l)) (trainHat (rowX D) (trains.zip m))
  dmlTune (T.g j k) (rowX D) (fun i => y i - theta * d i) trains

/-- `DoubleMLPLR._nuisance_tuning` (/repo/doubleml/plm/plr.py:286-357): the best parameters per learner and fold. -/
noncomputable def plrTune (iv : Bool) (T : PlrSearch P) : Search n P := fun j k D S =>
  let trains := S.map Fold.train
  let l := dmlTune (T.l j k) (rowX D) (fun i => (D.yv i).val) trains
  let m := dmlTune (T.m j k) (rowX D) (fun i => (D.dv i).val) trains
  let base := [("ml_l", l.map Found.best), ("ml_m", m.map Found.best)]
  .ok (if iv then base ++ [("ml_g", (plrTuneG T j k D trains l m).map Found.best)] else base)

end DML
