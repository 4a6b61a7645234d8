import Verif.Rdd

/-!
# Global learners

`GlobalRegressor` and `GlobalClassifier` of /repo/doubleml/utils/global_learner.py: wrappers that accept sample weights
and ignore them.  Their use is in the first stage of `RDFlex`.
-/

namespace DML

variable {n r : ℕ}

/-- A learner that is fitted without sample weights, as a function of the training rows (features, target). -/
structure BaseLearner where
  predict : List (List ℝ × ℝ) → List ℝ → ℝ
  proba : List (List ℝ × ℝ) → List ℝ → List ℝ

/-- `X, y` of weighted training rows. -/
def dropWeights (D : List (List ℝ × ℝ × ℝ)) : List (List ℝ × ℝ) := D.map fun q => (q.1, q.2.1)

/-- `GlobalRegressor.fit`/`predict` and `GlobalClassifier.fit`/`predict`/`predict_proba`
(/repo/doubleml/utils/global_learner.py:34-69,89-139): the base learner is fitted without the weights.  Not modelled: the
`ValueError` of `fit` for a base learner of the wrong kind, and the validation of weights (kernel weights are numbers, one
per observation). -/
def BaseLearner.global (B : BaseLearner) : WLearner where
  predict D z := B.predict (dropWeights D) z
  proba D z := B.proba (dropWeights D) z

/-- The same object with another kernel and another first stage bandwidth. -/
def Rd.withKernel (R : Rd n r) (K : Kernel) (h : ℝ) : Rd n r := { R with kernel := K, hFs := h }

/-- The same object with other learners. -/
def Rd.withLearners (R : Rd n r) (g m : WLearner) : Rd n r := { R with ml_g := g, ml_m := m }

end DML
