import Verif.VarEst

/-!
# Estimation with linear scores

`LinearScoreMixin` (/repo/doubleml/double_ml_score_mixins.py:11-64) and the part of `DoubleML` that
estimates a coefficient and its standard error (/repo/doubleml/double_ml.py:1312-1376).
-/

namespace DML

open Finset

variable {n : ℕ}

/-- The score elements `psi_a`, `psi_b` of one treatment and repetition. -/
structure PsiElems (n : ℕ) where
  a : Fin n → ℝ
  b : Fin n → ℝ

/-- `_compute_score` (/repo/doubleml/double_ml_score_mixins.py:34-36). -/
def PsiElems.score (e : PsiElems n) (theta : ℝ) (i : Fin n) : ℝ := e.a i * theta + e.b i

/-- `scaling_factor[i_fold]` (/repo/doubleml/double_ml.py:1318-1321): one over the product of the numbers of
test clusters. -/
noncomputable def clusterWeight (v : ClusterVars n) (f : ClusterFold) : ℝ :=
  match v with
  | .one _ => 1 / (f.test1.length : ℝ)
  | .two _ _ => 1 / ((f.test1.length * f.test2.length : ℕ) : ℝ)

/-- How scores are aggregated over observations (/repo/doubleml/double_ml_score_mixins.py:49-61): by the mean
or, for clustered data, by the weighted sum over the test sets. -/
noncomputable def aggObs (cr : Option (ClusterRep n)) (psi : Fin n → ℝ) : ℝ :=
  match cr with
  | none => mean psi
  | some cr => ((cr.smpls.zip cr.smplsCluster).map fun f =>
      clusterWeight cr.vars f.2 * (f.1.test.map psi).sum).sum

/-- `_est_coef` of `LinearScoreMixin` (/repo/doubleml/double_ml_score_mixins.py:41-64) as called from
`_est_causal_pars` (/repo/doubleml/double_ml.py:1312-1324). -/
noncomputable def PsiElems.coef (e : PsiElems n) (cr : Option (ClusterRep n)) : ℝ :=
  - aggObs cr e.b / aggObs cr e.a

/-- Estimate, standard error, scaling factor, score and derivative of one treatment and repetition. -/
structure FitOne (n : ℕ) where
  coef : ℝ
  se : ℝ
  vsf : ℝ
  psi : Fin n → ℝ
  deriv : Fin n → ℝ

/-- `_solve_score_and_estimate_se` (/repo/doubleml/double_ml.py:1036-1053) for a linear score. -/
noncomputable def PsiElems.fit (e : PsiElems n) (cr : Option (ClusterRep n)) : FitOne n :=
  let coef := e.coef cr
  let v := varEst (e.score coef) e.a cr
  { coef := coef
    se := Real.sqrt v.1
    vsf := v.2
    psi := e.score coef
    deriv := e.a }

/-- The influence function handed to the framework (/repo/doubleml/double_ml.py:549):
`scaled_psi = psi / mean(psi_deriv)`. -/
noncomputable def FitOne.scaledPsi (f : FitOne n) (i : Fin n) : ℝ := f.psi i / mean f.deriv

end DML
