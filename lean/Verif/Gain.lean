import Verif.Stats
import Verif.Py
import Mathlib.Data.Sign.Basic

/-!
# Gain statistics

`gain_statistics` (/repo/doubleml/utils/gain_statistics.py).
-/

namespace DML

/-- What `gain_statistics` reads from a fitted model: `framework.sensitivity_elements` (`None` for models without
sensitivity analysis), as arrays of shape `(1, n_coef, n_rep)`, and `all_coef` (`n_coef × n_rep`).  The type checks on
the arrays themselves are not modelled: every fitted model satisfies them. -/
structure GainInput where
  nCoef : ℕ
  nRep : ℕ
  sens : Option ((Fin nCoef → Fin nRep → ℝ) × (Fin nCoef → Fin nRep → ℝ))
  coef : Fin nCoef → Fin nRep → ℝ

/-- `np.clip(x, lo, hi)`. -/
noncomputable def clip (lo hi x : ℝ) : ℝ := min hi (max x lo)

/-- `all_cf_y_benchmark` (/repo/doubleml/utils/gain_statistics.py:96-101) for one repetition. -/
noncomputable def cfYOne (varY sigma2L sigma2S : ℝ) : ℝ :=
  let r2L := 1 - sigma2L / varY
  let r2S := 1 - sigma2S / varY
  clip 0 1 ((r2L - r2S) / (1 - r2L))

/-- `all_cf_d_benchmark` (/repo/doubleml/utils/gain_statistics.py:98-102). -/
noncomputable def cfDOne (nu2L nu2S : ℝ) : ℝ :=
  let r2 := nu2S / nu2L
  clip 0 1 ((1 - r2) / r2)

/-- `denom` (/repo/doubleml/utils/gain_statistics.py:111-113). -/
noncomputable def gainDenom (sigma2L sigma2S nu2L nu2S : ℝ) : ℝ :=
  let varG := sigma2S - sigma2L
  let varR := nu2L - nu2S
  open Classical in if varG > 0 ∧ varR > 0 then Real.sqrt (varG * varR) else 0

/-- `all_rho_benchmark` (/repo/doubleml/utils/gain_statistics.py:114-118). -/
noncomputable def rhoOne (sigma2L sigma2S nu2L nu2S delta : ℝ) : ℝ :=
  let denom := gainDenom sigma2L sigma2S nu2L nu2S
  clip 0 1 (if denom ≠ 0 then |delta| / denom else 1) * (SignType.sign delta : ℝ)

/-- The benchmark values of one coefficient. -/
structure Gain where
  cfY : ℝ
  cfD : ℝ
  rho : ℝ
  deltaTheta : ℝ

/-- The statistics of one coefficient (/repo/doubleml/utils/gain_statistics.py:88-125). -/
noncomputable def gainOne {r : ℕ} (varY : ℝ) (s2L n2L thL s2S n2S thS : Fin r → ℝ) : Gain :=
  { cfY := median fun k => cfYOne varY (s2L k) (s2S k)
    cfD := median fun k => cfDOne (n2L k) (n2S k)
    rho := median fun k => rhoOne (s2L k) (s2S k) (n2L k) (n2S k) (thS k - thL k)
    deltaTheta := median fun k => thS k - thL k }

/-- `gain_statistics` (/repo/doubleml/utils/gain_statistics.py:4-125); `varY` is `np.var` of the outcome. -/
noncomputable def gainStatistics (varY : ℝ) (long short : GainInput) : Except Exc (List Gain) :=
  match long.sens, short.sens with
  | none, _ => .error .typeError
  | some _, none => .error .typeError
  | some (s2L, n2L), some (s2S, n2S) =>
    if h : long.nCoef = short.nCoef ∧ long.nRep = short.nRep then
      .ok ((List.finRange long.nCoef).map fun j =>
        gainOne varY (s2L j) (n2L j) (long.coef j)
          (fun k => s2S (Fin.cast h.1 j) (Fin.cast h.2 k)) (fun k => n2S (Fin.cast h.1 j) (Fin.cast h.2 k))
          fun k => short.coef (Fin.cast h.1 j) (Fin.cast h.2 k))
    else .error .valueError

/-- The argument checks of `sensitivity_benchmark` (/repo/doubleml/double_ml.py:1631-1649) and the covariates of
the short model (line 1652). -/
def benchmarkShort (xCols : List String) (isList : Bool) (set : List String) (fitArgsOk : Bool) : Except Exc (List String) :=
  if isList = false then .error .typeError
  else if set = [] then .error .valueError
  else if ¬ (∀ s ∈ set, s ∈ xCols) then .error .valueError
  else if fitArgsOk = false then .error .typeError
  else .ok (xCols.filter fun x => x ∉ set)

end DML
