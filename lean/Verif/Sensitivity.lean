import Verif.RomanoWolf

/-!
# Sensitivity analysis of a framework

Model of `_calc_sensitivity_analysis`, `_calc_robustness_value`, `sensitivity_analysis` and
`sensitivity_plot` (/repo/doubleml/double_ml_framework.py:443-625,779-918).
-/

namespace DML

open Finset

variable {n r : ℕ}

/-- `confounding_strength` (/repo/doubleml/double_ml_framework.py:461). -/
noncomputable def confStrength (cfy cfd rho : ℝ) : ℝ := |rho| * Real.sqrt (cfy * (cfd / (1 - cfd)))

/-- Lower bounds of one parameter per repetition (/repo/doubleml/double_ml_framework.py:464). -/
noncomputable def Block.thetaLower (b : Block n r) (s : Sens n r) (c : ℝ) (k : Fin r) : ℝ :=
  b.allTheta k - c * s.maxBias k

/-- Upper bounds of one parameter per repetition (/repo/doubleml/double_ml_framework.py:465). -/
noncomputable def Block.thetaUpper (b : Block n r) (s : Sens n r) (c : ℝ) (k : Fin r) : ℝ :=
  b.allTheta k + c * s.maxBias k

/-- `all_sigma_lower[i, k]` (/repo/doubleml/double_ml_framework.py:467,486-505). -/
noncomputable def Block.sigmaLower (b : Block n r) (s : Sens n r) (cl : Option (ClusterInfo n r)) (c : ℝ)
    (k : Fin r) : ℝ :=
  Real.sqrt (varEst (fun i => b.psi i k - c * s.psiMaxBias i k) (fun _ => 1) (cl.map fun f => f k)).1

/-- `all_sigma_upper[i, k]` (/repo/doubleml/double_ml_framework.py:468,495-506). -/
noncomputable def Block.sigmaUpper (b : Block n r) (s : Sens n r) (cl : Option (ClusterInfo n r)) (c : ℝ)
    (k : Fin r) : ℝ :=
  Real.sqrt (varEst (fun i => b.psi i k + c * s.psiMaxBias i k) (fun _ => 1) (cl.map fun f => f k)).1

/-- The entries of `res_dict` belonging to one parameter
(/repo/doubleml/double_ml_framework.py:521-527). -/
structure SensRes where
  thetaLower : ℝ
  thetaUpper : ℝ
  seLower : ℝ
  seUpper : ℝ
  ciLower : ℝ
  ciUpper : ℝ

/-- The numerical part of `_calc_sensitivity_analysis` for one parameter
(/repo/doubleml/double_ml_framework.py:455-527). -/
noncomputable def Block.sensRes (b : Block n r) (s : Sens n r) (cl : Option (ClusterInfo n r))
    (cfy cfd rho level : ℝ) : SensRes :=
  let c := confStrength cfy cfd rho
  { thetaLower := aggTheta (b.thetaLower s c)
    thetaUpper := aggTheta (b.thetaUpper s c)
    seLower := aggSe (b.thetaLower s c) (b.sigmaLower s cl c) fun _ => b.vsf
    seUpper := aggSe (b.thetaUpper s c) (b.sigmaUpper s cl c) fun _ => b.vsf
    ciLower := median fun k => b.thetaLower s c k - ppf level * b.sigmaLower s cl c k
    ciUpper := median fun k => b.thetaUpper s c k + ppf level * b.sigmaUpper s cl c k }

/-- Absolute value of a `float` argument (`abs(rho)`). -/
noncomputable def PyVal.abs : PyVal → PyVal
  | .float x => .float |x|
  | v => v

/-- The argument checks of `_calc_sensitivity_analysis`
(/repo/doubleml/double_ml_framework.py:444-453); returns the numeric arguments. -/
noncomputable def sensArgs (cfy cfd rho level : PyVal) : Except Exc (ℝ × ℝ × ℝ × ℝ) := do
  let y ← checkInZeroOne cfy true false
  let d ← checkInZeroOne cfd true false
  let p ← checkFloat rho
  let _ ← checkInZeroOne rho.abs true true
  let l ← checkInZeroOne level false false
  return (y, d, p, l)

/-- `_calc_sensitivity_analysis` (/repo/doubleml/double_ml_framework.py:443-529). -/
noncomputable def FW.calcSens (A : FW n r) (cfy cfd rho level : PyVal) : Except Exc (List SensRes) :=
  match A.sens with
  | none => .error .notImplemented
  | some ss => do
    let (y, d, p, l) ← sensArgs cfy cfd rho level
    return List.zipWith (fun b s => b.sensRes s A.cluster y d p l) A.blocks ss

/-- The side of the bounds that is compared with the null hypothesis
(/repo/doubleml/double_ml_framework.py:536,862): `true` is `"upper"`. -/
noncomputable def useUpper (null theta : ℝ) : Bool := decide (null > theta)

/-- `res_dict[param][bound]`; `ci = true` selects `param = "ci"`, `up = true` selects `"upper"`. -/
def SensRes.get (s : SensRes) (ci up : Bool) : ℝ :=
  match ci, up with
  | false, false => s.thetaLower
  | false, true => s.thetaUpper
  | true, false => s.ciLower
  | true, true => s.ciUpper

/-- The objective `rv_fct` of `_calc_robustness_value` (/repo/doubleml/double_ml_framework.py:539-544)
for one parameter. -/
noncomputable def rvObjective (b : Block n r) (s : Sens n r) (cl : Option (ClusterInfo n r))
    (null rho level : ℝ) (ci : Bool) (v : ℝ) : ℝ :=
  ((b.sensRes s cl v v rho level).get ci (useUpper null b.theta) - null) ^ 2

end DML
