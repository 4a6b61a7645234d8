import Mathlib.Data.Sign.Basic
import Verif.LinearScore

/-!
# Estimation with nonlinear scores

`_get_bracket_guess`, `NonLinearScoreMixin._est_coef` and the quantile-type scores
(/repo/doubleml/utils/_estimation.py:210-239, /repo/doubleml/double_ml_score_mixins.py:67-212,
/repo/doubleml/irm/pq.py, /repo/doubleml/irm/lpq.py).
-/

namespace DML

open Finset

variable {n : ℕ}

/-- The bracket of one pass of the loop (/repo/doubleml/utils/_estimation.py:216-218) with
`delta = k / 10`. -/
noncomputable def bracketAt (start lo hi : ℝ) (k : ℕ) : ℝ × ℝ :=
  (max (start - (k : ℝ) / 10 * (hi - lo) / 2) lo, min (start + (k : ℝ) / 10 * (hi - lo) / 2) hi)

/-- The loop of `_get_bracket_guess` (/repo/doubleml/utils/_estimation.py:213-223): `k` counts the passes,
`delta = k / 10` in exact arithmetic, `cur` is the current pair `(s_different, b_guess)`. -/
noncomputable def bracketLoop (score : ℝ → ℝ) (start lo hi : ℝ) (k : ℕ) (cur : Bool × ℝ × ℝ) : Bool × ℝ × ℝ :=
  if cur.1 = false ∧ (k : ℝ) / 10 ≤ 1 then
    let b := bracketAt start lo hi k
    bracketLoop score start lo hi (k + 1) (decide (SignType.sign (score b.1) ≠ SignType.sign (score b.2)), b)
  else cur
termination_by 11 - k
decreasing_by
  rename_i h
  have h2 : (k : ℝ) ≤ 10 := by linarith [h.2]
  have h3 : k ≤ 10 := by exact_mod_cast h2
  omega

/-- `_get_bracket_guess` (/repo/doubleml/utils/_estimation.py:210-223). -/
noncomputable def bracketGuess (score : ℝ → ℝ) (start lo hi : ℝ) : Bool × ℝ × ℝ :=
  bracketLoop score start lo hi 1 (false, lo, hi)

/-- scipy's routines used by `_est_coef`. -/
structure RootExt where
  /-- `root_scalar(f, bracket=b, method="brentq").root` -/
  brentq : (ℝ → ℝ) → ℝ × ℝ → ℝ
  /-- `fmin_l_bfgs_b(f, x0, approx_grad=True, bounds=[b])[0]` -/
  lbfgs : (ℝ → ℝ) → ℝ → ℝ × ℝ → ℝ
  /-- `root_scalar(f, x0=x0, fprime=g, method="newton").root` -/
  newton : (ℝ → ℝ) → (ℝ → ℝ) → ℝ → ℝ

/-- `_est_coef` of `NonLinearScoreMixin` (/repo/doubleml/double_ml_score_mixins.py:103-212): `score` is the
aggregated score, `meanScore` the plain average the fall-back uses (equal to `score` without clustering). -/
noncomputable def nonlinearCoef (E : RootExt) (score meanScore deriv : ℝ → ℝ) (start : ℝ) :
    Option (ℝ × ℝ) → ℝ
  | none => E.newton score deriv start
  | some (lo, hi) =>
    let g := bracketGuess score start lo hi
    if g.1 then E.brentq score g.2
    else
      let alt := E.lbfgs (fun t => meanScore t ^ 2) start (lo, hi)
      let g' := bracketGuess score alt lo hi
      if g'.1 then E.brentq score g'.2
      else if 0 < score alt then E.lbfgs score start (lo, hi)
      else E.lbfgs (fun t => - meanScore t) start (lo, hi)

/-- `(y <= theta)` as a number. -/
noncomputable def indLe (y theta : ℝ) : ℝ := if y ≤ theta then 1 else 0

/-- `(d == treatment)` as a number. -/
noncomputable def indEq (d treatment : ℝ) : ℝ := if d = treatment then 1 else 0

/-- `_compute_ipw_score` of PQ and CVaR (/repo/doubleml/irm/pq.py:215-217, /repo/doubleml/irm/cvar.py:187-189). -/
noncomputable def ipwScore (treatment q theta d y prop : ℝ) : ℝ := indEq d treatment / prop * indLe y theta - q

/-- `_compute_score` of PQ (/repo/doubleml/irm/pq.py:219-232). -/
noncomputable def pqScore (q theta ind g m y : ℝ) : ℝ := ind * (indLe y theta - g) / m + g - q

/-- `_compute_ipw_score` of LPQ (/repo/doubleml/irm/lpq.py:220-226). -/
noncomputable def lpqIpwScore (treatment q theta d y prop z comp : ℝ) : ℝ :=
  (2 * treatment - 1) * (z / prop - (1 - z) / (1 - prop)) / comp * (indEq d treatment * indLe y theta) + -1 * q

/-- `_compute_score` of LPQ (/repo/doubleml/irm/lpq.py:228-250). -/
noncomputable def lpqScore (treatment q theta ind mz g0 g1 y z comp : ℝ) : ℝ :=
  (2 * treatment - 1) * (g1 - g0 + z / mz * (ind * indLe y theta - g1) - (1 - z) / (1 - mz) * (ind * indLe y theta - g0)) /
    comp - q

/-- The target of the CVaR outcome regression (/repo/doubleml/irm/cvar.py:193-195). -/
noncomputable def cvarTarget (q pq y : ℝ) : ℝ := max pq ((y - q * pq) / (1 - q))

/-- `_score_elements` of CVaR (/repo/doubleml/irm/cvar.py:191-199). -/
noncomputable def cvarElems (treatment q pq : ℝ) (y d g m : Fin n → ℝ) : PsiElems n :=
  { a := fun _ => -1
    b := fun i => indEq (d i) treatment * (cvarTarget q pq (y i) - g i) / m i + g i }

end DML
