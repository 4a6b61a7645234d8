import Verif.Py
import Verif.LinearScore

/-!
# Score elements and sensitivity elements of the models

Propensity adjustment (/repo/doubleml/utils/_propensity_score.py), the `_score_elements` and the
`_sensitivity_element_est` methods of the models with linear scores.  All functions take the predictions as
arguments (how they are obtained is modelled in `CrossFit`).  Callable scores are not modelled.
-/

namespace DML

open Finset

variable {n : ℕ}

/-! ## Propensities -/

/-- `_check_trimming` (/repo/doubleml/utils/_checks.py:131-148).  A `trimming_rule` that is a numpy array makes
`in` ambiguous; such values are treated as invalid rules. -/
noncomputable def checkTrimming (rule threshold : PyVal) : Except Exc ℝ :=
  match rule with
  | .str "truncate" =>
    match threshold with
    | .float t => if t ≤ 0 ∨ t ≥ 1 / 2 then .error .valueError else .ok t
    | _ => .error .typeError
  | _ => .error .valueError

/-- `_trimm` with rule `"truncate"` (/repo/doubleml/utils/_propensity_score.py:14-20); `np.clip` is
`minimum(a_max, maximum(a, a_min))`. -/
noncomputable def trim (t p : ℝ) : ℝ := min (1 - t) (max p t)

/-- `_normalize_ipw` (/repo/doubleml/utils/_propensity_score.py:23-32). -/
noncomputable def normalizeIpw (m d : Fin n → ℝ) (i : Fin n) : ℝ :=
  d i * (m i * mean fun j => d j / m j) + (1 - d i) * (1 - (1 - m i) * mean fun j => (1 - d j) / (1 - m j))

/-- `_propensity_score_adjustment` (/repo/doubleml/utils/_propensity_score.py:4-11). -/
noncomputable def adjust (normalize : Bool) (m d : Fin n → ℝ) : Fin n → ℝ := if normalize then normalizeIpw m d else m

/-! ## PLR and PLIV -/

/-- `_score_elements` of PLR, `partialling out` (/repo/doubleml/plm/plr.py:234-251). -/
def plrPo (y d l m : Fin n → ℝ) : PsiElems n :=
  { a := fun i => - ((d i - m i) * (d i - m i))
    b := fun i => (d i - m i) * (y i - l i) }

/-- `_score_elements` of PLR, `IV-type` (/repo/doubleml/plm/plr.py:234-251). -/
def plrIv (y d m g : Fin n → ℝ) : PsiElems n :=
  { a := fun i => - ((d i - m i) * d i)
    b := fun i => (d i - m i) * (y i - g i) }

/-- The initial estimate of the IV-type score (/repo/doubleml/plm/plr.py:207-210); finite predictions, so that
`nanmean` is the mean. -/
noncomputable def plrInitial (y d l m : Fin n → ℝ) : ℝ :=
  - (mean fun i => (d i - m i) * (y i - l i)) / mean fun i => - ((d i - m i) * (d i - m i))

/-- `_score_elements` of PLIV with one instrument, `partialling out` (/repo/doubleml/plm/pliv.py:380-413). -/
def plivPo (y z d l m r : Fin n → ℝ) : PsiElems n :=
  { a := fun i => - ((d i - r i) * (z i - m i))
    b := fun i => (z i - m i) * (y i - l i) }

/-- `_score_elements` of PLIV with one instrument, `IV-type` (/repo/doubleml/plm/pliv.py:380-413). -/
def plivIv (y z d m g : Fin n → ℝ) : PsiElems n :=
  { a := fun i => - ((z i - m i) * d i)
    b := fun i => (z i - m i) * (y i - g i) }

/-- `_score_elements` of PLIV with several instruments (/repo/doubleml/plm/pliv.py:386-402): `proj` is
`LinearRegression(fit_intercept=True).fit(v_hat, w_hat).predict(v_hat)`. -/
def plivMulti {k : ℕ} (proj : (Fin n → Fin k → ℝ) → (Fin n → ℝ) → Fin n → ℝ) (y d l r : Fin n → ℝ)
    (z m : Fin n → Fin k → ℝ) : PsiElems n :=
  let w := fun i => d i - r i
  let rt := proj (fun i j => z i j - m i j) w
  { a := fun i => - (w i * rt i)
    b := fun i => rt i * (y i - l i) }

/-- The score of PLIV `partialZ` (/repo/doubleml/plm/pliv.py:415-447). -/
def plivZ (y d r : Fin n → ℝ) : PsiElems n :=
  { a := fun i => - (r i * d i)
    b := fun i => r i * y i }

/-- The score of PLIV `partialXZ` (/repo/doubleml/plm/pliv.py:449-527). -/
def plivXZ (y d l m mt : Fin n → ℝ) : PsiElems n :=
  { a := fun i => - ((d i - mt i) * (m i - mt i))
    b := fun i => (m i - mt i) * (y i - l i) }

/-! ## IRM, APO, IIVM, SSM -/

/-- `_get_weights` of IRM for the score `ATTE` (/repo/doubleml/irm/irm.py:229-238): `weights` and
`weights_bar` from the subgroup indicator `w`, the treatment and the adjusted propensities. -/
noncomputable def atteWeights (w d mAdj : Fin n → ℝ) : (Fin n → ℝ) × (Fin n → ℝ) :=
  let p := mean fun i => w i * d i
  (fun i => w i * d i / p, fun i => mAdj i * w i / p)

/-- `_score_elements` of IRM (/repo/doubleml/irm/irm.py:343-362) with weights `w`, `wb` and adjusted
propensities. -/
noncomputable def irmElems (y d g0 g1 mAdj w wb : Fin n → ℝ) : PsiElems n :=
  { a := fun i => -1 * (w i / mean w)
    b := fun i => w i * (g1 i - g0 i) + wb i * (d i * (y i - g1 i) / mAdj i - (1 - d i) * (y i - g0 i) / (1 - mAdj i)) }

/-- IRM, score `ATE`. -/
noncomputable def irmAte (normalize : Bool) (y d g0 g1 m w wb : Fin n → ℝ) : PsiElems n :=
  irmElems y d g0 g1 (adjust normalize m d) w wb

/-- IRM, score `ATTE`. -/
noncomputable def irmAtte (normalize : Bool) (y d g0 g1 m w : Fin n → ℝ) : PsiElems n :=
  let mAdj := adjust normalize m d
  irmElems y d g0 g1 mAdj (atteWeights w d mAdj).1 (atteWeights w d mAdj).2

/-- `_score_elements` of APO (/repo/doubleml/irm/apo.py:313-323). -/
noncomputable def apoElems (normalize : Bool) (y treated g1 m w wb : Fin n → ℝ) : PsiElems n :=
  { a := fun i => -1 * (w i / mean w)
    b := fun i => w i * g1 i + wb i * (treated i * (y i - g1 i) / adjust normalize m treated i) }

/-- `_score_elements` of IIVM (/repo/doubleml/irm/iivm.py:404-436); note that the propensities of the
*instrument* are normalised with the *treatment* (line 412). -/
noncomputable def iivmElems (normalize : Bool) (y z d g0 g1 m r0 r1 : Fin n → ℝ) : PsiElems n :=
  let mAdj := if normalize then normalizeIpw m d else m
  { a := fun i => -1 * (r1 i - r0 i + z i * (d i - r1 i) / mAdj i - (1 - z i) * (d i - r0 i) / (1 - mAdj i))
    b := fun i => g1 i - g0 i + z i * (y i - g1 i) / mAdj i - (1 - z i) * (y i - g0 i) / (1 - mAdj i) }

/-- The nuisance `r0` of IIVM (/repo/doubleml/irm/iivm.py:327-349); `est` is the cross-fitted prediction. -/
def iivmR0 (alwaysTakers : Bool) (ext : Option (Fin n → ℝ)) (est : Fin n → ℝ) : Fin n → ℝ :=
  if alwaysTakers then ext.getD est else fun _ => 0

/-- The nuisance `r1` of IIVM (/repo/doubleml/irm/iivm.py:351-373). -/
def iivmR1 (neverTakers : Bool) (ext : Option (Fin n → ℝ)) (est : Fin n → ℝ) : Fin n → ℝ :=
  if neverTakers then ext.getD est else fun _ => 1

/-- `_score_elements` of SSM (/repo/doubleml/irm/ssm.py:406-426); `psi_a` is the scalar -1, `dt` and `dc` are
the indicators of `d == 1` and `d == 0`. -/
noncomputable def ssmElems (normalize : Bool) (dt dc g1 g0 pi m s y : Fin n → ℝ) : PsiElems n :=
  let wt := if normalize then (∑ i, dt i) / ∑ i, dt i * s i / (pi i * m i) else 1
  let wc := if normalize then (∑ i, dc i) / ∑ i, dc i * s i / (pi i * (1 - m i)) else 1
  { a := fun _ => -1
    b := fun i => (wt * (dt i * s i * (y i - g1 i) / (m i * pi i)) + g1 i) -
      (wc * (dc i * s i * (y i - g0 i) / ((1 - m i) * pi i)) + g0 i) }

/-! ## Difference in differences -/

/-- The score of a DiD model. -/
inductive DidScore | observational | experimental
  deriving DecidableEq

/-- `p_hat` (/repo/doubleml/did/did.py:271-274): in every test fold the treated share of the training fold. -/
noncomputable def foldShare (d : Fin n → ℝ) (smpls : List (Fold n)) : Fin n → Option ℝ :=
  smpls.foldl (fun p f => fun i => if i ∈ f.test then some ((f.train.map d).sum / f.train.length) else p i) fun _ => none

/-- `weight_psi_a` of DiD (/repo/doubleml/did/did.py:291-316). -/
noncomputable def didWa (sc : DidScore) (norm : Bool) (d p : Fin n → ℝ) (i : Fin n) : ℝ :=
  match sc, norm with
  | .observational, true => d i / mean d
  | .observational, false => d i / p i
  | .experimental, _ => 1

/-- `weight_resid_d0` of DiD (/repo/doubleml/did/did.py:291-316). -/
noncomputable def didWr (sc : DidScore) (norm : Bool) (d m p : Fin n → ℝ) (i : Fin n) : ℝ :=
  match sc, norm with
  | .observational, true =>
    d i / mean d - (1 - d i) * (m i / (1 - m i)) / mean fun j => (1 - d j) * (m j / (1 - m j))
  | .observational, false => (d i - m i) / (p i * (1 - m i))
  | .experimental, true => d i / mean d - (1 - d i) / mean fun j => 1 - d j
  | .experimental, false => (d i - p i) / (p i * (1 - p i))

/-- `psi_b_1` of DiD (/repo/doubleml/did/did.py:300-316). -/
noncomputable def didB1 (sc : DidScore) (norm : Bool) (d g0 g1 p : Fin n → ℝ) (i : Fin n) : ℝ :=
  match sc, norm with
  | .observational, _ => 0
  | .experimental, true => (d i / mean d - 1) * g0 i + (1 - d i / mean d) * g1 i
  | .experimental, false => (d i / p i - 1) * g0 i + (1 - d i / p i) * g1 i

/-- `_score_elements` of DiD (/repo/doubleml/did/did.py:287-321). -/
noncomputable def didElems (sc : DidScore) (norm : Bool) (y d g0 g1 m p : Fin n → ℝ) : PsiElems n :=
  { a := fun i => -1 * didWa sc norm d p i
    b := fun i => didB1 sc norm d g0 g1 p i + didWr sc norm d m p i * (y i - g0 i) }

/-- The cells of a repeated cross-section: `d1t1`, `d1t0`, `d0t1`, `d0t0`. -/
structure Cells (n : ℕ) where
  d1t1 : Fin n → ℝ
  d1t0 : Fin n → ℝ
  d0t1 : Fin n → ℝ
  d0t0 : Fin n → ℝ

/-- /repo/doubleml/did/did_cs.py:363-366 -/
def cells (d t : Fin n → ℝ) : Cells n :=
  { d1t1 := fun i => d i * t i
    d1t0 := fun i => d i * (1 - t i)
    d0t1 := fun i => (1 - d i) * t i
    d0t0 := fun i => (1 - d i) * (1 - t i) }

/-- The weights of the residuals (/repo/doubleml/did/did_cs.py:368-421). -/
noncomputable def csResid (sc : DidScore) (norm : Bool) (d t m p lam : Fin n → ℝ) : Cells n :=
  let c := cells d t
  match sc, norm with
  | .observational, true =>
    { d1t1 := fun i => c.d1t1 i / mean c.d1t1
      d1t0 := fun i => -1 * (c.d1t0 i / mean c.d1t0)
      d0t1 := fun i => -1 * (c.d0t1 i * (m i / (1 - m i)) / mean fun j => c.d0t1 j * (m j / (1 - m j)))
      d0t0 := fun i => c.d0t0 i * (m i / (1 - m i)) / mean fun j => c.d0t0 j * (m j / (1 - m j)) }
  | .observational, false =>
    { d1t1 := fun i => c.d1t1 i / (p i * lam i)
      d1t0 := fun i => -1 * (c.d1t0 i / (p i * (1 - lam i)))
      d0t1 := fun i => -1 * (c.d0t1 i / (p i * lam i) * (m i / (1 - m i)))
      d0t0 := fun i => c.d0t0 i / (p i * (1 - lam i)) * (m i / (1 - m i)) }
  | .experimental, true =>
    { d1t1 := fun i => c.d1t1 i / mean c.d1t1
      d1t0 := fun i => -1 * (c.d1t0 i / mean c.d1t0)
      d0t1 := fun i => -1 * (c.d0t1 i / mean c.d0t1)
      d0t0 := fun i => c.d0t0 i / mean c.d0t0 }
  | .experimental, false =>
    { d1t1 := fun i => c.d1t1 i / (p i * lam i)
      d1t0 := fun i => -1 * (c.d1t0 i / (p i * (1 - lam i)))
      d0t1 := fun i => -1 * (c.d0t1 i / ((1 - p i) * lam i))
      d0t0 := fun i => c.d0t0 i / ((1 - p i) * (1 - lam i)) }

/-- `_score_elements` of DiD for repeated cross-sections (/repo/doubleml/did/did_cs.py:356-442); the four
outcome models are `g`. `weight_psi_a` is the same as for panel data. -/
noncomputable def didCsElems (sc : DidScore) (norm : Bool) (y d t : Fin n → ℝ) (g : Cells n) (m p lam : Fin n → ℝ) :
    PsiElems n :=
  let r := csResid sc norm d t m p lam
  { a := fun i => -1 * didWa sc norm d p i
    b := fun i =>
      (didWa sc norm d p i * g.d1t1 i + -1 * didWa sc norm d p i * g.d1t0 i + didWa sc norm d p i * g.d0t0 i +
        -1 * didWa sc norm d p i * g.d0t1 i) +
      (r.d1t1 i * (y i - g.d1t1 i) + r.d1t0 i * (y i - g.d1t0 i) + r.d0t0 i * (y i - g.d0t0 i) +
        r.d0t1 i * (y i - g.d0t1 i)) }

/-! ## Sensitivity elements -/

/-- The dictionary of `_sensitivity_element_est` for one treatment and repetition. -/
structure SensElems (n : ℕ) where
  sigma2 : ℝ
  nu2 : ℝ
  psiSigma2 : Fin n → ℝ
  psiNu2 : Fin n → ℝ
  rr : Fin n → ℝ

/-- The common tail (e.g. /repo/doubleml/irm/irm.py:379-398): from the squared residuals, `m(W, alpha)` and the
Riesz representer. -/
noncomputable def sensOf (resid2 mAlpha rr : Fin n → ℝ) : SensElems n :=
  { sigma2 := mean resid2
    nu2 := mean fun i => 2 * mAlpha i - rr i ^ 2
    psiSigma2 := fun i => resid2 i - mean resid2
    psiNu2 := fun i => 2 * mAlpha i - rr i ^ 2 - mean fun j => 2 * mAlpha j - rr j ^ 2
    rr := rr }

/-- PLR (/repo/doubleml/plm/plr.py:253-287) from the squared residuals of the chosen score. -/
noncomputable def plrSens (resid2 d m : Fin n → ℝ) : SensElems n :=
  let nu2 := 1 / mean fun i => (d i - m i) ^ 2
  { sigma2 := mean resid2
    nu2 := nu2
    psiSigma2 := fun i => resid2 i - mean resid2
    psiNu2 := fun i => nu2 - (d i - m i) ^ 2 * nu2 ^ 2
    rr := fun i => (d i - m i) * nu2 }

/-- `sigma2_score_element` of PLR, `partialling out`. -/
def plrPoResid2 (y d l m : Fin n → ℝ) (theta : ℝ) (i : Fin n) : ℝ := (y i - l i - theta * (d i - m i)) ^ 2

/-- `sigma2_score_element` of PLR, `IV-type`. -/
def plrIvResid2 (y d g : Fin n → ℝ) (theta : ℝ) (i : Fin n) : ℝ := (y i - g i - theta * d i) ^ 2

/-- IRM (/repo/doubleml/irm/irm.py:364-398). -/
noncomputable def irmSens (y d g0 g1 mAdj w wb : Fin n → ℝ) : SensElems n :=
  sensOf (fun i => (y i - d i * g1 i - (1 - d i) * g0 i) ^ 2)
    (fun i => w i * (wb i * (1 / mAdj i + 1 / (1 - mAdj i))))
    fun i => wb i * (d i / mAdj i - (1 - d i) / (1 - mAdj i))

/-- APO (/repo/doubleml/irm/apo.py:325-358). -/
noncomputable def apoSens (y treated g0 g1 mAdj w wb : Fin n → ℝ) : SensElems n :=
  sensOf (fun i => (y i - treated i * g1 i - (1 - treated i) * g0 i) ^ 2)
    (fun i => w i * (wb i * (1 / mAdj i))) fun i => wb i * (treated i / mAdj i)

/-- The Riesz representer of DiD (/repo/doubleml/did/did.py:336-357). -/
noncomputable def didRr (sc : DidScore) (norm : Bool) (d m : Fin n → ℝ) (i : Fin n) : ℝ :=
  match sc, norm with
  | .observational, true =>
    d i / mean d - (1 - d i) * (m i / (1 - m i)) / mean fun j => (1 - d j) * (m j / (1 - m j))
  | .observational, false => d i / mean d - (1 - d i) / mean d * (m i / (1 - m i))
  | .experimental, _ => d i / mean d - (1 - d i) / (1 - mean d)

/-- `m_alpha` of DiD (/repo/doubleml/did/did.py:336-357). -/
noncomputable def didMAlpha (sc : DidScore) (norm : Bool) (d m : Fin n → ℝ) (i : Fin n) : ℝ :=
  match sc, norm with
  | .observational, true =>
    d i / mean d * (1 / mean d + m i / (1 - m i) / mean fun j => (1 - d j) * (m j / (1 - m j)))
  | .observational, false => d i / mean d ^ 2 * (1 + m i / (1 - m i))
  | .experimental, _ => 1 / mean d + 1 / (1 - mean d)

/-- DiD (/repo/doubleml/did/did.py:323-370). -/
noncomputable def didSens (sc : DidScore) (norm : Bool) (y d g0 g1 m : Fin n → ℝ) : SensElems n :=
  sensOf (fun i => (y i - (d i * g1 i + (1 - d i) * g0 i)) ^ 2) (didMAlpha sc norm d m) (didRr sc norm d m)

/-- The Riesz representer of DiD for repeated cross-sections (/repo/doubleml/did/did_cs.py:469-529). -/
noncomputable def csRr (sc : DidScore) (norm : Bool) (d t m : Fin n → ℝ) (i : Fin n) : ℝ :=
  let c := cells d t
  let p := mean d
  let lam := mean t
  match sc, norm with
  | .observational, true =>
    c.d1t1 i / mean c.d1t1 - c.d1t0 i / mean c.d1t0 -
      c.d0t1 i * (m i / (1 - m i)) / (mean fun j => c.d0t1 j * (m j / (1 - m j))) +
      c.d0t0 i * (m i / (1 - m i)) / mean fun j => c.d0t0 j * (m j / (1 - m j))
  | .observational, false =>
    (t i / (p * lam) + (1 - t i) / (p * (1 - lam))) * (d i + (1 - d i) * (m i / (1 - m i)))
  | .experimental, true =>
    c.d1t1 i / mean c.d1t1 - c.d1t0 i / mean c.d1t0 - c.d0t1 i / mean c.d0t1 + c.d0t0 i / mean c.d0t0
  | .experimental, false =>
    c.d1t1 i / (p * lam) - c.d1t0 i / (p * (1 - lam)) - c.d0t1 i / ((1 - p) * lam) + c.d0t0 i / ((1 - p) * (1 - lam))

/-- `m_alpha` of DiD for repeated cross-sections (/repo/doubleml/did/did_cs.py:469-529). -/
noncomputable def csMAlpha (sc : DidScore) (norm : Bool) (d t m : Fin n → ℝ) (i : Fin n) : ℝ :=
  let c := cells d t
  let p := mean d
  let lam := mean t
  match sc, norm with
  | .observational, true =>
    d i / p * (1 / mean c.d1t1 + 1 / mean c.d1t0 + m i / (1 - m i) / (mean fun j => c.d0t1 j * (m j / (1 - m j))) +
      m i / (1 - m i) / mean fun j => c.d0t0 j * (m j / (1 - m j)))
  | .observational, false => d i / p ^ 2 * ((1 / lam + 1 / (1 - lam)) * (1 + m i / (1 - m i)))
  | .experimental, true => 1 / mean c.d1t1 + 1 / mean c.d1t0 + 1 / mean c.d0t1 + 1 / mean c.d0t0
  | .experimental, false =>
    1 / (p * lam) + 1 / (p * (1 - lam)) + 1 / ((1 - p) * lam) + 1 / ((1 - p) * (1 - lam))

/-- DiD for repeated cross-sections (/repo/doubleml/did/did_cs.py:444-542). -/
noncomputable def csSens (sc : DidScore) (norm : Bool) (y d t : Fin n → ℝ) (g : Cells n) (m : Fin n → ℝ) : SensElems n :=
  let c := cells d t
  sensOf (fun i => (y i - (c.d0t0 i * g.d0t0 i + c.d0t1 i * g.d0t1 i + c.d1t0 i * g.d1t0 i + c.d1t1 i * g.d1t1 i)) ^ 2)
    (csMAlpha sc norm d t m) (csRr sc norm d t m)

/-- `_validate_sensitivity_elements` (/repo/doubleml/double_ml.py:1439-1458) for the repetitions of one
treatment: if any `nu2` is not positive, all of them are replaced. -/
noncomputable def validateSens {r : ℕ} (e : Fin r → SensElems n) : Fin r → SensElems n :=
  open Classical in
  if ∃ k, (e k).nu2 ≤ 0 then
    fun k => { e k with
               nu2 := mean fun i => (e k).rr i ^ 2
               psiNu2 := fun i => (e k).rr i ^ 2 }
  else e

/-- `_compute_sensitivity_bias` (/repo/doubleml/utils/_sensitivity.py:4-7), first component. -/
noncomputable def SensElems.maxBias (e : SensElems n) : ℝ := Real.sqrt (e.sigma2 * e.nu2)

end DML
