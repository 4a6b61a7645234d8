import Verif.LinearScoreProps
import Verif.PropensityProps

/-!
# The scores of the models (C37, C38, C41, C42, C56, C57)

Every theorem is about the estimate `(… ).coef` the models report for one treatment and repetition, given the
predictions of the learners.
-/

namespace DML

open Finset

variable {n : ℕ}

/-- Estimates without clustering as a ratio of sums. -/
theorem coef_none (e : PsiElems n) : e.coef none = - (∑ i, e.b i) / ∑ i, e.a i := by
  unfold PsiElems.coef aggObs mean
  by_cases hn : (n : ℝ) = 0
  · have : n = 0 := by exact_mod_cast hn
    subst this
    simp
  · rw [← neg_div, div_div_div_cancel_right₀ hn]

/-- Adding to `b` a multiple of `a` moves the estimate. -/
theorem coef_shift {e e' : PsiElems n} (cr : Option (ClusterRep n)) (t : ℝ) (ha : aggObs cr e.a ≠ 0)
    (h1 : e'.a = e.a) (h2 : ∀ i, e'.b i = e.b i - t * e.a i) : e'.coef cr = e.coef cr + t := by
  have h3 : aggObs cr e'.b = aggObs cr e.b + (-t) * aggObs cr e.a := by
    rw [← aggObs_mul_left, ← aggObs_add]
    congr 1
    funext i
    rw [h2]
    ring
  unfold PsiElems.coef
  rw [h1, h3]
  field_simp
  ring

theorem coef_scale {e e' : PsiElems n} (cr : Option (ClusterRep n)) (c k : ℝ)
    (h1 : ∀ i, e'.a i = k * e.a i) (h2 : ∀ i, e'.b i = c * e.b i) : e'.coef cr = c / k * e.coef cr := by
  unfold PsiElems.coef
  rw [funext h1, funext h2, aggObs_mul_left, aggObs_mul_left]
  rw [div_mul_div_comm, neg_mul_eq_mul_neg]

/-! ## C37: PLR -/

/-- The sum of squares of the regression of the outcome residuals `y - l` on the treatment residuals `d - m`. -/
def residSS (y d l m : Fin n → ℝ) (theta : ℝ) : ℝ := ∑ i, ((y i - l i) - theta * (d i - m i)) ^ 2

/-- **C37.** The partialling-out estimate is the residual-on-residual least-squares coefficient. -/
theorem C37_partialling_out_formula (y d l m : Fin n → ℝ) :
    (plrPo y d l m).coef none = (∑ i, (d i - m i) * (y i - l i)) / ∑ i, (d i - m i) ^ 2 := by
  rw [coef_none]
  simp only [plrPo, Finset.sum_neg_distrib, neg_div_neg_eq, pow_two]

/-- **C37.** ... and it is the unique minimiser of the sum of squared residuals. -/
theorem C37_least_squares (y d l m : Fin n → ℝ) (h : ∑ i, (d i - m i) ^ 2 ≠ 0) (theta : ℝ) :
    residSS y d l m ((plrPo y d l m).coef none) ≤ residSS y d l m theta ∧
    (residSS y d l m theta = residSS y d l m ((plrPo y d l m).coef none) → theta = (plrPo y d l m).coef none) := by
  set A := ∑ i, (d i - m i) ^ 2 with hA
  set B := ∑ i, (d i - m i) * (y i - l i) with hB
  set C := ∑ i, (y i - l i) ^ 2 with hC
  have hpos : 0 < A := lt_of_le_of_ne (Finset.sum_nonneg fun i _ => sq_nonneg _) (Ne.symm h)
  have key : ∀ x, residSS y d l m x = C - 2 * x * B + x ^ 2 * A := by
    intro x
    rw [hA, hB, hC, Finset.mul_sum, Finset.mul_sum, ← Finset.sum_sub_distrib, ← Finset.sum_add_distrib]
    exact Finset.sum_congr rfl fun i _ => by ring
  have hth : (plrPo y d l m).coef none = B / A := C37_partialling_out_formula y d l m
  have hdiff : residSS y d l m theta - residSS y d l m ((plrPo y d l m).coef none) = A * (theta - B / A) ^ 2 := by
    rw [key, key, hth]
    field_simp
    ring
  constructor
  · have := mul_nonneg hpos.le (sq_nonneg (theta - B / A))
    linarith
  · intro he
    rw [he, sub_self] at hdiff
    have := (mul_eq_zero.1 hdiff.symm).resolve_left h
    rw [hth]
    linarith [pow_eq_zero_iff (two_ne_zero) |>.1 this]

/-- **C37.** The IV-type estimate is the unique solution of its moment condition. -/
theorem C37_iv_moment (y d m g : Fin n → ℝ) (h : ∑ i, (d i - m i) * d i ≠ 0) (theta : ℝ) :
    ∑ i, (y i - g i - theta * d i) * (d i - m i) = 0 ↔ theta = (plrIv y d m g).coef none := by
  have ha : ∑ i, (plrIv y d m g).a i ≠ 0 := by
    simp only [plrIv, Finset.sum_neg_distrib]
    exact neg_ne_zero.2 h
  have h19 := C19_moment_condition _ ha theta
  simp only [plrIv, PsiElems.fit] at h19 ⊢
  rw [← h19]
  rw [show (fun i => (y i - g i - theta * d i) * (d i - m i)) = fun i => -((d i - m i) * d i) * theta + (d i - m i) * (y i - g i) from
    funext fun i => by ring]

/-- **C37.** Adding `tau * d` to the outcome, with an outcome learner that follows, moves the partialling-out
estimate by exactly `tau`, with or without clustering. -/
theorem C37_shift_partialling_out (y d l m : Fin n → ℝ) (tau : ℝ) (cr : Option (ClusterRep n))
    (h : aggObs cr (plrPo y d l m).a ≠ 0) :
    (plrPo (fun i => y i + tau * d i) d (fun i => l i + tau * m i) m).coef cr = (plrPo y d l m).coef cr + tau :=
  coef_shift cr tau h rfl fun i => by simp only [plrPo]; ring

/-- **C37.** ... and the IV-type estimate (whose outcome learner targets `y - theta d`, so does not change). -/
theorem C37_shift_iv_type (y d m g : Fin n → ℝ) (tau : ℝ) (cr : Option (ClusterRep n))
    (h : aggObs cr (plrIv y d m g).a ≠ 0) :
    (plrIv (fun i => y i + tau * d i) d m g).coef cr = (plrIv y d m g).coef cr + tau :=
  coef_shift cr tau h rfl fun i => by simp only [plrIv]; ring

/-- **C37.** Rescaling the outcome by `c` multiplies the estimate by `c`; rescaling the treatment by `c`
divides it by `c`. -/
theorem C37_rescale (y d l m g : Fin n → ℝ) (c : ℝ) (cr : Option (ClusterRep n)) :
    (plrPo (fun i => c * y i) d (fun i => c * l i) m).coef cr = c * (plrPo y d l m).coef cr ∧
    (plrIv (fun i => c * y i) d m (fun i => c * g i)).coef cr = c * (plrIv y d m g).coef cr ∧
    (c ≠ 0 → (plrPo y (fun i => c * d i) l (fun i => c * m i)).coef cr = (plrPo y d l m).coef cr / c) ∧
    (c ≠ 0 → (plrIv y (fun i => c * d i) (fun i => c * m i) g).coef cr = (plrIv y d m g).coef cr / c) := by
  refine ⟨?_, ?_, ?_, ?_⟩
  · rw [coef_scale (e := plrPo y d l m) cr c 1 (fun i => by simp [plrPo]) (fun i => by simp only [plrPo]; ring)]
    simp
  · rw [coef_scale (e := plrIv y d m g) cr c 1 (fun i => by simp [plrIv]) (fun i => by simp only [plrIv]; ring)]
    simp
  · intro hc
    rw [coef_scale (e := plrPo y d l m) cr c (c * c) (fun i => by simp only [plrPo]; ring) (fun i => by simp only [plrPo]; ring)]
    field_simp
  · intro hc
    rw [coef_scale (e := plrIv y d m g) cr c (c * c) (fun i => by simp only [plrIv]; ring) (fun i => by simp only [plrIv]; ring)]
    field_simp

/-- **C37.** Adding a constant (or anything the learner reproduces) to the outcome does not matter. -/
theorem C37_location (y d l m a : Fin n → ℝ) (cr : Option (ClusterRep n)) :
    (plrPo (fun i => y i + a i) d (fun i => l i + a i) m).coef cr = (plrPo y d l m).coef cr := by
  have : plrPo (fun i => y i + a i) d (fun i => l i + a i) m = plrPo y d l m := by
    unfold plrPo
    congr 1
    funext i
    ring
  rw [this]

/-- **C37 (Neyman orthogonality, exact expansion).** Moving the nuisances `l`, `m` along any directions `h`, `k`
changes the average partialling-out score by a term linear in `e` that involves only products of directions with
residuals, plus a second-order term. -/
theorem C37_expansion (y d l m h k : Fin n → ℝ) (theta e : ℝ) :
    (mean fun i => (plrPo y d (fun i => l i + e * h i) (fun i => m i + e * k i)).score theta i) =
      (mean fun i => (plrPo y d l m).score theta i)
      - e * ((mean fun i => (y i - l i - theta * (d i - m i)) * k i) + mean fun i => (d i - m i) * (h i - theta * k i))
      + e ^ 2 * mean fun i => (h i - theta * k i) * k i := by
  simp only [← mean_mul_left, ← mean_add, ← mean_sub]
  congr 1
  funext i
  simp only [PsiElems.score, plrPo]
  ring

/-- **C37 (Neyman orthogonality).** If the residuals are empirically orthogonal to the directions, nuisance errors
of size `e` change the score only by order `e²`. -/
theorem C37_orthogonal (y d l m h k : Fin n → ℝ) (theta e : ℝ)
    (h1 : ∑ i, (y i - l i - theta * (d i - m i)) * k i = 0) (h2 : ∑ i, (d i - m i) * (h i - theta * k i) = 0) :
    (mean fun i => (plrPo y d (fun i => l i + e * h i) (fun i => m i + e * k i)).score theta i) =
      (mean fun i => (plrPo y d l m).score theta i) + e ^ 2 * mean fun i => (h i - theta * k i) * k i := by
  rw [C37_expansion]
  have e1 : (mean fun i => (y i - l i - theta * (d i - m i)) * k i) = 0 := by unfold mean; rw [h1, zero_div]
  have e2 : (mean fun i => (d i - m i) * (h i - theta * k i)) = 0 := by unfold mean; rw [h2, zero_div]
  rw [e1, e2]
  ring

/-- **C37.** The IV-type score's preliminary estimate is the partialling-out estimate. -/
theorem C37_initial (y d l m : Fin n → ℝ) : plrInitial y d l m = (plrPo y d l m).coef none := rfl

example : ∑ i, ((![1, 0] : Fin 2 → ℝ) i - 1 / 2) ^ 2 ≠ 0 := by
  rw [Fin.sum_univ_two]; simp; norm_num

example : (plrPo (![3, 1] : Fin 2 → ℝ) ![1, 0] (fun _ => 2) (fun _ => 1 / 2)).coef none = 2 := by
  rw [C37_partialling_out_formula, Fin.sum_univ_two, Fin.sum_univ_two]
  simp
  norm_num

example : ∃ (y d l m h k : Fin 2 → ℝ), (∑ i, (y i - l i - 2 * (d i - m i)) * k i = 0) ∧
    (∑ i, (d i - m i) * (h i - 2 * k i) = 0) ∧ k ≠ 0 :=
  ⟨![3, 1], ![1, 0], fun _ => 2, fun _ => 1 / 2, fun _ => 1, fun _ => 1, by rw [Fin.sum_univ_two]; simp; norm_num,
    by rw [Fin.sum_univ_two]; simp; norm_num, fun h => by simpa using congrFun h 0⟩

/-! ## C38: IRM and APO -/

theorem mean_irm_a (w : Fin n → ℝ) (hw : mean w ≠ 0) : (mean fun i => -1 * (w i / mean w)) = -1 := by
  rw [mean_mul_left, mean_div_right, div_self hw, mul_one]

theorem irm_coef (y d g0 g1 m w wb : Fin n → ℝ) (hw : mean w ≠ 0) :
    (irmElems y d g0 g1 m w wb).coef none = mean (irmElems y d g0 g1 m w wb).b := by
  unfold PsiElems.coef aggObs
  simp only [irmElems]
  rw [mean_irm_a w hw]
  simp

theorem apo_coef (nrm : Bool) (y t g m w wb : Fin n → ℝ) (hw : mean w ≠ 0) :
    (apoElems nrm y t g m w wb).coef none = mean (apoElems nrm y t g m w wb).b := by
  unfold PsiElems.coef aggObs
  simp only [apoElems]
  rw [mean_irm_a w hw]
  simp

theorem adjust_complement (nrm : Bool) (m d : Fin n → ℝ) (i : Fin n) :
    adjust nrm (fun i => 1 - m i) (fun i => 1 - d i) i = 1 - adjust nrm m d i := by
  cases nrm
  · rfl
  · exact C40_complement m d i

/-- **C38.** The ATE score is, observation by observation, the APO score of level 1 minus the APO score of level
0 (with propensity `1 - m`), for all weights, with and without IPW normalisation. -/
theorem C38_ate_is_apo_contrast (nrm : Bool) (y d g0 g1 m w wb : Fin n → ℝ) (i : Fin n) :
    (irmAte nrm y d g0 g1 m w wb).b i = (apoElems nrm y d g1 m w wb).b i -
      (apoElems nrm y (fun i => 1 - d i) g0 (fun i => 1 - m i) w wb).b i ∧
    (irmAte nrm y d g0 g1 m w wb).a i = (apoElems nrm y d g1 m w wb).a i := by
  refine ⟨?_, rfl⟩
  simp only [irmAte, irmElems, apoElems, adjust_complement]
  ring

/-- **C38.** Hence the ATE estimate is the difference of the two average potential outcome estimates. -/
theorem C38_ate_estimate (nrm : Bool) (y d g0 g1 m w wb : Fin n → ℝ) (cr : Option (ClusterRep n)) :
    (irmAte nrm y d g0 g1 m w wb).coef cr = (apoElems nrm y d g1 m w wb).coef cr -
      (apoElems nrm y (fun i => 1 - d i) g0 (fun i => 1 - m i) w wb).coef cr := by
  have h1 : aggObs cr (irmAte nrm y d g0 g1 m w wb).b = aggObs cr (apoElems nrm y d g1 m w wb).b +
      (-1) * aggObs cr (apoElems nrm y (fun i => 1 - d i) g0 (fun i => 1 - m i) w wb).b := by
    rw [← aggObs_mul_left, ← aggObs_add]
    congr 1
    funext i
    rw [(C38_ate_is_apo_contrast nrm y d g0 g1 m w wb i).1]
    ring
  unfold PsiElems.coef
  rw [h1]
  have h2 : (irmAte nrm y d g0 g1 m w wb).a = (apoElems nrm y d g1 m w wb).a := rfl
  have h3 : (apoElems nrm y (fun i => 1 - d i) g0 (fun i => 1 - m i) w wb).a = (apoElems nrm y d g1 m w wb).a := rfl
  rw [h2, h3]
  ring

/-- **C38.** The estimate is the average of the pseudo outcomes. -/
theorem C38_pseudo_outcomes (nrm : Bool) (y d g0 g1 m w wb : Fin n → ℝ) (hw : mean w ≠ 0) :
    (irmAte nrm y d g0 g1 m w wb).coef none = mean fun i => w i * (g1 i - g0 i) +
      wb i * (d i * (y i - g1 i) / adjust nrm m d i - (1 - d i) * (y i - g0 i) / (1 - adjust nrm m d i)) :=
  irm_coef _ _ _ _ _ _ _ hw

/-- **C38.** If the outcome regressions are exact the propensities do not matter, and the estimate is the weighted
average of the predicted effects. -/
theorem C38_exact_outcome_model (nrm : Bool) (y d g0 g1 m w wb : Fin n → ℝ) (hw : mean w ≠ 0) (hd : Binary d)
    (hy : ∀ i, y i = if d i = 1 then g1 i else g0 i) :
    (irmAte nrm y d g0 g1 m w wb).coef none = mean fun i => w i * (g1 i - g0 i) := by
  rw [C38_pseudo_outcomes _ _ _ _ _ _ _ _ hw]
  congr 1
  funext i
  rw [hy]
  rcases hd i with h | h
  · rw [h]; simp
  · rw [h]; simp

/-- **C38.** Double robustness, the other half: if the (reweighted) propensities balance the errors `h1`, `h0` of
the outcome regressions, these errors do not matter. -/
theorem C38_exact_propensity (nrm : Bool) (y d g0 g1 m w wb h0 h1 : Fin n → ℝ) (hw : mean w ≠ 0)
    (b1 : ∑ i, (w i - wb i * d i / adjust nrm m d i) * h1 i = 0)
    (b0 : ∑ i, (w i - wb i * (1 - d i) / (1 - adjust nrm m d i)) * h0 i = 0) :
    (irmAte nrm y d (fun i => g0 i + h0 i) (fun i => g1 i + h1 i) m w wb).coef none =
      (irmAte nrm y d g0 g1 m w wb).coef none := by
  rw [C38_pseudo_outcomes _ _ _ _ _ _ _ _ hw, C38_pseudo_outcomes _ _ _ _ _ _ _ _ hw]
  unfold mean
  congr 1
  have : ∀ i, w i * (g1 i + h1 i - (g0 i + h0 i)) + wb i * (d i * (y i - (g1 i + h1 i)) / adjust nrm m d i -
        (1 - d i) * (y i - (g0 i + h0 i)) / (1 - adjust nrm m d i)) =
      (w i * (g1 i - g0 i) + wb i * (d i * (y i - g1 i) / adjust nrm m d i -
        (1 - d i) * (y i - g0 i) / (1 - adjust nrm m d i))) +
      ((w i - wb i * d i / adjust nrm m d i) * h1 i - (w i - wb i * (1 - d i) / (1 - adjust nrm m d i)) * h0 i) := by
    intro i
    ring
  rw [Finset.sum_congr rfl fun i _ => this i, Finset.sum_add_distrib, Finset.sum_sub_distrib, b1, b0]
  ring

/-- **C38.** Scaling the weights scales the estimate. -/
theorem C38_scale_weights (nrm : Bool) (y d g0 g1 m w wb : Fin n → ℝ) (c : ℝ) (hc : c ≠ 0) (cr : Option (ClusterRep n)) :
    (irmAte nrm y d g0 g1 m (fun i => c * w i) (fun i => c * wb i)).coef cr = c * (irmAte nrm y d g0 g1 m w wb).coef cr ∧
    (apoElems nrm y d g1 m (fun i => c * w i) (fun i => c * wb i)).coef cr = c * (apoElems nrm y d g1 m w wb).coef cr := by
  have h : ∀ i, -1 * (c * w i / mean fun i => c * w i) = 1 * (-1 * (w i / mean w)) := by
    intro i
    rw [mean_mul_left, mul_div_mul_left _ _ hc, one_mul]
  constructor
  · rw [coef_scale (e := irmAte nrm y d g0 g1 m w wb) cr c 1 h (fun i => by simp only [irmAte, irmElems]; ring), div_one]
  · rw [coef_scale (e := apoElems nrm y d g1 m w wb) cr c 1 h (fun i => by simp only [apoElems]; ring), div_one]

/-- **C38.** The ATTE score is the ATE score with weights `d / mean(d)` and `m / mean(d)`. -/
theorem C38_atte_is_weighted_ate (nrm : Bool) (y d g0 g1 m : Fin n → ℝ) :
    irmAtte nrm y d g0 g1 m (fun _ => 1) =
      irmAte nrm y d g0 g1 m (fun i => d i / mean d) fun i => adjust nrm m d i / mean d := by
  simp only [irmAtte, irmAte, atteWeights, one_mul, mul_one]

/-- **C38.** The classical form of the ATTE estimate: only the regression for the controls matters. -/
theorem C38_atte_formula (nrm : Bool) (y d g0 g1 m : Fin n → ℝ) (hd : Binary d) (hm : ∀ i, adjust nrm m d i ≠ 0)
    (hp : mean d ≠ 0) :
    (irmAtte nrm y d g0 g1 m fun _ => 1).coef none =
      (mean fun i => d i * (y i - g0 i) - (1 - d i) * (adjust nrm m d i / (1 - adjust nrm m d i)) * (y i - g0 i)) / mean d := by
  rw [C38_atte_is_weighted_ate, C38_pseudo_outcomes _ _ _ _ _ _ _ _ (by rw [mean_div_right, div_self hp]; exact one_ne_zero),
    ← mean_div_right]
  congr 1
  funext i
  have := hm i
  rcases hd i with h | h
  · rw [h]; field_simp; ring
  · rw [h]; field_simp; ring

example : mean (fun _ : Fin 2 => (1 : ℝ)) ≠ 0 := by rw [mean_const (by norm_num)]; exact one_ne_zero

/-! ## C41: IIVM -/

/-- **C41.** The LATE estimate is the ratio of the doubly robust effects of the instrument on the outcome and on
the treatment. -/
theorem C41_wald (y z d g0 g1 m r0 r1 : Fin n → ℝ) (hn : 0 < n) :
    (iivmElems false y z d g0 g1 m r0 r1).coef none =
      (irmAte false y z g0 g1 m (fun _ => 1) fun _ => 1).coef none /
      (irmAte false d z r0 r1 m (fun _ => 1) fun _ => 1).coef none := by
  have h1 : mean (fun _ : Fin n => (1 : ℝ)) ≠ 0 := by rw [mean_const hn]; exact one_ne_zero
  rw [C38_pseudo_outcomes _ _ _ _ _ _ _ _ h1, C38_pseudo_outcomes _ _ _ _ _ _ _ _ h1]
  unfold PsiElems.coef aggObs
  simp only [iivmElems, adjust, Bool.false_eq_true, if_false, one_mul]
  rw [mean_mul_left, neg_one_mul, neg_div_neg_eq]
  simp only [add_sub_assoc]

/-- **C41.** Full compliance: with `d = z` and `r0 = 0`, `r1 = 1` (what the model uses without always- and never-takers)
the estimate is the average treatment effect of the instrument, with and without normalisation. -/
theorem C41_full_compliance (nrm : Bool) (y z g0 g1 m : Fin n → ℝ) (hn : 0 < n) (hz : Binary z) :
    (iivmElems nrm y z z g0 g1 m (fun _ => 0) fun _ => 1).coef none =
      (irmAte nrm y z g0 g1 m (fun _ => 1) fun _ => 1).coef none := by
  have h1 : mean (fun _ : Fin n => (1 : ℝ)) ≠ 0 := by rw [mean_const hn]; exact one_ne_zero
  rw [C38_pseudo_outcomes _ _ _ _ _ _ _ _ h1]
  unfold PsiElems.coef aggObs
  have ha : (iivmElems nrm y z z g0 g1 m (fun _ => 0) fun _ => 1).a = fun _ => -1 := by
    funext i
    simp only [iivmElems]
    rcases hz i with h | h <;> rw [h] <;> simp
  rw [ha, mean_const hn]
  simp only [iivmElems, adjust, one_mul, neg_div_neg_eq, div_one, add_sub_assoc]

/-- **C41.** Without always-takers `r0` is identically 0 and without never-takers `r1` is identically 1, whether or
not external predictions are passed. -/
theorem C41_subgroups (ext : Option (Fin n → ℝ)) (est : Fin n → ℝ) (i : Fin n) :
    iivmR0 false ext est i = 0 ∧ iivmR1 false ext est i = 1 := ⟨rfl, rfl⟩

/-- **C41.** Recoding the instrument (`1 - z`, exchanged regressions, complementary propensity) does not change the
estimate (without normalisation of the weights). -/
theorem C41_recode_instrument (nrm : Bool) (y z d g0 g1 m r0 r1 : Fin n → ℝ) (hnrm : nrm = false)
    (cr : Option (ClusterRep n)) :
    (iivmElems nrm y (fun i => 1 - z i) d g1 g0 (fun i => 1 - m i) r1 r0).coef cr =
      (iivmElems nrm y z d g0 g1 m r0 r1).coef cr := by
  subst hnrm
  rw [coef_scale (e := iivmElems false y z d g0 g1 m r0 r1) cr (-1) (-1)]
  · norm_num
  · intro i
    simp only [iivmElems, Bool.false_eq_true, if_false, sub_sub_cancel]
    ring
  · intro i
    simp only [iivmElems, Bool.false_eq_true, if_false, sub_sub_cancel]
    ring

/-! ## C56: PLIV -/

/-- **C56.** With `z = d` and equal predictions PLIV is PLR, for both scores. -/
theorem C56_plr (y d l m g : Fin n → ℝ) :
    plivPo y d d l m m = plrPo y d l m ∧ plivIv y d d m g = plrIv y d m g := ⟨rfl, rfl⟩

/-- **C56.** The estimate solves `sum (z - m) (y - l - theta (d - r)) = 0`. -/
theorem C56_moment (y z d l m r : Fin n → ℝ) (h : ∑ i, (d i - r i) * (z i - m i) ≠ 0) (theta : ℝ) :
    ∑ i, (z i - m i) * (y i - l i - theta * (d i - r i)) = 0 ↔ theta = (plivPo y z d l m r).coef none := by
  have ha : ∑ i, (plivPo y z d l m r).a i ≠ 0 := by
    simp only [plivPo, Finset.sum_neg_distrib]
    exact neg_ne_zero.2 h
  have h19 := C19_moment_condition _ ha theta
  simp only [plivPo, PsiElems.fit] at h19 ⊢
  rw [← h19]
  rw [show (fun i => (z i - m i) * (y i - l i - theta * (d i - r i))) =
    fun i => -((d i - r i) * (z i - m i)) * theta + (z i - m i) * (y i - l i) from funext fun i => by ring]

/-- **C56.** Rescaling the instrument does not change the estimate, for both scores. -/
theorem C56_rescale_instrument (y z d l m r g : Fin n → ℝ) (c : ℝ) (hc : c ≠ 0) (cr : Option (ClusterRep n)) :
    (plivPo y (fun i => c * z i) d l (fun i => c * m i) r).coef cr = (plivPo y z d l m r).coef cr ∧
    (plivIv y (fun i => c * z i) d (fun i => c * m i) g).coef cr = (plivIv y z d m g).coef cr := by
  constructor
  · rw [coef_scale (e := plivPo y z d l m r) cr c c (fun i => by simp only [plivPo]; ring) (fun i => by simp only [plivPo]; ring),
      div_self hc, one_mul]
  · rw [coef_scale (e := plivIv y z d m g) cr c c (fun i => by simp only [plivIv]; ring) (fun i => by simp only [plivIv]; ring),
      div_self hc, one_mul]

/-- **C56.** Adding `tau * d` to the outcome moves the estimate by `tau`. -/
theorem C56_shift (y z d l m r : Fin n → ℝ) (tau : ℝ) (cr : Option (ClusterRep n))
    (h : aggObs cr (plivPo y z d l m r).a ≠ 0) :
    (plivPo (fun i => y i + tau * d i) z d (fun i => l i + tau * r i) m r).coef cr = (plivPo y z d l m r).coef cr + tau :=
  coef_shift cr tau h rfl fun i => by simp only [plivPo]; ring

/-- The normal equations of a least-squares projection with intercept: the projection is an affine function of
the regressors and the residual is orthogonal to the constant and to every regressor. -/
def IsProjection {k : ℕ} (v : Fin n → Fin k → ℝ) (w p : Fin n → ℝ) : Prop :=
  (∃ (a : ℝ) (b : Fin k → ℝ), ∀ i, p i = a + ∑ j, b j * v i j) ∧
  ∑ i, (w i - p i) = 0 ∧ ∀ j, ∑ i, (w i - p i) * v i j = 0

theorem IsProjection.orthogonal {k : ℕ} {v : Fin n → Fin k → ℝ} {w p : Fin n → ℝ} (h : IsProjection v w p) :
    ∑ i, w i * p i = ∑ i, p i ^ 2 := by
  obtain ⟨⟨a, b, hp⟩, h0, hj⟩ := h
  have : ∑ i, (w i - p i) * p i = 0 := by
    have e : ∀ i, (w i - p i) * p i = a * (w i - p i) + ∑ j, b j * ((w i - p i) * v i j) := by
      intro i
      have e' : (w i - p i) * p i = (w i - p i) * (a + ∑ j, b j * v i j) := congrArg _ (hp i)
      rw [e', mul_add, Finset.mul_sum]
      congr 1
      · ring
      · exact Finset.sum_congr rfl fun j _ => by ring
    rw [Finset.sum_congr rfl fun i _ => e i, Finset.sum_add_distrib, ← Finset.mul_sum, h0, mul_zero, zero_add,
      Finset.sum_comm]
    refine Finset.sum_eq_zero fun j _ => ?_
    rw [← Finset.mul_sum, hj j, mul_zero]
  have e2 : ∑ i, (w i - p i) * p i = ∑ i, w i * p i - ∑ i, p i ^ 2 := by
    rw [← Finset.sum_sub_distrib]
    exact Finset.sum_congr rfl fun i _ => by ring
  linarith

/-- **C56.** Several instruments: the estimate is two-stage least squares on the residuals, i.e. the regression of
`y - l` on the projection of `d - r` on the instrument residuals. -/
theorem C56_two_stage {k : ℕ} (proj : (Fin n → Fin k → ℝ) → (Fin n → ℝ) → Fin n → ℝ)
    (y d l r : Fin n → ℝ) (z m : Fin n → Fin k → ℝ)
    (hp : IsProjection (fun i j => z i j - m i j) (fun i => d i - r i) (proj (fun i j => z i j - m i j) fun i => d i - r i)) :
    (plivMulti proj y d l r z m).coef none =
      (∑ i, proj (fun i j => z i j - m i j) (fun i => d i - r i) i * (y i - l i)) /
      ∑ i, proj (fun i j => z i j - m i j) (fun i => d i - r i) i ^ 2 := by
  rw [coef_none]
  simp only [plivMulti, Finset.sum_neg_distrib]
  rw [neg_div_neg_eq, hp.orthogonal]

/-- **C56.** With a single instrument whose first stage has no intercept (the projection of the treatment residuals is a
nonzero multiple of the instrument residuals), the several-instrument estimate is the one-instrument estimate. -/
theorem C56_single_instrument (proj : (Fin n → Fin 1 → ℝ) → (Fin n → ℝ) → Fin n → ℝ)
    (y d l r z m : Fin n → ℝ) (b : ℝ) (hb : b ≠ 0)
    (hp : ∀ i, proj (fun i _ => z i - m i) (fun i => d i - r i) i = b * (z i - m i)) (cr : Option (ClusterRep n)) :
    (plivMulti proj y d l r (fun i _ => z i) (fun i _ => m i)).coef cr = (plivPo y z d l m r).coef cr := by
  rw [coef_scale (e := plivPo y z d l m r) cr b b]
  · rw [div_self hb, one_mul]
  · intro i
    simp only [plivMulti, plivPo, hp]
    ring
  · intro i
    simp only [plivMulti, plivPo, hp]
    ring

/-- **C56.** `partialXZ` is partialling out with the predicted instrument `m - mt`. -/
theorem C56_partialXZ (y d l m mt : Fin n → ℝ) : plivXZ y d l m mt = plivPo y m d l mt mt := rfl

example : IsProjection (fun i (_ : Fin 1) => (![1, -1] : Fin 2 → ℝ) i) ![3, 1] ![3, 1] := by
  refine ⟨⟨2, fun _ => 1, fun i => ?_⟩, by simp, fun j => by simp⟩
  match i with
  | 0 => simp; norm_num
  | 1 => simp; norm_num

/-! ## C57: sample selection -/

/-- **C57.** Outcomes of unselected observations do not influence the score. -/
theorem C57_unselected_irrelevant (nrm : Bool) (dt dc g1 g0 pi m s y y' : Fin n → ℝ)
    (h : ∀ i, s i ≠ 0 → y i = y' i) : ssmElems nrm dt dc g1 g0 pi m s y = ssmElems nrm dt dc g1 g0 pi m s y' := by
  simp only [ssmElems, PsiElems.mk.injEq, true_and]
  funext i
  by_cases hs : s i = 0
  · simp only [hs]; simp
  · rw [h i hs]

/-- **C57.** With full selection and `pi = 1` the score is the IRM ATE score. -/
theorem C57_full_selection (d g1 g0 m y : Fin n → ℝ) (hn : 0 < n) :
    ssmElems false d (fun i => 1 - d i) g1 g0 (fun _ => 1) m (fun _ => 1) y =
      irmAte false y d g0 g1 m (fun _ => 1) fun _ => 1 := by
  unfold ssmElems irmAte irmElems adjust
  rw [mean_const hn]
  simp only [Bool.false_eq_true, if_false, mul_one, one_mul, div_one]
  congr 1
  funext i
  ring

/-- **C57.** If the outcome predictions are exact for the selected, propensities and selection probabilities do not
matter, with and without normalisation. -/
theorem C57_exact_outcome_model (nrm : Bool) (dt dc g1 g0 pi m s y : Fin n → ℝ) (hn : 0 < n)
    (h1 : ∀ i, dt i * s i * (y i - g1 i) = 0) (h0 : ∀ i, dc i * s i * (y i - g0 i) = 0) :
    (ssmElems nrm dt dc g1 g0 pi m s y).coef none = mean fun i => g1 i - g0 i := by
  unfold PsiElems.coef aggObs
  simp only [ssmElems, h1, h0, zero_div, mul_zero, zero_add]
  rw [mean_const hn]
  simp

example : ∃ (s y y' : Fin 2 → ℝ), (∀ i, s i ≠ 0 → y i = y' i) ∧ y ≠ y' :=
  ⟨![1, 0], ![1, 2], ![1, 3], fun i => match i with | 0 => fun _ => rfl | 1 => fun h => absurd rfl h,
    fun h => by have := congrFun h 1; norm_num at this⟩

end DML
