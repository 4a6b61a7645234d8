import Verif.NonlinearProps
import Verif.ScoreProps

/-!
# Conditional value at risk (C66)
-/

namespace DML

open Finset

variable {n : ℕ}

/-- The CVaR estimate of a sample without clusters (/repo/doubleml/irm/cvar.py:191-199). -/
noncomputable def cvarCoef (treatment q pq : ℝ) (y d g m : Fin n → ℝ) : ℝ := (cvarElems treatment q pq y d g m).coef none

theorem cvarCoef_eq (hn : 0 < n) (treatment q pq : ℝ) (y d g m : Fin n → ℝ) :
    cvarCoef treatment q pq y d g m =
      mean fun i => indEq (d i) treatment * (cvarTarget q pq (y i) - g i) / m i + g i := by
  have h : mean (fun _ : Fin n => (-1 : ℝ)) = -1 := mean_const hn _
  simp only [cvarCoef, PsiElems.coef, aggObs, cvarElems, h]
  rw [neg_div_neg_eq, div_one]

/-- **C66 (what is averaged).** The adjusted outcome is the preliminary quantile plus the shortfall above it, scaled by
`1 / (1 - q)`: the expression whose mean is the conditional value at risk. -/
theorem C66_target {q : ℝ} (h1 : q < 1) (pq y : ℝ) : cvarTarget q pq y = pq + max (y - pq) 0 / (1 - q) := by
  have h : 0 < 1 - q := by linarith
  have e : (y - q * pq) / (1 - q) = pq + (y - pq) / (1 - q) := by
    field_simp
    ring
  rw [cvarTarget, e]
  rcases le_total pq y with hy | hy
  · rw [max_eq_left (show 0 ≤ y - pq by linarith), max_eq_right]
    have : 0 ≤ (y - pq) / (1 - q) := div_nonneg (by linarith) h.le
    linarith
  · rw [max_eq_right (show y - pq ≤ 0 by linarith), max_eq_left]
    · simp
    · have : (y - pq) / (1 - q) ≤ 0 := div_nonpos_of_nonpos_of_nonneg (by linarith) h.le
      linarith

/-- **C66 (equivariance).** Measuring the outcome in other units, `c * y + a` with `c > 0` (preliminary quantile and
predictions follow), changes the estimate accordingly. -/
theorem C66_equivariant (hn : 0 < n) {q : ℝ} (h1 : q < 1) (treatment pq : ℝ) (y d g m : Fin n → ℝ) {c : ℝ} (hc : 0 < c)
    (a : ℝ) :
    cvarCoef treatment q (c * pq + a) (fun i => c * y i + a) d (fun i => c * g i + a) m =
      c * cvarCoef treatment q pq y d g m + a := by
  have ht : ∀ y, cvarTarget q (c * pq + a) (c * y + a) = c * cvarTarget q pq y + a := by
    intro y
    rw [C66_target h1, C66_target h1]
    have : max (c * y + a - (c * pq + a)) 0 = c * max (y - pq) 0 := by
      rw [mul_max_of_nonneg _ _ hc.le, mul_zero]
      congr 1
      ring
    rw [this]
    ring
  rw [cvarCoef_eq hn, cvarCoef_eq hn, ← mean_mul_left, ← mean_const hn a, ← mean_add]
  rw [mean_const hn a]
  congr 1
  funext i
  rw [ht]
  ring

/-- **C66 (monotonicity).** Larger outcomes give a larger estimate: the estimate is non-decreasing in every outcome, for
positive propensities. -/
theorem C66_monotone (hn : 0 < n) {q : ℝ} (h1 : q < 1) (treatment pq : ℝ) (y y' d g m : Fin n → ℝ) (hm : ∀ i, 0 < m i)
    (hy : ∀ i, y i ≤ y' i) : cvarCoef treatment q pq y d g m ≤ cvarCoef treatment q pq y' d g m := by
  rw [cvarCoef_eq hn, cvarCoef_eq hn]
  refine mean_mono fun i => ?_
  have hT : cvarTarget q pq (y i) ≤ cvarTarget q pq (y' i) := by
    rw [C66_target h1, C66_target h1]
    have h : 0 < 1 - q := by linarith
    have := max_le_max_right (0 : ℝ) (show y i - pq ≤ y' i - pq by linarith [hy i])
    have := div_le_div_of_nonneg_right this h.le
    linarith
  have hind : 0 ≤ indEq (d i) treatment := by unfold indEq; split_ifs <;> norm_num
  have := div_le_div_of_nonneg_right (mul_le_mul_of_nonneg_left (sub_le_sub_right hT (g i)) hind) (hm i).le
  linarith

/-- **C66 (double robustness).** If the regression is exact for the observations with the treatment level, the estimate is
the mean of its predictions, whatever the propensities are; if the inverse propensity weights balance the predictions,
it is the weighted mean of the adjusted outcomes, whatever the predictions are. -/
theorem C66_doubly_robust (hn : 0 < n) (treatment q pq : ℝ) (y d g m : Fin n → ℝ) :
    ((∀ i, d i = treatment → g i = cvarTarget q pq (y i)) → cvarCoef treatment q pq y d g m = mean g) ∧
    ((mean fun i => indEq (d i) treatment * g i / m i) = mean g →
      cvarCoef treatment q pq y d g m = mean fun i => indEq (d i) treatment * cvarTarget q pq (y i) / m i) := by
  rw [cvarCoef_eq hn]
  constructor
  · intro h
    congr 1
    funext i
    unfold indEq
    split_ifs with hd
    · rw [h i hd]; simp
    · simp
  · intro h
    have : (fun i => indEq (d i) treatment * (cvarTarget q pq (y i) - g i) / m i + g i) =
        fun i => (indEq (d i) treatment * cvarTarget q pq (y i) / m i - indEq (d i) treatment * g i / m i) + g i := by
      funext i; ring
    rw [this, mean_add, mean_sub, h]
    ring

/-- **C66 (choice of the quantile).** Among all preliminary quantiles, a weighted `q`-quantile (where the inverse
propensity moment changes sign) gives the smallest estimate, if the inverse propensity weights average to one (as they do
after normalisation) and the predictions are held fixed: an error in the preliminary quantile can only increase the
estimate. -/
theorem C66_minimal (hn : 0 < n) {q : ℝ} (h1 : q < 1) (treatment : ℝ) (y d g m : Fin n → ℝ) (hm : ∀ i, 0 < m i)
    (hw : (mean fun i => indEq (d i) treatment / m i) = 1) {t : ℝ}
    (ht : 0 ≤ ipwMoment treatment q d y m t) (ht' : ∀ s < t, ipwMoment treatment q d y m s ≤ 0) (s : ℝ) :
    cvarCoef treatment q t y d g m ≤ cvarCoef treatment q s y d g m := by
  have hq : 0 < 1 - q := by linarith
  set w : Fin n → ℝ := fun i => indEq (d i) treatment / m i with hwdef
  have hw0 : ∀ i, 0 ≤ w i := by
    intro i
    have := hm i
    simp only [hwdef, indEq]
    split_ifs <;> positivity
  have hc : ∀ t, cvarCoef treatment q t y d g m =
      (mean fun i => w i * (t + max (y i - t) 0 / (1 - q))) + mean fun i => (1 - w i) * g i := by
    intro t
    rw [cvarCoef_eq hn, ← mean_add]
    congr 1
    funext i
    rw [C66_target h1]
    simp only [hwdef]
    ring
  have hmom : ∀ t, ipwMoment treatment q d y m t = (mean fun i => w i * indLe (y i) t) - q := by
    intro t
    rw [ipwMoment_eq hn]
    simp only [stepMoment, hwdef]
    ring
  rw [hc, hc]
  refine add_le_add_left ?_ _
  -- both sides as t + (mean of the weighted shortfall) / (1 - q)
  have hlin : ∀ t, (mean fun i => w i * (t + max (y i - t) 0 / (1 - q))) =
      t + (mean fun i => w i * max (y i - t) 0) / (1 - q) := by
    intro t
    have : (fun i => w i * (t + max (y i - t) 0 / (1 - q))) =
        fun i => t * w i + (1 - q)⁻¹ * (w i * max (y i - t) 0) := by
      funext i; rw [div_eq_mul_inv]; ring
    rw [this, mean_add, mean_mul_left, mean_mul_left, hw]
    rw [div_eq_mul_inv]
    ring
  rw [hlin, hlin]
  rcases le_total t s with hts | hst
  · -- going up: the shortfall falls by at most (s - t) times the weight above t
    have h2 : (mean fun i => w i * max (y i - t) 0) ≤
        (mean fun i => w i * max (y i - s) 0) + (s - t) * (1 - mean fun i => w i * indLe (y i) t) := by
      rw [← hw, ← mean_sub, ← mean_mul_left, ← mean_add]
      refine mean_mono fun i => ?_
      unfold indLe
      have := hw0 i
      split_ifs with hy
      · rw [max_eq_right (by linarith : y i - t ≤ 0), max_eq_right (by linarith : y i - s ≤ 0)]
        simp
      · rw [max_eq_left (by linarith : 0 ≤ y i - t)]
        have : y i - t ≤ max (y i - s) 0 + (s - t) := by linarith [le_max_left (y i - s) 0]
        nlinarith
    have h3 : (1 - mean fun i => w i * indLe (y i) t) ≤ 1 - q := by
      have := hmom t
      linarith
    have h4 : (s - t) * (1 - mean fun i => w i * indLe (y i) t) ≤ (s - t) * (1 - q) :=
      mul_le_mul_of_nonneg_left h3 (by linarith)
    have h5 : (mean fun i => w i * max (y i - t) 0) / (1 - q) ≤ (mean fun i => w i * max (y i - s) 0) / (1 - q) + (s - t) := by
      rw [div_add' _ _ _ hq.ne']
      exact div_le_div_of_nonneg_right (by linarith) hq.le
    linarith
  · rcases hst.eq_or_lt with rfl | hst'
    · exact le_refl _
    -- going down: choose a point between that separates the outcomes below t
    have hsep : ∃ u, s ≤ u ∧ u < t ∧ ∀ i, y i < t → y i ≤ u := by
      by_cases hne : (univ.filter fun i => y i < t).Nonempty
      · obtain ⟨j, hj, hmax⟩ := Finset.exists_max_image _ y hne
        refine ⟨max s (y j), le_max_left _ _, max_lt hst' (Finset.mem_filter.1 hj).2, fun i hi => ?_⟩
        exact (hmax i (Finset.mem_filter.2 ⟨mem_univ i, hi⟩)).trans (le_max_right _ _)
      · refine ⟨s, le_refl _, hst', fun i hi => ?_⟩
        exact absurd ⟨i, Finset.mem_filter.2 ⟨mem_univ i, hi⟩⟩ hne
    obtain ⟨u, hsu, hut, hu⟩ := hsep
    have h2 : (mean fun i => w i * max (y i - t) 0) + (t - s) * (1 - mean fun i => w i * indLe (y i) u) ≤
        mean fun i => w i * max (y i - s) 0 := by
      rw [← hw, ← mean_sub, ← mean_mul_left, ← mean_add]
      refine mean_mono fun i => ?_
      unfold indLe
      have := hw0 i
      split_ifs with hy
      · rw [max_eq_right (by linarith : y i - t ≤ 0)]
        have := mul_nonneg (hw0 i) (le_max_right (y i - s) 0)
        linarith
      · have hty : t ≤ y i := by
          by_contra hlt
          exact hy (hu i (not_le.1 hlt))
        rw [max_eq_left (by linarith : 0 ≤ y i - t), max_eq_left (by linarith : 0 ≤ y i - s)]
        nlinarith
    have h3 : 1 - q ≤ (1 - mean fun i => w i * indLe (y i) u) := by
      have := hmom u
      have := ht' u hut
      linarith
    have h4 : (t - s) * (1 - q) ≤ (t - s) * (1 - mean fun i => w i * indLe (y i) u) :=
      mul_le_mul_of_nonneg_left h3 (by linarith)
    have h5 : (mean fun i => w i * max (y i - t) 0) / (1 - q) + (t - s) ≤ (mean fun i => w i * max (y i - s) 0) / (1 - q) := by
      rw [div_add' _ _ _ hq.ne']
      exact div_le_div_of_nonneg_right (by linarith) hq.le
    linarith

/-- **C66 (not below the quantile).** With propensity weights that average to one and a constant regression the estimate is
at least the preliminary quantile. -/
theorem C66_at_least_quantile (hn : 0 < n) (q treatment pq : ℝ) (y d m : Fin n → ℝ) (k : ℝ)
    (hm : ∀ i, 0 < m i) (hw : (mean fun i => indEq (d i) treatment / m i) = 1) :
    pq ≤ cvarCoef treatment q pq y d (fun _ => k) m := by
  have hb := (C66_doubly_robust hn treatment q pq y d (fun _ => k) m).2 (by
    have : (fun i => indEq (d i) treatment * k / m i) = fun i => k * (indEq (d i) treatment / m i) := by
      funext i; ring
    rw [this, mean_mul_left, hw, mean_const hn, mul_one])
  rw [hb]
  have hpq : pq = mean fun i => pq * (indEq (d i) treatment / m i) := by rw [mean_mul_left, hw, mul_one]
  conv_lhs => rw [hpq]
  refine mean_mono fun i => ?_
  have hT : pq ≤ cvarTarget q pq (y i) := le_max_left _ _
  have hind : 0 ≤ indEq (d i) treatment := by unfold indEq; split_ifs <;> norm_num
  have := div_le_div_of_nonneg_right (mul_le_mul_of_nonneg_left hT hind) (hm i).le
  calc pq * (indEq (d i) treatment / m i) = indEq (d i) treatment * pq / m i := by ring
    _ ≤ _ := this

/-- Non-vacuity: two treated observations with propensity one, outcomes 0 and 1, median 0. -/
example : (mean fun _ : Fin 2 => indEq 1 1 / (1 : ℝ)) = 1 ∧
    0 ≤ ipwMoment (n := 2) 1 (1 / 2) (fun _ => 1) (fun i => i.val) (fun _ => 1) 0 ∧
    ∀ s < (0 : ℝ), ipwMoment (n := 2) 1 (1 / 2) (fun _ => 1) (fun i => i.val) (fun _ => 1) s ≤ 0 := by
  refine ⟨by simp [mean, indEq], ?_, fun s hs => ?_⟩
  · simp only [ipwMoment, mean, Fin.sum_univ_two, ipwScore, indEq, indLe]
    norm_num
  · have h0 : ¬ (0 : ℝ) ≤ s := by linarith
    have h1 : ¬ (1 : ℝ) ≤ s := by linarith
    simp only [ipwMoment, mean, Fin.sum_univ_two, ipwScore, indEq, indLe]
    norm_num [h0, h1]

end DML
