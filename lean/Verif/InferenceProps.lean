import Verif.FrameworkLawsProps

/-!
# Confidence intervals, aggregation, p-values and bootstrap statistics (C07–C10)
-/

namespace DML

open Finset

variable {n r : ℕ}

/-! ## C07: confidence intervals -/

/-- **C07.** For nonnegative standard errors and critical values the interval contains the reported
estimate. -/
theorem C07_ci_contains_estimate (b : Block n r) (crit : Fin r → ℝ) (hθ : b.theta = median b.allTheta)
    (hse : ∀ k, 0 ≤ b.allSe k) (hc : ∀ k, 0 ≤ crit k) :
    (b.ci crit).1 ≤ b.theta ∧ b.theta ≤ (b.ci crit).2 := by
  rw [hθ]
  constructor <;>
  · refine median_mono fun k => ?_
    have := mul_nonneg (hse k) (hc k)
    linarith

theorem pointCrit_mono {l l' : ℝ} (h0 : 0 < l) (hl : l ≤ l') (h1 : l' < 1) :
    pointCrit l ≤ pointCrit l' := by
  rcases hl.eq_or_lt with rfl | hlt
  · exact le_rfl
  · exact (ppf_strictMonoOn ⟨by linarith, by linarith⟩ ⟨by linarith, by linarith⟩ (by linarith)).le

/-- **C07.** Pointwise intervals of increasing level are nested, and every one contains the estimate. -/
theorem C07_pointwise_nested (b : Block n r) (hθ : b.theta = median b.allTheta)
    (hse : ∀ k, 0 ≤ b.allSe k) {l l' : ℝ} (h0 : 0 < l) (hl : l ≤ l') (h1 : l' < 1) :
    (b.ci fun _ => pointCrit l').1 ≤ (b.ci fun _ => pointCrit l).1 ∧
    (b.ci fun _ => pointCrit l).1 ≤ b.theta ∧ b.theta ≤ (b.ci fun _ => pointCrit l).2 ∧
    (b.ci fun _ => pointCrit l).2 ≤ (b.ci fun _ => pointCrit l').2 := by
  have hm := pointCrit_mono h0 hl h1
  have hc := C07_ci_contains_estimate b (fun _ => pointCrit l) hθ hse
    (fun _ => (pointCrit_pos h0 (by linarith)).le)
  refine ⟨?_, hc.1, hc.2, ?_⟩ <;>
  · refine median_mono fun k => ?_
    have := mul_le_mul_of_nonneg_left hm (hse k)
    linarith

theorem maxList_nonneg (l : List ℝ) : 0 ≤ maxList l := by
  induction l with
  | nil => simp [maxList]
  | cons a l ih => simp only [maxList, List.foldr_cons]; exact le_max_of_le_right ih

/-- `maxList` is the maximum: it bounds every element and is attained (or `0`). -/
theorem maxList_spec (l : List ℝ) : (∀ x ∈ l, x ≤ maxList l) ∧ (maxList l = 0 ∨ maxList l ∈ l) := by
  induction l with
  | nil => simp [maxList]
  | cons a l ih =>
    have hcons : maxList (a :: l) = max a (maxList l) := rfl
    refine ⟨?_, ?_⟩
    · intro x hx
      rw [hcons]
      rcases List.mem_cons.1 hx with rfl | hx
      · exact le_max_left _ _
      · exact (ih.1 x hx).trans (le_max_right _ _)
    · rw [hcons]
      rcases max_choice a (maxList l) with h | h
      · rw [h]; right; simp
      · rw [h]
        rcases ih.2 with h0 | h0
        · left; exact h0
        · right; simp [h0]

theorem jointCrit_nonneg (bt : Boot r) {level : ℝ} (h0 : 0 ≤ level) (h1 : level ≤ 1) (k : Fin r) :
    0 ≤ jointCrit bt level k := quantile_nonneg (fun _ => maxList_nonneg _) h0 h1

/-- **C07.** Joint (bootstrap) intervals contain the estimate at every level and are nested in the
level, whatever the bootstrap draws. -/
theorem C07_joint_nested (b : Block n r) (bt : Boot r) (hθ : b.theta = median b.allTheta)
    (hse : ∀ k, 0 ≤ b.allSe k) {l l' : ℝ} (h0 : 0 ≤ l) (hl : l ≤ l') (h1 : l' ≤ 1) :
    (b.ci (jointCrit bt l')).1 ≤ (b.ci (jointCrit bt l)).1 ∧
    (b.ci (jointCrit bt l)).1 ≤ b.theta ∧ b.theta ≤ (b.ci (jointCrit bt l)).2 ∧
    (b.ci (jointCrit bt l)).2 ≤ (b.ci (jointCrit bt l')).2 := by
  have hc := C07_ci_contains_estimate b (jointCrit bt l) hθ hse
    (fun k => jointCrit_nonneg bt h0 (hl.trans h1) k)
  have hm : ∀ k, jointCrit bt l k ≤ jointCrit bt l' k := fun k => quantile_mono_level _ h0 hl h1
  refine ⟨?_, hc.1, hc.2, ?_⟩ <;>
  · refine median_mono fun k => ?_
    have := mul_le_mul_of_nonneg_left (hm k) (hse k)
    linarith

/-- **C07.** Adding parameters to the joint family (e.g. by `concat`) can only widen every joint
interval, for the same multiplier draws. -/
theorem C07_joint_widens (b : Block n r) (B : ℕ) (m : String) (ts us : List (Fin B → Fin r → ℝ))
    (hse : ∀ k, 0 ≤ b.allSe k) {l : ℝ} (h0 : 0 ≤ l) (h1 : l ≤ 1) (hsub : ∀ t ∈ ts, t ∈ us) :
    (b.ci (jointCrit ⟨B, m, us⟩ l)).1 ≤ (b.ci (jointCrit ⟨B, m, ts⟩ l)).1 ∧
    (b.ci (jointCrit ⟨B, m, ts⟩ l)).2 ≤ (b.ci (jointCrit ⟨B, m, us⟩ l)).2 := by
  have hm : ∀ k, jointCrit ⟨B, m, ts⟩ l k ≤ jointCrit ⟨B, m, us⟩ l k := by
    intro k
    refine quantile_mono (fun j => ?_) h0 h1
    rcases (maxList_spec (ts.map fun t => |t j k|)).2 with h | h
    · simp only [h]; exact maxList_nonneg _
    · obtain ⟨t, ht, hx⟩ := List.mem_map.1 h
      simp only [← hx]
      exact (maxList_spec _).1 _ (List.mem_map.2 ⟨t, hsub t ht, rfl⟩)
  constructor <;>
  · refine median_mono fun k => ?_
    have := mul_le_mul_of_nonneg_left (hm k) (hse k)
    linarith

/-- **C07.** With one repetition the interval is `θ ± z·se`. -/
theorem C07_single_repetition (b : Block n 1) (z : ℝ) :
    (b.ci fun _ => z) = (b.allTheta 0 - b.allSe 0 * z, b.allTheta 0 + b.allSe 0 * z) := by
  simp [Block.ci, median_one]

/-- Non-vacuity of C07: the example block has positive standard error and a consistent estimate. -/
example : ∃ b : Block 2 1, b.theta = median b.allTheta ∧ ∀ k, 0 < b.allSe k := by
  refine ⟨(Influence.mk (fun _ => 3) (fun j _ => if j = 0 then 2 else -1)).direct 2, rfl, ?_⟩
  intro k
  simp only [Influence.direct]
  apply Real.sqrt_pos.2
  norm_num [mean, Fin.sum_univ_two]

/-! ## C08: aggregation over repetitions -/

/-- **C08.** The aggregated estimate and standard error do not depend on the order of the
repetitions. -/
theorem C08_permutation_invariant (θ s v : Fin r → ℝ) (σ : Equiv.Perm (Fin r)) :
    aggTheta (θ ∘ σ) = aggTheta θ ∧ aggSe (θ ∘ σ) (s ∘ σ) (v ∘ σ) = aggSe θ s v :=
  ⟨median_perm θ σ, aggSe_perm θ s v σ⟩

/-- **C08.** With a single repetition aggregation changes nothing. -/
theorem C08_single (θ s v : Fin 1 → ℝ) (hs : 0 ≤ s 0) : aggTheta θ = θ 0 ∧ aggSe θ s v = s 0 := by
  refine ⟨median_one θ, ?_⟩
  simp [aggSe, median_one, Real.sqrt_sq hs]

/-- **C08.** The aggregated estimate lies between the smallest and the largest repetition, and inside
every interval that contains a majority of the repetitions (robustness to outlying repetitions). -/
theorem C08_robust (hr : 0 < r) (θ : Fin r → ℝ) :
    (∃ i, θ i ≤ aggTheta θ) ∧ (∃ j, aggTheta θ ≤ θ j) ∧
    ∀ a b, r < 2 * (univ.filter fun i => a ≤ θ i ∧ θ i ≤ b).card → a ≤ aggTheta θ ∧ aggTheta θ ≤ b := by
  refine ⟨(median_between hr θ).1, (median_between hr θ).2, ?_⟩
  intro a b h
  refine ⟨le_median_of_card (lt_of_lt_of_le h ?_), median_le_of_card (lt_of_lt_of_le h ?_)⟩ <;>
  · refine Nat.mul_le_mul_left 2 (Finset.card_le_card ?_)
    intro i; simp only [mem_filter, mem_univ, true_and]; tauto

/-- **C08.** The aggregated standard error is at least the median of the per-repetition ones
(squared scale), equal when all repetitions give the same estimate. -/
theorem C08_se_lower_bound (θ s v : Fin r → ℝ) (hv : ∀ k, 0 ≤ v k) :
    median (fun k => s k ^ 2) ≤ aggSe θ s v ^ 2 ∧
    ((∀ k l, θ k = θ l) → aggSe θ s v ^ 2 = median fun k => s k ^ 2) := by
  rw [aggSe_sq θ s v hv]
  refine ⟨median_mono fun k => le_add_of_nonneg_right (div_nonneg (sq_nonneg _) (hv k)), ?_⟩
  intro h
  congr 1; funext k
  have hr : 0 < r := Fin.pos k
  have : median θ = θ k := by
    rw [show θ = fun _ => θ k from funext fun l => h l k]
    exact median_const hr _
  rw [this]; simp

/-- **C08.** The aggregated standard error is at least the median of the per-repetition standard errors. -/
theorem C08_se_at_least_median (θ s v : Fin r → ℝ) (hs : ∀ k, 0 ≤ s k) (hv : ∀ k, 0 ≤ v k) :
    median s ≤ aggSe θ s v := by
  have h0 : 0 ≤ aggSe θ s v := Real.sqrt_nonneg _
  refine le_of_sq_le_sq ?_ h0
  refine le_trans ?_ (C08_se_lower_bound θ s v hv).1
  by_cases hr : 0 < r
  · have hg : Monotone fun x : ℝ => (max x 0) ^ 2 := by
      intro x y hxy
      exact pow_le_pow_left₀ (le_max_right _ _) (max_le_max_right 0 hxy) 2
    have hsq : (fun k => s k ^ 2) = fun k => (fun x : ℝ => (max x 0) ^ 2) (s k) := by
      funext k
      simp only [max_eq_left (hs k)]
    have hk : ∀ i, 0 ≤ kth s i := fun i => hs _
    rw [hsq, median_eq hr, median_eq hr, kth_comp_monotone hg, kth_comp_monotone hg]
    simp only [max_eq_left (hk _)]
    nlinarith [sq_nonneg (kth s ⟨(r - 1) / 2, by omega⟩ - kth s ⟨r / 2, by omega⟩)]
  · simp [median, hr]

/-- **C08.** Shifting every repetition's estimate by `c` shifts the aggregate by `c` and leaves the
standard error unchanged; rescaling by `c` rescales both (the standard error by `|c|`). -/
theorem C08_affine (hr : 0 < r) (θ s v : Fin r → ℝ) (c : ℝ) :
    aggTheta (fun k => θ k + c) = aggTheta θ + c ∧ aggSe (fun k => θ k + c) s v = aggSe θ s v ∧
    aggTheta (fun k => c * θ k) = c * aggTheta θ ∧
    aggSe (fun k => c * θ k) (fun k => c * s k) v = |c| * aggSe θ s v :=
  ⟨median_add_const hr θ c, aggSe_shift hr θ s v c, aggTheta_mul c θ, aggSe_mul c θ s v⟩

/-! ## C09: p-values -/

/-- **C09.** Every per-repetition p-value lies in `(0, 1]`, and so does the reported (median) one. -/
theorem C09_pvals_in_unit (hr : 0 < r) (b : Block n r) :
    (∀ k, 0 < b.allPval k ∧ b.allPval k ≤ 1) ∧ 0 ≤ b.pval ∧ b.pval ≤ 1 := by
  have h : ∀ k, 0 < b.allPval k ∧ b.allPval k ≤ 1 := by
    intro k
    unfold Block.allPval
    have h1 := Phi_lt_one |b.allT k|
    have h2 : 1 / 2 ≤ Phi |b.allT k| := by
      rw [← Phi_zero]; exact Phi_mono (abs_nonneg _)
    constructor <;> linarith
  exact ⟨h, median_nonneg fun k => (h k).1.le, median_le hr fun k => (h k).2⟩

/-- **C09.** A p-value depends on the estimate only through the absolute t statistic and strictly decreases in it; the
reported p-value decreases if the absolute t statistics of all repetitions increase, and is the same if they are. -/
theorem C09_pvals_absolute_t (b b' : Block n r) :
    (∀ k l, b.allPval k < b'.allPval l ↔ |b'.allT l| < |b.allT k|) ∧
    (∀ k l, b.allPval k = b'.allPval l ↔ |b.allT k| = |b'.allT l|) ∧
    ((∀ k, |b'.allT k| ≤ |b.allT k|) → b.pval ≤ b'.pval) ∧
    ((∀ k, |b'.allT k| = |b.allT k|) → b.pval = b'.pval) := by
  have h1 : ∀ k l, b.allPval k < b'.allPval l ↔ |b'.allT l| < |b.allT k| := by
    intro k l
    unfold Block.allPval
    rw [← Phi_strictMono.lt_iff_lt (a := |b'.allT l|)]
    constructor <;> intro h <;> linarith
  have h2 : ∀ k l, b.allPval k = b'.allPval l ↔ |b.allT k| = |b'.allT l| := by
    intro k l
    rw [← Phi_strictMono.injective.eq_iff (a := |b.allT k|)]
    unfold Block.allPval
    constructor <;> intro h <;> linarith
  refine ⟨h1, h2, fun h => median_mono fun k => ?_, fun h => ?_⟩
  · have := Phi_mono (h k)
    unfold Block.allPval
    linarith
  · unfold Block.pval
    congr 1
    funext k
    exact (h2 k k).2 (h k).symm

theorem pval_lt_iff (t α : ℝ) (h0 : 0 < α) (h1 : α < 1) :
    2 * (1 - Phi |t|) < α ↔ pointCrit (1 - α) < |t| := by
  unfold pointCrit
  rw [ppf_lt_iff (by linarith) (by linarith)]
  constructor <;> intro h <;> linarith

theorem abs_t_gt_iff {θ s z : ℝ} (hs : 0 < s) (_hz : 0 < z) :
    z < |θ / s| ↔ 0 < θ - s * z ∨ θ + s * z < 0 := by
  rw [abs_div, abs_of_pos hs, lt_div_iff₀ hs, lt_abs]
  constructor
  · rintro (h | h)
    · left; linarith
    · right; linarith
  · rintro (h | h)
    · left; linarith
    · right; linarith

/-- **C09 (test/interval duality, one repetition).** The p-value is below `α` iff the level `1 - α`
interval excludes zero. -/
theorem C09_duality_single (b : Block n 1) (hse : 0 < b.allSe 0) {α : ℝ} (h0 : 0 < α) (h1 : α < 1) :
    b.pval < α ↔ ¬ ((b.ci fun _ => pointCrit (1 - α)).1 ≤ 0 ∧ 0 ≤ (b.ci fun _ => pointCrit (1 - α)).2) := by
  have hz : 0 < pointCrit (1 - α) := pointCrit_pos (by linarith) (by linarith)
  rw [C07_single_repetition, Block.pval, median_one, Block.allPval, pval_lt_iff _ _ h0 h1, Block.allT,
    abs_t_gt_iff hse hz]
  simp only [not_and_or, not_le]

/-- **C09 (one direction, any odd number of repetitions).** If the level `1 - α` interval excludes
zero, the reported p-value is below `α`. -/
theorem C09_duality_odd (m : ℕ) (b : Block n (2 * m + 1)) (hse : ∀ k, 0 < b.allSe k) {α : ℝ}
    (h0 : 0 < α) (h1 : α < 1)
    (hex : 0 < (b.ci fun _ => pointCrit (1 - α)).1 ∨ (b.ci fun _ => pointCrit (1 - α)).2 < 0) :
    b.pval < α := by
  have hz : 0 < pointCrit (1 - α) := pointCrit_pos (by linarith) (by linarith)
  -- a majority of repetitions rejects
  have hmaj : m < (univ.filter fun k => b.allPval k < α).card := by
    have hp : ∀ k, (0 < b.allTheta k - b.allSe k * pointCrit (1 - α) ∨
        b.allTheta k + b.allSe k * pointCrit (1 - α) < 0) → b.allPval k < α := by
      intro k hk
      rw [Block.allPval, pval_lt_iff _ _ h0 h1, Block.allT, abs_t_gt_iff (hse k) hz]
      exact hk
    rcases hex with h | h
    · have h' : median (fun k => -(b.allTheta k - b.allSe k * pointCrit (1 - α))) < 0 := by
        rw [median_neg]; simp only [Block.ci] at h; linarith
      rw [median_odd] at h'
      have h2 := (kth_le_iff _ _ _).1 (le_refl (kth (fun k => -(b.allTheta k - b.allSe k *
        pointCrit (1 - α))) ⟨m, by omega⟩))
      refine lt_of_lt_of_le h2 (Finset.card_le_card ?_)
      intro k hk
      simp only [mem_filter, mem_univ, true_and] at hk ⊢
      exact hp k (Or.inl (by linarith))
    · have h' : median (fun k => b.allTheta k + b.allSe k * pointCrit (1 - α)) < 0 := h
      rw [median_odd] at h'
      have h2 := (kth_le_iff _ _ _).1 (le_refl (kth (fun k => b.allTheta k + b.allSe k *
        pointCrit (1 - α)) ⟨m, by omega⟩))
      refine lt_of_lt_of_le h2 (Finset.card_le_card ?_)
      intro k hk
      simp only [mem_filter, mem_univ, true_and] at hk ⊢
      exact hp k (Or.inr (by linarith))
  -- hence the middle order statistic is one of the rejecting repetitions or below it
  set S := univ.filter fun k => b.allPval k < α with hS
  have hne : S.Nonempty := Finset.card_pos.1 (by omega)
  have hlt : S.sup' hne b.allPval < α := by
    rw [Finset.sup'_lt_iff]; intro k hk; simpa [hS] using hk
  refine lt_of_le_of_lt ?_ hlt
  rw [Block.pval, median_le_iff_odd]
  refine lt_of_lt_of_le hmaj (Finset.card_le_card ?_)
  intro k hk
  simp only [mem_filter, mem_univ, true_and]
  exact Finset.le_sup' b.allPval hk

/-- A three-repetition block with unit standard errors and given estimates, for counterexamples. -/
noncomputable def threeBlock (f : Fin 3 → ℝ) : Block 1 3 where
  theta := median f
  se := aggSe f (fun _ => 1) (fun _ => 1)
  allTheta := f
  allSe := fun _ => 1
  vsf := 1
  psi := fun _ _ => 1

theorem median_three {f : Fin 3 → ℝ} {a : ℝ} (h1 : 1 < (univ.filter fun i => f i ≤ a).card)
    (h2 : 1 < (univ.filter fun i => a ≤ f i).card) : median f = a :=
  le_antisymm (median_le_of_card (by omega)) (le_median_of_card (by omega))

/-- **C09 violated (converse, and model vs framework).** With three repetitions the framework's
p-value can be below `α` although the level `1 - α` interval contains zero — and although the model's
own p-value `2 Φ(-|coef/se|)` (/repo/doubleml/double_ml.py:402) is `1`. -/
theorem C09_violated (α : ℝ) (h0 : 0 < α) (h1 : α < 1) : ∃ b : Block 1 3,
    b.Consistent ∧ (∀ k, 0 < b.allSe k) ∧ b.pval < α ∧
    (b.ci fun _ => pointCrit (1 - α)).1 < 0 ∧ 0 < (b.ci fun _ => pointCrit (1 - α)).2 ∧
    2 * Phi (-|b.theta / b.se|) = 1 := by
  have hz : 0 < pointCrit (1 - α) := pointCrit_pos (by linarith) (by linarith)
  set z := pointCrit (1 - α) with hzdef
  let f : Fin 3 → ℝ := ![-3 * z, 0, 3 * z]
  have hmed : median f = 0 := by
    apply median_three
    · have : ({0, 1} : Finset (Fin 3)) ⊆ univ.filter fun i => f i ≤ 0 := by
        intro i hi; simp only [mem_insert, mem_singleton] at hi
        rcases hi with rfl | rfl <;> simp [f]; linarith
      exact lt_of_lt_of_le (by decide) (Finset.card_le_card this)
    · have : ({1, 2} : Finset (Fin 3)) ⊆ univ.filter fun i => 0 ≤ f i := by
        intro i hi; simp only [mem_insert, mem_singleton] at hi
        rcases hi with rfl | rfl <;> simp [f]; linarith
      exact lt_of_lt_of_le (by decide) (Finset.card_le_card this)
  have hm1 : mean (fun _ : Fin 1 => (1 : ℝ) ^ 2) = 1 := by rw [mean_const (by norm_num)]; norm_num
  refine ⟨threeBlock f, ?_, fun _ => by simp [threeBlock], ?_, ?_, ?_, ?_⟩
  · rw [Block.consistent_iff]
    refine ⟨rfl, rfl, ?_⟩
    funext k
    simp [threeBlock, recomputedSe, mean]
  · have hp : ∀ k : Fin 3, k ≠ 1 → (threeBlock f).allPval k < α := by
      intro k hk
      rw [Block.allPval, pval_lt_iff _ _ h0 h1, ← hzdef]
      have hk' : k = 0 ∨ k = 2 := by revert hk; revert k; decide
      rcases hk' with rfl | rfl
      · simp only [Block.allT, threeBlock, f, div_one, Matrix.cons_val_zero]
        rw [abs_of_neg (by linarith)]; linarith
      · simp only [Block.allT, threeBlock, f, div_one, Matrix.cons_val]
        rw [abs_of_pos (by linarith)]; linarith
    set S := univ.filter fun k => (threeBlock f).allPval k < α with hS
    have hsub : ({0, 2} : Finset (Fin 3)) ⊆ S := by
      intro i hi; simp only [mem_insert, mem_singleton] at hi
      rw [hS]; simp only [mem_filter, mem_univ, true_and]
      rcases hi with rfl | rfl
      · exact hp 0 (by decide)
      · exact hp 2 (by decide)
    have hcard : 2 ≤ S.card := le_trans (by decide) (Finset.card_le_card hsub)
    have hne : S.Nonempty := Finset.card_pos.1 (by omega)
    have hlt : S.sup' hne (threeBlock f).allPval < α := by
      rw [Finset.sup'_lt_iff]; intro k hk; simpa [hS] using hk
    refine lt_of_le_of_lt ?_ hlt
    rw [Block.pval]
    refine (median_le_iff_odd 1 _ _).2 (lt_of_lt_of_le hcard (Finset.card_le_card ?_))
    intro k hk
    simp only [mem_filter, mem_univ, true_and]
    exact Finset.le_sup' (threeBlock f).allPval hk
  · have : ((threeBlock f).ci fun _ => z).1 = median f - z := by
      simp only [Block.ci, threeBlock, one_mul, sub_eq_add_neg]
      exact median_add_const (by norm_num) f (-z)
    rw [this, hmed]; linarith
  · have : ((threeBlock f).ci fun _ => z).2 = median f + z := by
      simp only [Block.ci, threeBlock, one_mul]
      exact median_add_const (by norm_num) f z
    rw [this, hmed]; linarith
  · simp only [threeBlock, hmed, zero_div, abs_zero, neg_zero, Phi_zero]; norm_num

/-- **C09 violated (even repetitions).** With two repetitions the interval can exclude zero although
the reported p-value is at least `1/2`. -/
theorem C09_violated_even (α : ℝ) (h0 : 0 < α) (h1 : α < 1) : ∃ b : Block 1 2,
    (∀ k, 0 < b.allSe k) ∧ 0 < (b.ci fun _ => pointCrit (1 - α)).1 ∧ 1 / 2 < b.pval := by
  have hz : 0 < pointCrit (1 - α) := pointCrit_pos (by linarith) (by linarith)
  set z := pointCrit (1 - α) with hzdef
  have hmed2 : ∀ g : Fin 2 → ℝ, median g = (g 0 + g 1) / 2 := by
    intro g
    rw [median_eq (by norm_num)]
    have hs : kth g ⟨(2 - 1) / 2, by omega⟩ + kth g ⟨2 / 2, by omega⟩ = g 0 + g 1 := by
      have : ∑ i, kth g i = ∑ i, g i := by
        unfold kth; exact Equiv.sum_comp (Tuple.sort g) g
      rw [Fin.sum_univ_two, Fin.sum_univ_two] at this
      exact this
    rw [hs]
  let b : Block 1 2 :=
    { theta := 0
      se := 1
      allTheta := ![0, 2 * z + 2]
      allSe := fun _ => 1
      vsf := 1
      psi := fun _ _ => 1 }
  refine ⟨b, fun _ => by simp [b], ?_, ?_⟩
  · simp only [Block.ci, hmed2]
    simp [b]; linarith
  · rw [Block.pval, hmed2]
    have e0 : b.allPval 0 = 1 := by
      simp only [Block.allPval, Block.allT, b, Matrix.cons_val_zero, zero_div, abs_zero, Phi_zero]; norm_num
    have e1 : 0 < b.allPval 1 := ((C09_pvals_in_unit (by norm_num) b).1 1).1
    rw [e0]; linarith

/-- **C09.** With one repetition the model's p-value and the framework's p-value coincide. -/
theorem C09_model_eq_framework_single (b : Block n 1) (hb : b.Consistent) :
    2 * Phi (-|b.theta / b.se|) = b.pval := by
  rw [Block.consistent_iff] at hb
  obtain ⟨h1, h2, h3⟩ := hb
  have hs : 0 ≤ b.allSe 0 := by rw [h3]; exact recomputedSe_nonneg _ _ _
  have e1 : b.theta = b.allTheta 0 := by rw [h1, median_one]
  have e2 : b.se = b.allSe 0 := by rw [h2]; exact (C08_single _ _ _ hs).2
  rw [e1, e2, Block.pval, median_one, Block.allPval, Block.allT, Phi_neg]

/-! ## C10: bootstrap statistics -/

/-- **C10.** The bootstrap statistic of a parameter is the weighted sum of a fixed vector of
studentised scores, and with `vsf = n` (non-clustered models) and the library's own standard error that
vector has Euclidean length one: independent unit-variance multipliers give statistics of variance
one. -/
theorem C10_bootstrap_studentised {B : ℕ} (hn : 0 < n) (b : Block n r) (hv : b.vsf = n)
    (hse : b.allSe = recomputedSe b.psi b.vsf) (k : Fin r) (hpos : ∃ i, b.psi i k ≠ 0) :
    ∃ a : Fin n → ℝ, (∀ (W : Fin r → Fin B → Fin n → ℝ) j, b.bootT W j k = ∑ i, W k j i * a i) ∧
      ∑ i, a i ^ 2 = 1 := by
  refine ⟨fun i => b.psi i k / (b.vsf * b.allSe k), fun W j => rfl, ?_⟩
  have hn' : (0 : ℝ) < n := by exact_mod_cast hn
  have hm : 0 < mean fun i => b.psi i k ^ 2 := (mean_sq_pos_iff hn _).2 hpos
  have hs2 : b.allSe k ^ 2 = (mean fun i => b.psi i k ^ 2) / n := by
    rw [hse, recomputedSe, hv, Real.sq_sqrt (div_nonneg hm.le hn'.le)]
  have hsum : ∑ i, b.psi i k ^ 2 = n * mean fun i => b.psi i k ^ 2 := by
    unfold mean; field_simp
  simp only [div_pow, ← Finset.sum_div, mul_pow, hs2, hv, hsum]
  field_simp

/-- **C10.** Bootstrap statistics are bounded by the Euclidean norm of the multiplier draw. -/
theorem C10_bootstrap_bounded {B : ℕ} (hn : 0 < n) (b : Block n r) (hv : b.vsf = n)
    (hse : b.allSe = recomputedSe b.psi b.vsf) (k : Fin r) (hpos : ∃ i, b.psi i k ≠ 0)
    (W : Fin r → Fin B → Fin n → ℝ) (j : Fin B) :
    b.bootT W j k ^ 2 ≤ ∑ i, W k j i ^ 2 := by
  obtain ⟨a, h1, h2⟩ := C10_bootstrap_studentised (B := B) hn b hv hse k hpos
  rw [h1]
  have := Finset.sum_mul_sq_le_sq_mul_sq univ (fun i => W k j i) a
  rwa [h2, mul_one] at this

/-- **C10.** Bootstrap statistics do not change when the parameter is rescaled by any nonzero number
(units of measurement do not matter). -/
theorem C10_bootstrap_scale_free {B : ℕ} (b : Block n r) (c : ℝ) (hc : c ≠ 0)
    (W : Fin r → Fin B → Fin n → ℝ) : (b.smul c).bootT W = b.bootT W := by
  funext j k
  simp only [Block.bootT, Block.smul]
  refine Finset.sum_congr rfl fun i _ => ?_
  congr 1
  rw [show b.vsf * (c * b.allSe k) = c * (b.vsf * b.allSe k) by ring, mul_div_mul_left _ _ hc]

/-- **C10.** The bootstrap statistics of a repetition only use the influence function, the standard error and the
multipliers of that repetition, and they change sign if the influence function or the multipliers do. -/
theorem C10_bootstrap_local {B : ℕ} (b b' : Block n r) (W W' : Fin r → Fin B → Fin n → ℝ) (j : Fin B) (k : Fin r)
    (hv : b'.vsf = b.vsf) (hs : b'.allSe k = b.allSe k) :
    ((∀ i, b'.psi i k = b.psi i k) → (∀ i, W' k j i = W k j i) → b'.bootT W' j k = b.bootT W j k) ∧
    ((∀ i, b'.psi i k = - b.psi i k) → (∀ i, W' k j i = W k j i) → b'.bootT W' j k = - b.bootT W j k) ∧
    ((∀ i, b'.psi i k = b.psi i k) → (∀ i, W' k j i = - W k j i) → b'.bootT W' j k = - b.bootT W j k) := by
  refine ⟨fun h1 h2 => ?_, fun h1 h2 => ?_, fun h1 h2 => ?_⟩ <;>
    simp only [Block.bootT, h1, h2, hv, hs, ← Finset.sum_neg_distrib]
  · refine Finset.sum_congr rfl fun i _ => ?_
    ring
  · refine Finset.sum_congr rfl fun i _ => ?_
    ring

/-- Non-vacuity of C10. -/
example : ∃ b : Block 2 1, b.vsf = (2 : ℕ) ∧ b.allSe = recomputedSe b.psi b.vsf ∧ ∃ i, b.psi i 0 ≠ 0 :=
  ⟨(Influence.mk (fun _ => 3) (fun j _ => if j = 0 then 2 else -1)).direct 2, by simp [Influence.direct],
    rfl, 0, by simp [Influence.direct]⟩

end DML
