import Verif.Policy
import Verif.ScoreProps

/-!
# C47: the policy tree is trained to maximise the estimated policy value
-/

namespace DML

open Finset

variable {n : ℕ}

/-! ## Specification -/

/-- A policy treats some observations (`true`). -/
abbrev Policy (n : ℕ) := Fin n → Bool

/-- The estimated gain of a policy over treating nobody: the average of the effects of those who are treated. -/
noncomputable def Policy.gain (s : Fin n → ℝ) (π : Policy n) : ℝ := mean fun i => if π i then s i else 0

/-- The numerical label of a decision. -/
def decision (b : Bool) : ℝ := if b then 1 else 0

/-- The weighted classification accuracy that a weighted classifier is scored by: the total weight of the observations
whose decision is their label. -/
noncomputable def accuracy (y w : Fin n → ℝ) (π : Policy n) : ℝ := ∑ i, if decision (π i) = y i then w i else 0

/-! ## Theorems -/

theorem binSignal_pos {s : Fin n → ℝ} {i : Fin n} (h : 0 < s i) : binSignal s i = 1 := by
  unfold binSignal; rw [sign_pos h]; norm_num

theorem binSignal_neg {s : Fin n → ℝ} {i : Fin n} (h : s i < 0) : binSignal s i = 0 := by
  unfold binSignal; rw [sign_neg h]; norm_num

theorem binSignal_zero {s : Fin n → ℝ} {i : Fin n} (h : s i = 0) : binSignal s i = 1 / 2 := by
  unfold binSignal; rw [h, sign_zero]; norm_num

/-- **C47.** The weighted accuracy of a policy on the labels and weights that `fit` constructs is `n` times its estimated
gain plus a constant that does not depend on the policy (the total size of the negative effects). -/
theorem C47_accuracy_is_gain (s : Fin n → ℝ) (π : Policy n) :
    accuracy (binSignal s) (absSignal s) π = n * π.gain s + ∑ i, max (-s i) 0 := by
  have hn : (n : ℝ) * π.gain s = ∑ i, if π i then s i else 0 := by
    unfold Policy.gain mean
    rcases Nat.eq_zero_or_pos n with rfl | h
    · simp
    · have : (n : ℝ) ≠ 0 := by positivity
      field_simp
  rw [hn, ← sum_add_distrib]
  unfold accuracy
  refine sum_congr rfl fun i _ => ?_
  unfold absSignal
  rcases lt_trichotomy (s i) 0 with h | h | h
  · rw [binSignal_neg h, abs_of_neg h, max_eq_left (by linarith)]
    cases π i <;> simp [decision]
  · rw [h]; simp
  · rw [binSignal_pos h, abs_of_pos h, max_eq_right (by linarith)]
    cases π i <;> simp [decision]

/-- **C47.** Within any class of policies (for example the trees of a given depth), the policies with the highest weighted
accuracy are exactly those with the highest estimated gain. -/
theorem C47_best_policy (s : Fin n → ℝ) (C : Set (Policy n)) (π : Policy n) :
    (∀ ρ ∈ C, accuracy (binSignal s) (absSignal s) ρ ≤ accuracy (binSignal s) (absSignal s) π) ↔
      ∀ ρ ∈ C, ρ.gain s ≤ π.gain s := by
  refine forall₂_congr fun ρ _ => ?_
  rw [C47_accuracy_is_gain, C47_accuracy_is_gain]
  rcases Nat.eq_zero_or_pos n with rfl | h
  · simp [Policy.gain, mean]
  · have : (0 : ℝ) < n := by positivity
    rw [add_le_add_iff_right, mul_le_mul_iff_right₀ this]

/-- **C47.** Decisions about observations with zero signal do not matter, whatever their label is. -/
theorem C47_zero_signal (s : Fin n → ℝ) {π ρ : Policy n} (h : ∀ i, s i ≠ 0 → π i = ρ i) :
    accuracy (binSignal s) (absSignal s) π = accuracy (binSignal s) (absSignal s) ρ ∧ π.gain s = ρ.gain s := by
  constructor
  · unfold accuracy
    refine sum_congr rfl fun i _ => ?_
    by_cases hs : s i = 0
    · simp [absSignal, hs]
    · rw [h i hs]
  · unfold Policy.gain
    congr 1
    funext i
    by_cases hs : s i = 0
    · simp [hs]
    · rw [h i hs]

/-- **C47, partial.** If no signal is zero (and the depth is at least one), `fit` succeeds: the tree is trained with label 1
exactly for the observations with positive signal and label 0 for the others, with the size of the signal as weight. -/
theorem C47_fit_partial (T : TreeLearner) {p : PolicyTree n} (hk : 1 ≤ p.depth) (hs : ∀ i, p.signal i ≠ 0) :
    p.fit T = .ok { p with tree := some (T n p.depth p.feats (fun i => decision (decide (0 < p.signal i))) fun i => |p.signal i|) } := by
  have hy : binSignal p.signal = fun i => decision (decide (0 < p.signal i)) := by
    funext i
    rcases lt_or_gt_of_ne (hs i) with h | h
    · rw [binSignal_neg h]; simp [decision, not_lt.2 h.le]
    · rw [binSignal_pos h]; simp [decision, h]
  unfold PolicyTree.fit treeFit
  rw [if_neg (by omega), if_pos, hy]
  · rfl
  · intro i
    rw [hy]
    by_cases h : 0 < p.signal i
    · exact ⟨1, by simp [decision, h]⟩
    · exact ⟨0, by simp [decision, h]⟩

/-- **C47, violated.** A single observation whose signal is exactly zero (for example a binary outcome predicted without
error) makes `fit` fail: its label is 1/2, which is not a class. -/
theorem C47_violated (T : TreeLearner) {p : PolicyTree n} {i : Fin n} (h : p.signal i = 0) : p.fit T = .error .valueError := by
  unfold PolicyTree.fit treeFit
  by_cases hk : p.depth = 0
  · rw [if_pos hk]
  rw [if_neg hk, if_neg]
  intro hall
  obtain ⟨z, hz⟩ := hall i
  rw [binSignal_zero h] at hz
  have : (2 * z : ℝ) = 1 := by rw [← hz]; norm_num
  have : (2 * z : ℤ) = 1 := by exact_mod_cast this
  omega

/-- **C47, violated.** `policy_tree(depth=0)` passes the check of DoubleML, but no tree of depth zero can be fitted. -/
theorem C47_depth_violated (T : TreeLearner) (s : Fin n → ℝ) (X : Feats n) (hX : X.cols.Nodup) :
    checkInteger (.int 0) (some 0) none = .ok 0 ∧ irmPolicyTree T "ATE" 1 s (.int 0) (.frame X) = .error .valueError := by
  constructor
  · simp [checkInteger, PyVal.asInt]
  · unfold irmPolicyTree
    rw [if_neg (by simp), if_neg (by simp)]
    have h1 : checkInteger (.int 0) (some 0) none = .ok 0 := by simp [checkInteger, PyVal.asInt]
    have h2 : policyCreate s (.frame X) 0 = .ok ⟨s, X, 0, none⟩ := by
      unfold policyCreate; dsimp only; rw [if_pos hX]
    simp only [h1, bind, Except.bind, Int.toNat_zero, h2]
    unfold PolicyTree.fit treeFit
    rw [if_pos rfl]

/-- **C47.** What `predict` returns for a fitted tree: the features unchanged, and for every row the decision of the tree,
which is zero or one. -/
theorem C47_predict {T : TreeLearner} (hT : T.PredictsLabels) (hn : 0 < n) {p q : PolicyTree n} (hs : ∀ i, p.signal i ≠ 0)
    (h : p.fit T = .ok q) {m : ℕ} (X : Feats m) (hX : X.cols = p.feats.cols) :
    ∃ d, q.predict (.frame X) = .ok (X, d) ∧ ∀ i, (d i = 0 ∨ d i = 1) ∧
      (d i : ℝ) = T n p.depth p.feats (fun i => decision (decide (0 < p.signal i))) (fun i => |p.signal i|) (X.row i) := by
  have hk : 1 ≤ p.depth := by
    by_contra hk
    have : p.depth = 0 := by omega
    unfold PolicyTree.fit treeFit at h
    rw [if_pos this] at h
    cases h
  rw [C47_fit_partial T hk hs] at h
  obtain rfl := Except.ok.inj h
  refine ⟨fun i => if 0 ≤ T n p.depth p.feats (fun i => decision (decide (0 < p.signal i))) (fun i => |p.signal i|) (X.row i) then
      ⌊T n p.depth p.feats (fun i => decision (decide (0 < p.signal i))) (fun i => |p.signal i|) (X.row i)⌋ else
      ⌈T n p.depth p.feats (fun i => decision (decide (0 < p.signal i))) (fun i => |p.signal i|) (X.row i)⌉, ?_, ?_⟩
  · unfold PolicyTree.predict
    dsimp only
    rw [if_neg (by rw [hX]; simp), if_neg (by simpa using hX)]
  · intro i
    obtain ⟨j, hj⟩ := hT n hn p.depth p.feats (fun i => decision (decide (0 < p.signal i))) (fun i => |p.signal i|) (X.row i)
    dsimp only
    rw [hj]
    by_cases hp : 0 < p.signal j <;> simp [decision, hp]

/-- **C47.** What is rejected: predicting before `fit`, something that is not a frame, and frames that do not have exactly
the feature columns; a tree for another score than the ATE and for several repetitions. -/
theorem C47_rejects (T : TreeLearner) (p : PolicyTree n) {m : ℕ} :
    (∀ X : FeatArg m, p.tree = none → p.predict X = .error .valueError) ∧
    (p.tree ≠ none → p.predict (.other : FeatArg m) = .error .typeError) ∧
    (∀ X : Feats m, p.tree ≠ none → (∃ c, ¬ (c ∈ X.cols ↔ c ∈ p.feats.cols)) → p.predict (.frame X) = .error .keyError) ∧
    (∀ (score : String) (r : ℕ) (s : Fin n → ℝ) (k : PyVal) (X : FeatArg n), score ≠ "ATE" →
      irmPolicyTree T score r s k X = .error .valueError) ∧
    (∀ (r : ℕ) (s : Fin n → ℝ) (k : PyVal) (X : FeatArg n), r ≠ 1 → irmPolicyTree T "ATE" r s k X = .error .notImplemented) := by
  refine ⟨fun X h => ?_, fun h => ?_, fun X h ⟨c, hc⟩ => ?_, fun score r s k X h => ?_, fun r s k X h => ?_⟩
  · unfold PolicyTree.predict; rw [h]
  · obtain ⟨t, ht⟩ := Option.ne_none_iff_exists'.1 h
    unfold PolicyTree.predict; rw [ht]
  · obtain ⟨t, ht⟩ := Option.ne_none_iff_exists'.1 h
    unfold PolicyTree.predict; rw [ht]
    dsimp only
    rw [if_pos]
    rintro ⟨h1, h2⟩
    exact hc ⟨fun h => h1 h, fun h => h2 h⟩
  · unfold irmPolicyTree; rw [if_pos h]
  · unfold irmPolicyTree; rw [if_neg (by simp), if_pos h]

/-- The signal of `DoubleMLIRM.policy_tree` is the score element `psi_b`: without weights, the estimated gain of treating
everybody is the estimated average treatment effect. -/
theorem C47_treat_all (normalize : Bool) (y d g0 g1 m : Fin n → ℝ) (hn : 0 < n) :
    Policy.gain (irmAte normalize y d g0 g1 m (fun _ => 1) (fun _ => 1)).b (fun _ => true) =
      (irmAte normalize y d g0 g1 m (fun _ => 1) (fun _ => 1)).coef none := by
  have hn' : (n : ℝ) ≠ 0 := by positivity
  unfold Policy.gain PsiElems.coef aggObs irmAte irmElems
  simp only [if_true]
  have h1 : mean (fun _ : Fin n => (1 : ℝ)) = 1 := by simp [mean, hn']
  have h2 : mean (fun _ : Fin n => -1 * ((1 : ℝ) / mean fun _ : Fin n => (1 : ℝ))) = -1 := by
    rw [h1]; simp [mean, hn']
  rw [h2]
  ring

/-- Non-vacuity: a learner that predicts labels, and a tree that can be fitted. -/
example : ∃ T : TreeLearner, T.PredictsLabels ∧ ∃ q, (⟨![1, -2], ⟨["x"], fun i => [(i : ℝ)]⟩, 2, none⟩ : PolicyTree 2).fit T = .ok q := by
  refine ⟨fun n _ _ y _ _ => if h : 0 < n then y ⟨0, h⟩ else 0, ?_, _, C47_fit_partial _ (by norm_num) ?_⟩
  · intro n hn k X y w x
    exact ⟨⟨0, hn⟩, dif_pos hn⟩
  · intro i; fin_cases i <;> simp

/-- Treating only the first of two observations with effects 1 and -2. -/
example : Policy.gain ![1, -2] ![true, false] = 1 / 2 ∧ accuracy (binSignal ![1, -2]) (absSignal ![1, -2]) ![true, false] = 3 := by
  constructor
  · simp [Policy.gain, mean]
  · rw [C47_accuracy_is_gain]
    simp [Policy.gain, mean]
    norm_num

end DML
