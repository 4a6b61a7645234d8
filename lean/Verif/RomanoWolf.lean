import Verif.Framework

/-!
# Romano–Wolf step-down adjustment

Model of the `romano-wolf` branch of `p_adjust` (/repo/doubleml/double_ml_framework.py:741-767) for
one repetition: `t : Fin p → ℝ` are the t statistics, `boot : Fin B → Fin p → ℝ` the bootstrap
statistics.
-/

namespace DML

open Finset

variable {p B : ℕ}

/-- `σ` is a possible result of `np.argsort(f)[::-1]`: it lists the indices by decreasing value.
numpy's default sort is not stable, so nothing is assumed about ties. -/
def IsDescSort (f : Fin p → ℝ) (σ : Equiv.Perm (Fin p)) : Prop := ∀ i j, i ≤ j → f (σ j) ≤ f (σ i)

/-- `ρ` is a possible result of `np.argsort(f)` for a list of indices `f`. -/
def IsAscSort (f : Fin p → Fin p) (ρ : Equiv.Perm (Fin p)) : Prop := ∀ i j, i ≤ j → f (ρ i) ≤ f (ρ j)

/-- `np.max(abs(np.delete(bootstrap_t_stats, stepdown_ind[:i_theta], axis=1)), axis=1)`
(/repo/doubleml/double_ml_framework.py:755). -/
noncomputable def rwCrit (boot : Fin B → Fin p → ℝ) (σ : Equiv.Perm (Fin p)) (i : Fin p) (b : Fin B) : ℝ :=
  maxList (((List.finRange p).filter fun c => decide (¬ ∃ a, a < i ∧ σ a = c)).map fun c => |boot b c|)

/-- `p_init[i_theta]` (/repo/doubleml/double_ml_framework.py:756). -/
noncomputable def rwInit (t : Fin p → ℝ) (boot : Fin B → Fin p → ℝ) (σ : Equiv.Perm (Fin p)) (i : Fin p) :
    ℝ :=
  min 1 (mean fun b => if rwCrit boot σ i b ≥ |t (σ i)| then (1 : ℝ) else 0)

/-- The running maximum (/repo/doubleml/double_ml_framework.py:758-764). -/
noncomputable def runMax (f : Fin p → ℝ) : (i : ℕ) → i < p → ℝ
  | 0, h => f ⟨0, h⟩
  | i + 1, h => max (f ⟨i + 1, h⟩) (runMax f i (by omega))

/-- Adjusted p-values of one repetition in the original order
(/repo/doubleml/double_ml_framework.py:749-767), for `stepdown_ind = σ` and `ro = ρ`. -/
noncomputable def romanoWolf (t : Fin p → ℝ) (boot : Fin B → Fin p → ℝ) (σ ρ : Equiv.Perm (Fin p))
    (j : Fin p) : ℝ :=
  runMax (rwInit t boot σ) (ρ j).val (ρ j).isLt

/-! ## Lemmas -/

/-- `np.argsort` of a permutation is its inverse. -/
theorem ascSort_perm {σ ρ : Equiv.Perm (Fin p)} (h : IsAscSort σ ρ) : ρ = σ.symm := by
  have hm : StrictMono (fun i => σ (ρ i)) := by
    intro i j hij
    refine lt_of_le_of_ne (h i j hij.le) fun he => ?_
    exact absurd (ρ.injective (σ.injective he)) (ne_of_lt hij)
  have hid : ∀ i, σ (ρ i) = i := by
    intro i
    have := hm.range_inj (g := id) strictMono_id
    have h2 : (fun i => σ (ρ i)) = id := this.1 (by
      rw [Set.range_id]
      exact (ρ.trans σ).surjective.range_eq)
    exact congrFun h2 i
  ext i
  have := hid i
  rw [Equiv.eq_symm_apply .. |>.2 this]

theorem le_runMax (f : Fin p → ℝ) (i : ℕ) (h : i < p) (a : Fin p) (ha : a.val ≤ i) :
    f a ≤ runMax f i h := by
  induction i with
  | zero =>
    have : a = ⟨0, h⟩ := Fin.ext (by simpa using ha)
    rw [this]; exact le_rfl
  | succ i ih =>
    rw [runMax]
    rcases Nat.lt_or_ge a.val (i + 1) with hl | hl
    · exact le_max_of_le_right (ih _ (by omega))
    · have : a = ⟨i + 1, h⟩ := Fin.ext (le_antisymm ha hl)
      rw [this]; exact le_max_left _ _

theorem runMax_mem (f : Fin p → ℝ) (i : ℕ) (h : i < p) :
    ∃ a : Fin p, a.val ≤ i ∧ runMax f i h = f a := by
  induction i with
  | zero => exact ⟨⟨0, h⟩, le_rfl, rfl⟩
  | succ i ih =>
    rw [runMax]
    obtain ⟨a, ha, he⟩ := ih (by omega)
    rcases max_choice (f ⟨i + 1, h⟩) (runMax f i (by omega)) with hm | hm
    · exact ⟨⟨i + 1, h⟩, le_rfl, hm⟩
    · exact ⟨a, by omega, by rw [hm, he]⟩

theorem le_maxList {l : List ℝ} {x : ℝ} (h : x ∈ l) : x ≤ maxList l := by
  induction l with
  | nil => simp at h
  | cons a l ih =>
    rw [show maxList (a :: l) = max a (maxList l) from rfl]
    rcases List.mem_cons.1 h with rfl | h
    · exact le_max_left _ _
    · exact (ih h).trans (le_max_right _ _)

theorem maxList_mem {l : List ℝ} (hne : l ≠ []) (h0 : ∀ x ∈ l, 0 ≤ x) : maxList l ∈ l := by
  induction l with
  | nil => exact absurd rfl hne
  | cons a l ih =>
    rw [show maxList (a :: l) = max a (maxList l) from rfl]
    by_cases hl : l = []
    · subst hl
      simp [maxList, h0 a (by simp)]
    · rcases max_choice a (maxList l) with h | h <;> rw [h]
      · simp
      · exact List.mem_cons_of_mem _ (ih hl fun x hx => h0 x (by simp [hx]))

theorem le_maxList_iff {l : List ℝ} {x : ℝ} (hne : l ≠ []) (h0 : ∀ y ∈ l, 0 ≤ y) :
    x ≤ maxList l ↔ ∃ y ∈ l, x ≤ y :=
  ⟨fun h => ⟨_, maxList_mem hne h0, h⟩, fun ⟨_, hy, hx⟩ => hx.trans (le_maxList hy)⟩

/-- The maximum over the remaining columns reaches `x` iff some remaining column does. -/
theorem le_rwCrit_iff (boot : Fin B → Fin p → ℝ) (σ : Equiv.Perm (Fin p)) (i : Fin p) (b : Fin B)
    (x : ℝ) : x ≤ rwCrit boot σ i b ↔ ∃ a, i ≤ a ∧ x ≤ |boot b (σ a)| := by
  rw [rwCrit, le_maxList_iff]
  · constructor
    · rintro ⟨y, hy, hx⟩
      simp only [List.mem_map, List.mem_filter, List.mem_finRange, true_and, decide_eq_true_eq] at hy
      obtain ⟨c, hc, rfl⟩ := hy
      refine ⟨σ.symm c, ?_, by simpa using hx⟩
      by_contra hlt
      exact hc ⟨σ.symm c, not_le.1 hlt, by simp⟩
    · rintro ⟨a, ha, hx⟩
      refine ⟨_, ?_, hx⟩
      simp only [List.mem_map, List.mem_filter, List.mem_finRange, true_and, decide_eq_true_eq]
      refine ⟨σ a, ?_, rfl⟩
      rintro ⟨a', ha', he⟩
      exact absurd (σ.injective he ▸ ha') (not_lt.2 ha)
  · have : |boot b (σ i)| ∈ ((List.finRange p).filter fun c => decide (¬ ∃ a, a < i ∧ σ a = c)).map
        fun c => |boot b c| := by
      simp only [List.mem_map, List.mem_filter, List.mem_finRange, true_and, decide_eq_true_eq]
      refine ⟨σ i, ?_, rfl⟩
      rintro ⟨a', ha', he⟩
      exact absurd (σ.injective he ▸ ha') (lt_irrefl _)
    exact List.ne_nil_of_mem this
  · intro y hy
    obtain ⟨c, _, rfl⟩ := List.mem_map.1 hy
    exact abs_nonneg _

open Classical in
/-- Fraction of the bootstrap draws in which `P` holds. -/
noncomputable def fracDraws (P : Fin B → Prop) : ℝ := mean fun b => if P b then (1 : ℝ) else 0

theorem fracDraws_mono {P Q : Fin B → Prop} (h : ∀ b, P b → Q b) : fracDraws P ≤ fracDraws Q := by
  classical
  refine mean_mono fun b => ?_
  by_cases hp : P b
  · simp [hp, h b hp]
  · simp only [hp, if_false]; split_ifs <;> norm_num

theorem fracDraws_nonneg (P : Fin B → Prop) : 0 ≤ fracDraws P :=
  mean_nonneg fun b => by split_ifs <;> norm_num

theorem fracDraws_le_one (P : Fin B → Prop) : fracDraws P ≤ 1 := by
  rcases Nat.eq_zero_or_pos B with rfl | hB
  · simp [fracDraws, mean]
  · calc fracDraws P ≤ mean (fun _ : Fin B => (1 : ℝ)) := mean_mono fun b => by split_ifs <;> norm_num
      _ = 1 := mean_const hB 1

theorem rwInit_eq (t : Fin p → ℝ) (boot : Fin B → Fin p → ℝ) (σ : Equiv.Perm (Fin p)) (i : Fin p) :
    rwInit t boot σ i = fracDraws fun b => ∃ a, i ≤ a ∧ |t (σ i)| ≤ |boot b (σ a)| := by
  classical
  have : (mean fun b => if rwCrit boot σ i b ≥ |t (σ i)| then (1 : ℝ) else 0) =
      fracDraws fun b => ∃ a, i ≤ a ∧ |t (σ i)| ≤ |boot b (σ a)| := by
    unfold fracDraws
    congr 1; funext b
    by_cases h : ∃ a, i ≤ a ∧ |t (σ i)| ≤ |boot b (σ a)|
    · rw [if_pos ((le_rwCrit_iff ..).2 h), if_pos h]
    · rw [if_neg fun hc => h ((le_rwCrit_iff ..).1 hc), if_neg h]
  rw [rwInit, this, min_eq_right (fracDraws_le_one _)]

end DML
