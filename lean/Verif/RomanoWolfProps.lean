import Verif.RomanoWolf

/-!
# Romano–Wolf p-values (C11, C12)
-/

namespace DML

open Finset

variable {p B : ℕ}

/-- Specification: bootstrap probability that some hypothesis not more significant than `i` has a
bootstrap statistic reaching `|t_i|`. -/
noncomputable def rwLevel (t : Fin p → ℝ) (boot : Fin B → Fin p → ℝ) (i : Fin p) : ℝ :=
  fracDraws fun b => ∃ k, |t k| ≤ |t i| ∧ |t i| ≤ |boot b k|

/-- Specification of the step-down p-value of hypothesis `j`: the largest `rwLevel` over all
hypotheses at least as significant as `j`. -/
def IsStepDownP (t : Fin p → ℝ) (boot : Fin B → Fin p → ℝ) (j : Fin p) (x : ℝ) : Prop :=
  IsGreatest {y | ∃ i, |t j| ≤ |t i| ∧ y = rwLevel t boot i} x

/-- **C11.** Whatever the order of the parameters and however ties are sorted, the returned p-value is
the step-down p-value. -/
theorem C11_romano_wolf_is_stepdown (t : Fin p → ℝ) (boot : Fin B → Fin p → ℝ)
    (σ ρ : Equiv.Perm (Fin p)) (hσ : IsDescSort (fun i => |t i|) σ) (hρ : IsAscSort σ ρ) (j : Fin p) :
    IsStepDownP t boot j (romanoWolf t boot σ ρ j) := by
  classical
  have hρ' := ascSort_perm hρ
  subst hρ'
  -- the p-value of a position is at most the level of its hypothesis …
  have hle : ∀ a, rwInit t boot σ a ≤ rwLevel t boot (σ a) := by
    intro a
    rw [rwInit_eq]
    refine fracDraws_mono fun b => ?_
    rintro ⟨c, hc, hb⟩
    exact ⟨σ c, hσ a c hc, hb⟩
  -- … and the level of a hypothesis is attained at the first position of its tie group
  have hfirst : ∀ i, ∃ a, |t (σ a)| = |t i| ∧ a ≤ σ.symm i ∧ (∀ c, c < a → |t i| < |t (σ c)|) ∧
      rwInit t boot σ a = rwLevel t boot i := by
    intro i
    let S : Finset (Fin p) := univ.filter fun a => |t (σ a)| = |t i|
    have hi : σ.symm i ∈ S := by simp [S]
    have hne : S.Nonempty := ⟨_, hi⟩
    have hmin : S.min' hne ∈ S := S.min'_mem hne
    have hEq : |t (σ (S.min' hne))| = |t i| := by simpa [S] using hmin
    have hbefore : ∀ c, c < S.min' hne → |t i| < |t (σ c)| := by
      intro c hc
      refine lt_of_le_of_ne ?_ fun he => ?_
      · rw [← hEq]; exact hσ c _ hc.le
      · exact absurd (S.min'_le c (by simp [S, he])) (not_le.2 hc)
    refine ⟨S.min' hne, hEq, S.min'_le _ hi, hbefore, ?_⟩
    rw [rwInit_eq, rwLevel]
    apply le_antisymm
    · refine fracDraws_mono fun b => ?_
      rintro ⟨c, hc, hb⟩
      rw [hEq] at hb
      exact ⟨σ c, by rw [← hEq]; exact hσ _ c hc, hb⟩
    · refine fracDraws_mono fun b => ?_
      rintro ⟨k, hk, hb⟩
      refine ⟨σ.symm k, ?_, by rw [hEq]; simpa using hb⟩
      by_contra hlt
      have := hbefore _ (not_le.1 hlt)
      simp only [Equiv.apply_symm_apply] at this
      exact absurd hk (not_le.2 this)
  constructor
  · obtain ⟨a, ha, he⟩ := runMax_mem (rwInit t boot σ) (σ.symm j).val (σ.symm j).isLt
    have hge : |t j| ≤ |t (σ a)| := by
      have := hσ a (σ.symm j) ha
      simpa using this
    -- the maximum is attained at the first position of the tie group of `σ a`
    obtain ⟨a', _, ha'2, _, ha'4⟩ := hfirst (σ a)
    refine ⟨σ a, hge, le_antisymm ?_ ?_⟩
    · rw [romanoWolf, he]; exact hle a
    · rw [romanoWolf, ← ha'4]
      refine le_runMax _ _ _ _ ?_
      rw [Equiv.symm_apply_apply] at ha'2
      exact le_trans ha'2 ha
  · rintro y ⟨i, hi, rfl⟩
    obtain ⟨a, ha1, _, ha3, ha4⟩ := hfirst i
    rw [romanoWolf, ← ha4]
    refine le_runMax _ _ _ _ ?_
    by_contra hlt
    have := ha3 (σ.symm j) (by simpa using hlt)
    simp only [Equiv.apply_symm_apply] at this
    exact absurd hi (not_le.2 this)

/-- **C11.** The result does not depend on the sorting of ties. -/
theorem C11_ties_irrelevant (t : Fin p → ℝ) (boot : Fin B → Fin p → ℝ) (σ ρ σ' ρ' : Equiv.Perm (Fin p))
    (hσ : IsDescSort (fun i => |t i|) σ) (hρ : IsAscSort σ ρ)
    (hσ' : IsDescSort (fun i => |t i|) σ') (hρ' : IsAscSort σ' ρ') :
    romanoWolf t boot σ ρ = romanoWolf t boot σ' ρ' :=
  funext fun j => (C11_romano_wolf_is_stepdown t boot σ ρ hσ hρ j).unique
    (C11_romano_wolf_is_stepdown t boot σ' ρ' hσ' hρ' j)

/-- **C11.** Listing the parameters in another order permutes the p-values accordingly. -/
theorem C11_order_equivariant (t : Fin p → ℝ) (boot : Fin B → Fin p → ℝ) (π σ ρ σ' ρ' : Equiv.Perm (Fin p))
    (hσ : IsDescSort (fun i => |t i|) σ) (hρ : IsAscSort σ ρ)
    (hσ' : IsDescSort (fun i => |t (π i)|) σ') (hρ' : IsAscSort σ' ρ') (j : Fin p) :
    romanoWolf (fun i => t (π i)) (fun b i => boot b (π i)) σ' ρ' j = romanoWolf t boot σ ρ (π j) := by
  refine (C11_romano_wolf_is_stepdown _ _ σ' ρ' hσ' hρ' j).unique ?_
  have h := C11_romano_wolf_is_stepdown t boot σ ρ hσ hρ (π j)
  have hlev : ∀ i, rwLevel (fun i => t (π i)) (fun b i => boot b (π i)) i = rwLevel t boot (π i) := by
    intro i
    unfold rwLevel
    congr 1; funext b
    exact propext ⟨fun ⟨k, hk⟩ => ⟨π k, hk⟩, fun ⟨k, hk⟩ => ⟨π.symm k, by simpa using hk⟩⟩
  obtain ⟨⟨i, hi, he⟩, hmax⟩ := h
  refine ⟨⟨π.symm i, by simpa using hi, by rw [hlev, Equiv.apply_symm_apply]; exact he⟩, ?_⟩
  rintro y ⟨i, hi, rfl⟩
  exact hmax ⟨π i, hi, hlev i⟩

/-- **C12.** Adjusted p-values are p-values. -/
theorem C12_in_unit (t : Fin p → ℝ) (boot : Fin B → Fin p → ℝ) (σ ρ : Equiv.Perm (Fin p))
    (hσ : IsDescSort (fun i => |t i|) σ) (hρ : IsAscSort σ ρ) (j : Fin p) :
    0 ≤ romanoWolf t boot σ ρ j ∧ romanoWolf t boot σ ρ j ≤ 1 := by
  obtain ⟨i, _, h⟩ := (C11_romano_wolf_is_stepdown t boot σ ρ hσ hρ j).1
  rw [h]
  exact ⟨fracDraws_nonneg _, fracDraws_le_one _⟩

/-- **C12.** A more significant hypothesis never has a larger adjusted p-value. -/
theorem C12_monotone (t : Fin p → ℝ) (boot : Fin B → Fin p → ℝ) (σ ρ : Equiv.Perm (Fin p))
    (hσ : IsDescSort (fun i => |t i|) σ) (hρ : IsAscSort σ ρ) (j k : Fin p) (h : |t j| ≤ |t k|) :
    romanoWolf t boot σ ρ k ≤ romanoWolf t boot σ ρ j := by
  obtain ⟨i, hi, he⟩ := (C11_romano_wolf_is_stepdown t boot σ ρ hσ hρ k).1
  exact (C11_romano_wolf_is_stepdown t boot σ ρ hσ hρ j).2 ⟨i, h.trans hi, he⟩

/-- **C12.** Between the single-hypothesis bootstrap p-value and the single-step max-t p-value. -/
theorem C12_between (t : Fin p → ℝ) (boot : Fin B → Fin p → ℝ) (σ ρ : Equiv.Perm (Fin p))
    (hσ : IsDescSort (fun i => |t i|) σ) (hρ : IsAscSort σ ρ) (j : Fin p) :
    (fracDraws fun b => |t j| ≤ |boot b j|) ≤ romanoWolf t boot σ ρ j ∧
    romanoWolf t boot σ ρ j ≤ fracDraws fun b => ∃ k, |t j| ≤ |boot b k| := by
  have h := C11_romano_wolf_is_stepdown t boot σ ρ hσ hρ j
  constructor
  · refine le_trans ?_ (h.2 ⟨j, le_rfl, rfl⟩)
    exact fracDraws_mono fun b hb => ⟨j, le_rfl, hb⟩
  · obtain ⟨i, hi, he⟩ := h.1
    rw [he]
    exact fracDraws_mono fun b ⟨k, _, hk⟩ => ⟨k, hi.trans hk⟩

/-- **C12.** Testing more hypotheses never lowers an adjusted p-value: if the hypotheses of a family
reappear (with the same statistics and draws) in a larger family, their p-values can only grow. -/
theorem C12_family_monotone {q : ℕ} (e : Fin p → Fin q) (t : Fin p → ℝ) (boot : Fin B → Fin p → ℝ)
    (t' : Fin q → ℝ) (boot' : Fin B → Fin q → ℝ) (ht : ∀ i, t' (e i) = t i)
    (hb : ∀ b i, boot' b (e i) = boot b i) (σ ρ : Equiv.Perm (Fin p)) (σ' ρ' : Equiv.Perm (Fin q))
    (hσ : IsDescSort (fun i => |t i|) σ) (hρ : IsAscSort σ ρ)
    (hσ' : IsDescSort (fun i => |t' i|) σ') (hρ' : IsAscSort σ' ρ') (j : Fin p) :
    romanoWolf t boot σ ρ j ≤ romanoWolf t' boot' σ' ρ' (e j) := by
  obtain ⟨i, hi, he⟩ := (C11_romano_wolf_is_stepdown t boot σ ρ hσ hρ j).1
  rw [he]
  refine le_trans ?_ ((C11_romano_wolf_is_stepdown t' boot' σ' ρ' hσ' hρ' (e j)).2
    ⟨e i, by rw [ht, ht]; exact hi, rfl⟩)
  refine fracDraws_mono fun b => ?_
  rintro ⟨k, hk, hbk⟩
  exact ⟨e k, by rw [ht, ht]; exact hk, by rw [ht, hb]; exact hbk⟩

/-- **C12.** With one hypothesis there is no adjustment. -/
theorem C12_single_hypothesis (t : Fin 1 → ℝ) (boot : Fin B → Fin 1 → ℝ) (σ ρ : Equiv.Perm (Fin 1)) :
    romanoWolf t boot σ ρ 0 = fracDraws fun b => |t 0| ≤ |boot b 0| := by
  have hd : IsDescSort (fun i => |t i|) σ := fun i j _ => by rw [Subsingleton.elim (σ j) (σ i)]
  have ha : IsAscSort σ ρ := fun i j _ => by rw [Subsingleton.elim (σ (ρ i)) (σ (ρ j))]
  have h := C12_between t boot σ ρ hd ha 0
  refine le_antisymm (h.2.trans (fracDraws_mono ?_)) h.1
  rintro b ⟨k, hk⟩
  rwa [Subsingleton.elim k 0] at hk

/-- Sorting permutations exist for all statistics (non-vacuity of C11/C12 for every input). -/
theorem exists_sorts (f : Fin p → ℝ) : ∃ σ ρ : Equiv.Perm (Fin p), IsDescSort f σ ∧ IsAscSort σ ρ := by
  refine ⟨Tuple.sort fun i => -f i, (Tuple.sort fun i => -f i).symm, ?_, ?_⟩
  · intro i j hij
    have := Tuple.monotone_sort (fun i => -f i) hij
    simp only [Function.comp_apply] at this
    linarith
  · intro i j hij; simpa using hij

example : ∃ σ ρ : Equiv.Perm (Fin 3), IsDescSort (fun i => |(![1, -2, 2] : Fin 3 → ℝ) i|) σ ∧ IsAscSort σ ρ :=
  exists_sorts _

end DML
