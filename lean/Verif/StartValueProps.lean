import Verif.NestedProps

/-!
# C43: the start values of the searches for quantiles and CVaRs
-/

namespace DML

open Finset

variable {n : ℕ}

theorem quantile_between {B : ℕ} {f : Fin B → ℝ} (hB : 0 < B) {l u : ℝ} (h : ∀ i, l ≤ f i ∧ f i ≤ u) {q : ℝ} (h0 : 0 ≤ q)
    (h1 : q ≤ 1) : l ≤ quantile f q ∧ quantile f q ≤ u := by
  have e1 := quantile_mono (f := fun _ => l) (fun i => (h i).1) h0 h1
  have e2 := quantile_mono (g := fun _ => u) (fun i => (h i).2) h0 h1
  rw [quantile_const hB] at e1 e2
  exact ⟨e1, e2⟩

/-- Some value is at least the quantile. -/
theorem exists_ge_quantile {B : ℕ} {f : Fin B → ℝ} (hB : 0 < B) {q : ℝ} (h0 : 0 ≤ q) (h1 : q ≤ 1) : ∃ i, quantile f q ≤ f i := by
  obtain ⟨i, -, hi⟩ := Finset.exists_max_image univ f ⟨⟨0, hB⟩, Finset.mem_univ _⟩
  have e2 := quantile_mono (g := fun _ => f i) (fun j => hi j (Finset.mem_univ j)) h0 h1
  rw [quantile_const hB] at e2
  exact ⟨i, e2⟩

theorem list_mean_between {l : List ℝ} {a b : ℝ} (hl : l ≠ []) (h : ∀ v ∈ l, a ≤ v ∧ v ≤ b) :
    a ≤ l.sum / l.length ∧ l.sum / l.length ≤ b := by
  have hp : (0 : ℝ) < l.length := by exact_mod_cast List.length_pos_iff.2 hl
  rw [le_div_iff₀ hp, div_le_iff₀ hp]
  have h1 := List.card_nsmul_le_sum l a fun v hv => (h v hv).1
  have h2 := List.sum_le_card_nsmul l b fun v hv => (h v hv).2
  rw [nsmul_eq_mul] at h1 h2
  exact ⟨by linarith, by linarith⟩

/-- **C43.** If the treatment level occurs, the search of PQ and LPQ starts at a value between the smallest and the largest
outcome, that of CVaR between the start of PQ and the largest outcome, namely at the mean of the treated outcomes that are
not below the quantile. -/
theorem C43_start_values {y d : Fin n → ℝ} {treatment q trimT : ℝ} {nrm : Bool} (hd : ∃ i, d i = treatment) (h0 : 0 ≤ q)
    (h1 : q ≤ 1) :
    let P := pqSettings treatment q trimT nrm y d
    let C := cvarSettings treatment q trimT nrm y d
    P.lo = C.lo ∧ P.hi = C.hi ∧ (∀ i, P.lo ≤ y i ∧ y i ≤ P.hi) ∧ (∃ i, y i = P.lo) ∧ (∃ i, y i = P.hi) ∧
    P.lo ≤ P.start ∧ P.start ≤ C.start ∧ C.start ≤ C.hi ∧
    C.start = (∑ i with d i = treatment ∧ P.start ≤ y i, y i) / #{i | d i = treatment ∧ P.start ≤ y i} := by
  obtain ⟨i0, hi0⟩ := hd
  have : Nonempty (Fin n) := ⟨i0⟩
  have hb : ∀ i, (coefBounds y).1 ≤ y i ∧ y i ≤ (coefBounds y).2 := fun i =>
    ⟨ciInf_le (Set.finite_range y).bddBelow i, le_ciSup (Set.finite_range y).bddAbove i⟩
  have hmem : ∀ v ∈ treatedY y d treatment, (coefBounds y).1 ≤ v ∧ v ≤ (coefBounds y).2 := by
    intro v hv
    obtain ⟨i, -, rfl⟩ := List.mem_map.1 hv
    exact hb i
  have hpos : 0 < (treatedY y d treatment).length := by
    refine List.length_pos_iff.2 fun h => ?_
    have : y i0 ∈ treatedY y d treatment :=
      List.mem_map.2 ⟨i0, List.mem_filter.2 ⟨List.mem_finRange i0, by simpa using hi0⟩, rfl⟩
    rw [h] at this
    cases this
  have hq := quantile_between hpos (f := fun i => (treatedY y d treatment).get i) (fun i => hmem _ (List.get_mem _ i)) h0 h1
  obtain ⟨k, hk⟩ := exists_ge_quantile hpos (f := fun i => (treatedY y d treatment).get i) h0 h1
  have hu : ((treatedY y d treatment).filter fun v => decide (pqStart y d treatment q ≤ v)) ≠ [] := by
    intro h
    have := (List.filter_eq_nil_iff.1 h) _ (List.get_mem _ k)
    exact this (decide_eq_true hk)
  have hc := list_mean_between hu (a := pqStart y d treatment q) (b := (coefBounds y).2) fun v hv => by
    obtain ⟨h2, h3⟩ := List.mem_filter.1 hv
    exact ⟨by simpa using h3, (hmem v h2).2⟩
  refine ⟨rfl, rfl, hb, ?_, ?_, hq.1, hc.1, hc.2, ?_⟩
  · obtain ⟨i, hi⟩ := exists_eq_ciInf_of_finite (f := y)
    exact ⟨i, hi⟩
  · obtain ⟨i, hi⟩ := exists_eq_ciSup_of_finite (f := y)
    exact ⟨i, hi⟩
  · show ((treatedY y d treatment).filter fun v => decide (pqStart y d treatment q ≤ v)).sum /
      ((treatedY y d treatment).filter fun v => decide (pqStart y d treatment q ≤ v)).length = _
    have e : ((treatedY y d treatment).filter fun v => decide (pqStart y d treatment q ≤ v)) =
        ((List.finRange n).filter fun i => decide (d i = treatment ∧ pqStart y d treatment q ≤ y i)).map y := by
      unfold treatedY
      rw [List.filter_map, List.filter_filter]
      congr 1
      refine List.filter_congr fun i _ => ?_
      rw [Bool.decide_and, Bool.and_comm]
      rfl
    rw [e, List.length_map]
    show _ = (∑ i with d i = treatment ∧ pqStart y d treatment q ≤ y i, y i) / (#{i | d i = treatment ∧ pqStart y d treatment q ≤ y i} : ℝ)
    generalize pqStart y d treatment q = c
    have key : ∀ p : Fin n → Prop, ∀ _ : DecidablePred p, (((List.finRange n).filter fun i => decide (p i)).map y).sum = ∑ i with p i, y i ∧
        ((List.finRange n).filter fun i => decide (p i)).length = #{i | p i} := by
      intro p _
      have e2 : (univ.filter p).val = (((List.finRange n).filter fun i => decide (p i) : List (Fin n)) : Multiset (Fin n)) := rfl
      exact ⟨by unfold Finset.sum; rw [e2]; rfl, by unfold Finset.card; rw [e2]; rfl⟩
    obtain ⟨k1, k2⟩ := key (fun i => d i = treatment ∧ c ≤ y i) inferInstance
    rw [k1, k2]

example : ∃ i, (![0, 1, 1] : Fin 3 → ℝ) i = 1 := ⟨1, rfl⟩

end DML
