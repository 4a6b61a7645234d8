import Verif.Stats

/-!
# The variance estimator `_var_est`

Plain, one-way clustered and two-way clustered branches of
/repo/doubleml/utils/_estimation.py:259-322.
-/

namespace DML

open Finset

/-- One element `(train_inds, test_inds)` of `smpls[i_rep]` (indices into the observations). -/
structure Fold (n : ℕ) where
  train : List (Fin n)
  test : List (Fin n)

/-- One element of `smpls_cluster[i_rep]`, reduced to its second component (the test clusters of the
first and, for two-way clustering, the second cluster variable), the only part `_var_est` reads. -/
structure ClusterFold where
  test1 : List ℤ
  test2 : List ℤ

/-- `cluster_vars`: one or two columns of cluster labels (labels are integers; only equality of
labels is ever used). -/
inductive ClusterVars (n : ℕ)
  | one (c : Fin n → ℤ)
  | two (c₁ c₂ : Fin n → ℤ)

/-- The cluster arguments of `_var_est` for one repetition. -/
structure ClusterRep (n : ℕ) where
  vars : ClusterVars n
  smpls : List (Fold n)
  smplsCluster : List ClusterFold
  nFoldsPerCluster : ℕ

/-- `np.sum(np.outer(psi[ind], psi[ind]))` for the index set `S`
(/repo/doubleml/utils/_estimation.py:285,307,310). -/
noncomputable def outerSum {n : ℕ} (psi : Fin n → ℝ) (S : Finset (Fin n)) : ℝ :=
  ∑ i ∈ S, ∑ j ∈ S, psi i * psi j

/-- `len(np.unique(c))`. -/
def nUnique {n : ℕ} (c : Fin n → ℤ) : ℕ := (univ.image c).card

/-- `gamma_hat` of the one-way branch before the division by the number of folds
(/repo/doubleml/utils/_estimation.py:276-285). -/
noncomputable def gammaOne {n : ℕ} (c : Fin n → ℤ) (psi : Fin n → ℝ) (cf : List ClusterFold) : ℝ :=
  (cf.map fun f =>
    (f.test1.map fun v =>
      (1 / (f.test1.length : ℝ)) * outerSum psi (univ.filter fun i => c i = v)).sum).sum

/-- `j_hat` of the one-way branch before the division (/repo/doubleml/utils/_estimation.py:286). -/
noncomputable def jOne {n : ℕ} (deriv : Fin n → ℝ) (fs : List (Fold n × ClusterFold)) : ℝ :=
  (fs.map fun f => (f.1.test.map deriv).sum / (f.2.test1.length : ℝ)).sum

/-- The constant of the two-way branch (/repo/doubleml/utils/_estimation.py:303). -/
noncomputable def constTwo (f : ClusterFold) : ℝ :=
  (min f.test1.length f.test2.length : ℕ) / (((f.test1.length * f.test2.length : ℕ) : ℝ)) ^ 2

/-- `gamma_hat` of the two-way branch before the division
(/repo/doubleml/utils/_estimation.py:297-310). -/
noncomputable def gammaTwo {n : ℕ} (c₁ c₂ : Fin n → ℤ) (psi : Fin n → ℝ) (cf : List ClusterFold) : ℝ :=
  (cf.map fun f =>
    (f.test1.map fun v =>
      constTwo f * outerSum psi (univ.filter fun i => c₁ i = v ∧ c₂ i ∈ f.test2)).sum +
    (f.test2.map fun v =>
      constTwo f * outerSum psi (univ.filter fun i => c₂ i = v ∧ c₁ i ∈ f.test1)).sum).sum

/-- `j_hat` of the two-way branch before the division (/repo/doubleml/utils/_estimation.py:311). -/
noncomputable def jTwo {n : ℕ} (deriv : Fin n → ℝ) (fs : List (Fold n × ClusterFold)) : ℝ :=
  (fs.map fun f =>
    (f.1.test.map deriv).sum / ((f.2.test1.length * f.2.test2.length : ℕ) : ℝ)).sum

/-- `(gamma_hat, J, var_scaling_factor)` as computed by the three branches of `_var_est`
(/repo/doubleml/utils/_estimation.py:260-317). -/
noncomputable def varEstParts {n : ℕ} (psi deriv : Fin n → ℝ) : Option (ClusterRep n) → ℝ × ℝ × ℝ
  | none => (mean fun i => psi i ^ 2, mean deriv, n)
  | some cr =>
    match cr.vars with
    | .one c =>
      (gammaOne c psi cr.smplsCluster / cr.nFoldsPerCluster,
       jOne deriv (cr.smpls.zip cr.smplsCluster) / cr.nFoldsPerCluster,
       nUnique c)
    | .two c₁ c₂ =>
      (gammaTwo c₁ c₂ psi cr.smplsCluster / (cr.nFoldsPerCluster : ℝ) ^ 2,
       jTwo deriv (cr.smpls.zip cr.smplsCluster) / (cr.nFoldsPerCluster : ℝ) ^ 2,
       (min (nUnique c₁) (nUnique c₂) : ℕ))

/-- `_var_est` (/repo/doubleml/utils/_estimation.py:259-322): returns
`(sigma2_hat, var_scaling_factor)`. -/
noncomputable def varEst {n : ℕ} (psi deriv : Fin n → ℝ) (cr : Option (ClusterRep n)) : ℝ × ℝ :=
  let p := varEstParts psi deriv cr
  (1 / (p.2.2 * p.2.1 ^ 2) * p.1, p.2.2)

/-! ## Lemmas -/

section
variable {n : ℕ}

theorem outerSum_eq_sq (psi : Fin n → ℝ) (S : Finset (Fin n)) :
    outerSum psi S = (∑ i ∈ S, psi i) ^ 2 := by
  unfold outerSum
  rw [sq, Finset.sum_mul_sum]

theorem outerSum_nonneg (psi : Fin n → ℝ) (S : Finset (Fin n)) : 0 ≤ outerSum psi S := by
  rw [outerSum_eq_sq]; positivity

theorem gammaOne_nonneg (c : Fin n → ℤ) (psi : Fin n → ℝ) (cf : List ClusterFold) :
    0 ≤ gammaOne c psi cf := by
  unfold gammaOne
  refine List.sum_nonneg ?_
  simp only [List.mem_map]
  rintro x ⟨f, -, rfl⟩
  refine List.sum_nonneg ?_
  simp only [List.mem_map]
  rintro y ⟨v, -, rfl⟩
  have := outerSum_nonneg psi (univ.filter fun i => c i = v)
  positivity

theorem gammaTwo_nonneg (c₁ c₂ : Fin n → ℤ) (psi : Fin n → ℝ) (cf : List ClusterFold) :
    0 ≤ gammaTwo c₁ c₂ psi cf := by
  unfold gammaTwo
  refine List.sum_nonneg ?_
  simp only [List.mem_map]
  rintro x ⟨f, -, rfl⟩
  have hc : 0 ≤ constTwo f := by unfold constTwo; positivity
  refine add_nonneg (List.sum_nonneg ?_) (List.sum_nonneg ?_) <;>
  · simp only [List.mem_map]
    rintro y ⟨v, -, rfl⟩
    exact mul_nonneg hc (outerSum_nonneg _ _)

theorem varEstParts_nonneg (psi deriv : Fin n → ℝ) (cr : Option (ClusterRep n)) :
    0 ≤ (varEstParts psi deriv cr).1 ∧ 0 ≤ (varEstParts psi deriv cr).2.2 := by
  unfold varEstParts
  cases cr with
  | none => exact ⟨mean_sq_nonneg _, Nat.cast_nonneg _⟩
  | some cr =>
    simp only
    cases cr.vars with
    | one c => exact ⟨div_nonneg (gammaOne_nonneg _ _ _) (Nat.cast_nonneg _), Nat.cast_nonneg _⟩
    | two c₁ c₂ => exact ⟨div_nonneg (gammaTwo_nonneg _ _ _ _) (by positivity), Nat.cast_nonneg _⟩

/-- The variance estimate is never negative. -/
theorem varEst_nonneg (psi deriv : Fin n → ℝ) (cr : Option (ClusterRep n)) :
    0 ≤ (varEst psi deriv cr).1 := by
  have h := varEstParts_nonneg psi deriv cr
  unfold varEst
  have : 0 ≤ 1 / ((varEstParts psi deriv cr).2.2 * (varEstParts psi deriv cr).2.1 ^ 2) :=
    div_nonneg zero_le_one (mul_nonneg h.2 (sq_nonneg _))
  exact mul_nonneg this h.1

theorem outerSum_smul (a : ℝ) (psi : Fin n → ℝ) (S : Finset (Fin n)) :
    outerSum (fun i => a * psi i) S = a ^ 2 * outerSum psi S := by
  rw [outerSum_eq_sq, outerSum_eq_sq, ← Finset.mul_sum]; ring

private theorem list_sum_map_mul {α : Type*} (l : List α) (a : ℝ) (f : α → ℝ) :
    (l.map fun x => a * f x).sum = a * (l.map f).sum := List.sum_map_mul_left ..

theorem gammaOne_smul (a : ℝ) (c : Fin n → ℤ) (psi : Fin n → ℝ) (cf : List ClusterFold) :
    gammaOne c (fun i => a * psi i) cf = a ^ 2 * gammaOne c psi cf := by
  unfold gammaOne
  rw [← list_sum_map_mul]
  congr 1; apply List.map_congr_left; intro f _
  rw [← list_sum_map_mul]
  congr 1; apply List.map_congr_left; intro v _
  rw [outerSum_smul]; ring

theorem gammaTwo_smul (a : ℝ) (c₁ c₂ : Fin n → ℤ) (psi : Fin n → ℝ) (cf : List ClusterFold) :
    gammaTwo c₁ c₂ (fun i => a * psi i) cf = a ^ 2 * gammaTwo c₁ c₂ psi cf := by
  unfold gammaTwo
  rw [← list_sum_map_mul]
  congr 1; apply List.map_congr_left; intro f _
  rw [mul_add, ← list_sum_map_mul, ← list_sum_map_mul]
  congr 2 <;>
  · apply List.map_congr_left; intro v _
    rw [outerSum_smul]; ring

/-- Rescaling the score rescales the variance estimate quadratically, in every branch. -/
theorem varEst_smul (a : ℝ) (psi deriv : Fin n → ℝ) (cr : Option (ClusterRep n)) :
    varEst (fun i => a * psi i) deriv cr =
      (a ^ 2 * (varEst psi deriv cr).1, (varEst psi deriv cr).2) := by
  unfold varEst varEstParts
  cases cr with
  | none =>
    have : (mean fun i => (a * psi i) ^ 2) = a ^ 2 * mean fun i => psi i ^ 2 := by
      rw [← mean_mul_left]; congr 1; funext i; ring
    simp only [this]
    congr 1; ring
  | some cr =>
    rcases cr with ⟨_ | _, sm, smc, K⟩
    · simp only [gammaOne_smul]; congr 1; ring
    · simp only [gammaTwo_smul]; congr 1; ring

end

end DML
