import Verif.LinearScoreProps

/-!
# Clustered estimates and standard errors (C21, continued)
-/

namespace DML

open Finset

variable {n : ℕ}

/-- The total of a vector over the observations with a property. -/
noncomputable def total (psi : Fin n → ℝ) (P : Fin n → Prop) : ℝ := open Classical in ∑ i ∈ univ.filter P, psi i

theorem outerSum_total (psi : Fin n → ℝ) (P : Fin n → Prop) [DecidablePred P] :
    outerSum psi (univ.filter P) = total psi P ^ 2 := by
  rw [outerSum_eq_sq, total]
  congr!

/-- **C21 (one-way standard error).** With `K` folds, the squared standard error is the average over the folds of the mean
squared cluster total of the score, divided by the number of clusters and by the squared average over the folds of the
derivative per cluster. -/
theorem C21_one_way_formula (c : Fin n → ℤ) (smpls : List (Fold n)) (cf : List ClusterFold) (K : ℕ) (e : PsiElems n) :
    (e.fit (some ⟨.one c, smpls, cf, K⟩)).se ^ 2 =
      (cf.map fun f => (f.test1.map fun v => total (e.fit (some ⟨.one c, smpls, cf, K⟩)).psi (fun i => c i = v) ^ 2).sum /
        (f.test1.length : ℝ)).sum / K /
      ((univ.image c).card * (((smpls.zip cf).map fun f => (f.1.test.map e.a).sum / (f.2.test1.length : ℝ)).sum / K) ^ 2) := by
  have h := varEst_nonneg (e.score (e.coef (some ⟨.one c, smpls, cf, K⟩))) e.a (some ⟨.one c, smpls, cf, K⟩)
  simp only [PsiElems.fit, Real.sq_sqrt h]
  simp only [varEst, varEstParts, gammaOne, jOne, nUnique, outerSum_total, list_sum_map_mul_left]
  rw [one_div, inv_mul_eq_div]
  simp only [one_div, inv_mul_eq_div]

/-- **C21 (two-way standard error).** The squared standard error adds up the squared totals of the score over the clusters
of both dimensions within every test set, weighted by `min(|I|, |J|) / (|I| |J|)²`, and divides by the smaller number of
clusters and the squared average derivative. -/
theorem C21_two_way_formula (c₁ c₂ : Fin n → ℤ) (smpls : List (Fold n)) (cf : List ClusterFold) (K : ℕ) (e : PsiElems n) :
    let psi := (e.fit (some ⟨.two c₁ c₂, smpls, cf, K⟩)).psi
    (e.fit (some ⟨.two c₁ c₂, smpls, cf, K⟩)).se ^ 2 =
      (cf.map fun f => min (f.test1.length : ℝ) f.test2.length / ((f.test1.length : ℝ) * f.test2.length) ^ 2 *
        ((f.test1.map fun v => total psi (fun i => c₁ i = v ∧ c₂ i ∈ f.test2) ^ 2).sum +
          (f.test2.map fun v => total psi (fun i => c₂ i = v ∧ c₁ i ∈ f.test1) ^ 2).sum)).sum / (K : ℝ) ^ 2 /
      (min ((univ.image c₁).card : ℝ) (univ.image c₂).card *
        (((smpls.zip cf).map fun f => (f.1.test.map e.a).sum / ((f.2.test1.length : ℝ) * f.2.test2.length)).sum /
          (K : ℝ) ^ 2) ^ 2) := by
  intro psi
  have h := varEst_nonneg (e.score (e.coef (some ⟨.two c₁ c₂, smpls, cf, K⟩))) e.a (some ⟨.two c₁ c₂, smpls, cf, K⟩)
  simp only [psi, PsiElems.fit, Real.sq_sqrt h]
  simp only [varEst, varEstParts, gammaTwo, jTwo, nUnique, constTwo, outerSum_total, list_sum_map_mul_left,
    Nat.cast_min, Nat.cast_mul, ← mul_add]
  rw [one_div, inv_mul_eq_div]

/-! ## Complete two-way designs -/

/-- Every test set consists of the observations whose clusters are in the two lists of test clusters, and there is exactly
one observation for every pair. -/
structure CompleteFold (c₁ c₂ : Fin n → ℤ) (f : Fold n) (g : ClusterFold) : Prop where
  nodup1 : g.test1.Nodup
  nodup2 : g.test2.Nodup
  pairs : List.Perm (f.test.map fun i => (c₁ i, c₂ i)) (g.test1 ×ˢ g.test2)

/-- **C21 (two-way estimate).** If every pair of clusters is observed exactly once, the two-way clustered estimate gives
every fold the same weight, however many observations it has: it solves the average over the folds of the mean scores. -/
theorem C21_two_way_complete {c₁ c₂ : Fin n → ℤ} {smpls : List (Fold n)} {cf : List ClusterFold} (K : ℕ)
    (h : List.Forall₂ (CompleteFold c₁ c₂) smpls cf) (e : PsiElems n) :
    (e.fit (some ⟨.two c₁ c₂, smpls, cf, K⟩)).coef =
      - (smpls.map fun f => (f.test.map e.b).sum / (f.test.length : ℝ)).sum /
        (smpls.map fun f => (f.test.map e.a).sum / (f.test.length : ℝ)).sum := by
  have hagg : ∀ g : Fin n → ℝ, aggObs (some ⟨.two c₁ c₂, smpls, cf, K⟩) g =
      (smpls.map fun f => (f.test.map g).sum / (f.test.length : ℝ)).sum := by
    intro g
    simp only [aggObs]
    rw [zip_sum_eq h _ fun f => (f.test.map g).sum / (f.test.length : ℝ)]
    intro f _ g' hg
    have hl : f.test.length = g'.test1.length * g'.test2.length := by
      have := hg.pairs.length_eq
      simpa [List.length_product] using this
    simp only [clusterWeight, hl]
    rw [one_div, inv_mul_eq_div]
  simp only [PsiElems.fit, PsiElems.coef, hagg]

/-- Non-vacuity: two clusters in each dimension, one observation per pair, four folds. -/
example : List.Forall₂ (CompleteFold (n := 4) ![0, 0, 1, 1] ![0, 1, 0, 1])
    [⟨[3], [0]⟩, ⟨[2], [1]⟩, ⟨[1], [2]⟩, ⟨[0], [3]⟩]
    [⟨[0], [0]⟩, ⟨[0], [1]⟩, ⟨[1], [0]⟩, ⟨[1], [1]⟩] := by
  refine .cons ⟨?_, ?_, ?_⟩ (.cons ⟨?_, ?_, ?_⟩ (.cons ⟨?_, ?_, ?_⟩ (.cons ⟨?_, ?_, ?_⟩ .nil))) <;> simp

/-! ## Replication within clusters -/

/-- The position of copy `j` of observation `i` in the stacked sample. -/
def copyIdx (k : ℕ) (i : Fin n) (j : Fin k) : Fin (k * n) := finProdFinEquiv (j, i)

/-- Folds and clusters of the sample stacked `k` times: the copies of an observation stay in its clusters and in its test
and training sets. -/
def ClusterRep.stack (k : ℕ) (cr : ClusterRep n) : ClusterRep (k * n) where
  vars := match cr.vars with
    | .one c => .one fun j => c (finProdFinEquiv.symm j).2
    | .two c₁ c₂ => .two (fun j => c₁ (finProdFinEquiv.symm j).2) fun j => c₂ (finProdFinEquiv.symm j).2
  smpls := cr.smpls.map fun f => ⟨f.train.flatMap fun i => (List.finRange k).map (copyIdx k i),
    f.test.flatMap fun i => (List.finRange k).map (copyIdx k i)⟩
  smplsCluster := cr.smplsCluster
  nFoldsPerCluster := cr.nFoldsPerCluster

theorem sum_copies (k : ℕ) (l : List (Fin n)) (g : Fin n → ℝ) :
    ((l.flatMap fun i => (List.finRange k).map (copyIdx k i)).map (DML.stack k g)).sum = k * (l.map g).sum := by
  induction l with
  | nil => simp
  | cons i l ih =>
    simp only [List.flatMap_cons, List.map_append, List.sum_append, List.map_cons, List.sum_cons, ih, List.map_map]
    have : ((DML.stack k g) ∘ copyIdx k i) = fun _ => g i := by
      funext j
      simp [DML.stack, copyIdx]
    rw [this]
    simp [mul_add]

theorem outerSum_stack (k : ℕ) (psi : Fin n → ℝ) (P : Fin n → Prop) [DecidablePred P] :
    outerSum (DML.stack k psi) (univ.filter fun j => P (finProdFinEquiv.symm j).2) =
      (k : ℝ) ^ 2 * outerSum psi (univ.filter P) := by
  rw [outerSum_eq_sq, outerSum_eq_sq, ← mul_pow]
  congr 1
  rw [Finset.sum_filter, Finset.sum_filter]
  have := sum_stack k fun i => if P i then psi i else 0
  rw [← this]
  rfl

theorem nUnique_stack {k : ℕ} (hk : 0 < k) (c : Fin n → ℤ) :
    nUnique (fun j : Fin (k * n) => c (finProdFinEquiv.symm j).2) = nUnique c := by
  unfold nUnique
  congr 1
  ext v
  simp only [mem_image, mem_univ, true_and]
  constructor
  · rintro ⟨j, rfl⟩
    exact ⟨_, rfl⟩
  · rintro ⟨i, rfl⟩
    exact ⟨finProdFinEquiv (⟨0, hk⟩, i), by simp⟩

theorem aggObs_stack (k : ℕ) (cr : ClusterRep n) (g : Fin n → ℝ) :
    aggObs (some (cr.stack k)) (DML.stack k g) = k * aggObs (some cr) g := by
  rcases cr with ⟨c | ⟨c₁, c₂⟩, sm, cf, K⟩ <;>
  · simp only [aggObs, ClusterRep.stack]
    rw [zip_map_left', List.map_map, ← list_sum_map_mul_left]
    congr 1
    apply List.map_congr_left
    intro f _
    simp only [Function.comp, clusterWeight, sum_copies]
    ring

theorem varEst_stack {k : ℕ} (hk : 0 < k) (cr : ClusterRep n) (psi d : Fin n → ℝ) :
    varEst (DML.stack k psi) (DML.stack k d) (some (cr.stack k)) = varEst psi d (some cr) := by
  have hk' : (k : ℝ) ≠ 0 := by positivity
  have key : ∀ v J G : ℝ, 1 / (v * ((k : ℝ) * J) ^ 2) * ((k : ℝ) ^ 2 * G) = 1 / (v * J ^ 2) * G := by
    intro v J G
    have h2 : ((k : ℝ) ^ 2)⁻¹ * (k : ℝ) ^ 2 = 1 := inv_mul_cancel₀ (pow_ne_zero 2 hk')
    calc 1 / (v * ((k : ℝ) * J) ^ 2) * ((k : ℝ) ^ 2 * G) = ((k : ℝ) ^ 2)⁻¹ * (k : ℝ) ^ 2 * (v⁻¹ * (J ^ 2)⁻¹ * G) := by
          rw [mul_pow, one_div, mul_inv, mul_inv]; ring
      _ = 1 / (v * J ^ 2) * G := by rw [h2, one_mul, one_div, mul_inv]
  rcases cr with ⟨c | ⟨c₁, c₂⟩, sm, cf, K⟩
  · have h1 : gammaOne (fun j => c (finProdFinEquiv.symm j).2) (DML.stack k psi) cf = (k : ℝ) ^ 2 * gammaOne c psi cf := by
      unfold gammaOne
      simp only [fun v => outerSum_stack k psi fun i => c i = v]
      rw [← list_sum_map_mul_left]
      congr 1
      apply List.map_congr_left
      intro f _
      rw [← list_sum_map_mul_left]
      congr 1
      apply List.map_congr_left
      intro v _
      ring
    have h2 : jOne (DML.stack k d) ((sm.map fun f => ⟨f.train.flatMap fun i => (List.finRange k).map (copyIdx k i),
        f.test.flatMap fun i => (List.finRange k).map (copyIdx k i)⟩).zip cf) = k * jOne d (sm.zip cf) := by
      unfold jOne
      rw [zip_map_left', List.map_map, ← list_sum_map_mul_left]
      congr 1
      apply List.map_congr_left
      intro f _
      simp only [Function.comp, sum_copies]
      ring
    simp only [varEst, varEstParts, ClusterRep.stack, h1, h2, nUnique_stack hk, mul_div_assoc, key]
  · have h1 : gammaTwo (fun j => c₁ (finProdFinEquiv.symm j).2) (fun j => c₂ (finProdFinEquiv.symm j).2)
        (DML.stack k psi) cf = (k : ℝ) ^ 2 * gammaTwo c₁ c₂ psi cf := by
      unfold gammaTwo
      simp only [fun v (t : List ℤ) => outerSum_stack k psi fun i => c₁ i = v ∧ c₂ i ∈ t,
        fun v (t : List ℤ) => outerSum_stack k psi fun i => c₂ i = v ∧ c₁ i ∈ t]
      rw [← list_sum_map_mul_left]
      congr 1
      apply List.map_congr_left
      intro f _
      simp only [list_sum_map_mul_left]
      ring
    have h2 : jTwo (DML.stack k d) ((sm.map fun f => ⟨f.train.flatMap fun i => (List.finRange k).map (copyIdx k i),
        f.test.flatMap fun i => (List.finRange k).map (copyIdx k i)⟩).zip cf) = k * jTwo d (sm.zip cf) := by
      unfold jTwo
      rw [zip_map_left', List.map_map, ← list_sum_map_mul_left]
      congr 1
      apply List.map_congr_left
      intro f _
      simp only [Function.comp, sum_copies]
      ring
    simp only [varEst, varEstParts, ClusterRep.stack, h1, h2, nUnique_stack hk, mul_div_assoc, key]

/-- **C21 (replication within clusters).** Adding identical copies of every observation to its own clusters changes neither
the clustered estimate nor the clustered standard error, for one-way and two-way clustering: only the number of clusters
counts (compare C20, where the squared standard error shrinks with the number of copies). -/
theorem C21_replicated_within {k : ℕ} (hk : 0 < k) (cr : ClusterRep n) (e : PsiElems n) :
    ((⟨stack k e.a, stack k e.b⟩ : PsiElems (k * n)).fit (some (cr.stack k))).coef = (e.fit (some cr)).coef ∧
    ((⟨stack k e.a, stack k e.b⟩ : PsiElems (k * n)).fit (some (cr.stack k))).se = (e.fit (some cr)).se := by
  have hk' : (k : ℝ) ≠ 0 := by positivity
  have h1 : (⟨stack k e.a, stack k e.b⟩ : PsiElems (k * n)).coef (some (cr.stack k)) = e.coef (some cr) := by
    simp only [PsiElems.coef, aggObs_stack]
    rw [← mul_neg, mul_div_mul_left _ _ hk']
  refine ⟨h1, ?_⟩
  simp only [PsiElems.fit, h1]
  rw [← varEst_stack hk cr (e.score (e.coef (some cr))) e.a]
  rfl

end DML
