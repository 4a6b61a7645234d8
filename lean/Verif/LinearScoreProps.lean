import Verif.LinearScore
import Verif.FrameworkSpec
import Verif.FrameworkLemmas

/-!
# Estimation with linear scores: moment condition (C19), standard errors (C20), clusters (C21)
-/

namespace DML

open Finset

variable {n : ℕ}

/-! ## Lemmas -/

theorem list_sum_map_add {α : Type} (l : List α) (f g : α → ℝ) :
    (l.map fun x => f x + g x).sum = (l.map f).sum + (l.map g).sum := List.sum_map_add

theorem list_sum_map_mul_right {α : Type} (l : List α) (f : α → ℝ) (c : ℝ) :
    (l.map fun x => f x * c).sum = (l.map f).sum * c := List.sum_map_mul_right ..

theorem list_sum_map_mul_left {α : Type} (l : List α) (f : α → ℝ) (c : ℝ) :
    (l.map fun x => c * f x).sum = c * (l.map f).sum := List.sum_map_mul_left ..

theorem aggObs_add (cr : Option (ClusterRep n)) (f g : Fin n → ℝ) :
    aggObs cr (fun i => f i + g i) = aggObs cr f + aggObs cr g := by
  cases cr with
  | none => exact mean_add f g
  | some cr =>
    simp only [aggObs, list_sum_map_add, mul_add]

theorem aggObs_mul_right (cr : Option (ClusterRep n)) (f : Fin n → ℝ) (c : ℝ) :
    aggObs cr (fun i => f i * c) = aggObs cr f * c := by
  cases cr with
  | none => exact mean_mul_right c f
  | some cr =>
    simp only [aggObs, list_sum_map_mul_right, ← mul_assoc]

theorem aggObs_mul_left (cr : Option (ClusterRep n)) (f : Fin n → ℝ) (c : ℝ) :
    aggObs cr (fun i => c * f i) = c * aggObs cr f := by
  rw [mul_comm, ← aggObs_mul_right]
  congr 1; funext i; ring

theorem aggObs_score (cr : Option (ClusterRep n)) (e : PsiElems n) (theta : ℝ) :
    aggObs cr (e.score theta) = aggObs cr e.a * theta + aggObs cr e.b := by
  unfold PsiElems.score
  rw [aggObs_add, aggObs_mul_right]

/-- The estimate is the only root of the aggregated score. -/
theorem aggObs_root_iff (cr : Option (ClusterRep n)) (e : PsiElems n) (h : aggObs cr e.a ≠ 0) (theta : ℝ) :
    aggObs cr (e.score theta) = 0 ↔ theta = e.coef cr := by
  rw [aggObs_score]
  unfold PsiElems.coef
  rw [eq_div_iff h]
  constructor <;> intro h' <;> linarith

/-! ## C19 -/

/-- **C19.** Without clusters: the estimate is the one and only solution of the empirical moment condition
`Σ_i (psi_a,i θ + psi_b,i) = 0`. -/
theorem C19_moment_condition (e : PsiElems n) (ha : ∑ i, e.a i ≠ 0) (theta : ℝ) :
    ∑ i, (e.a i * theta + e.b i) = 0 ↔ theta = (e.fit none).coef := by
  have hn : (n : ℝ) ≠ 0 := by
    intro h
    have : n = 0 := by exact_mod_cast h
    subst this
    simp at ha
  have h := aggObs_root_iff none e (by simp [aggObs, mean, ha, hn]) theta
  simp only [aggObs, mean, div_eq_zero_iff, hn, or_false] at h
  exact h

/-- **C19.** With clusters: the estimate is the one and only solution of the weighted moment condition, in
which the score sum of every fold is divided by the number of its test clusters (for two-way clustering
by the product of the numbers). -/
theorem C19_moment_condition_cluster (e : PsiElems n) (cr : ClusterRep n)
    (ha : ((cr.smpls.zip cr.smplsCluster).map fun f => clusterWeight cr.vars f.2 * (f.1.test.map e.a).sum).sum ≠ 0)
    (theta : ℝ) :
    ((cr.smpls.zip cr.smplsCluster).map fun f =>
      clusterWeight cr.vars f.2 * (f.1.test.map fun i => e.a i * theta + e.b i).sum).sum = 0 ↔
    theta = (e.fit (some cr)).coef :=
  aggObs_root_iff (some cr) e ha theta

/-- **C19.** The stored score and the influence function of a non-clustered fit average to zero. -/
theorem C19_influence_centred (e : PsiElems n) (ha : ∑ i, e.a i ≠ 0) :
    ∑ i, (e.fit none).psi i = 0 ∧ ∑ i, (e.fit none).scaledPsi i = 0 := by
  have h := (C19_moment_condition e ha _).2 rfl
  refine ⟨h, ?_⟩
  unfold FitOne.scaledPsi
  rw [← Finset.sum_div]
  have : ∑ i, (e.fit none).psi i = 0 := h
  rw [this, zero_div]

/-- Non-vacuity of C19, and the value of the estimate in a simple case: with `psi_a = -1` the estimate is
the mean of `psi_b`. -/
example (b : Fin 4 → ℝ) : ((⟨fun _ => -1, b⟩ : PsiElems 4).fit none).coef = mean b := by
  symm
  apply (C19_moment_condition ⟨fun _ => -1, b⟩ (by simp) (mean b)).1
  simp [Finset.sum_add_distrib, mean]
  ring

/-! ## C20 -/

/-- The standard error of a non-clustered fit, written out. -/
theorem se_none (e : PsiElems n) : (e.fit none).se =
    Real.sqrt (mean (fun i => (e.fit none).psi i ^ 2) / (n * mean e.a ^ 2)) := by
  simp only [PsiElems.fit, varEst, varEstParts]
  congr 1
  ring

/-- **C20.** Standard errors are never negative, clustered or not. -/
theorem C20_se_nonneg (e : PsiElems n) (cr : Option (ClusterRep n)) : 0 ≤ (e.fit cr).se := Real.sqrt_nonneg _

/-- **C20.** A standard error is zero only if the score of every observation vanishes. -/
theorem C20_se_zero_iff (e : PsiElems n) (ha : ∑ i, e.a i ≠ 0) :
    (e.fit none).se = 0 ↔ ∀ i, (e.fit none).psi i = 0 := by
  have hn : 0 < n := by
    rcases Nat.eq_zero_or_pos n with h | h
    · subst h; simp at ha
    · exact h
  have hn' : (0 : ℝ) < n := by positivity
  have hm : mean e.a ≠ 0 := by unfold mean; exact div_ne_zero ha hn'.ne'
  have hd : 0 < (n : ℝ) * mean e.a ^ 2 := by positivity
  rw [se_none, Real.sqrt_eq_zero (div_nonneg (mean_sq_nonneg _) hd.le), div_eq_zero_iff]
  simp only [hd.ne', or_false]
  constructor
  · intro h i
    by_contra hi
    have := (mean_sq_pos_iff hn (e.fit none).psi).2 ⟨i, hi⟩
    linarith
  · intro h
    simp [mean, h]

/-- **C20.** Rescaling the outcome side of the score rescales estimate and standard error accordingly,
clustered or not. -/
theorem C20_scale_outcome (e : PsiElems n) (cr : Option (ClusterRep n)) (c : ℝ) :
    ((⟨e.a, fun i => c * e.b i⟩ : PsiElems n).fit cr).coef = c * (e.fit cr).coef ∧
    ((⟨e.a, fun i => c * e.b i⟩ : PsiElems n).fit cr).se = |c| * (e.fit cr).se := by
  have h1 : (⟨e.a, fun i => c * e.b i⟩ : PsiElems n).coef cr = c * e.coef cr := by
    unfold PsiElems.coef
    simp only [aggObs_mul_left]
    ring
  refine ⟨h1, ?_⟩
  have h2 : (⟨e.a, fun i => c * e.b i⟩ : PsiElems n).score (c * e.coef cr) = fun i => c * e.score (e.coef cr) i := by
    funext i; simp only [PsiElems.score]; ring
  simp only [PsiElems.fit, h1, h2, varEst_smul]
  rw [Real.sqrt_mul (sq_nonneg c), Real.sqrt_sq_eq_abs]

theorem jOne_smul (c : ℝ) (d : Fin n → ℝ) (fs : List (Fold n × ClusterFold)) :
    jOne (fun i => c * d i) fs = c * jOne d fs := by
  unfold jOne
  rw [← list_sum_map_mul_left]
  congr 1; apply List.map_congr_left; intro f _
  rw [list_sum_map_mul_left, mul_div_assoc]

theorem jTwo_smul (c : ℝ) (d : Fin n → ℝ) (fs : List (Fold n × ClusterFold)) :
    jTwo (fun i => c * d i) fs = c * jTwo d fs := by
  unfold jTwo
  rw [← list_sum_map_mul_left]
  congr 1; apply List.map_congr_left; intro f _
  rw [list_sum_map_mul_left, mul_div_assoc]

theorem varEst_smul_deriv (c : ℝ) (psi d : Fin n → ℝ) (cr : Option (ClusterRep n)) :
    varEst psi (fun i => c * d i) cr = ((c ^ 2)⁻¹ * (varEst psi d cr).1, (varEst psi d cr).2) := by
  unfold varEst varEstParts
  cases cr with
  | none =>
    simp only [mean_mul_left]
    congr 1
    rw [mul_pow, one_div, one_div, mul_inv, mul_inv, mul_inv]; ring
  | some cr =>
    rcases cr with ⟨_ | _, sm, smc, K⟩
    · simp only [jOne_smul]
      congr 1
      rw [mul_div_assoc, mul_pow, one_div, one_div, mul_inv, mul_inv, mul_inv]; ring
    · simp only [jTwo_smul]
      congr 1
      rw [mul_div_assoc, mul_pow, one_div, one_div, mul_inv, mul_inv, mul_inv]; ring

/-- **C20.** Multiplying the moment condition by a constant changes neither estimate nor standard error,
clustered or not. -/
theorem C20_rescale_moment (e : PsiElems n) (cr : Option (ClusterRep n)) (c : ℝ) (hc : c ≠ 0) :
    ((⟨fun i => c * e.a i, fun i => c * e.b i⟩ : PsiElems n).fit cr).coef = (e.fit cr).coef ∧
    ((⟨fun i => c * e.a i, fun i => c * e.b i⟩ : PsiElems n).fit cr).se = (e.fit cr).se := by
  have h1 : (⟨fun i => c * e.a i, fun i => c * e.b i⟩ : PsiElems n).coef cr = e.coef cr := by
    unfold PsiElems.coef
    simp only [aggObs_mul_left]
    rw [← mul_neg, mul_div_mul_left _ _ hc]
  refine ⟨h1, ?_⟩
  have h2 : (⟨fun i => c * e.a i, fun i => c * e.b i⟩ : PsiElems n).score (e.coef cr) =
      fun i => c * e.score (e.coef cr) i := by
    funext i; simp only [PsiElems.score]; ring
  simp only [PsiElems.fit, h1, h2, varEst_smul, varEst_smul_deriv]
  congr 1
  rw [← mul_assoc, inv_mul_cancel₀ (pow_ne_zero 2 hc), one_mul]

/-- **C20.** Shifting the parameter: if `psi_b` is replaced by `psi_b - θ₀ psi_a` the estimate moves by `θ₀` and
the standard error stays, clustered or not. -/
theorem C20_shift (e : PsiElems n) (cr : Option (ClusterRep n)) (t : ℝ) (ha : aggObs cr e.a ≠ 0) :
    ((⟨e.a, fun i => e.b i - t * e.a i⟩ : PsiElems n).fit cr).coef = (e.fit cr).coef + t ∧
    ((⟨e.a, fun i => e.b i - t * e.a i⟩ : PsiElems n).fit cr).se = (e.fit cr).se := by
  have h1 : (⟨e.a, fun i => e.b i - t * e.a i⟩ : PsiElems n).coef cr = e.coef cr + t := by
    symm
    rw [← aggObs_root_iff cr ⟨e.a, fun i => e.b i - t * e.a i⟩ ha]
    have : (⟨e.a, fun i => e.b i - t * e.a i⟩ : PsiElems n).score (e.coef cr + t) = e.score (e.coef cr) := by
      funext i; simp only [PsiElems.score]; ring
    rw [this, aggObs_root_iff cr e ha]
  refine ⟨h1, ?_⟩
  have h2 : (⟨e.a, fun i => e.b i - t * e.a i⟩ : PsiElems n).score (e.coef cr + t) = e.score (e.coef cr) := by
    funext i; simp only [PsiElems.score]; ring
  simp only [PsiElems.fit, h1, h2]

theorem mean_perm (σ : Equiv.Perm (Fin n)) (f : Fin n → ℝ) : mean (fun i => f (σ i)) = mean f := by
  unfold mean
  rw [Equiv.sum_comp σ f]

/-- **C20.** Estimate and standard error do not depend on the order of the observations. -/
theorem C20_order_invariant (e : PsiElems n) (σ : Equiv.Perm (Fin n)) :
    ((⟨fun i => e.a (σ i), fun i => e.b (σ i)⟩ : PsiElems n).fit none).coef = (e.fit none).coef ∧
    ((⟨fun i => e.a (σ i), fun i => e.b (σ i)⟩ : PsiElems n).fit none).se = (e.fit none).se := by
  have h1 : (⟨fun i => e.a (σ i), fun i => e.b (σ i)⟩ : PsiElems n).coef none = e.coef none := by
    simp only [PsiElems.coef, aggObs, mean_perm]
  refine ⟨h1, ?_⟩
  rw [se_none, se_none]
  simp only [mean_perm]
  congr 2
  rw [← mean_perm σ (fun i => (e.fit none).psi i ^ 2)]
  congr 1
  funext i
  simp only [PsiElems.fit, h1]
  rfl

/-- The sample stacked `k` times. -/
def stack (k : ℕ) (f : Fin n → ℝ) : Fin (k * n) → ℝ := fun j => f (finProdFinEquiv.symm j).2

theorem sum_stack (k : ℕ) (f : Fin n → ℝ) : ∑ j, stack k f j = k * ∑ i, f i := by
  unfold stack
  rw [Equiv.sum_comp finProdFinEquiv.symm (fun p : Fin k × Fin n => f p.2), Fintype.sum_prod_type]
  simp

theorem mean_stack {k : ℕ} (hk : 0 < k) (f : Fin n → ℝ) : mean (stack k f) = mean f := by
  unfold mean
  rw [sum_stack]
  have : (k : ℝ) ≠ 0 := by positivity
  push_cast
  rw [mul_div_mul_left _ _ this]

/-- **C20.** Stacking the sample `k` times keeps the estimate and divides the squared standard error by `k`:
standard errors shrink at the parametric rate. -/
theorem C20_replicated_sample (e : PsiElems n) {k : ℕ} (hk : 0 < k) :
    ((⟨stack k e.a, stack k e.b⟩ : PsiElems (k * n)).fit none).coef = (e.fit none).coef ∧
    ((⟨stack k e.a, stack k e.b⟩ : PsiElems (k * n)).fit none).se ^ 2 = (e.fit none).se ^ 2 / k := by
  have h1 : (⟨stack k e.a, stack k e.b⟩ : PsiElems (k * n)).coef none = e.coef none := by
    simp only [PsiElems.coef, aggObs, mean_stack hk]
  refine ⟨h1, ?_⟩
  have hsq : (mean fun i => ((⟨stack k e.a, stack k e.b⟩ : PsiElems (k * n)).fit none).psi i ^ 2) =
      mean fun i => (e.fit none).psi i ^ 2 := by
    rw [← mean_stack hk (fun i => (e.fit none).psi i ^ 2)]
    congr 1
    funext i
    simp only [PsiElems.fit, h1]
    rfl
  rw [se_none, se_none, hsq]
  simp only [mean_stack hk]
  have hk' : (0 : ℝ) < k := by positivity
  rw [Real.sq_sqrt, Real.sq_sqrt]
  · push_cast
    rw [div_div]
    congr 1
    ring
  · exact div_nonneg (mean_sq_nonneg _) (by positivity)
  · exact div_nonneg (mean_sq_nonneg _) (by positivity)

/-- **C20.** The framework of a non-clustered fit is consistent: the standard error it reports is the one it
would recompute from its influence function. -/
theorem C20_framework_se (e : PsiElems n) :
    (e.fit none).se = Real.sqrt (varEst (e.fit none).scaledPsi (fun _ => 1) none).1 := by
  rw [se_none]
  rcases Nat.eq_zero_or_pos n with h | hn
  · subst h
    simp [varEst, varEstParts, mean]
  · simp only [varEst, varEstParts, mean_const hn, FitOne.scaledPsi, PsiElems.fit, div_pow, mean_div_right]
    congr 1
    rw [one_pow, mul_one, one_div, div_eq_inv_mul, div_eq_inv_mul, mul_inv]
    ring

/-- The block of the framework that `construct_framework` builds for one treatment from the fits of all
repetitions (/repo/doubleml/double_ml.py:549-561, aggregation lines 529-531). -/
noncomputable def fitBlock {r : ℕ} (es : Fin r → PsiElems n) : Block n r :=
  { theta := median fun k => ((es k).fit none).coef
    se := aggSe (fun k => ((es k).fit none).coef) (fun k => ((es k).fit none).se) (fun _ => n)
    allTheta := fun k => ((es k).fit none).coef
    allSe := fun k => ((es k).fit none).se
    vsf := n
    psi := fun i k => ((es k).fit none).scaledPsi i }

/-- **C20.** Every framework produced by a non-clustered fit satisfies the hypothesis `Consistent` of the
arithmetic theorems C01–C03. -/
theorem C20_framework_consistent {r : ℕ} (es : Fin r → PsiElems n) : (fitBlock es).Consistent := by
  rw [Block.consistent_iff]
  refine ⟨rfl, rfl, ?_⟩
  funext k
  show ((es k).fit none).se = _
  rw [C20_framework_se]
  unfold recomputedSe
  congr 1
  rcases Nat.eq_zero_or_pos n with h | hn
  · subst h; simp [varEst, varEstParts, mean]
  · simp only [varEst, varEstParts, mean_const hn, fitBlock]
    rw [one_pow, mul_one, one_div, div_eq_inv_mul]

/-- Non-vacuity of C20: a sample with non-zero mean derivative and a positive standard error. -/
example : 0 < ((⟨fun _ => -1, fun i => (i.val : ℝ)⟩ : PsiElems 2).fit none).se := by
  refine lt_of_le_of_ne (C20_se_nonneg _ _) fun h => ?_
  have := (C20_se_zero_iff ⟨fun _ => -1, fun i => (i.val : ℝ)⟩ (by simp)).1 h.symm
  have h0 := this 0
  have h1 := this 1
  simp only [PsiElems.fit, PsiElems.score] at h0 h1
  simp at h0 h1
  linarith

/-! ## C21 -/

/-- Every observation is its own cluster: the labels are different and the test clusters of every fold are
the labels of its test observations. -/
structure Singletons (c : Fin n → ℤ) (smpls : List (Fold n)) (cf : List ClusterFold) : Prop where
  injective : Function.Injective c
  clusters : List.Forall₂ (fun f g => List.Perm g.test1 (f.test.map c)) smpls cf

/-- The test sets of the folds partition the observations into sets of equal size. -/
structure EqualPartition (smpls : List (Fold n)) (m : ℕ) : Prop where
  perm : List.Perm (smpls.map Fold.test).flatten (List.finRange n)
  size : ∀ f ∈ smpls, f.test.length = m

theorem sum_partition {smpls : List (Fold n)} (h : List.Perm (smpls.map Fold.test).flatten (List.finRange n))
    (g : Fin n → ℝ) : (smpls.map fun f => (f.test.map g).sum).sum = ∑ i, g i := by
  have h1 := (h.map g).sum_eq
  rw [List.map_flatten, List.sum_flatten, List.map_map, List.map_map] at h1
  rw [Fin.sum_univ_def, ← h1]
  rfl

theorem EqualPartition.card {smpls : List (Fold n)} {m : ℕ} (h : EqualPartition smpls m) : smpls.length * m = n := by
  have h1 := h.perm.length_eq
  rw [List.length_flatten, List.map_map, List.length_finRange] at h1
  have : smpls.map (List.length ∘ Fold.test) = List.replicate smpls.length m := by
    rw [List.eq_replicate_iff]
    refine ⟨by simp, ?_⟩
    intro b hb
    obtain ⟨f, hf, rfl⟩ := List.mem_map.1 hb
    exact h.size f hf
  rw [this] at h1
  simpa using h1

theorem outerSum_singleton {c : Fin n → ℤ} (hc : Function.Injective c) (psi : Fin n → ℝ) (i : Fin n) :
    outerSum psi (univ.filter fun j => c j = c i) = psi i ^ 2 := by
  rw [outerSum_eq_sq]
  have : (univ.filter fun j => c j = c i) = {i} := by
    ext j
    simp [hc.eq_iff]
  rw [this, Finset.sum_singleton]

theorem zip_sum_eq {smpls : List (Fold n)} {cf : List ClusterFold} {R : Fold n → ClusterFold → Prop}
    (h : List.Forall₂ R smpls cf) (F : Fold n × ClusterFold → ℝ) (G : Fold n → ℝ)
    (hFG : ∀ f ∈ smpls, ∀ g, R f g → F (f, g) = G f) : ((smpls.zip cf).map F).sum = (smpls.map G).sum := by
  induction h with
  | nil => rfl
  | cons hr _ ih =>
    simp only [List.zip_cons_cons, List.map_cons, List.sum_cons]
    rw [hFG _ (by simp) _ hr, ih fun f hf g hg => hFG f (by simp [hf]) g hg]

theorem map_sum_eq {smpls : List (Fold n)} {cf : List ClusterFold} {R : Fold n → ClusterFold → Prop}
    (h : List.Forall₂ R smpls cf) (F : ClusterFold → ℝ) (G : Fold n → ℝ)
    (hFG : ∀ f ∈ smpls, ∀ g, R f g → F g = G f) : (cf.map F).sum = (smpls.map G).sum := by
  induction h with
  | nil => rfl
  | cons hr _ ih =>
    simp only [List.map_cons, List.sum_cons]
    rw [hFG _ (by simp) _ hr, ih fun f hf g hg => hFG f (by simp [hf]) g hg]

/-- Clustered aggregation with singleton clusters and equal folds. -/
theorem aggObs_singletons {c : Fin n → ℤ} {smpls : List (Fold n)} {cf : List ClusterFold} {m K : ℕ}
    (hs : Singletons c smpls cf) (hp : EqualPartition smpls m) (g : Fin n → ℝ) :
    aggObs (some ⟨.one c, smpls, cf, K⟩) g = (1 / (m : ℝ)) * ∑ i, g i := by
  simp only [aggObs]
  rw [zip_sum_eq hs.clusters _ (fun f => (1 / (m : ℝ)) * (f.test.map g).sum), list_sum_map_mul_left,
    sum_partition hp.perm]
  intro f hf g' hg
  have : g'.test1.length = m := by rw [hg.length_eq, List.length_map, hp.size f hf]
  simp only [clusterWeight, this]

theorem varEst_singletons {c : Fin n → ℤ} {smpls : List (Fold n)} {cf : List ClusterFold} {m : ℕ}
    (hs : Singletons c smpls cf) (hp : EqualPartition smpls m) (hm : 0 < m) (psi d : Fin n → ℝ) :
    varEst psi d (some ⟨.one c, smpls, cf, smpls.length⟩) = varEst psi d none := by
  have hm' : (m : ℝ) ≠ 0 := by positivity
  have hnm : (n : ℝ) = smpls.length * m := by exact_mod_cast hp.card.symm
  have hlen : ∀ f ∈ smpls, ∀ g : ClusterFold, List.Perm g.test1 (f.test.map c) → g.test1.length = m := by
    intro f hf g hg
    rw [hg.length_eq, List.length_map, hp.size f hf]
  have hg : gammaOne c psi cf = (1 / (m : ℝ)) * ∑ i, psi i ^ 2 := by
    unfold gammaOne
    rw [map_sum_eq hs.clusters _ (fun f => (1 / (m : ℝ)) * (f.test.map fun i => psi i ^ 2).sum),
      list_sum_map_mul_left, sum_partition hp.perm]
    intro f hf g hg
    rw [list_sum_map_mul_left, hlen f hf g hg]
    congr 1
    rw [(hg.map fun v => outerSum psi (univ.filter fun i => c i = v)).sum_eq, List.map_map]
    congr 1
    apply List.map_congr_left
    intro i _
    exact outerSum_singleton hs.injective psi i
  have hj : jOne d (smpls.zip cf) = (1 / (m : ℝ)) * ∑ i, d i := by
    unfold jOne
    rw [zip_sum_eq hs.clusters _ (fun f => (1 / (m : ℝ)) * (f.test.map d).sum), list_sum_map_mul_left,
      sum_partition hp.perm]
    intro f hf g hg
    simp only [hlen f hf g hg]
    ring
  have hu : nUnique c = n := by
    unfold nUnique
    rw [Finset.card_image_of_injective _ hs.injective]
    simp
  have key : ∀ x : ℝ, 1 / (m : ℝ) * x / smpls.length = x / n := by
    intro x
    rw [hnm, one_div, div_eq_inv_mul, div_eq_inv_mul, mul_inv]
    ring
  simp only [varEst, varEstParts, hg, hj, hu, key]
  rfl

/-- **C21.** If every observation is its own cluster and the folds have equal sizes, the clustered estimate,
standard error and scaling factor are the ones of the non-clustered fit. -/
theorem C21_singleton_clusters {c : Fin n → ℤ} {smpls : List (Fold n)} {cf : List ClusterFold} {m : ℕ}
    (hs : Singletons c smpls cf) (hp : EqualPartition smpls m) (hm : 0 < m) (e : PsiElems n) :
    (e.fit (some ⟨.one c, smpls, cf, smpls.length⟩)).coef = (e.fit none).coef ∧
    (e.fit (some ⟨.one c, smpls, cf, smpls.length⟩)).se = (e.fit none).se ∧
    (e.fit (some ⟨.one c, smpls, cf, smpls.length⟩)).vsf = (e.fit none).vsf := by
  have h1 : e.coef (some ⟨.one c, smpls, cf, smpls.length⟩) = e.coef none := by
    simp only [PsiElems.coef, aggObs_singletons hs hp]
    simp only [aggObs, mean]
    rcases Nat.eq_zero_or_pos n with h | hn
    · subst h; simp
    · have : (n : ℝ) ≠ 0 := by positivity
      have hm' : (m : ℝ) ≠ 0 := by positivity
      rw [← mul_neg, mul_div_mul_left _ _ (by positivity), ← neg_div, div_div_div_cancel_right₀ this]
  refine ⟨h1, ?_, ?_⟩ <;> simp only [PsiElems.fit, h1, varEst_singletons hs hp hm]

/-- Non-vacuity of C21: four observations, two folds. -/
example : Singletons (n := 4) (fun i => i.val) [⟨[2, 3], [0, 1]⟩, ⟨[0, 1], [2, 3]⟩] [⟨[0, 1], []⟩, ⟨[2, 3], []⟩] ∧
    EqualPartition (n := 4) [⟨[2, 3], [0, 1]⟩, ⟨[0, 1], [2, 3]⟩] 2 := by
  refine ⟨⟨?_, ?_⟩, ?_, ?_⟩
  · intro i j h; exact Fin.ext (by simpa using h)
  · exact .cons (by simp) (.cons (by simp) .nil)
  · simp only [List.map_cons, List.map_nil, List.flatten_cons, List.flatten_nil]; decide
  · simp

/-- The cluster arguments with all labels renamed. -/
def ClusterRep.relabel (g : ℤ → ℤ) (cr : ClusterRep n) : ClusterRep n :=
  { vars := match cr.vars with
      | .one c => .one fun i => g (c i)
      | .two c₁ c₂ => .two (fun i => g (c₁ i)) fun i => g (c₂ i)
    smpls := cr.smpls
    smplsCluster := cr.smplsCluster.map fun f => ⟨f.test1.map g, f.test2.map g⟩
    nFoldsPerCluster := cr.nFoldsPerCluster }

theorem nUnique_relabel {g : ℤ → ℤ} (hg : Function.Injective g) (c : Fin n → ℤ) :
    nUnique (fun i => g (c i)) = nUnique c := by
  unfold nUnique
  rw [show (univ.image fun i => g (c i)) = (univ.image c).image g from by rw [Finset.image_image]; rfl]
  exact Finset.card_image_of_injective _ hg

theorem zip_map_right {α β γ : Type} (l : List α) (m : List β) (f : β → γ) :
    l.zip (m.map f) = (l.zip m).map fun p => (p.1, f p.2) := by
  rw [List.zip_map_right]
  rfl

theorem varEst_relabel {g : ℤ → ℤ} (hg : Function.Injective g) (cr : ClusterRep n) (psi d : Fin n → ℝ) :
    varEst psi d (some (cr.relabel g)) = varEst psi d (some cr) := by
  rcases cr with ⟨c | ⟨c₁, c₂⟩, sm, cf, K⟩
  · have h1 : gammaOne (fun i => g (c i)) psi (cf.map fun f => ⟨f.test1.map g, f.test2.map g⟩) = gammaOne c psi cf := by
      unfold gammaOne
      simp only [List.map_map]
      congr 1
      apply List.map_congr_left
      intro f _
      simp only [Function.comp_def, List.map_map, List.length_map, hg.eq_iff]
    have h2 : jOne d (sm.zip (cf.map fun f => ⟨f.test1.map g, f.test2.map g⟩)) = jOne d (sm.zip cf) := by
      unfold jOne
      rw [zip_map_right, List.map_map]
      simp only [Function.comp_def, List.length_map]
    simp only [varEst, varEstParts, ClusterRep.relabel, h1, h2, nUnique_relabel hg]
  · have h1 : gammaTwo (fun i => g (c₁ i)) (fun i => g (c₂ i)) psi
        (cf.map fun f => ⟨f.test1.map g, f.test2.map g⟩) = gammaTwo c₁ c₂ psi cf := by
      unfold gammaTwo
      simp only [List.map_map]
      congr 1
      apply List.map_congr_left
      intro f _
      simp only [Function.comp_def, List.map_map, constTwo, List.length_map, hg.eq_iff, List.mem_map_of_injective hg]
    have h2 : jTwo d (sm.zip (cf.map fun f => ⟨f.test1.map g, f.test2.map g⟩)) = jTwo d (sm.zip cf) := by
      unfold jTwo
      rw [zip_map_right, List.map_map]
      simp only [Function.comp_def, List.length_map]
    simp only [varEst, varEstParts, ClusterRep.relabel, h1, h2, nUnique_relabel hg]

/-- **C21.** Renaming the clusters (injectively) changes nothing, for one-way and two-way clustering. -/
theorem C21_relabel {g : ℤ → ℤ} (hg : Function.Injective g) (cr : ClusterRep n) (e : PsiElems n) :
    (e.fit (some (cr.relabel g))).coef = (e.fit (some cr)).coef ∧
    (e.fit (some (cr.relabel g))).se = (e.fit (some cr)).se := by
  have ha : ∀ f : Fin n → ℝ, aggObs (some (cr.relabel g)) f = aggObs (some cr) f := by
    intro f
    rcases cr with ⟨c | ⟨c₁, c₂⟩, sm, cf, K⟩ <;>
    · simp only [aggObs, ClusterRep.relabel]
      rw [zip_map_right, List.map_map]
      simp only [Function.comp_def, clusterWeight, List.length_map]
  have h1 : e.coef (some (cr.relabel g)) = e.coef (some cr) := by simp only [PsiElems.coef, ha]
  refine ⟨h1, ?_⟩
  simp only [PsiElems.fit, h1, varEst_relabel hg]

/-- The cluster arguments after the observations have been reordered: new observation `i` is old observation
`σ i`. -/
def ClusterRep.reorder (σ : Equiv.Perm (Fin n)) (cr : ClusterRep n) : ClusterRep n :=
  { vars := match cr.vars with
      | .one c => .one fun i => c (σ i)
      | .two c₁ c₂ => .two (fun i => c₁ (σ i)) fun i => c₂ (σ i)
    smpls := cr.smpls.map fun f => ⟨f.train.map σ.symm, f.test.map σ.symm⟩
    smplsCluster := cr.smplsCluster
    nFoldsPerCluster := cr.nFoldsPerCluster }

theorem outerSum_reorder (σ : Equiv.Perm (Fin n)) (psi : Fin n → ℝ) (p : Fin n → Prop) [DecidablePred p]  :
    outerSum (fun i => psi (σ i)) (univ.filter fun i => p (σ i)) = outerSum psi (univ.filter p) := by
  rw [outerSum_eq_sq, outerSum_eq_sq, Finset.sum_filter, Finset.sum_filter,
    Equiv.sum_comp σ (fun i => if p i then psi i else 0)]

theorem nUnique_reorder (σ : Equiv.Perm (Fin n)) (c : Fin n → ℤ) : nUnique (fun i => c (σ i)) = nUnique c := by
  unfold nUnique
  congr 1
  ext v
  simp only [Finset.mem_image, Finset.mem_univ, true_and]
  exact ⟨fun ⟨i, h⟩ => ⟨σ i, h⟩, fun ⟨i, h⟩ => ⟨σ.symm i, by simpa using h⟩⟩

theorem zip_map_left' {α β γ : Type} (l : List α) (m : List β) (f : α → γ) :
    (l.map f).zip m = (l.zip m).map fun p => (f p.1, p.2) := by
  rw [List.zip_map_left]
  rfl

theorem map_reorder (σ : Equiv.Perm (Fin n)) (l : List (Fin n)) (g : Fin n → ℝ) :
    (l.map σ.symm).map (fun i => g (σ i)) = l.map g := by
  rw [List.map_map]
  apply List.map_congr_left
  intro i _
  simp

theorem varEst_reorder (σ : Equiv.Perm (Fin n)) (cr : ClusterRep n) (psi d : Fin n → ℝ) :
    varEst (fun i => psi (σ i)) (fun i => d (σ i)) (some (cr.reorder σ)) = varEst psi d (some cr) := by
  rcases cr with ⟨c | ⟨c₁, c₂⟩, sm, cf, K⟩
  · have h1 : gammaOne (fun i => c (σ i)) (fun i => psi (σ i)) cf = gammaOne c psi cf := by
      unfold gammaOne
      simp only [fun v => outerSum_reorder σ psi fun i => c i = v]
    have h2 : jOne (fun i => d (σ i)) ((sm.map fun f => ⟨f.train.map σ.symm, f.test.map σ.symm⟩).zip cf) =
        jOne d (sm.zip cf) := by
      unfold jOne
      rw [zip_map_left', List.map_map]
      simp only [Function.comp_def, map_reorder]
    simp only [varEst, varEstParts, ClusterRep.reorder, h1, h2, nUnique_reorder]
  · have h1 : gammaTwo (fun i => c₁ (σ i)) (fun i => c₂ (σ i)) (fun i => psi (σ i)) cf = gammaTwo c₁ c₂ psi cf := by
      unfold gammaTwo
      simp only [fun v (t : List ℤ) => outerSum_reorder σ psi fun i => c₁ i = v ∧ c₂ i ∈ t,
        fun v (t : List ℤ) => outerSum_reorder σ psi fun i => c₂ i = v ∧ c₁ i ∈ t]
    have h2 : jTwo (fun i => d (σ i)) ((sm.map fun f => ⟨f.train.map σ.symm, f.test.map σ.symm⟩).zip cf) =
        jTwo d (sm.zip cf) := by
      unfold jTwo
      rw [zip_map_left', List.map_map]
      simp only [Function.comp_def, map_reorder]
    simp only [varEst, varEstParts, ClusterRep.reorder, h1, h2, nUnique_reorder]

/-- **C21.** Reordering the observations (with their clusters and folds) changes neither the estimate nor the
standard error, for one-way and two-way clustering. -/
theorem C21_order_invariant (σ : Equiv.Perm (Fin n)) (cr : ClusterRep n) (e : PsiElems n) :
    ((⟨fun i => e.a (σ i), fun i => e.b (σ i)⟩ : PsiElems n).fit (some (cr.reorder σ))).coef = (e.fit (some cr)).coef ∧
    ((⟨fun i => e.a (σ i), fun i => e.b (σ i)⟩ : PsiElems n).fit (some (cr.reorder σ))).se = (e.fit (some cr)).se := by
  have ha : ∀ f : Fin n → ℝ, aggObs (some (cr.reorder σ)) (fun i => f (σ i)) = aggObs (some cr) f := by
    intro f
    rcases cr with ⟨c | ⟨c₁, c₂⟩, sm, cf, K⟩ <;>
    · simp only [aggObs, ClusterRep.reorder]
      rw [zip_map_left', List.map_map]
      simp only [Function.comp_def, clusterWeight, map_reorder]
  have h1 : (⟨fun i => e.a (σ i), fun i => e.b (σ i)⟩ : PsiElems n).coef (some (cr.reorder σ)) = e.coef (some cr) := by
    simp only [PsiElems.coef, ha]
  refine ⟨h1, ?_⟩
  simp only [PsiElems.fit, h1]
  have := varEst_reorder σ cr (e.score (e.coef (some cr))) e.a
  rw [← this]
  rfl

/-- **C21.** Clustered variance estimates are never negative (they are sums of squared cluster totals). -/
theorem C21_variance_nonneg (psi d : Fin n → ℝ) (cr : ClusterRep n) : 0 ≤ (varEst psi d (some cr)).1 :=
  varEst_nonneg psi d (some cr)

end DML
