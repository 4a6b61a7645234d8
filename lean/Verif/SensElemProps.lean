import Verif.ScoreProps
import Verif.SensitivityProps
import Verif.Gain

/-!
# Difference in differences (C42), sensitivity elements (C17, C59) and gain statistics (C18)
-/

namespace DML

open Finset

variable {n : ℕ}

/-! ## C42 -/

/-- **C42.** With in-sample normalisation the weights of the residuals average to zero. -/
theorem C42_weights_contrast (sc : DidScore) (d m p : Fin n → ℝ) (hd1 : mean d ≠ 0)
    (hd0 : (mean fun i => 1 - d i) ≠ 0) (hm : (mean fun i => (1 - d i) * (m i / (1 - m i))) ≠ 0) :
    mean (didWr sc true d m p) = 0 := by
  cases sc
  · rw [show didWr .observational true d m p = fun i => d i / mean d -
      (1 - d i) * (m i / (1 - m i)) / mean fun j => (1 - d j) * (m j / (1 - m j)) from rfl, mean_sub, mean_div_right,
      mean_div_right, div_self hd1, div_self hm, sub_self]
  · rw [show didWr .experimental true d m p = fun i => d i / mean d - (1 - d i) / mean fun j => 1 - d j from rfl,
      mean_sub, mean_div_right, mean_div_right, div_self hd1, div_self hd0, sub_self]

/-- **C42.** Adding a constant to the outcome changes has no effect on the normalised estimate, even if the
learners do not follow. -/
theorem C42_location_outcome (sc : DidScore) (y d g0 g1 m p : Fin n → ℝ) (c : ℝ) (hd1 : mean d ≠ 0)
    (hd0 : (mean fun i => 1 - d i) ≠ 0) (hm : (mean fun i => (1 - d i) * (m i / (1 - m i))) ≠ 0) :
    (didElems sc true (fun i => y i + c) d g0 g1 m p).coef none = (didElems sc true y d g0 g1 m p).coef none := by
  have h : mean (didElems sc true (fun i => y i + c) d g0 g1 m p).b = mean (didElems sc true y d g0 g1 m p).b := by
    have : (didElems sc true (fun i => y i + c) d g0 g1 m p).b =
        fun i => (didElems sc true y d g0 g1 m p).b i + didWr sc true d m p i * c := by
      funext i
      simp only [didElems]
      ring
    rw [this, mean_add, mean_mul_right, C42_weights_contrast sc d m p hd1 hd0 hm]
    simp
  unfold PsiElems.coef aggObs
  rw [h]
  rfl

/-- **C42.** Adding a constant to the outcomes and to all predictions has no effect on any of the four scores, with
or without clustering. -/
theorem C42_location (sc : DidScore) (norm : Bool) (y d g0 g1 m p : Fin n → ℝ) (c : ℝ) :
    didElems sc norm (fun i => y i + c) d (fun i => g0 i + c) (fun i => g1 i + c) m p = didElems sc norm y d g0 g1 m p := by
  unfold didElems
  congr 1
  funext i
  cases sc <;> cases norm <;> simp only [didB1] <;> ring

/-- **C42.** Without normalisation the observational weight is `(d - (1 - d) m / (1 - m)) / p`. -/
theorem C42_unnormalised_formula (d m p : Fin n → ℝ) (i : Fin n) (hd : d i = 0 ∨ d i = 1) (hm : m i ≠ 1) :
    didWr .observational false d m p i = (d i - (1 - d i) * (m i / (1 - m i))) / p i := by
  have : 1 - m i ≠ 0 := sub_ne_zero.2 (Ne.symm hm)
  simp only [didWr]
  rcases hd with h | h <;> rw [h]
  · by_cases hp : p i = 0
    · rw [hp]; simp
    · field_simp
      ring
  · by_cases hp : p i = 0
    · rw [hp]; simp
    · field_simp
      ring

/-- **C42.** The experimental scores are the doubly robust contrast with a constant propensity: the share of the treated
in the sample (normalised) or `p`, the one in the training data (not normalised). -/
theorem C42_experimental_formula (norm : Bool) (y d g0 g1 m p : Fin n → ℝ) (q : Fin n → ℝ)
    (hq : ∀ i, q i = if norm then mean d else p i) (h0 : ∀ i, q i ≠ 0) (h1 : ∀ i, q i ≠ 1) (i : Fin n) :
    (didElems .experimental norm y d g0 g1 m p).a i = -1 ∧
    (didElems .experimental norm y d g0 g1 m p).b i =
      g1 i - g0 i + d i / q i * (y i - g1 i) - (1 - d i) / (1 - q i) * (y i - g0 i) := by
  have hn : 0 < n := Fin.pos i
  have h0 := h0 i
  have h1' : 1 - q i ≠ 0 := sub_ne_zero.2 (Ne.symm (h1 i))
  refine ⟨by cases norm <;> simp [didElems, didWa], ?_⟩
  cases norm with
  | false =>
    have hq := hq i
    simp only [Bool.false_eq_true, if_false] at hq
    rw [hq] at h0 h1' ⊢
    simp only [didElems, didB1, didWr]
    field_simp
    ring
  | true =>
    have hq := hq i
    simp only [if_true] at hq
    rw [hq] at h0 h1' ⊢
    have hm : (mean fun j => 1 - d j) = 1 - mean d := by rw [mean_sub, mean_const hn]
    simp only [didElems, didB1, didWr, hm]
    field_simp
    ring

/-- **C42, repeated cross-sections.** Without normalisation, the weight of the residual of an observation (relative to the
outcome model of its own group and period) is the product of a group weight, `d / p - (1 - d) m / ((1 - m) p)`
(observational) or `d / p - (1 - d) / (1 - p)` (experimental), and a period weight `t / lam - (1 - t) / (1 - lam)`. -/
theorem C42_cs_unnormalised_formula (sc : DidScore) (y d t m p lam : Fin n → ℝ) (g : Cells n) (i : Fin n)
    (hd : d i = 0 ∨ d i = 1) (ht : t i = 0 ∨ t i = 1) :
    (didCsElems sc false y d t g m p lam).b i =
      (match sc with | .observational => d i / p i | .experimental => 1) *
        ((g.d1t1 i - g.d1t0 i) - (g.d0t1 i - g.d0t0 i)) +
      (match sc with
        | .observational => d i / p i - (1 - d i) * (m i / (1 - m i)) / p i
        | .experimental => d i / p i - (1 - d i) / (1 - p i)) *
      (t i / lam i - (1 - t i) / (1 - lam i)) *
      (y i - (if d i = 1 then (if t i = 1 then g.d1t1 i else g.d1t0 i) else (if t i = 1 then g.d0t1 i else g.d0t0 i))) := by
  cases sc <;> rcases hd with h | h <;> rcases ht with h' | h' <;>
    simp only [didCsElems, didWa, csResid, cells, h, h', div_eq_mul_inv, sub_zero, sub_self, zero_mul, mul_zero, one_mul,
      mul_one, mul_inv_rev, zero_ne_one, if_true, if_false] <;> ring

/-- **C42.** If the outcome model is exact for the controls, the estimate does not depend on the propensities. -/
theorem C42_exact_outcome_model (sc : DidScore) (norm : Bool) (y d g0 g1 m m' p : Fin n → ℝ) (hd : Binary d)
    (hm : ∀ i, m i ≠ 1) (hm' : ∀ i, m' i ≠ 1) (hy : ∀ i, d i = 0 → y i = g0 i) (cr : Option (ClusterRep n)) :
    (didElems sc norm y d g0 g1 m p).coef cr = (didElems sc norm y d g0 g1 m' p).coef cr := by
  have : didElems sc norm y d g0 g1 m p = didElems sc norm y d g0 g1 m' p := by
    unfold didElems
    congr 1
    funext i
    rcases hd i with h | h
    · rw [hy i h]
      ring
    · congr 2
      cases sc <;> cases norm
      · rw [C42_unnormalised_formula d m p i (hd i) (hm i), C42_unnormalised_formula d m' p i (hd i) (hm' i), h]
        ring
      · simp only [didWr, h]
        ring
      · rfl
      · rfl
  rw [this]

/-- **C42.** ... and the observational estimate is then the average change of the treated relative to the
predicted change. -/
theorem C42_exact_formula (y d g0 g1 m p : Fin n → ℝ) (hd : Binary d) (hp : mean d ≠ 0) (hy : ∀ i, d i = 0 → y i = g0 i) :
    (didElems .observational true y d g0 g1 m p).coef none = (∑ i, d i * (y i - g0 i)) / ∑ i, d i := by
  have hs : ∑ i, d i ≠ 0 := fun h => hp (by unfold mean; rw [h, zero_div])
  have hb : ∀ i, (didElems .observational true y d g0 g1 m p).b i = 1 / mean d * (d i * (y i - g0 i)) := by
    intro i
    simp only [didElems, didB1, didWr]
    rcases hd i with h | h
    · rw [hy i h, h]; ring
    · rw [h]; ring
  have ha : ∀ i, (didElems .observational true y d g0 g1 m p).a i = - (1 / mean d * d i) := by
    intro i
    simp only [didElems, didWa]
    ring
  rw [coef_none, Finset.sum_congr rfl fun i _ => hb i, Finset.sum_congr rfl fun i _ => ha i, Finset.sum_neg_distrib,
    ← Finset.mul_sum, ← Finset.mul_sum, neg_div_neg_eq, mul_div_mul_left _ _ (one_div_ne_zero hp)]

/-- One step of `foldShare`. -/
noncomputable def shareStep (d : Fin n → ℝ) (p : Fin n → Option ℝ) (f : Fold n) (i : Fin n) : Option ℝ :=
  if i ∈ f.test then some ((f.train.map d).sum / f.train.length) else p i

theorem shareFold (d : Fin n → ℝ) (i : Fin n) (l : List (Fold n)) : ∀ (init : Fin n → Option ℝ),
    l.Pairwise (fun f g => List.Disjoint f.test g.test) →
    (∀ f ∈ l, i ∈ f.test → l.foldl (shareStep d) init i = some ((f.train.map d).sum / f.train.length)) ∧
    ((∀ f ∈ l, i ∉ f.test) → l.foldl (shareStep d) init i = init i) := by
  induction l with
  | nil => exact fun _ _ => ⟨fun f hf => (by cases hf), fun _ => rfl⟩
  | cons g l ih =>
    intro init hp
    rw [List.pairwise_cons] at hp
    obtain ⟨ih1, ih2⟩ := ih (shareStep d init g) hp.2
    constructor
    · intro f hf hif
      rw [List.foldl_cons]
      rcases List.mem_cons.1 hf with rfl | hf
      · rw [ih2 fun f' hf' h' => hp.1 f' hf' hif h']
        exact if_pos hif
      · exact ih1 f hf hif
    · intro h
      rw [List.foldl_cons, ih2 fun f hf => h f (List.mem_cons_of_mem _ hf)]
      exact if_neg (h g List.mem_cons_self)

/-- **C42.** The unnormalised scores use, in every test set, the treated share of the corresponding training set. -/
theorem C42_training_share (d : Fin n → ℝ) (smpls : List (Fold n)) (hdis : smpls.Pairwise fun f g => List.Disjoint f.test g.test)
    {f : Fold n} (hf : f ∈ smpls) {i : Fin n} (hi : i ∈ f.test) :
    foldShare d smpls i = some ((f.train.map d).sum / f.train.length) := by
  exact (shareFold d i smpls _ hdis).1 f hf hi

/-- Repeated cross-sections: the sum of the residual weights. -/
noncomputable def csTotal (sc : DidScore) (norm : Bool) (d t m p lam : Fin n → ℝ) (i : Fin n) : ℝ :=
  let r := csResid sc norm d t m p lam
  r.d1t1 i + r.d1t0 i + r.d0t0 i + r.d0t1 i

/-- **C42, repeated cross-sections.** Each of the four normalised weight vectors averages to plus or minus one, so
that their sum averages to zero. -/
theorem C42_cs_weights (sc : DidScore) (d t m p lam : Fin n → ℝ)
    (h11 : mean (cells d t).d1t1 ≠ 0) (h10 : mean (cells d t).d1t0 ≠ 0)
    (h01 : mean (cells d t).d0t1 ≠ 0) (h00 : mean (cells d t).d0t0 ≠ 0)
    (k01 : (mean fun i => (cells d t).d0t1 i * (m i / (1 - m i))) ≠ 0)
    (k00 : (mean fun i => (cells d t).d0t0 i * (m i / (1 - m i))) ≠ 0) :
    mean (csResid sc true d t m p lam).d1t1 = 1 ∧ mean (csResid sc true d t m p lam).d1t0 = -1 ∧
    mean (csResid sc true d t m p lam).d0t1 = -1 ∧ mean (csResid sc true d t m p lam).d0t0 = 1 ∧
    mean (csTotal sc true d t m p lam) = 0 := by
  have key : mean (csResid sc true d t m p lam).d1t1 = 1 ∧ mean (csResid sc true d t m p lam).d1t0 = -1 ∧
      mean (csResid sc true d t m p lam).d0t1 = -1 ∧ mean (csResid sc true d t m p lam).d0t0 = 1 := by
    cases sc
    · simp only [csResid]
      refine ⟨?_, ?_, ?_, ?_⟩
      · rw [mean_div_right, div_self h11]
      · rw [mean_mul_left, mean_div_right, div_self h10, mul_one]
      · rw [mean_mul_left, mean_div_right, div_self k01, mul_one]
      · rw [mean_div_right, div_self k00]
    · simp only [csResid]
      refine ⟨?_, ?_, ?_, ?_⟩
      · rw [mean_div_right, div_self h11]
      · rw [mean_mul_left, mean_div_right, div_self h10, mul_one]
      · rw [mean_mul_left, mean_div_right, div_self h01, mul_one]
      · rw [mean_div_right, div_self h00]
  refine ⟨key.1, key.2.1, key.2.2.1, key.2.2.2, ?_⟩
  have : csTotal sc true d t m p lam = fun i => (csResid sc true d t m p lam).d1t1 i + (csResid sc true d t m p lam).d1t0 i +
      (csResid sc true d t m p lam).d0t0 i + (csResid sc true d t m p lam).d0t1 i := rfl
  rw [this, mean_add, mean_add, mean_add, key.1, key.2.1, key.2.2.1, key.2.2.2]
  norm_num

/-- **C42, repeated cross-sections.** Adding a constant to all outcomes does not change the normalised estimate. -/
theorem C42_cs_location_outcome (sc : DidScore) (y d t m p lam : Fin n → ℝ) (g : Cells n) (c : ℝ)
    (h : mean (csTotal sc true d t m p lam) = 0) :
    (didCsElems sc true (fun i => y i + c) d t g m p lam).coef none = (didCsElems sc true y d t g m p lam).coef none := by
  have h' : mean (didCsElems sc true (fun i => y i + c) d t g m p lam).b = mean (didCsElems sc true y d t g m p lam).b := by
    have : (didCsElems sc true (fun i => y i + c) d t g m p lam).b =
        fun i => (didCsElems sc true y d t g m p lam).b i + csTotal sc true d t m p lam i * c := by
      funext i
      simp only [didCsElems, csTotal]
      ring
    rw [this, mean_add, mean_mul_right, h]
    simp
  unfold PsiElems.coef aggObs
  rw [h']
  rfl

/-- Outcome models that follow a change `cd` of the treated, `ct` of the second period, `c` of everybody. -/
def Cells.shift (g : Cells n) (c cd ct : ℝ) : Cells n :=
  { d1t1 := fun i => g.d1t1 i + (c + cd + ct)
    d1t0 := fun i => g.d1t0 i + (c + cd)
    d0t1 := fun i => g.d0t1 i + (c + ct)
    d0t0 := fun i => g.d0t0 i + c }

theorem csResid_support (sc : DidScore) (norm : Bool) (d t m p lam : Fin n → ℝ) (i : Fin n) :
    (∃ k, (csResid sc norm d t m p lam).d1t1 i = d i * t i * k) ∧
    (∃ k, (csResid sc norm d t m p lam).d1t0 i = d i * (1 - t i) * k) ∧
    (∃ k, (csResid sc norm d t m p lam).d0t1 i = (1 - d i) * t i * k) ∧
    (∃ k, (csResid sc norm d t m p lam).d0t0 i = (1 - d i) * (1 - t i) * k) := by
  cases sc <;> cases norm <;> simp only [csResid, cells, div_eq_mul_inv] <;>
    refine ⟨⟨_, rfl⟩, ?_, ?_, ?_⟩
  · exact ⟨-(p i * (1 - lam i))⁻¹, by ring⟩
  · exact ⟨-((p i * lam i)⁻¹ * (m i * (1 - m i)⁻¹)), by ring⟩
  · exact ⟨(p i * (1 - lam i))⁻¹ * (m i * (1 - m i)⁻¹), by ring⟩
  · exact ⟨-(mean fun i => d i * (1 - t i))⁻¹, by ring⟩
  · exact ⟨-((m i * (1 - m i)⁻¹) * (mean fun j => (1 - d j) * t j * (m j * (1 - m j)⁻¹))⁻¹), by ring⟩
  · exact ⟨(m i * (1 - m i)⁻¹) * (mean fun j => (1 - d j) * (1 - t j) * (m j * (1 - m j)⁻¹))⁻¹, by ring⟩
  · exact ⟨-(p i * (1 - lam i))⁻¹, by ring⟩
  · exact ⟨-((1 - p i) * lam i)⁻¹, by ring⟩
  · exact ⟨((1 - p i) * (1 - lam i))⁻¹, by ring⟩
  · exact ⟨-(mean fun i => d i * (1 - t i))⁻¹, by ring⟩
  · exact ⟨-(mean fun i => (1 - d i) * t i)⁻¹, by ring⟩
  · exact ⟨(mean fun i => (1 - d i) * (1 - t i))⁻¹, by ring⟩

/-- **C42, repeated cross-sections.** Level differences between groups, common time trends and constants that the
outcome models reproduce cancel, for every score, observation by observation. -/
theorem C42_cs_location (sc : DidScore) (norm : Bool) (y d t m p lam : Fin n → ℝ) (g : Cells n) (c cd ct : ℝ)
    (hd : Binary d) (ht : Binary t) :
    didCsElems sc norm (fun i => y i + (c + cd * d i + ct * t i)) d t (g.shift c cd ct) m p lam =
      didCsElems sc norm y d t g m p lam := by
  unfold didCsElems Cells.shift
  simp only [PsiElems.mk.injEq, true_and]
  funext i
  obtain ⟨⟨k1, h1⟩, ⟨k2, h2⟩, ⟨k3, h3⟩, ⟨k4, h4⟩⟩ := csResid_support sc norm d t m p lam i
  rw [h1, h2, h3, h4]
  rcases hd i with h | h <;> rcases ht i with h' | h' <;> rw [h, h'] <;> ring

/-- **C42, repeated cross-sections.** With exact outcome models the estimate does not depend on the propensities. -/
theorem C42_cs_exact_outcome_model (sc : DidScore) (norm : Bool) (y d t m m' p lam : Fin n → ℝ) (g : Cells n)
    (h11 : ∀ i, d i * t i * (y i - g.d1t1 i) = 0) (h10 : ∀ i, d i * (1 - t i) * (y i - g.d1t0 i) = 0)
    (h01 : ∀ i, (1 - d i) * t i * (y i - g.d0t1 i) = 0) (h00 : ∀ i, (1 - d i) * (1 - t i) * (y i - g.d0t0 i) = 0) :
    didCsElems sc norm y d t g m p lam = didCsElems sc norm y d t g m' p lam := by
  have z : ∀ m'' i, (csResid sc norm d t m'' p lam).d1t1 i * (y i - g.d1t1 i) = 0 ∧
      (csResid sc norm d t m'' p lam).d1t0 i * (y i - g.d1t0 i) = 0 ∧
      (csResid sc norm d t m'' p lam).d0t1 i * (y i - g.d0t1 i) = 0 ∧
      (csResid sc norm d t m'' p lam).d0t0 i * (y i - g.d0t0 i) = 0 := by
    intro m'' i
    obtain ⟨⟨k1, e1⟩, ⟨k2, e2⟩, ⟨k3, e3⟩, ⟨k4, e4⟩⟩ := csResid_support sc norm d t m'' p lam i
    rw [e1, e2, e3, e4]
    refine ⟨?_, ?_, ?_, ?_⟩
    · rw [mul_right_comm, h11, zero_mul]
    · rw [mul_right_comm, h10, zero_mul]
    · rw [mul_right_comm, h01, zero_mul]
    · rw [mul_right_comm, h00, zero_mul]
  unfold didCsElems
  simp only [PsiElems.mk.injEq, true_and]
  funext i
  obtain ⟨a1, a2, a3, a4⟩ := z m i
  obtain ⟨b1, b2, b3, b4⟩ := z m' i
  rw [a1, a2, a3, a4, b1, b2, b3, b4]

example : mean (![1, 0] : Fin 2 → ℝ) ≠ 0 ∧ (mean fun i => 1 - (![1, 0] : Fin 2 → ℝ) i) ≠ 0 ∧
    (mean fun i => (1 - (![1, 0] : Fin 2 → ℝ) i) * ((1 / 3 : ℝ) / (1 - 1 / 3))) ≠ 0 := by
  simp only [mean, Fin.sum_univ_two]
  simp
  norm_num

example : ∀ _ : Fin 2, mean (![1, 0] : Fin 2 → ℝ) ≠ 0 ∧ mean (![1, 0] : Fin 2 → ℝ) ≠ 1 := by
  simp only [mean, Fin.sum_univ_two]
  simp

example : mean (cells ![1, 1, 0, 0] ![1, 0, 1, 0]).d1t1 ≠ (0 : ℝ) ∧ mean (cells ![1, 1, 0, 0] ![1, 0, 1, 0]).d0t0 ≠ (0 : ℝ) := by
  simp only [mean, cells, Fin.sum_univ_four]
  simp

/-! ## C17 -/

/-- **C17.** Whatever the models compute, after `fit` every `nu2` is non-negative: either it was positive in
all repetitions, or all are recomputed from the Riesz representers. -/
theorem C17_nu2_nonneg {r : ℕ} (e : Fin r → SensElems n) (k : Fin r) : 0 ≤ (validateSens e k).nu2 := by
  unfold validateSens
  split
  · exact mean_sq_nonneg _
  · rename_i h
    push Not at h
    exact (h k).le

/-- **C17.** `nu2` is strictly positive unless the Riesz representer vanishes. -/
theorem C17_nu2_pos {r : ℕ} (hn : 0 < n) (e : Fin r → SensElems n) (k : Fin r) (h : (e k).rr ≠ 0) :
    0 < (validateSens e k).nu2 := by
  unfold validateSens
  split
  · refine (mean_sq_pos_iff hn _).2 ?_
    by_contra h'
    push Not at h'
    exact h (funext h')
  · rename_i h'
    push Not at h'
    exact h' k

/-- **C17.** The fall-back leaves `sigma2`, its influence function and the Riesz representer alone, and changes
nothing if all `nu2` are positive. -/
theorem C17_fallback_scope {r : ℕ} (e : Fin r → SensElems n) (k : Fin r) :
    (validateSens e k).sigma2 = (e k).sigma2 ∧ (validateSens e k).psiSigma2 = (e k).psiSigma2 ∧
    (validateSens e k).rr = (e k).rr ∧ ((∀ j, 0 < (e j).nu2) → validateSens e k = e k) := by
  unfold validateSens
  split
  · rename_i h
    refine ⟨rfl, rfl, rfl, fun h' => ?_⟩
    obtain ⟨j, hj⟩ := h
    exact absurd (h' j) (not_lt.2 hj)
  · exact ⟨rfl, rfl, rfl, fun _ => rfl⟩

/-- The elements of any of the models with sensitivity analysis. -/
inductive IsModelSens : SensElems n → Prop
  | plrPo (y d l m : Fin n → ℝ) (theta : ℝ) : IsModelSens (plrSens (plrPoResid2 y d l m theta) d m)
  | plrIv (y d g m : Fin n → ℝ) (theta : ℝ) : IsModelSens (plrSens (plrIvResid2 y d g theta) d m)
  | irm (y d g0 g1 m w wb : Fin n → ℝ) : IsModelSens (irmSens y d g0 g1 m w wb)
  | apo (y t g0 g1 m w wb : Fin n → ℝ) : IsModelSens (apoSens y t g0 g1 m w wb)
  | did (sc : DidScore) (norm : Bool) (y d g0 g1 m : Fin n → ℝ) : IsModelSens (didSens sc norm y d g0 g1 m)
  | didCs (sc : DidScore) (norm : Bool) (y d t : Fin n → ℝ) (g : Cells n) (m : Fin n → ℝ) :
      IsModelSens (csSens sc norm y d t g m)

/-- **C17.** In every model `sigma2` is non-negative. -/
theorem C17_sigma2_nonneg {e : SensElems n} (h : IsModelSens e) : 0 ≤ e.sigma2 := by
  cases h <;> exact mean_sq_nonneg _

/-- **C17.** In every model the influence functions of `sigma2` and `nu2` are centred (before the fall-back). -/
theorem C17_centred {e : SensElems n} (hn : 0 < n) (h : IsModelSens e) (hnu : e.nu2 ≠ 0) :
    mean e.psiSigma2 = 0 ∧ mean e.psiNu2 = 0 := by
  have hs : ∀ a b c : Fin n → ℝ, mean (sensOf a b c).psiSigma2 = 0 ∧ mean (sensOf a b c).psiNu2 = 0 := by
    intro a b c
    simp only [sensOf]
    exact ⟨by rw [mean_sub, mean_const hn, sub_self], by rw [mean_sub, mean_const hn, sub_self]⟩
  have hp : ∀ a d m : Fin n → ℝ, (plrSens a d m).nu2 ≠ 0 → mean (plrSens a d m).psiSigma2 = 0 ∧ mean (plrSens a d m).psiNu2 = 0 := by
    intro a d m h
    simp only [plrSens] at h ⊢
    have h' : (mean fun i => (d i - m i) ^ 2) ≠ 0 := fun h0 => h (by rw [h0, div_zero])
    refine ⟨by rw [mean_sub, mean_const hn, sub_self], ?_⟩
    rw [mean_sub, mean_const hn, mean_mul_right]
    field_simp
    ring
  cases h
  · exact hp _ _ _ hnu
  · exact hp _ _ _ hnu
  all_goals exact hs _ _ _

/-- **C17.** `max_bias` is the non-negative square root of `sigma2 * nu2`, a product of non-negative numbers. -/
theorem C17_max_bias {r : ℕ} {e : Fin r → SensElems n} (h : ∀ k, IsModelSens (e k)) (k : Fin r) :
    0 ≤ (validateSens e k).maxBias ∧
    (validateSens e k).maxBias ^ 2 = (validateSens e k).sigma2 * (validateSens e k).nu2 := by
  refine ⟨Real.sqrt_nonneg _, Real.sq_sqrt ?_⟩
  refine mul_nonneg ?_ (C17_nu2_nonneg e k)
  rw [(C17_fallback_scope e k).1]
  exact C17_sigma2_nonneg (h k)

/-- **C17.** In the PLR model `nu2` is positive whenever some treatment residual is not zero: the fall-back is
never used. -/
theorem C17_plr_no_fallback {r : ℕ} (hn : 0 < n) (res d : Fin r → Fin n → ℝ) (m : Fin r → Fin n → ℝ)
    (h : ∀ k, ∃ i, d k i ≠ m k i) (k : Fin r) :
    validateSens (fun k => plrSens (res k) (d k) (m k)) k = plrSens (res k) (d k) (m k) := by
  refine (C17_fallback_scope _ k).2.2.2 fun j => ?_
  have : 0 < mean fun i => (d j i - m j i) ^ 2 := by
    refine (mean_sq_pos_iff hn _).2 ?_
    obtain ⟨i, hi⟩ := h j
    exact ⟨i, sub_ne_zero.2 hi⟩
  exact one_div_pos.2 this

/-- **C17.** When the fall-back is used, the influence function of `nu2` is no longer centred: its mean is
`nu2` itself. -/
theorem C17_fallback_not_centred {r : ℕ} (e : Fin r → SensElems n) (j k : Fin r) (h : (e j).nu2 ≤ 0) :
    mean (validateSens e k).psiNu2 = (validateSens e k).nu2 := by
  have : ∃ k, (e k).nu2 ≤ 0 := ⟨j, h⟩
  unfold validateSens
  rw [if_pos this]

/-- **C17.** The fall-back can be needed: in the IRM a small propensity of a treated unit makes `nu2` negative. -/
theorem C17_fallback_reachable : ∃ (y d m : Fin 1 → ℝ), Binary d ∧ (∀ i, 0 < m i ∧ m i < 1) ∧
    (irmSens y d (fun _ => 0) (fun _ => 0) m (fun _ => 1) fun _ => 1).nu2 < 0 := by
  refine ⟨fun _ => 0, fun _ => 1, fun _ => 1 / 10, fun _ => .inr rfl, fun _ => by norm_num, ?_⟩
  simp only [irmSens, sensOf]
  rw [mean_const (by norm_num)]
  norm_num

/-! ## C59: the reported Riesz representer is the one the score uses -/

/-- **C59, PLR.** `riesz_rep` times the structural residual is minus the score divided by the average derivative. -/
theorem C59_plr (y d l m : Fin n → ℝ) (theta : ℝ) (i : Fin n) :
    (plrSens (plrPoResid2 y d l m theta) d m).rr i * (y i - l i - theta * (d i - m i)) =
      - ((plrPo y d l m).score theta i / mean (plrPo y d l m).a) := by
  simp only [plrSens, plrPo, PsiElems.score]
  rw [mean_neg]
  simp only [← pow_two]
  rw [div_neg, neg_neg]
  ring

/-- **C59, IRM.** The score is the weighted predicted effect plus `riesz_rep` times the outcome residual. -/
theorem C59_irm (y d g0 g1 m w wb : Fin n → ℝ) (hd : Binary d) (i : Fin n) :
    (irmElems y d g0 g1 m w wb).b i = w i * (g1 i - g0 i) +
      (irmSens y d g0 g1 m w wb).rr i * (y i - (if d i = 1 then g1 i else g0 i)) := by
  simp only [irmElems, irmSens, sensOf]
  rcases hd i with h | h
  · rw [h]; simp only [zero_ne_one, if_false]; ring
  · rw [h]; simp only [if_true]; ring

/-- **C59, APO.** -/
theorem C59_apo (nrm : Bool) (y t g0 g1 m w wb : Fin n → ℝ) (ht : Binary t) (i : Fin n) :
    (apoElems nrm y t g1 m w wb).b i = w i * g1 i +
      (apoSens y t g0 g1 (adjust nrm m t) w wb).rr i * (y i - (if t i = 1 then g1 i else g0 i)) := by
  simp only [apoElems, apoSens, sensOf]
  rcases ht i with h | h
  · rw [h]; simp only [zero_ne_one, if_false]; ring
  · rw [h]; simp only [if_true]; ring

/-- **C59, DiD.** With `p_hat` equal to the overall treated share, `riesz_rep` is the weight of the residuals. -/
theorem C59_did (hn : 0 < n) (sc : DidScore) (norm : Bool) (y d g0 g1 m : Fin n → ℝ) (hd : Binary d) (hm : ∀ i, m i ≠ 1)
    (hp0 : mean d ≠ 0) (hp : mean d ≠ 1) (i : Fin n) :
    (didSens sc norm y d g0 g1 m).rr i = didWr sc norm d m (fun _ => mean d) i := by
  have h1 : (mean fun j => 1 - d j) = 1 - mean d := by rw [mean_sub, mean_const hn]
  have hp' : 1 - mean d ≠ 0 := sub_ne_zero.2 hp.symm
  simp only [didSens, sensOf]
  cases sc <;> cases norm
  · rw [C42_unnormalised_formula d m _ i (hd i) (hm i)]
    simp only [didRr]
    ring
  · rfl
  · simp only [didRr, didWr]
    field_simp
    ring
  · simp only [didRr, didWr, h1]

/-- **C59, repeated cross-sections.** True for the experimental scores and for the normalised observational
score. -/
theorem C59_did_cs_partial (sc : DidScore) (norm : Bool) (y d t m : Fin n → ℝ) (g : Cells n)
    (h : ¬ (sc = .observational ∧ norm = false)) (i : Fin n) :
    (csSens sc norm y d t g m).rr i = csTotal sc norm d t m (fun _ => mean d) (fun _ => mean t) i := by
  simp only [csSens, sensOf, csTotal]
  cases sc <;> cases norm
  · exact absurd ⟨rfl, rfl⟩ h
  · simp only [csRr, csResid]
    ring
  · simp only [csRr, csResid]
    ring
  · simp only [csRr, csResid]
    ring

/-- **C59, violated.** Repeated cross-sections, observational score without normalisation: the reported Riesz
representer is positive everywhere, whereas the score subtracts the treated units of the first period and the
controls of the second period. -/
theorem C59_did_cs_violated : ∃ (y d t m : Fin 4 → ℝ) (g : Cells 4) (i : Fin 4), Binary d ∧ Binary t ∧
    (∀ i, 0 < m i ∧ m i < 1) ∧
    (csSens .observational false y d t g m).rr i = 4 ∧
    csTotal .observational false d t m (fun _ => mean d) (fun _ => mean t) i = -4 := by
  refine ⟨fun _ => 0, ![1, 1, 0, 0], ![1, 0, 1, 0], fun _ => 1 / 2, ⟨fun _ => 0, fun _ => 0, fun _ => 0, fun _ => 0⟩, 1, ?_, ?_,
    fun _ => by norm_num, ?_, ?_⟩
  · intro i
    match i with
    | 0 => exact .inr rfl
    | 1 => exact .inr rfl
    | 2 => exact .inl rfl
    | 3 => exact .inl rfl
  · intro i
    match i with
    | 0 => exact .inr rfl
    | 1 => exact .inl rfl
    | 2 => exact .inr rfl
    | 3 => exact .inl rfl
  · simp only [csSens, sensOf, csRr, mean, Fin.sum_univ_four]
    simp
    norm_num
  · simp only [csTotal, csResid, cells, mean, Fin.sum_univ_four]
    simp
    norm_num

/-- **C59.** The squares agree even there, so `nu2` is not affected. -/
theorem C59_did_cs_squares (y d t m : Fin n → ℝ) (g : Cells n) (hd : Binary d) (ht : Binary t) (i : Fin n) :
    (csSens .observational false y d t g m).rr i ^ 2 =
      csTotal .observational false d t m (fun _ => mean d) (fun _ => mean t) i ^ 2 := by
  simp only [csSens, sensOf, csTotal, csRr, csResid, cells]
  rcases hd i with h | h <;> rcases ht i with h' | h' <;> rw [h, h'] <;> simp [mul_comm]

/-! ## C18 -/

theorem clip_mem {lo hi : ℝ} (h : lo ≤ hi) (x : ℝ) : lo ≤ clip lo hi x ∧ clip lo hi x ≤ hi :=
  ⟨le_min h (le_max_right _ _), min_le_left _ _⟩

/-- **C18.** `cf_y` and `cf_d` lie in [0,1], `rho` in [-1,1] (all residual variances and `nu2` positive, so that no
division by zero occurs). -/
theorem C18_ranges {r : ℕ} (hr : 0 < r) (varY : ℝ) (s2L n2L thL s2S n2S thS : Fin r → ℝ) (_hv : 0 < varY)
    (_h1 : ∀ k, 0 < s2L k ∧ 0 < n2L k ∧ 0 < n2S k) :
    let G := gainOne varY s2L n2L thL s2S n2S thS
    0 ≤ G.cfY ∧ G.cfY ≤ 1 ∧ 0 ≤ G.cfD ∧ G.cfD ≤ 1 ∧ -1 ≤ G.rho ∧ G.rho ≤ 1 := by
  have hc := fun x => clip_mem (zero_le_one (α := ℝ)) x
  have hrho : ∀ a b c d e, -1 ≤ rhoOne a b c d e ∧ rhoOne a b c d e ≤ 1 := by
    intro a b c d e
    unfold rhoOne
    dsimp only
    obtain ⟨h1, h2⟩ := hc (if gainDenom a b c d ≠ 0 then |e| / gainDenom a b c d else 1)
    rcases lt_trichotomy e 0 with he | he | he
    · rw [sign_neg he, SignType.coe_neg_one]; constructor <;> linarith
    · rw [he, sign_zero]; simp
    · rw [sign_pos he, SignType.coe_one]; constructor <;> linarith
  exact ⟨le_median hr fun k => (hc _).1, median_le hr fun k => (hc _).2, le_median hr fun k => (hc _).1,
    median_le hr fun k => (hc _).2, le_median hr fun k => (hrho _ _ _ _ _).1, median_le hr fun k => (hrho _ _ _ _ _).2⟩

/-- **C18.** Before clipping, `cf_y` is the relative increase of the residual variance and `cf_d` the relative
gain of the variance of the Riesz representer; the variance of the outcome plays no role. -/
theorem C18_meaning (varY s2L s2S n2L n2S : ℝ) (hv : varY ≠ 0) (h1 : s2L ≠ 0) (h2 : n2L ≠ 0) (h3 : n2S ≠ 0) :
    cfYOne varY s2L s2S = clip 0 1 ((s2S - s2L) / s2L) ∧ cfDOne n2L n2S = clip 0 1 ((n2L - n2S) / n2S) := by
  unfold cfYOne cfDOne
  dsimp only
  constructor
  · congr 1
    rw [sub_sub_cancel]
    field_simp
    ring
  · congr 1
    field_simp

/-- **C18.** If leaving the covariates out changes neither the fit nor the Riesz representer nor the estimate, all
statistics are zero. -/
theorem C18_zero {r : ℕ} (hr : 0 < r) (varY : ℝ) (s2 n2 th : Fin r → ℝ) (hv : 0 < varY) (h : ∀ k, 0 < s2 k ∧ 0 < n2 k) :
    let G := gainOne varY s2 n2 th s2 n2 th
    G.cfY = 0 ∧ G.cfD = 0 ∧ G.rho = 0 ∧ G.deltaTheta = 0 := by
  have c0 : clip 0 1 0 = 0 := by simp [clip]
  have e1 : ∀ k, cfYOne varY (s2 k) (s2 k) = 0 := fun k => by
    rw [(C18_meaning varY (s2 k) (s2 k) (n2 k) (n2 k) hv.ne' (h k).1.ne' (h k).2.ne' (h k).2.ne').1, sub_self, zero_div, c0]
  have e2 : ∀ k, cfDOne (n2 k) (n2 k) = 0 := fun k => by
    rw [(C18_meaning varY (s2 k) (s2 k) (n2 k) (n2 k) hv.ne' (h k).1.ne' (h k).2.ne' (h k).2.ne').2, sub_self, zero_div, c0]
  simp only [gainOne, e1, e2, sub_self]
  refine ⟨median_const hr 0, median_const hr 0, ?_, median_const hr 0⟩
  have : ∀ k, rhoOne (s2 k) (s2 k) (n2 k) (n2 k) 0 = 0 := fun k => by simp [rhoOne]
  simp only [this]
  exact median_const hr 0

/-- **C18.** More explained by the left-out covariates means larger benchmark values. -/
theorem C18_monotone (varY s2L s2S s2S' n2L n2S n2S' : ℝ) (hv : varY ≠ 0) (h1 : 0 < s2L) (h2 : 0 < n2L)
    (h3 : 0 < n2S') (hs : s2S ≤ s2S') (hn2 : n2S' ≤ n2S) :
    cfYOne varY s2L s2S ≤ cfYOne varY s2L s2S' ∧ cfDOne n2L n2S ≤ cfDOne n2L n2S' := by
  have h4 : 0 < n2S := lt_of_lt_of_le h3 hn2
  rw [(C18_meaning varY s2L s2S n2L n2S hv h1.ne' h2.ne' h4.ne').1, (C18_meaning varY s2L s2S' n2L n2S hv h1.ne' h2.ne' h4.ne').1,
    (C18_meaning varY s2L s2S n2L n2S hv h1.ne' h2.ne' h4.ne').2, (C18_meaning varY s2L s2S n2L n2S' hv h1.ne' h2.ne' h3.ne').2]
  have mono : ∀ a b, a ≤ b → clip 0 1 a ≤ clip 0 1 b := fun a b h => min_le_min_left _ (max_le_max_right _ h)
  constructor
  · exact mono _ _ (by gcongr)
  · refine mono _ _ ?_
    rw [sub_div, sub_div, div_self h4.ne', div_self h3.ne']
    have : n2L / n2S ≤ n2L / n2S' := by gcongr
    linarith

/-- **C18.** The sign of `rho` is the sign of the change of the estimate. -/
theorem C18_rho_sign (s2L s2S n2L n2S delta : ℝ) :
    0 ≤ rhoOne s2L s2S n2L n2S delta * delta ∧ (delta = 0 → rhoOne s2L s2S n2L n2S delta = 0) := by
  have hc := (clip_mem (zero_le_one (α := ℝ)) (if gainDenom s2L s2S n2L n2S ≠ 0 then |delta| / gainDenom s2L s2S n2L n2S else 1)).1
  unfold rhoOne
  dsimp only
  constructor
  · rcases lt_trichotomy delta 0 with he | he | he
    · rw [sign_neg he, SignType.coe_neg_one, mul_neg_one, neg_mul]
      exact neg_nonneg.2 (mul_nonpos_of_nonneg_of_nonpos hc he.le)
    · rw [he]; simp
    · rw [sign_pos he, SignType.coe_one, mul_one]
      exact mul_nonneg hc he.le
  · intro h
    rw [h]
    simp

/-- **C18.** The size of `rho`: if the short model explains less of the outcome and of the treatment, the change of the
estimate relative to the geometric mean of the two losses, capped at one; otherwise one. -/
theorem C18_rho_size (s2L s2S n2L n2S delta : ℝ) :
    (s2L < s2S → n2S < n2L → |rhoOne s2L s2S n2L n2S delta| = min 1 (|delta| / Real.sqrt ((s2S - s2L) * (n2L - n2S)))) ∧
    (s2S ≤ s2L ∨ n2L ≤ n2S → delta ≠ 0 → |rhoOne s2L s2S n2L n2S delta| = 1) := by
  have hsg : delta ≠ 0 → |(SignType.sign delta : ℝ)| = 1 := fun h => by
    rcases lt_or_gt_of_ne h with h | h
    · rw [sign_neg h]; simp
    · rw [sign_pos h]; simp
  constructor
  · intro h1 h2
    have hp : 0 < (s2S - s2L) * (n2L - n2S) := mul_pos (sub_pos.2 h1) (sub_pos.2 h2)
    have hd : gainDenom s2L s2S n2L n2S = Real.sqrt ((s2S - s2L) * (n2L - n2S)) := if_pos ⟨sub_pos.2 h1, sub_pos.2 h2⟩
    have hne : gainDenom s2L s2S n2L n2S ≠ 0 := by rw [hd]; exact (Real.sqrt_pos.2 hp).ne'
    unfold rhoOne clip
    dsimp only
    rw [if_pos hne, hd]
    have h0 : 0 ≤ |delta| / Real.sqrt ((s2S - s2L) * (n2L - n2S)) := div_nonneg (abs_nonneg _) (Real.sqrt_nonneg _)
    rw [max_eq_left h0, abs_mul, abs_of_nonneg (le_min zero_le_one h0)]
    rcases eq_or_ne delta 0 with rfl | h
    · simp
    · rw [hsg h, mul_one]
  · intro h hne
    have hd : gainDenom s2L s2S n2L n2S = 0 := if_neg fun g => by
      rcases h with h | h
      · exact absurd g.1 (not_lt.2 (sub_nonpos.2 h))
      · exact absurd g.2 (not_lt.2 (sub_nonpos.2 h))
    unfold rhoOne clip
    dsimp only
    rw [hd, if_neg (by simp), abs_mul, hsg hne]
    simp

/-- **C18.** `delta_theta` is the median of (short estimate - long estimate). -/
theorem C18_delta {r : ℕ} (varY : ℝ) (s2L n2L thL s2S n2S thS : Fin r → ℝ) :
    (gainOne varY s2L n2L thL s2S n2S thS).deltaTheta = median fun k => thS k - thL k := rfl

/-- **C18.** `gain_statistics` succeeds exactly for two models with sensitivity elements of the same shape. -/
theorem C18_succeeds_iff (varY : ℝ) (long short : GainInput) :
    (∃ l, gainStatistics varY long short = .ok l) ↔
      long.sens ≠ none ∧ short.sens ≠ none ∧ long.nCoef = short.nCoef ∧ long.nRep = short.nRep := by
  obtain ⟨c, r, s, th⟩ := long
  obtain ⟨c', r', s', th'⟩ := short
  cases s with
  | none => simp [gainStatistics]
  | some a =>
    cases s' with
    | none => simp [gainStatistics]
    | some b =>
      simp only [gainStatistics]
      constructor
      · rintro ⟨l, hl⟩
        split at hl
        · rename_i h
          exact ⟨by simp, by simp, h⟩
        · cases hl
      · rintro ⟨_, _, h⟩
        rw [dif_pos h]
        exact ⟨_, rfl⟩

/-- **C18.** One row per treatment. -/
theorem C18_rows (varY : ℝ) (long short : GainInput) (l : List Gain) (h : gainStatistics varY long short = .ok l) :
    l.length = long.nCoef := by
  obtain ⟨c, r, s, th⟩ := long
  obtain ⟨c', r', s', th'⟩ := short
  cases s with
  | none => simp [gainStatistics] at h
  | some a =>
    cases s' with
    | none => simp [gainStatistics] at h
    | some b =>
      simp only [gainStatistics] at h
      split at h
      · rw [← Except.ok.inj h]
        simp
      · cases h

/-- **C18.** `sensitivity_benchmark` accepts exactly non-empty lists of covariates and refits without them, keeping
the order of the others. -/
theorem C18_benchmark_covariates (xCols set : List String) (isList fitArgsOk : Bool) (xs : List String) :
    benchmarkShort xCols isList set fitArgsOk = .ok xs ↔
      isList = true ∧ fitArgsOk = true ∧ set ≠ [] ∧ set ⊆ xCols ∧ xs = xCols.filter fun x => x ∉ set := by
  unfold benchmarkShort
  cases isList
  · simp
  · rw [if_neg (by simp)]
    by_cases h1 : set = []
    · rw [if_pos h1]; simp [h1]
    · rw [if_neg h1]
      by_cases h2 : ∀ s ∈ set, s ∈ xCols
      · rw [if_neg (not_not.2 h2)]
        cases fitArgsOk
        · simp
        · rw [if_neg (by simp)]
          constructor
          · intro h; exact ⟨rfl, rfl, h1, h2, (Except.ok.inj h).symm⟩
          · rintro ⟨_, _, _, _, rfl⟩; rfl
      · rw [if_pos h2]
        constructor
        · intro h; cases h
        · rintro ⟨_, _, _, h, _⟩; exact absurd h h2

/-- **C18, gap.** Benchmark values can equal 1, which `sensitivity_analysis` and `sensitivity_plot` reject. -/
theorem C18_not_always_usable_violated : ∃ (varY : ℝ) (s2L n2L thL s2S n2S thS : Fin 1 → ℝ), 0 < varY ∧
    (∀ k, 0 < s2L k ∧ 0 < n2L k ∧ 0 < n2S k) ∧
    checkInZeroOne (.float (gainOne varY s2L n2L thL s2S n2S thS).cfY) true false = .error .valueError := by
  refine ⟨3, fun _ => 1, fun _ => 1, fun _ => 0, fun _ => 2, fun _ => 1, fun _ => 0, by norm_num, fun _ => by norm_num, ?_⟩
  have : (gainOne (r := 1) 3 (fun _ => 1) (fun _ => 1) (fun _ => 0) (fun _ => 2) (fun _ => 1) fun _ => 0).cfY = 1 := by
    simp only [gainOne, median_one]
    rw [(C18_meaning 3 1 2 1 1 (by norm_num) (by norm_num) (by norm_num) (by norm_num)).1]
    norm_num [clip]
  rw [this]
  simp [checkInZeroOne]

example : let G := gainOne (r := 1) 4 (fun _ => 1) (fun _ => 2) (fun _ => 0) (fun _ => 3 / 2) (fun _ => 3 / 2) (fun _ => 1 / 4)
    G.cfY = 1 / 2 ∧ G.cfD = 1 / 3 ∧ G.rho = 1 / 2 ∧ G.deltaTheta = 1 / 4 := by
  simp only [gainOne, median_one]
  rw [(C18_meaning 4 1 (3 / 2) 2 (3 / 2) (by norm_num) (by norm_num) (by norm_num) (by norm_num)).1,
    (C18_meaning 4 1 (3 / 2) 2 (3 / 2) (by norm_num) (by norm_num) (by norm_num) (by norm_num)).2]
  have hd : gainDenom 1 (3 / 2) 2 (3 / 2) = 1 / 2 := by
    unfold gainDenom
    dsimp only
    rw [if_pos (by norm_num)]
    rw [show ((3 : ℝ) / 2 - 1) * (2 - 3 / 2) = (1 / 2) ^ 2 by norm_num]
    exact Real.sqrt_sq (by norm_num)
  refine ⟨by norm_num [clip], by norm_num [clip], ?_, by norm_num⟩
  unfold rhoOne
  dsimp only
  rw [hd, if_pos (by norm_num), sign_pos (by norm_num)]
  norm_num [clip, abs_of_pos]

end DML
