import Verif.OrthogonalityQuantProps
import Verif.OrthogonalityExamples

/-!
# Quantile-type scores: examples

Laws that meet the hypotheses of C78 for the quantile-type scores.  Nothing here models code of the package.
-/

namespace DML

open MeasureTheory ProbabilityTheory Filter

/-- The potential outcome under treatment: the covariate plus one, and noise of size a quarter. -/
noncomputable def quantV (w : Fin 3 → Bool) : ℝ := 1 + plrX w + sgn (w 2) / 4

/-- The mean of a function of the potential outcome given the covariate. -/
noncomputable def quantMean (f : ℝ → ℝ) (x : ℝ) : ℝ := (f (1 + x + 1 / 4) + f (1 + x - 1 / 4)) / 2

theorem indEq_irmD (w : Fin 3 → Bool) : indEq (irmD w) 1 = irmD w := by
  unfold indEq irmD
  cases w 1 <;> simp

theorem quant_level : LevelLaw coins irmY quantV irmD 1 plrX (fun _ => 1 / 2) (1 / 100) := by
  refine ⟨measurable_coin _, measurable_coin _, measurable_coin _, measurable_coin _, measurable_const, fun w hw => ?_, ?_, by norm_num,
    fun x => by norm_num⟩
  · unfold irmY quantV
    rw [hw]
  · simp only [indEq_irmD]
    exact irm_law.treat

theorem quant_mean {f : ℝ → ℝ} (hf : Measurable f) :
    CondMean coins (fun w => (indEq (irmD w) 1, plrX w)) (fun w => f (quantV w)) plrX (quantMean f) := by
  simp only [indEq_irmD]
  have n := late_noise (fun q => (f (1 + q.2 + 1 / 4) - f (1 + q.2 - 1 / 4)) / 2) (by fun_prop)
  refine ⟨measurable_coin _, ?_, n.of_eq fun w => ?_, coin_mem _, coin_mem _⟩
  · unfold quantMean
    fun_prop
  · unfold quantV quantMean sgn
    cases w 2 <;> simp [← sub_eq_add_neg, neg_div] <;> ring

/-- Means over the three coins. -/
theorem coin_sum (f : (Fin 3 → Bool) → ℝ) : ∫ w, f w ∂coins = (∑ w, f w) / 8 := by
  have hb : ∀ b : Bool, uniformOn (Set.univ : Set Bool) {b} = 1 / 2 := fun b => by
    rw [uniformOn_univ]
    simp
  have h8 : ∀ w, coins.real {w} = 1 / 8 := fun w => by
    unfold coins
    rw [measureReal_def, Measure.pi_singleton, Fin.prod_univ_three, hb, hb, hb, ENNReal.toReal_mul, ENNReal.toReal_mul]
    norm_num
  rw [integral_fintype Integrable.of_finite]
  simp only [h8, smul_eq_mul, ← Finset.mul_sum]
  ring

/-- The probability of an event about the three coins. -/
theorem coin_real (s : Set (Fin 3 → Bool)) [DecidablePred (· ∈ s)] : coins.real s = (∑ w, if w ∈ s then (1 : ℝ) else 0) / 8 := by
  have hs : MeasurableSet s := s.toFinite.measurableSet
  have e : coins.real s = ∫ w, Set.indicator s (fun _ => (1 : ℝ)) w ∂coins := by
    rw [integral_indicator hs, setIntegral_const]
    simp
  rw [e, coin_sum]
  simp [Set.indicator_apply]

/-- Numbers between a quarter and seven quarters are medians of the potential outcome. -/
theorem quant_median {θ : ℝ} (h1 : 1 / 4 ≤ θ) (h2 : θ < 7 / 4) : coins.real {w | quantV w ≤ θ} = 1 / 2 := by
  have e : {w | quantV w ≤ θ} = {w : Fin 3 → Bool | w 0 = false} := by
    ext w
    simp only [Set.mem_ofPred_eq, quantV, plrX, sgn]
    cases w 0 <;> cases w 2 <;> simp <;> linarith
  rw [e, coin_real]
  have c : (∑ w : Fin 3 → Bool, if w ∈ {w : Fin 3 → Bool | w 0 = false} then (1 : ℝ) else 0) = 4 := by
    simp only [Set.mem_ofPred_eq, ← Finset.sum_filter]
    rw [Finset.sum_const, show (Finset.filter (fun w : Fin 3 → Bool => w 0 = false) Finset.univ).card = 4 by decide]
    norm_num
  rw [c]
  norm_num

/-- The score of PQ for the median, with a wrong regression function: zero at `1`; and along a path of wrong functions its mean does not move to first order. -/
example : ∫ w, pqScore (1 / 2) 1 (indEq (irmD w) 1) 7 (1 / 2) (irmY w) ∂coins = 0 ∧
    HasDerivAt (fun t => ∫ w, pqScore (1 / 2) 1 (indEq (irmD w) 1) (quantMean (fun v => indLe v 1) (plrX w) + t * plrX w) (1 / 2 + t * 1)
      (irmY w) ∂coins) 0 0 ∧
    ∫ w, pqScore (1 / 2) 1 (indEq (irmD w) 1) (quantMean (fun v => indLe v 1) (plrX w)) (1 / 3) (irmY w) ∂coins = 0 := by
  have h := C78_pq quant_level (fun θ => quant_mean (measurable_indLe θ)) (1 / 2)
  refine ⟨(h.1 (fun _ => 7) ⟨measurable_const, coin_mem _⟩ 1).2 (quant_median (by norm_num) (by norm_num)),
    h.2.1 1 (fun x => x) (fun _ => 1) ⟨measurable_id, coin_mem _⟩ ⟨measurable_const, 1, fun _ => by norm_num⟩, ?_⟩
  have h3 := h.2.2 1 (quantMean fun v => indLe v 1) (fun _ => 1 / 3) ⟨(quant_mean (measurable_indLe 1)).measG, coin_mem _⟩
    ⟨measurable_const, 1 / 3, by norm_num, fun _ => by norm_num⟩ (Or.inl fun _ => rfl)
  rwa [quant_median (by norm_num) (by norm_num), sub_self] at h3

theorem quant_upper : ∫ w, cvarTarget (1 / 2) 1 (quantV w) ∂coins = 2 := by
  rw [coin_sum, show (∑ w, cvarTarget (1 / 2) 1 (quantV w)) = ∑ a : Bool, ∑ _b : Bool, ∑ c : Bool, cvarTarget (1 / 2) 1 (1 + sgn a + sgn c / 4) from ?_]
  · simp only [Fintype.sum_bool, sgn, cvarTarget]
    norm_num
  · rw [← (Fin.consEquiv fun _ : Fin 3 => Bool).sum_comp, Fintype.sum_prod_type]
    refine Finset.sum_congr rfl fun a _ => ?_
    rw [← (Fin.consEquiv fun _ : Fin 2 => Bool).sum_comp, Fintype.sum_prod_type]
    refine Finset.sum_congr rfl fun b _ => ?_
    rw [← (Fin.consEquiv fun _ : Fin 1 => Bool).sum_comp, Fintype.sum_prod_type]
    refine Finset.sum_congr rfl fun c _ => ?_
    rw [Fintype.sum_unique]
    rfl

/-- CVaR at the median: the mean of the potential outcome above one, which is two; errors in the plugged-in median do not matter to first order. -/
example : Identifies coins (fun w => cvarElems 1 (1 / 2) 1 (obs (irmY w)) (obs (irmD w)) (obs (quantMean (cvarTarget (1 / 2) 1) (plrX w))) (obs (1 / 2))) 2 ∧
    (∫ w in {w | 1 < quantV w}, quantV w ∂coins) / coins.real {w | 1 < quantV w} = 2 ∧
    HasDerivAt (fun a => ∫ w, cvarTarget (1 / 2) a (quantV w) ∂coins) 0 1 := by
  have h := (C78_cvar quant_level (1 / 2) 1 (quant_mean (measurable_cvarTarget _ _))).1
  rw [quant_upper] at h
  have m := quant_median (θ := 1) (by norm_num) (by norm_num)
  have i : Integrable quantV coins := Integrable.of_finite
  refine ⟨h, ?_, C78_cvar_quantile (measurable_coin _) i (by norm_num) m ?_⟩
  · rw [← (C78_cvar_meaning (measurable_coin _) i (by norm_num) m).1, quant_upper]
  · refine (continuousAt_const (y := (1 / 2 : ℝ))).congr ?_
    filter_upwards [Ioo_mem_nhds (show (1 / 4 : ℝ) < 1 by norm_num) (show (1 : ℝ) < 7 / 4 by norm_num)] with a ha
    exact (quant_median ha.1.le ha.2).symm

/-- The instrument of the example is valid for the distribution of the outcome under treatment: the compliers are those with the third coin up. -/
theorem quant_local : LocalLaw coins lateY quantV lateD (fun _ => 0) (fun w => if w 2 then 1 else 0) irmD 1 plrX (fun _ _ => 0)
    (fun θ x => indLe (1 + x + 1 / 4) θ / 2) (fun _ => 0) (fun _ => 1 / 2) (fun _ => 1 / 2) (1 / 100) := by
  refine ⟨measurable_coin _, measurable_coin _, fun w hw => ?_, late_valid.treatment, fun θ => ?_, fun θ => ?_, fun _ => Or.inl rfl, fun w => ?_,
    fun w => ?_, Or.inr rfl, ?_⟩
  · unfold lateY quantV
    rw [hw]
  · refine ⟨measurable_coin _, measurable_const, (late_noise (fun _ => 0) measurable_const).of_eq fun w => ?_, coin_mem _, coin_mem _⟩
    simp [indEq]
  · have hm : Measurable fun x : ℝ => indLe (1 + x + 1 / 4) θ / 2 := ((measurable_indLe θ).comp (by fun_prop)).div_const 2
    refine ⟨measurable_coin _, hm, (late_noise (fun q => indLe (1 + q.2 + 1 / 4) θ / 2) (hm.comp measurable_snd)).of_eq fun w => ?_, coin_mem _,
      coin_mem _⟩
    unfold quantV sgn
    cases w 2 <;> (simp [indEq]; try ring)
  · cases w 2 <;> simp
  · cases w 2 <;> simp
  · rw [coin_real]
    refine div_pos (Finset.sum_pos' (fun w _ => by split_ifs <;> norm_num) ⟨fun _ => true, Finset.mem_univ _, ?_⟩) (by norm_num)
    simp

theorem quant_compliers : coins.real {w : Fin 3 → Bool | (0 : ℝ) < if w 2 then 1 else 0} = 1 / 2 := by
  have e : {w : Fin 3 → Bool | (0 : ℝ) < if w 2 then 1 else 0} = {w : Fin 3 → Bool | w 2 = true} := by
    ext w
    simp only [Set.mem_ofPred_eq]
    cases w 2 <;> simp
  rw [e, coin_real]
  simp only [Set.mem_ofPred_eq, ← Finset.sum_filter]
  rw [Finset.sum_const, show (Finset.filter (fun w : Fin 3 → Bool => w 2 = true) Finset.univ).card = 4 by decide]
  norm_num

theorem quant_compliers_median : coins.real {w : Fin 3 → Bool | ((0 : ℝ) < if w 2 then 1 else 0) ∧ quantV w ≤ 1} / coins.real
    {w : Fin 3 → Bool | (0 : ℝ) < if w 2 then 1 else 0} = 1 / 2 := by
  have e : {w : Fin 3 → Bool | ((0 : ℝ) < if w 2 then 1 else 0) ∧ quantV w ≤ 1} = {w : Fin 3 → Bool | w 2 = true ∧ w 0 = false} := by
    ext w
    simp only [Set.mem_ofPred_eq, quantV, plrX, sgn]
    cases w 0 <;> cases w 2 <;> simp <;> norm_num
  rw [quant_compliers, e, coin_real]
  simp only [Set.mem_ofPred_eq, ← Finset.sum_filter]
  rw [Finset.sum_const, show (Finset.filter (fun w : Fin 3 → Bool => w 2 = true ∧ w 0 = false) Finset.univ).card = 2 by decide]
  norm_num

/-- LPQ for the median of the compliers: the mean score is zero at one with wrong regression functions; but it is not insensitive to the share of compliers. -/
example : ∫ w, lpqScore 1 (1 / 2) 1 (indEq (lateD w) 1) (1 / 2) 7 (plrX w) (lateY w) (irmD w) (1 / 2) ∂coins = 0 ∧
    HasDerivAt (fun c => ∫ w, lpqScore 1 (1 / 2) 1 (indEq (lateD w) 1) (1 / 2) 0 (indLe (1 + plrX w + 1 / 4) 1 / 2) (lateY w) (irmD w) c ∂coins) (-1)
      (1 / 2) := by
  constructor
  · exact ((C78_lpq quant_local (1 / 2) (1 / 2)).2.1 (fun _ => 7) (fun x => x) ⟨measurable_const, coin_mem _⟩ ⟨measurable_id, coin_mem _⟩
      quant_compliers.symm 1).2 quant_compliers_median
  · have h := (C78_lpq_share_violated quant_local (q := 1 / 2) (θ := 1) (by norm_num) quant_compliers_median).1
    rw [quant_compliers] at h
    norm_num at h ⊢
    exact h

end DML
