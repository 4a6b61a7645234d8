import Verif.OrthogonalityCausalProps
import Verif.AsymptoticIrmExamples

/-!
# Orthogonality: examples

Laws that meet the hypotheses of C78.  Nothing here models code of the package.
-/

namespace DML

open MeasureTheory ProbabilityTheory Filter

theorem coin_mem {p : ENNReal} (f : (Fin 3 → Bool) → ℝ) : MemLp f p coins := by
  refine memLp_of_bdd (measurable_coin _) (C := ∑ w, |f w|) fun w => ?_
  exact Finset.single_le_sum (f := fun w => |f w|) (fun _ _ => abs_nonneg _) (Finset.mem_univ w)

/-! ## Partially linear models -/

example : Identifies coins (fun w => plrPo (obs (plrY w)) (obs (plrD w)) (obs (2 * 1 + 3)) (obs 1)) 2 ∧
    OrthogonalAlong coins (fun t w => plrPo (obs (plrY w)) (obs (plrD w)) (obs (2 * 1 + 3 + t * plrX w)) (obs (1 + t * plrX w))) 2 := by
  have h := C78_plr_po (plr_law.mono (by norm_num)) (by
    have : ∀ w, (plrD w - 1) ^ 2 = 1 := fun w => by
      unfold plrD
      rw [add_sub_cancel_left, sgn_sq]
    simp [this])
  exact ⟨h.1, h.2.1 (fun x => x) (fun x => x) ⟨measurable_id, coin_mem _⟩ ⟨measurable_id, coin_mem _⟩⟩

example : Identifies coins (fun w => plrIv (obs (plrY w)) (obs (plrD w)) (obs 1) (obs 3)) 2 := by
  have h := C78_plr_iv (plr_law.mono (by norm_num)) (coin_mem _) (by
    have : ∀ w, (plrD w - 1) ^ 2 = 1 := fun w => by
      unfold plrD
      rw [add_sub_cancel_left, sgn_sq]
    simp [this])
  exact h.1

theorem pliv_relevant : ∫ w, (plivD w - 1) * (plrD w - 1) ∂coins ≠ 0 := by
  have e : ∀ w, (plivD w - 1) * (plrD w - 1) = 1 + sgn (w 2) * sgn (w 1) := fun w => by
    have := sgn_sq (w 1)
    unfold plivD plrD
    linear_combination this
  simp only [e]
  have i : IndepFun (fun w : Fin 3 → Bool => sgn (w 2)) (fun w => sgn (w 1)) coins :=
    (coins_indep.indepFun (i := 2) (j := 1) (by decide)).comp (φ := sgn) (ψ := sgn) (measurable_of_countable _) (measurable_of_countable _)
  have hz := i.integral_mul_eq_mul_integral (measurable_coin _).aestronglyMeasurable (measurable_coin _).aestronglyMeasurable
  have hz' : ∫ w, sgn (w 2) * sgn (w 1) ∂coins = 0 := by
    refine hz.trans ?_
    rw [coin_mean, zero_mul]
  rw [integral_add (integrable_const _) Integrable.of_finite, hz']
  simp

example : Identifies coins (fun w => plivPo (obs (plivY w)) (obs (plrD w)) (obs (plivD w)) (obs (2 * 1 + 3)) (obs 1) (obs 1)) 2 :=
  (C78_pliv_po (pliv_law.mono (by norm_num)) pliv_relevant).1

example : Identifies coins (fun w => plivIv (obs (plivY w)) (obs (plrD w)) (obs (plivD w)) (obs 1) (obs 3)) 2 :=
  (C78_pliv_iv (pliv_law.mono (by norm_num)) (coin_mem _) pliv_relevant).1

/-! ## Interactive models -/

/-- Potential outcomes of the example: the effect is one for everybody. -/
theorem irm_unconfounded : Unconfounded coins irmY (fun w => plrX w + sgn (w 2) / 4) (fun w => 1 + plrX w + sgn (w 2) / 4) irmD plrX
    (fun x => x) (fun x => 1 + x) (fun _ => 1 / 2) (1 / 100) := by
  have e0 : ∀ w : Fin 3 → Bool, plrX w + sgn (w 2) / 4 - plrX w = (fun _ : ℝ × ℝ => (1 / 4 : ℝ)) (irmD w, plrX w) * sgn (w 2) := fun w => by ring
  have e1 : ∀ w : Fin 3 → Bool, 1 + plrX w + sgn (w 2) / 4 - (1 + plrX w) = (fun _ : ℝ × ℝ => (1 / 4 : ℝ)) (irmD w, plrX w) * sgn (w 2) :=
    fun w => by ring
  have n := late_noise (fun _ => 1 / 4) measurable_const
  refine ⟨measurable_coin _, measurable_coin _, measurable_const, irmD_bin, fun w => ?_,
    ⟨measurable_coin _, measurable_id, n.of_eq e0, coin_mem _, coin_mem _⟩,
    ⟨measurable_coin _, measurable_const.add measurable_id, n.of_eq e1, coin_mem _, coin_mem _⟩, irm_law.treat, by norm_num,
    fun x => by norm_num⟩
  unfold irmY
  ring

example : Identifies coins (fun w => irmAte false (obs (irmY w)) (obs (irmD w)) (obs (plrX w)) (obs (1 + plrX w)) (obs (1 / 2)) (obs 1) (obs 1)) 1 ∧
    OrthogonalAlong coins (fun t w => irmAte false (obs (irmY w)) (obs (irmD w)) (obs (plrX w + t * plrX w ^ 3)) (obs (1 + plrX w + t * 2))
      (obs (1 / 2 + t * 1)) (obs 1) (obs 1)) 1 ∧
    expScore coins (fun w => irmAte false (obs (irmY w)) (obs (irmD w)) (obs 7) (obs (plrX w ^ 2)) (obs (1 / 2)) (obs 1) (obs 1)) 1 = 0 := by
  have h := C78_irm_ate irm_unconfounded.law
  have e : ∫ w, (1 + plrX w - plrX w) ∂coins = 1 := by simp
  simp only [e] at h
  exact ⟨h.1, h.2.1 (fun x => x ^ 3) (fun _ => 2) (fun _ => 1) ⟨by fun_prop, coin_mem _⟩ ⟨measurable_const, coin_mem _⟩
    ⟨measurable_const, 1, fun _ => by norm_num⟩,
    h.2.2 (fun _ => 7) (fun x => x ^ 2) (fun _ => 1 / 2) ⟨measurable_const, coin_mem _⟩ ⟨by fun_prop, coin_mem _⟩
      ⟨measurable_const, 1 / 100, by norm_num, fun _ => by norm_num⟩ (Or.inr fun _ => rfl)⟩

theorem irm_effect : effectOnTreated coins irmD plrX (fun x => x) (fun x => 1 + x) = 1 := by
  have h := irm_unconfounded.law.share_pos.2
  unfold effectOnTreated
  have e : ∀ w, irmD w * (1 + plrX w - plrX w) = irmD w := fun w => by ring
  simp only [e]
  exact div_self h.ne'

example : Identifies coins (fun w => atteObs (∫ w, irmD w ∂coins) (irmY w) (irmD w) (plrX w) (1 + plrX w) (1 / 2)) 1 := by
  have h := (C78_irm_atte irm_unconfounded.law).1
  rwa [irm_effect] at h

example : Identifies coins (fun w => didElems .observational false (obs (irmY w)) (obs (irmD w)) (obs (plrX w)) (obs (1 + plrX w)) (obs (1 / 2))
    (obs (∫ w, irmD w ∂coins))) 1 := by
  have h := (C78_did irm_unconfounded.law).1
  rwa [irm_effect] at h

example : Identifies coins (fun w => didElems .experimental false (obs (irmY w)) (obs (irmD w)) (obs 7) (obs (plrX w ^ 2)) (obs 0)
    (obs (1 / 2))) 1 := by
  have h := (C78_did_experimental irm_unconfounded.law fun _ => 0).1 (fun _ => 7) (fun x => x ^ 2) ⟨measurable_const, coin_mem _⟩
    ⟨by fun_prop, coin_mem _⟩
  have e : ∫ w, (1 + plrX w - plrX w) ∂coins = 1 := by simp
  rwa [e] at h

example : Identifies coins (fun w => apoElems false (obs (irmY w)) (obs (irmD w)) (obs (1 + plrX w)) (obs (1 / 2)) (obs 1) (obs 1)) 1 := by
  have h := (C78_apo (irm_unconfounded.law.treated one_le_two) ⟨1 / 100, by norm_num, fun _ => by norm_num⟩).1
  have e : ∫ w, (1 + plrX w) ∂coins = 1 := by
    rw [integral_add (integrable_const _) Integrable.of_finite]
    have := coin_mean 0
    unfold plrX
    rw [this]
    simp
  rwa [e] at h

/-- The instrument of the example is valid: the compliers are those with the third coin up. -/
theorem late_valid : ValidInstrument coins lateY (fun w => plrX w + sgn (w 2) / 4) (fun w => 1 + plrX w + sgn (w 2) / 4) lateD (fun _ => 0)
    (fun w => if w 2 then 1 else 0) irmD plrX (fun x => x) (fun x => 1 / 2 + x) (fun _ => 0) (fun _ => 1 / 2) (fun _ => 1 / 2) (1 / 100) := by
  have n := late_noise (fun _ => 1 / 4) measurable_const
  have n1 := late_noise (fun _ => 3 / 4) measurable_const
  have n2 := late_noise (fun _ => 1 / 2) measurable_const
  have n3 := late_noise (fun _ => 0) measurable_const
  refine ⟨⟨measurable_coin _, measurable_coin _, measurable_const, irmD_bin, fun w => ?_,
    ⟨measurable_coin _, measurable_id, n.of_eq fun w => ?_, coin_mem _, coin_mem _⟩,
    ⟨measurable_coin _, measurable_const.add measurable_id, n1.of_eq fun w => ?_, coin_mem _, coin_mem _⟩, irm_law.treat, by norm_num,
    fun x => by norm_num⟩, ⟨measurable_coin _, measurable_coin _, measurable_const, irmD_bin, fun w => ?_,
    ⟨measurable_coin _, measurable_const, n3.of_eq fun w => ?_, coin_mem _, coin_mem _⟩,
    ⟨measurable_coin _, measurable_const, n2.of_eq fun w => ?_, coin_mem _, coin_mem _⟩, irm_law.treat, by norm_num,
    fun x => by norm_num⟩, fun _ => Or.inl rfl, fun w => ?_, fun w => ?_⟩
  all_goals
    try unfold lateY
    try unfold lateD
    try unfold irmD
    try unfold sgn
    cases w 1 <;> cases w 2 <;> simp <;> try ring

example : Identifies coins (fun w => iivmElems false (obs (lateY w)) (obs (irmD w)) (obs (lateD w)) (obs (plrX w)) (obs (1 / 2 + plrX w)) (obs (1 / 2))
    (obs 0) (obs (1 / 2))) 1 := by
  obtain ⟨l1, l2, -, -⟩ := C78_iivm_causal late_valid
  exact (C78_iivm l1 l2 (by simp) (late := 1) (by simp)).1

/-- Parallel trends: outcomes grow by the covariate without treatment, and by one more with it. -/
example : ParallelTrends coins (fun _ => 5) (fun w => irmY w + 5) (fun w => plrX w + sgn (w 2) / 4 + 5) (fun w => 1 + plrX w + sgn (w 2) / 4 + 5) irmD
    plrX (fun x => x) (fun x => 1 + x) (fun _ => 1 / 2) (1 / 100) := by
  refine ⟨?_, fun w => ?_⟩
  · simp only [add_sub_cancel_right]
    exact irm_unconfounded
  · unfold irmY
    ring

/-! ## Selection and repeated cross-sections -/

/-- The third coin decides who is selected, or which period an observation is from. -/
noncomputable def thirdCoin (w : Fin 3 → Bool) : ℝ := if w 2 then 1 else 0

theorem thirdCoin_eq (w : Fin 3 → Bool) : thirdCoin w - 1 / 2 = (fun _ : ℝ × ℝ => (1 / 2 : ℝ)) (irmD w, plrX w) * sgn (w 2) := by
  unfold thirdCoin sgn
  cases w 2 <;> norm_num

theorem zero_given {𝒴 : Type*} [MeasurableSpace 𝒴] (η : (Fin 3 → Bool) → 𝒴) {v : (Fin 3 → Bool) → ℝ} (hv : ∀ w, v w = 0) :
    MeanZeroGiven coins η v := by
  have : v = 0 := funext hv
  unfold MeanZeroGiven
  rw [this, condExp_zero]

theorem select_law : MissingAtRandom coins (fun w => irmD w + plrX w) plrX (fun w => 1 + plrX w) irmD thirdCoin plrX
    (fun x => x) (fun x => 1 + x) (fun _ => 1 / 2) (fun _ => 1 / 2) (fun _ => 1 / 2) (1 / 100) := by
  refine ⟨measurable_coin _, measurable_const, measurable_const, fun w => ?_, ⟨measurable_coin _, measurable_coin _, measurable_const, irmD_bin,
    fun w => by ring, ⟨measurable_coin _, measurable_id, zero_given _ fun w => sub_self _, coin_mem _, coin_mem _⟩,
    ⟨measurable_coin _, measurable_const.add measurable_id, zero_given _ fun w => sub_self _, coin_mem _, coin_mem _⟩, irm_law.treat, by norm_num,
    fun x => by norm_num⟩, zero_given _ fun w => sub_self _, zero_given _ fun w => sub_self _, ?_, fun x => by norm_num, fun x => by norm_num⟩
  · unfold thirdCoin
    cases w 2 <;> simp
  · refine (late_noise (fun _ => 1 / 2) measurable_const).of_eq fun w => ?_
    rw [← thirdCoin_eq]
    ring

example : Identifies coins (fun w => ssmElems false (obs (irmD w)) (obs (1 - irmD w)) (obs (1 + plrX w)) (obs (plrX w))
    (obs (irmD w * (1 / 2) + (1 - irmD w) * (1 / 2))) (obs (1 / 2)) (obs (thirdCoin w)) (obs (irmD w + plrX w))) 1 :=
  (C78_ssm (C78_ssm_causal select_law).1 (ate := 1) (by simp)).1

theorem cs_law : DidCsLaw coins (fun w => irmD w * thirdCoin w + plrX w) irmD thirdCoin plrX (fun x => x) (fun x => x) (fun x => x) (fun x => 1 + x)
    (fun _ => 1 / 2) (1 / 2) (1 / 100) := by
  refine ⟨measurable_coin _, measurable_coin _, measurable_coin _, measurable_coin _, measurable_id, measurable_id, measurable_id,
    measurable_const.add measurable_id, measurable_const, irmD_bin, fun w => ?_, zero_given _ fun w => by ring, ?_, irm_law.treat,
    by norm_num, fun x => by norm_num, by norm_num, coin_mem _, coin_mem _, coin_mem _, coin_mem _, coin_mem _⟩
  · unfold thirdCoin
    cases w 2 <;> simp
  · exact (late_noise (fun _ => 1 / 2) measurable_const).of_eq thirdCoin_eq

theorem cs_effect : changeOfTreated coins irmD plrX (fun x => x) (fun x => x) (fun x => x) (fun x => 1 + x) = 1 := by
  have h := irm_unconfounded.law.share_pos.2
  unfold changeOfTreated
  have e : ∀ w, irmD w * (1 + plrX w - plrX w - (plrX w - plrX w)) = irmD w := fun w => by ring
  simp only [e]
  exact div_self h.ne'

example : Identifies coins (fun w => csObs .observational (irmD w * thirdCoin w + plrX w) (irmD w) (thirdCoin w) (plrX w) (plrX w) (plrX w) (1 + plrX w)
    (1 / 2) (∫ w, irmD w ∂coins) (1 / 2)) 1 := by
  have h := (C78_did_cs cs_law).1
  rwa [cs_effect] at h

example : Identifies coins (fun w => csObs .experimental (irmD w * thirdCoin w + plrX w) (irmD w) (thirdCoin w) 3 (plrX w) 0 (plrX w ^ 2)
    0 (1 / 2) (1 / 2)) 1 := by
  have h := (C78_did_cs_experimental cs_law fun _ => 0).1 (fun _ => 3) (fun x => x) (fun _ => 0) (fun x => x ^ 2) ⟨measurable_const, coin_mem _⟩
    ⟨measurable_id, coin_mem _⟩ ⟨measurable_const, coin_mem _⟩ ⟨by fun_prop, coin_mem _⟩
  have e : ∫ w, ((1 + plrX w - plrX w) - (plrX w - plrX w)) ∂coins = 1 := by simp
  rwa [e] at h

example : ParallelTrendsCs coins (fun w => irmD w * thirdCoin w + plrX w) plrX plrX (fun w => 1 + plrX w) irmD thirdCoin plrX (fun x => x) (fun x => x)
    (fun x => x) (fun x => 1 + x) (fun _ => 1 / 2) (1 / 2) (1 / 100) :=
  ⟨cs_law, fun w => by ring, zero_given _ fun w => by ring, zero_given _ fun w => by ring, zero_given _ fun w => by ring, coin_mem _, coin_mem _,
    coin_mem _⟩

end DML
