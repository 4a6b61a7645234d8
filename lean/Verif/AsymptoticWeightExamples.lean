import Verif.AsymptoticIrmExamples
import Verif.AsymptoticWeightProps

/-!
# Large samples: examples of models with normalised weights

Sequences of studies that meet the hypotheses of C79 for normalised weights and for difference-in-differences models.
Nothing here models code of the package.
-/

namespace DML

open MeasureTheory ProbabilityTheory Filter Topology
open scoped ENNReal

theorem sqrt_quarter : Real.sqrt (∫ _w, (1 / 4 : ℝ) ∂coins) = 1 / 2 := by
  rw [integral_const, probReal_univ, one_smul, show (1 / 4 : ℝ) = (1 / 2) ^ 2 by norm_num]
  exact Real.sqrt_sq (by norm_num)

theorem sqrt_sixteenth : Real.sqrt (∫ _w, (1 / 16 : ℝ) ∂coins) / (1 / 2) = 1 / 2 := by
  rw [integral_const, probReal_univ, one_smul, show (1 / 16 : ℝ) = (1 / 4) ^ 2 by norm_num, Real.sqrt_sq (by norm_num)]
  norm_num

theorem irm_across (E : Ext) (F : ∀ n, (ℕ → Fin 3 → Bool) → Frame n) (nz atte : Bool) :
    IrmAcross (irmStudy E F nz atte) (fun x => x) (fun x => 1 + x) (fun _ => 1 / 2) := by
  obtain ⟨g0, g1, -⟩ := irm_exact E F nz atte
  have hb := irm_both E F nz atte
  refine ⟨irm_rates E F nz atte, fun q j j' => ?_, fun q j j' => ?_⟩
  · exact oPE_of_bad hb (g0.mono fun n h ω hω => by rw [h ω hω q j', mul_zero, mul_zero])
  · exact oPE_of_bad hb (g1.mono fun n h ω hω => by rw [h ω hω q j', mul_zero, mul_zero])

/-- The hypotheses of `C79_irm_ate_normalized` are met. -/
example (E : Ext) (F : ∀ n, (ℕ → Fin 3 → Bool) → Frame n) : AsympValid E tosses (fun i ω => ω i) 3 (irmStudy E F true false).fitted 1 (1 / 2) := by
  have h := C79_irm_ate_normalized (H := irmStudy E F true false) (τ := 1 / 100) (fun _ => rfl) (fun _ => rfl) (fun _ => rfl) (fun _ => rfl)
    (fun _ => rfl) (irmRound_at true false) (fun _ => exRound_compliant) (Eventually.of_forall fun _ _ => rfl) (irm_both E F true false)
    (g₀ := fun x => x) (g₁ := fun x => 1 + x) (m := fun _ => 1 / 2) (by rw [tosses_law]; exact irm_law) (θ := 1)
    (by rw [tosses_law]; simp) (by rw [tosses_law]; simp only [ate_sq]; simp) (irm_across E F true false)
  rw [tosses_law] at h
  simp only [ate_sq] at h
  rw [sqrt_quarter] at h
  exact h

/-- The hypotheses of `C79_irm_atte_normalized` are met. -/
example (E : Ext) (F : ∀ n, (ℕ → Fin 3 → Bool) → Frame n) : AsympValid E tosses (fun i ω => ω i) 3 (irmStudy E F true true).fitted 1 (1 / 2) := by
  have hA := irm_across E F true true
  have h := C79_irm_atte_normalized (H := irmStudy E F true true) (τ := 1 / 100) (fun _ => rfl) (fun _ => rfl) (fun _ => rfl) (fun _ => rfl)
    (fun _ => rfl) (irmRound_at true true) (irmRound_weights true true) (fun _ => exRound_compliant) (Eventually.of_forall fun _ _ => rfl)
    (irm_both E F true true)
    (g₀ := fun x => x) (m := fun _ => 1 / 2) (by rw [tosses_law]; exact irm_law.untreated (by norm_num)) (fun _ => by norm_num)
    irmD_bin (by rw [tosses_law]; exact memLp_of_bdd (measurable_coin _) irmY_bdd) (θ := 1) (by rw [tosses_law, irmD_mean]; norm_num)
    (by rw [tosses_law, irmD_mean, irmDY_mean]; norm_num) (by rw [tosses_law]; simp only [atte_sq]; simp)
    ⟨hA.rates.untreated, hA.across0⟩
  rw [tosses_law, irmD_mean] at h
  simp only [atte_sq] at h
  rw [sqrt_sixteenth] at h
  exact h

/-- The hypotheses of `C79_apo_normalized` are met. -/
example (E : Ext) (F : ∀ n, (ℕ → Fin 3 → Bool) → Frame n) :
    AsympValid E tosses (fun i ω => ω i) 3 (apoStudy E F true).fitted 1
      (Real.sqrt (∫ w, (1 + plrX w + irmD w * (irmY w - (1 + plrX w)) / (1 / 2) - 1) ^ 2 ∂coins)) := by
  have h := C79_apo_normalized (H := apoStudy E F true) (τ := 1 / 100) (v := 1) (fun _ => rfl) (fun _ => rfl) (fun _ => rfl) (fun _ => rfl)
    (fun _ => rfl) (apoRound_at true) (fun _ => exRound_compliant) (Eventually.of_forall fun _ _ => rfl)
    (by rw [atLevel_one]; exact apo_both E F true)
    (g := fun x => 1 + x) (m := fun _ => 1 / 2) (by rw [tosses_law, atLevel_one]; exact irm_law.treated (by norm_num)) (fun _ => by norm_num)
    (θ := 1) (by rw [tosses_law, one_plus_mean]) (by rw [tosses_law, atLevel_one]; exact apo_var) (apo_rates E F true)
    fun q j j' => oPE_of_bad (apo_both E F true) ((apo_exact E F true).1.mono fun n h ω hω => by rw [h ω hω q j', mul_zero, mul_zero])
  rw [tosses_law, atLevel_one] at h
  exact h

/-! ## Difference in differences -/

/-- The model class: trimming at 0.01. -/
noncomputable def didRound (sc : DidScore) (nz : Bool) (n : ℕ) : DidClass n ℕ :=
  { ml_g := exRound
    ml_m := exRound
    gClassifier := false
    score := sc
    normalize := nz
    trimT := 1 / 100 }

/-- The objects of the examples; the outcome is the change of the outcome. -/
noncomputable def didObj (sc : DidScore) (nz : Bool) (n : ℕ) (ω : ℕ → Fin 3 → Bool) : LinState n ℕ :=
  createdObj (didSpec (didRound sc nz n)) (irmData n ω) 2 3
    (evenDraws 2 n (strataOf irmSt (sample (fun i (ω : ℕ → Fin 3 → Bool) => ω i) n ω)))

theorem didObj_spec (sc : DidScore) (nz : Bool) (n : ℕ) (ω : ℕ → Fin 3 → Bool) :
    initModel (didSpec (didRound sc nz n)) (irmData n ω) 0 (.int (2 : ℕ)) (.int (3 : ℕ)) (.bool true)
      (evenDraws 2 n (strataOf irmSt (sample (fun i (ω : ℕ → Fin 3 → Bool) => ω i) n ω))) = .ok (didObj sc nz n ω) := by
  have h : (didSpec (didRound sc nz n)).stratified = true := rfl
  exact createdObj_spec (didSpec (didRound sc nz n)) rfl (irmData n ω) le_rfl (by norm_num) (fun h' => by rw [h] at h'; cases h') _

/-- Difference-in-differences models on the coins: two folds drawn within treatment groups, three repetitions, plain `fit()`. -/
noncomputable def didStudy (E : Ext) (F : ∀ n, (ℕ → Fin 3 → Bool) → Frame n) (sc : DidScore) (nz : Bool) :
    Study E tosses (fun i ω => ω i) 3 2 (fun n => didSpec (didRound sc nz n)) "d" irmY irmD plrX fun v => [Cell.num v] :=
  Study.createdIn E tosses_iid le_rfl (by norm_num) (fun _ => rfl) (fun _ => rfl) F irm_holds
    (st := fun _ _ => 0) (St := irmSt) (measurable_coin _) (w := evenDraws 2) (fun _ α _ => evenAssign_even two_pos α)
    (obj := didObj sc nz) (Eventually.of_forall fun n ω => didObj_spec sc nz n ω)
    (args := {}) (fun n m => plainArgs _ _ m) rfl

theorem did_both (E : Ext) (F : ∀ n, (ℕ → Fin 3 → Bool) → Frame n) (sc : DidScore) (nz : Bool) :
    Tendsto (fun n => tosses (Lacking (didStudy E F sc nz) (fun _ => True) irmD n)) atTop (𝓝 0) := by
  have hb := irm_law.both
  refine created_both (c₀ := 0) (c₁ := 1) (fun w h => ⟨trivial, (irm_strata.1 w).1 h⟩) (fun w h => ⟨trivial, (irm_strata.2 w).1 h⟩) ?_ ?_
  · rw [tosses_law]
    simpa only [irm_strata.1] using hb.1
  · rw [tosses_law]
    simpa only [irm_strata.2] using hb.2

/-- Eventually the learners make no errors. -/
theorem did_exact (E : Ext) (F : ∀ n, (ℕ → Fin 3 → Bool) → Frame n) (sc : DidScore) (nz : Bool) :
    (∀ᶠ n in atTop, ∀ ω, ω ∉ Lacking (didStudy E F sc nz) (fun _ => True) irmD n → ∀ q j,
      errNorm tosses (fun i ω => ω i) plrX (didG0hat (didStudy E F sc nz) q) (fun x => x) 2 j n ω = 0) ∧
    (∀ᶠ n in atTop, ∀ ω, ω ∉ Lacking (didStudy E F sc nz) (fun _ => True) irmD n → ∀ q j,
      errNorm tosses (fun i ω => ω i) plrX (didG1hat (didStudy E F sc nz) q) (fun x => 1 + x) 2 j n ω = 0) ∧
    ∀ᶠ n in atTop, ∀ ω, ω ∉ Lacking (didStudy E F sc nz) (fun _ => True) irmD n → ∀ q j,
      errNorm tosses (fun i ω => ω i) plrX (didMhat (didStudy E F sc nz) q) (fun _ => 1 / 2) 2 j n ω = 0 := by
  classical
  have hgood := (didStudy E F sc nz).good_train (fun _ => True) irmD
  refine ⟨?_, ?_, ?_⟩ <;> filter_upwards [hgood] with n hn ω hω q j
  · obtain ⟨⟨i, hi, -, hd⟩, -⟩ := hn ω hω q j
    have : ∀ w, didG0hat (didStudy E F sc nz) q n j (sample (fun i ω => ω i) n ω) (plrX w) - plrX w = 0 := fun w => by
      have := exRound_learns (t := sample (fun i (ω : ℕ → Fin 3 → Bool) => ω i) n ω) (v := 0) (Or.inl rfl) (on := fun w => irmD w = 0) (fun _ => Iff.rfl)
        ⟨i, hi, hd⟩ (parAt ((didStudy E F sc nz).par n "ml_g0") q j) (plrX w)
      rw [zero_add] at this
      exact sub_eq_zero.2 this
    unfold errNorm
    simp only [this]
    exact eLpNorm_zero'
  · obtain ⟨-, ⟨i, hi, -, hd⟩⟩ := hn ω hω q j
    have : ∀ w, didG1hat (didStudy E F sc nz) q n j (sample (fun i ω => ω i) n ω) (plrX w) - (1 + plrX w) = 0 := fun w => by
      have := exRound_learns (t := sample (fun i (ω : ℕ → Fin 3 → Bool) => ω i) n ω) (v := 1) (Or.inr rfl) (on := fun w => irmD w = 1) (fun _ => Iff.rfl)
        ⟨i, hi, hd⟩ (parAt ((didStudy E F sc nz).par n "ml_g1") q j) (plrX w)
      exact sub_eq_zero.2 this
    unfold errNorm
    simp only [this]
    exact eLpNorm_zero'
  · obtain ⟨⟨i, hi, -, hd⟩, ⟨i', hi', -, hd'⟩⟩ := hn ω hω q j
    have : ∀ w, didMhat (didStudy E F sc nz) q n j (sample (fun i ω => ω i) n ω) (plrX w) - 1 / 2 = 0 := fun w => by
      refine sub_eq_zero.2 ((exRound_proba _ _ _).trans (if_pos (two_classes.2 ?_)))
      refine ⟨(_, irmD (ω i)), List.mem_map.2 ⟨i, List.mem_filter.2 ⟨hi, by simp⟩, rfl⟩,
        (_, irmD (ω i')), List.mem_map.2 ⟨i', List.mem_filter.2 ⟨hi', by simp⟩, rfl⟩, ?_⟩
      show irmD (ω i) ≠ irmD (ω i')
      rw [hd, hd']
      exact zero_ne_one
    unfold errNorm
    simp only [this]
    exact eLpNorm_zero'

theorem did_rates (E : Ext) (F : ∀ n, (ℕ → Fin 3 → Bool) → Frame n) (sc : DidScore) (nz : Bool) :
    DidRates (didStudy E F sc nz) (fun x => x) (fun _ => 1 / 2) := by
  obtain ⟨g0, -, gm⟩ := did_exact E F sc nz
  have hb := did_both E F sc nz
  refine ⟨fun _ => exRound_meas, fun _ => exRound_measM, fun q j => ?_, fun q j => ?_, fun q j j' => ?_⟩
  · exact oPE_of_bad hb (g0.mono fun n h ω hω => h ω hω q j)
  · exact oPE_of_bad hb (gm.mono fun n h ω hω => h ω hω q j)
  · exact oPE_of_bad hb (g0.mono fun n h ω hω => by rw [h ω hω q j', mul_zero, mul_zero])

/-- The hypotheses of `C79_did_normalized` are met: effect one, asymptotic standard deviation one half. -/
example (E : Ext) (F : ∀ n, (ℕ → Fin 3 → Bool) → Frame n) : AsympValid E tosses (fun i ω => ω i) 3 (didStudy E F .observational true).fitted 1 (1 / 2) := by
  have h := C79_did_normalized (H := didStudy E F .observational true) (τ := 1 / 100) (fun _ => rfl) (fun _ => rfl) (fun _ => rfl) (fun _ => rfl)
    (fun _ => rfl) (fun _ => exRound_compliant) (Eventually.of_forall fun _ _ => rfl) (did_both E F .observational true)
    (g₀ := fun x => x) (m := fun _ => 1 / 2) (by rw [tosses_law]; exact irm_law.untreated (by norm_num)) (fun _ => by norm_num)
    irmD_bin (by rw [tosses_law]; exact memLp_of_bdd (measurable_coin _) irmY_bdd) (θ := 1) (by rw [tosses_law, irmD_mean]; norm_num)
    (by rw [tosses_law, irmD_mean, irmDY_mean]; norm_num) (by rw [tosses_law]; simp only [atte_sq]; simp)
    (did_rates E F .observational true)
  rw [tosses_law, irmD_mean] at h
  simp only [atte_sq] at h
  rw [sqrt_sixteenth] at h
  exact h

end DML
