import Verif.AsymptoticShareProps
import Verif.AsymptoticWeightExamples

/-!
# Large samples: created difference-in-differences models that use shares of training sets

The folds drawn by the constructor meet the hypothesis on the training sets; sequences of studies that meet the hypotheses of C79.
Nothing here models code of the package.
-/

namespace DML

open MeasureTheory ProbabilityTheory Filter Topology
open scoped ENNReal

variable {Q : Type} {Ω : Type*} {mΩ : MeasurableSpace Ω} {S : Type*} [MeasurableSpace S] {𝒳 : Type*} [MeasurableSpace 𝒳]
  {E : Ext} {P : Measure Ω} {W : ℕ → Ω → S} {r K : ℕ} {sp : ∀ n, LinSpec n Q} {tv : String} {y d : S → ℝ} {ξ : S → 𝒳}
  {enc : 𝒳 → List Cell}

/-- At most two thirds of many observations are in one fold. -/
theorem EvenDraw.large {n s K : ℕ} {α : Fin n → Fin s} {a : Fin n → ℕ} (h : EvenDraw K α a) (hK : 2 ≤ K) (hn : 3 * s ≤ n) {j : ℕ} (hj : j < K) :
    n ≤ 3 * (Finset.univ.filter fun i => a i ≠ j).card := by
  obtain ⟨j', hj', hjj⟩ : ∃ j' < K, j' ≠ j := by
    by_cases h0 : j = 0
    · exact ⟨1, by omega, by omega⟩
    · exact ⟨0, by omega, by omega⟩
  have h1 : (Finset.univ.filter fun i => a i = j).card ≤ (Finset.univ.filter fun i => a i = j').card + s := by
    rw [← sum_cellCount α a j, ← sum_cellCount α a j']
    refine (Finset.sum_le_sum fun c _ => h.2 c j hj j' hj').trans ?_
    rw [Finset.sum_add_distrib]
    simp
  have h2 : (Finset.univ.filter fun i => a i = j').card ≤ (Finset.univ.filter fun i => a i ≠ j).card :=
    Finset.card_le_card fun i hi => Finset.mem_filter.2 ⟨Finset.mem_univ _, by rw [(Finset.mem_filter.1 hi).2]; exact hjj⟩
  have h3 : (Finset.univ.filter fun i => a i = j).card + (Finset.univ.filter fun i => a i ≠ j).card = n := by
    have := Finset.card_filter_add_card_filter_not (s := (Finset.univ : Finset (Fin n))) (fun i => a i = j)
    simpa using this
  omega

theorem EvenDraw.folds {n s K : ℕ} {α : Fin n → Fin s} {a : Fin n → ℕ} (h : EvenDraw K α a) (hK : 2 ≤ K) (hn : 3 * s ≤ n) {f : Fold n}
    (hf : f ∈ assignFolds K a) : f.train.Nodup ∧ (∀ i, i ∈ f.train ↔ i ∉ f.test) ∧ n ≤ 3 * f.train.length := by
  obtain ⟨h1, h2⟩ := (C23_stratified_partition K _ h.1).2.2 f hf
  refine ⟨h1, h2, ?_⟩
  obtain ⟨j, hj, rfl⟩ := List.mem_map.1 hf
  have h3 := h.large hK hn (List.mem_range.1 hj)
  rw [← List.toFinset_card_of_nodup h1]
  refine h3.trans (le_of_eq ?_)
  congr 2
  ext i
  simp

/-- Folds drawn within strata by the constructor. -/
theorem Study.createdIn_complements (E : Ext) (hW : Iid P W) (hK : 2 ≤ K) (hr : 0 < r) (hv : ∀ n, (sp n).vars = none)
    (hst : ∀ n, (sp n).stratified = true) (F : ∀ n, Ω → Frame n) {D : ∀ n, Ω → DataState n} (hD : Holds W tv y d ξ enc D)
    {st : ℕ → Ω → ℝ} {s : ℕ} {St : S → Fin s} (hSt : Measurable St) {w : ∀ n, (Fin n → Fin s) → Draws n}
    (hw : ∀ n α q, EvenDraw K α ((w n α).assign q)) {obj : ∀ n, Ω → LinState n Q}
    (hobj : ∀ᶠ n in atTop, ∀ ω, initModel (sp n) (D n ω) (st n ω) (.int K) (.int r) (.bool true)
      (w n (strataOf St (sample W n ω))) = .ok (obj n ω))
    {args : FitArgs} (ha : ∀ n m, ValidArgs (sp n) tv m args) (hx : args.ext = .none) :
    (Study.createdIn E hW hK hr hv hst F hD hSt hw hobj ha hx).Complements := by
  refine ⟨3, ?_⟩
  filter_upwards [eventually_ge_atTop (3 * s)] with n hn ω T hT f hf
  obtain ⟨q, -, rfl⟩ := List.mem_map.1 hT
  exact (hw n (strataOf St (sample W n ω)) q).folds hK hn hf

theorem did_complements (E : Ext) (F : ∀ n, (ℕ → Fin 3 → Bool) → Frame n) (sc : DidScore) (nz : Bool) : (didStudy E F sc nz).Complements :=
  Study.createdIn_complements ..

/-- The hypotheses of `C79_did` are met: effect one, asymptotic standard deviation one half. -/
example (E : Ext) (F : ∀ n, (ℕ → Fin 3 → Bool) → Frame n) : AsympValid E tosses (fun i ω => ω i) 3 (didStudy E F .observational false).fitted 1 (1 / 2) := by
  have h := C79_did (H := didStudy E F .observational false) (τ := 1 / 100) (fun _ => rfl) (fun _ => rfl) (fun _ => rfl) (fun _ => rfl)
    (fun _ => rfl) (fun _ => exRound_compliant) (Eventually.of_forall fun _ _ => rfl) (did_both E F .observational false)
    (did_complements E F .observational false)
    (g₀ := fun x => x) (m := fun _ => 1 / 2) (by rw [tosses_law]; exact irm_law.untreated (by norm_num)) (fun _ => by norm_num)
    irmD_bin (by rw [tosses_law]; exact memLp_of_bdd (measurable_coin _) irmY_bdd) (θ := 1) (by rw [tosses_law, irmD_mean]; norm_num)
    (by rw [tosses_law, irmD_mean, irmDY_mean]; norm_num) (by rw [tosses_law]; simp only [atte_sq]; simp)
    (did_rates E F .observational false)
  rw [tosses_law, irmD_mean] at h
  simp only [atte_sq] at h
  rw [sqrt_sixteenth] at h
  exact h

theorem did_errors (E : Ext) (F : ∀ n, (ℕ → Fin 3 → Bool) → Frame n) (sc : DidScore) (nz : Bool) :
    DidErrors (didStudy E F sc nz) (fun x => x) (fun x => 1 + x) := by
  obtain ⟨g0, g1, -⟩ := did_exact E F sc nz
  have hb := did_both E F sc nz
  exact ⟨fun _ => exRound_meas, fun q j => oPE_of_bad hb (g0.mono fun n h ω hω => h ω hω q j),
    fun q j => oPE_of_bad hb (g1.mono fun n h ω hω => h ω hω q j)⟩

/-- The hypotheses of `C79_did_experimental` are met. -/
example (E : Ext) (F : ∀ n, (ℕ → Fin 3 → Bool) → Frame n) : AsympValid E tosses (fun i ω => ω i) 3 (didStudy E F .experimental false).fitted 1 (1 / 2) := by
  have h := C79_did_experimental (H := didStudy E F .experimental false) (τ := 1 / 100) (fun _ => rfl) (fun _ => rfl) (fun _ => rfl)
    (fun _ => rfl) (fun _ => exRound_compliant) (Eventually.of_forall fun _ _ => rfl) (did_both E F .experimental false)
    (did_complements E F .experimental false)
    (g₀ := fun x => x) (g₁ := fun x => 1 + x) (p := 1 / 2) (by rw [tosses_law]; exact irm_law) (θ := 1)
    (by rw [tosses_law]; simp) (by rw [tosses_law]; simp only [ate_sq]; simp) (did_errors E F .experimental false)
  rw [tosses_law] at h
  simp only [ate_sq] at h
  rw [sqrt_quarter] at h
  exact h

/-- The hypotheses of `C79_did_experimental_normalized` are met. -/
example (E : Ext) (F : ∀ n, (ℕ → Fin 3 → Bool) → Frame n) : AsympValid E tosses (fun i ω => ω i) 3 (didStudy E F .experimental true).fitted 1 (1 / 2) := by
  have h := C79_did_experimental_normalized (H := didStudy E F .experimental true) (τ := 1 / 100) (fun _ => rfl) (fun _ => rfl) (fun _ => rfl)
    (fun _ => rfl) (fun _ => exRound_compliant) (Eventually.of_forall fun _ _ => rfl) (did_both E F .experimental true)
    (g₀ := fun x => x) (g₁ := fun x => 1 + x) (p := 1 / 2) (by rw [tosses_law]; exact irm_law) (θ := 1)
    (by rw [tosses_law]; simp) (by rw [tosses_law]; simp only [ate_sq]; simp) (did_errors E F .experimental true)
  rw [tosses_law] at h
  simp only [ate_sq] at h
  rw [sqrt_quarter] at h
  exact h

end DML
