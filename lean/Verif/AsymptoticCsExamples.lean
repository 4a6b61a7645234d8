import Verif.AsymptoticSsmExamples
import Verif.AsymptoticShareExamples
import Verif.AsymptoticCsNormProps
import Verif.OrthogonalityExamples

/-!
# Large samples: an example with repeated cross-sections

A sequence of studies that meets the hypotheses of C79 for difference-in-differences models with repeated cross-sections, for all four scores.
Nothing here models code of the package.
-/

namespace DML

open MeasureTheory ProbabilityTheory Filter Topology
open scoped ENNReal

/-- The period is a coin; the effect of the treatment is the covariate. -/
noncomputable def csY (w : Fin 3 → Bool) : ℝ := irmD w * ssmS w * plrX w

theorem csY_noise (w : Fin 3 → Bool) : csY w - (irmD w * ssmS w * plrX w + irmD w * (1 - ssmS w) * 0 +
    (1 - irmD w) * ssmS w * 0 + (1 - irmD w) * (1 - ssmS w) * 0) = 0 := by
  unfold csY
  ring

theorem period_law : DidCsLaw coins csY irmD ssmS plrX (fun _ => 0) (fun _ => 0) (fun _ => 0) (fun x => x) (fun _ => 1 / 2) (1 / 2) (1 / 100) := by
  have hx : ∀ w, |plrX w| ≤ 1 := fun w => (sgn_abs _).le
  refine ⟨measurable_coin _, measurable_coin _, measurable_coin _, measurable_coin _, measurable_const, measurable_const, measurable_const,
    measurable_id, measurable_const, irmD_bin, ssmS_bin, zero_given _ csY_noise, ?_, irm_law.treat,
    by norm_num, fun x => by norm_num, by norm_num, ?_, MemLp.zero', MemLp.zero', MemLp.zero', memLp_of_bdd (measurable_coin _) hx⟩
  · exact (late_noise (fun _ => 1 / 2) measurable_const).of_eq thirdCoin_eq
  · simp only [csY_noise]
    exact MemLp.zero'

/-- The model class: trimming at 0.01. -/
noncomputable def csSlope (sc : DidScore) (nz : Bool) (n : ℕ) : DidClass n ℕ :=
  { ml_g := exSlope
    ml_m := exSlope
    gClassifier := false
    score := sc
    normalize := nz
    trimT := 1 / 100 }

/-- The data objects. -/
noncomputable def csData (n : ℕ) (ω : ℕ → Fin 3 → Bool) : DataState n :=
  { exData (fun i (ω : ℕ → Fin 3 → Bool) => ω i) csY irmD plrX none true n ω with
    t := some "t"
    tv := some fun i => .num (ssmS (ω i)) }

theorem csHolds : Holds (fun i (ω : ℕ → Fin 3 → Bool) => ω i) "d" csY irmD plrX (fun v => [Cell.num v]) csData where
  treats := fun _ _ => rfl
  outcome := fun _ _ _ => rfl
  treatment := fun _ _ _ => rfl
  covariates := fun _ _ _ => rfl
  measY := measurable_coin _
  measD := measurable_coin _
  measX := measurable_coin _

/-- The objects. -/
noncomputable def csObj (sc : DidScore) (nz : Bool) (n : ℕ) (ω : ℕ → Fin 3 → Bool) : LinState n ℕ :=
  createdObj (csSpec (csSlope sc nz n)) (csData n ω) 2 3
    (evenDraws 2 n (strataOf ssmSt (sample (fun i (ω : ℕ → Fin 3 → Bool) => ω i) n ω)))

theorem csObj_spec (sc : DidScore) (nz : Bool) (n : ℕ) (ω : ℕ → Fin 3 → Bool) :
    initModel (csSpec (csSlope sc nz n)) (csData n ω) 0 (.int (2 : ℕ)) (.int (3 : ℕ)) (.bool true)
      (evenDraws 2 n (strataOf ssmSt (sample (fun i (ω : ℕ → Fin 3 → Bool) => ω i) n ω))) = .ok (csObj sc nz n ω) := by
  have h : (csSpec (csSlope sc nz n)).stratified = true := rfl
  exact createdObj_spec (csSpec (csSlope sc nz n)) rfl (csData n ω) le_rfl (by norm_num) (fun h' => by rw [h] at h'; cases h') _

/-- Difference-in-differences models on the coins: two folds drawn within the groups of treatment and period, three repetitions. -/
noncomputable def csStudy (E : Ext) (F : ∀ n, (ℕ → Fin 3 → Bool) → Frame n) (sc : DidScore) (nz : Bool) :
    Study E tosses (fun i ω => ω i) 3 2 (fun n => csSpec (csSlope sc nz n)) "d" csY irmD plrX fun v => [Cell.num v] :=
  Study.createdIn E tosses_iid le_rfl (by norm_num) (fun _ => rfl) (fun _ => rfl) F csHolds
    (st := fun _ _ => 0) (St := ssmSt) (measurable_coin _) (w := evenDraws 2) (fun _ α _ => evenAssign_even two_pos α)
    (obj := csObj sc nz) (Eventually.of_forall fun n ω => csObj_spec sc nz n ω)
    (args := {}) (fun n m => plainArgs _ _ m) rfl

section

variable (E : Ext) (F : ∀ n, (ℕ → Fin 3 → Bool) → Frame n) (sc : DidScore) (nz : Bool)

theorem cs_lacking :
    Tendsto (fun n => tosses (Lacking (csStudy E F sc nz) (fun _ => True) irmD n)) atTop (𝓝 0) ∧
    Tendsto (fun n => tosses (Lacking (csStudy E F sc nz) (fun w => ssmS w = 0) irmD n)) atTop (𝓝 0) ∧
    Tendsto (fun n => tosses (Lacking (csStudy E F sc nz) (fun w => ssmS w = 1) irmD n)) atTop (𝓝 0) := by
  have hpos : ∀ a b c : Bool, tosses.map (fun ω => ω 0) {x | ssmSt x = ssmSt ![a, b, c]} ≠ 0 := fun a b c => by
    rw [tosses_law]
    exact coins_pos ⟨_, rfl⟩
  refine ⟨created_both (c₀ := 0) (c₁ := 1) ?_ ?_ (hpos true false false) (hpos true true false),
    created_both (c₀ := 0) (c₁ := 1) ?_ ?_ (hpos true false false) (hpos true true false),
    created_both (c₀ := 2) (c₁ := 3) ?_ ?_ (hpos true false true) (hpos true true true)⟩ <;>
  · intro w h
    unfold ssmSt at h
    cases h1 : w 1 <;> cases h2 : w 2 <;> simp_all [irmD, ssmS]

/-- A training set that lacks a group the learners need. -/
def CsLacks (n : ℕ) : Set (ℕ → Fin 3 → Bool) :=
  (Lacking (csStudy E F sc nz) (fun _ => True) irmD n ∪ Lacking (csStudy E F sc nz) (fun w => ssmS w = 0) irmD n) ∪
    Lacking (csStudy E F sc nz) (fun w => ssmS w = 1) irmD n

theorem csLacks_null : Tendsto (fun n => tosses (CsLacks E F sc nz n)) atTop (𝓝 0) := by
  obtain ⟨h1, h2, h3⟩ := cs_lacking E F sc nz
  have h := (h1.add h2).add h3
  rw [add_zero, add_zero] at h
  exact tendsto_zero_of_le (Eventually.of_forall fun n => (measure_union_le _ _).trans (add_le_add (measure_union_le _ _) le_rfl)) h

/-- Eventually the learners make no errors. -/
theorem cs_exact : ∀ᶠ n in atTop, ∀ ω, ω ∉ CsLacks E F sc nz n → ∀ q j,
    (∀ x, csGhat (csStudy E F sc nz) ssmS "ml_g_d0_t0" 0 0 q n j (sample (fun i ω => ω i) n ω) x = 0) ∧
    (∀ x, csGhat (csStudy E F sc nz) ssmS "ml_g_d0_t1" 0 1 q n j (sample (fun i ω => ω i) n ω) x = 0) ∧
    (∀ x, csGhat (csStudy E F sc nz) ssmS "ml_g_d1_t0" 1 0 q n j (sample (fun i ω => ω i) n ω) x = 0) ∧
    (∀ x, csGhat (csStudy E F sc nz) ssmS "ml_g_d1_t1" 1 1 q n j (sample (fun i ω => ω i) n ω) x = x) ∧
    ∀ x, csMhat (csStudy E F sc nz) q n j (sample (fun i ω => ω i) n ω) x = 1 / 2 := by
  classical
  filter_upwards [(csStudy E F sc nz).good_train (fun _ => True) irmD, (csStudy E F sc nz).good_train (fun w => ssmS w = 0) irmD,
    (csStudy E F sc nz).good_train (fun w => ssmS w = 1) irmD] with n h1 h2 h3 ω hω q j
  have g1 := h1 ω (fun h => hω (Or.inl (Or.inl h))) q j
  have g2 := h2 ω (fun h => hω (Or.inl (Or.inr h))) q j
  have g3 := h3 ω (fun h => hω (Or.inr h)) q j
  have first : ∀ {l : List (Fin n)} {v u : ℝ} (_ : ∃ i ∈ l, ssmS (ω i) = u ∧ irmD (ω i) = v) (p : Option ℕ) (x : ℝ),
      fitted exSlope .predict p l (fun v => [Cell.num v]) plrX csY (fun w => irmD w = v ∧ ssmS w = u) (sample (fun i ω => ω i) n ω) x =
        if 1 / 2 < |v * u| then x else 0 := by
    rintro l v u ⟨i, hi, hs, hd⟩ p x
    have hne : l.filter (fun j => decide (irmD (sample (fun i (ω : ℕ → Fin 3 → Bool) => ω i) n ω j) = v ∧
        ssmS (sample (fun i (ω : ℕ → Fin 3 → Bool) => ω i) n ω j) = u)) ≠ [] :=
      List.ne_nil_of_mem (List.mem_filter.2 ⟨hi, decide_eq_true ⟨hd, hs⟩⟩)
    obtain ⟨a, s, e⟩ := List.exists_cons_of_ne_nil hne
    have ha := of_decide_eq_true (List.mem_filter.1 (e ▸ List.mem_cons_self : a ∈ l.filter _)).2
    unfold fitted
    rw [e, List.map_cons]
    show (if 1 / 2 < |csY (sample (fun i (ω : ℕ → Fin 3 → Bool) => ω i) n ω a)| then x else 0) = _
    have : |csY (sample (fun i (ω : ℕ → Fin 3 → Bool) => ω i) n ω a)| = |v * u| := by
      unfold csY
      rw [ha.1, ha.2]
      simp [abs_mul, plrX, sgn_abs]
    rw [this]
  refine ⟨fun x => ?_, fun x => ?_, fun x => ?_, fun x => ?_, fun x => ?_⟩
  · exact (first g2.1 _ x).trans (if_neg (by norm_num))
  · exact (first g3.1 _ x).trans (if_neg (by norm_num))
  · exact (first g2.2 _ x).trans (if_neg (by norm_num))
  · exact (first g3.2 _ x).trans (if_pos (by norm_num))
  · obtain ⟨⟨i, hi, -, hd⟩, ⟨i', hi', -, hd'⟩⟩ := g1
    refine (exSlope_proba _ _ _).trans (if_pos (two_classes.2 ?_))
    refine ⟨(_, irmD (ω i)), List.mem_map.2 ⟨i, List.mem_filter.2 ⟨hi, by simp⟩, rfl⟩,
      (_, irmD (ω i')), List.mem_map.2 ⟨i', List.mem_filter.2 ⟨hi', by simp⟩, rfl⟩, ?_⟩
    show irmD (ω i) ≠ irmD (ω i')
    rw [hd, hd']
    exact zero_ne_one

theorem cs_rates : CsCrossRates (csStudy E F sc nz) ssmS (fun _ => 0) (fun _ => 0) (fun _ => 0) (fun x => x) (fun _ => 1 / 2) := by
  have hb := csLacks_null E F sc nz
  have hx := cs_exact E F sc nz
  refine ⟨⟨fun _ => exSlope_meas, fun _ => exSlope_measM _, fun q j => ?_, fun q j => ?_, fun q j => ?_, fun q j => ?_,
    fun q j => ?_, fun q j => ?_, fun q j => ?_⟩, fun q j j' => ?_, fun q j j' => ?_⟩
  · exact oPE_of_bad hb (hx.mono fun n h ω hω => errNorm_exact (h ω hω q j).1)
  · exact oPE_of_bad hb (hx.mono fun n h ω hω => errNorm_exact (h ω hω q j).2.1)
  · exact oPE_of_bad hb (hx.mono fun n h ω hω => errNorm_exact (h ω hω q j).2.2.1)
  · exact oPE_of_bad hb (hx.mono fun n h ω hω => errNorm_exact (h ω hω q j).2.2.2.1)
  · exact oPE_of_bad hb (hx.mono fun n h ω hω => errNorm_exact (h ω hω q j).2.2.2.2)
  · exact oPE_of_bad hb (hx.mono fun n h ω hω => by rw [errNorm_exact (h ω hω q j).1, mul_zero, mul_zero])
  · exact oPE_of_bad hb (hx.mono fun n h ω hω => by rw [errNorm_exact (h ω hω q j).2.1, mul_zero, mul_zero])
  · exact oPE_of_bad hb (hx.mono fun n h ω hω => by rw [errNorm_exact (h ω hω q j').1, mul_zero, mul_zero])
  · exact oPE_of_bad hb (hx.mono fun n h ω hω => by rw [errNorm_exact (h ω hω q j').2.1, mul_zero, mul_zero])

theorem cs_errors : CsErrors (csStudy E F sc nz) ssmS (fun _ => 0) (fun _ => 0) (fun _ => 0) (fun x => x) :=
  have h := cs_rates E F sc nz
  ⟨h.measG, h.err00, h.err01, h.err10, h.err11⟩

theorem cs_complements : (csStudy E F sc nz).Complements := Study.createdIn_complements ..

end

theorem cs_sq (w : Fin 3 → Bool) : (csSignal csY irmD ssmS plrX (fun _ => 0) (fun _ => 0) (fun _ => 0) (fun x => x) (fun _ => 1 / 2) (1 / 2) w -
    irmD w * 0) ^ 2 = irmD w := by
  have e : csSignal csY irmD ssmS plrX (fun _ => 0) (fun _ => 0) (fun _ => 0) (fun x => x) (fun _ => 1 / 2) (1 / 2) w - irmD w * 0 =
      irmD w * plrX w := by
    unfold csSignal csTerm csY
    rcases irmD_bin w with e | e <;> rcases ssmS_bin w with e' | e' <;> rw [e, e'] <;> ring
  have : plrX w ^ 2 = 1 := sgn_sq _
  rw [e, mul_pow, this]
  rcases irmD_bin w with e | e <;> rw [e] <;> norm_num

theorem cs_random_sq (w : Fin 3 → Bool) : (csRandomSignal csY irmD ssmS plrX (fun _ => 0) (fun _ => 0) (fun _ => 0) (fun x => x) (1 / 2) (1 / 2) w -
    0) ^ 2 = 1 := by
  have e : csRandomSignal csY irmD ssmS plrX (fun _ => 0) (fun _ => 0) (fun _ => 0) (fun x => x) (1 / 2) (1 / 2) w - 0 = plrX w := by
    unfold csRandomSignal csY
    simp only [armVal]
    rcases irmD_bin w with e | e <;> rcases ssmS_bin w with e' | e' <;> rw [e, e'] <;> ring
  rw [e]
  exact sgn_sq _

theorem cs_change : changeOfTreated coins irmD plrX (fun _ => 0) (fun _ => 0) (fun _ => 0) (fun x => x) = 0 := by
  have n := irm_law.treat.null (measurable_coin _) (coin_mem _) (f := fun x => x) measurable_id (coin_mem _)
  have i2 : Integrable (fun w => 1 / 2 * plrX w) coins := (coin_mem (p := 1) (fun w => 1 / 2 * plrX w)).integrable le_rfl
  have e : ∫ w, irmD w * (plrX w - 0 - (0 - 0)) ∂coins = ∫ w, 1 / 2 * plrX w ∂coins := n.integral_eq i2 fun w => by ring
  unfold changeOfTreated
  rw [e, integral_const_mul]
  have : ∫ w, plrX w ∂coins = 0 := coin_mean 0
  rw [this]
  simp

/-- The hypotheses of `C79_did_cs` are met. -/
example (E : Ext) (F : ∀ n, (ℕ → Fin 3 → Bool) → Frame n) :
    AsympValid E tosses (fun i ω => ω i) 3 (csStudy E F .observational false).fitted 0 (Real.sqrt (1 / 2) / (1 / 2)) := by
  have h := C79_did_cs (H := csStudy E F .observational false) (τ := 1 / 100) (fun _ => rfl) (fun _ => rfl) (fun _ => rfl) (fun _ => rfl)
    (fun _ => rfl) (fun _ => exSlope_compliant) (Eventually.of_forall fun _ _ => rfl) (Eventually.of_forall fun _ _ => rfl)
    (cs_lacking E F .observational false).1 (cs_complements E F .observational false) (by rw [tosses_law]; exact period_law)
    (by simp only [csY_noise]; exact MemLp.zero') MemLp.zero' MemLp.zero' MemLp.zero' (by rw [tosses_law]; exact coin_mem _) (θ := 0)
    (by rw [tosses_law]; exact cs_change.symm) (by rw [tosses_law]; simp only [cs_sq]; rw [irmD_mean]; norm_num)
    (cs_rates E F .observational false).toCsRates
  rw [tosses_law] at h
  simp only [cs_sq] at h
  rwa [irmD_mean] at h

/-- The hypotheses of `C79_did_cs_normalized` are met. -/
example (E : Ext) (F : ∀ n, (ℕ → Fin 3 → Bool) → Frame n) :
    AsympValid E tosses (fun i ω => ω i) 3 (csStudy E F .observational true).fitted 0 (Real.sqrt (1 / 2) / (1 / 2)) := by
  have h := C79_did_cs_normalized (H := csStudy E F .observational true) (τ := 1 / 100) (fun _ => rfl) (fun _ => rfl) (fun _ => rfl) (fun _ => rfl)
    (fun _ => rfl) (fun _ => exSlope_compliant) (Eventually.of_forall fun _ _ => rfl) (Eventually.of_forall fun _ _ => rfl)
    (cs_lacking E F .observational true).1 (by rw [tosses_law]; exact period_law)
    (by simp only [csY_noise]; exact MemLp.zero') MemLp.zero' MemLp.zero' MemLp.zero' (by rw [tosses_law]; exact coin_mem _) (θ := 0)
    (by rw [tosses_law]; exact cs_change.symm) (by rw [tosses_law]; simp only [cs_sq]; rw [irmD_mean]; norm_num)
    (cs_rates E F .observational true)
  rw [tosses_law] at h
  simp only [cs_sq] at h
  rwa [irmD_mean] at h

/-- The hypotheses of `C79_did_cs_experimental` are met. -/
example (E : Ext) (F : ∀ n, (ℕ → Fin 3 → Bool) → Frame n) : AsympValid E tosses (fun i ω => ω i) 3 (csStudy E F .experimental false).fitted 0 1 := by
  have h := C79_did_cs_experimental (H := csStudy E F .experimental false) (τ := 1 / 100) (fun _ => rfl) (fun _ => rfl) (fun _ => rfl)
    (fun _ => rfl) (fun _ => exSlope_compliant) (Eventually.of_forall fun _ _ => rfl) (Eventually.of_forall fun _ _ => rfl)
    (cs_lacking E F .experimental false).1 (cs_complements E F .experimental false) (p := 1 / 2) (by rw [tosses_law]; exact period_law)
    (by simp only [csY_noise]; exact MemLp.zero') MemLp.zero' MemLp.zero' MemLp.zero' (by rw [tosses_law]; exact coin_mem _) (θ := 0)
    (by rw [tosses_law]; simp only [sub_zero]; exact (coin_mean 0).symm) (by rw [tosses_law]; simp only [cs_random_sq]; simp)
    (cs_errors E F .experimental false)
  rw [tosses_law] at h
  simp only [cs_random_sq] at h
  simpa using h

/-- The hypotheses of `C79_did_cs_experimental_normalized` are met. -/
example (E : Ext) (F : ∀ n, (ℕ → Fin 3 → Bool) → Frame n) : AsympValid E tosses (fun i ω => ω i) 3 (csStudy E F .experimental true).fitted 0 1 := by
  have h := C79_did_cs_experimental_normalized (H := csStudy E F .experimental true) (τ := 1 / 100) (fun _ => rfl) (fun _ => rfl) (fun _ => rfl)
    (fun _ => rfl) (fun _ => exSlope_compliant) (Eventually.of_forall fun _ _ => rfl) (Eventually.of_forall fun _ _ => rfl)
    (cs_lacking E F .experimental true).1 (p := 1 / 2) (by rw [tosses_law]; exact period_law)
    (by simp only [csY_noise]; exact MemLp.zero') MemLp.zero' MemLp.zero' MemLp.zero' (by rw [tosses_law]; exact coin_mem _) (θ := 0)
    (by rw [tosses_law]; simp only [sub_zero]; exact (coin_mean 0).symm) (by rw [tosses_law]; simp only [cs_random_sq]; simp)
    (cs_errors E F .experimental true)
  rw [tosses_law] at h
  simp only [cs_random_sq] at h
  simpa using h

end DML
