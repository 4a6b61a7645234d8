import Verif.AsymptoticIrmExamples
import Verif.AsymptoticSsmProps

/-!
# Large samples: an example of a sample selection model

A sequence of studies that meets the hypotheses of C79 for sample selection with outcomes missing at random.
Nothing here models code of the package.
-/

namespace DML

open MeasureTheory ProbabilityTheory Filter Topology
open scoped ENNReal

/-- A learner that decides from the first training observation whether the outcome is zero or equal to the covariate.  As a classifier it
finds all classes equally likely if there are two. -/
noncomputable def exSlope : Learner ℕ (List Cell) where
  predict := fun _ D x =>
    match D with
    | [] => 0
    | q :: _ => if 1 / 2 < |q.2| then (x.headD (.num 0)).val else 0
  proba := fun _ D _ => List.replicate (classesOf D).length (1 / 2)

theorem exSlope_compliant : exSlope.Compliant := fun _ _ _ => by simp [exSlope]

theorem exSlope_meas : MeasLearner exSlope .predict fun v : ℝ => [Cell.num v] := by
  intro p k
  cases k with
  | zero =>
    have : (fun z : (Fin 0 → ℝ × ℝ) × ℝ => (exSlope.answer .predict p (List.ofFn fun j => ([Cell.num (z.1 j).1], (z.1 j).2))
        [Cell.num z.2]).getD 0) = fun _ => 0 := by
      funext z
      rw [List.ofFn_zero]
      rfl
    rw [this]
    exact measurable_const
  | succ k =>
    have : (fun z : (Fin (k + 1) → ℝ × ℝ) × ℝ => (exSlope.answer .predict p (List.ofFn fun j => ([Cell.num (z.1 j).1], (z.1 j).2))
        [Cell.num z.2]).getD 0) = fun z => if 1 / 2 < |(z.1 0).2| then z.2 else 0 := by
      funext z
      rw [List.ofFn_succ]
      rfl
    rw [this]
    refine Measurable.ite ?_ measurable_snd measurable_const
    have h0 : Measurable fun z : (Fin (k + 1) → ℝ × ℝ) × ℝ => z.1 0 := (measurable_pi_apply 0).comp measurable_fst
    exact measurableSet_lt measurable_const (measurable_snd.comp h0).abs

theorem exSlope_proba (p : Option ℕ) (D : List (List Cell × ℝ)) (x : List Cell) :
    (exSlope.answer .proba p D x).getD 0 = if 1 < (D.map Prod.snd).toFinset.card then 1 / 2 else 0 := exRound_proba p D x

/-- Measurable for every encoding of covariates. -/
theorem exSlope_measM {𝒳 : Type*} [MeasurableSpace 𝒳] (enc : 𝒳 → List Cell) : MeasLearner exSlope .proba enc := by
  intro p k
  simp only [exSlope_proba, two_classes]
  refine Measurable.ite ?_ measurable_const measurable_const
  have : {z : (Fin k → 𝒳 × ℝ) × 𝒳 | ∃ a ∈ List.ofFn fun j => (enc (z.1 j).1, (z.1 j).2),
      ∃ b ∈ List.ofFn fun j => (enc (z.1 j).1, (z.1 j).2), a.2 ≠ b.2} =
      ⋃ i : Fin k, ⋃ j : Fin k, {z | (z.1 i).2 ≠ (z.1 j).2} := by
    ext z
    simp only [List.mem_ofFn, Set.mem_ofPred_eq, Set.mem_iUnion]
    constructor
    · rintro ⟨a, ⟨i, rfl⟩, b, ⟨j, rfl⟩, h⟩
      exact ⟨i, j, h⟩
    · rintro ⟨i, j, h⟩
      exact ⟨_, ⟨i, rfl⟩, _, ⟨j, rfl⟩, h⟩
  rw [this]
  refine MeasurableSet.iUnion fun i => MeasurableSet.iUnion fun j => ?_
  have hm : ∀ i, Measurable fun z : (Fin k → 𝒳 × ℝ) × 𝒳 => (z.1 i).2 := fun i =>
    measurable_snd.comp ((measurable_pi_apply i).comp measurable_fst)
  exact (measurableSet_eq_fun (hm i) (hm j)).compl

/-- Selection is a coin; the effect of the treatment is the covariate; outcomes that are not selected are recorded as seven. -/
noncomputable def ssmS (w : Fin 3 → Bool) : ℝ := if w 2 then 1 else 0

noncomputable def ssmY (w : Fin 3 → Bool) : ℝ := ssmS w * (irmD w * plrX w) + (1 - ssmS w) * 7

/-- The stratum of an observation: treatment and selection. -/
def ssmSt (w : Fin 3 → Bool) : Fin 4 := if w 1 then (if w 2 then 3 else 1) else if w 2 then 2 else 0

theorem ssmS_bin (w : Fin 3 → Bool) : ssmS w = 0 ∨ ssmS w = 1 := by
  unfold ssmS
  cases w 2 <;> simp

theorem ssm_noise (w : Fin 3 → Bool) : ssmS w * (ssmY w - (irmD w * plrX w + (1 - irmD w) * 0)) = 0 := by
  unfold ssmY
  rcases ssmS_bin w with e | e <;> rw [e] <;> ring

theorem ssm_law : SsmLaw coins ssmY irmD ssmS plrX (fun _ => 0) (fun x => x) (fun _ => 1 / 2) (fun _ => 1 / 2) (fun _ => 1 / 2) (1 / 100) := by
  have e2 : (fun w => ssmS w - (irmD w * (1 / 2) + (1 - irmD w) * (1 / 2))) = fun w => sgn (w 2) / 2 := by
    funext w
    have : ssmS w = 1 / 2 + sgn (w 2) / 2 := by
      unfold ssmS sgn
      cases w 2 <;> norm_num
    rw [this]
    ring
  have i2 : IndepFun (fun w : Fin 3 → Bool => sgn (w 2) / 2) (fun w => (irmD w, plrX w)) coins :=
    (coins_indep.indepFun_prodMk (fun i => measurable_pi_apply i) 1 0 2 (by decide) (by decide)).symm.comp (φ := fun b => sgn b / 2)
      (ψ := fun b : Bool × Bool => ((if b.1 then 1 else 0 : ℝ), sgn b.2)) (measurable_of_countable _) (measurable_of_countable _)
  have hx : ∀ w, |plrX w| ≤ 1 := fun w => (sgn_abs _).le
  refine ⟨measurable_coin _, measurable_coin _, measurable_coin _, measurable_coin _, measurable_const, measurable_id, measurable_const,
    measurable_const, measurable_const, irmD_bin, ssmS_bin, ?_, ?_, irm_law.treat, by norm_num, fun x => by norm_num, fun x => by norm_num,
    fun x => by norm_num, ?_, MemLp.zero', memLp_of_bdd (measurable_coin _) hx⟩
  · simp only [ssm_noise]
    refine meanZero_of_indep (measurable_coin _) measurable_const ?_ (by simp)
    exact indepFun_const_left _ _
  · rw [e2]
    refine meanZero_of_indep (measurable_coin _) (measurable_coin _) i2 ?_
    rw [integral_div, coin_mean, zero_div]
  · simp only [ssm_noise]
    exact MemLp.zero'

/-- The model class: trimming at 0.01. -/
noncomputable def ssmSlope (n : ℕ) : SsmClass n ℕ :=
  { ml_g := exSlope
    ml_pi := exSlope
    ml_m := exSlope
    gClassifier := false
    normalize := false
    trimT := 1 / 100 }

/-- The data objects. -/
noncomputable def ssmData (n : ℕ) (ω : ℕ → Fin 3 → Bool) : DataState n :=
  { exData (fun i (ω : ℕ → Fin 3 → Bool) => ω i) ssmY irmD plrX none true n ω with
    s := some "s"
    sv := some fun i => .num (ssmS (ω i)) }

theorem ssm_holds : Holds (fun i (ω : ℕ → Fin 3 → Bool) => ω i) "d" ssmY irmD plrX (fun v => [Cell.num v]) ssmData where
  treats := fun _ _ => rfl
  outcome := fun _ _ _ => rfl
  treatment := fun _ _ _ => rfl
  covariates := fun _ _ _ => rfl
  measY := measurable_coin _
  measD := measurable_coin _
  measX := measurable_coin _

/-- The objects. -/
noncomputable def ssmObj (n : ℕ) (ω : ℕ → Fin 3 → Bool) : LinState n ℕ :=
  createdObj (ssmSpec (ssmSlope n)) (ssmData n ω) 2 3
    (evenDraws 2 n (strataOf ssmSt (sample (fun i (ω : ℕ → Fin 3 → Bool) => ω i) n ω)))

theorem ssmObj_spec (n : ℕ) (ω : ℕ → Fin 3 → Bool) :
    initModel (ssmSpec (ssmSlope n)) (ssmData n ω) 0 (.int (2 : ℕ)) (.int (3 : ℕ)) (.bool true)
      (evenDraws 2 n (strataOf ssmSt (sample (fun i (ω : ℕ → Fin 3 → Bool) => ω i) n ω))) = .ok (ssmObj n ω) := by
  have h : (ssmSpec (ssmSlope n)).stratified = true := rfl
  exact createdObj_spec (ssmSpec (ssmSlope n)) rfl (ssmData n ω) le_rfl (by norm_num) (fun h' => by rw [h] at h'; cases h') _

/-- Sample selection models on the coins: two folds drawn within the groups of treatment and selection, three repetitions. -/
noncomputable def ssmStudy (E : Ext) (F : ∀ n, (ℕ → Fin 3 → Bool) → Frame n) :
    Study E tosses (fun i ω => ω i) 3 2 (fun n => ssmSpec (ssmSlope n)) "d" ssmY irmD plrX fun v => [Cell.num v] :=
  Study.createdIn E tosses_iid le_rfl (by norm_num) (fun _ => rfl) (fun _ => rfl) F ssm_holds
    (st := fun _ _ => 0) (St := ssmSt) (measurable_coin _) (w := evenDraws 2) (fun _ α _ => evenAssign_even two_pos α)
    (obj := ssmObj) (Eventually.of_forall fun n ω => ssmObj_spec n ω)
    (args := {}) (fun n m => plainArgs _ _ m) rfl

theorem coins_pos {A : Set (Fin 3 → Bool)} (h : A.Nonempty) : coins A ≠ 0 := by
  obtain ⟨w, hw⟩ := h
  refine late_pos (w 0) (w 1) (w 2) fun v h1 h2 h0 => ?_
  have : v = w := by
    funext i
    fin_cases i
    · exact h0
    · exact h1
    · exact h2
  exact this ▸ hw

theorem ssm_lacking (E : Ext) (F : ∀ n, (ℕ → Fin 3 → Bool) → Frame n) :
    Tendsto (fun n => tosses (Lacking (ssmStudy E F) (fun _ => True) irmD n)) atTop (𝓝 0) ∧
    Tendsto (fun n => tosses (Lacking (ssmStudy E F) (fun _ => True) ssmS n)) atTop (𝓝 0) ∧
    Tendsto (fun n => tosses (Lacking (ssmStudy E F) (fun w => ssmS w = 1) irmD n)) atTop (𝓝 0) := by
  have hpos : ∀ a b c : Bool, tosses.map (fun ω => ω 0) {x | ssmSt x = ssmSt ![a, b, c]} ≠ 0 := fun a b c => by
    rw [tosses_law]
    exact coins_pos ⟨_, rfl⟩
  refine ⟨created_both (c₀ := 0) (c₁ := 1) ?_ ?_ (hpos true false false) (hpos true true false),
    created_both (c₀ := 0) (c₁ := 2) ?_ ?_ (hpos true false false) (hpos true false true),
    created_both (c₀ := 2) (c₁ := 3) ?_ ?_ (hpos true false true) (hpos true true true)⟩ <;>
  · intro w h
    unfold ssmSt at h
    cases h1 : w 1 <;> cases h2 : w 2 <;> simp_all [irmD, ssmS]

/-- A training set that lacks a class the learners need. -/
def SsmLacks (E : Ext) (F : ∀ n, (ℕ → Fin 3 → Bool) → Frame n) (n : ℕ) : Set (ℕ → Fin 3 → Bool) :=
  (Lacking (ssmStudy E F) (fun _ => True) irmD n ∪ Lacking (ssmStudy E F) (fun _ => True) ssmS n) ∪
    Lacking (ssmStudy E F) (fun w => ssmS w = 1) irmD n

theorem ssmLacks_null (E : Ext) (F : ∀ n, (ℕ → Fin 3 → Bool) → Frame n) : Tendsto (fun n => tosses (SsmLacks E F n)) atTop (𝓝 0) := by
  obtain ⟨h1, h2, h3⟩ := ssm_lacking E F
  have h := (h1.add h2).add h3
  rw [add_zero, add_zero] at h
  exact tendsto_zero_of_le (Eventually.of_forall fun n => (measure_union_le _ _).trans (add_le_add (measure_union_le _ _) le_rfl)) h

/-- Eventually the learners make no errors. -/
theorem ssm_exact (E : Ext) (F : ∀ n, (ℕ → Fin 3 → Bool) → Frame n) : ∀ᶠ n in atTop, ∀ ω, ω ∉ SsmLacks E F n → ∀ q j,
    (∀ x, ssmGhat (ssmStudy E F) ssmS "ml_g_d0" 0 q n j (sample (fun i ω => ω i) n ω) x = 0) ∧
    (∀ x, ssmGhat (ssmStudy E F) ssmS "ml_g_d1" 1 q n j (sample (fun i ω => ω i) n ω) x = x) ∧
    (∀ v x, ssmPhat (ssmStudy E F) ssmS q v n j (sample (fun i ω => ω i) n ω) x = 1 / 2) ∧
    ∀ x, ssmMhat (ssmStudy E F) q n j (sample (fun i ω => ω i) n ω) x = 1 / 2 := by
  classical
  filter_upwards [(ssmStudy E F).good_train (fun _ => True) irmD, (ssmStudy E F).good_train (fun _ => True) ssmS,
    (ssmStudy E F).good_train (fun w => ssmS w = 1) irmD] with n h1 h2 h3 ω hω q j
  have g1 := h1 ω (fun h => hω (Or.inl (Or.inl h))) q j
  have g2 := h2 ω (fun h => hω (Or.inl (Or.inr h))) q j
  have g3 := h3 ω (fun h => hω (Or.inr h)) q j
  have first : ∀ {l : List (Fin n)} {v : ℝ} {u : String} (_ : ∃ i ∈ l, ssmS (ω i) = 1 ∧ irmD (ω i) = v) (p : Option ℕ) (x : ℝ),
      fitted exSlope .predict p l (fun v => [Cell.num v]) plrX ssmY (fun w => irmD w = v ∧ ssmS w = 1) (sample (fun i ω => ω i) n ω) x =
        if 1 / 2 < |v| then x else 0 := by
    rintro l v - ⟨i, hi, hs, hd⟩ p x
    have hne : l.filter (fun j => decide (irmD (sample (fun i (ω : ℕ → Fin 3 → Bool) => ω i) n ω j) = v ∧
        ssmS (sample (fun i (ω : ℕ → Fin 3 → Bool) => ω i) n ω j) = 1)) ≠ [] :=
      List.ne_nil_of_mem (List.mem_filter.2 ⟨hi, decide_eq_true ⟨hd, hs⟩⟩)
    obtain ⟨a, s, e⟩ := List.exists_cons_of_ne_nil hne
    have ha := of_decide_eq_true (List.mem_filter.1 (e ▸ List.mem_cons_self : a ∈ l.filter _)).2
    unfold fitted
    rw [e, List.map_cons]
    show (if 1 / 2 < |ssmY (sample (fun i (ω : ℕ → Fin 3 → Bool) => ω i) n ω a)| then x else 0) = _
    have : |ssmY (sample (fun i (ω : ℕ → Fin 3 → Bool) => ω i) n ω a)| = |v| := by
      unfold ssmY
      rw [ha.1, ha.2]
      simp [abs_mul, plrX, sgn_abs]
    rw [this]
  refine ⟨fun x => ?_, fun x => ?_, fun v x => ?_, fun x => ?_⟩
  · refine (first (u := "") g3.1 _ x).trans (if_neg (by norm_num))
  · refine (first (u := "") g3.2 _ x).trans (if_pos (by norm_num))
  · obtain ⟨⟨i, hi, -, hd⟩, ⟨i', hi', -, hd'⟩⟩ := g2
    refine (exSlope_proba _ _ _).trans (if_pos (two_classes.2 ?_))
    refine ⟨(_, ssmS (ω i)), List.mem_map.2 ⟨i, List.mem_filter.2 ⟨hi, by simp⟩, rfl⟩,
      (_, ssmS (ω i')), List.mem_map.2 ⟨i', List.mem_filter.2 ⟨hi', by simp⟩, rfl⟩, ?_⟩
    show ssmS (ω i) ≠ ssmS (ω i')
    rw [hd, hd']
    exact zero_ne_one
  · obtain ⟨⟨i, hi, -, hd⟩, ⟨i', hi', -, hd'⟩⟩ := g1
    refine (exSlope_proba _ _ _).trans (if_pos (two_classes.2 ?_))
    refine ⟨(_, irmD (ω i)), List.mem_map.2 ⟨i, List.mem_filter.2 ⟨hi, by simp⟩, rfl⟩,
      (_, irmD (ω i')), List.mem_map.2 ⟨i', List.mem_filter.2 ⟨hi', by simp⟩, rfl⟩, ?_⟩
    show irmD (ω i) ≠ irmD (ω i')
    rw [hd, hd']
    exact zero_ne_one

theorem errNorm_exact {Ω S 𝒳 : Type*} {mΩ : MeasurableSpace Ω} [MeasurableSpace S] {K : ℕ} {P : Measure Ω} {W : ℕ → Ω → S} {ξ : S → 𝒳}
    {fh : ∀ n, Fin K → (Fin n → S) → 𝒳 → ℝ} {f0 : 𝒳 → ℝ} {p : ℝ≥0∞} {j : Fin K} {n : ℕ} {ω : Ω} (h : ∀ x, fh n j (sample W n ω) x = f0 x) :
    errNorm P W ξ fh f0 p j n ω = 0 := by
  unfold errNorm
  simp only [h, sub_self]
  exact eLpNorm_zero'

theorem ssm_rates (E : Ext) (F : ∀ n, (ℕ → Fin 3 → Bool) → Frame n) :
    SsmRates (ssmStudy E F) ssmS (fun _ => 0) (fun x => x) (fun _ => 1 / 2) (fun _ => 1 / 2) (fun _ => 1 / 2) := by
  have hb := ssmLacks_null E F
  have hx := ssm_exact E F
  refine ⟨fun _ => exSlope_meas, fun _ => exSlope_measM _, fun _ => exSlope_measM _, fun q j => ?_, fun q j => ?_, fun q j => ?_, fun q j => ?_,
    fun q j => ?_, fun q j => ?_, fun q j => ?_, fun q j => ?_, fun q j => ?_⟩
  · exact oPE_of_bad hb (hx.mono fun n h ω hω => errNorm_exact (h ω hω q j).2.2.2)
  · exact oPE_of_bad hb (hx.mono fun n h ω hω => errNorm_exact ((h ω hω q j).2.2.1 0))
  · exact oPE_of_bad hb (hx.mono fun n h ω hω => errNorm_exact ((h ω hω q j).2.2.1 1))
  · exact oPE_of_bad hb (hx.mono fun n h ω hω => errNorm_exact (h ω hω q j).1)
  · exact oPE_of_bad hb (hx.mono fun n h ω hω => errNorm_exact (h ω hω q j).2.1)
  · exact oPE_of_bad hb (hx.mono fun n h ω hω => by rw [errNorm_exact (h ω hω q j).1, mul_zero, mul_zero])
  · exact oPE_of_bad hb (hx.mono fun n h ω hω => by rw [errNorm_exact (h ω hω q j).2.1, mul_zero, mul_zero])
  · exact oPE_of_bad hb (hx.mono fun n h ω hω => by rw [errNorm_exact (h ω hω q j).1, mul_zero, mul_zero])
  · exact oPE_of_bad hb (hx.mono fun n h ω hω => by rw [errNorm_exact (h ω hω q j).2.1, mul_zero, mul_zero])

theorem ssm_bad (E : Ext) (F : ∀ n, (ℕ → Fin 3 → Bool) → Frame n) :
    Tendsto (fun n => tosses (SsmBad (ssmStudy E F) ssmS (1 / 100) n)) atTop (𝓝 0) := by
  refine tendsto_zero_of_le ?_ (ssmLacks_null E F)
  filter_upwards [ssm_exact E F] with n hn
  refine measure_mono fun ω hω => ?_
  by_contra hne
  rcases hω with h | h
  · exact hne (Or.inl h)
  · refine h fun q i => ?_
    have := (hn ω hne q ((ssmStudy E F).foldOf q n ω i)).2.2.1 (irmD (ω i)) (plrX (ω i))
    rw [this]
    norm_num

theorem ssm_sq : ∀ w, (plrX w - 0 + irmD w * ssmS w * (ssmY w - plrX w) / (1 / 2 * (1 / 2)) -
    (1 - irmD w) * ssmS w * (ssmY w - 0) / ((1 - 1 / 2) * (1 / 2)) - 0) ^ 2 = 1 := fun w => by
  have e : plrX w - 0 + irmD w * ssmS w * (ssmY w - plrX w) / (1 / 2 * (1 / 2)) -
      (1 - irmD w) * ssmS w * (ssmY w - 0) / ((1 - 1 / 2) * (1 / 2)) - 0 = plrX w := by
    unfold ssmY
    rcases irmD_bin w with e | e <;> rcases ssmS_bin w with e' | e' <;> rw [e, e'] <;> ring
  rw [e]
  exact sgn_sq _

/-- The hypotheses of `C79_ssm` are met: effect zero on average, asymptotic standard deviation one. -/
example (E : Ext) (F : ∀ n, (ℕ → Fin 3 → Bool) → Frame n) : AsympValid E tosses (fun i ω => ω i) 3 (ssmStudy E F).fitted 0 1 := by
  have h := C79_ssm (H := ssmStudy E F) (τ := 1 / 100) (fun _ => rfl) (fun _ => rfl) (fun _ => rfl) (fun _ => rfl)
    (fun _ => exSlope_compliant) (fun _ => exSlope_compliant) (Eventually.of_forall fun _ _ => rfl) (Eventually.of_forall fun _ _ => rfl)
    (ssm_bad E F) (by rw [tosses_law]; exact ssm_law) (by simp only [ssm_noise]; exact MemLp.zero') MemLp.zero'
    (by rw [tosses_law]; exact memLp_of_bdd (measurable_coin _) fun w => (sgn_abs _).le) (θ := 0)
    (by rw [tosses_law]; simp only [sub_zero]; exact (coin_mean 0).symm) (by rw [tosses_law]; simp only [ssm_sq]; simp) (ssm_rates E F)
  rw [tosses_law] at h
  simp only [ssm_sq] at h
  simpa using h

end DML
