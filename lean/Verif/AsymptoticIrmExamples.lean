import Verif.AsymptoticExamples
import Verif.AsymptoticIrmProps

/-!
# Large samples: examples of interactive models

Sequences of studies that meet the hypotheses of C79 for IRM, APO and IIVM, with learners that have to learn from their
training data and folds drawn within the strata the classes use.  Nothing here models code of the package.
-/

namespace DML

open MeasureTheory ProbabilityTheory Filter Topology
open scoped ENNReal

variable {n : ℕ} {Q : Type}

/-! ## Interactive regression model -/

section Good

variable {Ω : Type*} {mΩ : MeasurableSpace Ω} {S : Type*} [MeasurableSpace S] {𝒳 : Type*} [MeasurableSpace 𝒳] {P : Measure Ω}
  {W : ℕ → Ω → S} {E : Ext} {r K : ℕ} {sp : ∀ n, LinSpec n Q} {tv : String} {y d : S → ℝ} {ξ : S → 𝒳} {enc : 𝒳 → List Cell}

theorem oPE_of_bad {R : ℕ → Ω → ℝ≥0∞} {bad : ℕ → Set Ω} (hb : Tendsto (fun n => P (bad n)) atTop (𝓝 0))
    (h : ∀ᶠ n in atTop, ∀ ω, ω ∉ bad n → R n ω = 0) : oPE P R := by
  intro δ hδ
  refine tendsto_zero_of_le ?_ hb
  filter_upwards [h] with n hn
  refine measure_mono fun ω hω => ?_
  by_contra hne
  have hω : δ < R n ω := hω
  rw [hn ω hne] at hω
  exact absurd hω (not_lt.2 zero_le)

/-- If no training set lacks a class, every training set contains both. -/
theorem Study.good_train (H : Study E P W r K sp tv y d ξ enc) (on : S → Prop) (v : S → ℝ) :
    ∀ᶠ n in atTop, ∀ ω, ω ∉ Lacking H on v n → ∀ (q : Fin r) (j : Fin K),
      (∃ i ∈ trainOf (splitAt K (H.splits n (strataOf H.St (sample W n ω))) q) j, on (W i ω) ∧ v (W i ω) = 0) ∧
      ∃ i ∈ trainOf (splitAt K (H.splits n (strataOf H.St (sample W n ω))) q) j, on (W i ω) ∧ v (W i ω) = 1 := by
  filter_upwards [H.split] with n h2 ω hω q j
  obtain ⟨h3, h4⟩ := h2 ω
  have hω := not_not.1 hω
  obtain ⟨T, hT⟩ : ∃ T, (H.splits n (strataOf H.St (sample W n ω)))[(q : ℕ)]? = some T :=
    ⟨_, List.getElem?_eq_getElem (by rw [h3]; exact q.2)⟩
  have hmem := List.mem_of_getElem? hT
  have hX := h4 T hmem
  have e : splitAt K (H.splits n (strataOf H.St (sample W n ω))) q = T := by
    unfold splitAt
    rw [hT]
    exact if_pos hX
  rw [e]
  have hj : (j : ℕ) < T.length := by rw [hX.length]; exact j.2
  have e2 : trainOf T j = T[(j : ℕ)].train := by
    unfold trainOf
    rw [List.getElem?_eq_getElem hj]
    rfl
  rw [e2]
  exact hω T hmem _ (List.getElem_mem hj)

end Good

/-- A learner for outcomes of the form covariate plus zero or one plus small noise: the first training observation tells
which.  As a classifier it finds all classes equally likely if there are two. -/
noncomputable def exRound : Learner ℕ (List Cell) where
  predict := fun _ D x =>
    match D with
    | [] => 0
    | q :: _ => (if 1 / 2 < q.2 - (q.1.headD (.num 0)).val then 1 else 0) + (x.headD (.num 0)).val
  proba := fun _ D _ => List.replicate (classesOf D).length (1 / 2)

theorem exRound_compliant : exRound.Compliant := fun _ _ _ => by simp [exRound]

theorem exRound_meas : MeasLearner exRound .predict fun v : ℝ => [Cell.num v] := by
  intro p k
  cases k with
  | zero =>
    have : (fun z : (Fin 0 → ℝ × ℝ) × ℝ => (exRound.answer .predict p (List.ofFn fun j => ([Cell.num (z.1 j).1], (z.1 j).2))
        [Cell.num z.2]).getD 0) = fun _ => 0 := by
      funext z
      rw [List.ofFn_zero]
      rfl
    rw [this]
    exact measurable_const
  | succ k =>
    have : (fun z : (Fin (k + 1) → ℝ × ℝ) × ℝ => (exRound.answer .predict p (List.ofFn fun j => ([Cell.num (z.1 j).1], (z.1 j).2))
        [Cell.num z.2]).getD 0) = fun z => (if 1 / 2 < (z.1 0).2 - (z.1 0).1 then 1 else 0) + z.2 := by
      funext z
      rw [List.ofFn_succ]
      rfl
    rw [this]
    refine Measurable.add (Measurable.ite ?_ measurable_const measurable_const) measurable_snd
    have h0 : Measurable fun z : (Fin (k + 1) → ℝ × ℝ) × ℝ => z.1 0 := (measurable_pi_apply 0).comp measurable_fst
    exact measurableSet_lt measurable_const ((measurable_snd.comp h0).sub (measurable_fst.comp h0))

theorem exRound_proba (p : Option ℕ) (D : List (List Cell × ℝ)) (x : List Cell) :
    (exRound.answer .proba p D x).getD 0 = if 1 < (D.map Prod.snd).toFinset.card then 1 / 2 else 0 := by
  show ((List.replicate (classesOf D).length (1 / 2 : ℝ))[1]?).getD 0 = _
  have : (classesOf D).length = (D.map Prod.snd).toFinset.card := by
    unfold classesOf
    rw [Finset.length_sort]
  rw [this, List.getElem?_replicate]
  split_ifs <;> rfl

theorem two_classes {D : List (List Cell × ℝ)} : 1 < (D.map Prod.snd).toFinset.card ↔ ∃ a ∈ D, ∃ b ∈ D, a.2 ≠ b.2 := by
  rw [Finset.one_lt_card]
  constructor
  · rintro ⟨a, ha, b, hb, hab⟩
    simp only [List.mem_toFinset, List.mem_map] at ha hb
    obtain ⟨u, hu, rfl⟩ := ha
    obtain ⟨v, hv, rfl⟩ := hb
    exact ⟨u, hu, v, hv, hab⟩
  · rintro ⟨a, ha, b, hb, hab⟩
    exact ⟨a.2, by simpa using ⟨a.1, ha⟩, b.2, by simpa using ⟨b.1, hb⟩, hab⟩

theorem exRound_measM : MeasLearner exRound .proba fun v : ℝ => [Cell.num v] := by
  intro p k
  simp only [exRound_proba, two_classes]
  refine Measurable.ite ?_ measurable_const measurable_const
  have : {z : (Fin k → ℝ × ℝ) × ℝ | ∃ a ∈ List.ofFn fun j => ([Cell.num (z.1 j).1], (z.1 j).2),
      ∃ b ∈ List.ofFn fun j => ([Cell.num (z.1 j).1], (z.1 j).2), a.2 ≠ b.2} =
      ⋃ i : Fin k, ⋃ j : Fin k, {z | (z.1 i).2 ≠ (z.1 j).2} := by
    ext z
    simp only [List.mem_ofFn, Set.mem_ofPred_eq, Set.mem_iUnion]
    constructor
    · rintro ⟨a, ⟨i, rfl⟩, b, ⟨j, rfl⟩, h⟩
      exact ⟨i, j, h⟩
    · rintro ⟨i, j, h⟩
      exact ⟨_, ⟨i, rfl⟩, _, ⟨j, rfl⟩, h⟩
  rw [this]
  refine MeasurableSet.iUnion fun i => MeasurableSet.iUnion fun j => ?_
  have hm : ∀ i, Measurable fun z : (Fin k → ℝ × ℝ) × ℝ => (z.1 i).2 := fun i =>
    measurable_snd.comp ((measurable_pi_apply i).comp measurable_fst)
  exact (measurableSet_eq_fun (hm i) (hm j)).compl

/-- The treatment is a coin, the effect is one, and the covariate matters. -/
noncomputable def irmD (w : Fin 3 → Bool) : ℝ := if w 1 then 1 else 0

noncomputable def irmY (w : Fin 3 → Bool) : ℝ := irmD w + plrX w + sgn (w 2) / 4

/-- The stratum of an observation is its treatment. -/
def irmSt (w : Fin 3 → Bool) : Fin 2 := if w 1 then 1 else 0

theorem irmD_bin (w : Fin 3 → Bool) : irmD w = 0 ∨ irmD w = 1 := by
  unfold irmD
  cases w 1 <;> simp

theorem irm_law : IrmLaw coins irmY irmD plrX (fun x => x) (fun x => 1 + x) (fun _ => 1 / 2) (1 / 100) 4 := by
  have e1 : (fun w => irmY w - (irmD w * (1 + plrX w) + (1 - irmD w) * plrX w)) = fun w => sgn (w 2) / 4 := by
    funext w
    unfold irmY
    ring
  have e2 : (fun w => irmD w - 1 / 2) = fun w => sgn (w 1) / 2 := by
    funext w
    unfold irmD sgn
    cases w 1 <;> norm_num
  have i1 : IndepFun (fun w : Fin 3 → Bool => sgn (w 1) / 2) plrX coins :=
    (coins_indep.indepFun (i := 1) (j := 0) (by decide)).comp (φ := fun b => sgn b / 2) (ψ := sgn) (measurable_of_countable _)
      (measurable_of_countable _)
  have i2 : IndepFun (fun w : Fin 3 → Bool => sgn (w 2) / 4) (fun w => (irmD w, plrX w)) coins :=
    (coins_indep.indepFun_prodMk (fun i => measurable_pi_apply i) 1 0 2 (by decide) (by decide)).symm.comp (φ := fun b => sgn b / 4)
      (ψ := fun b : Bool × Bool => ((if b.1 then 1 else 0 : ℝ), sgn b.2)) (measurable_of_countable _) (measurable_of_countable _)
  have hx : ∀ w, |plrX w| ≤ 1 := fun w => (sgn_abs _).le
  refine ⟨measurable_coin _, measurable_coin _, measurable_coin _, measurable_id, measurable_const.add measurable_id, measurable_const,
    irmD_bin, ?_, ?_, by norm_num, fun x => by norm_num, ?_, memLp_of_bdd (measurable_coin _) hx, ?_⟩
  · rw [e1]
    refine meanZero_of_indep (measurable_coin _) (measurable_coin _) i2 ?_
    rw [integral_div, coin_mean, zero_div]
  · rw [e2]
    refine meanZero_of_indep (measurable_coin _) (measurable_coin _) i1 ?_
    rw [integral_div, coin_mean, zero_div]
  · rw [e1]
    refine memLp_of_bdd (measurable_coin _) (C := 1) fun w => ?_
    rw [abs_div, sgn_abs]
    norm_num
  · refine memLp_of_bdd (measurable_coin _) (C := 2) fun w => ?_
    have := abs_le.1 (hx w)
    rw [abs_le]
    constructor <;> linarith

/-- The model class: trimming at 0.01, no weights, with or without normalisation. -/
noncomputable def irmRound (nz atte : Bool) (n : ℕ) : IrmClass n ℕ :=
  { ml_g := exRound
    ml_m := exRound
    gClassifier := false
    atte := atte
    normalize := nz
    trimT := 1 / 100
    weights := ⟨⟨[n], List.replicate n 1⟩, none⟩ }

theorem irmRound_weights (nz atte : Bool) (n : ℕ) (i : Fin n) : (irmRound nz atte n).weights.weights.entries.getD i 0 = 1 := by
  show (List.replicate n (1 : ℝ)).getD i 0 = 1
  rw [List.getD_eq_getElem?_getD, List.getElem?_replicate, if_pos i.2]
  rfl

theorem irmRound_at (nz atte : Bool) (n q : ℕ) : (irmRound nz atte n).weights.at q = .ok (fun _ : Fin n => 1, fun _ => 1) := by
  have h : (fun i : Fin n => (irmRound nz atte n).weights.weights.entries.getD i 0) = fun _ => 1 := funext (irmRound_weights nz atte n)
  show Except.ok (_, _) = _
  rw [h]

/-- Stratified draws. -/
noncomputable def evenDraws (K : ℕ) {s : ℕ} (n : ℕ) (α : Fin n → Fin s) : Draws n :=
  ⟨fun _ => Equiv.refl _, fun _ => evenAssign K α, fun _ _ _ => Equiv.refl _⟩

/-- The data objects of the examples. -/
noncomputable abbrev irmData (n : ℕ) (ω : ℕ → Fin 3 → Bool) : DataState n :=
  exData (fun i (ω : ℕ → Fin 3 → Bool) => ω i) irmY irmD plrX none true n ω

/-- The objects of the examples. -/
noncomputable def irmObj (r : ℕ) (nz atte : Bool) (n : ℕ) (ω : ℕ → Fin 3 → Bool) : LinState n ℕ :=
  createdObj (irmSpec (irmRound nz atte n)) (irmData n ω) 2 r
    (evenDraws 2 n (strataOf irmSt (sample (fun i (ω : ℕ → Fin 3 → Bool) => ω i) n ω)))

theorem irmObj_spec {r : ℕ} (hr : 0 < r) (nz atte : Bool) (n : ℕ) (ω : ℕ → Fin 3 → Bool) :
    initModel (irmSpec (irmRound nz atte n)) (irmData n ω) 0 (.int (2 : ℕ)) (.int r) (.bool true)
      (evenDraws 2 n (strataOf irmSt (sample (fun i (ω : ℕ → Fin 3 → Bool) => ω i) n ω))) = .ok (irmObj r nz atte n ω) := by
  have h : (irmSpec (irmRound nz atte n)).stratified = true := rfl
  exact createdObj_spec (irmSpec (irmRound nz atte n)) rfl (irmData n ω) le_rfl hr (fun h' => by rw [h] at h'; cases h') _

theorem irm_holds : Holds (fun i (ω : ℕ → Fin 3 → Bool) => ω i) "d" irmY irmD plrX (fun v => [Cell.num v]) irmData :=
  exData_holds (fun i (ω : ℕ → Fin 3 → Bool) => ω i) (measurable_coin _) (measurable_coin _) (measurable_coin _) none true

/-- Interactive models on the coins: two folds drawn within treatment groups, `r` repetitions, plain `fit()`. -/
noncomputable def irmStudy (E : Ext) (F : ∀ n, (ℕ → Fin 3 → Bool) → Frame n) (nz atte : Bool) (r : ℕ := 3) (hr : 0 < r := by norm_num) :
    Study E tosses (fun i ω => ω i) r 2 (fun n => irmSpec (irmRound nz atte n)) "d" irmY irmD plrX fun v => [Cell.num v] :=
  Study.createdIn E tosses_iid le_rfl hr (fun _ => rfl) (fun _ => rfl) F irm_holds
    (st := fun _ _ => 0) (St := irmSt) (measurable_coin _) (w := evenDraws 2) (fun _ α _ => evenAssign_even two_pos α)
    (obj := irmObj r nz atte) (Eventually.of_forall fun n ω => irmObj_spec hr nz atte n ω)
    (args := {}) (fun n m => plainArgs _ _ m) rfl

theorem irm_strata : (∀ w, irmSt w = 0 ↔ irmD w = 0) ∧ ∀ w, irmSt w = 1 ↔ irmD w = 1 := by
  constructor <;> intro w <;> unfold irmSt irmD <;> cases w 1 <;> simp

theorem irm_both (E : Ext) (F : ∀ n, (ℕ → Fin 3 → Bool) → Frame n) (nz atte : Bool) (r : ℕ := 3) (hr : 0 < r := by norm_num) :
    Tendsto (fun n => tosses (Lacking (irmStudy E F nz atte r hr) (fun _ => True) irmD n)) atTop (𝓝 0) := by
  have hb := irm_law.both
  refine created_both (c₀ := 0) (c₁ := 1) (fun w h => ⟨trivial, (irm_strata.1 w).1 h⟩) (fun w h => ⟨trivial, (irm_strata.2 w).1 h⟩) ?_ ?_
  · rw [tosses_law]
    simpa only [irm_strata.1] using hb.1
  · rw [tosses_law]
    simpa only [irm_strata.2] using hb.2

/-- What the learner finds from a training set that contains an observation with treatment `v`. -/
theorem exRound_learns {n : ℕ} {t : Fin n → Fin 3 → Bool} {l : List (Fin n)} {v : ℝ} (hv : v = 0 ∨ v = 1) {on : (Fin 3 → Bool) → Prop}
    [DecidablePred on] (hon : ∀ w, on w ↔ irmD w = v) (h : ∃ i ∈ l, on (t i)) (p : Option ℕ) (x : ℝ) :
    fitted exRound .predict p l (fun v => [Cell.num v]) plrX irmY on t x = v + x := by
  have hne : l.filter (fun j => decide (on (t j))) ≠ [] := by
    obtain ⟨i, hi, hd⟩ := h
    exact List.ne_nil_of_mem (List.mem_filter.2 ⟨hi, decide_eq_true hd⟩)
  obtain ⟨a, s, e⟩ := List.exists_cons_of_ne_nil hne
  have ha : irmD (t a) = v := by
    have : a ∈ l.filter fun j => decide (on (t j)) := by rw [e]; exact List.mem_cons_self
    exact (hon _).1 (of_decide_eq_true (List.mem_filter.1 this).2)
  unfold fitted
  rw [e, List.map_cons]
  show (if 1 / 2 < irmY (t a) - plrX (t a) then (1 : ℝ) else 0) + x = v + x
  have e2 : irmY (t a) - plrX (t a) = v + sgn (t a 2) / 4 := by
    unfold irmY
    rw [ha]
    ring
  rw [e2]
  congr 1
  rcases hv with rfl | rfl <;> unfold sgn <;> cases t a 2 <;> norm_num

/-- Eventually the learners make no errors. -/
theorem irm_exact (E : Ext) (F : ∀ n, (ℕ → Fin 3 → Bool) → Frame n) (nz atte : Bool) (r : ℕ := 3) (hr : 0 < r := by norm_num) :
    (∀ᶠ n in atTop, ∀ ω, ω ∉ Lacking (irmStudy E F nz atte r hr) (fun _ => True) irmD n → ∀ q j,
      errNorm tosses (fun i ω => ω i) plrX (irmG0hat (irmStudy E F nz atte r hr) q) (fun x => x) 2 j n ω = 0) ∧
    (∀ᶠ n in atTop, ∀ ω, ω ∉ Lacking (irmStudy E F nz atte r hr) (fun _ => True) irmD n → ∀ q j,
      errNorm tosses (fun i ω => ω i) plrX (irmG1hat (irmStudy E F nz atte r hr) q) (fun x => 1 + x) 2 j n ω = 0) ∧
    ∀ᶠ n in atTop, ∀ ω, ω ∉ Lacking (irmStudy E F nz atte r hr) (fun _ => True) irmD n → ∀ q j,
      errNorm tosses (fun i ω => ω i) plrX (irmMhat (irmStudy E F nz atte r hr) q) (fun _ => 1 / 2) 2 j n ω = 0 := by
  classical
  have hgood := (irmStudy E F nz atte r hr).good_train (fun _ => True) irmD
  have g0 : ∀ᶠ n in atTop, ∀ ω, ω ∉ Lacking (irmStudy E F nz atte r hr) (fun _ => True) irmD n → ∀ q j,
      errNorm tosses (fun i ω => ω i) plrX (irmG0hat (irmStudy E F nz atte r hr) q) (fun x => x) 2 j n ω = 0 := by
    filter_upwards [hgood] with n hn ω hω q j
    obtain ⟨⟨i, hi, -, hd⟩, -⟩ := hn ω hω q j
    have : ∀ w, irmG0hat (irmStudy E F nz atte r hr) q n j (sample (fun i ω => ω i) n ω) (plrX w) - plrX w = 0 := fun w => by
      have := exRound_learns (t := sample (fun i (ω : ℕ → Fin 3 → Bool) => ω i) n ω) (v := 0) (Or.inl rfl) (on := fun w => irmD w = 0) (fun _ => Iff.rfl)
        ⟨i, hi, hd⟩ (parAt ((irmStudy E F nz atte r hr).par n "ml_g0") q j) (plrX w)
      rw [zero_add] at this
      exact sub_eq_zero.2 this
    unfold errNorm
    simp only [this]
    exact eLpNorm_zero'
  have g1 : ∀ᶠ n in atTop, ∀ ω, ω ∉ Lacking (irmStudy E F nz atte r hr) (fun _ => True) irmD n → ∀ q j,
      errNorm tosses (fun i ω => ω i) plrX (irmG1hat (irmStudy E F nz atte r hr) q) (fun x => 1 + x) 2 j n ω = 0 := by
    filter_upwards [hgood] with n hn ω hω q j
    obtain ⟨-, ⟨i, hi, -, hd⟩⟩ := hn ω hω q j
    have : ∀ w, irmG1hat (irmStudy E F nz atte r hr) q n j (sample (fun i ω => ω i) n ω) (plrX w) - (1 + plrX w) = 0 := fun w => by
      have := exRound_learns (t := sample (fun i (ω : ℕ → Fin 3 → Bool) => ω i) n ω) (v := 1) (Or.inr rfl) (on := fun w => irmD w = 1) (fun _ => Iff.rfl)
        ⟨i, hi, hd⟩ (parAt ((irmStudy E F nz atte r hr).par n "ml_g1") q j) (plrX w)
      exact sub_eq_zero.2 this
    unfold errNorm
    simp only [this]
    exact eLpNorm_zero'
  have gm : ∀ᶠ n in atTop, ∀ ω, ω ∉ Lacking (irmStudy E F nz atte r hr) (fun _ => True) irmD n → ∀ q j,
      errNorm tosses (fun i ω => ω i) plrX (irmMhat (irmStudy E F nz atte r hr) q) (fun _ => 1 / 2) 2 j n ω = 0 := by
    filter_upwards [hgood] with n hn ω hω q j
    obtain ⟨⟨i, hi, -, hd⟩, ⟨i', hi', -, hd'⟩⟩ := hn ω hω q j
    have : ∀ w, irmMhat (irmStudy E F nz atte r hr) q n j (sample (fun i ω => ω i) n ω) (plrX w) - 1 / 2 = 0 := fun w => by
      refine sub_eq_zero.2 ((exRound_proba _ _ _).trans (if_pos (two_classes.2 ?_)))
      refine ⟨(_, irmD (ω i)), List.mem_map.2 ⟨i, List.mem_filter.2 ⟨hi, by simp⟩, rfl⟩,
        (_, irmD (ω i')), List.mem_map.2 ⟨i', List.mem_filter.2 ⟨hi', by simp⟩, rfl⟩, ?_⟩
      show irmD (ω i) ≠ irmD (ω i')
      rw [hd, hd']
      exact zero_ne_one
    unfold errNorm
    simp only [this]
    exact eLpNorm_zero'
  exact ⟨g0, g1, gm⟩

theorem irm_rates (E : Ext) (F : ∀ n, (ℕ → Fin 3 → Bool) → Frame n) (nz atte : Bool) (r : ℕ := 3) (hr : 0 < r := by norm_num) :
    IrmRates (irmStudy E F nz atte r hr) (fun x => x) (fun x => 1 + x) (fun _ => 1 / 2) := by
  obtain ⟨g0, g1, gm⟩ := irm_exact E F nz atte r hr
  have hb := irm_both E F nz atte r hr
  refine ⟨⟨fun _ => exRound_meas, fun _ => exRound_measM, fun q j => ?_, fun q j => ?_, fun q j => ?_⟩, fun q j => ?_, fun q j => ?_⟩
  · exact oPE_of_bad hb (g0.mono fun n h ω hω => h ω hω q j)
  · exact oPE_of_bad hb (gm.mono fun n h ω hω => h ω hω q j)
  · exact oPE_of_bad hb (g0.mono fun n h ω hω => by rw [h ω hω q j, mul_zero, mul_zero])
  · exact oPE_of_bad hb (g1.mono fun n h ω hω => h ω hω q j)
  · exact oPE_of_bad hb (g1.mono fun n h ω hω => by rw [h ω hω q j, mul_zero, mul_zero])

theorem ate_sq : ∀ w, (1 + plrX w - plrX w + irmD w * (irmY w - (1 + plrX w)) / (1 / 2) -
    (1 - irmD w) * (irmY w - plrX w) / (1 - 1 / 2) - 1) ^ 2 = 1 / 4 := fun w => by
  have : 1 + plrX w - plrX w + irmD w * (irmY w - (1 + plrX w)) / (1 / 2) - (1 - irmD w) * (irmY w - plrX w) / (1 - 1 / 2) - 1 =
      sgn (w 1) * sgn (w 2) / 2 := by
    unfold irmY irmD sgn
    cases w 1 <;> cases w 2 <;> norm_num
  rw [this, div_pow, mul_pow, sgn_sq, sgn_sq]
  norm_num

/-- The hypotheses of `C79_irm_ate` are met: effect one, asymptotic standard deviation one half. -/
theorem irm_valid (E : Ext) (F : ∀ n, (ℕ → Fin 3 → Bool) → Frame n) : AsympValid E tosses (fun i ω => ω i) 3 (irmStudy E F false false).fitted 1 (1 / 2) := by
  have h := C79_irm_ate (H := irmStudy E F false false) (τ := 1 / 100) (fun _ => rfl) (fun _ => rfl) (fun _ => rfl) (fun _ => rfl) (fun _ => rfl)
    (irmRound_at false false) (fun _ => exRound_compliant) (Eventually.of_forall fun _ _ => rfl) (irm_both E F false false)
    (g₀ := fun x => x) (g₁ := fun x => 1 + x) (m := fun _ => 1 / 2) (by rw [tosses_law]; exact irm_law) (θ := 1)
    (by rw [tosses_law]; simp) (by rw [tosses_law]; simp only [ate_sq]; simp) (irm_rates E F false false)
  rw [tosses_law] at h
  simp only [ate_sq] at h
  have e3 : Real.sqrt (∫ _w, (1 / 4 : ℝ) ∂coins) = 1 / 2 := by
    rw [integral_const, probReal_univ, one_smul, show (1 / 4 : ℝ) = (1 / 2) ^ 2 by norm_num]
    exact Real.sqrt_sq (by norm_num)
  rw [e3] at h
  exact h

theorem atte_sq : ∀ w, (irmD w * (irmY w - plrX w - 1) - 1 / 2 * (1 - irmD w) * (irmY w - plrX w) / (1 - 1 / 2)) ^ 2 = 1 / 16 := fun w => by
  have : irmD w * (irmY w - plrX w - 1) - 1 / 2 * (1 - irmD w) * (irmY w - plrX w) / (1 - 1 / 2) = sgn (w 1) * sgn (w 2) / 4 := by
    unfold irmY irmD sgn
    cases w 1 <;> cases w 2 <;> norm_num <;> ring
  rw [this, div_pow, mul_pow, sgn_sq, sgn_sq]
  norm_num

theorem irmD_mean : ∫ w, irmD w ∂coins = 1 / 2 := by
  have : ∀ w, irmD w = 1 / 2 + sgn (w 1) / 2 := fun w => by unfold irmD sgn; cases w 1 <;> norm_num
  simp only [this]
  rw [integral_add (integrable_const _) Integrable.of_finite, integral_const, integral_div (2 : ℝ) fun w : Fin 3 → Bool => sgn (w 1),
    coin_mean]
  simp

theorem irmDY_mean : ∫ w, irmD w * (irmY w - plrX w) ∂coins = 1 / 2 := by
  have : ∀ w, irmD w * (irmY w - plrX w) = irmD w + irmD w * sgn (w 2) / 4 := fun w => by
    have : irmD w * irmD w = irmD w := by rcases irmD_bin w with e | e <;> rw [e] <;> norm_num
    unfold irmY
    linear_combination this
  simp only [this]
  rw [integral_add Integrable.of_finite Integrable.of_finite, irmD_mean, integral_div]
  have i : IndepFun (fun w : Fin 3 → Bool => irmD w) (fun w => sgn (w 2)) coins :=
    (coins_indep.indepFun (i := 1) (j := 2) (by decide)).comp (φ := fun b : Bool => if b then (1 : ℝ) else 0) (ψ := sgn)
      (measurable_of_countable _) (measurable_of_countable _)
  rw [i.integral_fun_mul_eq_mul_integral (measurable_coin _).aestronglyMeasurable (measurable_coin _).aestronglyMeasurable, coin_mean]
  simp

theorem irmY_bdd : ∀ w, |irmY w| ≤ 3 := fun w => by
  unfold irmY irmD plrX sgn
  cases w 0 <;> cases w 1 <;> cases w 2 <;> norm_num [abs_le]

/-- The hypotheses of `C79_irm_atte` are met. -/
example (E : Ext) (F : ∀ n, (ℕ → Fin 3 → Bool) → Frame n) : AsympValid E tosses (fun i ω => ω i) 3 (irmStudy E F false true).fitted 1 (1 / 2) := by
  have h := C79_irm_atte (H := irmStudy E F false true) (τ := 1 / 100) (fun _ => rfl) (fun _ => rfl) (fun _ => rfl) (fun _ => rfl) (fun _ => rfl)
    (irmRound_at false true) (irmRound_weights false true) (fun _ => exRound_compliant) (Eventually.of_forall fun _ _ => rfl) (irm_both E F false true)
    (g₀ := fun x => x) (m := fun _ => 1 / 2) (by rw [tosses_law]; exact irm_law.untreated (by norm_num)) (fun _ => by norm_num)
    irmD_bin (by rw [tosses_law]; exact memLp_of_bdd (measurable_coin _) irmY_bdd) (θ := 1) (by rw [tosses_law, irmD_mean]; norm_num)
    (by rw [tosses_law, irmD_mean, irmDY_mean]; norm_num) (by rw [tosses_law]; simp only [atte_sq]; simp) (irm_rates E F false true).untreated
  rw [tosses_law, irmD_mean] at h
  simp only [atte_sq] at h
  have e3 : Real.sqrt (∫ _w, (1 / 16 : ℝ) ∂coins) / (1 / 2) = 1 / 2 := by
    rw [integral_const, probReal_univ, one_smul, show (1 / 16 : ℝ) = (1 / 4) ^ 2 by norm_num, Real.sqrt_sq (by norm_num)]
    norm_num
  rw [e3] at h
  exact h

/-! ## Average potential outcomes -/

/-- The model class for level one. -/
noncomputable def apoRound (nz : Bool) (n : ℕ) : ApoClass n ℕ :=
  { ml_g := exRound
    ml_m := exRound
    gClassifier := false
    level := 1
    normalize := nz
    trimT := 1 / 100
    weights := ⟨⟨[n], List.replicate n 1⟩, none⟩ }

theorem apoRound_at (nz : Bool) (n q : ℕ) : (apoRound nz n).weights.at q = .ok (fun _ : Fin n => 1, fun _ => 1) := irmRound_at false false n q

/-- The objects of the example. -/
noncomputable def apoObj (r : ℕ) (nz : Bool) (n : ℕ) (ω : ℕ → Fin 3 → Bool) : LinState n ℕ :=
  createdObj (apoSpec (apoRound nz n)) (irmData n ω) 2 r
    (evenDraws 2 n (strataOf irmSt (sample (fun i (ω : ℕ → Fin 3 → Bool) => ω i) n ω)))

theorem apoObj_spec {r : ℕ} (hr : 0 < r) (nz : Bool) (n : ℕ) (ω : ℕ → Fin 3 → Bool) :
    initModel (apoSpec (apoRound nz n)) (irmData n ω) 0 (.int (2 : ℕ)) (.int r) (.bool true)
      (evenDraws 2 n (strataOf irmSt (sample (fun i (ω : ℕ → Fin 3 → Bool) => ω i) n ω))) = .ok (apoObj r nz n ω) := by
  have h : (apoSpec (apoRound nz n)).stratified = true := rfl
  exact createdObj_spec (apoSpec (apoRound nz n)) rfl (irmData n ω) le_rfl hr (fun h' => by rw [h] at h'; cases h') _

/-- Average potential outcome of the treated on the coins. -/
noncomputable def apoStudy (E : Ext) (F : ∀ n, (ℕ → Fin 3 → Bool) → Frame n) (nz : Bool) (r : ℕ := 3) (hr : 0 < r := by norm_num) :
    Study E tosses (fun i ω => ω i) r 2 (fun n => apoSpec (apoRound nz n)) "d" irmY irmD plrX fun v => [Cell.num v] :=
  Study.createdIn E tosses_iid le_rfl hr (fun _ => rfl) (fun _ => rfl) F irm_holds
    (st := fun _ _ => 0) (St := irmSt) (measurable_coin _) (w := evenDraws 2) (fun _ α _ => evenAssign_even two_pos α)
    (obj := apoObj r nz) (Eventually.of_forall fun n ω => apoObj_spec hr nz n ω)
    (args := {}) (fun n m => plainArgs _ _ m) rfl

theorem atLevel_one : atLevel irmD 1 = irmD := by
  funext w
  unfold atLevel
  rcases irmD_bin w with e | e <;> rw [e] <;> simp

theorem apo_both (E : Ext) (F : ∀ n, (ℕ → Fin 3 → Bool) → Frame n) (nz : Bool) (r : ℕ := 3) (hr : 0 < r := by norm_num) :
    Tendsto (fun n => tosses (Lacking (apoStudy E F nz r hr) (fun _ => True) irmD n)) atTop (𝓝 0) := by
  have hb := irm_law.both
  refine created_both (c₀ := 0) (c₁ := 1) (fun w h => ⟨trivial, (irm_strata.1 w).1 h⟩) (fun w h => ⟨trivial, (irm_strata.2 w).1 h⟩) ?_ ?_
  · rw [tosses_law]
    simpa only [irm_strata.1] using hb.1
  · rw [tosses_law]
    simpa only [irm_strata.2] using hb.2

/-- Eventually the learners make no errors. -/
theorem apo_exact (E : Ext) (F : ∀ n, (ℕ → Fin 3 → Bool) → Frame n) (nz : Bool) (r : ℕ := 3) (hr : 0 < r := by norm_num) :
    (∀ᶠ n in atTop, ∀ ω, ω ∉ Lacking (apoStudy E F nz r hr) (fun _ => True) irmD n → ∀ q j,
      errNorm tosses (fun i ω => ω i) plrX (apoGhat (apoStudy E F nz r hr) 1 q) (fun x => 1 + x) 2 j n ω = 0) ∧
    ∀ᶠ n in atTop, ∀ ω, ω ∉ Lacking (apoStudy E F nz r hr) (fun _ => True) irmD n → ∀ q j,
      errNorm tosses (fun i ω => ω i) plrX (apoMhat (apoStudy E F nz r hr) 1 q) (fun _ => 1 / 2) 2 j n ω = 0 := by
  classical
  have hgood := (apoStudy E F nz r hr).good_train (fun _ => True) irmD
  have g1 : ∀ᶠ n in atTop, ∀ ω, ω ∉ Lacking (apoStudy E F nz r hr) (fun _ => True) irmD n → ∀ q j,
      errNorm tosses (fun i ω => ω i) plrX (apoGhat (apoStudy E F nz r hr) 1 q) (fun x => 1 + x) 2 j n ω = 0 := by
    filter_upwards [hgood] with n hn ω hω q j
    obtain ⟨-, ⟨i, hi, -, hd⟩⟩ := hn ω hω q j
    have : ∀ w, apoGhat (apoStudy E F nz r hr) 1 q n j (sample (fun i ω => ω i) n ω) (plrX w) - (1 + plrX w) = 0 := fun w => by
      have := exRound_learns (t := sample (fun i (ω : ℕ → Fin 3 → Bool) => ω i) n ω) (v := 1) (Or.inr rfl) (on := fun w => irmD w = 1)
        (fun _ => Iff.rfl) ⟨i, hi, hd⟩ (parAt ((apoStudy E F nz r hr).par n "ml_g_d_lvl1") q j) (plrX w)
      exact sub_eq_zero.2 this
    unfold errNorm
    simp only [this]
    exact eLpNorm_zero'
  have gm : ∀ᶠ n in atTop, ∀ ω, ω ∉ Lacking (apoStudy E F nz r hr) (fun _ => True) irmD n → ∀ q j,
      errNorm tosses (fun i ω => ω i) plrX (apoMhat (apoStudy E F nz r hr) 1 q) (fun _ => 1 / 2) 2 j n ω = 0 := by
    filter_upwards [hgood] with n hn ω hω q j
    obtain ⟨⟨i, hi, -, hd⟩, ⟨i', hi', -, hd'⟩⟩ := hn ω hω q j
    have : ∀ w, apoMhat (apoStudy E F nz r hr) 1 q n j (sample (fun i ω => ω i) n ω) (plrX w) - 1 / 2 = 0 := fun w => by
      refine sub_eq_zero.2 ((exRound_proba _ _ _).trans (if_pos (two_classes.2 ?_)))
      refine ⟨(_, atLevel irmD 1 (ω i)), List.mem_map.2 ⟨i, List.mem_filter.2 ⟨hi, by simp⟩, rfl⟩,
        (_, atLevel irmD 1 (ω i')), List.mem_map.2 ⟨i', List.mem_filter.2 ⟨hi', by simp⟩, rfl⟩, ?_⟩
      show atLevel irmD 1 (ω i) ≠ atLevel irmD 1 (ω i')
      rw [atLevel_one, hd, hd']
      exact zero_ne_one
    unfold errNorm
    simp only [this]
    exact eLpNorm_zero'
  exact ⟨g1, gm⟩

theorem apo_rates (E : Ext) (F : ∀ n, (ℕ → Fin 3 → Bool) → Frame n) (nz : Bool) (r : ℕ := 3) (hr : 0 < r := by norm_num) :
    ApoRates (apoStudy E F nz r hr) 1 (fun x => 1 + x) (fun _ => 1 / 2) := by
  obtain ⟨g1, gm⟩ := apo_exact E F nz r hr
  have hb := apo_both E F nz r hr
  refine ⟨fun _ => exRound_meas, fun _ => exRound_measM, fun q j => ?_, fun q j => ?_, fun q j => ?_⟩
  · exact oPE_of_bad hb (g1.mono fun n h ω hω => h ω hω q j)
  · exact oPE_of_bad hb (gm.mono fun n h ω hω => h ω hω q j)
  · exact oPE_of_bad hb (g1.mono fun n h ω hω => by rw [h ω hω q j, mul_zero, mul_zero])

theorem one_plus_mean : ∫ w, 1 + plrX w ∂coins = 1 := by
  unfold plrX
  rw [integral_add (integrable_const _) Integrable.of_finite, coin_mean]
  simp

theorem apo_var : ∫ w, (1 + plrX w + irmD w * (irmY w - (1 + plrX w)) / (1 / 2) - 1) ^ 2 ∂coins ≠ 0 := by
  have h1 : ∀ w, (1 / 4 : ℝ) ≤ (1 + plrX w + irmD w * (irmY w - (1 + plrX w)) / (1 / 2) - 1) ^ 2 := fun w => by
    unfold irmY irmD plrX sgn
    cases w 0 <;> cases w 1 <;> cases w 2 <;> norm_num
  have := integral_mono (μ := coins) (integrable_const _) Integrable.of_finite h1
  rw [integral_const, probReal_univ, one_smul] at this
  intro h
  rw [h] at this
  norm_num at this

/-- The hypotheses of `C79_apo` are met. -/
example (E : Ext) (F : ∀ n, (ℕ → Fin 3 → Bool) → Frame n) :
    AsympValid E tosses (fun i ω => ω i) 3 (apoStudy E F false).fitted 1
      (Real.sqrt (∫ w, (1 + plrX w + irmD w * (irmY w - (1 + plrX w)) / (1 / 2) - 1) ^ 2 ∂coins)) := by
  have h := C79_apo (H := apoStudy E F false) (τ := 1 / 100) (v := 1) (fun _ => rfl) (fun _ => rfl) (fun _ => rfl) (fun _ => rfl) (fun _ => rfl)
    (apoRound_at false) (fun _ => exRound_compliant) (Eventually.of_forall fun _ _ => rfl) (by rw [atLevel_one]; exact apo_both E F false)
    (g := fun x => 1 + x) (m := fun _ => 1 / 2) (by rw [tosses_law, atLevel_one]; exact irm_law.treated (by norm_num)) (fun _ => by norm_num)
    (θ := 1) (by rw [tosses_law, one_plus_mean]) (by rw [tosses_law, atLevel_one]; exact apo_var) (apo_rates E F false)
  rw [tosses_law, atLevel_one] at h
  exact h

/-! ## Interactive IV model -/

/-- A learner for outcomes of the form covariate plus zero or one plus small noise, which may be mixed. -/
noncomputable def exSide : Learner ℕ (List Cell) where
  predict := fun _ D x =>
    (if ∃ q ∈ D, 1 / 2 < q.2 - (q.1.headD (.num 0)).val then
      (if ∃ q ∈ D, q.2 - (q.1.headD (.num 0)).val ≤ 1 / 2 then 1 / 2 else 1) else 0) + (x.headD (.num 0)).val
  proba := fun _ D _ => List.replicate (classesOf D).length (1 / 2)

theorem exSide_meas : MeasLearner exSide .predict fun v : ℝ => [Cell.num v] := by
  intro p k
  have e : (fun z : (Fin k → ℝ × ℝ) × ℝ => (exSide.answer .predict p (List.ofFn fun j => ([Cell.num (z.1 j).1], (z.1 j).2))
      [Cell.num z.2]).getD 0) = fun z => (if ∃ j, 1 / 2 < (z.1 j).2 - (z.1 j).1 then
        (if ∃ j, (z.1 j).2 - (z.1 j).1 ≤ 1 / 2 then 1 / 2 else 1) else 0) + z.2 := by
    funext z
    have h : ∀ φ : List Cell × ℝ → Prop, (∃ q ∈ List.ofFn fun j => ([Cell.num (z.1 j).1], (z.1 j).2), φ q) ↔
        ∃ j, φ ([Cell.num (z.1 j).1], (z.1 j).2) := fun φ => by
      simp only [List.mem_ofFn]
      constructor
      · rintro ⟨_, ⟨j, rfl⟩, h⟩
        exact ⟨j, h⟩
      · rintro ⟨j, h⟩
        exact ⟨_, ⟨j, rfl⟩, h⟩
    show (if ∃ q ∈ List.ofFn fun j => ([Cell.num (z.1 j).1], (z.1 j).2), 1 / 2 < q.2 - (q.1.headD (.num 0)).val then
      (if ∃ q ∈ List.ofFn fun j => ([Cell.num (z.1 j).1], (z.1 j).2), q.2 - (q.1.headD (.num 0)).val ≤ 1 / 2 then (1 / 2 : ℝ) else 1)
        else 0) + z.2 = _
    congr 1
    refine if_congr (h fun q => 1 / 2 < q.2 - (q.1.headD (.num 0)).val) (if_congr (h fun q => q.2 - (q.1.headD (.num 0)).val ≤ 1 / 2)
      rfl rfl) rfl
  rw [e]
  have h0 : ∀ j, Measurable fun z : (Fin k → ℝ × ℝ) × ℝ => (z.1 j).2 - (z.1 j).1 := fun j =>
    (measurable_snd.comp ((measurable_pi_apply j).comp measurable_fst)).sub
      (measurable_fst.comp ((measurable_pi_apply j).comp measurable_fst))
  refine Measurable.add (Measurable.ite ?_ (Measurable.ite ?_ measurable_const measurable_const) measurable_const) measurable_snd
  · have : {z : (Fin k → ℝ × ℝ) × ℝ | ∃ j, 1 / 2 < (z.1 j).2 - (z.1 j).1} = ⋃ j, {z | 1 / 2 < (z.1 j).2 - (z.1 j).1} := by
      ext z
      simp
    rw [this]
    exact MeasurableSet.iUnion fun j => measurableSet_lt measurable_const (h0 j)
  · have : {z : (Fin k → ℝ × ℝ) × ℝ | ∃ j, (z.1 j).2 - (z.1 j).1 ≤ 1 / 2} = ⋃ j, {z | (z.1 j).2 - (z.1 j).1 ≤ 1 / 2} := by
      ext z
      simp
    rw [this]
    exact MeasurableSet.iUnion fun j => measurableSet_le (h0 j) measurable_const

/-- The instrument is a coin; half of those assigned take the treatment, the others never do; the outcome also depends on who
would take it. -/
noncomputable def lateD (w : Fin 3 → Bool) : ℝ := if w 1 then (if w 2 then 1 else 0) else 0

noncomputable def lateY (w : Fin 3 → Bool) : ℝ := lateD w + plrX w + sgn (w 2) / 4

/-- The strata: combinations of treatment and instrument. -/
def lateSt (w : Fin 3 → Bool) : Fin 3 := if w 1 then (if w 2 then 2 else 1) else 0

theorem late_treat : MeanZeroGiven coins plrX fun w => irmD w - 1 / 2 := irm_law.treat

theorem late_noise (φ : ℝ × ℝ → ℝ) (hφ : Measurable φ) :
    MeanZeroGiven coins (fun w => (irmD w, plrX w)) fun w => φ (irmD w, plrX w) * sgn (w 2) := by
  have i2 : IndepFun (fun w : Fin 3 → Bool => sgn (w 2)) (fun w => (irmD w, plrX w)) coins :=
    (coins_indep.indepFun_prodMk (fun i => measurable_pi_apply i) 1 0 2 (by decide) (by decide)).symm.comp (φ := sgn)
      (ψ := fun b : Bool × Bool => ((if b.1 then 1 else 0 : ℝ), sgn b.2)) (measurable_of_countable _) (measurable_of_countable _)
  have h := meanZero_of_indep (μ := coins) (ξ := fun w : Fin 3 → Bool => (irmD w, plrX w)) (measurable_coin _) (measurable_coin _) i2
    (coin_mean 2)
  exact h.mul_left Integrable.of_finite hφ Integrable.of_finite

theorem lateD_eq (w : Fin 3 → Bool) : lateD w = irmD w * (1 / 2 + sgn (w 2) / 2) := by
  unfold lateD irmD sgn
  cases w 1 <;> cases w 2 <;> norm_num

theorem late_lawY : IrmLaw coins lateY irmD plrX (fun x => x) (fun x => 1 / 2 + x) (fun _ => 1 / 2) (1 / 100) 4 := by
  have e1 : (fun w => lateY w - (irmD w * (1 / 2 + plrX w) + (1 - irmD w) * plrX w)) = fun w => (irmD w / 2 + 1 / 4) * sgn (w 2) := by
    funext w
    unfold lateY
    rw [lateD_eq]
    ring
  refine ⟨measurable_coin _, measurable_coin _, measurable_coin _, measurable_id, measurable_const.add measurable_id, measurable_const,
    irmD_bin, ?_, late_treat, by norm_num, fun x => by norm_num, memLp_of_bdd (measurable_coin _) (C := 10) fun w => ?_,
    memLp_of_bdd (measurable_coin _) (C := 10) fun w => ?_, memLp_of_bdd (measurable_coin _) (C := 10) fun w => ?_⟩
  · rw [e1]
    exact late_noise (fun q => q.1 / 2 + 1 / 4) (by fun_prop)
  all_goals
    unfold plrX
    first | unfold lateY lateD irmD plrX sgn | unfold sgn
    cases w 0 <;> cases w 1 <;> cases w 2 <;> norm_num [abs_le]

theorem late_lawD : IrmLaw coins lateD irmD plrX (fun _ => 0) (fun _ => 1 / 2) (fun _ => 1 / 2) (1 / 100) 4 := by
  have e1 : (fun w => lateD w - (irmD w * (1 / 2) + (1 - irmD w) * 0)) = fun w => irmD w / 2 * sgn (w 2) := by
    funext w
    rw [lateD_eq]
    ring
  refine ⟨measurable_coin _, measurable_coin _, measurable_coin _, measurable_const, measurable_const, measurable_const,
    irmD_bin, ?_, late_treat, by norm_num, fun x => by norm_num, memLp_of_bdd (measurable_coin _) (C := 10) fun w => ?_,
    memLp_const _, memLp_const _⟩
  · rw [e1]
    exact late_noise (fun q => q.1 / 2) (by fun_prop)
  · unfold lateD irmD
    cases w 1 <;> cases w 2 <;> norm_num [abs_le]

/-- The model class: there are never-takers, and no always-takers. -/
noncomputable def lateClass (n : ℕ) : IivmClass n ℕ :=
  { ml_g := exSide
    ml_m := exRound
    ml_r := exRound
    gClassifier := false
    alwaysTakers := false
    neverTakers := true
    normalize := false
    trimT := 1 / 100 }

/-- The data objects of the example. -/
noncomputable abbrev lateData (n : ℕ) (ω : ℕ → Fin 3 → Bool) : DataState n :=
  exData (fun i (ω : ℕ → Fin 3 → Bool) => ω i) lateY lateD plrX (some irmD) true n ω

theorem late_holds : Holds (fun i (ω : ℕ → Fin 3 → Bool) => ω i) "d" lateY lateD plrX (fun v => [Cell.num v]) lateData :=
  exData_holds (fun i (ω : ℕ → Fin 3 → Bool) => ω i) (measurable_coin _) (measurable_coin _) (measurable_coin _) (some irmD) true

/-- The objects of the example. -/
noncomputable def lateObj (n : ℕ) (ω : ℕ → Fin 3 → Bool) : LinState n ℕ :=
  createdObj (iivmSpec (lateClass n)) (lateData n ω) 2 3
    (evenDraws 2 n (strataOf lateSt (sample (fun i (ω : ℕ → Fin 3 → Bool) => ω i) n ω)))

theorem lateObj_spec (n : ℕ) (ω : ℕ → Fin 3 → Bool) :
    initModel (iivmSpec (lateClass n)) (lateData n ω) 0 (.int (2 : ℕ)) (.int (3 : ℕ)) (.bool true)
      (evenDraws 2 n (strataOf lateSt (sample (fun i (ω : ℕ → Fin 3 → Bool) => ω i) n ω))) = .ok (lateObj n ω) := by
  have h : (iivmSpec (lateClass n)).stratified = true := rfl
  exact createdObj_spec (iivmSpec (lateClass n)) rfl (lateData n ω) le_rfl (by norm_num) (fun h' => by rw [h] at h'; cases h') _

/-- Local average treatment effect on the coins. -/
noncomputable def lateStudy (E : Ext) (F : ∀ n, (ℕ → Fin 3 → Bool) → Frame n) :
    Study E tosses (fun i ω => ω i) 3 2 (fun n => iivmSpec (lateClass n)) "d" lateY lateD plrX fun v => [Cell.num v] :=
  Study.createdIn E tosses_iid le_rfl (by norm_num) (fun _ => rfl) (fun _ => rfl) F late_holds
    (st := fun _ _ => 0) (St := lateSt) (measurable_coin _) (w := evenDraws 2) (fun _ α _ => evenAssign_even two_pos α)
    (obj := lateObj) (Eventually.of_forall fun n ω => lateObj_spec n ω)
    (args := {}) (fun n m => plainArgs _ _ m) rfl

theorem late_strata (w : Fin 3 → Bool) : (lateSt w = 0 → irmD w = 0 ∧ lateD w = 0) ∧ (lateSt w = 1 → irmD w = 1 ∧ lateD w = 0) ∧
    (lateSt w = 2 → irmD w = 1 ∧ lateD w = 1) := by
  unfold lateSt irmD lateD
  cases w 1 <;> cases w 2 <;> simp

/-- Every stratum has positive probability. -/
theorem late_pos (a b c : Bool) {A : Set (Fin 3 → Bool)} (h : ∀ w : Fin 3 → Bool, w 1 = b → w 2 = c → w 0 = a → w ∈ A) : coins A ≠ 0 := by
  have h1 : coins {w | w 0 = a ∧ w 1 = b ∧ w 2 = c} ≠ 0 := by
    have : {w : Fin 3 → Bool | w 0 = a ∧ w 1 = b ∧ w 2 = c} = Set.univ.pi fun i => {![a, b, c] i} := by
      ext w
      simp [Set.mem_pi, Fin.forall_fin_succ]
    rw [this]
    unfold coins
    rw [Measure.pi_pi]
    refine Finset.prod_ne_zero_iff.2 fun i _ => ?_
    rw [uniformOn_univ]
    simp
  exact fun h0 => h1 (measure_mono_null (fun w hw => h w hw.2.1 hw.2.2 hw.1) h0)

theorem late_lacking (E : Ext) (F : ∀ n, (ℕ → Fin 3 → Bool) → Frame n) {on : (Fin 3 → Bool) → Prop} {v : (Fin 3 → Bool) → ℝ}
    {c₀ c₁ : Fin 3} (h₀ : ∀ w, lateSt w = c₀ → on w ∧ v w = 0) (h₁ : ∀ w, lateSt w = c₁ → on w ∧ v w = 1) :
    Tendsto (fun n => tosses (Lacking (lateStudy E F) on v n)) atTop (𝓝 0) := by
  have hp : ∀ c : Fin 3, coins {w | lateSt w = c} ≠ 0 := fun c => by
    match c with
    | 0 => exact late_pos true false true fun w h1 h2 _ => by show lateSt w = 0; unfold lateSt; rw [h1]; rfl
    | 1 => exact late_pos true true false fun w h1 h2 _ => by show lateSt w = 1; unfold lateSt; rw [h1, h2]; rfl
    | 2 => exact late_pos true true true fun w h1 h2 _ => by show lateSt w = 2; unfold lateSt; rw [h1, h2]; rfl
  refine created_both h₀ h₁ ?_ ?_
  · rw [tosses_law]
    exact hp c₀
  · rw [tosses_law]
    exact hp c₁

theorem late_both (E : Ext) (F : ∀ n, (ℕ → Fin 3 → Bool) → Frame n) :
    Tendsto (fun n => tosses (IivmLacking (lateStudy E F) irmD false true n)) atTop (𝓝 0) := by
  have h1 := late_lacking E F (on := fun _ => True) (v := irmD) (c₀ := 0) (c₁ := 2) (fun w h => ⟨trivial, ((late_strata w).1 h).1⟩)
    fun w h => ⟨trivial, ((late_strata w).2.2 h).1⟩
  have h2 := late_lacking E F (on := fun _ => True) (v := lateD) (c₀ := 0) (c₁ := 2) (fun w h => ⟨trivial, ((late_strata w).1 h).2⟩)
    fun w h => ⟨trivial, ((late_strata w).2.2 h).2⟩
  have h3 := late_lacking E F (on := fun w => irmD w = 1) (v := lateD) (c₀ := 1) (c₁ := 2) (fun w h => (late_strata w).2.1 h)
    fun w h => (late_strata w).2.2 h
  have hs := (h1.add h2).add h3
  simp only [add_zero] at hs
  refine tendsto_zero_of_le (Eventually.of_forall fun n => ?_) hs
  unfold IivmLacking
  refine (measure_union_le _ _).trans (add_le_add (measure_union_le _ _) ?_)
  simp

/-- What the learner finds when nobody is treated. -/
theorem exSide_zero {n : ℕ} {t : Fin n → Fin 3 → Bool} {l : List (Fin n)} {on : (Fin 3 → Bool) → Prop}
    [DecidablePred on] (hon : ∀ w, on w → lateD w = 0) (p : Option ℕ) (x : ℝ) :
    fitted exSide .predict p l (fun v => [Cell.num v]) plrX lateY on t x = x := by
  unfold fitted
  refine (congrArg (· + x) (if_neg ?_)).trans (zero_add x)
  rintro ⟨q, hq, h⟩
  obtain ⟨a, ha, rfl⟩ := List.mem_map.1 hq
  have hd := hon _ (of_decide_eq_true (List.mem_filter.1 ha).2)
  have h : 1 / 2 < lateY (t a) - plrX (t a) := h
  unfold lateY at h
  rw [hd] at h
  unfold sgn at h
  cases h2 : t a 2 <;> rw [h2] at h <;> norm_num at h

/-- What the learner finds when both kinds occur. -/
theorem exSide_half {n : ℕ} {t : Fin n → Fin 3 → Bool} {l : List (Fin n)} {on : (Fin 3 → Bool) → Prop}
    [DecidablePred on] (h0 : ∃ i ∈ l, on (t i) ∧ lateD (t i) = 0) (h1 : ∃ i ∈ l, on (t i) ∧ lateD (t i) = 1) (p : Option ℕ) (x : ℝ) :
    fitted exSide .predict p l (fun v => [Cell.num v]) plrX lateY on t x = 1 / 2 + x := by
  unfold fitted
  obtain ⟨i, hi, oi, di⟩ := h0
  obtain ⟨i', hi', oi', di'⟩ := h1
  refine congrArg (· + x) ((if_pos ⟨_, List.mem_map.2 ⟨i', List.mem_filter.2 ⟨hi', decide_eq_true oi'⟩, rfl⟩, ?_⟩).trans
    (if_pos ⟨_, List.mem_map.2 ⟨i, List.mem_filter.2 ⟨hi, decide_eq_true oi⟩, rfl⟩, ?_⟩))
  · show 1 / 2 < lateY (t i') - plrX (t i')
    unfold lateY sgn
    rw [di']
    cases t i' 2 <;> norm_num <;> linarith
  · show lateY (t i) - plrX (t i) ≤ 1 / 2
    unfold lateY sgn
    rw [di]
    cases t i 2 <;> norm_num

/-- What the classifier finds when both classes occur. -/
theorem exRound_half {n : ℕ} {t : Fin n → Fin 3 → Bool} {l : List (Fin n)} {on : (Fin 3 → Bool) → Prop} {v : (Fin 3 → Bool) → ℝ}
    [DecidablePred on] (h0 : ∃ i ∈ l, on (t i) ∧ v (t i) = 0) (h1 : ∃ i ∈ l, on (t i) ∧ v (t i) = 1) (p : Option ℕ) (x : ℝ) :
    fitted exRound .proba p l (fun v => [Cell.num v]) plrX v on t x = 1 / 2 := by
  unfold fitted
  obtain ⟨i, hi, oi, di⟩ := h0
  obtain ⟨i', hi', oi', di'⟩ := h1
  refine (exRound_proba _ _ _).trans (if_pos (two_classes.2 ⟨_, List.mem_map.2 ⟨i, List.mem_filter.2 ⟨hi, decide_eq_true oi⟩, rfl⟩,
    _, List.mem_map.2 ⟨i', List.mem_filter.2 ⟨hi', decide_eq_true oi'⟩, rfl⟩, ?_⟩))
  show v (t i) ≠ v (t i')
  rw [di, di']
  exact zero_ne_one

theorem errNorm_zero {Ω S 𝒳 : Type*} [MeasurableSpace Ω] [MeasurableSpace S] {P : Measure Ω} {W : ℕ → Ω → S} {ξ : S → 𝒳} {K : ℕ}
    {e : ∀ n, Fin K → (Fin n → S) → 𝒳 → ℝ} {e0 : 𝒳 → ℝ} {p : ℝ≥0∞} {j : Fin K} {n : ℕ} {ω : Ω}
    (h : ∀ w, e n j (sample W n ω) (ξ w) = e0 (ξ w)) : errNorm P W ξ e e0 p j n ω = 0 := by
  unfold errNorm
  have : ∀ w, e n j (sample W n ω) (ξ w) - e0 (ξ w) = 0 := fun w => sub_eq_zero.2 (h w)
  simp only [this]
  exact eLpNorm_zero'

theorem late_rates (E : Ext) (F : ∀ n, (ℕ → Fin 3 → Bool) → Frame n) :
    IivmRates (lateStudy E F) irmD false true (fun x => x) (fun x => 1 / 2 + x) (fun _ => 1 / 2) (fun _ => 0) fun _ => 1 / 2 := by
  classical
  have hb := late_both E F
  have n1 : ∀ n, Lacking (lateStudy E F) (fun _ => True) irmD n ⊆ IivmLacking (lateStudy E F) irmD false true n := fun n ω h =>
    Or.inl (Or.inl h)
  have n3 : ∀ n, Lacking (lateStudy E F) (fun w => irmD w = 1) lateD n ⊆ IivmLacking (lateStudy E F) irmD false true n := fun n ω h =>
    Or.inr (Or.inr (by simpa using h))
  have gm : ∀ᶠ n in atTop, ∀ ω, ω ∉ IivmLacking (lateStudy E F) irmD false true n → ∀ q j,
      errNorm tosses (fun i ω => ω i) plrX (iivmMhat (lateStudy E F) irmD q) (fun _ => 1 / 2) 2 j n ω = 0 := by
    filter_upwards [(lateStudy E F).good_train (fun _ => True) irmD] with n hn ω hω q j
    obtain ⟨h0, h1⟩ := hn ω (fun h => hω (n1 n h)) q j
    exact errNorm_zero fun w => exRound_half (t := sample (fun i (ω : ℕ → Fin 3 → Bool) => ω i) n ω) (on := fun _ => True) h0 h1 _ _
  have g0 : ∀ᶠ n in atTop, ∀ ω, ω ∉ IivmLacking (lateStudy E F) irmD false true n → ∀ q j,
      errNorm tosses (fun i ω => ω i) plrX (iivmGhat (lateStudy E F) irmD "ml_g0" 0 q) (fun x => x) 2 j n ω = 0 :=
    Eventually.of_forall fun n ω _ q j => errNorm_zero fun w => exSide_zero (t := sample (fun i (ω : ℕ → Fin 3 → Bool) => ω i) n ω)
      (on := fun w => irmD w = 0) (fun w h => by rw [lateD_eq, h, zero_mul]) _ _
  have g1 : ∀ᶠ n in atTop, ∀ ω, ω ∉ IivmLacking (lateStudy E F) irmD false true n → ∀ q j,
      errNorm tosses (fun i ω => ω i) plrX (iivmGhat (lateStudy E F) irmD "ml_g1" 1 q) (fun x => 1 / 2 + x) 2 j n ω = 0 := by
    filter_upwards [(lateStudy E F).good_train (fun w => irmD w = 1) lateD] with n hn ω hω q j
    obtain ⟨h0, h1⟩ := hn ω (fun h => hω (n3 n h)) q j
    exact errNorm_zero fun w => exSide_half (t := sample (fun i (ω : ℕ → Fin 3 → Bool) => ω i) n ω) (on := fun w => irmD w = 1) h0 h1 _ _
  have r0 : ∀ᶠ n in atTop, ∀ ω, ω ∉ IivmLacking (lateStudy E F) irmD false true n → ∀ q j,
      errNorm tosses (fun i ω => ω i) plrX (iivmRhat (lateStudy E F) irmD "ml_r0" 0 false q) (fun _ => 0) 2 j n ω = 0 :=
    Eventually.of_forall fun n ω _ q j => errNorm_zero fun w => rfl
  have r1 : ∀ᶠ n in atTop, ∀ ω, ω ∉ IivmLacking (lateStudy E F) irmD false true n → ∀ q j,
      errNorm tosses (fun i ω => ω i) plrX (iivmRhat (lateStudy E F) irmD "ml_r1" 1 true q) (fun _ => 1 / 2) 2 j n ω = 0 := by
    filter_upwards [(lateStudy E F).good_train (fun w => irmD w = 1) lateD] with n hn ω hω q j
    obtain ⟨h0, h1⟩ := hn ω (fun h => hω (n3 n h)) q j
    exact errNorm_zero fun w => exRound_half (t := sample (fun i (ω : ℕ → Fin 3 → Bool) => ω i) n ω) (on := fun w => irmD w = 1) h0 h1 _ _
  refine ⟨fun _ => exSide_meas, fun _ => exRound_measM, fun _ => exRound_measM, ?_, ?_, ?_, ?_, ?_, ?_, ?_, ?_, ?_⟩ <;> intro q j
  · exact oPE_of_bad hb (gm.mono fun n h ω hω => h ω hω q j)
  · exact oPE_of_bad hb (g0.mono fun n h ω hω => h ω hω q j)
  · exact oPE_of_bad hb (g1.mono fun n h ω hω => h ω hω q j)
  · exact oPE_of_bad hb (r0.mono fun n h ω hω => h ω hω q j)
  · exact oPE_of_bad hb (r1.mono fun n h ω hω => h ω hω q j)
  all_goals exact oPE_of_bad hb (gm.mono fun n h ω hω => by rw [h ω hω q j, zero_mul, mul_zero])

/-- The hypotheses of `C79_iivm` are met: effect one among those who take the treatment when assigned. -/
example (E : Ext) (F : ∀ n, (ℕ → Fin 3 → Bool) → Frame n) : AsympValid E tosses (fun i ω => ω i) 3 (lateStudy E F).fitted 1 1 := by
  have e1 : ∀ w, (1 / 2 + plrX w - plrX w + irmD w * (lateY w - (1 / 2 + plrX w)) / (1 / 2) - (1 - irmD w) * (lateY w - plrX w) / (1 - 1 / 2) -
      1 * (1 / 2 - 0 + irmD w * (lateD w - 1 / 2) / (1 / 2) - (1 - irmD w) * (lateD w - 0) / (1 - 1 / 2))) ^ 2 = 1 / 4 := fun w => by
    have : 1 / 2 + plrX w - plrX w + irmD w * (lateY w - (1 / 2 + plrX w)) / (1 / 2) - (1 - irmD w) * (lateY w - plrX w) / (1 - 1 / 2) -
        1 * (1 / 2 - 0 + irmD w * (lateD w - 1 / 2) / (1 / 2) - (1 - irmD w) * (lateD w - 0) / (1 - 1 / 2)) =
        sgn (w 1) * sgn (w 2) / 2 := by
      unfold lateY lateD irmD sgn
      cases w 1 <;> cases w 2 <;> norm_num <;> ring
    rw [this, div_pow, mul_pow, sgn_sq, sgn_sq]
    norm_num
  have h := C79_iivm (H := lateStudy E F) (τ := 1 / 100) (z := irmD) (always := false) (never := true) (fun _ => rfl) (fun _ => rfl)
    (fun _ => rfl) (fun _ => rfl) (fun _ => rfl) (fun _ => rfl) (fun _ => exRound_compliant) (fun _ => exRound_compliant)
    (Eventually.of_forall fun _ _ => rfl) (Eventually.of_forall fun _ _ => rfl) (late_both E F)
    (g₀ := fun x => x) (g₁ := fun x => 1 / 2 + x) (m := fun _ => 1 / 2) (r₀ := fun _ => 0) (r₁ := fun _ => 1 / 2)
    (by rw [tosses_law]; exact late_lawY) (by rw [tosses_law]; exact late_lawD)
    (fun w => by unfold lateD; cases w 1 <;> cases w 2 <;> simp) (by rw [tosses_law]; simp) (θ := 1)
    (by rw [tosses_law]; simp) (by rw [tosses_law]; simp only [e1]; simp) (late_rates E F)
  rw [tosses_law] at h
  simp only [e1] at h
  have e3 : Real.sqrt (∫ _w, (1 / 4 : ℝ) ∂coins) / |∫ _w, (1 / 2 - 0 : ℝ) ∂coins| = 1 := by
    rw [integral_const, integral_const, probReal_univ, one_smul, one_smul, show (1 / 4 : ℝ) = (1 / 2) ^ 2 by norm_num,
      Real.sqrt_sq (by norm_num), sub_zero, abs_of_pos (by norm_num)]
    norm_num
  rw [e3] at h
  exact h

end DML
