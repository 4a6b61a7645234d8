import Verif.JointApoProps
import Verif.AsymptoticIrmExamples

/-!
# Joint inference in large samples: examples

Nothing here models code of the package.
-/

namespace DML

open MeasureTheory ProbabilityTheory Filter Topology
open scoped ENNReal

/-! ## One model, and two models -/

/-- A partially linear regression with as many bootstrap draws as observations. -/
example (E : Ext) (F : ∀ n, (ℕ → Fin 3 → Bool) → Frame n) : ProbTends (tosses.prod normalDraws) (fun n => {z | ∃ lo hi,
    jointCis E ((plrStudy E F).fitted n z.1) n z.2 (95 / 100) = .ok (.cis [(lo, hi)]) ∧ lo ≤ 2 ∧ 2 ≤ hi}) (95 / 100) :=
  C84_fit tosses_iid (by norm_num) (plr_valid E F) (B := id) tendsto_id (by norm_num) (by norm_num)

/-- A partially linear regression (effect 2) and an interactive regression model (effect 1) of different outcomes. -/
example (E : Ext) (F : ∀ n, (ℕ → Fin 3 → Bool) → Frame n) : ProbTends (tosses.prod normalDraws) (fun n => {z | ∃ As C cis,
    (List.ofFn fun j : Fin 2 => ((![(plrStudy E F).fitted, (irmStudy E F false false).fitted] :
      Fin 2 → ∀ n, (ℕ → Fin 3 → Bool) → LinState n ℕ) j n z.1).fw?) = As.map some ∧
    DynFW.concat As = .ok C ∧ C.jointCis E n z.2 (95 / 100) = .ok (.cis cis) ∧ Covers cis ![(2 : ℝ), 1]}) (95 / 100) :=
  C84_concat (r := 3) tosses_iid (by norm_num) two_pos (Q := fun _ => ℕ) (θ := ![2, 1]) (σ := ![1, 1 / 2])
    (t := ![(plrStudy E F).fitted, (irmStudy E F false false).fitted])
    (fun j => by fin_cases j; exacts [plr_valid E F, irm_valid E F]) (B := id) tendsto_id (by norm_num) (by norm_num)

/-! ## Average potential outcomes at two levels -/

/-- The model class for level `v`. -/
noncomputable def levRound (v : ℝ) (n : ℕ) : ApoClass n ℕ := { apoRound false n with level := v }

/-- The class of the sub-model of level `j`. -/
noncomputable def levSub (j : Fin 2) (n : ℕ) : SubClass n ℕ (Option (List (FittedModel ℕ (List Cell)))) :=
  ⟨apoSpec (levRound ((j : ℕ) : ℝ) n), 0, fun _ => .ok ()⟩

/-- The draws of the example. -/
noncomputable def levDraws (n : ℕ) (α : Fin n → Fin 2) : Draws n := evenDraws 2 n α

theorem exists_ofFn {α : Type} {l : List α} {k : ℕ} (h : l.length = k) : ∃ f : Fin k → α, l = List.ofFn f := by
  subst h
  exact ⟨fun j => l[j], List.ofFn_getElem.symm⟩

theorem lev_created (n : ℕ) (ω : ℕ → Fin 3 → Bool) : ∃ (o : Multi n ℕ (Option (List (FittedModel ℕ (List Cell))))) (m : Fin 2 → LinState n ℕ),
    apoCreate (List.ofFn fun j => levSub j n) (irmData n ω) 2 3 true
      (levDraws n (strataOf irmSt (sample (fun i (ω : ℕ → Fin 3 → Bool) => ω i) n ω))) = .ok o ∧ o.subs = some (List.ofFn m) := by
  obtain ⟨ms, S, h1, -, h3, -⟩ := apoCreate_eq (cs := List.ofFn fun j => levSub j n) (fun c h => by
      obtain ⟨j, rfl⟩ := List.mem_ofFn.1 h; rfl) (fun c h => by obtain ⟨j, rfl⟩ := List.mem_ofFn.1 h; intro _; rfl) (irmData n ω) (k := 2) (r := 3)
    le_rfl (by norm_num) (levDraws n (strataOf irmSt (sample (fun i (ω : ℕ → Fin 3 → Bool) => ω i) n ω)))
  rw [List.length_ofFn] at h3
  obtain ⟨m, hm⟩ := exists_ofFn h3
  exact ⟨_, m, h1, congrArg some hm⟩

theorem atLevel_lev (j : Fin 2) : (∀ w, irmSt w = j → atLevel irmD ((j : ℕ) : ℝ) w = 1) ∧ ∀ w, irmSt w = 1 - j → atLevel irmD ((j : ℕ) : ℝ) w = 0 := by
  constructor <;> intro w h <;> fin_cases j <;> unfold irmSt atLevel irmD at * <;> cases hw : w 1 <;> simp_all

section

variable {E : Ext} {r : ℕ} {v : ℝ} {H : Study E tosses (fun i ω => ω i) r 2 (fun n => apoSpec (levRound v n)) "d" irmY irmD plrX fun v => [Cell.num v]}

/-- Eventually the learners make no errors. -/
theorem lev_exact (hv : v = 0 ∨ v = 1) :
    (∀ᶠ n in atTop, ∀ ω, ω ∉ Lacking H (fun _ => True) (atLevel irmD v) n → ∀ q j,
      errNorm tosses (fun i ω => ω i) plrX (apoGhat H v q) (fun x => v + x) 2 j n ω = 0) ∧
    ∀ᶠ n in atTop, ∀ ω, ω ∉ Lacking H (fun _ => True) (atLevel irmD v) n → ∀ q j,
      errNorm tosses (fun i ω => ω i) plrX (apoMhat H v q) (fun _ => 1 / 2) 2 j n ω = 0 := by
  classical
  have hgood := H.good_train (fun _ => True) (atLevel irmD v)
  constructor
  · filter_upwards [hgood] with n hn ω hω q j
    obtain ⟨-, ⟨i, hi, -, hd⟩⟩ := hn ω hω q j
    have hd' : irmD (ω i) = v := by
      by_contra h
      unfold atLevel at hd
      rw [if_neg h] at hd
      norm_num at hd
    have : ∀ w, apoGhat H v q n j (sample (fun i ω => ω i) n ω) (plrX w) - (v + plrX w) = 0 := fun w => by
      have := exRound_learns (t := sample (fun i (ω : ℕ → Fin 3 → Bool) => ω i) n ω) (v := v) hv (on := fun w => irmD w = v)
        (fun _ => Iff.rfl) ⟨i, hi, hd'⟩ (parAt (H.par n "ml_g_d_lvl1") q j) (plrX w)
      exact sub_eq_zero.2 this
    unfold errNorm
    simp only [this]
    exact eLpNorm_zero'
  · filter_upwards [hgood] with n hn ω hω q j
    obtain ⟨⟨i, hi, -, hd⟩, ⟨i', hi', -, hd'⟩⟩ := hn ω hω q j
    have : ∀ w, apoMhat H v q n j (sample (fun i ω => ω i) n ω) (plrX w) - 1 / 2 = 0 := fun w => by
      refine sub_eq_zero.2 ((exRound_proba _ _ _).trans (if_pos (two_classes.2 ?_)))
      refine ⟨(_, atLevel irmD v (ω i)), List.mem_map.2 ⟨i, List.mem_filter.2 ⟨hi, by simp⟩, rfl⟩,
        (_, atLevel irmD v (ω i')), List.mem_map.2 ⟨i', List.mem_filter.2 ⟨hi', by simp⟩, rfl⟩, ?_⟩
      show atLevel irmD v (ω i) ≠ atLevel irmD v (ω i')
      rw [hd, hd']
      exact zero_ne_one
    unfold errNorm
    simp only [this]
    exact eLpNorm_zero'

theorem lev_law (hv : v = 0 ∨ v = 1) : ArmLaw coins irmY (atLevel irmD v) plrX (fun x => v + x) (fun _ => 1 / 2) (1 / 100) 4 := by
  rcases hv with rfl | rfl
  · have h := irm_law.untreated (by norm_num)
    have e1 : atLevel irmD 0 = fun w => 1 - irmD w := by
      funext w
      unfold atLevel
      rcases irmD_bin w with e | e <;> rw [e] <;> simp
    rw [e1]
    simp only [zero_add]
    norm_num at h
    norm_num
    exact h
  · rw [atLevel_one]
    exact irm_law.treated (by norm_num)

/-- The assumptions of `C84_apo_levels` hold at both levels. -/
theorem lev_level (hv : v = 0 ∨ v = 1) (hb : ∀ n ω, (H.D n ω).binOut = false)
    (hl : Tendsto (fun n => tosses (Lacking H (fun _ => True) (atLevel irmD v) n)) atTop (𝓝 0)) :
    ApoLevel H (1 / 100) v (fun x => v + x) (fun _ => 1 / 2) v := by
  obtain ⟨g1, gm⟩ := lev_exact (H := H) hv
  refine ⟨fun _ => rfl, fun _ => rfl, fun _ => rfl, fun _ => rfl, fun _ => rfl, apoRound_at false, fun _ => exRound_compliant,
    Eventually.of_forall hb, hl, by rw [tosses_law]; exact lev_law hv, fun _ => by norm_num, ?_, ?_,
    ⟨fun _ => exRound_meas, fun _ => exRound_measM, fun q j => ?_, fun q j => ?_, fun q j => ?_⟩⟩
  · rw [tosses_law]
    unfold plrX
    rw [integral_add (integrable_const _) Integrable.of_finite, coin_mean]
    simp
  · rw [tosses_law]
    have h1 : ∀ w, (1 / 4 : ℝ) ≤ (v + plrX w + atLevel irmD v w * (irmY w - (v + plrX w)) / (1 / 2) - v) ^ 2 := fun w => by
      unfold irmY atLevel irmD plrX sgn
      rcases hv with rfl | rfl <;> cases w 0 <;> cases w 1 <;> cases w 2 <;> norm_num
    have := integral_mono (μ := coins) (integrable_const _) Integrable.of_finite h1
    rw [integral_const, probReal_univ, one_smul] at this
    intro h
    rw [h] at this
    norm_num at this
  · exact oPE_of_bad hl (g1.mono fun n h ω hω => h ω hω q j)
  · exact oPE_of_bad hl (gm.mono fun n h ω hω => h ω hω q j)
  · exact oPE_of_bad hl (g1.mono fun n h ω hω => by rw [h ω hω q j, mul_zero, mul_zero])

end

theorem lev_values (j : Fin 2) : ((j : ℕ) : ℝ) = 0 ∨ ((j : ℕ) : ℝ) = 1 := by
  fin_cases j <;> simp

/-- A `DoubleMLAPOS` object with levels zero and one on the coins: the joint intervals of both average potential outcomes, and
those of their difference, cover the true values with probability tending to 95%. -/
example (E : Ext) (F : ∀ n, (ℕ → Fin 3 → Bool) → Frame n) : ∃ o : ∀ n, (ℕ → Fin 3 → Bool) → Multi n ℕ (Option (List (FittedModel ℕ (List Cell)))),
    (∀ n ω, apoCreate (List.ofFn fun j => levSub j n) (irmData n ω) 2 3 true
      (levDraws n (strataOf irmSt (sample (fun i (ω : ℕ → Fin 3 → Bool) => ω i) n ω))) = .ok (o n ω)) ∧
    ProbTends (tosses.prod normalDraws) (fun n => {z | ∃ cis,
      multiJointCis E (apoFit (F n z.1) [0, 1] "d" (List.ofFn fun j => levSub j n) (o n z.1) {} .none).1 n z.2 (95 / 100) = .ok (.cis cis) ∧
        Covers cis fun j : Fin 2 => ((j : ℕ) : ℝ)}) (95 / 100) ∧
    ProbTends (tosses.prod normalDraws) (fun n => {z | ∃ C ci,
      causalContrast [0, 1] toString (apoFit (F n z.1) [0, 1] "d" (List.ofFn fun j => levSub j n) (o n z.1) {} .none).1 (.single 0) = .ok C ∧
      C.jointCis E n z.2 (95 / 100) = .ok (.cis [ci]) ∧ ci.1 ≤ 1 ∧ 1 ≤ ci.2}) (95 / 100) := by
  choose o m ho hm using lev_created
  let H := fun j : Fin 2 => Study.ofApos (K := 2) (r := 3) (c := levSub) (m := fun j n ω => m n ω j) (args := {}) E tosses_iid le_rfl (by norm_num) (fun _ _ => rfl) F irm_holds (St := irmSt) (measurable_coin _)
    (w := levDraws) (fun _ α _ => evenAssign_even two_pos α) (Eventually.of_forall ho) hm (fun _ n m => plainArgs _ _ m) rfl j
  have hb := irm_law.both
  have hpos : ∀ j : Fin 2, tosses.map (fun ω => ω 0) {x | irmSt x = j} ≠ 0 := fun j => by
    rw [tosses_law]
    fin_cases j
    · show coins {x | irmSt x = 0} ≠ 0
      simpa only [irm_strata.1] using hb.1
    · show coins {x | irmSt x = 1} ≠ 0
      simpa only [irm_strata.2] using hb.2
  have hH : ∀ j, ApoLevel (H j) (1 / 100) ((j : ℕ) : ℝ) (fun x => ((j : ℕ) : ℝ) + x) (fun _ => 1 / 2) ((j : ℕ) : ℝ) := fun j =>
    lev_level (lev_values j) (fun _ _ => rfl) (drawn_both (St := irmSt) (w := levDraws) tosses_iid le_rfl (measurable_coin _)
      (fun _ α _ => evenAssign_even two_pos α) (fun _ _ => rfl) (fun w h => ⟨trivial, (atLevel_lev j).2 w h⟩)
      (fun w h => ⟨trivial, (atLevel_lev j).1 w h⟩) (hpos _) (hpos _))
  refine ⟨o, ho, ?_, ?_⟩
  · exact C84_apo_levels (H := H) tosses_iid (by norm_num) two_pos hH (F := F) (fun _ => rfl) (a := {}) rfl (fun _ => rfl)
      (chk := fun _ _ _ => .ok ()) (levels := [0, 1]) rfl hm (B := id) tendsto_id (by norm_num) (by norm_num)
  · have h := C84_apo_contrasts (H := H) tosses_iid (by norm_num) (by norm_num) hH (F := F) (fun _ => rfl) (a := {}) rfl (fun _ => rfl)
      (chk := fun _ _ _ => .ok ()) (levels := [0, 1]) rfl (by simp) hm (refs := .single 0) (by simp [RefArg.list]) (by simp [RefArg.list]) ?_
      toString (B := id) tendsto_id (l := 95 / 100) (by norm_num) (by norm_num)
    · refine h.congr_on (B := fun _ => ∅) (by simp) (Eventually.of_forall fun n z _ => ?_)
      have e : contrastPairs [0, 1] (RefArg.single 0).list [] = [(1, 0)] := by decide
      constructor
      · rintro ⟨C, ci, e1, e2, e3, e4⟩
        refine ⟨C, [ci], e1, e2, by rw [e]; rfl, fun t i j ht => ?_⟩
        rw [e] at ht
        cases t with
        | succ t => simp at ht
        | zero =>
          have h1 : 1 = (i : ℕ) ∧ 0 = (j : ℕ) := by simpa using ht
          rw [← h1.1, ← h1.2]
          exact ⟨ci, rfl, by simpa using e3, by simpa using e4⟩
      · rintro ⟨C, cis, e1, e2, e3, e4⟩
        rw [e] at e3
        obtain ⟨ci, f1, f2, f3⟩ := e4 0 1 0 (by rw [e]; rfl)
        match cis, e3 with
        | [x], _ =>
          obtain rfl : x = ci := by simpa using f1
          exact ⟨C, x, e1, e2, by simpa using f2, by simpa using f3⟩
    · intro i j hij h
      rw [tosses_law] at h
      have h1 : ∀ w, (1 / 4 : ℝ) ≤ ((apoSignal irmY irmD plrX ((i : ℕ) : ℝ) (fun x => ((i : ℕ) : ℝ) + x) (fun _ => 1 / 2) w - ((i : ℕ) : ℝ)) -
          (apoSignal irmY irmD plrX ((j : ℕ) : ℝ) (fun x => ((j : ℕ) : ℝ) + x) (fun _ => 1 / 2) w - ((j : ℕ) : ℝ))) ^ 2 := fun w => by
        unfold apoSignal irmY atLevel irmD plrX sgn
        fin_cases i <;> fin_cases j <;> first | exact absurd rfl hij | (cases w 0 <;> cases w 1 <;> cases w 2 <;> norm_num)
      have := integral_mono (μ := coins) (integrable_const _) Integrable.of_finite h1
      rw [integral_const, probReal_univ, one_smul, h] at this
      norm_num at this

end DML
