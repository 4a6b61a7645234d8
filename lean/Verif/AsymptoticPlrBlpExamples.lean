import Verif.AsymptoticPlrBlpProps
import Verif.AsymptoticBlpExamples
import Verif.OrthogonalityQuantExamples

/-!
# Examples of heterogeneous effects in the partially linear model (C86)

Coins again: the covariate `x` is `1` or `-1`, the effect of the treatment is `2 + x`, and the treatment varies more where the effect is
larger.
-/

namespace DML

open MeasureTheory ProbabilityTheory Filter Topology
open scoped ENNReal

theorem sum_coins (f : (Fin 3 → Bool) → ℝ) : ∑ w, f w = f ![true, true, true] + f ![true, true, false] + f ![true, false, true] +
    f ![true, false, false] + f ![false, true, true] + f ![false, true, false] + f ![false, false, true] + f ![false, false, false] := by
  have h : (Finset.univ : Finset (Fin 3 → Bool)) = {![true, true, true], ![true, true, false], ![true, false, true],
      ![true, false, false], ![false, true, true], ![false, true, false], ![false, false, true], ![false, false, false]} := by decide
  rw [h]
  repeat rw [Finset.sum_insert (by decide)]
  rw [Finset.sum_singleton]
  ring

theorem coin_two (a b c : Bool) : (![a, b, c] : Fin 3 → Bool) 2 = c := rfl

/-- Treatment `1 + (2 + x) v` with a coin `v`. -/
noncomputable def hetD (w : Fin 3 → Bool) : ℝ := 1 + (2 + plrX w) * sgn (w 1)

/-- Outcome `(2 + x) d + 3 - x + ζ` with a coin `ζ`. -/
noncomputable def hetY (w : Fin 3 → Bool) : ℝ := (2 + plrX w) * hetD w + (3 - plrX w) + sgn (w 2)

theorem het_law : EffectLaw coins hetY hetD plrX (fun x => 2 + x) (fun x => 3 - x) fun _ => 1 := by
  have e1 : (fun w => hetY w - (2 + plrX w) * hetD w - (3 - plrX w)) = fun w => sgn (w 2) := by
    funext w
    unfold hetY
    ring
  have e2 : (fun w => hetD w - 1) = fun w => (2 + plrX w) * sgn (w 1) := by
    funext w
    unfold hetD
    ring
  have i1 : IndepFun (fun w : Fin 3 → Bool => sgn (w 1)) plrX coins :=
    (coins_indep.indepFun (i := 1) (j := 0) (by decide)).comp (φ := sgn) (ψ := sgn) (measurable_of_countable _) (measurable_of_countable _)
  have i2 : IndepFun (fun w : Fin 3 → Bool => sgn (w 2)) (fun w => (hetD w, plrX w)) coins :=
    (coins_indep.indepFun_prodMk (fun i => measurable_pi_apply i) 1 0 2 (by decide) (by decide)).symm.comp (φ := sgn)
      (ψ := fun b : Bool × Bool => (1 + (2 + sgn b.2) * sgn b.1, sgn b.2)) (measurable_of_countable _) (measurable_of_countable _)
  have hm : ∀ f : (Fin 3 → Bool) → ℝ, (∀ w, |f w| ≤ 9) → MemLp f 4 coins := fun f hf => memLp_of_bdd (measurable_coin _) hf
  refine ⟨measurable_coin _, measurable_coin _, measurable_coin _, by fun_prop, by fun_prop, measurable_const, ?_, ?_, ?_, ?_, ?_⟩
  · rw [e1]
    exact meanZero_of_indep (measurable_coin _) (measurable_coin _) i2 (coin_mean 2)
  · rw [e2]
    exact (meanZero_of_indep (measurable_coin _) (measurable_coin _) i1 (coin_mean 1)).mul_left Integrable.of_finite (f := fun x => 2 + x)
      (by fun_prop) Integrable.of_finite
  · rw [e1]
    exact hm _ fun w => by rw [sgn_abs]; norm_num
  · rw [e2]
    refine hm _ fun w => ?_
    unfold plrX sgn
    cases w 0 <;> cases w 1 <;> norm_num
  · refine hm _ fun w => ?_
    unfold hetD plrX sgn
    cases w 0 <;> cases w 1 <;> norm_num

/-- Partially linear models on the coins: two folds, one repetition, plain `fit()`. -/
noncomputable def hetStudy (E : Ext) (F : ∀ n, (ℕ → Fin 3 → Bool) → Frame n) :
    Study E tosses (fun i ω => ω i) 1 2 (fun n => plrSpec (plrMean n)) "d" hetY hetD plrX fun v => [Cell.num v] :=
  Study.created E tosses_iid le_rfl (by norm_num) (fun _ => rfl) (fun _ => rfl) F
    (exData_holds (fun i (ω : ℕ → Fin 3 → Bool) => ω i) (measurable_coin _) (measurable_coin _) (measurable_coin _) none false)
    (st := fun _ _ => 0) (w := plainDraws) (fun _ _ _ => two_pos)
    (obj := fun n ω => createdObj (plrSpec (plrMean n)) (exData (fun i (ω : ℕ → Fin 3 → Bool) => ω i) hetY hetD plrX none false n ω) 2 1 (plainDraws n))
    (by
      filter_upwards [eventually_ge_atTop 2] with n hn ω
      exact createdObj_spec _ rfl _ le_rfl (by norm_num) (fun _ => hn) _)
    (args := {}) (fun n m => plainArgs _ _ m) rfl

theorem hetD_mean : ∫ w, hetD w ∂(tosses.map fun ω => ω 0) = 1 := by
  rw [tosses_law, coin_sum]
  simp only [hetD, plrX, sgn, sum_coins]
  norm_num

theorem hetY_mean : ∫ w, hetY w ∂(tosses.map fun ω => ω 0) = 5 := by
  rw [tosses_law, coin_sum]
  simp only [hetY, hetD, plrX, sgn, sum_coins, coin_two]
  norm_num

theorem het_rates (E : Ext) (F : ∀ n, (ℕ → Fin 3 → Bool) → Frame n) :
    PlrRates (hetStudy E F) (fun x => (2 + x) * 1 + (3 - x)) (fun _ => 1) := by
  have e5 : (fun x : ℝ => (2 + x) * 1 + (3 - x)) = fun _ => 5 := by
    funext x
    ring
  rw [e5]
  have hs : ∀ n α, (hetStudy E F).splits n α = (List.range 1).map fun _ => kfold 2 (Equiv.refl (Fin n)) := fun _ _ => rfl
  have hL : ∀ᶠ n in atTop, ∀ T ∈ (List.range 1).map fun _ => kfold 2 (Equiv.refl (Fin n)), ∀ f ∈ T,
      f.train.Nodup ∧ n ≤ 4 * f.train.length := by
    filter_upwards [eventually_ge_atTop 8] with n hn T hT f hf
    obtain ⟨q, -, rfl⟩ := List.mem_map.1 hT
    exact kfold_train_length le_rfl (by omega) hn _ hf
  have by' : ∀ w, |hetY w| ≤ 20 := fun w => by
    unfold hetY hetD plrX sgn
    cases w 0 <;> cases w 1 <;> cases w 2 <;> norm_num
  have bd : ∀ w, |hetD w| ≤ 4 := fun w => by
    unfold hetD plrX sgn
    cases w 0 <;> cases w 1 <;> norm_num
  have rl : ∀ {c : ℕ → ℝ}, (∀ n, 0 ≤ c n) ∧ Tendsto (fun n => c n ^ 2 / n) atTop (𝓝 0) → ∀ q j {p : ℝ≥0∞}, p ≠ 0 →
      oPE tosses fun n ω => ENNReal.ofReal (c n) * errNorm tosses (fun i ω => ω i) plrX (plrLhat (hetStudy E F) q) (fun _ => 5) p j n ω :=
    fun hc q j p hp => by
      have := (hetStudy E F).mean_rate hs hL "ml_l" (measurable_coin hetY) by' hc.1 hc.2 q j hp
      rwa [hetY_mean] at this
  have rm : ∀ {c : ℕ → ℝ}, (∀ n, 0 ≤ c n) ∧ Tendsto (fun n => c n ^ 2 / n) atTop (𝓝 0) → ∀ q j {p : ℝ≥0∞}, p ≠ 0 →
      oPE tosses fun n ω => ENNReal.ofReal (c n) * errNorm tosses (fun i ω => ω i) plrX (plrMhat (hetStudy E F) q) (fun _ => 1) p j n ω :=
    fun hc q j p hp => by
      have := (hetStudy E F).mean_rate hs hL "ml_m" (measurable_coin hetD) bd hc.1 hc.2 q j hp
      rwa [hetD_mean] at this
  refine ⟨fun _ => meanL_meas _, fun _ => meanL_meas _, fun q j => ?_, fun q j => ?_, fun q j => ?_⟩
  · simpa using rl one_rate q j (p := 4) (by norm_num)
  · simpa using rm one_rate q j (p := 4) (by norm_num)
  · have h1 := rm root_rate q j (p := 2) (by norm_num)
    have h2 := rl root_rate q j (p := 2) (by norm_num)
    refine (h1.mul (h1.add h2)).mono fun n ω => le_of_eq ?_
    have e : ENNReal.ofReal (Real.sqrt n) = ENNReal.ofReal (Real.sqrt (Real.sqrt n)) * ENNReal.ofReal (Real.sqrt (Real.sqrt n)) := by
      rw [← ENNReal.ofReal_mul (Real.sqrt_nonneg _), Real.mul_self_sqrt (Real.sqrt_nonneg _)]
    rw [e]
    ring

/-- The hypotheses of `C86_cate` are met: with a constant and the covariate as basis, both coefficients of the effect `2 + x` are
found. -/
example {ols : Ols} (hols : OlsSpec ols) (E : Ext) (F : ∀ n, (ℕ → Fin 3 → Bool) → Frame n) :
    BlpLimit tosses (fun n ω => IsPlrCate ols false ((hetStudy E F).fitted n ω) ["const", "x"] (fun i j => lineX (plrX (ω i)) j) false)
      ["const", "x"] false ![5, 4] (5 * 2 + 4 * 1) (Real.sqrt 5) := by
  have h := C86_cate (H := hetStudy E F) hols (fun _ => rfl) (fun _ => rfl) (fun _ => rfl) (Eventually.of_forall fun _ _ => rfl) rfl
    (by rw [tosses_law]; exact het_law) (het_rates E F) lineX_meas lineX_bdd (by
      intro u hu
      rw [tosses_law, coin_sum] at hu
      simp only [hetD, lineX, plrX, sgn, sum_coins, Fin.sum_univ_two] at hu
      norm_num at hu
      have h1 : u 0 + u 1 = 0 := by nlinarith [sq_nonneg (u 0 + u 1), sq_nonneg (u 0 - u 1)]
      have h2 : u 0 - u 1 = 0 := by nlinarith [sq_nonneg (u 0 + u 1), sq_nonneg (u 0 - u 1)]
      funext j
      fin_cases j
      · show u 0 = 0
        linarith
      · show u 1 = 0
        linarith) (β := ![2, 1]) (by
      intro j
      have : ∀ w : Fin 3 → Bool, lineX (plrX w) j * (2 + plrX w - ∑ k, lineX (plrX w) k * (![2, 1] : Fin 2 → ℝ) k) * (hetD w - 1) ^ 2 = 0 := fun w => by
        rw [Fin.sum_univ_two, lineX_zero, lineX_one]
        simp
      simp only [this]
      simp) (names := ["const", "x"]) (by decide) false (v := ![5, 4]) (c := ![1, 0]) (by
      intro j
      rw [Fin.sum_univ_two, tosses_law]
      simp only [coin_sum, hetD, lineX, plrX, sgn, sum_coins]
      fin_cases j <;> norm_num) (σ := Real.sqrt 5) (Real.sqrt_pos.2 (by norm_num)) (by
      rw [Real.sq_sqrt (by norm_num), tosses_law, coin_sum]
      simp only [hetY, hetD, lineX, plrX, sgn, sum_coins, coin_two, Fin.sum_univ_two]
      norm_num)
  simpa [Fin.sum_univ_two] using h

/-- The hypotheses of `C86_gate_partial` are met: the groups are the values of the covariate, with effects one and three. -/
example {ols : Ols} (hols : OlsSpec ols) (E : Ext) (F : ∀ n, (ℕ → Fin 3 → Bool) → Frame n) (j : Fin 2) :
    GateLimit tosses (fun n ω => IsPlrGate ols false ((hetStudy E F).fitted n ω) (boolFrame (List.ofFn fun k : Fin 2 =>
      (["low", "high"][k], fun i : Fin n => halfBits (plrX (ω i)) k)))) ["low", "high"] j (if j = 0 then 1 else 3)
      (if j = 0 then Real.sqrt 2 else Real.sqrt 2 / 3) := by
  have e : ∀ (f : (Fin 3 → Bool) → ℝ) (j : Fin 2), ∫ w in {w | halfBits (plrX w) j = true}, f w ∂coins =
      (∑ w, (1 / 2 + (if j = 0 then -1 else 1) * plrX w / 2) * f w) / 8 := fun f j => by
    rw [← integral_bit (μ := coins) (G := fun w => halfBits (plrX w)) (fun j => measurable_coin _) j f, coin_sum]
    simp only [halfBits_bit]
  have h2 : Real.sqrt 2 ^ 2 = 2 := Real.sq_sqrt (by norm_num)
  refine C86_gate_partial (H := hetStudy E F) hols (fun _ => rfl) (fun _ => rfl) (fun _ => rfl) (Eventually.of_forall fun _ _ => rfl) rfl
    (by rw [tosses_law]; exact het_law) (het_rates E F) (names := ["low", "high"]) (by decide) (gr := halfBits) halfBits_meas halfBits_excl
    (fun j => ?_) j (fun w hw => ?_) ?_ ?_
  · rw [tosses_law, e]
    simp only [hetD, plrX, sgn, sum_coins]
    fin_cases j <;> norm_num
  · rw [halfBits_iff] at hw
    unfold halves plrX sgn at hw
    unfold plrX sgn
    fin_cases j <;> cases h : w 0 <;> rw [h] at hw <;> norm_num at hw <;> norm_num
  · have : 0 < Real.sqrt 2 := Real.sqrt_pos.2 (by norm_num)
    fin_cases j <;> simp [this]
  · rw [tosses_law, e, e]
    simp only [hetY, hetD, plrX, sgn, sum_coins, coin_two]
    fin_cases j <;> norm_num [div_pow, h2]

/-- **C86 is violated by `gate`**: for the fits of the example and one group of all observations the average
effect is two, but the intervals of `gate(groups).confint(level=l)` cover it with vanishing probability; they cover `14 / 5`, the
average weighted by the squared residual of the treatment. -/
theorem C86_gate_violated (E : Ext) (F : ∀ n, (ℕ → Fin 3 → Bool) → Frame n) :
    EffectLaw (tosses.map fun ω => ω 0) hetY hetD plrX (fun x => 2 + x) (fun x => 3 - x) (fun _ => 1) ∧
    (∫ w, (2 + plrX w) ∂(tosses.map fun ω => ω 0)) = 2 ∧ ∃ ols : Ols, OlsSpec ols ∧ ∀ l, 0 < l → l < 1 → ∀ (R : ℤ), 1 ≤ R → ∀ u,
      ProbTends tosses (fun n => {ω | ∃ B, IsPlrGate ols false ((hetStudy E F).fitted n ω)
        (boolFrame [("all", fun _ : Fin n => true)]) B ∧
        ∃ T : Fin 1 → ℝ × ℝ × ℝ, (∀ root z, B.2.confint root z .none (.bool false) (.float l) (.int R) = .ok ⟨1, some ["all"], T⟩) ∧
          (T 0).1 ≤ u ∧ u ≤ (T 0).2.2}) (if u = 14 / 5 then l else 0) := by
  obtain ⟨ols, hols⟩ := exists_ols
  have hlaw : EffectLaw (tosses.map fun ω => ω 0) hetY hetD plrX (fun x => 2 + x) (fun x => 3 - x) (fun _ => 1) := by
    rw [tosses_law]
    exact het_law
  refine ⟨hlaw, ?_, ols, hols, fun l h0 h1 R hR u => ?_⟩
  · rw [tosses_law, coin_sum]
    simp only [plrX, sgn, sum_coins]
    norm_num
  have h := C86_gate_weighted (H := hetStudy E F) hols (fun _ => rfl) (fun _ => rfl) (fun _ => rfl) (Eventually.of_forall fun _ _ => rfl) rfl
    hlaw (het_rates E F) (names := ["all"]) (by decide) (gr := fun _ _ => true) (fun _ => measurable_const)
    (fun _ _ _ _ _ => Subsingleton.elim (α := Fin 1) _ _) (fun j => by
      rw [tosses_law]
      simp only [Set.ofPred_true, Measure.restrict_univ, coin_sum, hetD, plrX, sgn, sum_coins]
      norm_num) (0 : Fin 1) (θ := 14 / 5) (σ := Real.sqrt (206 / 625)) (by
      rw [tosses_law]
      simp only [Set.ofPred_true, Measure.restrict_univ, coin_sum, hetD, plrX, sgn, sum_coins]
      norm_num) (Real.sqrt_pos.2 (by norm_num)) (by
      rw [tosses_law, Real.sq_sqrt (by norm_num)]
      simp only [Set.ofPred_true, Measure.restrict_univ, coin_sum, hetY, hetD, plrX, sgn, sum_coins, coin_two]
      norm_num)
  by_cases hu : u = 14 / 5
  · subst hu
    rw [if_pos rfl]
    exact h.cover l h0 h1 R hR
  · rw [if_neg hu]
    exact h.exclude l h0 h1 R hR u hu

end DML
