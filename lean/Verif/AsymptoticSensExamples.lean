import Verif.AsymptoticSensProps
import Verif.AsymptoticPlrBlpExamples

/-!
# Sensitivity limits that do not cover (C87)

Coins again: the treatment is `1 + v` with a coin `v`, and the error is `v e` with `e` independent of `v` and skewed: `5`, `-1`, `-1` or `-3`.
-/

namespace DML

open MeasureTheory ProbabilityTheory Filter Topology
open scoped ENNReal

/-- A skewed error with mean `0` and variance `9`. -/
noncomputable def skewE (w : Fin 3 → Bool) : ℝ := 2 * sgn (w 0) + 2 * sgn (w 2) + sgn (w 0) * sgn (w 2)

/-- Treatment `1 + v` with a coin `v`. -/
noncomputable def skewD (w : Fin 3 → Bool) : ℝ := 1 + sgn (w 1)

/-- Outcome `2 d + 3 + v e`. -/
noncomputable def skewY (w : Fin 3 → Bool) : ℝ := 2 * skewD w + 3 + sgn (w 1) * skewE w

/-- The covariate is constant. -/
def skewX (_ : Fin 3 → Bool) : ℝ := 0

theorem skew_noise (w : Fin 3 → Bool) : skewY w - 2 * skewD w - 3 = sgn (w 1) * skewE w := by
  unfold skewY
  ring

theorem skew_treat (w : Fin 3 → Bool) : skewD w - 1 = sgn (w 1) := by
  unfold skewD
  ring

theorem skew_law : PlrLaw coins skewY skewD skewX 2 (fun _ => 3) (fun _ => 1) 4 := by
  have i1 : IndepFun (fun w : Fin 3 → Bool => sgn (w 1)) skewX coins := indepFun_const_right _ 0
  have i2 : IndepFun skewE (fun w => (skewD w, skewX w)) coins :=
    (coins_indep.indepFun_prodMk (fun i => measurable_pi_apply i) 0 2 1 (by decide) (by decide)).comp
      (φ := fun b : Bool × Bool => 2 * sgn b.1 + 2 * sgn b.2 + sgn b.1 * sgn b.2)
      (ψ := fun b : Bool => (1 + sgn b, (0 : ℝ))) (measurable_of_countable _) (measurable_of_countable _)
  have hm : ∀ f : (Fin 3 → Bool) → ℝ, (∀ w, |f w| ≤ 9) → MemLp f 4 coins := fun f hf => memLp_of_bdd (measurable_coin _) hf
  have z1 : MeanZeroGiven coins (fun w => (skewD w, skewX w)) fun w => skewY w - 2 * skewD w - 3 := by
    have he : ∫ w, skewE w ∂coins = 0 := by
      rw [coin_sum]
      simp only [skewE, sgn, sum_coins, coin_two]
      norm_num
    have h0 : MeanZeroGiven coins (fun w => (skewD w, skewX w)) skewE :=
      meanZero_of_indep (measurable_coin _) (measurable_coin _) i2 he
    have h1 := h0.mul_left Integrable.of_finite (f := fun q : ℝ × ℝ => q.1 - 1) (by fun_prop) Integrable.of_finite
    exact h1.of_eq fun w => by rw [skew_noise, skew_treat]
  have z2 : MeanZeroGiven coins skewX fun w => skewD w - 1 := by
    simp only [skew_treat]
    exact meanZero_of_indep (measurable_coin _) (measurable_coin _) i1 (coin_mean 1)
  have m1 : MemLp (fun w => skewY w - 2 * skewD w - 3) 4 coins := hm _ fun w => by
    rw [skew_noise]
    unfold skewE sgn
    cases w 0 <;> cases w 1 <;> cases w 2 <;> norm_num
  have m2 : MemLp (fun w => skewD w - 1) 4 coins := hm _ fun w => by
    rw [skew_treat, sgn_abs]
    norm_num
  exact ⟨measurable_coin _, measurable_coin _, measurable_coin _, measurable_coin _, measurable_const, measurable_const, measurable_const, z1, z2, z2,
    m1, m2, m2⟩

/-- Partially linear models on the coins: two folds, one repetition, plain `fit()`. -/
noncomputable def skewStudy (E : Ext) (F : ∀ n, (ℕ → Fin 3 → Bool) → Frame n) :
    Study E tosses (fun i ω => ω i) 1 2 (fun n => plrSpec (plrMean n)) "d" skewY skewD skewX fun v => [Cell.num v] :=
  Study.created E tosses_iid le_rfl (by norm_num) (fun _ => rfl) (fun _ => rfl) F
    (exData_holds (fun i (ω : ℕ → Fin 3 → Bool) => ω i) (measurable_coin _) (measurable_coin _) (measurable_coin _) none false)
    (st := fun _ _ => 0) (w := plainDraws) (fun _ _ _ => two_pos)
    (obj := fun n ω => createdObj (plrSpec (plrMean n)) (exData (fun i (ω : ℕ → Fin 3 → Bool) => ω i) skewY skewD skewX none false n ω) 2 1 (plainDraws n))
    (by
      filter_upwards [eventually_ge_atTop 2] with n hn ω
      exact createdObj_spec _ rfl _ le_rfl (by norm_num) (fun _ => hn) _)
    (args := {}) (fun n m => plainArgs _ _ m) rfl

theorem skewD_mean : ∫ w, skewD w ∂(tosses.map fun ω => ω 0) = 1 := by
  rw [tosses_law, coin_sum]
  simp only [skewD, sgn, sum_coins]
  norm_num

theorem skewY_mean : ∫ w, skewY w ∂(tosses.map fun ω => ω 0) = 5 := by
  rw [tosses_law, coin_sum]
  simp only [skewY, skewE, skewD, sgn, sum_coins, coin_two]
  norm_num

theorem skew_setup (E : Ext) (F : ∀ n, (ℕ → Fin 3 → Bool) → Frame n) : PlrSensSetup (skewStudy E F) 2 (fun _ => 3) fun _ => 1 := by
  have e5 : (fun _ : ℝ => (2 : ℝ) * 1 + 3) = fun _ => 5 := by
    funext x
    norm_num
  have hs : ∀ n α, (skewStudy E F).splits n α = (List.range 1).map fun _ => kfold 2 (Equiv.refl (Fin n)) := fun _ _ => rfl
  have hL : ∀ᶠ n in atTop, ∀ T ∈ (List.range 1).map fun _ => kfold 2 (Equiv.refl (Fin n)), ∀ f ∈ T,
      f.train.Nodup ∧ n ≤ 4 * f.train.length := by
    filter_upwards [eventually_ge_atTop 8] with n hn T hT f hf
    obtain ⟨q, -, rfl⟩ := List.mem_map.1 hT
    exact kfold_train_length le_rfl (by omega) hn _ hf
  have by' : ∀ w, |skewY w| ≤ 20 := fun w => by
    unfold skewY skewE skewD sgn
    cases w 0 <;> cases w 1 <;> cases w 2 <;> norm_num
  have bd : ∀ w, |skewD w| ≤ 4 := fun w => by
    unfold skewD sgn
    cases w 1 <;> norm_num
  have rl : ∀ {c : ℕ → ℝ}, (∀ n, 0 ≤ c n) ∧ Tendsto (fun n => c n ^ 2 / n) atTop (𝓝 0) → ∀ q j {p : ℝ≥0∞}, p ≠ 0 →
      oPE tosses fun n ω => ENNReal.ofReal (c n) * errNorm tosses (fun i ω => ω i) skewX (plrLhat (skewStudy E F) q) (fun _ => 5) p j n ω :=
    fun hc q j p hp => by
      have := (skewStudy E F).mean_rate hs hL "ml_l" (measurable_coin skewY) by' hc.1 hc.2 q j hp
      rwa [skewY_mean] at this
  have rm : ∀ {c : ℕ → ℝ}, (∀ n, 0 ≤ c n) ∧ Tendsto (fun n => c n ^ 2 / n) atTop (𝓝 0) → ∀ q j {p : ℝ≥0∞}, p ≠ 0 →
      oPE tosses fun n ω => ENNReal.ofReal (c n) * errNorm tosses (fun i ω => ω i) skewX (plrMhat (skewStudy E F) q) (fun _ => 1) p j n ω :=
    fun hc q j p hp => by
      have := (skewStudy E F).mean_rate hs hL "ml_m" (measurable_coin skewD) bd hc.1 hc.2 q j hp
      rwa [skewD_mean] at this
  have e : ∀ n : ℕ, ENNReal.ofReal (Real.sqrt n) = ENNReal.ofReal (Real.sqrt (Real.sqrt n)) * ENNReal.ofReal (Real.sqrt (Real.sqrt n)) := fun n => by
    rw [← ENNReal.ofReal_mul (Real.sqrt_nonneg _), Real.mul_self_sqrt (Real.sqrt_nonneg _)]
  refine ⟨fun _ => rfl, fun _ => rfl, fun _ => rfl, Eventually.of_forall fun _ _ => rfl, by rw [tosses_law]; exact skew_law, ?_, ?_, ?_, ?_⟩
  · rw [e5]
    refine ⟨fun _ => meanL_meas _, fun _ => meanL_meas _, fun q j => ?_, fun q j => ?_, fun q j => ?_⟩
    · simpa using rl one_rate q j (p := 4) (by norm_num)
    · simpa using rm one_rate q j (p := 4) (by norm_num)
    · have h1 := rm root_rate q j (p := 2) (by norm_num)
      have h2 := rl root_rate q j (p := 2) (by norm_num)
      refine (h1.mul (h1.add h2)).mono fun n ω => le_of_eq ?_
      rw [e]
      ring
  · intro q j
    rw [e5]
    have h2 := rl root_rate q j (p := 2) (by norm_num)
    refine (h2.mul h2).mono fun n ω => le_of_eq ?_
    rw [e]
    ring
  · rw [tosses_law, coin_sum]
    simp only [skew_noise, skewE, sgn, sum_coins, coin_two]
    norm_num
  · rw [tosses_law, coin_sum]
    simp only [skew_treat, sgn, sum_coins]
    norm_num

theorem skew_varE : ∫ w, (skewY w - 2 * skewD w - 3) ^ 2 ∂(tosses.map fun ω => ω 0) = 9 := by
  rw [tosses_law, coin_sum]
  simp only [skew_noise, skewE, sgn, sum_coins, coin_two]
  norm_num

theorem skew_varD : ∫ w, (skewD w - 1) ^ 2 ∂(tosses.map fun ω => ω 0) = 1 := by
  rw [tosses_law, coin_sum]
  simp only [skew_treat, sgn, sum_coins]
  norm_num

theorem skew_bound : biasBound (tosses.map fun ω => ω 0) (fun w => skewY w - 2 * skewD w - 3) (fun w => skewD w - 1) = 3 := by
  unfold biasBound
  rw [skew_varE, skew_varD, show (9 : ℝ) / 1 = 3 ^ 2 by norm_num]
  exact Real.sqrt_sq (by norm_num)

theorem skew_sd (e : ℝ) : boundSd (tosses.map fun ω => ω 0) (fun w => skewY w - 2 * skewD w - 3) (fun w => skewD w - 1) e =
    Real.sqrt (9 + 8 * e + 8 / 3 * e ^ 2) := by
  unfold boundSd
  congr 1
  simp only [coefIF, biasIF, skew_varE, skew_varD, skew_bound]
  rw [tosses_law, coin_sum]
  simp only [skew_noise, skew_treat, skewE, sgn, sum_coins, coin_two]
  norm_num
  ring

theorem skew_strength : confStrength (3 / 4) (3 / 4) 1 = 3 / 2 := by
  unfold confStrength
  rw [abs_one, one_mul, show (3 : ℝ) / 4 * (3 / 4 / (1 - 3 / 4)) = (3 / 2) ^ 2 by norm_num]
  exact Real.sqrt_sq (by norm_num)

/-- **C87 violated.**  In this model, with `cf_y = cf_d = 0.75` and `rho = 1`, the upper bound is `6.5` and the upper confidence limit is above it
with probability tending to `Φ(z / 3)` with `z` the quantile of the level, which is less than the level for every level above one half (`0.71` for `0.95`). -/
theorem C87_violated (E : Ext) (F : ∀ n, (ℕ → Fin 3 → Bool) → Frame n) {level : ℝ} (h1 : 1 / 2 < level) (h2 : level < 1) :
    PlrSensSetup (skewStudy E F) 2 (fun _ => 3) (fun _ => 1) ∧
    (2 + confStrength (3 / 4) (3 / 4) 1 * biasBound (tosses.map fun ω => ω 0) (fun w => skewY w - 2 * skewD w - 3) fun w => skewD w - 1) = 13 / 2 ∧
    ProbTends tosses (fun n => {ω | ∃ res, IsSens ((skewStudy E F).fitted n ω) (3 / 4) (3 / 4) 1 level res ∧ 13 / 2 ≤ res.ciUpper})
      (Phi (ppf level / 3)) ∧ Phi (ppf level / 3) < level := by
  have hb : (2 + confStrength (3 / 4) (3 / 4) 1 * biasBound (tosses.map fun ω => ω 0) (fun w => skewY w - 2 * skewD w - 3) fun w => skewD w - 1) =
      13 / 2 := by
    rw [skew_bound, skew_strength]
    norm_num
  have s1 : Real.sqrt 27 = 3 * Real.sqrt 3 := by
    rw [show (27 : ℝ) = 3 ^ 2 * 3 by norm_num, Real.sqrt_mul (by norm_num), Real.sqrt_sq (by norm_num)]
  have p3 : 0 < Real.sqrt 3 := Real.sqrt_pos.2 (by norm_num)
  have eup : boundSd (tosses.map fun ω => ω 0) (fun w => skewY w - 2 * skewD w - 3) (fun w => skewD w - 1) (confStrength (3 / 4) (3 / 4) 1) =
      3 * Real.sqrt 3 := by
    rw [skew_sd, skew_strength, ← s1]
    norm_num
  have elo : boundSd (tosses.map fun ω => ω 0) (fun w => skewY w - 2 * skewD w - 3) (fun w => skewD w - 1) (-confStrength (3 / 4) (3 / 4) 1) =
      Real.sqrt 3 := by
    rw [skew_sd, skew_strength]
    norm_num
  have h := (C87_limits (skew_setup E F) (cfy := 3 / 4) (cfd := 3 / 4) (rho := 1) (level := level) (by norm_num) (by norm_num) (by norm_num)
    ⟨by linarith, h2⟩ (fun _ => rfl) (by rw [elo]; exact p3.ne') (by rw [eup]; exact (mul_pos three_pos p3).ne')).2
  rw [hb, elo, eup] at h
  have e3 : ppf level * Real.sqrt 3 / (3 * Real.sqrt 3) = ppf level / 3 := mul_div_mul_right _ _ p3.ne'
  rw [e3] at h
  refine ⟨skew_setup E F, hb, h, ?_⟩
  have hp : Phi (ppf level) = level := Phi_ppf (by linarith) h2
  have hpos : 0 < ppf level := by
    by_contra hc
    have := Phi_strictMono.monotone (not_lt.1 hc)
    rw [hp, Phi_zero] at this
    linarith
  calc Phi (ppf level / 3) < Phi (ppf level) := Phi_strictMono (by linarith)
    _ = level := hp

/-- The hypotheses of `C87_bounds` are met: the bounds of this model are `-2.5` and `6.5`. -/
example (E : Ext) (F : ∀ n, (ℕ → Fin 3 → Bool) → Frame n) : ProbTends tosses (fun n => {ω | ∃ res,
    IsSens ((skewStudy E F).fitted n ω) (3 / 4) (3 / 4) 1 (95 / 100) res ∧ |res.thetaLower - (-5 / 2)| < 1 / 10 ∧
      |res.thetaUpper - 13 / 2| < 1 / 10}) 1 := by
  have h := C87_bounds (skew_setup E F) (cfy := 3 / 4) (cfd := 3 / 4) (rho := 1) (level := 95 / 100) (by norm_num) (by norm_num) (by norm_num)
    (by norm_num) (η := 1 / 10) (by norm_num)
  rw [skew_bound, skew_strength, show (2 : ℝ) - 3 / 2 * 3 = -5 / 2 by norm_num, show (2 : ℝ) + 3 / 2 * 3 = 13 / 2 by norm_num] at h
  exact h

/-- The hypotheses of `C87_cover_partial` are met by the model with a symmetric error and three repetitions. -/
example (E : Ext) (F : ∀ n, (ℕ → Fin 3 → Bool) → Frame n) :
    ProbTends tosses (fun n => {ω | ∃ res, IsSens ((plrStudy E F).fitted n ω) (1 / 2) (1 / 3) 1 (95 / 100) res ∧ res.ciLower ≤ 3 / 2}) (95 / 100) ∧
    ProbTends tosses (fun n => {ω | ∃ res, IsSens ((plrStudy E F).fitted n ω) (1 / 2) (1 / 3) 1 (95 / 100) res ∧ 5 / 2 ≤ res.ciUpper}) (95 / 100) := by
  have e1 : ∀ w, plrY w - 2 * plrD w - 3 = sgn (w 2) := fun w => by
    unfold plrY plrD
    ring
  have e2 : ∀ w, plrD w - 1 = sgn (w 1) := fun w => by
    unfold plrD
    ring
  have v1 : ∫ w, (plrY w - 2 * plrD w - 3) ^ 2 ∂(tosses.map fun ω => ω 0) = 1 := by
    rw [tosses_law, coin_sum]
    simp only [e1, sgn, sum_coins, coin_two]
    norm_num
  have v2 : ∫ w, (plrD w - 1) ^ 2 ∂(tosses.map fun ω => ω 0) = 1 := by
    rw [tosses_law, coin_sum]
    simp only [e2, sgn, sum_coins]
    norm_num
  have hb : biasBound (tosses.map fun ω => ω 0) (fun w => plrY w - 2 * plrD w - 3) (fun w => plrD w - 1) = 1 := by
    unfold biasBound
    rw [v1, v2]
    norm_num
  have hc : confStrength (1 / 2) (1 / 3) 1 = 1 / 2 := by
    unfold confStrength
    rw [abs_one, one_mul, show (1 : ℝ) / 2 * (1 / 3 / (1 - 1 / 3)) = (1 / 2) ^ 2 by norm_num]
    exact Real.sqrt_sq (by norm_num)
  have hs : ∀ n α, (plrStudy E F).splits n α = (List.range 3).map fun _ => kfold 2 (Equiv.refl (Fin n)) := fun _ _ => rfl
  have hL : ∀ᶠ n in atTop, ∀ T ∈ (List.range 3).map fun _ => kfold 2 (Equiv.refl (Fin n)), ∀ f ∈ T,
      f.train.Nodup ∧ n ≤ 4 * f.train.length := by
    filter_upwards [eventually_ge_atTop 8] with n hn T hT f hf
    obtain ⟨q, -, rfl⟩ := List.mem_map.1 hT
    exact kfold_train_length le_rfl (by omega) hn _ hf
  have by' : ∀ w, |plrY w| ≤ 8 := fun w => by
    unfold plrY sgn
    cases w 1 <;> cases w 2 <;> norm_num
  have setup : PlrSensSetup (plrStudy E F) 2 (fun _ => 3) fun _ => 1 :=
    ⟨fun _ => rfl, fun _ => rfl, fun _ => rfl, Eventually.of_forall fun _ _ => rfl, by rw [tosses_law]; exact plr_law, plr_rates E F, fun q j => by
      have h2 : oPE tosses fun n ω => ENNReal.ofReal (Real.sqrt (Real.sqrt n)) *
          errNorm tosses (fun i ω => ω i) plrX (plrLhat (plrStudy E F) q) (fun _ => 2 * 1 + 3) 2 j n ω := by
        have := (plrStudy E F).mean_rate hs hL "ml_l" (measurable_coin plrY) by' root_rate.1 root_rate.2 q j (p := 2) (by norm_num)
        rwa [plrY_mean] at this
      refine (h2.mul h2).mono fun n ω => le_of_eq ?_
      have e : ENNReal.ofReal (Real.sqrt n) = ENNReal.ofReal (Real.sqrt (Real.sqrt n)) * ENNReal.ofReal (Real.sqrt (Real.sqrt n)) := by
        rw [← ENNReal.ofReal_mul (Real.sqrt_nonneg _), Real.mul_self_sqrt (Real.sqrt_nonneg _)]
      rw [e]
      ring, by rw [v1]; exact one_ne_zero, by rw [v2]; exact one_ne_zero⟩
  have h := C87_cover_partial setup (cfy := 1 / 2) (cfd := 1 / 3) (rho := 1) (level := 95 / 100) (by norm_num) (by norm_num) (by norm_num)
    (by norm_num) (by
      rw [tosses_law, coin_sum]
      simp only [e1, e2, sgn, sum_coins, coin_two]
      norm_num) (by
      unfold boundSd
      refine (Real.sqrt_pos.2 ?_).ne'
      simp only [coefIF, biasIF, v1, v2, hb, hc]
      rw [tosses_law, coin_sum]
      simp only [e1, e2, sgn, sum_coins, coin_two]
      norm_num)
  rw [hb, hc, show (2 : ℝ) - 1 / 2 * 1 = 3 / 2 by norm_num, show (2 : ℝ) + 1 / 2 * 1 = 5 / 2 by norm_num] at h
  exact h

end DML
