import Verif.AsymptoticBlpProps
import Verif.AsymptoticIrmExamples

/-!
# Large-sample properties of best linear predictors: examples

Nothing here models code of the package.
-/

namespace DML

open MeasureTheory ProbabilityTheory Filter Topology
open scoped ENNReal

/-! ## Least squares exist -/

theorem exists_leastSquares {n p : ℕ} (s : Fin n → ℝ) (X : Fin n → Fin p → ℝ) (h : FullRank X) : ∃ o, LeastSquares s X o := by
  have hsym : ∀ j k, ∑ i, X i j * X i k = ∑ i, X i k * X i j := fun j k => Finset.sum_congr rfl fun i _ => mul_comm _ _
  have hinj : ∀ u : Fin p → ℝ, (∀ j, ∑ k, (∑ i, X i j * X i k) * u k = 0) → u = 0 := fun u hu => h u fun i => by
    have e : ∑ i, (∑ j, X i j * u j) ^ 2 = ∑ j, u j * ∑ k, (∑ i, X i j * X i k) * u k := by
      simp only [sq, Finset.sum_mul, Finset.mul_sum]
      rw [Finset.sum_comm]
      refine Finset.sum_congr rfl fun j _ => ?_
      rw [Finset.sum_comm]
      exact Finset.sum_congr rfl fun k _ => Finset.sum_congr rfl fun i _ => by ring
    simp only [hu, mul_zero, Finset.sum_const_zero] at e
    exact pow_eq_zero_iff two_ne_zero |>.1 ((Finset.sum_eq_zero_iff_of_nonneg fun i _ => sq_nonneg _).1 e i (Finset.mem_univ i))
  obtain ⟨G, hG⟩ := exists_inverse hsym hinj
  have hGA : Matrix.of G * Matrix.of (fun j k => ∑ i, X i j * X i k) = 1 := by
    ext a j
    rw [Matrix.mul_apply, Matrix.one_apply]
    exact hG a j
  have hAG := mul_eq_one_comm.1 hGA
  set A := Matrix.of fun j k => ∑ i, X i j * X i k with hA
  refine ⟨⟨(Matrix.of G).mulVec fun j => ∑ i, X i j * s i, Matrix.of G * (Matrix.of fun j k => ∑ i, X i j * X i k *
    (s i - ∑ k, X i k * ((Matrix.of G).mulVec fun j => ∑ i, X i j * s i) k) ^ 2) * Matrix.of G⟩, fun j => ?_, fun j k => ?_⟩
  · have e1 : A.mulVec ((Matrix.of G).mulVec fun j => ∑ i, X i j * s i) = fun j => ∑ i, X i j * s i := by
      rw [Matrix.mulVec_mulVec, hAG, Matrix.one_mulVec]
    have e2 := congrFun e1 j
    simp only [mul_sub, Finset.sum_sub_distrib]
    rw [← e2]
    generalize (Matrix.of G).mulVec (fun j => ∑ i, X i j * s i) = b
    unfold Matrix.mulVec dotProduct
    rw [sub_eq_zero]
    simp only [hA, Matrix.of_apply, Finset.sum_mul, Finset.mul_sum]
    rw [Finset.sum_comm]
    exact Finset.sum_congr rfl fun i _ => Finset.sum_congr rfl fun k _ => by ring
  · set M := Matrix.of fun j k => ∑ i, X i j * X i k * (s i - ∑ k, X i k * ((Matrix.of G).mulVec fun j => ∑ i, X i j * s i) k) ^ 2 with hM
    have e : (A * (Matrix.of G * M * Matrix.of G) * A) j k = M j k := by
      have : A * (Matrix.of G * M * Matrix.of G) * A = (A * Matrix.of G) * M * (Matrix.of G * A) := by simp only [Matrix.mul_assoc]
      rw [this, hAG, hGA, Matrix.one_mul, Matrix.mul_one]
    refine Eq.trans ?_ e
    rw [Matrix.mul_apply]
    refine Finset.sum_comm.trans (Finset.sum_congr rfl fun c _ => ?_)
    rw [Matrix.mul_apply, Finset.sum_mul]
    rfl

theorem exists_ols : ∃ ols : Ols, OlsSpec ols := by
  classical
  refine ⟨fun s X => if h : FullRank X then (exists_leastSquares s X h).choose else ⟨fun _ => 0, fun _ _ => 0⟩, fun s X h => ?_⟩
  show LeastSquares s X (if h : FullRank X then (exists_leastSquares s X h).choose else ⟨fun _ => 0, fun _ _ => 0⟩)
  rw [dif_pos h]
  exact (exists_leastSquares s X h).choose_spec

/-! ## Conditional average treatment effects -/

/-- A constant and the sign of the covariate. -/
noncomputable def lineX (u : ℝ) (j : Fin 2) : ℝ := if j = 0 then 1 else if 0 < u then 1 else -1

theorem lineX_zero (u : ℝ) : lineX u 0 = 1 := rfl

theorem lineX_one (w : Fin 3 → Bool) : lineX (plrX w) 1 = plrX w := by
  unfold lineX plrX sgn
  cases w 0 <;> norm_num

theorem lineX_meas (j : Fin 2) : Measurable fun u => lineX u j := by
  unfold lineX
  split
  · exact measurable_const
  · exact Measurable.ite measurableSet_Ioi measurable_const measurable_const

theorem lineX_bdd (u : ℝ) (j : Fin 2) : |lineX u j| ≤ 1 := by
  unfold lineX
  split_ifs <;> norm_num

theorem plrX_sq (w : Fin 3 → Bool) : plrX w ^ 2 = 1 := sgn_sq _

theorem plrX_abs (w : Fin 3 → Bool) : |plrX w| = 1 := sgn_abs _

theorem plrX_mean : ∫ w, plrX w ∂coins = 0 := coin_mean 0

theorem lineX_gram (j k : Fin 2) : ∫ w, lineX (plrX w) j * lineX (plrX w) k ∂coins = if j = k then 1 else 0 := by
  have h : ∀ w, plrX w * plrX w = 1 := fun w => by rw [← sq]; exact plrX_sq w
  fin_cases j <;> fin_cases k
  · simp [lineX_zero]
  · simpa [lineX_zero, lineX_one] using plrX_mean
  · simpa [lineX_zero, lineX_one] using plrX_mean
  · simp [lineX_one, h]

theorem lineX_rank (u : Fin 2 → ℝ) (h : ∫ w, (∑ j, lineX (plrX w) j * u j) ^ 2 ∂coins = 0) : u = 0 := by
  have e : ∀ w, (∑ j, lineX (plrX w) j * u j) ^ 2 = u 0 ^ 2 + u 1 ^ 2 + 2 * u 0 * u 1 * plrX w := fun w => by
    rw [Fin.sum_univ_two, lineX_zero, lineX_one]
    linear_combination u 1 ^ 2 * plrX_sq w
  simp only [e] at h
  rw [integral_add (integrable_const _) Integrable.of_finite, integral_const_mul, plrX_mean, integral_const, probReal_univ, one_smul,
    mul_zero, add_zero] at h
  have h0 : u 0 = 0 := by nlinarith [sq_nonneg (u 0), sq_nonneg (u 1)]
  have h1 : u 1 = 0 := by nlinarith [sq_nonneg (u 0), sq_nonneg (u 1)]
  funext j
  fin_cases j
  · exact h0
  · exact h1

theorem ate_dev (w : Fin 3 → Bool) : (1 + plrX w - plrX w + irmD w * (irmY w - (1 + plrX w)) / (1 / 2) -
    (1 - irmD w) * (irmY w - plrX w) / (1 - 1 / 2) - ∑ k, lineX (plrX w) k * (if k = 0 then 1 else 0)) ^ 2 = 1 / 4 := by
  rw [Fin.sum_univ_two, lineX_zero]
  simpa using ate_sq w

/-- The hypotheses of `C82_irm_cate` are met: the effect is one for all, so that the coefficient of the covariate is zero; the
asymptotic standard deviations are one half. -/
theorem irm_cate_ex {ols : Ols} (hols : OlsSpec ols) (E : Ext) (F : ∀ n, (ℕ → Fin 3 → Bool) → Frame n) (isGate : Bool) (j : Fin 2) :
    BlpValid ols tosses (irmStudy E F false false 1).fitted ["const", "x"] (fun _ ω i j => lineX (plrX (ω i)) j) isGate
      (fun k => if j = k then 1 else 0) (if j = 0 then 1 else 0) (1 / 2) := by
  have h := C82_irm_cate (H := irmStudy E F false false 1) hols (τ := 1 / 100) (fun _ => rfl) (fun _ => rfl) (fun _ => rfl) (fun _ => rfl)
    (fun _ => rfl) (irmRound_at false false) (fun _ => exRound_compliant) (Eventually.of_forall fun _ _ => rfl) (irm_both E F false false 1)
    (g₀ := fun x => x) (g₁ := fun x => 1 + x) (m := fun _ => 1 / 2) (by rw [tosses_law]; exact irm_law) (irm_rates E F false false 1)
    lineX_meas lineX_bdd (by rw [tosses_law]; exact lineX_rank) (β := fun k => if k = 0 then 1 else 0)
    (by
      intro j
      rw [tosses_law]
      have : ∀ w, lineX (plrX w) j * (1 + plrX w - plrX w - ∑ k, lineX (plrX w) k * if k = 0 then 1 else 0) = 0 := fun w => by
        rw [Fin.sum_univ_two, lineX_zero]
        simp
      simp only [this]
      simp)
    (names := ["const", "x"]) (by decide) isGate (v := fun k => if j = k then 1 else 0) (c := fun k => if j = k then 1 else 0)
    (by
      intro k
      rw [tosses_law]
      simp only [lineX_gram, mul_ite, mul_one, mul_zero, Finset.sum_ite_eq, Finset.mem_univ, if_true]
      exact if_congr eq_comm rfl rfl)
    (σ := 1 / 2) (by norm_num)
    (by
      rw [tosses_law]
      have h1 : ∀ w, (∑ k, (if j = k then (1 : ℝ) else 0) * lineX (plrX w) k) ^ 2 = 1 := fun w => by
        simp only [ite_mul, one_mul, zero_mul, Finset.sum_ite_eq, Finset.mem_univ, if_true]
        fin_cases j
        · simp [lineX_zero]
        · simpa [lineX_one] using plrX_sq w
      simp only [mul_pow, h1, ate_dev]
      simp
      norm_num)
  simpa only [ite_mul, one_mul, zero_mul, Finset.sum_ite_eq, Finset.mem_univ, if_true] using h

/-- **C82 is violated by the table of coefficients**: for the fits of the example, with effect one for all and data that meet every
condition of `C82_irm_cate`, the intervals at level `l` of `cate(basis).confint(level=l)` do not cover the coefficients with
probability tending to `l`. -/
theorem C82_coefficients_violated (E : Ext) (F : ∀ n, (ℕ → Fin 3 → Bool) → Frame n) : ∃ ols : Ols, OlsSpec ols ∧
    ∀ (j : Fin 2) l, 0 < l → l < 1 → ∀ (B : ℤ), 1 ≤ B →
      ¬ProbTends tosses (fun n => {ω | ∃ b T, IsCate ols ((irmStudy E F false false 1).fitted n ω) ["const", "x"]
        (fun i j => lineX (plrX (ω i)) j) false b ∧
        (∀ root z, b.confint root z .none (.bool false) (.float l) (.int B) = .ok ⟨2, some ["const", "x"], T⟩) ∧
        (T j).1 ≤ (if j = 0 then 1 else 0) ∧ (if j = 0 then 1 else 0) ≤ (T j).2.2}) l := by
  obtain ⟨ols, hols⟩ := exists_ols
  refine ⟨ols, hols, fun j l h0 h1 B hB h => ?_⟩
  have h2 := (irm_cate_ex hols E F false j).coef rfl l h0 h1 B hB j rfl
  have := tendsto_nhds_unique h.1 h2.1
  linarith

/-! ## Groups -/

/-- Negative and positive values of the covariate. -/
def halves (u : ℝ) (j : Fin 2) : Prop := if j = 0 then u < 0 else 0 < u

open Classical in
/-- The indicators of the two groups. -/
noncomputable def halfBits (u : ℝ) (j : Fin 2) : Bool := decide (halves u j)

theorem halfBits_meas (j : Fin 2) : Measurable fun u => halfBits u j := by
  refine measurable_to_bool ?_
  have : (fun u => halfBits u j) ⁻¹' {true} = {u | halves u j} := by
    ext u
    simp [halfBits]
  rw [this]
  unfold halves
  split
  · exact measurableSet_Iio
  · exact measurableSet_Ioi

theorem halfBits_iff (u : ℝ) (j : Fin 2) : halfBits u j = true ↔ halves u j := by simp [halfBits]

theorem halfBits_excl (u : ℝ) (j k : Fin 2) (h1 : halfBits u j = true) (h2 : halfBits u k = true) : j = k := by
  rw [halfBits_iff] at h1 h2
  unfold halves at h1 h2
  fin_cases j <;> fin_cases k <;> simp at h1 h2 ⊢ <;> linarith

theorem halfBits_bit (w : Fin 3 → Bool) (j : Fin 2) : bit (halfBits (plrX w) j) = 1 / 2 + (if j = 0 then -1 else 1) * plrX w / 2 := by
  unfold bit halfBits halves plrX sgn
  fin_cases j <;> cases w 0 <;> norm_num

theorem halfBits_prob (j : Fin 2) : coins.real {w | halfBits (plrX w) j = true} = 1 / 2 := by
  rw [← integral_bit_one (μ := coins) (G := fun w => halfBits (plrX w)) (fun j => measurable_coin _) j]
  simp only [halfBits_bit]
  rw [integral_add (integrable_const _) Integrable.of_finite]
  simp only [integral_div, integral_const_mul, plrX_mean]
  simp

theorem halfBits_const (j : Fin 2) (c : ℝ) : ∫ _w in {w | halfBits (plrX w) j = true}, c ∂coins = c / 2 := by
  rw [integral_const, measureReal_restrict_apply MeasurableSet.univ, Set.univ_inter, halfBits_prob, smul_eq_mul]
  ring

theorem half_sqrt : 0 < Real.sqrt (1 / 2) ∧ Real.sqrt (1 / 2) ^ 2 = 1 / 2 :=
  ⟨Real.sqrt_pos.2 (by norm_num), Real.sq_sqrt (by norm_num)⟩

/-- The hypotheses of `C82_irm_gate` are met: both groups have effect one, with asymptotic variance one half. -/
example {ols : Ols} (hols : OlsSpec ols) (E : Ext) (F : ∀ n, (ℕ → Fin 3 → Bool) → Frame n) (j : Fin 2) :
    GateValid ols tosses (irmStudy E F false false 1).fitted ["low", "high"] (fun n ω => boolFrame (List.ofFn fun k : Fin 2 =>
      (["low", "high"][k], fun i : Fin n => halfBits (plrX (ω i)) k))) j 1 (Real.sqrt (1 / 2)) := by
  refine C82_irm_gate (H := irmStudy E F false false 1) hols (τ := 1 / 100) (fun _ => rfl) (fun _ => rfl) (fun _ => rfl) (fun _ => rfl)
    (fun _ => rfl) (irmRound_at false false) (fun _ => exRound_compliant) (Eventually.of_forall fun _ _ => rfl) (irm_both E F false false 1)
    (g₀ := fun x => x) (g₁ := fun x => 1 + x) (m := fun _ => 1 / 2) (by rw [tosses_law]; exact irm_law) (irm_rates E F false false 1)
    (names := ["low", "high"]) (by decide) (gr := halfBits) halfBits_meas halfBits_excl (fun j => by rw [tosses_law, halfBits_prob]; norm_num) j ?_ half_sqrt.1 ?_
  · rw [tosses_law]
    simp only [add_sub_cancel_right]
    rw [halfBits_const, halfBits_prob]
    norm_num
  · rw [tosses_law, half_sqrt.2]
    simp only [ate_sq]
    rw [halfBits_const, halfBits_prob]
    norm_num

/-! ## Potential outcomes -/

/-- The hypotheses of `C82_apo_gapo` are met: the groups are the values of the covariate, with mean outcomes zero and two under
treatment and asymptotic standard deviation one half.  The proof applies `C82_apo_capo` to the indicators of the groups, so that its
hypotheses are met as well. -/
example {ols : Ols} (hols : OlsSpec ols) (E : Ext) (F : ∀ n, (ℕ → Fin 3 → Bool) → Frame n) (j : Fin 2) :
    GateValid ols tosses (apoStudy E F false 1).fitted ["low", "high"] (fun n ω => boolFrame (List.ofFn fun k : Fin 2 =>
      (["low", "high"][k], fun i : Fin n => halfBits (plrX (ω i)) k))) j (if j = 0 then 0 else 2) (1 / 2) := by
  refine C82_apo_gapo (H := apoStudy E F false 1) hols (τ := 1 / 100) (l := 1) (fun _ => rfl) (fun _ => rfl) (fun _ => rfl) (fun _ => rfl)
    (fun _ => rfl) (apoRound_at false) (fun _ => exRound_compliant) (Eventually.of_forall fun _ _ => rfl)
    (by rw [atLevel_one]; exact apo_both E F false 1) (g := fun x => 1 + x) (m := fun _ => 1 / 2)
    (by rw [tosses_law, atLevel_one]; exact irm_law.treated (by norm_num)) (fun _ => by norm_num) (apo_rates E F false 1)
    (names := ["low", "high"]) (by decide) (gr := halfBits) halfBits_meas halfBits_excl
    (fun j => by rw [tosses_law, halfBits_prob]; norm_num) j ?_ (by norm_num) ?_
  · rw [tosses_law, ← integral_bit (μ := coins) (G := fun w => halfBits (plrX w)) (fun j => measurable_coin _) j, halfBits_prob]
    have : ∀ w, bit (halfBits (plrX w) j) * (1 + plrX w) = (if j = 0 then 0 else 2) * (1 / 2) + (if j = 0 then 0 else 1) * plrX w := fun w => by
      rw [halfBits_bit]
      have := plrX_sq w
      split_ifs
      · linear_combination (-1 / 2) * this
      · linear_combination (1 / 2) * this
    simp only [this]
    rw [integral_add (integrable_const _) Integrable.of_finite]
    simp only [integral_const_mul, plrX_mean]
    simp
  · rw [tosses_law, atLevel_one, ← integral_bit (μ := coins) (G := fun w => halfBits (plrX w)) (fun j => measurable_coin _) j, halfBits_prob]
    have : ∀ w, bit (halfBits (plrX w) j) * (1 + plrX w + irmD w * (irmY w - (1 + plrX w)) / (1 / 2) - if j = 0 then 0 else 2) ^ 2 =
        bit (halfBits (plrX w) j) * (irmD w / 4) := fun w => by
      rw [halfBits_bit]
      unfold irmY irmD plrX sgn
      fin_cases j <;> cases w 0 <;> cases w 1 <;> cases w 2 <;> norm_num
    have h2 : ∀ w, bit (halfBits (plrX w) j) * (irmD w / 4) = 1 / 16 + (if j = 0 then -1 else 1) / 16 * plrX w + sgn (w 1) / 16 +
        (if j = 0 then -1 else 1) / 16 * (plrX w * sgn (w 1)) := fun w => by
      rw [halfBits_bit]
      have : irmD w = 1 / 2 + sgn (w 1) / 2 := by unfold irmD sgn; cases w 1 <;> norm_num
      rw [this]
      ring
    have i : IndepFun (fun w : Fin 3 → Bool => plrX w) (fun w => sgn (w 1)) coins :=
      (coins_indep.indepFun (i := 0) (j := 1) (by decide)).comp (φ := sgn) (ψ := sgn) (measurable_of_countable _) (measurable_of_countable _)
    have h3 : ∫ w, plrX w * sgn (w 1) ∂coins = 0 := by
      rw [i.integral_fun_mul_eq_mul_integral (measurable_coin _).aestronglyMeasurable (measurable_coin _).aestronglyMeasurable, coin_mean]
      simp
    simp only [this, h2]
    rw [integral_add Integrable.of_finite Integrable.of_finite, integral_add Integrable.of_finite Integrable.of_finite,
      integral_add Integrable.of_finite Integrable.of_finite]
    simp only [integral_const_mul, integral_div, plrX_mean, h3, coin_mean]
    norm_num

end DML
