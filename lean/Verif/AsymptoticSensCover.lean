import Verif.AsymptoticSensProps
import Verif.AsymptoticSensExamples

/-!
# Confidence limits of the sensitivity analysis: values inside and outside the bounds (C87)

The exchanged standard errors of `C87_limits` do not change where the confidence limits go: both converge to the bounds.  So effects strictly
between the bounds are covered and effects beyond the bounds are excluded with probability tending to one.
-/

namespace DML

open MeasureTheory ProbabilityTheory Filter Topology
open scoped ENNReal

variable {Ω : Type*} {mΩ : MeasurableSpace Ω} {P : Measure Ω} {S : Type*} [MeasurableSpace S] {𝒳 : Type*} [MeasurableSpace 𝒳]
  {W : ℕ → Ω → S} {Q : Type} {E : Ext} {r K : ℕ} {tv : String} {y d : S → ℝ} {ξ : S → 𝒳} {enc : 𝒳 → List Cell}

/-- Events that contain events whose probability tends to one. -/
theorem ProbTends.up [IsProbabilityMeasure P] {A A' : ℕ → Set Ω} (h : ProbTends P A 1) (hA : ∀ n, ∀ ω ∈ A n, ω ∈ A' n) : ProbTends P A' 1 := by
  have h2 := h.2
  rw [sub_self] at h2
  refine ⟨tendsto_of_tendsto_of_tendsto_of_le_of_le h.1 tendsto_const_nhds (fun n => measureReal_mono (hA n)) fun n => measureReal_le_one, ?_⟩
  rw [sub_self]
  exact tendsto_of_tendsto_of_tendsto_of_le_of_le tendsto_const_nhds h2 (fun n => measureReal_nonneg)
    fun n => measureReal_mono (Set.compl_subset_compl.2 (hA n))

/-- Confidence limits made of the scores of `RatioParts` are consistent.  Nothing here models code of the package. -/
theorem RatioParts.ci_tends [IsProbabilityMeasure P] {ε v : S → ℝ} {θ : ℝ} (hr : 0 < r) (hW : Iid P W) {uu uv vv : Fin r → ∀ n, Ω → Fin n → ℝ}
    (h : ∀ k, RatioParts P W (uu k) (uv k) (vv k) ε v θ) (e z : ℝ) :
    oP P fun n ω => median (fun k => ratioCoef (uv k n ω) (vv k n ω) + e * ratioBias (uu k n ω) (uv k n ω) (vv k n ω) +
      z * Real.sqrt (1 / n * mean fun i => ratioScore (uu k n ω) (uv k n ω) (vv k n ω) e i ^ 2)) - (θ + e * biasBound (P.map (W 0)) ε v) := by
  have h1 := oP.median (P := P) hr (m := fun _ => 1) (X := fun n ω k => ratioCoef (uv k n ω) (vv k n ω) +
    e * ratioBias (uu k n ω) (uv k n ω) (vv k n ω) + z * Real.sqrt (1 / n * mean fun i => ratioScore (uu k n ω) (uv k n ω) (vv k n ω) e i ^ 2))
    (Y := fun _ _ => θ + e * biasBound (P.map (W 0)) ε v) fun k => by
      have t1 := (LinExp.comb 1 e ((h k).coef hW) ((h k).bias hW)).tends hW
      have t2 : oP P fun n ω => Real.sqrt (1 / n * mean fun i => ratioScore (uu k n ω) (uv k n ω) (vv k n ω) e i ^ 2) := by
        refine oP.sqrt (oP.mono (oP.mul_OP (oP.sq oP.inv_root) (OP_of_sub (((h k).score hW e).square_tends hW)))
          (Eventually.of_forall fun n ω => le_of_eq (congrArg _ ?_)))
        rw [inv_pow, Real.sq_sqrt (Nat.cast_nonneg n), one_div]
      refine (t1.add (t2.const_mul z)).mono (Eventually.of_forall fun n ω => le_of_eq (congrArg _ ?_))
      ring
  exact h1.mono (Eventually.of_forall fun n ω => le_of_eq (congrArg _ (one_mul _).symm))

/-- One-sided confidence limits with the scores of the other end have the right coverage.  Nothing here models code of the package. -/
theorem RatioParts.limits_exchanged [IsProbabilityMeasure P] {ε v : S → ℝ} {θ : ℝ} (hr : 0 < r) (hW : Iid P W)
    {uu uv vv : Fin r → ∀ n, Ω → Fin n → ℝ} (h : ∀ k, RatioParts P W (uu k) (uv k) (vv k) ε v θ) (e : ℝ)
    (hsd : boundSd (P.map (W 0)) ε v e ≠ 0) (z : ℝ) :
    ProbTends P (fun n => {ω | median (fun k => ratioCoef (uv k n ω) (vv k n ω) + e * ratioBias (uu k n ω) (uv k n ω) (vv k n ω) -
      z * Real.sqrt (1 / n * mean fun i => ratioScore (uu k n ω) (uv k n ω) (vv k n ω) (-e) i ^ 2)) ≤ θ + e * biasBound (P.map (W 0)) ε v})
      (Phi z) ∧
    ProbTends P (fun n => {ω | θ + e * biasBound (P.map (W 0)) ε v ≤ median fun k =>
      ratioCoef (uv k n ω) (vv k n ω) + e * ratioBias (uu k n ω) (uv k n ω) (vv k n ω) +
      z * Real.sqrt (1 / n * mean fun i => ratioScore (uu k n ω) (uv k n ω) (vv k n ω) (-e) i ^ 2)}) (Phi z) := by
  have key := limit_cover hr hW (χ := fun w => coefIF (P.map (W 0)) ε v w + e * biasIF (P.map (W 0)) ε v w)
    (L := fun n ω k => ratioCoef (uv k n ω) (vv k n ω) + e * ratioBias (uu k n ω) (uv k n ω) (vv k n ω))
    (s := fun n ω k => Real.sqrt (1 / n * mean fun i => ratioScore (uu k n ω) (uv k n ω) (vv k n ω) (-e) i ^ 2))
    (ρ := boundSd (P.map (W 0)) ε v e)
    (fun k => (LinExp.comb 1 e ((h k).coef hW) ((h k).bias hW)).congr (fun n ω => by rw [one_mul]) (by rw [one_mul]) fun w => by rw [one_mul])
    (fun k => by
      have h1 := (((h k).score hW (-e)).square_tends hW).continuousAt (f := Real.sqrt) Real.continuous_sqrt.continuousAt
      have e1 : boundSd (P.map (W 0)) ε v e =
          Real.sqrt (∫ w, (-coefIF (P.map (W 0)) ε v w + -e * biasIF (P.map (W 0)) ε v w) ^ 2 ∂(P.map (W 0))) := by
        unfold boundSd
        congr 2
        funext w
        ring
      rw [e1]
      refine h1.mono ?_
      filter_upwards [eventually_gt_atTop 0] with n hn ω
      refine le_of_eq (congrArg _ (congrArg (· - _) ?_))
      have h3 : (0 : ℝ) < n := by exact_mod_cast hn
      rw [← Real.sqrt_mul h3.le, ← mul_assoc, mul_one_div, div_self h3.ne', one_mul])
    (lt_of_le_of_ne (Real.sqrt_nonneg _) (Ne.symm hsd)) (Real.sq_sqrt (integral_nonneg fun w => sq_nonneg _)) z
  change ProbTends P _ (Phi (z * boundSd (P.map (W 0)) ε v e / boundSd (P.map (W 0)) ε v e)) ∧
    ProbTends P _ (Phi (z * boundSd (P.map (W 0)) ε v e / boundSd (P.map (W 0)) ε v e)) at key
  rwa [mul_div_assoc, div_self hsd, mul_one] at key

variable {k : ∀ n, PlrClass n Q} {H : Study E P W r K (fun n => plrSpec (k n)) tv y d ξ enc}
  [IsProbabilityMeasure P] {θ : ℝ} {g m : 𝒳 → ℝ} {cfy cfd rho level : ℝ}

/-- **C87, the confidence limits converge to the bounds** in probability. -/
theorem C87_limits_consistent (h : PlrSensSetup H θ g m) (hy : 0 ≤ cfy ∧ cfy < 1) (hd : 0 ≤ cfd ∧ cfd < 1) (hr : -1 ≤ rho ∧ rho ≤ 1)
    (hl : 0 < level ∧ level < 1) {η : ℝ} (hη : 0 < η) :
    ProbTends P (fun n => {ω | ∃ res, IsSens (H.fitted n ω) cfy cfd rho level res ∧
      |res.ciLower - (θ - confStrength cfy cfd rho * biasBound (P.map (W 0)) (fun w => y w - θ * d w - g (ξ w)) fun w => d w - m (ξ w))| < η ∧
      |res.ciUpper - (θ + confStrength cfy cfd rho * biasBound (P.map (W 0)) (fun w => y w - θ * d w - g (ξ w)) fun w => d w - m (ξ w))| < η})
      1 := by
  have a1 := RatioParts.ci_tends H.reps H.iid h.parts (-confStrength cfy cfd rho) (-ppf level)
  have a2 := RatioParts.ci_tends H.reps H.iid h.parts (confStrength cfy cfd rho) (ppf level)
  have h3 := ((a1 η hη).add (a2 η hη)).add h.bad
  rw [add_zero, add_zero] at h3
  have h4 : ProbTends P (fun _ => Set.univ) 1 := ⟨by simp, by simp⟩
  refine h4.congr_off (B := fun n => _) (tendsto_zero_of_le (Eventually.of_forall fun n =>
    (measure_union_le _ _).trans (add_le_add (measure_union_le _ _) le_rfl)) h3) ?_
  filter_upwards [plr_sens H h.score h.regressor h.vars h.notBinary] with n hn ω hω
  have hω2 : ∀ q, 0 < mean (plrVV H q n ω) := not_not.1 fun hh => hω (Or.inr hh)
  obtain ⟨res, e1, -, -, e2, e3⟩ := hn ω hω2 hy hd hr hl
  refine ⟨fun _ => trivial, fun _ => ⟨res, (e1 res).2 rfl, ?_, ?_⟩⟩
  · rw [e2]
    by_contra hc
    refine hω (Or.inl (Or.inl ((not_lt.1 hc).trans (le_of_eq (congrArg _ ?_)))))
    simp only [neg_mul, ← sub_eq_add_neg]
  · rw [e3]
    by_contra hc
    exact hω (Or.inl (Or.inr (not_lt.1 hc)))

/-- **C87, effects between the bounds are covered.**  A value strictly between the bounds lies between the confidence limits with probability
tending to one, whatever the level. -/
theorem C87_inside (h : PlrSensSetup H θ g m) (hy : 0 ≤ cfy ∧ cfy < 1) (hd : 0 ≤ cfd ∧ cfd < 1) (hr : -1 ≤ rho ∧ rho ≤ 1)
    (hl : 0 < level ∧ level < 1) {x : ℝ}
    (hx : |x - θ| < confStrength cfy cfd rho * biasBound (P.map (W 0)) (fun w => y w - θ * d w - g (ξ w)) fun w => d w - m (ξ w)) :
    ProbTends P (fun n => {ω | ∃ res, IsSens (H.fitted n ω) cfy cfd rho level res ∧ res.ciLower ≤ x ∧ x ≤ res.ciUpper}) 1 := by
  have h1 := C87_limits_consistent h hy hd hr hl (sub_pos.2 hx)
  refine ProbTends.up h1 fun n ω => ?_
  rintro ⟨res, e, e1, e2⟩
  rw [abs_lt] at e1 e2
  have := neg_abs_le (x - θ)
  have := le_abs_self (x - θ)
  exact ⟨res, e, by linarith, by linarith⟩

/-- **C87, effects beyond the bounds are excluded** with probability tending to one. -/
theorem C87_outside (h : PlrSensSetup H θ g m) (hy : 0 ≤ cfy ∧ cfy < 1) (hd : 0 ≤ cfd ∧ cfd < 1) (hr : -1 ≤ rho ∧ rho ≤ 1)
    (hl : 0 < level ∧ level < 1) {x : ℝ}
    (hx : confStrength cfy cfd rho * biasBound (P.map (W 0)) (fun w => y w - θ * d w - g (ξ w)) (fun w => d w - m (ξ w)) < |x - θ|) :
    ProbTends P (fun n => {ω | ∃ res, IsSens (H.fitted n ω) cfy cfd rho level res ∧ (x < res.ciLower ∨ res.ciUpper < x)}) 1 := by
  have h1 := C87_limits_consistent h hy hd hr hl (sub_pos.2 hx)
  refine ProbTends.up h1 fun n ω => ?_
  rintro ⟨res, e, e1, e2⟩
  rw [abs_lt] at e1 e2
  refine ⟨res, e, ?_⟩
  rcases abs_cases (x - θ) with ⟨h2, -⟩ | ⟨h2, -⟩
  · exact Or.inr (by linarith)
  · exact Or.inl (by linarith)

/-- **C87, no confounding.**  With `cf_y`, `cf_d` or `rho` zero both limits are limits for the coefficient and cover it with probability tending
to the level. -/
theorem C87_no_confounding (h : PlrSensSetup H θ g m) (hy : 0 ≤ cfy ∧ cfy < 1) (hd : 0 ≤ cfd ∧ cfd < 1) (hr : -1 ≤ rho ∧ rho ≤ 1)
    (hl : 0 < level ∧ level < 1) (h0 : cfy = 0 ∨ cfd = 0 ∨ rho = 0)
    (hv : ∫ w, ((d w - m (ξ w)) * (y w - θ * d w - g (ξ w))) ^ 2 ∂(P.map (W 0)) ≠ 0) :
    ProbTends P (fun n => {ω | ∃ res, IsSens (H.fitted n ω) cfy cfd rho level res ∧ res.ciLower ≤ θ}) level ∧
    ProbTends P (fun n => {ω | ∃ res, IsSens (H.fitted n ω) cfy cfd rho level res ∧ θ ≤ res.ciUpper}) level := by
  have hc : confStrength cfy cfd rho = 0 := by
    unfold confStrength
    rcases h0 with rfl | rfl | rfl <;> simp
  have hsd : boundSd (P.map (W 0)) (fun w => y w - θ * d w - g (ξ w)) (fun w => d w - m (ξ w)) 0 ≠ 0 := by
    unfold boundSd coefIF
    refine (Real.sqrt_pos.2 (lt_of_le_of_ne (integral_nonneg fun w => sq_nonneg _) (Ne.symm ?_))).ne'
    simp only [zero_mul, add_zero, div_pow]
    rw [integral_div]
    exact div_ne_zero hv (pow_ne_zero 2 h.varD)
  have h1 := C87_limits h hy hd hr hl (fun _ => rfl) (by rw [hc, neg_zero]; exact hsd) (by rw [hc]; exact hsd)
  rw [hc, neg_zero, mul_div_assoc, div_self hsd, mul_one, Phi_ppf hl.1 hl.2, zero_mul, sub_zero, add_zero] at h1
  exact h1

/-- **C87, the exchange is the only defect.**  With one repetition, the lower bound minus the distance between the *upper* limit and the upper bound,
and the upper bound plus the distance between the *lower* limit and the lower bound, cover the bounds with probability tending to the level. -/
theorem C87_exchanged {H : Study E P W 1 K (fun n => plrSpec (k n)) tv y d ξ enc} (h : PlrSensSetup H θ g m) (hy : 0 ≤ cfy ∧ cfy < 1)
    (hd : 0 ≤ cfd ∧ cfd < 1) (hr : -1 ≤ rho ∧ rho ≤ 1) (hl : 0 < level ∧ level < 1)
    (hlo : boundSd (P.map (W 0)) (fun w => y w - θ * d w - g (ξ w)) (fun w => d w - m (ξ w)) (-confStrength cfy cfd rho) ≠ 0)
    (hup : boundSd (P.map (W 0)) (fun w => y w - θ * d w - g (ξ w)) (fun w => d w - m (ξ w)) (confStrength cfy cfd rho) ≠ 0) :
    ProbTends P (fun n => {ω | ∃ res, IsSens (H.fitted n ω) cfy cfd rho level res ∧ res.thetaLower - (res.ciUpper - res.thetaUpper) ≤
      θ - confStrength cfy cfd rho * biasBound (P.map (W 0)) (fun w => y w - θ * d w - g (ξ w)) fun w => d w - m (ξ w)}) level ∧
    ProbTends P (fun n => {ω | ∃ res, IsSens (H.fitted n ω) cfy cfd rho level res ∧
      θ + confStrength cfy cfd rho * biasBound (P.map (W 0)) (fun w => y w - θ * d w - g (ξ w)) (fun w => d w - m (ξ w)) ≤
        res.thetaUpper + (res.thetaLower - res.ciLower)}) level := by
  have h1 := (RatioParts.limits_exchanged H.reps H.iid h.parts (-confStrength cfy cfd rho) hlo (ppf level)).1
  have h2 := (RatioParts.limits_exchanged H.reps H.iid h.parts (confStrength cfy cfd rho) hup (ppf level)).2
  rw [neg_neg, Phi_ppf hl.1 hl.2] at h1
  rw [Phi_ppf hl.1 hl.2] at h2
  simp only [median_one] at h1 h2
  refine ⟨h1.congr_off h.bad ?_, h2.congr_off h.bad ?_⟩
  · filter_upwards [plr_sens H h.score h.regressor h.vars h.notBinary] with n hn ω hω
    obtain ⟨res, e1, e2, e3, -, e5⟩ := hn ω (not_not.1 hω) hy hd hr hl
    rw [median_one] at e2 e3 e5
    rw [neg_mul (confStrength cfy cfd rho) (biasBound _ _ _), ← sub_eq_add_neg θ]
    have e : res.thetaLower - (res.ciUpper - res.thetaUpper) = ratioCoef (plrUV H 0 n ω) (plrVV H 0 n ω) +
        -confStrength cfy cfd rho * ratioBias (plrUU H 0 n ω) (plrUV H 0 n ω) (plrVV H 0 n ω) - ppf level * Real.sqrt (1 / n * mean fun i =>
          ratioScore (plrUU H 0 n ω) (plrUV H 0 n ω) (plrVV H 0 n ω) (confStrength cfy cfd rho) i ^ 2) := by
      rw [e2, e3, e5]
      ring
    rw [← e]
    constructor
    · rintro ⟨res', h3, h4⟩
      rwa [(e1 res').1 h3] at h4
    · exact fun h4 => ⟨res, (e1 res).2 rfl, h4⟩
  · filter_upwards [plr_sens H h.score h.regressor h.vars h.notBinary] with n hn ω hω
    obtain ⟨res, e1, e2, e3, e5, -⟩ := hn ω (not_not.1 hω) hy hd hr hl
    rw [median_one] at e2 e3 e5
    have e : res.thetaUpper + (res.thetaLower - res.ciLower) = ratioCoef (plrUV H 0 n ω) (plrVV H 0 n ω) +
        confStrength cfy cfd rho * ratioBias (plrUU H 0 n ω) (plrUV H 0 n ω) (plrVV H 0 n ω) + ppf level * Real.sqrt (1 / n * mean fun i =>
          ratioScore (plrUU H 0 n ω) (plrUV H 0 n ω) (plrVV H 0 n ω) (-confStrength cfy cfd rho) i ^ 2) := by
      rw [e2, e3, e5]
      ring
    rw [← e]
    constructor
    · rintro ⟨res', h3, h4⟩
      rwa [(e1 res').1 h3] at h4
    · exact fun h4 => ⟨res, (e1 res).2 rfl, h4⟩

/-- In the model of `C87_violated` the bounds are `-2.5` and `6.5`; `6` is covered, `7` is excluded. -/
example (E : Ext) (F : ∀ n, (ℕ → Fin 3 → Bool) → Frame n) :
    ProbTends tosses (fun n => {ω | ∃ res, IsSens ((skewStudy E F).fitted n ω) (3 / 4) (3 / 4) 1 (95 / 100) res ∧ res.ciLower ≤ 6 ∧ 6 ≤ res.ciUpper}) 1 ∧
    ProbTends tosses (fun n => {ω | ∃ res, IsSens ((skewStudy E F).fitted n ω) (3 / 4) (3 / 4) 1 (95 / 100) res ∧ (7 < res.ciLower ∨ res.ciUpper < 7)})
      1 := by
  refine ⟨C87_inside (skew_setup E F) (by norm_num) (by norm_num) (by norm_num) (by norm_num) ?_,
    C87_outside (skew_setup E F) (by norm_num) (by norm_num) (by norm_num) (by norm_num) ?_⟩
  · rw [skew_bound, skew_strength, abs_of_pos (by norm_num)]
    norm_num
  · rw [skew_bound, skew_strength, abs_of_pos (by norm_num)]
    norm_num

/-- Without confounding the limits are right in that model too. -/
example (E : Ext) (F : ∀ n, (ℕ → Fin 3 → Bool) → Frame n) :
    ProbTends tosses (fun n => {ω | ∃ res, IsSens ((skewStudy E F).fitted n ω) (3 / 4) (3 / 4) 0 (95 / 100) res ∧ 2 ≤ res.ciUpper}) (95 / 100) := by
  refine (C87_no_confounding (skew_setup E F) (by norm_num) (by norm_num) (by norm_num) (by norm_num) (Or.inr (Or.inr rfl)) ?_).2
  rw [tosses_law, coin_sum]
  simp only [skewY, skewD, skewE, sgn, sum_coins, coin_two]
  norm_num

/-- In the model of `C87_violated` the exchanged limits cover `6.5` as asked. -/
example (E : Ext) (F : ∀ n, (ℕ → Fin 3 → Bool) → Frame n) :
    ProbTends tosses (fun n => {ω | ∃ res, IsSens ((skewStudy E F).fitted n ω) (3 / 4) (3 / 4) 1 (95 / 100) res ∧
      13 / 2 ≤ res.thetaUpper + (res.thetaLower - res.ciLower)}) (95 / 100) := by
  have h := (C87_exchanged (skew_setup E F) (cfy := 3 / 4) (cfd := 3 / 4) (rho := 1) (level := 95 / 100) (by norm_num) (by norm_num) (by norm_num)
    (by norm_num)
    (by rw [skew_sd, skew_strength]; exact (Real.sqrt_pos.2 (by norm_num)).ne')
    (by rw [skew_sd, skew_strength]; exact (Real.sqrt_pos.2 (by norm_num)).ne')).2
  rwa [skew_bound, skew_strength, show (2 : ℝ) + 3 / 2 * 3 = 13 / 2 by norm_num] at h

end DML
