import Verif.Sensitivity
import Verif.InferenceProps

/-!
# Sensitivity bounds and robustness values (C13, C15)
-/

namespace DML

open Finset

variable {n r : ℕ}

/-! ## Confounding strength -/

theorem confStrength_nonneg (y d p : ℝ) : 0 ≤ confStrength y d p :=
  mul_nonneg (abs_nonneg _) (Real.sqrt_nonneg _)

theorem odds_mono {d d' : ℝ} (h0 : 0 ≤ d) (h : d ≤ d') (h1 : d' < 1) : d / (1 - d) ≤ d' / (1 - d') :=
  div_le_div₀ (by linarith) h (by linarith) (by linarith)

theorem confStrength_mono {y y' d d' p p' : ℝ} (hy0 : 0 ≤ y) (hy : y ≤ y') (hd0 : 0 ≤ d) (hd : d ≤ d')
    (hd1 : d' < 1) (hp : |p| ≤ |p'|) : confStrength y d p ≤ confStrength y' d' p' := by
  have h1 := odds_mono hd0 hd hd1
  have h2 : 0 ≤ d / (1 - d) := div_nonneg hd0 (by linarith)
  exact mul_le_mul hp (Real.sqrt_le_sqrt (mul_le_mul hy h1 h2 (hy0.trans hy))) (Real.sqrt_nonneg _)
    (abs_nonneg _)

/-! ## C13 -/

/-- **C13.** The bounds bracket the estimate for every admissible scenario. -/
theorem C13_bracket (b : Block n r) (s : Sens n r) (cl : Option (ClusterInfo n r))
    (hθ : b.theta = median b.allTheta) (hs : ∀ k, 0 ≤ s.maxBias k) (y d p l : ℝ) :
    (b.sensRes s cl y d p l).thetaLower ≤ b.theta ∧ b.theta ≤ (b.sensRes s cl y d p l).thetaUpper := by
  rw [hθ]
  constructor <;>
  · refine median_mono fun k => ?_
    have := mul_nonneg (confStrength_nonneg y d p) (hs k)
    simp only [Block.thetaLower, Block.thetaUpper]
    linarith

/-- **C13.** Assuming more confounding (in any of the three parameters) widens the bounds. -/
theorem C13_monotone (b : Block n r) (s : Sens n r) (cl : Option (ClusterInfo n r))
    (hs : ∀ k, 0 ≤ s.maxBias k) {y y' d d' p p' l l' : ℝ} (hy0 : 0 ≤ y) (hy : y ≤ y') (hd0 : 0 ≤ d)
    (hd : d ≤ d') (hd1 : d' < 1) (hp : |p| ≤ |p'|) :
    (b.sensRes s cl y' d' p' l').thetaLower ≤ (b.sensRes s cl y d p l).thetaLower ∧
    (b.sensRes s cl y d p l).thetaUpper ≤ (b.sensRes s cl y' d' p' l').thetaUpper := by
  have h := confStrength_mono hy0 hy hd0 hd hd1 hp
  constructor <;>
  · refine median_mono fun k => ?_
    have := mul_le_mul_of_nonneg_right h (hs k)
    simp only [Block.thetaLower, Block.thetaUpper]
    linarith

/-- **C13.** The whole result depends on `rho` only through `|rho|`. -/
theorem C13_sign_of_rho (b : Block n r) (s : Sens n r) (cl : Option (ClusterInfo n r)) (y d p l : ℝ) :
    b.sensRes s cl y d (-p) l = b.sensRes s cl y d p l := by
  simp [Block.sensRes, confStrength]

/-- **C13.** Without confounding (`cf_y = 0`, `cf_d = 0` or `rho = 0`) both bounds are the estimate, and
the bounds with their standard errors are those of the model without confounding. -/
theorem C13_collapse (b : Block n r) (s : Sens n r) (cl : Option (ClusterInfo n r))
    (hθ : b.theta = median b.allTheta) {y d p : ℝ} (h : y = 0 ∨ d = 0 ∨ p = 0) (l : ℝ) :
    (b.sensRes s cl y d p l).thetaLower = b.theta ∧ (b.sensRes s cl y d p l).thetaUpper = b.theta ∧
    (b.sensRes s cl y d p l).seLower = (b.sensRes s cl y d p l).seUpper := by
  have hc : confStrength y d p = 0 := by
    rcases h with rfl | rfl | rfl <;> simp [confStrength]
  have e1 : b.thetaLower s 0 = b.allTheta := by funext k; simp [Block.thetaLower]
  have e2 : b.thetaUpper s 0 = b.allTheta := by funext k; simp [Block.thetaUpper]
  have e3 : b.sigmaLower s cl 0 = b.sigmaUpper s cl 0 := by
    funext k; simp [Block.sigmaLower, Block.sigmaUpper]
  simp only [Block.sensRes, hc, e1, e2, e3, aggTheta, hθ, and_self]

/-- **C13.** Without confounding and without clustering, the standard errors of the bounds are those
of the estimate (for the library's own standard errors, `vsf = n`), and the reported `ci` bounds are
the one-sided level-`l` limits. -/
theorem C13_collapse_se (b : Block n r) (s : Sens n r) (hb : b.Consistent) (hv : b.vsf = n)
    {y d p : ℝ} (h : y = 0 ∨ d = 0 ∨ p = 0) (l : ℝ) :
    (b.sensRes s none y d p l).seLower = b.se ∧
    (b.sensRes s none y d p l).ciLower = (b.ci fun _ => ppf l).1 ∧
    (b.sensRes s none y d p l).ciUpper = (b.ci fun _ => ppf l).2 := by
  have hc : confStrength y d p = 0 := by
    rcases h with rfl | rfl | rfl <;> simp [confStrength]
  rw [Block.consistent_iff] at hb
  obtain ⟨h1, h2, h3⟩ := hb
  have hσ : ∀ k, Real.sqrt (varEst (fun i => b.psi i k) (fun _ => 1) none).1 = b.allSe k := by
    intro k
    rw [h3, recomputedSe, hv]
    rcases Nat.eq_zero_or_pos n with hn | hn
    · subst hn; simp [varEst, varEstParts, mean]
    · simp only [varEst, varEstParts, mean_const hn]
      congr 1; ring
  refine ⟨?_, ?_, ?_⟩
  · simp only [Block.sensRes, hc]
    rw [h2]
    have e1 : b.thetaLower s 0 = b.allTheta := by funext k; simp [Block.thetaLower]
    have e3 : b.sigmaLower s none 0 = b.allSe := by
      funext k; simp only [Block.sigmaLower, zero_mul, sub_zero, Option.map_none, hσ]
    rw [e1, e3]
  · simp only [Block.sensRes, hc, Block.thetaLower, Block.sigmaLower, zero_mul, sub_zero,
      Option.map_none, hσ, Block.ci, mul_comm]
  · simp only [Block.sensRes, hc, Block.thetaUpper, Block.sigmaUpper, zero_mul, add_zero,
      Option.map_none, hσ, Block.ci, mul_comm]

/-- **C13.** For levels of at least one half the confidence bounds lie outside the bounds. -/
theorem C13_ci_outside (b : Block n r) (s : Sens n r) (cl : Option (ClusterInfo n r)) (y d p : ℝ) {l : ℝ}
    (h0 : 1 / 2 ≤ l) (h1 : l < 1) :
    (b.sensRes s cl y d p l).ciLower ≤ (b.sensRes s cl y d p l).thetaLower ∧
    (b.sensRes s cl y d p l).thetaUpper ≤ (b.sensRes s cl y d p l).ciUpper := by
  have hq := ppf_nonneg h0 h1
  constructor <;> refine median_mono fun k => ?_
  · have := mul_nonneg hq (Real.sqrt_nonneg
      (varEst (fun i => b.psi i k - confStrength y d p * s.psiMaxBias i k) (fun _ => 1)
        (cl.map fun f => f k)).1)
    simp only [Block.sigmaLower]; linarith
  · have := mul_nonneg hq (Real.sqrt_nonneg
      (varEst (fun i => b.psi i k + confStrength y d p * s.psiMaxBias i k) (fun _ => 1)
        (cl.map fun f => f k)).1)
    simp only [Block.sigmaUpper]; linarith

/-- Non-vacuity of C13: a two-observation block with positive bias bound and a scenario in range. -/
example : ∃ (b : Block 2 1) (s : Sens 2 1), b.Consistent ∧ b.vsf = (2 : ℕ) ∧ (∀ k, 0 < s.maxBias k) ∧
    (b.sensRes s none 0.03 0.03 1 0.95).thetaLower < b.theta := by
  refine ⟨(Influence.mk (fun _ => 3) (fun j _ => if j = 0 then 2 else -1)).direct 2,
    ⟨fun _ => 1, fun _ _ => 0⟩, rfl, by simp [Influence.direct], fun _ => one_pos, ?_⟩
  refine median_strictMono (r := 1) (by norm_num) fun k => ?_
  simp only [Block.thetaLower, Influence.direct, mul_one, sub_lt_self_iff]
  exact mul_pos (by norm_num) (Real.sqrt_pos.2 (by norm_num))

/-! ## C15: robustness values -/

/-- `c ↦ median (θ_k + c·m_k)` is continuous. -/
theorem continuous_median_line (hr : 0 < r) (θ m : Fin r → ℝ) :
    Continuous fun c : ℝ => median fun k => θ k + c * m k := by
  have hK : ∀ k, |m k| ≤ ∑ k, |m k| := fun k =>
    Finset.single_le_sum (f := fun k => |m k|) (fun _ _ => abs_nonneg _) (mem_univ k)
  have hnn : 0 ≤ ∑ k, |m k| := Finset.sum_nonneg fun _ _ => abs_nonneg _
  refine (LipschitzWith.of_dist_le_mul (K := ⟨∑ k, |m k|, hnn⟩) ?_).continuous
  intro x y
  rw [Real.dist_eq, Real.dist_eq]
  refine abs_median_sub_le hr fun k => ?_
  rw [show θ k + x * m k - (θ k + y * m k) = m k * (x - y) by ring, abs_mul]
  exact mul_le_mul_of_nonneg_right (hK k) (abs_nonneg _)

/-- The upper bound reaches every value above the estimate at exactly one strength. -/
theorem median_line_root (hr : 0 < r) (θ m : Fin r → ℝ) (hm : ∀ k, 0 < m k) {H : ℝ} (hH : median θ ≤ H) :
    ∃ c, 0 ≤ c ∧ (median fun k => θ k + c * m k) = H := by
  have hne : (univ : Finset (Fin r)).Nonempty := ⟨⟨0, hr⟩, mem_univ _⟩
  obtain ⟨k0, -, hk0⟩ := Finset.exists_min_image univ m hne
  set C := (H - median θ) / m k0 with hC
  have hC0 : 0 ≤ C := div_nonneg (by linarith) (hm k0).le
  have h0 : (median fun k => θ k + 0 * m k) = median θ := by simp
  have h1 : H ≤ median fun k => θ k + C * m k := by
    calc H = median θ + C * m k0 := by rw [hC, div_mul_cancel₀ _ (hm k0).ne']; ring
      _ = median fun k => θ k + C * m k0 := (median_add_const hr θ _).symm
      _ ≤ _ := median_mono fun k => by
        have := mul_le_mul_of_nonneg_left (hk0 k (mem_univ k)) hC0; linarith
  have := intermediate_value_Icc hC0 (continuous_median_line hr θ m).continuousOn
  obtain ⟨c, hc, he⟩ := this (show H ∈ Set.Icc _ _ by
    simp only [Set.mem_Icc]; exact ⟨by rw [h0]; exact hH, h1⟩)
  exact ⟨c, hc.1, he⟩

theorem median_line_strictMono (hr : 0 < r) (θ m : Fin r → ℝ) (hm : ∀ k, 0 < m k) :
    StrictMono fun c : ℝ => median fun k => θ k + c * m k := by
  intro x y hxy
  exact median_strictMono hr fun k => by have := mul_lt_mul_of_pos_right hxy (hm k); linarith

/-- Scenario `cf_y = cf_d = v`, without `rho`. -/
noncomputable def diagStrength (v : ℝ) : ℝ := Real.sqrt (v * (v / (1 - v)))

theorem confStrength_diag (v p : ℝ) : confStrength v v p = |p| * diagStrength v := rfl

/-- The strength that reaches `κ`, in closed form. -/
noncomputable def rvClosed (κ : ℝ) : ℝ := (Real.sqrt (κ ^ 4 + 4 * κ ^ 2) - κ ^ 2) / 2

theorem rvClosed_mem (κ : ℝ) : 0 ≤ rvClosed κ ∧ rvClosed κ < 1 := by
  unfold rvClosed
  have h1 : κ ^ 2 ≤ Real.sqrt (κ ^ 4 + 4 * κ ^ 2) := Real.le_sqrt_of_sq_le (by nlinarith [sq_nonneg κ])
  have h2 : Real.sqrt (κ ^ 4 + 4 * κ ^ 2) < κ ^ 2 + 2 := by
    rw [Real.sqrt_lt' (by positivity)]; nlinarith [sq_nonneg κ]
  constructor <;> linarith

theorem diagStrength_eq_iff {v κ : ℝ} (h0 : 0 ≤ v) (h1 : v < 1) (hκ : 0 ≤ κ) :
    diagStrength v = κ ↔ v = rvClosed κ := by
  have hpos : (0 : ℝ) < 1 - v := by linarith
  have hs : 0 ≤ Real.sqrt (κ ^ 4 + 4 * κ ^ 2) := Real.sqrt_nonneg _
  have hsq : Real.sqrt (κ ^ 4 + 4 * κ ^ 2) ^ 2 = κ ^ 4 + 4 * κ ^ 2 := Real.sq_sqrt (by positivity)
  unfold diagStrength rvClosed
  rw [Real.sqrt_eq_iff_mul_self_eq (mul_nonneg h0 (div_nonneg h0 hpos.le)) hκ, ← mul_div_assoc]
  rw [div_eq_iff hpos.ne']
  constructor
  · intro h
    have : (2 * v + κ ^ 2) ^ 2 = Real.sqrt (κ ^ 4 + 4 * κ ^ 2) ^ 2 := by rw [hsq]; nlinarith
    have := (sq_eq_sq₀ (by positivity) hs).1 this
    linarith
  · intro h
    have : (2 * v + κ ^ 2) ^ 2 = κ ^ 4 + 4 * κ ^ 2 := by rw [← hsq, h]; ring
    nlinarith

theorem diagStrength_strictMono {v w : ℝ} (h0 : 0 ≤ v) (h : v < w) (h1 : w < 1) :
    diagStrength v < diagStrength w := by
  refine Real.sqrt_lt_sqrt (mul_nonneg h0 (div_nonneg h0 (by linarith))) ?_
  have e1 : v / (1 - v) ≤ w / (1 - w) := odds_mono h0 h.le h1
  have hw : 0 < w / (1 - w) := div_pos (by linarith) (by linarith)
  nlinarith [mul_le_mul_of_nonneg_left e1 h0, mul_lt_mul_of_pos_right h hw]

/-- The bound that the robustness value compares with the null hypothesis. -/
noncomputable def relevantBound (b : Block n r) (s : Sens n r) (cl : Option (ClusterInfo n r))
    (null rho level v : ℝ) : ℝ :=
  (b.sensRes s cl v v rho level).get false (useUpper null b.theta)

/-- Signed form: both cases are the increasing line `median (σθ + c m)` with `σ = ±1`. -/
theorem relevantBound_eq (b : Block n r) (s : Sens n r) (cl : Option (ClusterInfo n r))
    (null rho level v : ℝ) :
    relevantBound b s cl null rho level v =
      if null > b.theta then median fun k => b.allTheta k + |rho| * diagStrength v * s.maxBias k
      else -median fun k => -b.allTheta k + |rho| * diagStrength v * s.maxBias k := by
  unfold relevantBound useUpper
  by_cases h : null > b.theta
  · simp only [h, decide_true, SensRes.get, if_true, Block.sensRes, aggTheta, confStrength_diag]
    rfl
  · simp only [h, decide_false, SensRes.get, if_false, Block.sensRes, aggTheta, confStrength_diag,
      ← median_neg]
    congr 1; funext k
    simp only [Block.thetaLower]; ring

/-- **C15.** For every null hypothesis there is exactly one strength `v ∈ [0,1)` (with `cf_y = cf_d = v`)
at which the relevant bound equals the null hypothesis; for smaller `v` the null lies strictly outside
the identified interval, for larger `v` strictly inside. -/
theorem C15_unique_root (hr : 0 < r) (b : Block n r) (s : Sens n r) (cl : Option (ClusterInfo n r))
    (hθ : b.theta = median b.allTheta) (hs : ∀ k, 0 < s.maxBias k) (null rho level : ℝ) (hρ : rho ≠ 0) :
    ∃ v, (0 ≤ v ∧ v < 1 ∧ relevantBound b s cl null rho level v = null) ∧
      (∀ w, 0 ≤ w → w < 1 → relevantBound b s cl null rho level w = null → w = v) ∧
      ∀ w, 0 ≤ w → w < 1 →
        (v < w ↔ (b.sensRes s cl w w rho level).thetaLower < null ∧
                 null < (b.sensRes s cl w w rho level).thetaUpper) ∧
        (w < v ↔ null < (b.sensRes s cl w w rho level).thetaLower ∨
                 (b.sensRes s cl w w rho level).thetaUpper < null) := by
  have hρ' : 0 < |rho| := abs_pos.2 hρ
  have hlo : ∀ w, (b.sensRes s cl w w rho level).thetaLower =
      -median fun k => -b.allTheta k + |rho| * diagStrength w * s.maxBias k := by
    intro w
    simp only [Block.sensRes, aggTheta, confStrength_diag, ← median_neg]
    congr 1; funext k; simp only [Block.thetaLower]; ring
  have hup : ∀ w, (b.sensRes s cl w w rho level).thetaUpper =
      median fun k => b.allTheta k + |rho| * diagStrength w * s.maxBias k := fun w => rfl
  have hmU := median_line_strictMono hr b.allTheta s.maxBias hs
  have hmL := median_line_strictMono hr (fun k => -b.allTheta k) s.maxBias hs
  have hL0 : (median fun k => -b.allTheta k + 0 * s.maxBias k) = -b.theta := by
    simp only [zero_mul, add_zero]; rw [median_neg, hθ]
  have hU0 : (median fun k => b.allTheta k + 0 * s.maxBias k) = b.theta := by
    simp only [zero_mul, add_zero]; rw [hθ]
  -- root on the scale of the strength
  have key : ∀ c, 0 ≤ c → ∃ v, 0 ≤ v ∧ v < 1 ∧ |rho| * diagStrength v = c := by
    intro c hc
    refine ⟨rvClosed (c / |rho|), (rvClosed_mem _).1, (rvClosed_mem _).2, ?_⟩
    rw [(diagStrength_eq_iff (rvClosed_mem _).1 (rvClosed_mem _).2 (div_nonneg hc hρ'.le)).2 rfl]
    field_simp
  have hmono : ∀ v w, 0 ≤ v → v < 1 → 0 ≤ w → w < 1 →
      (|rho| * diagStrength v < |rho| * diagStrength w ↔ v < w) := by
    intro v w hv0 hv1 hw0 hw1
    rw [mul_lt_mul_iff_right₀ hρ']
    constructor
    · intro h
      by_contra hle
      rcases (not_lt.1 hle).eq_or_lt with he | hlt
      · rw [he] at h; exact lt_irrefl _ h
      · exact absurd (diagStrength_strictMono hw0 hlt hv1) (not_lt.2 h.le)
    · exact fun h => diagStrength_strictMono hv0 h hw1
  have hds : ∀ w, 0 ≤ |rho| * diagStrength w := fun w => mul_nonneg hρ'.le (Real.sqrt_nonneg _)
  by_cases hcase : null > b.theta
  · obtain ⟨c, hc0, hc⟩ := median_line_root hr b.allTheta s.maxBias hs (H := null) (by rw [← hθ]; exact hcase.le)
    obtain ⟨v, hv0, hv1, hvc⟩ := key c hc0
    have hval : ∀ w, relevantBound b s cl null rho level w =
        median fun k => b.allTheta k + |rho| * diagStrength w * s.maxBias k := fun w => by
      rw [relevantBound_eq, if_pos hcase]
    have hbelow : ∀ w, (b.sensRes s cl w w rho level).thetaLower ≤ b.theta := fun w =>
      (C13_bracket b s cl hθ (fun k => (hs k).le) w w rho level).1
    refine ⟨v, ⟨hv0, hv1, by rw [hval, hvc, hc]⟩, ?_, ?_⟩
    · intro w hw0 hw1 hw
      rw [hval, ← hc, ← hvc] at hw
      have hinj := hmU.injective hw
      rcases lt_trichotomy w v with h | h | h
      · exact absurd hinj ((hmono w v hw0 hw1 hv0 hv1).2 h).ne
      · exact h
      · exact absurd hinj ((hmono v w hv0 hv1 hw0 hw1).2 h).ne'
    · intro w hw0 hw1
      constructor
      · rw [hup, ← hmono v w hv0 hv1 hw0 hw1, hvc]
        refine ⟨fun h => ⟨lt_of_le_of_lt (hbelow w) hcase, ?_⟩, fun h => ?_⟩
        · have := hmU h; simp only at this; rwa [hc] at this
        · rw [← hmU.lt_iff_lt]; rw [hc]; exact h.2
      · rw [hup, ← hmono w v hw0 hw1 hv0 hv1, hvc]
        refine ⟨fun h => Or.inr ?_, fun h => ?_⟩
        · have := hmU h; simp only at this; rwa [hc] at this
        · rcases h with h | h
          · exact absurd (hbelow w) (not_le.2 (lt_trans hcase h))
          · rw [← hmU.lt_iff_lt]; rw [hc]; exact h
  · obtain ⟨c, hc0, hc⟩ := median_line_root hr (fun k => -b.allTheta k) s.maxBias hs (H := -null)
      (by rw [median_neg, ← hθ]; linarith)
    obtain ⟨v, hv0, hv1, hvc⟩ := key c hc0
    have hval : ∀ w, relevantBound b s cl null rho level w =
        -median fun k => -b.allTheta k + |rho| * diagStrength w * s.maxBias k := fun w => by
      rw [relevantBound_eq, if_neg hcase]
    have habove : ∀ w, b.theta ≤ (b.sensRes s cl w w rho level).thetaUpper := fun w =>
      (C13_bracket b s cl hθ (fun k => (hs k).le) w w rho level).2
    refine ⟨v, ⟨hv0, hv1, by rw [hval, hvc, hc, neg_neg]⟩, ?_, ?_⟩
    · intro w hw0 hw1 hw
      rw [hval, neg_eq_iff_eq_neg, ← hc, ← hvc] at hw
      have hinj := hmL.injective hw
      rcases lt_trichotomy w v with h | h | h
      · exact absurd hinj ((hmono w v hw0 hw1 hv0 hv1).2 h).ne
      · exact h
      · exact absurd hinj ((hmono v w hv0 hv1 hw0 hw1).2 h).ne'
    · intro w hw0 hw1
      constructor
      · rw [hlo, hup, ← hmono v w hv0 hv1 hw0 hw1, hvc]
        refine ⟨fun h => ⟨?_, ?_⟩, fun h => ?_⟩
        · have := hmL h; simp only at this; rw [hc] at this; linarith
        · have h0 : 0 < |rho| * diagStrength w := lt_of_le_of_lt hc0 h
          have := hmU h0; simp only at this; rw [hU0] at this
          exact lt_of_le_of_lt (not_lt.1 hcase) this
        · rw [← hmL.lt_iff_lt]; rw [hc]; linarith [h.1]
      · rw [hlo, ← hmono w v hw0 hw1 hv0 hv1, hvc]
        refine ⟨fun h => Or.inl ?_, fun h => ?_⟩
        · have := hmL h; simp only at this; rw [hc] at this; linarith
        · rcases h with h | h
          · rw [← hmL.lt_iff_lt]; rw [hc]; linarith
          · exact absurd (habove w) (not_le.2 (lt_of_lt_of_le h (not_lt.1 hcase)))

/-- **C15.** What the bounded minimisation computes: an exact minimiser of the squared distance over
`[0, 0.9999]` is the root of `C15_unique_root` if that root is at most `0.9999`, else `0.9999`. -/
theorem C15_minimiser (hr : 0 < r) (b : Block n r) (s : Sens n r) (cl : Option (ClusterInfo n r))
    (hθ : b.theta = median b.allTheta) (hs : ∀ k, 0 < s.maxBias k) (null rho level rv : ℝ) (hρ : rho ≠ 0)
    (hmem : 0 ≤ rv ∧ rv ≤ 0.9999)
    (hmin : ∀ v, 0 ≤ v → v ≤ 0.9999 →
      rvObjective b s cl null rho level false rv ≤ rvObjective b s cl null rho level false v)
    (v : ℝ) (hv0 : 0 ≤ v) (hv1 : v < 1) (hv : relevantBound b s cl null rho level v = null) :
    rv = min v 0.9999 := by
  obtain ⟨v', ⟨h0', h1', hr'⟩, huniq, _⟩ := C15_unique_root hr b s cl hθ hs null rho level hρ
  have hz : ∀ w, relevantBound b s cl null rho level w = null ↔
      rvObjective b s cl null rho level false w = 0 := by
    intro w
    unfold rvObjective relevantBound
    rw [pow_eq_zero_iff two_ne_zero, sub_eq_zero]
  have hrv1 : rv < 1 := by have := hmem.2; norm_num at this ⊢; linarith
  rcases le_or_gt v 0.9999 with hle | hgt
  · rw [min_eq_left hle]
    have h := hmin v hv0 hle
    rw [(hz v).1 hv] at h
    have h2 : rvObjective b s cl null rho level false rv = 0 := le_antisymm h (sq_nonneg _)
    rw [huniq rv hmem.1 hrv1 ((hz rv).2 h2), huniq v hv0 hv1 hv]
  · rw [min_eq_right hgt.le]
    by_contra hne
    have hlt : rv < 0.9999 := lt_of_le_of_ne hmem.2 hne
    have hρ' : 0 < |rho| := abs_pos.2 hρ
    have e1 : |rho| * diagStrength rv < |rho| * diagStrength 0.9999 :=
      mul_lt_mul_of_pos_left (diagStrength_strictMono hmem.1 hlt (by norm_num)) hρ'
    have e2 : |rho| * diagStrength 0.9999 < |rho| * diagStrength v :=
      mul_lt_mul_of_pos_left (diagStrength_strictMono (by norm_num) hgt hv1) hρ'
    have h := hmin 0.9999 (by norm_num) le_rfl
    have hobj : ∀ w, rvObjective b s cl null rho level false w =
        (relevantBound b s cl null rho level w - null) ^ 2 := fun _ => rfl
    rw [hobj, hobj] at h
    by_cases hcase : null > b.theta
    · have hm := median_line_strictMono hr b.allTheta s.maxBias hs
      have m1 := hm e1
      have m2 := hm e2
      dsimp only at m1 m2
      rw [relevantBound_eq, if_pos hcase] at hv
      simp only [relevantBound_eq, if_pos hcase] at h
      rw [hv] at m2
      nlinarith
    · have hm := median_line_strictMono hr (fun k => -b.allTheta k) s.maxBias hs
      have m1 := hm e1
      have m2 := hm e2
      dsimp only at m1 m2
      rw [relevantBound_eq, if_neg hcase] at hv
      simp only [relevantBound_eq, if_neg hcase] at h
      have hv2 : (median fun k => -b.allTheta k + |rho| * diagStrength v * s.maxBias k) = -null := by linarith
      rw [hv2] at m2
      nlinarith

/-- **C15.** Closed form of the root for a single repetition. -/
theorem C15_closed_form (b : Block n 1) (s : Sens n 1) (cl : Option (ClusterInfo n 1))
    (hθ : b.theta = b.allTheta 0) (hs : 0 < s.maxBias 0) (null rho level : ℝ) (hρ : rho ≠ 0) {v : ℝ}
    (h0 : 0 ≤ v) (h1 : v < 1) :
    relevantBound b s cl null rho level v = null ↔
      v = rvClosed (|b.theta - null| / (|rho| * s.maxBias 0)) := by
  have hρ' : 0 < |rho| := abs_pos.2 hρ
  rw [← diagStrength_eq_iff h0 h1 (by positivity), relevantBound_eq, median_one, median_one, ← hθ,
    eq_div_iff (by positivity)]
  by_cases hc : null > b.theta
  · rw [if_pos hc, abs_of_neg (show b.theta - null < 0 by linarith)]
    constructor <;> intro h <;> nlinarith
  · rw [if_neg hc, abs_of_nonneg (show 0 ≤ b.theta - null by linarith)]
    constructor <;> intro h <;> nlinarith

/-- Non-vacuity of C15: `theta = 3`, `max_bias = 1`, null `0`: the robustness value lies in `(0,1)`. -/
example : 0 < rvClosed 3 ∧ rvClosed 3 < 1 := by
  refine ⟨?_, (rvClosed_mem 3).2⟩
  unfold rvClosed
  have : (3 : ℝ) ^ 2 < Real.sqrt (3 ^ 4 + 4 * 3 ^ 2) := Real.lt_sqrt_of_sq_lt (by norm_num)
  exact div_pos (sub_pos.2 this) two_pos

end DML
