import Verif.LimitWeights

/-!
# Wrong values are excluded in large samples

Intervals made of the medians of the end points of all repetitions miss any value but the true one, and the median of the p-values of a
non-zero parameter vanishes.  Nothing here models code of the package; the medians are those of
/repo/doubleml/double_ml_framework.py:666-671 and 251-259.
-/

open MeasureTheory ProbabilityTheory Filter Topology
open scoped ENNReal

namespace DML

variable {Ω : Type*} {mΩ : MeasurableSpace Ω} {P : Measure Ω} {r : ℕ} {Z : ℕ → Ω → ℝ} {σ θ : ℝ}

theorem oP.absP {X : ℕ → Ω → ℝ} (h : oP P X) : oP P fun n ω => |X n ω| :=
  h.mono (Eventually.of_forall fun _ _ => le_of_eq (abs_abs _))

/-- The estimate of one repetition is consistent. -/
theorem RepLimit.consistent {X T : ℕ → Ω → ℝ} (h : RepLimit P Z σ θ X T) (hZ : OP P Z) : oP P fun n ω => X n ω - θ :=
  OP.of_root ((h.linear.bdd.add ((OP_const (P := P) σ).mul hZ)).mono (Eventually.of_forall fun n ω => by simp))

/-- The standard error of one repetition vanishes. -/
theorem RepLimit.vanish {X T : ℕ → Ω → ℝ} (h : RepLimit P Z σ θ X T) : oP P T := OP.of_root (OP_of_sub h.scale)

variable {X T : ℕ → Ω → Fin r → ℝ}

/-- An end point of the interval converges to the true parameter. -/
theorem agg_end (hr : 0 < r) (hZ : OP P Z) (h : ∀ k, RepLimit P Z σ θ (fun n ω => X n ω k) fun n ω => T n ω k) (q : ℝ) :
    oP P fun n ω => median (fun k => X n ω k + T n ω k * q) - θ := by
  have := oP.median (P := P) hr (X := fun n ω k => X n ω k + T n ω k * q) (Y := fun _ _ => θ) (m := fun _ => 1) fun k =>
    (((h k).consistent hZ).add ((h k).vanish.const_mul q)).mono (Eventually.of_forall fun n ω => le_of_eq (by congr 1; ring))
  simpa using this

/-- The interval misses other values. -/
theorem agg_exclude [IsProbabilityMeasure P] (hr : 0 < r) (hZ : OP P Z)
    (h : ∀ k, RepLimit P Z σ θ (fun n ω => X n ω k) fun n ω => T n ω k) (q : ℝ) {u : ℝ} (hu : u ≠ θ) :
    Tendsto (fun n => P.real {ω | median (fun k => X n ω k - T n ω k * q) ≤ u ∧ u ≤ median fun k => X n ω k + T n ω k * q})
      atTop (𝓝 0) := by
  have hd : 0 < |u - θ| := abs_pos.2 (sub_ne_zero.2 hu)
  have h1 := (agg_end hr hZ h q).real hd
  have h2 := (agg_end hr hZ h (-q)).real hd
  have h12 := h1.add h2
  rw [add_zero] at h12
  refine squeeze_zero (fun n => measureReal_nonneg) (fun n => ?_) h12
  refine (measureReal_mono ?_).trans (measureReal_union_le _ _)
  rintro ω ⟨h3, h4⟩
  have e : (fun k => X n ω k - T n ω k * q) = fun k => X n ω k + T n ω k * -q := funext fun k => by ring
  rw [e] at h3
  rcases le_total θ u with h5 | h5
  · left
    rw [Set.mem_ofPred_eq, abs_of_nonneg (sub_nonneg.2 h5), abs_of_nonneg (by linarith)]
    linarith
  · right
    rw [Set.mem_ofPred_eq, abs_of_nonpos (sub_nonpos.2 h5), abs_of_nonpos (by linarith)]
    linarith

/-- The p-value of a non-zero parameter vanishes in every repetition. -/
theorem RepLimit.pval {X T : ℕ → Ω → ℝ} (h : RepLimit P Z σ θ X T) (hZ : OP P Z) (hσ : 0 < σ) (hθ : θ ≠ 0) :
    oP P fun n ω => 2 * (1 - Phi |X n ω / T n ω|) := by
  intro ε hε
  have hθ' : 0 < |θ| := abs_pos.2 hθ
  obtain ⟨c, hc0, hc1⟩ : ∃ c : ℝ, 0 < c ∧ 2 * (1 - Phi c) < ε := by
    have hm : 0 < min (ε / 4) (1 / 4) := by positivity
    have hm1 := min_le_left (ε / 4) (1 / 4 : ℝ)
    have hm2 := min_le_right (ε / 4) (1 / 4 : ℝ)
    refine ⟨ppf (1 - min (ε / 4) (1 / 4)), ppf_pos (by linarith) (by linarith), ?_⟩
    rw [Phi_ppf (by linarith) (by linarith)]
    linarith
  have h1 := ((h.consistent hZ).absP.const_mul (2 / |θ|)).add
    ((h.vanish.absP.const_mul (2 * c / |θ|)).add (h.scale.absP.const_mul (1 / σ)))
  refine tendsto_of_tendsto_of_tendsto_of_le_of_le tendsto_const_nhds (h1 1 one_pos) (fun _ => zero_le) fun n => measure_mono ?_
  intro ω hω
  rw [Set.mem_ofPred_eq] at hω ⊢
  by_contra hlt
  have n1 : 0 ≤ 2 / |θ| * |X n ω - θ| := by positivity
  have n2 : 0 ≤ 2 * c / |θ| * |T n ω| := by positivity
  have n3 : 0 ≤ 1 / σ * |Real.sqrt n * T n ω - σ| := by positivity
  rw [abs_of_nonneg (by positivity), not_le] at hlt
  have a1 : 2 / |θ| * |X n ω - θ| + 2 * c / |θ| * |T n ω| < 1 := by linarith
  have a3 : 1 / σ * |Real.sqrt n * T n ω - σ| < 1 := by linarith
  have b1 : 2 * |X n ω - θ| + 2 * c * |T n ω| < |θ| := by
    have e : 2 / |θ| * |X n ω - θ| + 2 * c / |θ| * |T n ω| = (2 * |X n ω - θ| + 2 * c * |T n ω|) / |θ| := by ring
    rwa [e, div_lt_one hθ'] at a1
  have b3 : |Real.sqrt n * T n ω - σ| < σ := by rwa [one_div, inv_mul_lt_iff₀ hσ, mul_one] at a3
  have hT : T n ω ≠ 0 := fun h0 => by rw [h0, mul_zero, zero_sub, abs_neg, abs_of_pos hσ] at b3; exact lt_irrefl _ b3
  have hX : |θ| ≤ |X n ω| + |X n ω - θ| := by
    have := abs_sub (X n ω) (X n ω - θ)
    rwa [sub_sub_cancel] at this
  have hq : c ≤ |X n ω / T n ω| := by
    rw [abs_div, le_div_iff₀ (abs_pos.2 hT)]
    have := abs_nonneg (X n ω - θ)
    have := mul_nonneg hc0.le (abs_nonneg (T n ω))
    linarith
  have hp := Phi_mono hq
  have hp1 := Phi_lt_one |X n ω / T n ω|
  rw [abs_of_nonneg (by linarith)] at hω
  linarith

/-- The reported p-value of a non-zero parameter falls below any level. -/
theorem agg_power [IsProbabilityMeasure P] (hr : 0 < r) (hσ : 0 < σ) (hZ : OP P Z)
    (h : ∀ k, RepLimit P Z σ θ (fun n ω => X n ω k) fun n ω => T n ω k) (hθ : θ ≠ 0) {α : ℝ} (h0 : 0 < α)
    (hm : ∀ n, MeasurableSet {ω | median (fun k => 2 * (1 - Phi |X n ω k / T n ω k|)) ≤ α}) :
    Tendsto (fun n => P.real {ω | median (fun k => 2 * (1 - Phi |X n ω k / T n ω k|)) ≤ α}) atTop (𝓝 1) := by
  have h1 : oP P fun n ω => median fun k => 2 * (1 - Phi |X n ω k / T n ω k|) := by
    have := oP.median (P := P) hr (X := fun n ω k => 2 * (1 - Phi |X n ω k / T n ω k|)) (Y := fun _ _ => 0) (m := fun _ => 1) fun k => by
      simpa using (h k).pval hZ hσ hθ
    simpa using this
  have h2 : Tendsto (fun n => P.real {ω | median (fun k => 2 * (1 - Phi |X n ω k / T n ω k|)) ≤ α}ᶜ) atTop (𝓝 0) :=
    squeeze_zero (fun n => measureReal_nonneg) (fun n => measureReal_mono fun ω hω => by
      rw [Set.mem_compl_iff, Set.mem_ofPred_eq, not_le] at hω
      exact hω.le.trans (le_abs_self _)) (h1.real h0)
  have h3 : ∀ n, P.real {ω | median (fun k => 2 * (1 - Phi |X n ω k / T n ω k|)) ≤ α} =
      1 - P.real {ω | median (fun k => 2 * (1 - Phi |X n ω k / T n ω k|)) ≤ α}ᶜ := fun n => by
    rw [probReal_compl_eq_one_sub (hm n)]
    ring
  simp only [h3]
  simpa using tendsto_const_nhds.sub h2

end DML
