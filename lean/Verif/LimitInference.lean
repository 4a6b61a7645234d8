import Verif.LimitScore
import Verif.Framework

/-!
# Large samples: inference

From asymptotically linear estimates and consistent standard errors to the limits of what is reported: distribution of
the aggregated estimate, coverage of confidence intervals, size of tests, for any fixed number of repetitions.
-/

namespace DML

open MeasureTheory ProbabilityTheory Filter Topology
open scoped ENNReal

variable {Ω : Type*} {mΩ : MeasurableSpace Ω} {P : Measure Ω} {S : Type*} [MeasurableSpace S] {W : ℕ → Ω → S}

/-- `Z n` is asymptotically standard normal. -/
structure NormalLimit (P : Measure Ω) (Z : ℕ → Ω → ℝ) : Prop where
  le : ∀ t, Tendsto (fun n => P.real {ω | Z n ω ≤ t}) atTop (𝓝 (Phi t))
  abs_le : ∀ t, 0 ≤ t → Tendsto (fun n => P.real {ω | |Z n ω| ≤ t}) atTop (𝓝 (2 * Phi t - 1))
  le_abs : ∀ t, 0 < t → Tendsto (fun n => P.real {ω | t ≤ |Z n ω|}) atTop (𝓝 (2 * (1 - Phi t)))
  bdd : OP P Z

theorem gauss_Icc {c : ℝ} (hc : 0 ≤ c) : (gaussianReal 0 1).real (Set.Icc (-c) c) = 2 * Phi c - 1 := by
  have h1 : Set.Icc (-c) c = Set.Iic c \ Set.Iio (-c) := by
    ext x
    simp only [Set.mem_Icc, Set.mem_sdiff, Set.mem_Iic, Set.mem_Iio, not_lt]
    tauto
  have h2 : (gaussianReal 0 1).real (Set.Iio (-c)) = Phi (-c) := by
    rw [Phi_eq_real]
    exact measureReal_congr Iio_ae_eq_Iic
  have hsub : Set.Iio (-c) ⊆ Set.Iic c := fun x hx => (Set.mem_Iio.1 hx).le.trans (by linarith)
  rw [h1, measureReal_sdiff hsub measurableSet_Iio, ← Phi_eq_real, h2, Phi_neg]
  ring

theorem gauss_le_abs {c : ℝ} (hc : 0 ≤ c) : (gaussianReal 0 1).real (Set.Ioo (-c) c)ᶜ = 2 * (1 - Phi c) := by
  have h1 : (gaussianReal 0 1).real (Set.Ioo (-c) c) = (gaussianReal 0 1).real (Set.Icc (-c) c) :=
    measureReal_congr Ioo_ae_eq_Icc
  rw [probReal_compl_eq_one_sub measurableSet_Ioo, h1, gauss_Icc hc]
  ring

/-- The distribution function is Lipschitz. -/
theorem Phi_lipschitz (x y : ℝ) : |Phi x - Phi y| ≤ |x - y| := by
  wlog h : y ≤ x generalizing x y
  · rw [abs_sub_comm (Phi x), abs_sub_comm x]
    exact this y x (le_of_not_ge h)
  rw [abs_of_nonneg (sub_nonneg.2 (Phi_mono h)), abs_of_nonneg (sub_nonneg.2 h), Phi_eq_real, Phi_eq_real,
    ← measureReal_sdiff (Set.Iic_subset_Iic.2 h) measurableSet_Iic, Set.Iic_sdiff_Iic]
  unfold Measure.real
  refine ENNReal.toReal_le_of_le_ofReal (sub_nonneg.2 h) ?_
  rw [gaussianReal_apply 0 one_ne_zero, ← Real.volume_Ioc]
  refine (lintegral_mono (g := fun _ => 1) fun z => ?_).trans (by simp)
  unfold gaussianPDF gaussianPDFReal
  rw [← ENNReal.ofReal_one]
  refine ENNReal.ofReal_le_ofReal (mul_le_one₀ (inv_le_one_of_one_le₀ ?_) (Real.exp_pos _).le (Real.exp_le_one_iff.2 ?_))
  · rw [← Real.sqrt_one]
    refine Real.sqrt_le_sqrt ?_
    simp
    linarith [Real.two_le_pi]
  · have : 0 ≤ (z - 0) ^ 2 / (2 * ((1 : NNReal) : ℝ)) := by positivity
    rw [neg_div]
    linarith

/-- The central limit theorem for standardised sums. -/
theorem Iid.clt (hW : Iid P W) [IsProbabilityMeasure P] {f : S → ℝ} (hf : Measurable f)
    (h0 : ∫ w, f w ∂(P.map (W 0)) = 0) (h1 : ∫ w, f w ^ 2 ∂(P.map (W 0)) = 1) :
    NormalLimit P fun n ω => (∑ i : Fin n, f (W i ω)) / Real.sqrt n := by
  have hid : HasLaw (id : ℝ → ℝ) (gaussianReal 0 1) (gaussianReal 0 1) := ⟨aemeasurable_id, Measure.map_id⟩
  have hT := tendstoInDistribution_inv_sqrt_mul_sum (P := P) (P' := gaussianReal 0 1) (X := fun i ω => f (W i ω)) hid
    (by rw [← h0, integral_map (hW.meas 0).aemeasurable hf.aestronglyMeasurable])
    (by rw [← h1, integral_map (hW.meas 0).aemeasurable (hf.pow_const 2).aestronglyMeasurable]; rfl)
    (hW.indep.comp (fun _ => f) fun _ => hf) fun i => (hW.ident i).comp hf
  have key : ∀ A : Set ℝ, MeasurableSet A → gaussianReal 0 1 (frontier A) = 0 →
      Tendsto (fun n : ℕ => P.real {ω | (∑ i : Fin n, f (W i ω)) / Real.sqrt n ∈ A}) atTop (𝓝 ((gaussianReal 0 1).real A)) := by
    intro A hA hfr
    have h := ProbabilityMeasure.tendsto_measure_of_null_frontier_of_tendsto' hT.tendsto (E := A) (by
      simpa using hfr)
    have h2 := (ENNReal.tendsto_toReal (by simp)).comp h
    simp only [ProbabilityMeasure.coe_mk, Measure.map_id] at h2
    refine h2.congr fun n => ?_
    simp only [Function.comp_apply]
    rw [Measure.map_apply_of_aemeasurable (hT.forall_aemeasurable n) hA]
    unfold Measure.real
    congr 3
    ext ω
    simp only [Finset.sum_range, div_eq_inv_mul]
  have := hW.prob 0
  have hL : MemLp f 2 (P.map (W 0)) := (memLp_two_iff_integrable_sq hf.aestronglyMeasurable).2
    (not_imp_comm.1 integral_undef (by rw [h1]; exact one_ne_zero))
  refine ⟨fun t => ?_, fun t ht => ?_, fun t ht => ?_, hW.root_bdd hf hL h0⟩
  · rw [Phi_eq_real]
    exact key (Set.Iic t) measurableSet_Iic (by rw [frontier_Iic]; exact measure_singleton t)
  · rw [← gauss_Icc ht]
    refine (key (Set.Icc (-t) t) measurableSet_Icc ?_).congr fun n => ?_
    · rw [frontier_Icc (by linarith)]
      exact measure_mono_null (by rfl) (Set.Finite.measure_zero (by simp) _)
    · congr 1
      ext ω
      rw [Set.mem_ofPred_eq, Set.mem_ofPred_eq, abs_le, Set.mem_Icc]
  · rw [← gauss_le_abs ht.le]
    refine (key (Set.Ioo (-t) t)ᶜ measurableSet_Ioo.compl ?_).congr fun n => ?_
    · rw [frontier_compl, frontier_Ioo (by linarith)]
      exact Set.Finite.measure_zero (by simp) _
    · congr 1
      ext ω
      rw [Set.mem_ofPred_eq, Set.mem_ofPred_eq, ← not_lt, abs_lt, Set.mem_compl_iff, Set.mem_Ioo]

theorem tendsto_of_sandwich {p : ℕ → ℝ} {F : ℝ → ℝ} (hF : ContinuousAt F 0)
    (h : ∀ ε, 0 < ε → ∃ l u : ℕ → ℝ, Tendsto l atTop (𝓝 (F (-ε))) ∧ Tendsto u atTop (𝓝 (F ε)) ∧
      ∀ᶠ n in atTop, l n ≤ p n ∧ p n ≤ u n) : Tendsto p atTop (𝓝 (F 0)) := by
  rw [Metric.tendsto_atTop']
  intro η hη
  obtain ⟨δ, hδ, hd⟩ := Metric.continuousAt_iff.1 hF (η / 2) (by linarith)
  obtain ⟨l, u, hl, hu, hlu⟩ := h (δ / 2) (by linarith)
  have h1 := hd (x := δ / 2) (by rw [Real.dist_eq, sub_zero, abs_of_pos (by linarith)]; linarith)
  have h2 := hd (x := -(δ / 2)) (by rw [Real.dist_eq, sub_zero, abs_neg, abs_of_pos (by linarith)]; linarith)
  have h3 := hl.eventually (Metric.ball_mem_nhds _ (by linarith : 0 < η / 2))
  have h4 := hu.eventually (Metric.ball_mem_nhds _ (by linarith : 0 < η / 2))
  obtain ⟨n0, hn0⟩ := eventually_atTop.1 (hlu.and (h3.and h4))
  refine ⟨n0, fun n hn => ?_⟩
  obtain ⟨⟨a, b⟩, c, d⟩ := hn0 n hn.le
  rw [Real.dist_eq] at *
  rw [abs_lt] at *
  constructor <;> linarith

theorem oP.real [IsProbabilityMeasure P] {X : ℕ → Ω → ℝ} (h : oP P X) {ε : ℝ} (hε : 0 < ε) :
    Tendsto (fun n => P.real {ω | ε ≤ |X n ω|}) atTop (𝓝 0) := by
  have := (ENNReal.tendsto_toReal (by simp : (0 : ℝ≥0∞) ≠ ∞)).comp (h ε hε)
  rwa [ENNReal.toReal_zero] at this

/-- A statistic that differs negligibly from an asymptotically normal one. -/
theorem NormalLimit.le_of_close [IsProbabilityMeasure P] {Z U : ℕ → Ω → ℝ} (hZ : NormalLimit P Z)
    (h : oP P fun n ω => U n ω - Z n ω) (t : ℝ) : Tendsto (fun n => P.real {ω | U n ω ≤ t}) atTop (𝓝 (Phi t)) := by
  have hc : ContinuousAt (fun x => Phi (t + x)) 0 := (Phi_continuous.comp (continuous_const.add continuous_id)).continuousAt
  have hs := tendsto_of_sandwich (p := fun n => P.real {ω | U n ω ≤ t}) hc ?_
  · simpa using hs
  intro ε hε
  refine ⟨fun n => P.real {ω | Z n ω ≤ t + -ε} - P.real {ω | ε ≤ |U n ω - Z n ω|},
    fun n => P.real {ω | Z n ω ≤ t + ε} + P.real {ω | ε ≤ |U n ω - Z n ω|}, ?_, ?_, Eventually.of_forall fun n => ⟨?_, ?_⟩⟩
  · simpa using (hZ.le (t + -ε)).sub (h.real hε)
  · simpa using (hZ.le (t + ε)).add (h.real hε)
  · rw [sub_le_iff_le_add]
    refine (measureReal_mono ?_ (measure_ne_top _ _)).trans (measureReal_union_le _ _)
    intro ω hω
    simp only [Set.mem_ofPred_eq, Set.mem_union] at hω ⊢
    by_contra hc
    push Not at hc
    have := (abs_lt.1 hc.2).2
    linarith [hc.1]
  · refine (measureReal_mono ?_ (measure_ne_top _ _)).trans (measureReal_union_le _ _)
    intro ω hω
    simp only [Set.mem_ofPred_eq, Set.mem_union] at hω ⊢
    by_contra hc
    push Not at hc
    have := (abs_lt.1 hc.2).1
    linarith [hc.1]

/-- The probability that an interval covers: `L` and `U` are the standardised end points. -/
theorem NormalLimit.cover [IsProbabilityMeasure P] {Z L U : ℕ → Ω → ℝ} (hZ : NormalLimit P Z) {q : ℝ} (hq : 0 < q)
    (hU : oP P fun n ω => U n ω - (Z n ω + q)) (hL : oP P fun n ω => L n ω - (Z n ω - q)) :
    Tendsto (fun n => P.real {ω | L n ω ≤ 0 ∧ 0 ≤ U n ω}) atTop (𝓝 (2 * Phi q - 1)) := by
  have hc : ContinuousAt (fun x => 2 * Phi (q + max x (-q)) - 1) 0 :=
    (((Phi_continuous.comp (continuous_const.add (continuous_id.max continuous_const))).const_mul 2).sub
      continuous_const).continuousAt
  have hs := tendsto_of_sandwich (p := fun n => P.real {ω | L n ω ≤ 0 ∧ 0 ≤ U n ω}) hc ?_
  · simpa [max_eq_left (by linarith : -q ≤ 0)] using hs
  intro ε hε
  have hq1 : 0 ≤ q + max (-ε) (-q) := by have := le_max_right (-ε) (-q); linarith
  have hq2 : 0 ≤ q + max ε (-q) := by have := le_max_right ε (-q); linarith
  have hmin : 0 < min ε q := lt_min hε hq
  refine ⟨fun n => P.real {ω | |Z n ω| ≤ q + max (-ε) (-q)} - (P.real {ω | min ε q ≤ |U n ω - (Z n ω + q)|} +
      P.real {ω | min ε q ≤ |L n ω - (Z n ω - q)|}),
    fun n => P.real {ω | |Z n ω| ≤ q + max ε (-q)} + (P.real {ω | min ε q ≤ |U n ω - (Z n ω + q)|} +
      P.real {ω | min ε q ≤ |L n ω - (Z n ω - q)|}), ?_, ?_, Eventually.of_forall fun n => ⟨?_, ?_⟩⟩
  · simpa using (hZ.abs_le _ hq1).sub ((hU.real hmin).add (hL.real hmin))
  · simpa using (hZ.abs_le _ hq2).add ((hU.real hmin).add (hL.real hmin))
  · rw [sub_le_iff_le_add]
    refine (measureReal_mono ?_ (measure_ne_top _ _)).trans ((measureReal_union_le _ _).trans
      (add_le_add le_rfl (measureReal_union_le _ _)))
    intro ω hω
    simp only [Set.mem_ofPred_eq, Set.mem_union] at hω ⊢
    by_contra hc
    push Not at hc
    obtain ⟨h1, h2, h3⟩ := hc
    have hm : max (-ε) (-q) = - min ε q := (max_neg_neg ε q)
    rw [hm] at hω
    rw [_root_.abs_le] at hω
    rw [abs_lt] at h2 h3
    have h4 := h1 (by linarith)
    linarith
  · refine (measureReal_mono ?_ (measure_ne_top _ _)).trans ((measureReal_union_le _ _).trans
      (add_le_add le_rfl (measureReal_union_le _ _)))
    intro ω hω
    simp only [Set.mem_ofPred_eq, Set.mem_union] at hω ⊢
    by_contra hc
    push Not at hc
    obtain ⟨h1, h2, h3⟩ := hc
    have hm := min_le_left ε q
    have hx := le_max_left ε (-q)
    rw [abs_lt] at h2 h3
    refine absurd h1 (not_lt.2 (_root_.abs_le.2 ⟨?_, ?_⟩)) <;> linarith

/-! ## Aggregation over repetitions -/

variable {r : ℕ}

theorem abs_median_sub_const_le (hr : 0 < r) (f : Fin r → ℝ) (y : ℝ) : |median f - y| ≤ ∑ k, |f k - y| := by
  have hk : ∀ j, |kth f j - y| ≤ ∑ k, |f k - y| := fun j =>
    Finset.single_le_sum (f := fun k => |f k - y|) (fun _ _ => abs_nonneg _) (Finset.mem_univ (Tuple.sort f j))
  rw [median_eq hr]
  have h1 := hk ⟨(r - 1) / 2, by omega⟩
  have h2 := hk ⟨r / 2, by omega⟩
  rw [abs_le] at *
  constructor <;> linarith

theorem oP.median (hr : 0 < r) {X : ℕ → Ω → Fin r → ℝ} {Y : ℕ → Ω → ℝ} {m : ℕ → ℝ}
    (h : ∀ k, oP P fun n ω => m n * (X n ω k - Y n ω)) : oP P fun n ω => m n * (DML.median (X n ω) - Y n ω) := by
  have hs : oP P fun n ω => ∑ k, |m n * (X n ω k - Y n ω)| :=
    oP.sum _ fun k _ => (h k).mono (Eventually.of_forall fun n ω => by rw [abs_abs])
  refine hs.mono (Eventually.of_forall fun n ω => ?_)
  refine le_trans ?_ (le_abs_self _)
  rw [abs_mul]
  simp only [abs_mul]
  rw [← Finset.mul_sum]
  exact mul_le_mul_of_nonneg_left (abs_median_sub_const_le hr _ _) (abs_nonneg _)

/-- One repetition: its estimate is asymptotically linear with leading term `σ Z / √n` and its standard error is
consistent. -/
structure RepLimit (P : Measure Ω) (Z : ℕ → Ω → ℝ) (σ θ : ℝ) (coef se : ℕ → Ω → ℝ) : Prop where
  linear : oP P fun n ω => Real.sqrt n * (coef n ω - θ) - σ * Z n ω
  scale : oP P fun n ω => Real.sqrt n * se n ω - σ

section Aggregate

variable {Z : ℕ → Ω → ℝ} {σ θ : ℝ} {X S : ℕ → Ω → Fin r → ℝ}

theorem agg_linear (hr : 0 < r) (h : ∀ k, RepLimit P Z σ θ (fun n ω => X n ω k) fun n ω => S n ω k) :
    oP P fun n ω => Real.sqrt n * (aggTheta (X n ω) - θ) - σ * Z n ω := by
  have hn : ∀ᶠ n : ℕ in atTop, 0 < n := eventually_gt_atTop 0
  have key : ∀ n : ℕ, 0 < n → ∀ x z : ℝ, Real.sqrt n * (x - θ) - σ * z = Real.sqrt n * (x - (θ + σ * z / Real.sqrt n)) := by
    intro n hn x z
    have : Real.sqrt n ≠ 0 := (Real.sqrt_pos.2 (by exact_mod_cast hn)).ne'
    field_simp
    ring
  have h1 := oP.median (P := P) hr (X := X) (Y := fun n ω => θ + σ * Z n ω / Real.sqrt n) (m := fun n => Real.sqrt n)
    fun k => (h k).linear.mono (by filter_upwards [hn] with n hn ω; rw [key n hn])
  refine h1.mono ?_
  filter_upwards [hn] with n hn ω
  rw [key n hn]
  rfl

theorem agg_scale (hr : 0 < r) (hσ : 0 < σ) (h : ∀ k, RepLimit P Z σ θ (fun n ω => X n ω k) fun n ω => S n ω k) :
    oP P fun n ω => Real.sqrt n * aggSe (X n ω) (S n ω) (fun _ => (n : ℝ)) - σ := by
  have hn : ∀ᶠ n : ℕ in atTop, 0 < n := eventually_gt_atTop 0
  have hinv : oP P fun n _ => (Real.sqrt n)⁻¹ := oP.of_tendsto
    (tendsto_inv_atTop_zero.comp (Real.tendsto_sqrt_atTop.comp tendsto_natCast_atTop_atTop))
  have hk : ∀ k, oP P fun n ω => (n : ℝ) * ((S n ω k ^ 2 + (X n ω k - median (X n ω)) ^ 2 / n) - σ ^ 2 / n) := by
    intro k
    have h1 := (h k).scale.mul_sub (h k).scale
    have h2 := (((h k).linear.sub (agg_linear hr h)).bdd.mul_oP hinv).sq
    refine (h1.add h2).mono ?_
    filter_upwards [hn] with n hn ω
    refine le_of_eq ?_
    congr 1
    have h0 : (n : ℝ) ≠ 0 := by positivity
    have h3 : Real.sqrt n ≠ 0 := (Real.sqrt_pos.2 (by exact_mod_cast hn)).ne'
    have h4 : Real.sqrt n * Real.sqrt n = n := Real.mul_self_sqrt (Nat.cast_nonneg _)
    have h5 : (Real.sqrt n * (X n ω k - θ) - σ * Z n ω - (Real.sqrt n * (aggTheta (X n ω) - θ) - σ * Z n ω)) * (Real.sqrt n)⁻¹ =
        X n ω k - median (X n ω) := by
      unfold aggTheta
      field_simp
      ring
    rw [h5]
    field_simp
    linear_combination (-(S n ω k ^ 2)) * h4
  have hm := oP.median hr hk
  have hs : oP P fun n ω => (n : ℝ) * median (fun k => S n ω k ^ 2 + (X n ω k - median (X n ω)) ^ 2 / n) - σ ^ 2 :=
    hm.mono (by
      filter_upwards [hn] with n hn ω
      refine le_of_eq ?_
      congr 1
      have h0 : (n : ℝ) ≠ 0 := by positivity
      field_simp)
  have hq := hs.continuousAt (f := Real.sqrt) Real.continuous_sqrt.continuousAt
  refine hq.mono (Eventually.of_forall fun n ω => le_of_eq ?_)
  rw [Real.sqrt_sq hσ.le, Real.sqrt_mul (Nat.cast_nonneg _)]
  rfl

theorem studentised (hZ : OP P Z) (hσ : 0 < σ) {A B : ℕ → Ω → ℝ} (hA : oP P fun n ω => Real.sqrt n * (A n ω - θ) - σ * Z n ω)
    (hB : oP P fun n ω => Real.sqrt n * B n ω - σ) : oP P fun n ω => (A n ω - θ) / B n ω - Z n ω := by
  have hi := hB.continuousAt (f := fun x => x⁻¹) (continuousAt_inv₀ hσ.ne')
  have hO : OP P fun n ω => Real.sqrt n * (A n ω - θ) :=
    (hA.bdd.add ((OP_const (P := P) σ).mul hZ)).mono (Eventually.of_forall fun n ω => by simp)
  refine ((hO.mul_oP hi).add (hA.const_mul σ⁻¹)).mono ?_
  filter_upwards [eventually_gt_atTop 0] with n hn ω
  refine le_of_eq ?_
  congr 1
  have h3 : Real.sqrt n ≠ 0 := (Real.sqrt_pos.2 (by exact_mod_cast hn)).ne'
  rw [← mul_div_mul_left (A n ω - θ) (B n ω) h3]
  field_simp
  ring

/-- The estimate is asymptotically normal with standard deviation `σ/√n`. -/
theorem agg_normal [IsProbabilityMeasure P] (hr : 0 < r) (hσ : 0 < σ) (hZ : NormalLimit P Z)
    (h : ∀ k, RepLimit P Z σ θ (fun n ω => X n ω k) fun n ω => S n ω k) (t : ℝ) :
    Tendsto (fun n : ℕ => P.real {ω | Real.sqrt n * (aggTheta (X n ω) - θ) / σ ≤ t}) atTop (𝓝 (Phi t)) := by
  refine hZ.le_of_close (((agg_linear hr h).const_mul σ⁻¹).mono (Eventually.of_forall fun n ω => le_of_eq ?_)) t
  congr 1
  field_simp

/-- So is the estimate divided by its reported standard error. -/
theorem agg_student [IsProbabilityMeasure P] (hr : 0 < r) (hσ : 0 < σ) (hZ : NormalLimit P Z)
    (h : ∀ k, RepLimit P Z σ θ (fun n ω => X n ω k) fun n ω => S n ω k) (t : ℝ) :
    Tendsto (fun n : ℕ => P.real {ω | (aggTheta (X n ω) - θ) / aggSe (X n ω) (S n ω) (fun _ => (n : ℝ)) ≤ t}) atTop (𝓝 (Phi t)) :=
  hZ.le_of_close (studentised hZ.bdd hσ (agg_linear hr h) (agg_scale hr hσ h)) t

/-- Intervals made of the medians of the end points of all repetitions cover with the right probability. -/
theorem agg_cover [IsProbabilityMeasure P] (hr : 0 < r) (hσ : 0 < σ) (hZ : NormalLimit P Z)
    (h : ∀ k, RepLimit P Z σ θ (fun n ω => X n ω k) fun n ω => S n ω k) {q : ℝ} (hq : 0 < q) :
    Tendsto (fun n => P.real {ω | median (fun k => X n ω k - S n ω k * q) ≤ θ ∧ θ ≤ median fun k => X n ω k + S n ω k * q})
      atTop (𝓝 (2 * Phi q - 1)) := by
  have hn : ∀ᶠ n : ℕ in atTop, 0 < n := eventually_gt_atTop 0
  have key : ∀ e : ℝ, oP P fun n ω => Real.sqrt n * (median (fun k => X n ω k + S n ω k * (e * q)) - θ) / σ - (Z n ω + e * q) := by
    intro e
    have h1 := oP.median (P := P) hr (X := fun n ω k => X n ω k + S n ω k * (e * q))
      (Y := fun n ω => θ + σ * (Z n ω + e * q) / Real.sqrt n) (m := fun n => Real.sqrt n) fun k =>
        ((h k).linear.add ((h k).scale.const_mul (e * q))).mono (by
          filter_upwards [hn] with n hn ω
          refine le_of_eq ?_
          congr 1
          have h3 : Real.sqrt n ≠ 0 := (Real.sqrt_pos.2 (by exact_mod_cast hn)).ne'
          field_simp
          ring)
    refine (h1.const_mul σ⁻¹).mono ?_
    filter_upwards [hn] with n hn ω
    refine le_of_eq ?_
    congr 1
    have h3 : Real.sqrt n ≠ 0 := (Real.sqrt_pos.2 (by exact_mod_cast hn)).ne'
    generalize median (fun k => X n ω k + S n ω k * (e * q)) = m
    field_simp
    ring
  have hU := key 1
  have hL := key (-1)
  refine (hZ.cover hq (U := fun n ω => Real.sqrt n * (median (fun k => X n ω k + S n ω k * (1 * q)) - θ) / σ)
    (L := fun n ω => Real.sqrt n * (median (fun k => X n ω k + S n ω k * (-1 * q)) - θ) / σ)
    (by simpa using hU) (by simpa [sub_eq_add_neg] using hL)).congr' ?_
  filter_upwards [hn] with n hn
  congr 1
  ext ω
  have h3 : 0 < Real.sqrt n := Real.sqrt_pos.2 (by exact_mod_cast hn)
  have e1 : ∀ x : ℝ, Real.sqrt n * (x - θ) / σ ≤ 0 ↔ x ≤ θ := fun x => by
    rw [div_le_iff₀ hσ, zero_mul, ← sub_nonpos (a := x)]
    exact ⟨fun h => le_of_not_gt fun hx => absurd h (not_le.2 (mul_pos h3 hx)), fun h => mul_nonpos_of_nonneg_of_nonpos h3.le h⟩
  have e2 : ∀ x : ℝ, 0 ≤ Real.sqrt n * (x - θ) / σ ↔ θ ≤ x := fun x => by
    rw [le_div_iff₀ hσ, zero_mul, ← sub_nonneg (a := x)]
    exact ⟨fun h => le_of_not_gt fun hx => absurd h (not_le.2 (mul_neg_of_pos_of_neg h3 hx)), fun h => mul_nonneg h3.le h⟩
  simp only [Set.mem_ofPred_eq, e1, e2, one_mul, neg_mul, mul_neg, ← sub_eq_add_neg]

/-- The two-sided test of a true hypothesis rejects with the nominal probability. -/
theorem agg_pval [IsProbabilityMeasure P] (hr : 0 < r) (hσ : 0 < σ) (hZ : NormalLimit P Z)
    (h : ∀ k, RepLimit P Z σ 0 (fun n ω => X n ω k) fun n ω => S n ω k) {α : ℝ} (h0 : 0 < α) (h1 : α < 1) :
    Tendsto (fun n => P.real {ω | median (fun k => 2 * (1 - Phi |X n ω k / S n ω k|)) ≤ α}) atTop (𝓝 α) := by
  have hk : ∀ k, oP P fun n ω => 2 * (1 - Phi |X n ω k / S n ω k|) - 2 * (1 - Phi |Z n ω|) := by
    intro k
    have hs := studentised hZ.bdd hσ (h k).linear (h k).scale
    refine (hs.const_mul 2).mono (Eventually.of_forall fun n ω => ?_)
    have e1 := Phi_lipschitz |X n ω k / S n ω k| |Z n ω|
    have e2 := abs_abs_sub_abs_le (X n ω k / S n ω k) (Z n ω)
    rw [sub_zero, abs_mul, abs_two]
    have e3 : 2 * (1 - Phi |X n ω k / S n ω k|) - 2 * (1 - Phi |Z n ω|) =
        -(2 * (Phi |X n ω k / S n ω k| - Phi |Z n ω|)) := by ring
    rw [e3, abs_neg, abs_mul, abs_two]
    linarith
  have hm : oP P fun n ω => median (fun k => 2 * (1 - Phi |X n ω k / S n ω k|)) - 2 * (1 - Phi |Z n ω|) := by
    have := oP.median (P := P) hr (X := fun n ω k => 2 * (1 - Phi |X n ω k / S n ω k|)) (Y := fun n ω => 2 * (1 - Phi |Z n ω|))
      (m := fun _ => 1) fun k => by simpa using hk k
    simpa using this
  have hv : ∀ s, 0 < s → s < 1 → Tendsto (fun n => P.real {ω | 2 * (1 - Phi |Z n ω|) ≤ s}) atTop (𝓝 s) := by
    intro s hs0 hs1
    have hq := hZ.le_abs (ppf (1 - s / 2)) (ppf_pos (by linarith) (by linarith))
    rw [Phi_ppf (by linarith) (by linarith)] at hq
    have e : 2 * (1 - (1 - s / 2)) = s := by ring
    rw [e] at hq
    refine hq.congr fun n => ?_
    congr 1
    ext ω
    rw [Set.mem_ofPred_eq, Set.mem_ofPred_eq, ppf_le_iff (by linarith) (by linarith)]
    constructor <;> intro h <;> linarith
  obtain ⟨c, hc0, hc1, hc2⟩ : ∃ c, 0 < c ∧ c < α ∧ c < 1 - α := by
    refine ⟨min α (1 - α) / 2, ?_, ?_, ?_⟩
    · have := lt_min h0 (sub_pos.2 h1); linarith
    · have := min_le_left α (1 - α); linarith
    · have := min_le_right α (1 - α); linarith
  have hF : ContinuousAt (fun x => α + max (min x c) (-c)) 0 :=
    (continuous_const.add ((continuous_id.min continuous_const).max continuous_const)).continuousAt
  have hs := tendsto_of_sandwich (p := fun n => P.real {ω | median (fun k => 2 * (1 - Phi |X n ω k / S n ω k|)) ≤ α}) hF ?_
  · rwa [min_eq_left hc0.le, max_eq_left (by linarith), add_zero] at hs
  intro ε hε
  have hd : 0 < min ε c := lt_min hε hc0
  have ed : max (min ε c) (-c) = min ε c := max_eq_left (by linarith)
  have ed2 : max (min (-ε) c) (-c) = - min ε c := by
    rw [min_eq_left (by linarith : -ε ≤ c), max_neg_neg]
  have hdc := min_le_right ε c
  rw [ed, ed2]
  generalize min ε c = d at hd hdc
  refine ⟨fun n => P.real {ω | 2 * (1 - Phi |Z n ω|) ≤ α + -d} -
      P.real {ω | d ≤ |median (fun k => 2 * (1 - Phi |X n ω k / S n ω k|)) - 2 * (1 - Phi |Z n ω|)|},
    fun n => P.real {ω | 2 * (1 - Phi |Z n ω|) ≤ α + d} +
      P.real {ω | d ≤ |median (fun k => 2 * (1 - Phi |X n ω k / S n ω k|)) - 2 * (1 - Phi |Z n ω|)|}, ?_, ?_,
    Eventually.of_forall fun n => ⟨?_, ?_⟩⟩
  · simpa using (hv (α + -d) (by linarith) (by linarith)).sub (hm.real hd)
  · simpa using (hv (α + d) (by linarith) (by linarith)).add (hm.real hd)
  · rw [sub_le_iff_le_add]
    refine (measureReal_mono ?_ (measure_ne_top _ _)).trans (measureReal_union_le _ _)
    intro ω hω
    simp only [Set.mem_ofPred_eq, Set.mem_union] at hω ⊢
    by_contra hc
    push Not at hc
    have := (abs_lt.1 hc.2).2
    linarith [hc.1]
  · refine (measureReal_mono ?_ (measure_ne_top _ _)).trans (measureReal_union_le _ _)
    intro ω hω
    simp only [Set.mem_ofPred_eq, Set.mem_union] at hω ⊢
    by_contra hc
    push Not at hc
    have := (abs_lt.1 hc.2).1
    linarith [hc.1]

end Aggregate

/-! ## From a regular score to the limits of one repetition -/

section OneRep

variable {A B : ∀ n, Ω → Fin n → ℝ} {a0 b0 : S → ℝ} {θ : ℝ}

/-- The asymptotic standard deviation of `√n` times the estimate: `√E ψ² / |E a|`. -/
noncomputable def asySd (μ : Measure S) (a0 b0 : S → ℝ) (θ : ℝ) : ℝ :=
  Real.sqrt (∫ w, (a0 w * θ + b0 w) ^ 2 ∂μ) / |∫ w, a0 w ∂μ|

/-- The standardised leading term, the same for all ways to split the data. -/
noncomputable def asyZ (P : Measure Ω) (W : ℕ → Ω → S) (a0 b0 : S → ℝ) (θ : ℝ) (n : ℕ) (ω : Ω) : ℝ :=
  (∑ i : Fin n, -(a0 (W i ω) * θ + b0 (W i ω)) / (∫ w, a0 w ∂(P.map (W 0))) / asySd (P.map (W 0)) a0 b0 θ) / Real.sqrt n

theorem RegularArray.asySd_pos (h : RegularArray P W A B a0 b0 θ)
    (hv : ∫ w, (a0 w * θ + b0 w) ^ 2 ∂(P.map (W 0)) ≠ 0) : 0 < asySd (P.map (W 0)) a0 b0 θ :=
  div_pos (Real.sqrt_pos.2 (lt_of_le_of_ne (integral_nonneg fun _ => sq_nonneg _) hv.symm)) (abs_pos.2 h.identified)

theorem RegularArray.normal [IsProbabilityMeasure P] (hW : Iid P W) (h : RegularArray P W A B a0 b0 θ)
    (hv : ∫ w, (a0 w * θ + b0 w) ^ 2 ∂(P.map (W 0)) ≠ 0) : NormalLimit P (asyZ P W a0 b0 θ) := by
  have hs := h.asySd_pos hv
  refine hW.clt (f := fun w => -(a0 w * θ + b0 w) / (∫ w, a0 w ∂(P.map (W 0))) / asySd (P.map (W 0)) a0 b0 θ)
    ((h.measPsi0.neg.div_const _).div_const _) ?_ ?_
  · rw [integral_div, integral_div, integral_neg, h.moment]
    simp
  · have e : ∀ w, (-(a0 w * θ + b0 w) / (∫ w, a0 w ∂(P.map (W 0))) / asySd (P.map (W 0)) a0 b0 θ) ^ 2 =
        (a0 w * θ + b0 w) ^ 2 / ((∫ w, a0 w ∂(P.map (W 0))) ^ 2 * asySd (P.map (W 0)) a0 b0 θ ^ 2) := fun w => by
      rw [div_pow, div_pow, neg_sq, div_div]
    simp only [e]
    rw [integral_div]
    have e2 : (∫ w, a0 w ∂(P.map (W 0))) ^ 2 * asySd (P.map (W 0)) a0 b0 θ ^ 2 =
        ∫ w, (a0 w * θ + b0 w) ^ 2 ∂(P.map (W 0)) := by
      unfold asySd
      rw [div_pow, Real.sq_sqrt (integral_nonneg fun _ => sq_nonneg _), sq_abs, mul_div_assoc', mul_div_cancel_left₀]
      exact pow_ne_zero 2 h.identified
    rw [e2, div_self hv]

theorem RegularArray.repLimit [IsProbabilityMeasure P] (hW : Iid P W) (h : RegularArray P W A B a0 b0 θ)
    (hv : ∫ w, (a0 w * θ + b0 w) ^ 2 ∂(P.map (W 0)) ≠ 0) : RepLimit P (asyZ P W a0 b0 θ) (asySd (P.map (W 0)) a0 b0 θ) θ
      (fun n ω => -mean (B n ω) / mean (A n ω))
      (fun n ω => Real.sqrt (1 / (n * mean (A n ω) ^ 2) * mean fun i =>
        (A n ω i * (-mean (B n ω) / mean (A n ω)) + B n ω i) ^ 2)) where
  linear := by
    have hs := h.asySd_pos hv
    refine (h.linear hW).mono (Eventually.of_forall fun n ω => le_of_eq ?_)
    congr 1
    unfold asyZ
    rw [← Finset.sum_div, ← Finset.sum_div, Finset.sum_neg_distrib]
    have := h.identified
    field_simp
    ring
  scale := by
    have hA := h.meanA hW
    have hG := h.gamma hW
    have h2 := hA.continuousAt (f := fun x => (x ^ 2)⁻¹) ((continuousAt_id.pow 2).inv₀ (pow_ne_zero 2 h.identified))
    have h3 := (hG.mul_sub h2).continuousAt (f := Real.sqrt) Real.continuous_sqrt.continuousAt
    refine h3.mono ?_
    filter_upwards [eventually_gt_atTop 0] with n hn ω
    refine le_of_eq ?_
    congr 1
    have hn' : (0 : ℝ) < n := by exact_mod_cast hn
    rw [← Real.sqrt_mul hn'.le]
    congr 1
    · congr 1
      rw [one_div, mul_inv, ← mul_assoc, ← mul_assoc, mul_inv_cancel₀ hn'.ne', one_mul, mul_comm]
    · unfold asySd
      rw [← div_eq_mul_inv, Real.sqrt_div' _ (sq_nonneg _), Real.sqrt_sq_eq_abs]

end OneRep

end DML
