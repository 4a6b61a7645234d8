import Mathlib.Probability.CDF
import Mathlib.Probability.Distributions.Gaussian.Real

/-!
# The standard normal distribution (`scipy.stats.norm`)

`norm.cdf` is Mathlib's distribution function of the standard Gaussian measure, and `norm.ppf` its
(generalised) inverse.  Everything used about them elsewhere is proved here, not assumed.
-/

namespace DML

open MeasureTheory ProbabilityTheory Filter Topology Set

/-- `scipy.stats.norm.cdf` (used in /repo/doubleml/double_ml_framework.py:156,
double_ml.py:402-403). -/
noncomputable def Phi (x : ℝ) : ℝ := cdf (gaussianReal 0 1) x

/-- `scipy.stats.norm.ppf` (used in /repo/doubleml/double_ml_framework.py:508,663): the smallest `x`
with `p ≤ Φ(x)`.  Only meaningful for `p ∈ (0,1)`, as for scipy (which returns `±inf`/`nan` outside);
every theorem about it carries that hypothesis. -/
noncomputable def ppf (p : ℝ) : ℝ := sInf {x : ℝ | p ≤ Phi x}

theorem Phi_eq_real (x : ℝ) : Phi x = (gaussianReal 0 1).real (Iic x) := cdf_eq_real _ x

instance : NullSingletonClass (gaussianReal 0 1) :=
  nullSingletonClass_gaussianReal (μ := 0) (v := 1) (by norm_num)

theorem Phi_strictMono : StrictMono Phi := by
  intro a b hab
  have hpos : gaussianReal 0 1 (Ioc a b) ≠ 0 := by
    intro h0
    have := gaussianReal_absolutelyContinuous' 0 (v := 1) (by norm_num) h0
    simp at this
    linarith
  have h := (cdf (gaussianReal 0 1)).measure_Ioc a b
  rw [measure_cdf] at h
  by_contra hle
  push Not at hle
  apply hpos
  rw [h]
  exact ENNReal.ofReal_of_nonpos (by unfold Phi at hle; linarith)

theorem Phi_mono : Monotone Phi := Phi_strictMono.monotone

theorem Phi_continuous : Continuous Phi := by
  rw [continuous_iff_continuousAt]
  intro x
  have hm : Monotone Phi := Phi_mono
  rw [hm.continuousAt_iff_leftLim_eq_rightLim]
  have hr : Function.rightLim Phi x = Phi x := by
    have := (cdf (gaussianReal 0 1)).rightLim_eq x
    exact this
  have hl : Function.leftLim Phi x = Phi x := by
    have h := (cdf (gaussianReal 0 1)).measure_singleton x
    rw [measure_cdf, measure_singleton] at h
    have h' := (ENNReal.ofReal_eq_zero.1 h.symm)
    have hle : Function.leftLim Phi x ≤ Phi x := hm.leftLim_le le_rfl
    have : Phi x - Function.leftLim Phi x ≤ 0 := h'
    linarith
  rw [hl, hr]

theorem Phi_neg (x : ℝ) : Phi (-x) = 1 - Phi x := by
  have hmap : (gaussianReal 0 1).map (fun x : ℝ => -x) = gaussianReal 0 1 := by
    rw [gaussianReal_map_neg]; simp
  have h1 : (gaussianReal 0 1).real (Iic (-x)) = (gaussianReal 0 1).real (Ici x) := by
    conv_lhs => rw [← hmap]
    rw [map_measureReal_apply measurable_neg measurableSet_Iic]
    congr 1
    ext y; simp
  have h2 : (gaussianReal 0 1).real (Ici x) = 1 - (gaussianReal 0 1).real (Iio x) := by
    rw [← probReal_compl_eq_one_sub measurableSet_Iio]
    congr 1
    ext y; simp
  have h3 : (gaussianReal 0 1).real (Iio x) = (gaussianReal 0 1).real (Iic x) := by
    unfold Measure.real
    rw [measure_congr Iio_ae_eq_Iic]
  rw [Phi_eq_real, Phi_eq_real, h1, h2, h3]

theorem Phi_zero : Phi 0 = 1 / 2 := by
  have := Phi_neg 0
  simp at this
  linarith

theorem Phi_pos (x : ℝ) : 0 < Phi x :=
  lt_of_le_of_lt (cdf_nonneg _ (x - 1)) (Phi_strictMono (by linarith))

theorem Phi_lt_one (x : ℝ) : Phi x < 1 :=
  lt_of_lt_of_le (Phi_strictMono (show x < x + 1 by linarith)) (cdf_le_one _ _)

theorem exists_Phi_eq {p : ℝ} (h0 : 0 < p) (h1 : p < 1) : ∃ x, Phi x = p := by
  obtain ⟨a, ha⟩ : ∃ a, Phi a < p :=
    ((tendsto_cdf_atBot (gaussianReal 0 1)).eventually_lt_const h0).exists
  obtain ⟨b, hb⟩ : ∃ b, p < Phi b :=
    ((tendsto_cdf_atTop (gaussianReal 0 1)).eventually_const_lt h1).exists
  have hab : a ≤ b := by
    by_contra h
    have := Phi_mono (not_le.1 h).le
    linarith
  obtain ⟨x, -, hx⟩ := intermediate_value_Icc hab Phi_continuous.continuousOn ⟨ha.le, hb.le⟩
  exact ⟨x, hx⟩

theorem ppf_Phi (x : ℝ) : ppf (Phi x) = x := by
  unfold ppf
  have : {y : ℝ | Phi x ≤ Phi y} = Ici x := by
    ext y; simp [Phi_strictMono.le_iff_le]
  rw [this, csInf_Ici]

theorem Phi_ppf {p : ℝ} (h0 : 0 < p) (h1 : p < 1) : Phi (ppf p) = p := by
  obtain ⟨x, rfl⟩ := exists_Phi_eq h0 h1
  rw [ppf_Phi]

/-- The defining (Galois) property of the quantile function. -/
theorem ppf_le_iff {p : ℝ} (h0 : 0 < p) (h1 : p < 1) (x : ℝ) : ppf p ≤ x ↔ p ≤ Phi x := by
  rw [← Phi_strictMono.le_iff_le, Phi_ppf h0 h1]

theorem lt_ppf_iff {p : ℝ} (h0 : 0 < p) (h1 : p < 1) (x : ℝ) : x < ppf p ↔ Phi x < p := by
  rw [← Phi_strictMono.lt_iff_lt, Phi_ppf h0 h1]

theorem ppf_lt_iff {p : ℝ} (h0 : 0 < p) (h1 : p < 1) (x : ℝ) : ppf p < x ↔ p < Phi x := by
  rw [← Phi_strictMono.lt_iff_lt, Phi_ppf h0 h1]

theorem ppf_strictMonoOn : StrictMonoOn ppf (Ioo 0 1) := by
  intro p hp q hq hpq
  rw [← Phi_strictMono.lt_iff_lt, Phi_ppf hp.1 hp.2, Phi_ppf hq.1 hq.2]
  exact hpq

theorem ppf_half : ppf (1 / 2) = 0 := by rw [← Phi_zero, ppf_Phi]

theorem ppf_nonneg {p : ℝ} (h0 : 1 / 2 ≤ p) (h1 : p < 1) : 0 ≤ ppf p := by
  by_contra h
  push Not at h
  have := (ppf_lt_iff (by linarith) h1 0).1 h
  rw [Phi_zero] at this
  linarith

theorem ppf_pos {p : ℝ} (h0 : 1 / 2 < p) (h1 : p < 1) : 0 < ppf p := by
  rw [lt_ppf_iff (by linarith) h1, Phi_zero]; exact h0

theorem ppf_one_sub {p : ℝ} (h0 : 0 < p) (h1 : p < 1) : ppf (1 - p) = - ppf p := by
  obtain ⟨x, rfl⟩ := exists_Phi_eq h0 h1
  rw [← Phi_neg, ppf_Phi, ppf_Phi]

end DML
