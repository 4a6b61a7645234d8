import Verif.Population
import Mathlib.Analysis.Calculus.Deriv.Basic

/-!
# Means along paths of nuisance functions

Nothing here models code of the package.
-/

namespace DML

open MeasureTheory Filter Asymptotics
open scoped ENNReal Topology

variable {S : Type*} [mS : MeasurableSpace S] {μ : Measure S} {𝒳 : Type*} [MeasurableSpace 𝒳]

/-- Near zero, `F t` is integrable with mean `c` up to a term of second order. -/
def FlatMean (μ : Measure S) (F : ℝ → S → ℝ) (c : ℝ) : Prop :=
  ∃ C ε : ℝ, 0 ≤ C ∧ 0 < ε ∧ ∀ t, |t| ≤ ε → Integrable (F t) μ ∧ |∫ w, F t w ∂μ - c| ≤ C * t ^ 2

theorem FlatMean.value {F : ℝ → S → ℝ} {c : ℝ} (h : FlatMean μ F c) : ∫ w, F 0 w ∂μ = c := by
  obtain ⟨C, ε, _, hε, h⟩ := h
  have h1 := (h 0 (by simpa using hε.le)).2
  have h2 : |∫ w, F 0 w ∂μ - c| ≤ 0 := by simpa using h1
  linarith [abs_nonpos_iff.1 h2]

/-- The mean does not change to first order. -/
theorem FlatMean.hasDerivAt {F : ℝ → S → ℝ} {c : ℝ} (h : FlatMean μ F c) : HasDerivAt (fun t => ∫ w, F t w ∂μ) 0 0 := by
  have hv := h.value
  obtain ⟨C, ε, hC, hε, h⟩ := h
  rw [hasDerivAt_iff_isLittleO_nhds_zero]
  simp only [zero_add, smul_zero, sub_zero, hv]
  have h1 : (fun t => ∫ w, F t w ∂μ - c) =O[𝓝 0] fun t : ℝ => t ^ 2 := by
    refine IsBigO.of_bound C ?_
    filter_upwards [Metric.closedBall_mem_nhds (0 : ℝ) hε] with t ht
    have := (h t (by simpa [Real.dist_eq] using ht)).2
    simpa [Real.norm_eq_abs] using this
  refine h1.trans_isLittleO ?_
  have := isLittleO_pow_id (𝕜 := ℝ) (n := 2) (by norm_num)
  simpa using this

theorem FlatMean.congr {F G : ℝ → S → ℝ} {c : ℝ} (h : FlatMean μ F c) (e : ∀ t w, G t w = F t w) : FlatMean μ G c := by
  have : G = F := funext fun t => funext fun w => e t w
  rw [this]
  exact h

/-- Agreement near zero is enough. -/
theorem FlatMean.congr_near {F G : ℝ → S → ℝ} {c δ : ℝ} (h : FlatMean μ F c) (hδ : 0 < δ) (e : ∀ t, |t| ≤ δ → ∀ w, G t w = F t w) :
    FlatMean μ G c := by
  obtain ⟨C, ε, hC, hε, h⟩ := h
  refine ⟨C, min ε δ, hC, lt_min hε hδ, fun t ht => ?_⟩
  have : G t = F t := funext fun w => e t (ht.trans (min_le_right _ _)) w
  rw [this]
  exact h t (ht.trans (min_le_left _ _))

theorem FlatMean.add {F G : ℝ → S → ℝ} {b c : ℝ} (hF : FlatMean μ F b) (hG : FlatMean μ G c) :
    FlatMean μ (fun t w => F t w + G t w) (b + c) := by
  obtain ⟨C, ε, hC, hε, h⟩ := hF
  obtain ⟨C', ε', hC', hε', h'⟩ := hG
  refine ⟨C + C', min ε ε', add_nonneg hC hC', lt_min hε hε', fun t ht => ?_⟩
  obtain ⟨i, a⟩ := h t (ht.trans (min_le_left _ _))
  obtain ⟨i', a'⟩ := h' t (ht.trans (min_le_right _ _))
  refine ⟨i.add i', ?_⟩
  rw [integral_add i i', add_sub_add_comm, add_mul]
  exact (abs_add_le _ _).trans (add_le_add a a')

theorem FlatMean.smul {F : ℝ → S → ℝ} {c : ℝ} (hF : FlatMean μ F c) (k : ℝ) : FlatMean μ (fun t w => k * F t w) (k * c) := by
  obtain ⟨C, ε, hC, hε, h⟩ := hF
  refine ⟨|k| * C, ε, mul_nonneg (abs_nonneg _) hC, hε, fun t ht => ?_⟩
  obtain ⟨i, a⟩ := h t ht
  refine ⟨i.const_mul k, ?_⟩
  rw [integral_const_mul, ← mul_sub, abs_mul, mul_assoc]
  exact mul_le_mul_of_nonneg_left a (abs_nonneg _)

theorem FlatMean.sub {F G : ℝ → S → ℝ} {b c : ℝ} (hF : FlatMean μ F b) (hG : FlatMean μ G c) :
    FlatMean μ (fun t w => F t w - G t w) (b - c) := by
  have := hF.add (hG.smul (-1))
  rw [sub_eq_add_neg b, ← neg_one_mul c]
  exact this.congr fun t w => by ring

theorem FlatMean.const {f : S → ℝ} (hf : Integrable f μ) : FlatMean μ (fun _ => f) (∫ w, f w ∂μ) :=
  ⟨0, 1, le_rfl, one_pos, fun _ _ => ⟨hf, by simp⟩⟩

/-- A function whose mean is `c` for every `t`. -/
theorem FlatMean.of_eq {F : ℝ → S → ℝ} {c : ℝ} (i : ∀ t, Integrable (F t) μ) (e : ∀ t, ∫ w, F t w ∂μ = c) : FlatMean μ F c :=
  ⟨0, 1, le_rfl, one_pos, fun t _ => ⟨i t, by simp [e t]⟩⟩

/-- `f` is integrable with mean `c`. -/
def HasMean (μ : Measure S) (f : S → ℝ) (c : ℝ) : Prop := Integrable f μ ∧ ∫ w, f w ∂μ = c

theorem HasMean.add {f g : S → ℝ} {b c : ℝ} (hf : HasMean μ f b) (hg : HasMean μ g c) : HasMean μ (fun w => f w + g w) (b + c) :=
  ⟨hf.1.add hg.1, by rw [integral_add hf.1 hg.1, hf.2, hg.2]⟩

theorem HasMean.sub {f g : S → ℝ} {b c : ℝ} (hf : HasMean μ f b) (hg : HasMean μ g c) : HasMean μ (fun w => f w - g w) (b - c) :=
  ⟨hf.1.sub hg.1, by rw [integral_sub hf.1 hg.1, hf.2, hg.2]⟩

theorem HasMean.smul {f : S → ℝ} {c : ℝ} (hf : HasMean μ f c) (k : ℝ) : HasMean μ (fun w => k * f w) (k * c) :=
  ⟨hf.1.const_mul k, by rw [integral_const_mul, hf.2]⟩

theorem HasMean.const [IsProbabilityMeasure μ] (c : ℝ) : HasMean μ (fun _ => c) c := ⟨integrable_const _, by simp⟩

theorem HasMean.of {f : S → ℝ} (hf : Integrable f μ) : HasMean μ f (∫ w, f w ∂μ) := ⟨hf, rfl⟩

theorem HasMean.congr {f g : S → ℝ} {b c : ℝ} (hf : HasMean μ f b) (e : ∀ w, g w = f w) (hc : b = c) : HasMean μ g c := by
  have : g = f := funext e
  rw [this, ← hc]
  exact hf

theorem HasMean.of_null {f : S → ℝ} (hf : Null μ f) : HasMean μ f 0 := hf

theorem HasMean.null {f : S → ℝ} {c : ℝ} (hf : HasMean μ f c) (hc : c = 0) : Null μ f := by
  subst hc
  exact hf

section Arm

variable [IsProbabilityMeasure μ] {y u : S → ℝ} {ξ : S → 𝒳} {g m : 𝒳 → ℝ} {τ : ℝ}

omit [IsProbabilityMeasure μ] in
/-- A smaller bound on the probability. -/
theorem ArmLaw.weaken {p : ℝ≥0∞} (h : ArmLaw μ y u ξ g m τ p) {σ : ℝ} (hσ : 0 < σ) (hle : σ ≤ τ) : ArmLaw μ y u ξ g m σ p :=
  ⟨h.measY, h.measU, h.measX, h.measG, h.measM, h.unit, h.noise, h.treat, hσ, fun x => ⟨hle.trans (h.overlap x).1, (h.overlap x).2⟩,
    h.memNoise, h.memG⟩

/-- The signal for arbitrary nuisance functions: its mean. -/
theorem ArmLaw.signal_mean (h : ArmLaw μ y u ξ g m τ 2) {g' m' : 𝒳 → ℝ} (hg : Measurable g') (hm : Measurable m')
    (eg : MemLp (fun w => g' (ξ w) - g (ξ w)) 2 μ) {σ B : ℝ} (hσ : 0 < σ) (hm' : ∀ x, σ ≤ m' x) (hB : ∀ x, |m' x - m x| ≤ B) :
    Integrable (armVal y u ξ g' m') μ ∧ Integrable (fun w => (g' (ξ w) - g (ξ w)) * (m' (ξ w) - m (ξ w)) / m' (ξ w)) μ ∧
      ∫ w, armVal y u ξ g' m' w ∂μ = ∫ w, g (ξ w) ∂μ + ∫ w, (g' (ξ w) - g (ξ w)) * (m' (ξ w) - m (ξ w)) / m' (ξ w) ∂μ := by
  have hs : 0 < min σ τ := lt_min hσ h.pos
  have n := (h.weaken hs (min_le_right _ _)).signal hg hm eg fun x => (min_le_left _ _).trans (hm' x)
  have ig : Integrable (fun w => g (ξ w)) μ := h.memG.integrable one_le_two
  have ie : Integrable (fun w => (g' (ξ w) - g (ξ w)) * (m' (ξ w) - m (ξ w)) / m' (ξ w)) μ := by
    have h1 := memLp_bdd_mul eg ((hm.sub h.measM).comp h.measX) fun w => hB _
    have h2 := memLp_bdd_mul h1 (hm.comp h.measX).inv fun w => inv_bdd hσ (hm' _)
    exact h2.integrable one_le_two
  have i2 := ig.add ie
  refine ⟨?_, ie, ?_⟩
  · refine (n.1.add i2).congr (Eventually.of_forall fun w => ?_)
    simp only [Pi.add_apply]
    ring
  · rw [← integral_add ig ie]
    exact n.integral_eq i2 fun w => by ring

/-- Double robustness of the signal: one correct function is enough. -/
theorem ArmLaw.robust (h : ArmLaw μ y u ξ g m τ 2) {g' m' : 𝒳 → ℝ} (hg : Measurable g') (hm : Measurable m')
    (eg : MemLp (fun w => g' (ξ w) - g (ξ w)) 2 μ) {σ B : ℝ} (hσ : 0 < σ) (hm' : ∀ x, σ ≤ m' x) (hB : ∀ x, |m' x - m x| ≤ B)
    (hr : (∀ x, g' x = g x) ∨ ∀ x, m' x = m x) :
    Integrable (armVal y u ξ g' m') μ ∧ ∫ w, armVal y u ξ g' m' w ∂μ = ∫ w, g (ξ w) ∂μ := by
  obtain ⟨i, _, e⟩ := h.signal_mean hg hm eg hσ hm' hB
  refine ⟨i, ?_⟩
  rw [e]
  have : ∀ w, (g' (ξ w) - g (ξ w)) * (m' (ξ w) - m (ξ w)) / m' (ξ w) = 0 := fun w => by
    rcases hr with hr | hr <;> simp [hr]
  simp [this]

/-- The signal along a path through the true functions. -/
theorem ArmLaw.flat (h : ArmLaw μ y u ξ g m τ 2) {gt mt : ℝ → 𝒳 → ℝ} {k : 𝒳 → ℝ} (hk : Measurable k)
    (mk : MemLp (fun w => k (ξ w)) 2 μ) (hg : ∀ t x, gt t x = g x + t * k x) (hm : ∀ t, Measurable (mt t)) {B : ℝ}
    (hB : ∀ t x, |t| ≤ 1 → |mt t x - m x| ≤ B * |t|) :
    FlatMean μ (fun t => armVal y u ξ (gt t) (mt t)) (∫ w, g (ξ w) ∂μ) := by
  have hτ := h.pos
  set A : ℝ := |B| + 1 with hA
  have hA0 : 0 < A := by positivity
  have ik : Integrable (fun w => |k (ξ w)|) μ := (mk.integrable one_le_two).abs
  have hsmall : ∀ t : ℝ, |t| ≤ min 1 (τ / 2 / A) → ∀ x, |mt t x - m x| ≤ A * |t| ∧ τ / 2 ≤ mt t x := by
    intro t ht x
    have h1 := hB t x (ht.trans (min_le_left _ _))
    have h2 : |mt t x - m x| ≤ A * |t| := h1.trans (mul_le_mul_of_nonneg_right (by linarith [le_abs_self B]) (abs_nonneg _))
    have h3 : A * |t| ≤ τ / 2 := by
      have := mul_le_mul_of_nonneg_left (ht.trans (min_le_right _ _)) hA0.le
      rwa [mul_div_cancel₀ _ hA0.ne'] at this
    refine ⟨h2, ?_⟩
    have := (_root_.abs_le.1 (h2.trans h3)).1
    linarith [(h.overlap x).1]
  refine ⟨A / (τ / 2) * ∫ w, |k (ξ w)| ∂μ, min 1 (τ / 2 / A),
    mul_nonneg (by positivity) (integral_nonneg fun w => abs_nonneg _), lt_min one_pos (by positivity), fun t ht => ?_⟩
  have hs := hsmall t ht
  have hgm : Measurable (gt t) := by
    have : gt t = fun x => g x + t * k x := funext (hg t)
    rw [this]
    exact h.measG.add (hk.const_mul t)
  have eg : MemLp (fun w => gt t (ξ w) - g (ξ w)) 2 μ := by
    refine (mk.const_mul t).ae_eq (Eventually.of_forall fun w => ?_)
    simp [hg]
  obtain ⟨i, ie, e⟩ := h.signal_mean hgm (hm t) eg (σ := τ / 2) (by positivity) (fun x => (hs x).2) fun x => (hs x).1
  refine ⟨i, ?_⟩
  rw [e, add_sub_cancel_left]
  have hb : ∀ w, |(gt t (ξ w) - g (ξ w)) * (mt t (ξ w) - m (ξ w)) / mt t (ξ w)| ≤ A / (τ / 2) * t ^ 2 * |k (ξ w)| := by
    intro w
    have h1 := hs (ξ w)
    have hp : 0 < mt t (ξ w) := lt_of_lt_of_le (by positivity) h1.2
    rw [hg, add_sub_cancel_left, abs_div, abs_mul, abs_mul, abs_of_pos hp]
    calc |t| * |k (ξ w)| * |mt t (ξ w) - m (ξ w)| / mt t (ξ w)
        ≤ |t| * |k (ξ w)| * (A * |t|) / (τ / 2) :=
          div_le_div₀ (by positivity) (mul_le_mul_of_nonneg_left h1.1 (by positivity)) (by positivity) h1.2
      _ = A / (τ / 2) * (|t| ^ 2) * |k (ξ w)| := by ring
      _ = _ := by rw [sq_abs]
  calc |∫ w, (gt t (ξ w) - g (ξ w)) * (mt t (ξ w) - m (ξ w)) / mt t (ξ w) ∂μ|
      ≤ ∫ w, |(gt t (ξ w) - g (ξ w)) * (mt t (ξ w) - m (ξ w)) / mt t (ξ w)| ∂μ := abs_integral_le_integral_abs
    _ ≤ ∫ w, A / (τ / 2) * t ^ 2 * |k (ξ w)| ∂μ := integral_mono ie.abs (ik.const_mul _) hb
    _ = A / (τ / 2) * (∫ w, |k (ξ w)| ∂μ) * t ^ 2 := by rw [integral_const_mul]; ring

end Arm

end DML
