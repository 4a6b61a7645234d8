import Verif.LimitOls
import Verif.LimitArm

/-!
# Large samples: regressions of doubly robust signals

Nothing here models code of the package.
-/

namespace DML

open MeasureTheory ProbabilityTheory Filter Topology
open scoped ENNReal

variable {Ω : Type*} {mΩ : MeasurableSpace Ω} {P : Measure Ω} {S : Type*} [mS : MeasurableSpace S] {W : ℕ → Ω → S}
  {𝒳 : Type*} [MeasurableSpace 𝒳]

/-! ## Multiplying a model by a function of the covariates -/

theorem MeanZeroGiven.weigh {μ : Measure S} [IsProbabilityMeasure μ] {ξ : S → 𝒳} {v : S → ℝ} (h : MeanZeroGiven μ ξ v) (hv : Integrable v μ)
    {f : 𝒳 → ℝ} (hf : Measurable f) (hi : Integrable (fun w => v w * f (ξ w)) μ) : MeanZeroGiven μ ξ fun w => v w * f (ξ w) := by
  have hs : StronglyMeasurable[MeasurableSpace.comap ξ inferInstance] fun w => f (ξ w) :=
    (hf.comp (comap_measurable ξ)).stronglyMeasurable
  have h1 := condExp_mul_of_stronglyMeasurable_right (μ := μ) hs hi hv
  unfold MeanZeroGiven
  refine EventuallyEq.trans (h1 : _) ?_
  filter_upwards [h] with w hw
  rw [Pi.mul_apply, hw]
  simp

theorem ArmLaw.weigh {μ : Measure S} [IsProbabilityMeasure μ] {y u : S → ℝ} {ξ : S → 𝒳} {g m : 𝒳 → ℝ} {τ : ℝ}
    (law : ArmLaw μ y u ξ g m τ 4) {b : 𝒳 → ℝ} (hb : Measurable b) {C : ℝ} (hC : ∀ x, |b x| ≤ C) :
    ArmLaw μ (fun w => b (ξ w) * y w) u ξ (fun x => b x * g x) m τ 4 := by
  have hbξ : Measurable fun w => b (ξ w) := hb.comp law.measX
  have e : ∀ w, u w * (b (ξ w) * y w - b (ξ w) * g (ξ w)) = u w * (y w - g (ξ w)) * b (ξ w) := fun w => by ring
  have hm := memLp_bdd_mul law.memNoise hbξ fun w => hC (ξ w)
  refine ⟨hbξ.mul law.measY, law.measU, law.measX, hb.mul law.measG, law.measM, law.unit, ?_, law.treat, law.pos, law.overlap, ?_, ?_⟩
  · simp only [e]
    exact law.noise.weigh (law.memNoise.integrable (by norm_num)) hb (hm.integrable (by norm_num))
  · simpa only [e] using hm
  · exact (memLp_bdd_mul law.memG hbξ fun w => hC (ξ w)).ae_eq (Eventually.of_forall fun w => mul_comm _ _)

omit mS [MeasurableSpace 𝒳] in
theorem armVal_weigh (y u : S → ℝ) (ξ : S → 𝒳) (g m b : 𝒳 → ℝ) (w : S) :
    armVal (fun w => b (ξ w) * y w) u ξ (fun x => b x * g x) m w = b (ξ w) * armVal y u ξ g m w := by
  simp only [armVal]
  ring

section

variable {s K : ℕ} {ξ : S → 𝒳} {St : S → Fin s} {c : ∀ n, (Fin n → Fin s) → Scheme K n}
  {fh : ∀ n, Fin K → (Fin n → S) → 𝒳 → ℝ}

theorem Honest.weigh (h : Honest ξ St c fh) {b : 𝒳 → ℝ} (hb : Measurable b) : Honest ξ St c fun n k t x => b x * fh n k t x :=
  ⟨fun n k => (hb.comp measurable_snd).mul (h.meas n k), fun n k t t' hs ht => funext fun w =>
    congrArg (b (ξ w) * ·) (congrFun (h.uses n k t t' hs ht) w)⟩

omit [MeasurableSpace 𝒳] in
theorem errNorm_weigh {f0 b : 𝒳 → ℝ} {C : ℝ} (hC : ∀ x, |b x| ≤ C) (p : ℝ≥0∞) (k : Fin K) (n : ℕ) (ω : Ω) :
    errNorm P W ξ (fun n k t x => b x * fh n k t x) (fun x => b x * f0 x) p k n ω ≤ ENNReal.ofReal |C| * errNorm P W ξ fh f0 p k n ω := by
  unfold errNorm
  rw [← eLpNorm_smul_real]
  refine eLpNorm_mono fun w => ?_
  rw [← mul_sub, norm_mul, norm_mul, Real.norm_eq_abs, Real.norm_eq_abs C]
  exact mul_le_mul_of_nonneg_right ((hC _).trans (le_abs_self _)) (norm_nonneg _)

omit [MeasurableSpace 𝒳] in
theorem oPE.weigh {f0 b : 𝒳 → ℝ} {C : ℝ} (hC : ∀ x, |b x| ≤ C) {p : ℝ≥0∞} (h : ∀ k, oPE P (errNorm P W ξ fh f0 p k)) (k : Fin K) :
    oPE P (errNorm P W ξ (fun n k t x => b x * fh n k t x) (fun x => b x * f0 x) p k) :=
  ((h k).const_mul (c := ENNReal.ofReal |C|) (by simp)).mono fun n ω => errNorm_weigh hC p k n ω

omit [MeasurableSpace 𝒳] in
theorem oPE.weigh_rate {f0 b : 𝒳 → ℝ} {C : ℝ} (hC : ∀ x, |b x| ≤ C) {p : ℝ≥0∞} {E : Fin K → ℕ → Ω → ℝ≥0∞}
    (h : ∀ k, oPE P fun n ω => ENNReal.ofReal (Real.sqrt n) * (E k n ω * errNorm P W ξ fh f0 p k n ω)) (k : Fin K) :
    oPE P fun n ω => ENNReal.ofReal (Real.sqrt n) * (E k n ω * errNorm P W ξ (fun n k t x => b x * fh n k t x) (fun x => b x * f0 x) p k n ω) := by
  refine ((h k).const_mul (c := ENNReal.ofReal |C|) (by simp)).mono fun n ω => ?_
  refine (mul_le_mul_right (mul_le_mul_right (errNorm_weigh hC p k n ω) _) _).trans (le_of_eq ?_)
  ring

end

/-! ## Fitted signals -/

/-- Signals that are parts of a score, also after multiplication with each of the regressors. -/
theorem Part.olsSignal [IsProbabilityMeasure P] {s K p : ℕ} {St : S → Fin s} {c : ∀ n, (Fin n → Fin s) → Scheme K n}
    {f : ∀ n, Fin K → (Fin n → S) → S → ℝ} {f0 : S → ℝ} {x : S → Fin p → ℝ} (hW : Iid P W) (hSt : Measurable St) (hc : StrataBalanced c)
    (hf : Part P W St c f f0) (hx : ∀ j, Part P W St c (fun n k t w => x w j * f n k t w) fun w => x w j * f0 w) :
    OlsSignal P W x f0 (crossVal St c f W) := by
  have hμ : IsProbabilityMeasure (P.map (W 0)) := Measure.isProbabilityMeasure_map (hW.meas 0).aemeasurable
  have key : ∀ {g : ∀ n, Fin K → (Fin n → S) → S → ℝ} {g0 : S → ℝ}, Part P W St c g g0 →
      RegularArray P W (crossVal St c (fun _ _ _ _ => (-1 : ℝ)) W) (crossVal St c g W) (fun _ => -1) g0 (∫ w, g0 w ∂(P.map (W 0))) := fun hg => by
    refine (Part.regular hW hSt hc (Part.fixed measurable_const (memLp_const _)) hg (by simp) ?_).array hW
    rw [integral_add (integrable_const _) (hg.mem0.integrable one_le_two)]
    simp
  refine ⟨(key hf).closePsi.mono (Eventually.of_forall fun n ω => le_of_eq (congrArg _ ?_)), fun j => ?_⟩
  · refine congrArg mean (funext fun i => ?_)
    unfold crossVal
    ring
  · refine (key (hx j)).drift.mono ?_
    filter_upwards [eventually_gt_atTop 0] with n hn ω
    refine le_of_eq (congrArg _ ?_)
    have hn' : (0 : ℝ) < n := by exact_mod_cast hn
    have hs := Real.sqrt_pos.2 hn'
    have h2 := Real.mul_self_sqrt hn'.le
    have e1 : mean (fun i : Fin n => x (W i ω) j * (crossVal St c f W n ω i - f0 (W i ω))) =
        mean (fun i : Fin n => crossVal St c (fun _ _ _ _ => (-1 : ℝ)) W n ω i * (∫ w, x w j * f0 w ∂(P.map (W 0))) +
          crossVal St c (fun n k t w => x w j * f n k t w) W n ω i) -
        mean fun i : Fin n => -1 * (∫ w, x w j * f0 w ∂(P.map (W 0))) + x (W i ω) j * f0 (W i ω) := by
      unfold mean
      rw [← sub_div, ← Finset.sum_sub_distrib]
      refine congrArg (· / _) (Finset.sum_congr rfl fun i _ => ?_)
      unfold crossVal
      ring
    rw [e1, mul_sub]
    refine congrArg _ ?_
    unfold mean
    rw [mul_div_assoc', div_eq_div_iff hn'.ne' hs.ne']
    rw [mul_comm _ (Real.sqrt n), ← mul_assoc, h2, mul_comm]

end DML
