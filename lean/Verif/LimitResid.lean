import Verif.LimitGen

/-!
# Large samples: regressions of residuals on residuals

Nothing here models code of the package.
-/

namespace DML

open MeasureTheory ProbabilityTheory Filter Topology
open scoped ENNReal

variable {Ω : Type*} {mΩ : MeasurableSpace Ω} {P : Measure Ω} {S : Type*} [MeasurableSpace S] {W : ℕ → Ω → S}
  {𝒳 : Type*} [MeasurableSpace 𝒳]

section Parts

variable [IsProbabilityMeasure P] {s K : ℕ} {St : S → Fin s} {c : ∀ n, (Fin n → Fin s) → Scheme K n}
  {f : ∀ n, Fin K → (Fin n → S) → S → ℝ} {f0 : S → ℝ}

namespace Part

theorem array (hW : Iid P W) (hSt : Measurable St) (hc : StrataBalanced c) (hf : Part P W St c f f0) :
    RegularArray P W (crossVal St c (fun _ _ _ _ => (-1 : ℝ)) W) (crossVal St c f W) (fun _ => -1) f0 (∫ w, f0 w ∂(P.map (W 0))) := by
  have hμ : IsProbabilityMeasure (P.map (W 0)) := Measure.isProbabilityMeasure_map (hW.meas 0).aemeasurable
  refine (Part.regular hW hSt hc (Part.fixed measurable_const (memLp_const _)) hf (by simp) ?_).array hW
  rw [integral_add (integrable_const _) (hf.mem0.integrable one_le_two)]
  simp

/-- The fitted values approach the true ones in the mean square. -/
theorem squares (hW : Iid P W) (hSt : Measurable St) (hc : StrataBalanced c) (hf : Part P W St c f f0) :
    oP P fun n ω => mean fun i : Fin n => (crossVal St c f W n ω i - f0 (W i ω)) ^ 2 := by
  refine (hf.array hW hSt hc).closePsi.mono (Eventually.of_forall fun n ω => le_of_eq (congrArg _ ?_))
  refine congrArg mean (funext fun i => ?_)
  unfold crossVal
  ring

theorem mean_tends (hW : Iid P W) (hSt : Measurable St) (hc : StrataBalanced c) (hf : Part P W St c f f0) :
    oP P fun n ω => mean (crossVal St c f W n ω) - ∫ w, f0 w ∂(P.map (W 0)) := by
  have := hW.prob 0
  have hμ : IsProbabilityMeasure (P.map (W 0)) := Measure.isProbabilityMeasure_map (hW.meas 0).aemeasurable
  refine ((hW.lln hf.meas0 (hf.mem0.integrable one_le_two)).add (hf.squares hW hSt hc).mean_of_squares).mono
    (Eventually.of_forall fun n ω => le_of_eq (congrArg _ ?_))
  rw [mean_sub]
  ring

theorem square_tends (hW : Iid P W) (hSt : Measurable St) (hc : StrataBalanced c) (hf : Part P W St c f f0) :
    oP P fun n ω => mean (fun i : Fin n => crossVal St c f W n ω i ^ 2) - ∫ w, f0 w ^ 2 ∂(P.map (W 0)) := by
  have := hW.prob 0
  have hu := hW.lln (hf.meas0.pow_const 2) hf.mem0.integrable_sq
  have hv := hf.squares hW hSt hc
  have huv : oP P fun n ω => mean fun i : Fin n => f0 (W i ω) * (crossVal St c f W n ω i - f0 (W i ω)) := by
    refine oP.of_sq (((OP_of_sub hu).mul_oP hv).mono (Eventually.of_forall fun n ω => ?_))
    rw [abs_of_nonneg (sq_nonneg _)]
    exact (mean_mul_sq_le _ _).trans (le_abs_self _)
  refine ((hu.add (huv.const_mul 2)).add hv).mono (Eventually.of_forall fun n ω => le_of_eq ?_)
  congr 1
  rw [← mean_mul_left, sub_add_eq_add_sub, sub_add_eq_add_sub, ← mean_add, ← mean_add]
  congr 2
  funext i
  ring

/-- The fitted values of a part with mean zero. -/
theorem root_tends (hW : Iid P W) (hSt : Measurable St) (hc : StrataBalanced c) (hf : Part P W St c f f0)
    (h0 : ∫ w, f0 w ∂(P.map (W 0)) = 0) :
    oP P fun n ω => Real.sqrt n * mean (crossVal St c f W n ω) - (∑ i : Fin n, f0 (W i ω)) / Real.sqrt n := by
  refine (hf.array hW hSt hc).drift.mono (Eventually.of_forall fun n ω => le_of_eq (congrArg _ ?_))
  rw [h0]
  simp

theorem sum {ι : Type*} (hW : Iid P W) (I : Finset ι) {g : ι → ∀ n, Fin K → (Fin n → S) → S → ℝ} {g0 : ι → S → ℝ}
    (h : ∀ i ∈ I, Part P W St c (g i) (g0 i)) :
    Part P W St c (fun n k t w => ∑ i ∈ I, g i n k t w) fun w => ∑ i ∈ I, g0 i w := by
  classical
  induction I using Finset.induction_on with
  | empty =>
    refine (Part.fixed (f0 := fun _ => 0) measurable_const ?_).congr (fun _ _ _ _ => by simp) fun _ => by simp
    have hμ : IsProbabilityMeasure (P.map (W 0)) := Measure.isProbabilityMeasure_map (hW.meas 0).aemeasurable
    exact memLp_const _
  | insert a I ha ih =>
    refine ((h a (Finset.mem_insert_self _ _)).comb hW 1 1 (ih fun i hi => h i (Finset.mem_insert_of_mem hi))).congr
      (fun _ _ _ _ => ?_) fun _ => ?_
    · rw [Finset.sum_insert ha]; ring
    · rw [Finset.sum_insert ha]; ring

/-- Means of products of fitted values. -/
theorem product_tends (hW : Iid P W) (hSt : Measurable St) (hc : StrataBalanced c) {g : ∀ n, Fin K → (Fin n → S) → S → ℝ} {g0 : S → ℝ}
    (hf : Part P W St c f f0) (hg : Part P W St c g g0) :
    oP P fun n ω => mean (fun i : Fin n => crossVal St c f W n ω i * crossVal St c g W n ω i) - ∫ w, f0 w * g0 w ∂(P.map (W 0)) := by
  have h1 := (hf.comb hW 1 1 hg).square_tends hW hSt hc
  have h2 := hf.square_tends hW hSt hc
  have h3 := hg.square_tends hW hSt hc
  refine (((h1.sub h2).sub h3).const_mul (1 / 2)).mono (Eventually.of_forall fun n ω => le_of_eq (congrArg _ ?_))
  have i2 := hf.mem0.integrable_sq
  have i3 := hg.mem0.integrable_sq
  have i1 : Integrable (fun w => f0 w * g0 w) (P.map (W 0)) := hf.mem0.integrable_mul hg.mem0
  have e1 : ∫ w, (1 * f0 w + 1 * g0 w) ^ 2 ∂(P.map (W 0)) =
      (∫ w, f0 w ^ 2 ∂(P.map (W 0)) + ∫ w, g0 w ^ 2 ∂(P.map (W 0))) + 2 * ∫ w, f0 w * g0 w ∂(P.map (W 0)) := by
    have i23 : Integrable (fun w => f0 w ^ 2 + g0 w ^ 2) (P.map (W 0)) := i2.add i3
    rw [← integral_const_mul, ← integral_add i2 i3, ← integral_add i23 (i1.const_mul 2)]
    refine integral_congr_ae (Eventually.of_forall fun w => ?_)
    dsimp only
    ring
  have e2 : mean (fun i : Fin n => crossVal St c f W n ω i * crossVal St c g W n ω i) =
      1 / 2 * (mean (fun i : Fin n => crossVal St c (fun n k t w => 1 * f n k t w + 1 * g n k t w) W n ω i ^ 2) -
        mean (fun i : Fin n => crossVal St c f W n ω i ^ 2) - mean (fun i : Fin n => crossVal St c g W n ω i ^ 2)) := by
    rw [← mean_sub, ← mean_sub, ← mean_mul_left]
    refine congrArg mean (funext fun i => ?_)
    unfold crossVal
    ring
  rw [e1, e2]
  ring

end Part

/-- Regressions whose products of regressors with each other and with the signal are parts of scores. -/
theorem GenOls.of_parts {p : ℕ} (hW : Iid P W) (hSt : Measurable St) (hc : StrataBalanced c)
    {xh : Fin p → ∀ n, Fin K → (Fin n → S) → S → ℝ} {x0 : S → Fin p → ℝ} {sh : ∀ n, Fin K → (Fin n → S) → S → ℝ} {s0 : S → ℝ}
    (hxx : ∀ j k, Part P W St c (fun n l t w => xh j n l t w * xh k n l t w) fun w => x0 w j * x0 w k)
    (hxs : ∀ j, Part P W St c (fun n l t w => xh j n l t w * sh n l t w) fun w => x0 w j * s0 w) {β : Fin p → ℝ}
    (hrank : ∀ u : Fin p → ℝ, ∫ w, (∑ j, x0 w j * u j) ^ 2 ∂(P.map (W 0)) = 0 → u = 0)
    (hβ : ∀ j, ∫ w, x0 w j * (s0 w - ∑ k, x0 w k * β k) ∂(P.map (W 0)) = 0) :
    GenOls P W (fun j k => ∫ w, x0 w j * x0 w k ∂(P.map (W 0))) (fun w j => x0 w j * (s0 w - ∑ k, x0 w k * β k)) β
      (fun n ω i j => crossVal St c (xh j) W n ω i) fun n ω i => crossVal St c sh W n ω i := by
  have hμ : IsProbabilityMeasure (P.map (W 0)) := Measure.isProbabilityMeasure_map (hW.meas 0).aemeasurable
  have hpsi : ∀ j, Part P W St c (fun n l t w => xh j n l t w * (sh n l t w - ∑ k, xh k n l t w * β k))
      fun w => x0 w j * (s0 w - ∑ k, x0 w k * β k) := fun j => by
    refine ((hxs j).sub hW (Part.sum hW Finset.univ fun k _ => (hxx j k).comb hW (β k) 0 (hxx j k))).congr (fun n l t w => ?_) fun w => ?_
    · rw [mul_sub, Finset.mul_sum]
      refine congrArg _ (Finset.sum_congr rfl fun k _ => ?_)
      ring
    · rw [mul_sub, Finset.mul_sum]
      refine congrArg _ (Finset.sum_congr rfl fun k _ => ?_)
      ring
  have hi : ∀ j k, Integrable (fun w => x0 w j * x0 w k) (P.map (W 0)) := fun j k => (hxx j k).mem0.integrable one_le_two
  refine ⟨fun j k => by simp only [mul_comm], fun u hu => hrank u ?_, fun j => (hpsi j).meas0, fun j => (hpsi j).mem0, hβ,
    fun j k => ?_, fun j => ?_, fun j k => ?_, fun j => ?_⟩
  · have e : ∀ w, (∑ j, x0 w j * u j) ^ 2 = ∑ j, u j * ∑ k, x0 w j * x0 w k * u k := fun w => by
      rw [sq, Finset.sum_mul]
      refine Finset.sum_congr rfl fun j _ => ?_
      rw [Finset.mul_sum, Finset.mul_sum]
      exact Finset.sum_congr rfl fun k _ => by ring
    simp only [e]
    rw [integral_finsetSum _ fun j _ => (integrable_finsetSum _ fun k _ => (hi j k).mul_const _).const_mul _]
    refine Finset.sum_eq_zero fun j _ => ?_
    rw [integral_const_mul, integral_finsetSum _ fun k _ => (hi j k).mul_const _]
    simp only [integral_mul_const, hu j, mul_zero]
  · refine ((hxx j k).mean_tends hW hSt hc).mono (Eventually.of_forall fun n ω => le_of_eq rfl)
  · refine ((hpsi j).root_tends hW hSt hc (hβ j)).mono (Eventually.of_forall fun n ω => le_of_eq rfl)
  · refine ((hpsi j).product_tends hW hSt hc (hpsi k)).mono (Eventually.of_forall fun n ω => le_of_eq (congrArg _ ?_))
    refine congrArg (· - _) (congrArg mean (funext fun i => ?_))
    simp only [crossVal]
    ring
  · refine (OP_of_sub ((hxx j j).square_tends hW hSt hc)).mono (Eventually.of_forall fun n ω => le_of_eq (congrArg _ ?_))
    refine congrArg mean (funext fun i => ?_)
    unfold crossVal
    ring

/-- Products of residuals with fitted nuisance functions are parts of scores if the errors vanish in the 4-norm and the product of the
2-norms vanishes faster than `1/√n`. -/
theorem Part.residuals (hW : Iid P W) {ξ : S → 𝒳} (hξ : Measurable ξ) {u v : S → ℝ} {u0 v0 : 𝒳 → ℝ} (mu : Measurable u) (mv : Measurable v)
    (mu0 : Measurable u0) (mv0 : Measurable v0) (zu : MeanZeroGiven (P.map (W 0)) ξ fun w => u w - u0 (ξ w))
    (zv : MeanZeroGiven (P.map (W 0)) ξ fun w => v w - v0 (ξ w)) (Lu : MemLp (fun w => u w - u0 (ξ w)) 4 (P.map (W 0)))
    (Lv : MemLp (fun w => v w - v0 (ξ w)) 4 (P.map (W 0))) {uh vh : ∀ n, Fin K → (Fin n → S) → 𝒳 → ℝ} (hu : Honest ξ St c uh)
    (hv : Honest ξ St c vh) (eu : ∀ k, oPE P (errNorm P W ξ uh u0 4 k)) (ev : ∀ k, oPE P (errNorm P W ξ vh v0 4 k))
    (rate : ∀ k, oPE P fun n ω => ENNReal.ofReal (Real.sqrt n) * (errNorm P W ξ uh u0 2 k n ω * errNorm P W ξ vh v0 2 k n ω)) :
    Part P W St c (fun n k t w => (u w - uh n k t (ξ w)) * (v w - vh n k t (ξ w))) fun w => (u w - u0 (ξ w)) * (v w - v0 (ξ w)) := by
  have hμ : IsProbabilityMeasure (P.map (W 0)) := Measure.isProbabilityMeasure_map (hW.meas 0).aemeasurable
  have mru : Measurable fun w => u w - u0 (ξ w) := mu.sub (mu0.comp hξ)
  have mrv : Measurable fun w => v w - v0 (ξ w) := mv.sub (mv0.comp hξ)
  have mΔu : ∀ n k t, Measurable fun w => uh n k t (ξ w) - u0 (ξ w) := fun n k t => ((hu.measAt n k t).sub mu0).comp hξ
  have mΔv : ∀ n k t, Measurable fun w => vh n k t (ξ w) - v0 (ξ w) := fun n k t => ((hv.measAt n k t).sub mv0).comp hξ
  have e : ∀ n k t w, (u w - uh n k t (ξ w)) * (v w - vh n k t (ξ w)) - (u w - u0 (ξ w)) * (v w - v0 (ξ w)) =
      (uh n k t (ξ w) - u0 (ξ w)) * (vh n k t (ξ w) - v0 (ξ w)) -
        ((uh n k t (ξ w) - u0 (ξ w)) * (v w - v0 (ξ w)) + (vh n k t (ξ w) - v0 (ξ w)) * (u w - u0 (ξ w))) := fun n k t w => by ring
  refine ⟨fun n k => ?_, fun n k t t' hs h => ?_, mru.mul mrv,
    ⟨(mru.mul mrv).aestronglyMeasurable, (eLpNorm_mul_four mru mrv).trans_lt (ENNReal.mul_lt_top Lu.2 Lv.2)⟩, fun k => ?_, fun k => ?_⟩
  · exact ((mu.comp measurable_snd).sub (hu.measJ hξ n k)).mul ((mv.comp measurable_snd).sub (hv.measJ hξ n k))
  · funext w
    have h1 := congrFun (hu.uses n k t t' hs h) w
    have h2 := congrFun (hv.uses n k t t' hs h) w
    dsimp only at h1 h2 ⊢
    rw [h1, h2]
  · have hb := ((eu k).mul (ev k)).add (((eu k).mul_const Lv.2.ne).add ((ev k).mul_const Lu.2.ne))
    refine hb.mono fun n ω => ?_
    simp only [e]
    refine (eLpNorm_sub_le' (by norm_num) ((mΔu _ _ _).mul (mΔv _ _ _)) (((mΔu _ _ _).mul mrv).add ((mΔv _ _ _).mul mru))).trans ?_
    exact add_le_add (eLpNorm_mul_four (mΔu _ _ _) (mΔv _ _ _)) ((eLpNorm_add_le' (by norm_num) ((mΔu _ _ _).mul mrv)
      ((mΔv _ _ _).mul mru)).trans (add_le_add (eLpNorm_mul_four (mΔu _ _ _) mrv) (eLpNorm_mul_four (mΔv _ _ _) mru)))
  · refine oP_of_bound (rate k) ((eu k).add (ev k)) fun n ω h1 => ?_
    have h24 : (2 : ℝ≥0∞) ≤ 4 := by norm_num
    have L1 : MemLp (fun w => uh n k (sample W n ω) (ξ w) - u0 (ξ w)) 2 (P.map (W 0)) :=
      MemLp.mono_exponent (q := 4) ⟨(mΔu _ _ _).aestronglyMeasurable, (le_self_add.trans h1).trans_lt ENNReal.one_lt_top⟩ h24
    have L2 : MemLp (fun w => vh n k (sample W n ω) (ξ w) - v0 (ξ w)) 2 (P.map (W 0)) :=
      MemLp.mono_exponent (q := 4) ⟨(mΔv _ _ _).aestronglyMeasurable, (le_add_self.trans h1).trans_lt ENNReal.one_lt_top⟩ h24
    have n1 := zv.null hξ (Lv.mono_exponent h24) (f := fun x => uh n k (sample W n ω) x - u0 x) ((hu.measAt n k _).sub mu0) L1
    have n2 := zu.null hξ (Lu.mono_exponent h24) (f := fun x => vh n k (sample W n ω) x - v0 x) ((hv.measAt n k _).sub mv0) L2
    have i3 : Integrable (fun w => (uh n k (sample W n ω) (ξ w) - u0 (ξ w)) * (vh n k (sample W n ω) (ξ w) - v0 (ξ w))) (P.map (W 0)) :=
      L1.integrable_mul L2
    have e2 : ∫ w, ((u w - uh n k (sample W n ω) (ξ w)) * (v w - vh n k (sample W n ω) (ξ w)) -
        (u w - u0 (ξ w)) * (v w - v0 (ξ w))) ∂(P.map (W 0)) =
        ∫ w, (uh n k (sample W n ω) (ξ w) - u0 (ξ w)) * (vh n k (sample W n ω) (ξ w) - v0 (ξ w)) ∂(P.map (W 0)) :=
      ((Null.zero.sub n1).sub n2).integral_eq i3 fun w => by ring
    rw [e2, abs_mul, abs_of_nonneg (Real.sqrt_nonneg _), ENNReal.ofReal_mul (Real.sqrt_nonneg _)]
    exact mul_le_mul_right (integral_mul_le (mΔu n k (sample W n ω)) (mΔv n k (sample W n ω))) _

end Parts

end DML
