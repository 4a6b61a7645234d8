import Verif.LimitWeights

/-!
# Large samples: factors computed from the training set

Nothing here models code of the package.
-/

namespace DML

open MeasureTheory ProbabilityTheory Filter Topology
open scoped ENNReal

variable {Ω : Type*} {mΩ : MeasurableSpace Ω} {P : Measure Ω} {S : Type*} [MeasurableSpace S] {W : ℕ → Ω → S}

theorem oPE_of_oP {X : ℕ → Ω → ℝ} (h : oP P X) : oPE P fun n ω => ENNReal.ofReal |X n ω| := fun δ hδ => by
  by_cases ht : δ = ∞
  · simp [ht]
  have hpos : 0 < δ.toReal := ENNReal.toReal_pos hδ.ne' ht
  refine tendsto_zero_of_le (Eventually.of_forall fun n => measure_mono fun ω hω => ?_) (h _ hpos)
  rw [Set.mem_ofPred_eq] at hω ⊢
  exact (ENNReal.toReal_le_of_le_ofReal (abs_nonneg _) hω.le)

/-- Errors multiplied by something bounded. -/
theorem oPE.mul_OP {R : ℕ → Ω → ℝ≥0∞} {X : ℕ → Ω → ℝ} (hR : oPE P R) (hX : OP P X) : oPE P fun n ω => ENNReal.ofReal |X n ω| * R n ω := by
  refine fun δ hδ => tendsto_zero_of_split fun η hη => ?_
  obtain ⟨M, hM, hM'⟩ := hX η hη
  refine ⟨fun n => P {ω | δ < ENNReal.ofReal M * R n ω}, hR.const_mul (by simp) δ hδ, ?_⟩
  filter_upwards [hM'] with n hn
  refine (measure_mono fun ω hω => ?_).trans ((measure_union_le _ _).trans (add_le_add le_rfl hn))
  by_cases hx : M ≤ |X n ω|
  · exact Or.inr hx
  · refine Or.inl ?_
    show δ < ENNReal.ofReal M * R n ω
    refine lt_of_lt_of_le hω ?_
    exact mul_le_mul_left (ENNReal.ofReal_le_ofReal (not_le.1 hx).le) _

/-- A sequence is bounded in probability if it vanishes after multiplication with any vanishing sequence of numbers. -/
theorem OP_of_seq {X : ℕ → Ω → ℝ} (h : ∀ e : ℕ → ℝ, Tendsto e atTop (𝓝 0) → oP P fun n ω => e n * X n ω) : OP P X := by
  intro η hη
  by_contra hc
  push Not at hc
  have hfr : ∀ j : ℕ, ∃ᶠ n in atTop, η < P {ω | ((j : ℝ) + 1) ≤ |X n ω|} := fun j =>
    (hc (j + 1) (by positivity)).mono fun n hn => hn
  obtain ⟨φ, hφ, hlt⟩ := extraction_forall_of_frequently hfr
  let e : ℕ → ℝ := fun n => 1 / ((Nat.findGreatest (fun j => φ j ≤ n) n : ℝ) + 1)
  have he : Tendsto e atTop (𝓝 0) := by
    refine tendsto_one_div_add_atTop_nhds_zero_nat.comp (tendsto_atTop.2 fun j => ?_)
    filter_upwards [eventually_ge_atTop (φ j)] with n hn
    exact Nat.le_findGreatest ((hφ.id_le j).trans hn) hn
  have h1 := (h e he 1 one_pos).comp hφ.tendsto_atTop
  have h2 := h1.eventually (gt_mem_nhds hη)
  obtain ⟨j, hj⟩ := h2.exists
  refine absurd (hlt j) (not_lt.2 (le_trans (measure_mono fun ω hω => ?_) hj.le))
  rw [Set.mem_ofPred_eq] at hω ⊢
  have hg : Nat.findGreatest (fun i => φ i ≤ φ j) (φ j) = j := by
    refine le_antisymm ?_ (Nat.le_findGreatest (hφ.id_le j) le_rfl)
    have := Nat.findGreatest_spec (P := fun i => φ i ≤ φ j) (hφ.id_le j) le_rfl
    exact hφ.le_iff_le.1 this
  have hp : (0 : ℝ) < (j : ℝ) + 1 := by positivity
  show 1 ≤ |e (φ j) * X (φ j) ω|
  have e1 : e (φ j) = 1 / ((j : ℝ) + 1) := by
    show 1 / ((Nat.findGreatest (fun i => φ i ≤ φ j) (φ j) : ℝ) + 1) = _
    rw [hg]
  rw [e1, abs_mul, abs_of_pos (by positivity), one_div, inv_mul_eq_div, le_div_iff₀ hp, one_mul]
  exact hω

/-! ## Factors -/

/-- A number computed from the training set of a fold that converges to `s0`. -/
structure Factor {s K : ℕ} (P : Measure Ω) (W : ℕ → Ω → S) (St : S → Fin s) (c : ∀ n, (Fin n → Fin s) → Scheme K n)
    (p : ∀ n, Fin K → (Fin n → S) → ℝ) (p0 : ℝ) : Prop where
  meas : ∀ n k, Measurable (p n k)
  uses : ∀ n k, UsesGiven St (p n k) fun α => (c n α).train k
  close : ∀ k, oP P fun n ω => p n k (sample W n ω) - p0

section
variable [IsProbabilityMeasure P] {s K : ℕ} {St : S → Fin s} {c : ∀ n, (Fin n → Fin s) → Scheme K n}
  {f g : ∀ n, Fin K → (Fin n → S) → S → ℝ} {f0 g0 : S → ℝ} {p : ∀ n, Fin K → (Fin n → S) → ℝ} {p0 : ℝ}

omit [IsProbabilityMeasure P] in
theorem Factor.inv (h : Factor P W St c p p0) (h0 : p0 ≠ 0) : Factor P W St c (fun n k t => (p n k t)⁻¹) p0⁻¹ :=
  ⟨fun n k => (h.meas n k).inv, fun n k t t' hs ht => congrArg _ (h.uses n k t t' hs ht),
    fun k => (h.close k).continuousAt (f := fun x => x⁻¹) (continuousAt_inv₀ h0)⟩

omit [IsProbabilityMeasure P] in
/-- Multiplication with a factor. -/
theorem Near.factor (hp : Factor P W St c p p0) (h : Near P W St c f f0) :
    Near P W St c (fun n k t w => p n k t * f n k t w) fun w => p0 * f0 w := by
  refine ⟨fun n k => ((hp.meas n k).comp measurable_fst).mul (h.meas n k), fun n k t t' hs ht => ?_, h.meas0.const_mul p0,
    h.mem0.const_mul p0, fun k => ?_⟩
  · funext w
    rw [hp.uses n k t t' hs ht, congrFun (h.uses n k t t' hs ht) w]
  · have hc := oPE_of_oP (hp.close k)
    refine ((((h.close k).const_mul (c := ENNReal.ofReal |p0|) (by simp)).add (hc.mul (h.close k))).add
      (hc.mul_const h.mem0.2.ne)).mono fun n ω => ?_
    have m1 : Measurable fun w => f n k (sample W n ω) w - f0 w := (h.measDiff n k).comp (measurable_const.prodMk measurable_id)
    have e : (fun w => p n k (sample W n ω) * f n k (sample W n ω) w - p0 * f0 w) = fun w =>
        (p0 * (f n k (sample W n ω) w - f0 w) + (p n k (sample W n ω) - p0) * (f n k (sample W n ω) w - f0 w)) +
          (p n k (sample W n ω) - p0) * f0 w := funext fun w => by ring
    rw [e]
    refine (eLpNorm_add_le' one_le_two ((m1.const_mul _).add (m1.const_mul _)) (h.meas0.const_mul _)).trans (add_le_add
      ((eLpNorm_add_le' one_le_two (m1.const_mul _) (m1.const_mul _)).trans (add_le_add ?_ ?_)) ?_) <;>
    rw [eLpNorm_smul_real]

/-- A score multiplied by a factor that is computed from the training set. -/
theorem Factor.regular (hp : Factor P W St c p p0) (h0 : p0 ≠ 0) (hW : Iid P W) (hSt : Measurable St) (hc : StrataBalanced c) {θ : ℝ}
    (ha : Part P W St c f f0) (hb : Part P W St c g g0) (hid : ∫ w, f0 w ∂(P.map (W 0)) ≠ 0)
    (hmom : ∫ w, (f0 w * θ + g0 w) ∂(P.map (W 0)) = 0) :
    RegularScore P W St K c (fun n k t w => p n k t * f n k t w) (fun n k t w => p n k t * g n k t w)
      (fun w => p0 * f0 w) (fun w => p0 * g0 w) θ := by
  have hμ := hW.prob 0
  have hpsi := (ha.comb hW θ 1 hb).congr (g := fun n k t w => f n k t w * θ + g n k t w) (g0 := fun w => f0 w * θ + g0 w)
    (fun _ _ _ _ => by ring) fun _ => by ring
  have nA := ha.near.factor hp
  have nB := hb.near.factor hp
  have nP := hpsi.near.factor hp
  have e0 : (fun w => p0 * f0 w * θ + p0 * g0 w) = fun w => p0 * (f0 w * θ + g0 w) := funext fun w => by ring
  have e1 : ∀ n k t w, p n k t * f n k t w * θ + p n k t * g n k t w = p n k t * (f n k t w * θ + g n k t w) :=
    fun n k t w => by ring
  have e2 : ∀ w, p0 * f0 w * θ + p0 * g0 w = p0 * (f0 w * θ + g0 w) := fun w => by ring
  refine ⟨hSt, hc, nA.meas, nB.meas, nA.uses, nB.uses, nA.meas0, nB.meas0, nA.mem0, ?_, ?_, ?_, fun k => (nA.close k).risk,
    fun k => ?_, fun k => ?_⟩
  · rw [e0]
    exact nP.mem0
  · rw [integral_const_mul]
    exact mul_ne_zero h0 hid
  · rw [e0, integral_const_mul, hmom, mul_zero]
  · simp only [e1, e2]
    exact (nP.close k).risk
  · simp only [e1, e2]
    have hs := (OP_of_sub (hp.close k)).mul_oP (hpsi.unbiased k)
    refine hs.congr_on (hpsi.close k 1 one_pos) (Eventually.of_forall fun n ω hω => le_of_eq (congrArg _ ?_))
    have hω' : eLpNorm (fun w => f n k (sample W n ω) w * θ + g n k (sample W n ω) w - (f0 w * θ + g0 w)) 2 (P.map (W 0)) ≤ 1 :=
      not_lt.1 hω
    have i1 : Integrable (fun w => f n k (sample W n ω) w * θ + g n k (sample W n ω) w - (f0 w * θ + g0 w)) (P.map (W 0)) :=
      MemLp.integrable one_le_two ⟨(hpsi.measAt n k _).aestronglyMeasurable, hω'.trans_lt ENNReal.one_lt_top⟩
    have i0 : Integrable (fun w => f0 w * θ + g0 w) (P.map (W 0)) := hpsi.mem0.integrable one_le_two
    have e : (fun w => p n k (sample W n ω) * (f n k (sample W n ω) w * θ + g n k (sample W n ω) w) - p0 * (f0 w * θ + g0 w)) =
        fun w => p n k (sample W n ω) * (f n k (sample W n ω) w * θ + g n k (sample W n ω) w - (f0 w * θ + g0 w)) +
          (p n k (sample W n ω) - p0) * (f0 w * θ + g0 w) := funext fun w => by ring
    rw [e, integral_add (i1.const_mul _) (i0.const_mul _), integral_const_mul, integral_const_mul, hmom]
    ring

/-! ## Averages over training sets -/

open Classical in
/-- The sum of the deviations from the mean over all observations outside of a fold is of the order `√n`. -/
theorem Iid.outside_bdd (hW : Iid P W) (hSt : Measurable St) (hc : StrataBalanced c) {u : S → ℝ} (hu : Measurable u)
    (h2 : MemLp u 2 (P.map (W 0))) (k : Fin K) :
    OP P fun n ω => (∑ i with (c n (strataOf St (sample W n ω))).fold i ≠ k, (u (W i ω) - ∫ w, u w ∂(P.map (W 0)))) / Real.sqrt n := by
  have hμ := hW.prob 0
  refine OP_of_seq fun e he => ?_
  have hi := h2.integrable one_le_two
  have hm0 : ∫ w, (u w - ∫ w, u w ∂(P.map (W 0))) ∂(P.map (W 0)) = 0 := by
    rw [integral_sub hi (integrable_const _)]
    simp
  have mv : Measurable fun w => u w - ∫ w, u w ∂(P.map (W 0)) := hu.sub_const _
  have hv : MemLp (fun w => u w - ∫ w, u w ∂(P.map (W 0))) 2 (P.map (W 0)) := h2.sub (memLp_const _)
  generalize (∫ w, u w ∂(P.map (W 0))) = μ at *
  have h1 := hW.cross_centred hSt hc (g := fun n k' (_ : Fin n → S) w => if k' = k then 0 else e n * (u w - μ))
    (fun n k' => by
      by_cases hk : k' = k
      · simp only [hk, if_true]
        exact measurable_const
      · simp only [hk, if_false]
        exact (mv.comp measurable_snd).const_mul _)
    (fun n k' t t' _ _ => rfl) (fun k' => by
      by_cases hk : k' = k
      · simp only [hk, if_true]
        refine fun δ hδ => ?_
        simp [risk]
      · simp only [hk, if_false]
        refine oPE.risk ?_
        simp only [eLpNorm_smul_real]
        have := oPE_of_oP (oP.of_tendsto (P := P) he)
        exact this.mul_const hv.2.ne)
  refine h1.mono (Eventually.of_forall fun n ω => le_of_eq (congrArg _ ?_))
  rw [mul_div_assoc', Finset.mul_sum, Finset.sum_filter]
  congr 1
  refine Finset.sum_congr rfl fun i _ => ?_
  by_cases hk : (c n (strataOf St (sample W n ω))).fold i = k
  · simp [hk]
  · simp only [hk, if_false, ne_eq, not_false_eq_true, if_true]
    rw [integral_const_mul, hm0, mul_zero, sub_zero]

end

end DML
