import Verif.LimitConcat

/-!
# Large samples: sums and differences of frameworks

The influence function of `A + B` and `A - B` is the sum or difference of the influence functions.
-/

namespace DML

open MeasureTheory ProbabilityTheory Filter Topology Finset
open scoped ENNReal

variable {Ω S : Type*} {mΩ : MeasurableSpace Ω} [MeasurableSpace S] {P : Measure Ω} {W : ℕ → Ω → S} {p r : ℕ}

/-- `A - B` where both exist and the subtraction succeeds. -/
noncomputable def subFw? {n : ℕ} (a b : Option (DynFW n)) : Option (DynFW n) := do
  let A ← a
  let B ← b
  (A.sub B).toOption

theorem IsInf.combine {μ : Measure S} [IsProbabilityMeasure μ] {f g : S → ℝ} (hf : IsInf μ f) (hg : IsInf μ g) (c : ℝ)
    (hv : ∫ w, (f w + c * g w) ^ 2 ∂μ ≠ 0) : IsInf μ fun w => f w + c * g w where
  meas := hf.meas.add (hg.meas.const_mul c)
  sq := hf.sq.add (hg.sq.const_mul c)
  mean := by
    rw [integral_add (hf.sq.integrable one_le_two) ((hg.sq.integrable one_le_two).const_mul c), integral_const_mul, hf.mean, hg.mean]
    simp
  var := hv

/-- The standard error that sums and differences recompute. -/
theorem recomputedSe_limit [IsProbabilityMeasure P] (hW : Iid P W) {f : S → ℝ} (hf : IsInf (P.map (W 0)) f)
    {U : ∀ n, Ω → Fin n → Fin r → ℝ} {k : Fin r} (hU : oP P fun n ω => mean fun i => (U n ω i k - f (W i ω)) ^ 2) :
    oP P fun n ω => Real.sqrt n * recomputedSe (U n ω) n k - infSd (P.map (W 0)) f := by
  have h := (mean_prod hW hf hf hU hU).continuousAt (f := Real.sqrt) Real.continuous_sqrt.continuousAt
  refine h.mono ?_
  filter_upwards [eventually_gt_atTop 0] with n hn ω
  have hn' : (0 : ℝ) < n := by exact_mod_cast hn
  refine le_of_eq ?_
  congr 1
  unfold recomputedSe infSd
  rw [← Real.sqrt_mul hn'.le, mul_div_cancel₀ _ hn'.ne']
  simp only [sq]

theorem FW.sub_single {n r : ℕ} {A B : FW n r} (hA : A.Valid) (hB : B.Valid) (cA : A.cluster = none) (cB : B.cluster = none) {a b : Block n r}
    (bA : A.blocks = [a]) (bB : B.blocks = [b]) (hv : a.vsf = b.vsf) :
    ∃ C : FW n r, (⟨r, A⟩ : DynFW n).sub ⟨r, B⟩ = .ok ⟨r, C⟩ ∧ C.Valid ∧ C.cluster = none ∧ C.blocks = [a.sub b] := by
  have h := FW.bin_eq_ok (op := Block.sub) (FW.valid_iff.1 hA).1 (FW.valid_iff.1 hB).1
    (⟨fun _ => by rw [bA, bB]; rfl, by rw [cA, cB]⟩) (by
      rw [bA, bB]
      intro p hp
      simp only [List.zip_cons_cons, List.zip_nil_right, List.mem_singleton] at hp
      subst hp
      show |a.vsf - b.vsf| ≤ 1e-8 + 1e-5 * |b.vsf|
      rw [hv, sub_self, abs_zero]
      positivity)
  obtain ⟨C, hC⟩ : ∃ C, FW.sub A B = .ok C := ⟨_, h⟩
  have hC' : FW.bin Block.sub A B = .ok C := hC
  refine ⟨C, ?_, ?_, ?_, ?_⟩
  · unfold DynFW.sub
    simp only [castTo_self, hC, Bind.bind, Except.bind]
    rfl
  · unfold FW.bin at hC'
    split_ifs at hC'
    exact FW.construct_valid hC'
  · rw [h] at hC'
    rw [← Except.ok.inj hC']
    exact cA
  · rw [h] at hC'
    rw [← Except.ok.inj hC']
    simp only [bA, bB, List.zipWith_cons_cons, List.zipWith_nil_right]

/-- The difference of two frameworks. -/
theorem AsympLinear.sub [IsProbabilityMeasure P] (hW : Iid P W) {G H : ∀ n, Ω → Option (DynFW n)} {θ η : ℝ} {f g : S → ℝ}
    (hG : AsympLinear P W r G θ f) (hH : AsympLinear P W r H η g) (hv : ∫ w, (f w - g w) ^ 2 ∂(P.map (W 0)) ≠ 0) :
    AsympLinear P W r (fun n ω => subFw? (G n ω) (H n ω)) (θ - η) fun w => f w - g w := by
  have := hW.prob 0
  have hinf : IsInf (P.map (W 0)) fun w => f w - g w := by
    have h := hG.inf.combine hH.inf (-1) (by simpa [sub_eq_add_neg] using hv)
    simpa [sub_eq_add_neg] using h
  refine ⟨hinf, ?_⟩
  obtain ⟨X, T, U, bad, mX, mT, mU, hX, hT, hU, hbad, hview⟩ := hG.view
  obtain ⟨X', T', U', bad', mX', mT', mU', hX', hT', hU', hbad', hview'⟩ := hH.view
  have hUd : ∀ k, oP P fun n ω => mean fun i => (U n ω i k - U' n ω i k - (f (W i ω) - g (W i ω))) ^ 2 := fun k => by
    refine (((hU k).const_mul 2).add ((hU' k).const_mul 2)).mono (Eventually.of_forall fun n ω => ?_)
    rw [abs_of_nonneg (mean_nonneg fun i => sq_nonneg _)]
    refine le_trans ?_ (le_abs_self _)
    rw [← mean_mul_left, ← mean_mul_left, ← mean_add]
    refine mean_le_mean fun i => ?_
    nlinarith [sq_nonneg (U n ω i k - f (W i ω) + (U' n ω i k - g (W i ω)))]
  refine ⟨fun n ω k => X n ω k - X' n ω k, fun n ω => recomputedSe (fun i k => U n ω i k - U' n ω i k) n,
    fun n ω i k => U n ω i k - U' n ω i k, fun n => bad n ∪ bad' n, fun n k => (mX n k).sub (mX' n k), fun n k => ?_,
    fun n i k => (mU n i k).sub (mU' n i k), fun k => ?_, fun k => ?_, hUd, ?_, ?_⟩
  · refine Measurable.sqrt (Measurable.div_const ?_ _)
    unfold mean
    exact (Finset.measurable_fun_sum _ fun (i : Fin n) _ => ((mU n i k).sub (mU' n i k)).pow_const 2).div_const _
  · refine ((hX k).sub (hX' k)).mono (Eventually.of_forall fun n ω => le_of_eq ?_)
    congr 1
    rw [Finset.sum_sub_distrib]
    ring
  · exact recomputedSe_limit hW hinf (U := fun n ω i k => U n ω i k - U' n ω i k) (hUd k)
  · have hs := hbad.add hbad'
    rw [add_zero] at hs
    exact tendsto_zero_of_le (Eventually.of_forall fun n => measure_union_le _ _) hs
  · filter_upwards [hview, hview'] with n h1 h2 ω hω
    obtain ⟨A, a1, a2, a3, a4⟩ := h1 ω fun h => hω (Or.inl h)
    obtain ⟨B, b1, b2, b3, b4⟩ := h2 ω fun h => hω (Or.inr h)
    obtain ⟨C, c1, c2, c3, c4⟩ := FW.sub_single a2 b2 a3 b3 a4 b4 rfl
    refine ⟨C, ?_, c2, c3, c4⟩
    rw [a1, b1]
    show ((⟨r, A⟩ : DynFW n).sub ⟨r, B⟩).toOption = _
    rw [c1]
    rfl

end DML
