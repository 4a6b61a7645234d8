import Verif.AsymptoticWeightProps
import Verif.LimitShare
import Verif.PublishedScoreProps

/-!
# Large-sample properties of difference-in-differences models that use shares of training sets (C79)
-/

namespace DML

open MeasureTheory ProbabilityTheory Filter Topology
open scoped ENNReal

variable {Ω : Type*} {mΩ : MeasurableSpace Ω} {S : Type*} [MeasurableSpace S] {𝒳 : Type*} [MeasurableSpace 𝒳] {Q : Type}
  {E : Ext} {P : Measure Ω} {W : ℕ → Ω → S} {r K : ℕ} {tv : String} {y d : S → ℝ} {ξ : S → 𝒳} {enc : 𝒳 → List Cell}

/-! ## Means over training sets -/

section Means

variable {sp : ∀ n, LinSpec n Q} (H : Study E P W r K sp tv y d ξ enc)

/-- The mean of `u` over the training set of fold `k` in repetition `q`. -/
noncomputable def Study.trainMean (u : S → ℝ) (q : Fin r) (n : ℕ) (k : Fin K) (t : Fin n → S) : ℝ :=
  ((trainOf (splitAt K (H.splits n (strataOf H.St t)) q) k).map fun j => u (t j)).sum /
    (trainOf (splitAt K (H.splits n (strataOf H.St t)) q) k).length

/-- The training sets are the complements of the test sets and contain at least a fixed part of the observations (as for two or
more folds of about the same size). -/
def Study.Complements : Prop := ∃ C : ℕ, ∀ᶠ n in atTop, ∀ ω, ∀ T ∈ H.splitsAt n ω, ∀ f ∈ T,
  f.train.Nodup ∧ (∀ i, i ∈ f.train ↔ i ∉ f.test) ∧ n ≤ C * f.train.length

variable {H}

theorem list_sum_sub {n : ℕ} (l : List (Fin n)) (f : Fin n → ℝ) (μ : ℝ) :
    (l.map fun j => f j - μ).sum = (l.map f).sum - l.length * μ := by
  induction l with
  | nil => simp
  | cons a l ih =>
    rw [List.map_cons, List.sum_cons, ih, List.map_cons, List.sum_cons, List.length_cons]
    push_cast
    ring

/-- Means over training sets converge at the rate `1/√n`. -/
theorem Study.trainMean_bdd [IsProbabilityMeasure P] (hC : H.Complements) {u : S → ℝ} (hu : Measurable u)
    (h2 : MemLp u 2 (P.map (W 0))) (q : Fin r) (k : Fin K) :
    OP P fun n ω => Real.sqrt n * (H.trainMean u q n k (sample W n ω) - ∫ w, u w ∂(P.map (W 0))) := by
  classical
  obtain ⟨C, hC⟩ := hC
  have h1 := H.iid.outside_bdd H.measSt (Study.balancedScheme (H := H) q) hu h2 k
  refine ((OP_const (P := P) (C : ℝ)).mul h1).mono ?_
  filter_upwards [hC, H.split, eventually_gt_atTop 0] with n hC hs hn ω
  obtain ⟨hl, hX⟩ := hs ω
  obtain ⟨T, hT⟩ : ∃ T, (H.splits n (strataOf H.St (sample W n ω)))[(q : ℕ)]? = some T :=
    ⟨_, List.getElem?_eq_getElem (by rw [hl]; exact q.2)⟩
  have hmT := List.mem_of_getElem? hT
  have hXT := hX T hmT
  have hk : (k : ℕ) < T.length := by rw [hXT.length]; exact k.2
  obtain ⟨hnd, hco, hle⟩ := hC ω T hmT _ (List.getElem_mem hk)
  have htr : trainOf (splitAt K (H.splits n (strataOf H.St (sample W n ω))) q) k = (T[(k : ℕ)]'hk).train := by
    unfold trainOf
    rw [splitAt_eq hT hXT, List.getElem?_eq_getElem hk]
    rfl
  have htest := schemeAt_test H.folds hT hXT k
  have hset : (Finset.univ.filter fun i => (H.scheme q n (strataOf H.St (sample W n ω))).fold i ≠ k) =
      (T[(k : ℕ)]'hk).train.toFinset := by
    ext i
    rw [Finset.mem_filter, List.mem_toFinset, hco i]
    have h3 : i ∈ (schemeAt H.folds (H.splits n (strataOf H.St (sample W n ω))) q).test k ↔ i ∈ (T[(k : ℕ)]'hk).test := by
      rw [htest, List.mem_toFinset]
    rw [← h3, Scheme.test, Finset.mem_filter]
    simp only [Finset.mem_univ, true_and]
    rfl
  unfold Study.trainMean
  rw [htr, hset]
  generalize (T[(k : ℕ)]'hk).train = L at *
  generalize (∫ w, u w ∂(P.map (W 0))) = μ
  have hn' : (0 : ℝ) < n := by exact_mod_cast hn
  have hL : 0 < L.length := Nat.pos_of_ne_zero fun h0 => by rw [h0, mul_zero] at hle; omega
  have hL' : (0 : ℝ) < L.length := by exact_mod_cast hL
  have hle' : (n : ℝ) ≤ C * L.length := by exact_mod_cast hle
  rw [List.sum_toFinset _ hnd, list_sum_sub]
  have e : ((L.map fun j => u (sample W n ω j)).sum / (L.length : ℝ) - μ) =
      ((L.map fun j : Fin n => u (W j ω)).sum - L.length * μ) / L.length := by
    field_simp
    rfl
  rw [e]
  generalize (L.map fun j : Fin n => u (W j ω)).sum - L.length * μ = X
  have hr : (0 : ℝ) < Real.sqrt n := Real.sqrt_pos.2 hn'
  rw [abs_mul, abs_mul, abs_div, abs_div, abs_of_pos hr, abs_of_pos hL', abs_of_nonneg (Nat.cast_nonneg C : (0 : ℝ) ≤ C), mul_div_assoc',
    mul_div_assoc', div_le_div_iff₀ hL' hr]
  calc Real.sqrt n * |X| * Real.sqrt n = n * |X| := by rw [mul_right_comm, Real.mul_self_sqrt hn'.le]
    _ ≤ C * L.length * |X| := mul_le_mul_of_nonneg_right hle' (abs_nonneg _)
    _ = _ := by ring

/-- Means over training sets as factors. -/
theorem Study.trainMean_factor [IsProbabilityMeasure P] (hC : H.Complements) {u : S → ℝ} (hu : Measurable u)
    (h2 : MemLp u 2 (P.map (W 0))) (q : Fin r) :
    Factor P W H.St (H.scheme q) (H.trainMean u q) (∫ w, u w ∂(P.map (W 0))) := by
  refine ⟨fun n k => ?_, fun n k t t' hs ht => ?_, fun k => (Study.trainMean_bdd hC hu h2 q k).of_root⟩
  · have h1 : ∀ l : List (Fin n), Measurable fun t : Fin n → S => (l.map fun j => u (t j)).sum := fun l => by
      induction l with
      | nil => exact measurable_const
      | cons a l ih =>
        simp only [List.map_cons, List.sum_cons]
        exact (hu.comp (measurable_pi_apply a)).add ih
    have h3 : Measurable fun z : (Fin n → Fin H.strata) × (Fin n → S) =>
        ((trainOf (splitAt K (H.splits n z.1) q) k).map fun j => u (z.2 j)).sum /
          ((trainOf (splitAt K (H.splits n z.1) q) k).length : ℝ) :=
      measurable_from_prod_countable_right fun α =>
        (h1 (trainOf (splitAt K (H.splits n α) q) k)).div_const ((trainOf (splitAt K (H.splits n α) q) k).length : ℝ)
    have hA : Measurable fun t : Fin n → S => strataOf H.St t :=
      measurable_pi_lambda _ fun j => H.measSt.comp (measurable_pi_apply j)
    exact h3.comp (hA.prodMk measurable_id)
  · unfold Study.trainMean
    rw [← hs]
    have e : ((trainOf (splitAt K (H.splits n (strataOf H.St t)) q) k).map fun j => u (t j)) =
        (trainOf (splitAt K (H.splits n (strataOf H.St t)) q) k).map fun j => u (t' j) :=
      List.map_congr_left fun j hj => by rw [ht j (List.mem_toFinset.2 hj)]
    rw [e]

/-- The shares used by a repetition. -/
theorem Study.Run.share {n : ℕ} {ω : Ω} {q : Fin r} {c : CellIn n Q} (h : H.Run n ω q c) (u : S → ℝ) :
    shareOf (fun i : Fin n => u (W i ω)) c.smpls = fun i => H.trainMean u q n (H.foldOf q n ω i) (sample W n ω) := by
  refine shareOf_trainMean h.cross.ok.partition fun f hf i hi => ?_
  obtain ⟨hk, hi2⟩ := schemeAt_fold H.folds h.split h.cross i
  have hk : ((H.foldOf q n ω i : Fin K) : ℕ) < c.smpls.length := hk
  have e : c.smpls[((H.foldOf q n ω i : Fin K) : ℕ)]'hk = f := by
    obtain ⟨j, hj, rfl⟩ := List.getElem_of_mem hf
    have hu := (C26_complete h.cross.ok.partition i).unique (y₁ := ⟨_, hk⟩) (y₂ := ⟨j, hj⟩) hi2 hi
    have hu' : ((H.foldOf q n ω i : Fin K) : ℕ) = j := Fin.mk.inj hu
    simp only [hu']
  have htr : trainOf (splitAt K (H.splits n (strataOf H.St (sample W n ω))) q) (H.foldOf q n ω i) = f.train := by
    unfold trainOf
    have hsp : (H.splits n (strataOf H.St (sample W n ω)))[(q : ℕ)]? = some c.smpls := h.split
    rw [splitAt_eq hsp h.cross, List.getElem?_eq_getElem hk, e]
    rfl
  unfold Study.trainMean
  rw [htr]
  rfl

end Means

/-! ## Difference in differences -/

section Did

variable {k : ∀ n, DidClass n Q} {H : Study E P W r K (fun n => didSpec (k n)) tv y d ξ enc}

/-- **C79, DiD, observational score without normalised weights**: the score is divided by the share of treated units in the
training set. -/
theorem C79_did [IsProbabilityMeasure P] {τ : ℝ} (hs : ∀ n, (k n).score = .observational)
    (hn : ∀ n, (k n).normalize = false) (hg : ∀ n, (k n).gClassifier = false) (ht : ∀ n, (k n).trimT = τ)
    (hvars : ∀ n, (k n).vars = none) (hm : ∀ n, (k n).ml_m.Compliant)
    (hbin : ∀ᶠ n in atTop, ∀ ω, (H.D n ω).binOut = false)
    (hboth : Tendsto (fun n => P (Lacking H (fun _ => True) d n)) atTop (𝓝 0)) (hC : H.Complements)
    {g₀ m : 𝒳 → ℝ} (law : ArmLaw (P.map (W 0)) y (fun w => 1 - d w) ξ g₀ (fun x => 1 - m x) τ 4) (hτ : ∀ x, τ ≤ m x)
    (hd : ∀ w, d w = 0 ∨ d w = 1) (hy : MemLp y 2 (P.map (W 0)))
    {θ : ℝ} (hp : ∫ w, d w ∂(P.map (W 0)) ≠ 0) (hθ : θ = (∫ w, d w * (y w - g₀ (ξ w)) ∂(P.map (W 0))) / ∫ w, d w ∂(P.map (W 0)))
    (hV : ∫ w, (d w * (y w - g₀ (ξ w) - θ) - m (ξ w) * (1 - d w) * (y w - g₀ (ξ w)) / (1 - m (ξ w))) ^ 2
      ∂(P.map (W 0)) ≠ 0) (hL : DidRates H g₀ m) :
    AsympValid E P W r H.fitted θ (Real.sqrt (∫ w, (d w * (y w - g₀ (ξ w) - θ) -
      m (ξ w) * (1 - d w) * (y w - g₀ (ξ w)) / (1 - m (ξ w))) ^ 2 ∂(P.map (W 0))) / ∫ w, d w ∂(P.map (W 0))) := by
  classical
  have hμ := H.iid.prob 0
  have hM : ∀ q, Honest ξ H.St (H.scheme q) (didMhat H q) := fun q => Study.honest (H := H) hL.measM "ml_m" H.measD MeasurableSet.univ q (on := fun _ => True)
  have hG : ∀ q, Honest ξ H.St (H.scheme q) (didG0hat H q) := fun q => Study.honest (H := H) hL.measG "ml_g0" H.measY (H.measD (measurableSet_singleton 0)) q (on := fun w => d w = 0)
  have hk := inv_ne_zero hp
  have hdb : ∀ w, |d w| ≤ 1 := fun w => by rcases hd w with e | e <;> simp [e]
  have md : MemLp d 2 (P.map (W 0)) := memLp_of_bdd H.measD hdb
  rw [treated_sd law hd, ← asySd_scale _ _ _ _ hk]
  have part := fun q => armPart_trim0 H.iid law hτ (hG q) (hM q) (hL.errG q) (hL.errM q) fun j => hL.rate q j j
  have reg := fun q => treatedRegular H.iid H.measSt (Study.balancedScheme (H := H) q) law hd H.measD H.measY hy hp hθ (part q)
  refine H.asymp (bad := Lacking H (fun _ => True) d) (fun q => Factor.regular ((Study.trainMean_factor hC H.measD md q).inv hp) hk
    H.iid H.measSt (Study.balancedScheme q) (Part.fixed H.measD.neg md.neg) ((Part.fixed H.measY hy).sub H.iid (part q))
    (reg q).identified (reg q).moment) ?_ (fun n => LinearScoreClass.usualVsf (.did _)) hvars hboth (did_fits hg hvars hm hbin hd) ?_
  · have e : ∀ w, ((∫ w, d w ∂(P.map (W 0)))⁻¹ * -d w * θ + (∫ w, d w ∂(P.map (W 0)))⁻¹ *
        (y w - armVal y (fun w => 1 - d w) ξ g₀ (fun x => 1 - m x) w)) ^ 2 = (∫ w, d w ∂(P.map (W 0)))⁻¹ ^ 2 *
        (d w * (y w - g₀ (ξ w) - θ) - m (ξ w) * (1 - d w) * (y w - g₀ (ξ w)) / (1 - m (ξ w))) ^ 2 := fun w => by
      rw [← treated_psi law hd]
      ring
    have hV' := mul_ne_zero (pow_ne_zero 2 hk) hV
    rw [← integral_const_mul] at hV'
    simpa only [e] using hV'
  · refine Eventually.of_forall fun n ω hω q c o hc ho => ?_
    obtain ⟨M, hf, hMv⟩ := didValues (hg n) (hvars n) (hm n) hd hω hc ho
    obtain rfl := hMv (hs n)
    rw [hs n, hn n, ht n, hc.share d] at hf
    refine rep_of_elems rfl hf ?_
    unfold didElems
    simp only [PsiElems.mk.injEq]
    refine ⟨funext fun i => ?_, funext fun i => ?_⟩
    · show -1 * (d (W i ω) / H.trainMean d q n (H.foldOf q n ω i) (sample W n ω)) =
        (H.trainMean d q n (H.foldOf q n ω i) (sample W n ω))⁻¹ * -d (W i ω)
      ring
    · simp only [didB1, didWr]
      show _ = (H.trainMean d q n (H.foldOf q n ω i) (sample W n ω))⁻¹ * (y (W i ω) - armVal y (fun w => 1 - d w) ξ
          (didG0hat H q n (H.foldOf q n ω i) (sample W n ω)) (fun x => 1 - trim τ (didMhat H q n (H.foldOf q n ω i) (sample W n ω) x)) (W i ω))
      simp only [armVal]
      have hx : 1 - trim τ (didMhat H q n (H.foldOf q n ω i) (sample W n ω) (ξ (W i ω))) ≠ 0 :=
        (law.pos.trans_le (trim_compl law.pos (hτ (ξ (W i ω))) (law.overlap (ξ (W i ω))).1).1).ne'
      generalize trim τ (didMhat H q n (H.foldOf q n ω i) (sample W n ω) (ξ (W i ω))) = M at hx ⊢
      generalize H.trainMean d q n (H.foldOf q n ω i) (sample W n ω) = D
      generalize didG0hat H q n (H.foldOf q n ω i) (sample W n ω) (ξ (W i ω)) = G
      rw [div_eq_mul_inv, mul_inv]
      have e2 : (1 - d (W i ω)) * (y (W i ω) - G) / (1 - M) = (1 - d (W i ω)) * (y (W i ω) - G) * (1 - M)⁻¹ := div_eq_mul_inv _ _
      rw [e2]
      have hM' : M * (1 - M)⁻¹ = (1 - M)⁻¹ - 1 := by
        field_simp
        ring
      rcases hd (W i ω) with e | e <;> rw [e]
      · linear_combination -(D⁻¹ * (y (W i ω) - G)) * hM'
      · linear_combination -(D⁻¹ * (y (W i ω) - G)) * hM'

variable (H)

/-- What is asked of the learners with the score for randomised treatments: their answers are measurable and the errors vanish in
probability, for every repetition, at any speed. -/
structure DidErrors (g₀ g₁ : 𝒳 → ℝ) : Prop where
  measG : ∀ n, MeasLearner (k n).ml_g .predict enc
  errG0 : ∀ q j, oPE P (errNorm P W ξ (didG0hat H q) g₀ 2 j)
  errG1 : ∀ q j, oPE P (errNorm P W ξ (didG1hat H q) g₁ 2 j)

variable {H}

omit [MeasurableSpace S] [MeasurableSpace 𝒳] in
/-- The score for randomised treatments at the true functions. -/
theorem randomized_psi {g₀ g₁ : 𝒳 → ℝ} {p : ℝ} (θ : ℝ) (w : S) :
    -1 * θ + (armVal y d ξ g₁ (fun _ => p) w - armVal y (fun w => 1 - d w) ξ g₀ (fun _ => 1 - p) w) =
      g₁ (ξ w) - g₀ (ξ w) + d w * (y w - g₁ (ξ w)) / p - (1 - d w) * (y w - g₀ (ξ w)) / (1 - p) - θ := by
  unfold armVal
  ring

omit [MeasurableSpace 𝒳] in
/-- Its asymptotic standard deviation. -/
theorem randomized_sd {μ : Measure S} [IsProbabilityMeasure μ] {g₀ g₁ : 𝒳 → ℝ} {p : ℝ} (θ : ℝ) :
    Real.sqrt (∫ w, (g₁ (ξ w) - g₀ (ξ w) + d w * (y w - g₁ (ξ w)) / p - (1 - d w) * (y w - g₀ (ξ w)) / (1 - p) - θ) ^ 2 ∂μ) =
      asySd μ (fun _ => -1) (fun w => armVal y d ξ g₁ (fun _ => p) w - armVal y (fun w => 1 - d w) ξ g₀ (fun _ => 1 - p) w) θ := by
  unfold asySd
  simp only [randomized_psi]
  simp

/-- Its mean. -/
theorem randomized_moment {μ : Measure S} [IsProbabilityMeasure μ] {g₀ g₁ : 𝒳 → ℝ} {p τ : ℝ}
    (law : IrmLaw μ y d ξ g₀ g₁ (fun _ => p) τ 4) :
    ∫ w, (-1 * (∫ w, (g₁ (ξ w) - g₀ (ξ w)) ∂μ) + (armVal y d ξ g₁ (fun _ => p) w - armVal y (fun w => 1 - d w) ξ g₀ (fun _ => 1 - p) w)) ∂μ = 0 := by
  have a1' := (law.treated (by norm_num)).mono (q := 2) (by norm_num)
  have a0' := (law.untreated (by norm_num)).mono (q := 2) (by norm_num)
  have i1 := a1'.mem.integrable one_le_two
  have i0 := a0'.mem.integrable one_le_two
  have i2 : Integrable (fun w => armVal y d ξ g₁ (fun _ => p) w - armVal y (fun w => 1 - d w) ξ g₀ (fun _ => 1 - p) w) μ := i1.sub i0
  rw [integral_add (integrable_const _) i2, integral_sub i1 i0, a1'.integral_eq, a0'.integral_eq,
    integral_sub (a1'.memG.integrable one_le_two) (a0'.memG.integrable one_le_two)]
  simp

/-- The mean of a randomised treatment. -/
theorem IrmLaw.mean_treat {μ : Measure S} [IsProbabilityMeasure μ] {g₀ g₁ : 𝒳 → ℝ} {p τ : ℝ}
    (law : IrmLaw μ y d ξ g₀ g₁ (fun _ => p) τ 4) : ∫ w, d w ∂μ = p := by
  have hdb : ∀ w, |d w| ≤ 1 := fun w => by rcases law.binary w with e | e <;> simp [e]
  have md : MemLp d 2 μ := memLp_of_bdd law.measD hdb
  have i := md.integrable one_le_two
  have h : ∫ w, (d w - p) ∂μ = 0 := law.treat.integral_eq law.measX (i.sub (integrable_const _))
  rw [integral_sub i (integrable_const _)] at h
  simpa [sub_eq_zero] using h

/-- The law remains valid with a smaller bound. -/
theorem IrmLaw.loosen {μ : Measure S} {g₀ g₁ m : 𝒳 → ℝ} {τ τ' : ℝ} (h : IrmLaw μ y d ξ g₀ g₁ m τ 4) (h0 : 0 < τ') (h1 : τ' ≤ τ) :
    IrmLaw μ y d ξ g₀ g₁ m τ' 4 :=
  ⟨h.measY, h.measD, h.measX, h.measG0, h.measG1, h.measM, h.binary, h.noise, h.treat, h0,
    fun x => ⟨h1.trans (h.overlap x).1, by linarith [(h.overlap x).2]⟩, h.memNoise, h.memG0, h.memG1⟩

/-- **C79, DiD, experimental score without normalised weights.** The errors of the learners only have to vanish. -/
theorem C79_did_experimental [IsProbabilityMeasure P] {τ : ℝ} (hs : ∀ n, (k n).score = .experimental)
    (hn : ∀ n, (k n).normalize = false) (hg : ∀ n, (k n).gClassifier = false)
    (hvars : ∀ n, (k n).vars = none) (hm : ∀ n, (k n).ml_m.Compliant)
    (hbin : ∀ᶠ n in atTop, ∀ ω, (H.D n ω).binOut = false)
    (hboth : Tendsto (fun n => P (Lacking H (fun _ => True) d n)) atTop (𝓝 0)) (hC : H.Complements)
    {g₀ g₁ : 𝒳 → ℝ} {p : ℝ} (law : IrmLaw (P.map (W 0)) y d ξ g₀ g₁ (fun _ => p) τ 4)
    {θ : ℝ} (hθ : θ = ∫ w, (g₁ (ξ w) - g₀ (ξ w)) ∂(P.map (W 0)))
    (hV : ∫ w, (g₁ (ξ w) - g₀ (ξ w) + d w * (y w - g₁ (ξ w)) / p - (1 - d w) * (y w - g₀ (ξ w)) / (1 - p) - θ) ^ 2
      ∂(P.map (W 0)) ≠ 0) (hL : DidErrors H g₀ g₁) :
    AsympValid E P W r H.fitted θ (Real.sqrt (∫ w, (g₁ (ξ w) - g₀ (ξ w) + d w * (y w - g₁ (ξ w)) / p -
      (1 - d w) * (y w - g₀ (ξ w)) / (1 - p) - θ) ^ 2 ∂(P.map (W 0)))) := by
  classical
  have hμ := H.iid.prob 0
  have hG0 : ∀ q, Honest ξ H.St (H.scheme q) (didG0hat H q) := fun q => Study.honest (H := H) hL.measG "ml_g0" H.measY (H.measD (measurableSet_singleton 0)) q (on := fun w => d w = 0)
  have hG1 : ∀ q, Honest ξ H.St (H.scheme q) (didG1hat H q) := fun q => Study.honest (H := H) hL.measG "ml_g1" H.measY (H.measD (measurableSet_singleton 1)) q (on := fun w => d w = 1)
  have hdb : ∀ w, |d w| ≤ 1 := fun w => by rcases law.binary w with e | e <;> simp [e]
  have md : MemLp d 2 (P.map (W 0)) := memLp_of_bdd H.measD hdb
  have hpos := law.pos
  have hov : τ ≤ p ∧ p ≤ 1 - τ := by
    obtain ⟨ω⟩ := nonempty_of_measure_ne_zero (μ := P) (s := Set.univ) (by simp)
    exact law.overlap (ξ (W 0 ω))
  have lawh := law.loosen (τ' := τ / 2) (by linarith) (by linarith)
  have hfac := fun q => Study.trainMean_factor hC H.measD md q
  have hbd := fun q j => Study.trainMean_bdd hC H.measD md q j
  rw [law.mean_treat] at hfac hbd
  -- the shares as fitted propensities
  let mh : Fin r → ∀ n, Fin K → (Fin n → S) → 𝒳 → ℝ := fun q n j t _ => H.trainMean d q n j t
  have hM : ∀ q, Honest ξ H.St (H.scheme q) (mh q) := fun q =>
    ⟨fun n j => ((hfac q).meas n j).comp measurable_fst, fun n j t t' h1 h2 => funext fun w => (hfac q).uses n j t t' h1 h2⟩
  have hen : ∀ q j n ω, errNorm P W ξ (mh q) (fun _ => p) 2 j n ω = ENNReal.ofReal |H.trainMean d q n j (sample W n ω) - p| := fun q j n ω => by
    show eLpNorm (fun _ => H.trainMean d q n j (sample W n ω) - p) 2 (P.map (W 0)) = _
    rw [eLpNorm_const _ (by norm_num) (IsProbabilityMeasure.ne_zero _)]
    simp [Real.enorm_eq_ofReal_abs]
  have eM : ∀ q j, oPE P (errNorm P W ξ (mh q) (fun _ => p) 2 j) := fun q j =>
    (oPE_of_oP ((hfac q).close j)).mono fun n ω => (hen q j n ω).le
  have hrate : ∀ q j (R : ℕ → Ω → ℝ≥0∞), oPE P R →
      oPE P fun n ω => ENNReal.ofReal (Real.sqrt n) * (errNorm P W ξ (mh q) (fun _ => p) 2 j n ω * R n ω) := fun q j R hR => by
    have h1 := hR.mul_OP (hbd q j)
    refine h1.mono fun n ω => le_of_eq ?_
    rw [hen, abs_mul, abs_of_nonneg (Real.sqrt_nonneg _), ENNReal.ofReal_mul (Real.sqrt_nonneg _), mul_assoc]
  have p1 := fun q => armPart_trim H.iid (lawh.treated (by norm_num)) (fun x => (lawh.overlap x).2) (hG1 q) (hM q) (hL.errG1 q) (eM q)
    fun j => hrate q j _ (hL.errG1 q j)
  have p0 := fun q => armPart_trim0 H.iid (lawh.untreated (by norm_num)) (fun x => (lawh.overlap x).1) (hG0 q) (hM q) (hL.errG0 q) (eM q)
    fun j => hrate q j _ (hL.errG0 q j)
  rw [randomized_sd]
  refine H.asymp (bad := fun n => Lacking H (fun _ => True) d n ∪ {ω | τ / 2 ≤ ∑ q, ∑ j, |H.trainMean d q n j (sample W n ω) - p|})
    (fun q => Part.regular H.iid H.measSt (Study.balancedScheme q) (Part.fixed measurable_const (memLp_const _)) ((p1 q).sub H.iid (p0 q))
      (by simp) (by rw [hθ]; exact randomized_moment law)) ?_ (fun n => LinearScoreClass.usualVsf (.did _)) hvars ?_ ?_ ?_
  · simpa only [randomized_psi] using hV
  · have h2 : oP P fun n ω => ∑ q, ∑ j, |H.trainMean d q n j (sample W n ω) - p| := oP.sum _ fun q _ => oP.sum _ fun j _ =>
      ((hfac q).close j).mono (Eventually.of_forall fun n ω => by rw [abs_abs])
    have h3 := hboth.add (h2 (τ / 2) (by linarith))
    rw [add_zero] at h3
    refine tendsto_zero_of_le (Eventually.of_forall fun n => ?_) h3
    refine (measure_union_le _ _).trans (add_le_add le_rfl (measure_mono fun ω hω => ?_))
    have h4 : τ / 2 ≤ ∑ q, ∑ j, |H.trainMean d q n j (sample W n ω) - p| := hω
    exact h4.trans (le_abs_self _)
  · filter_upwards [did_fits hg hvars hm hbin law.binary] with n h1 ω hω
    exact h1 ω fun h => hω (Or.inl h)
  · refine Eventually.of_forall fun n ω hω q c o hc ho => ?_
    obtain ⟨M, hf, -⟩ := didValues (hg n) (hvars n) (hm n) law.binary (fun h => hω (Or.inl h)) hc ho
    rw [hs n, hn n, hc.share d] at hf
    refine rep_of_elems rfl hf ?_
    have hclose : ∀ j, |H.trainMean d q n j (sample W n ω) - p| < τ / 2 := fun j => by
      have h1 : ¬ τ / 2 ≤ ∑ q, ∑ j, |H.trainMean d q n j (sample W n ω) - p| := fun h => hω (Or.inr h)
      refine lt_of_le_of_lt ?_ (not_le.1 h1)
      refine (Finset.single_le_sum (f := fun j => |H.trainMean d q n j (sample W n ω) - p|) (fun _ _ => abs_nonneg _) (Finset.mem_univ j)).trans ?_
      exact Finset.single_le_sum (f := fun q => ∑ j, |H.trainMean d q n j (sample W n ω) - p|)
        (fun _ _ => Finset.sum_nonneg fun _ _ => abs_nonneg _) (Finset.mem_univ q)
    unfold didElems
    simp only [PsiElems.mk.injEq]
    refine ⟨funext fun i => ?_, funext fun i => ?_⟩
    · show -1 * (1 : ℝ) = -1
      norm_num
    · simp only [didB1, didWr]
      show _ = armVal y d ξ (didG1hat H q n (H.foldOf q n ω i) (sample W n ω))
          (fun _ => trim (τ / 2) (H.trainMean d q n (H.foldOf q n ω i) (sample W n ω))) (W i ω) -
        armVal y (fun w => 1 - d w) ξ (didG0hat H q n (H.foldOf q n ω i) (sample W n ω))
          (fun _ => 1 - trim (τ / 2) (H.trainMean d q n (H.foldOf q n ω i) (sample W n ω))) (W i ω)
      have hc2 := abs_lt.1 (hclose (H.foldOf q n ω i))
      have etr : trim (τ / 2) (H.trainMean d q n (H.foldOf q n ω i) (sample W n ω)) = H.trainMean d q n (H.foldOf q n ω i) (sample W n ω) := by
        unfold trim
        rw [max_eq_left (by linarith), min_eq_right (by linarith)]
      rw [etr]
      simp only [armVal]
      have hx0 : H.trainMean d q n (H.foldOf q n ω i) (sample W n ω) ≠ 0 := by linarith
      have hx1 : 1 - H.trainMean d q n (H.foldOf q n ω i) (sample W n ω) ≠ 0 := by linarith
      generalize H.trainMean d q n (H.foldOf q n ω i) (sample W n ω) = D at hx0 hx1 ⊢
      rcases law.binary (W i ω) with e | e <;> rw [e] <;> field_simp <;> ring

/-- **C79, DiD, experimental score with normalised weights.** -/
theorem C79_did_experimental_normalized [IsProbabilityMeasure P] {τ : ℝ} (hs : ∀ n, (k n).score = .experimental)
    (hn : ∀ n, (k n).normalize = true) (hg : ∀ n, (k n).gClassifier = false)
    (hvars : ∀ n, (k n).vars = none) (hm : ∀ n, (k n).ml_m.Compliant)
    (hbin : ∀ᶠ n in atTop, ∀ ω, (H.D n ω).binOut = false)
    (hboth : Tendsto (fun n => P (Lacking H (fun _ => True) d n)) atTop (𝓝 0))
    {g₀ g₁ : 𝒳 → ℝ} {p : ℝ} (law : IrmLaw (P.map (W 0)) y d ξ g₀ g₁ (fun _ => p) τ 4)
    {θ : ℝ} (hθ : θ = ∫ w, (g₁ (ξ w) - g₀ (ξ w)) ∂(P.map (W 0)))
    (hV : ∫ w, (g₁ (ξ w) - g₀ (ξ w) + d w * (y w - g₁ (ξ w)) / p - (1 - d w) * (y w - g₀ (ξ w)) / (1 - p) - θ) ^ 2
      ∂(P.map (W 0)) ≠ 0) (hL : DidErrors H g₀ g₁) :
    AsympValid E P W r H.fitted θ (Real.sqrt (∫ w, (g₁ (ξ w) - g₀ (ξ w) + d w * (y w - g₁ (ξ w)) / p -
      (1 - d w) * (y w - g₀ (ξ w)) / (1 - p) - θ) ^ 2 ∂(P.map (W 0)))) := by
  classical
  have hμ := H.iid.prob 0
  have hG0 : ∀ q, Honest ξ H.St (H.scheme q) (didG0hat H q) := fun q => Study.honest (H := H) hL.measG "ml_g0" H.measY (H.measD (measurableSet_singleton 0)) q (on := fun w => d w = 0)
  have hG1 : ∀ q, Honest ξ H.St (H.scheme q) (didG1hat H q) := fun q => Study.honest (H := H) hL.measG "ml_g1" H.measY (H.measD (measurableSet_singleton 1)) q (on := fun w => d w = 1)
  have hpos := law.pos
  have hov : τ ≤ p ∧ p ≤ 1 - τ := by
    obtain ⟨ω⟩ := nonempty_of_measure_ne_zero (μ := P) (s := Set.univ) (by simp)
    exact law.overlap (ξ (W 0 ω))
  have hp0 : p ≠ 0 := by linarith
  have hp1 : 1 - p ≠ 0 := by linarith
  have a1 := law.treated (by norm_num)
  have a0 := law.untreated (by norm_num)
  -- the propensity is known
  have hMc : ∀ q (v : ℝ), Honest ξ H.St (H.scheme q) (fun _ _ _ _ => v) := fun q v =>
    ⟨fun n j => measurable_const, fun n j t t' _ _ => rfl⟩
  have hzero : ∀ (v : ℝ) (j : Fin K) n ω, errNorm P W ξ (fun _ _ _ _ => v) (fun _ => v) 2 j n ω = 0 := fun v j n ω => by
    show eLpNorm (fun _ => v - v) 2 (P.map (W 0)) = 0
    simp
  have eM : ∀ (v : ℝ) (j : Fin K), oPE P (errNorm P W ξ (fun _ _ _ _ => v) (fun _ => v) 2 j) := fun v j δ hδ => by simp [hzero]
  have hrate : ∀ (v : ℝ) (j : Fin K) (R : ℕ → Ω → ℝ≥0∞),
      oPE P fun n ω => ENNReal.ofReal (Real.sqrt n) * (errNorm P W ξ (fun _ _ _ _ => v) (fun _ => v) 2 j n ω * R n ω) := fun v j R δ hδ => by
    simp [hzero]
  have b1 : ∀ (n : ℕ) (j : Fin K) (t : Fin n → S) (x : 𝒳), τ ≤ p ∧ p ≤ 1 := fun _ _ _ _ => ⟨hov.1, by linarith⟩
  have b0 : ∀ (n : ℕ) (j : Fin K) (t : Fin n → S) (x : 𝒳), τ ≤ 1 - p ∧ 1 - p ≤ 1 := fun _ _ _ _ => ⟨by linarith, by linarith⟩
  have p1 := fun q => armPart H.iid a1 (hG1 q) (hMc q p) b1 (hL.errG1 q) (eM p) fun j => hrate p j _
  have p0 := fun q => armPart H.iid a0 (hG0 q) (hMc q (1 - p)) b0 (hL.errG0 q) (eM (1 - p)) fun j => hrate (1 - p) j _
  have base := fun q => (Part.regular H.iid H.measSt (Study.balancedScheme q) (Part.fixed measurable_const (memLp_const (-1 : ℝ)))
    ((p1 q).sub H.iid (p0 q)) (by simp) (by rw [hθ]; exact randomized_moment law)).array H.iid (θ := θ)
  have reg := fun q => ((base q).reweigh 1 H.iid H.measSt (Study.balancedScheme q) a1 b1 (hG1 q) (hMc q p) (hL.errG1 q) (eM p)
    fun j j' => hrate p j _).reweigh (-1) H.iid H.measSt (Study.balancedScheme q) a0 b0 (hG0 q) (hMc q (1 - p)) (hL.errG0 q) (eM (1 - p))
    fun j j' => hrate (1 - p) j _
  rw [randomized_sd]
  refine H.asympArray (bad := Lacking H (fun _ => True) d) reg ?_ (fun n => LinearScoreClass.usualVsf (.did _)) hvars hboth
    (did_fits hg hvars hm hbin law.binary) ?_
  · simpa only [randomized_psi] using hV
  · refine Eventually.of_forall fun n ω hω q c o hc ho => ?_
    obtain ⟨M, hf, -⟩ := didValues (hg n) (hvars n) (hm n) law.binary hω hc ho
    rw [hs n, hn n] at hf
    refine rep_of_elems rfl hf ?_
    have w1 : mean (crossVal H.St (H.scheme q) (fun n k t => invWt 0 d ξ fun _ => p) W n ω) = (mean fun i : Fin n => d (W i ω)) * p⁻¹ := by
      rw [← mean_mul_right]
      refine congrArg mean (funext fun i => ?_)
      show d (W i ω) * (p⁻¹ - 0) = _
      rw [sub_zero]
    have w0 : mean (crossVal H.St (H.scheme q) (fun n k t => invWt 0 (fun w => 1 - d w) ξ fun _ => 1 - p) W n ω) =
        (mean fun i : Fin n => 1 - d (W i ω)) * (1 - p)⁻¹ := by
      rw [← mean_mul_right]
      refine congrArg mean (funext fun i => ?_)
      show (1 - d (W i ω)) * ((1 - p)⁻¹ - 0) = _
      rw [sub_zero]
    unfold didElems
    simp only [PsiElems.mk.injEq]
    refine ⟨funext fun i => ?_, funext fun i => ?_⟩
    · show -1 * (1 : ℝ) = -1
      norm_num
    · simp only [didB1, didWr]
      rw [w1, w0]
      generalize (mean fun i : Fin n => d (W i ω)) = D1
      generalize (mean fun i : Fin n => 1 - d (W i ω)) = D0
      show _ = armVal y d ξ (didG1hat H q n (H.foldOf q n ω i) (sample W n ω)) (fun _ => p) (W i ω) -
        armVal y (fun w => 1 - d w) ξ (didG0hat H q n (H.foldOf q n ω i) (sample W n ω)) (fun _ => 1 - p) (W i ω) +
          1 * ((D1 * p⁻¹)⁻¹ - 1) * ipwRes 0 y d ξ (didG1hat H q n (H.foldOf q n ω i) (sample W n ω)) (fun _ => p) (W i ω) +
          -1 * ((D0 * (1 - p)⁻¹)⁻¹ - 1) * ipwRes 0 y (fun w => 1 - d w) ξ (didG0hat H q n (H.foldOf q n ω i) (sample W n ω)) (fun _ => 1 - p) (W i ω)
      simp only [armVal, ipwRes, mul_inv, inv_inv, sub_zero, div_eq_mul_inv]
      generalize didG0hat H q n (H.foldOf q n ω i) (sample W n ω) (ξ (W i ω)) = G0
      generalize didG1hat H q n (H.foldOf q n ω i) (sample W n ω) (ξ (W i ω)) = G1
      have k1 : p * p⁻¹ = 1 := mul_inv_cancel₀ hp0
      have k0 : (1 - p) * (1 - p)⁻¹ = 1 := mul_inv_cancel₀ hp1
      rcases law.binary (W i ω) with e | e <;> rw [e]
      · linear_combination (D0⁻¹ * (y (W i ω) - G0)) * k0
      · linear_combination -(D1⁻¹ * (y (W i ω) - G1)) * k1

end Did

end DML
