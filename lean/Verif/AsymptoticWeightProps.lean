import Verif.AsymptoticDidProps

/-!
# Large-sample properties of fitted interactive models with normalised weights (C79)
-/

namespace DML

open MeasureTheory ProbabilityTheory Filter Topology
open scoped ENNReal

variable {Ω : Type*} {mΩ : MeasurableSpace Ω} {S : Type*} [MeasurableSpace S] {𝒳 : Type*} [MeasurableSpace 𝒳] {Q : Type}
  {E : Ext} {P : Measure Ω} {W : ℕ → Ω → S} {r K : ℕ} {tv : String} {y d : S → ℝ} {ξ : S → 𝒳} {enc : 𝒳 → List Cell}

section Weights

variable {s : ℕ} {St : S → Fin s} {c : ∀ n, (Fin n → Fin s) → Scheme K n} {gh mh : ∀ n, Fin K → (Fin n → S) → 𝒳 → ℝ}
  {u : S → ℝ} {g m : 𝒳 → ℝ} {τ : ℝ}

/-- Dividing the weights of an arm by their average does not matter in large samples. -/
theorem RegularArray.reweigh [IsProbabilityMeasure P] {A B : ∀ n, Ω → Fin n → ℝ} {a0 b0 : S → ℝ} {θ : ℝ}
    (h : RegularArray P W A B a0 b0 θ) (σ : ℝ) (hW : Iid P W) (hSt : Measurable St) (hc : StrataBalanced c)
    (law : ArmLaw (P.map (W 0)) y u ξ g m τ 4) (hb : ∀ n k t x, τ ≤ mh n k t x ∧ mh n k t x ≤ 1)
    (hg : Honest ξ St c gh) (hm : Honest ξ St c mh) (eg : ∀ k, oPE P (errNorm P W ξ gh g 2 k))
    (em : ∀ k, oPE P (errNorm P W ξ mh m 2 k))
    (rate : ∀ k k', oPE P fun n ω => ENNReal.ofReal (Real.sqrt n) * (errNorm P W ξ mh m 2 k n ω * errNorm P W ξ gh g 2 k' n ω)) :
    RegularArray P W A (fun n ω i => B n ω i + σ * ((mean (crossVal St c (fun n k t => invWt 0 u ξ (mh n k t)) W n ω))⁻¹ - 1) *
      crossVal St c (fun n k t => ipwRes 0 y u ξ (gh n k t) (mh n k t)) W n ω i) a0 b0 θ := by
  have hμ := hW.prob 0
  have eI : ∫ w, invWt 0 u ξ m w ∂(P.map (W 0)) = 1 := by
    rw [(law.mono (q := 2) (by norm_num)).ipw_integral]
    ring
  have hR := (ipwRes_near law hb hW hg hm eg em 0).1
  have hI := ipw_near law hb hW hm em 0 (St := St) (c := c)
  have t := (hI.mean_tendsto hW hSt hc).continuousAt (f := fun x => x⁻¹) (continuousAt_inv₀ (by rw [eI]; exact one_ne_zero))
  have sh := ipw_shift law hb hW hSt hc hg hm eg em rate 0 0 (by rw [eI]; exact one_ne_zero)
  rw [eI, inv_one] at t sh
  have mI : ∀ n, Measurable fun ω => mean (crossVal St c (fun n k t => invWt 0 u ξ (mh n k t)) W n ω) :=
    fun n => Measurable.mean' fun i => crossVal_meas hW hSt hI.meas n i
  have h1 := h.perturb (X := fun _ _ _ => 0)
    (Y := fun n ω i => σ * ((mean (crossVal St c (fun n k t => invWt 0 u ξ (mh n k t)) W n ω))⁻¹ - 1) *
      crossVal St c (fun n k t => ipwRes 0 y u ξ (gh n k t) (mh n k t)) W n ω i)
    (fun _ _ => measurable_const) (fun n i => (((mI n).inv.sub measurable_const).const_mul σ).mul (crossVal_meas hW hSt hR.meas n i)) ?_ ?_ ?_
  · simpa only [add_zero] using h1
  · refine (oP.of_tendsto (tendsto_const_nhds (x := (0 : ℝ)))).mono (Eventually.of_forall fun n ω => le_of_eq (congrArg _ ?_))
    unfold mean
    simp
  · refine (((t.sq.const_mul (σ ^ 2))).mul_OP (hR.bdd hW hSt)).mono (Eventually.of_forall fun n ω => le_of_eq (congrArg _ ?_))
    rw [← mean_mul_left]
    refine congrArg mean (funext fun i => ?_)
    ring
  · refine (sh.const_mul σ).mono (Eventually.of_forall fun n ω => le_of_eq (congrArg _ ?_))
    have : ∀ x : ℝ, 0 * θ + x = x := fun x => by ring
    simp only [this]
    rw [mean_mul_left]
    ring

end Weights

section Irm

variable {k : ∀ n, IrmClass n Q} {H : Study E P W r K (fun n => irmSpec (k n)) tv y d ξ enc}

/-- The adjusted propensities as weights. -/
theorem normalizeIpw_weight {n : ℕ} {M D : Fin n → ℝ} (hD : ∀ i, D i = 0 ∨ D i = 1) (i : Fin n) :
    (∀ x, D i * x / normalizeIpw M D i = D i * x * (M i)⁻¹ * (mean fun j => D j * ((M j)⁻¹ - 0))⁻¹) ∧
    ∀ x, (1 - D i) * x / (1 - normalizeIpw M D i) =
      (1 - D i) * x * (1 - M i)⁻¹ * (mean fun j => (1 - D j) * ((1 - M j)⁻¹ - 0))⁻¹ := by
  have e1 : (fun j => D j * ((M j)⁻¹ - 0)) = fun j => D j / M j := funext fun j => by rw [sub_zero, div_eq_mul_inv]
  have e0 : (fun j => (1 - D j) * ((1 - M j)⁻¹ - 0)) = fun j => (1 - D j) / (1 - M j) := funext fun j => by
    rw [sub_zero, div_eq_mul_inv]
  rw [e1, e0]
  unfold normalizeIpw
  constructor <;> intro x <;> rcases hD i with e | e <;> rw [e]
  · simp
  · rw [one_mul, one_mul, sub_self, zero_mul, add_zero, div_eq_mul_inv, mul_inv, mul_assoc]
  · rw [zero_mul, zero_add, sub_zero, one_mul, one_mul, sub_sub_cancel, div_eq_mul_inv, mul_inv, mul_assoc]
  · simp

variable (H)

/-- The products of the errors of any two folds vanish faster than `1/√n`. -/
structure IrmAcross0 (g₀ m₀ : 𝒳 → ℝ) : Prop where
  rates : IrmRates0 H g₀ m₀
  across : ∀ q j j', oPE P fun n ω => ENNReal.ofReal (Real.sqrt n) * (errNorm P W ξ (irmMhat H q) m₀ 2 j n ω *
    errNorm P W ξ (irmG0hat H q) g₀ 2 j' n ω)

/-- The same for both groups. -/
structure IrmAcross (g₀ g₁ m₀ : 𝒳 → ℝ) : Prop where
  rates : IrmRates H g₀ g₁ m₀
  across0 : ∀ q j j', oPE P fun n ω => ENNReal.ofReal (Real.sqrt n) * (errNorm P W ξ (irmMhat H q) m₀ 2 j n ω *
    errNorm P W ξ (irmG0hat H q) g₀ 2 j' n ω)
  across1 : ∀ q j j', oPE P fun n ω => ENNReal.ofReal (Real.sqrt n) * (errNorm P W ξ (irmMhat H q) m₀ 2 j n ω *
    errNorm P W ξ (irmG1hat H q) g₁ 2 j' n ω)

variable {H}

/-- Normalising the weights of the untreated. -/
theorem irmReweigh0 [IsProbabilityMeasure P] {A B : ∀ n, Ω → Fin n → ℝ} {a0 b0 : S → ℝ} {θ : ℝ}
    (h : RegularArray P W A B a0 b0 θ) (σ : ℝ) {g₀ m : 𝒳 → ℝ} {τ : ℝ}
    (law : ArmLaw (P.map (W 0)) y (fun w => 1 - d w) ξ g₀ (fun x => 1 - m x) τ 4) (hτ : ∀ x, τ ≤ m x) (hL : IrmAcross0 H g₀ m) (q : Fin r) :
    RegularArray P W A (fun n ω i => B n ω i + σ * ((mean (crossVal H.St (H.scheme q) (fun n k t => invWt 0 (fun w => 1 - d w) ξ
        fun x => 1 - trim τ (irmMhat H q n k t x)) W n ω))⁻¹ - 1) *
      crossVal H.St (H.scheme q) (fun n k t => ipwRes 0 y (fun w => 1 - d w) ξ (irmG0hat H q n k t)
        fun x => 1 - trim τ (irmMhat H q n k t x)) W n ω i) a0 b0 θ := by
  classical
  have hM : Honest ξ H.St (H.scheme q) (irmMhat H q) := Study.honest (H := H) hL.rates.measM "ml_m" H.measD MeasurableSet.univ q (on := fun _ => True)
  have hG : Honest ξ H.St (H.scheme q) (irmG0hat H q) :=
    Study.honest (H := H) hL.rates.measG "ml_g0" H.measY (H.measD (measurableSet_singleton 0)) q (on := fun w => d w = 0)
  refine h.reweigh σ H.iid H.measSt (Study.balancedScheme q) law (mh := fun n k t x => 1 - trim τ (irmMhat H q n k t x)) (fun n k t x =>
    trim_compl law.pos (hτ x) (law.overlap x).1) hG (hM.post (φ := fun v => 1 - trim τ v) (measurable_const.sub (measurable_trim τ)))
    (hL.rates.errG q) (fun j => (hL.rates.errM q j).mono fun n ω => errNorm_compl hτ (fun x => (law.overlap x).1) j n ω)
    fun j j' => (hL.across q j j').mono fun n ω =>
      mul_le_mul_right (mul_le_mul_left (errNorm_compl hτ (fun x => (law.overlap x).1) j n ω) _) _

/-- **C79, IRM, average treatment effect, normalised weights.** -/
theorem C79_irm_ate_normalized [IsProbabilityMeasure P] {τ : ℝ} (hatte : ∀ n, (k n).atte = false) (hg : ∀ n, (k n).gClassifier = false)
    (hn : ∀ n, (k n).normalize = true) (ht : ∀ n, (k n).trimT = τ) (hvars : ∀ n, (k n).vars = none)
    (hw : ∀ n q, (k n).weights.at q = .ok (fun _ : Fin n => 1, fun _ => 1)) (hm : ∀ n, (k n).ml_m.Compliant)
    (hbin : ∀ᶠ n in atTop, ∀ ω, (H.D n ω).binOut = false)
    (hboth : Tendsto (fun n => P (Lacking H (fun _ => True) d n)) atTop (𝓝 0))
    {g₀ g₁ m : 𝒳 → ℝ} (law : IrmLaw (P.map (W 0)) y d ξ g₀ g₁ m τ 4)
    {θ : ℝ} (hθ : θ = ∫ w, (g₁ (ξ w) - g₀ (ξ w)) ∂(P.map (W 0)))
    (hV : ∫ w, (g₁ (ξ w) - g₀ (ξ w) + d w * (y w - g₁ (ξ w)) / m (ξ w) - (1 - d w) * (y w - g₀ (ξ w)) / (1 - m (ξ w)) - θ) ^ 2
      ∂(P.map (W 0)) ≠ 0) (hL : IrmAcross H g₀ g₁ m) :
    AsympValid E P W r H.fitted θ (Real.sqrt (∫ w, (g₁ (ξ w) - g₀ (ξ w) + d w * (y w - g₁ (ξ w)) / m (ξ w) -
      (1 - d w) * (y w - g₀ (ξ w)) / (1 - m (ξ w)) - θ) ^ 2 ∂(P.map (W 0)))) := by
  classical
  have hμ : IsProbabilityMeasure (P.map (W 0)) := Measure.isProbabilityMeasure_map (H.iid.meas 0).aemeasurable
  have a1 := law.treated (by norm_num)
  have a0 := law.untreated (by norm_num)
  have e1 : ∀ w, -1 * θ + (armVal y d ξ g₁ m w - armVal y (fun w => 1 - d w) ξ g₀ (fun x => 1 - m x) w) =
      g₁ (ξ w) - g₀ (ξ w) + d w * (y w - g₁ (ξ w)) / m (ξ w) - (1 - d w) * (y w - g₀ (ξ w)) / (1 - m (ξ w)) - θ := fun w => by
    unfold armVal
    ring
  have hsd : Real.sqrt (∫ w, (g₁ (ξ w) - g₀ (ξ w) + d w * (y w - g₁ (ξ w)) / m (ξ w) -
      (1 - d w) * (y w - g₀ (ξ w)) / (1 - m (ξ w)) - θ) ^ 2 ∂(P.map (W 0))) = asySd (P.map (W 0)) (fun _ => -1)
        (fun w => armVal y d ξ g₁ m w - armVal y (fun w => 1 - d w) ξ g₀ (fun x => 1 - m x) w) θ := by
    unfold asySd
    simp only [e1]
    simp
  rw [hsd]
  have a1' := a1.mono (q := 2) (by norm_num)
  have a0' := a0.mono (q := 2) (by norm_num)
  have hM : ∀ q, Honest ξ H.St (H.scheme q) (irmMhat H q) := fun q =>
    Study.honest (H := H) hL.rates.untreated.measM "ml_m" H.measD MeasurableSet.univ q (on := fun _ => True)
  have hG : ∀ q, Honest ξ H.St (H.scheme q) (irmG1hat H q) := fun q =>
    Study.honest (H := H) hL.rates.untreated.measG "ml_g1" H.measY (H.measD (measurableSet_singleton 1)) q (on := fun w => d w = 1)
  have hov : ∀ x, τ ≤ m x ∧ m x ≤ 1 - τ := law.overlap
  have hle : ∀ q j n ω, errNorm P W ξ (fun n k t x => trim τ (irmMhat H q n k t x)) m 2 j n ω ≤ errNorm P W ξ (irmMhat H q) m 2 j n ω :=
    fun q j n ω => by
      refine errNorm_post (fh := irmMhat H q) (fun v x => ?_) 2 j n ω
      exact trim_close (hov x)
  have base : ∀ q, _ := fun q => (Part.regular H.iid H.measSt (Study.balancedScheme q)
    (Part.fixed (c := H.scheme q) (f0 := fun _ : S => (-1 : ℝ)) measurable_const (memLp_const _)) ((irmPart1 a1 (fun x => (law.overlap x).2) hL.rates q).sub H.iid
      (irmPart0 a0 (fun x => (law.overlap x).1) hL.rates.untreated q)) (θ := θ) (by simp) (by
        have i1 := a1'.mem.integrable one_le_two
        have i0 := a0'.mem.integrable one_le_two
        have i2 : Integrable (fun w => armVal y d ξ g₁ m w - armVal y (fun w => 1 - d w) ξ g₀ (fun x => 1 - m x) w) (P.map (W 0)) := i1.sub i0
        rw [integral_add (integrable_const _) i2, integral_sub i1 i0, a1'.integral_eq, a0'.integral_eq, hθ,
          integral_sub (a1'.memG.integrable one_le_two) (a0'.memG.integrable one_le_two)]
        simp)).array H.iid
  refine H.asympArray (bad := Lacking H (fun _ => True) d) (fun q => irmReweigh0 ((base q).reweigh 1 H.iid H.measSt (Study.balancedScheme q) a1
    (mh := fun n k t x => trim τ (irmMhat H q n k t x)) (fun n k t x => ?_) (hG q) ((hM q).post (measurable_trim τ)) (hL.rates.errG1 q)
    (fun j => (hL.rates.untreated.errM q j).mono (hle q j))
    fun j j' => (hL.across1 q j j').mono fun n ω => mul_le_mul_right (mul_le_mul_left (hle q j n ω) _) _) (-1) a0 (fun x => (law.overlap x).1)
      ⟨hL.rates.untreated, hL.across0⟩ q) ?_ (fun n => LinearScoreClass.usualVsf (.irm _)) hvars hboth
      (irm_fits hg hvars hw hm hbin law.binary) ?_
  · have h1 := trim_mem ((hov x).1.trans (hov x).2) (irmMhat H q n k t x)
    exact ⟨h1.1, by linarith [law.pos]⟩
  · simpa only [e1] using hV
  · refine Eventually.of_forall fun n ω hω q c o hc ho => ?_
    obtain ⟨w, hw', hf⟩ := irmAdjusted (hg n) (ht n) (hvars n) (hm n) law.binary hω hc ho rfl
    rw [hn n] at hw' hf
    unfold irmWeights at hw'
    rw [hatte n, if_neg (by simp), hw n] at hw'
    obtain rfl := Except.ok.inj hw'
    refine rep_of_elems rfl hf ?_
    unfold irmElems
    simp only [PsiElems.mk.injEq]
    refine ⟨funext fun i => ?_, funext fun i => ?_⟩
    · have : mean (fun _ : Fin n => (1 : ℝ)) = 1 := by
        unfold mean
        have : (n : ℝ) ≠ 0 := by
          have := i.pos
          positivity
        simp [this]
      rw [this]
      show _ = (-1 : ℝ)
      norm_num
    · obtain ⟨n1, n0⟩ := normalizeIpw_weight (M := fun i : Fin n => trim τ (irmMhat H q n (H.foldOf q n ω i) (sample W n ω) (ξ (W i ω))))
        (D := fun i : Fin n => d (W i ω)) (fun i => law.binary _) i
      unfold adjust
      rw [if_pos rfl, n1, n0]
      show _ = (armVal y d ξ (irmG1hat H q n (H.foldOf q n ω i) (sample W n ω)) (fun x => trim τ (irmMhat H q n (H.foldOf q n ω i) (sample W n ω) x)) (W i ω) -
        armVal y (fun w => 1 - d w) ξ (irmG0hat H q n (H.foldOf q n ω i) (sample W n ω))
          (fun x => 1 - trim τ (irmMhat H q n (H.foldOf q n ω i) (sample W n ω) x)) (W i ω)) +
        1 * ((mean fun j : Fin n => d (W j ω) * ((trim τ (irmMhat H q n (H.foldOf q n ω j) (sample W n ω) (ξ (W j ω))))⁻¹ - 0))⁻¹ - 1) *
          ipwRes 0 y d ξ (irmG1hat H q n (H.foldOf q n ω i) (sample W n ω)) (fun x => trim τ (irmMhat H q n (H.foldOf q n ω i) (sample W n ω) x)) (W i ω) +
        -1 * ((mean fun j : Fin n => (1 - d (W j ω)) * ((1 - trim τ (irmMhat H q n (H.foldOf q n ω j) (sample W n ω) (ξ (W j ω))))⁻¹ - 0))⁻¹ - 1) *
          ipwRes 0 y (fun w => 1 - d w) ξ (irmG0hat H q n (H.foldOf q n ω i) (sample W n ω))
            (fun x => 1 - trim τ (irmMhat H q n (H.foldOf q n ω i) (sample W n ω) x)) (W i ω)
      unfold armVal ipwRes
      ring

/-- **C79, IRM, average treatment effect for the treated, normalised weights.** -/
theorem C79_irm_atte_normalized [IsProbabilityMeasure P] {τ : ℝ} (hatte : ∀ n, (k n).atte = true) (hg : ∀ n, (k n).gClassifier = false)
    (hn : ∀ n, (k n).normalize = true) (ht : ∀ n, (k n).trimT = τ) (hvars : ∀ n, (k n).vars = none)
    (hw : ∀ n q, (k n).weights.at q = .ok (fun _ : Fin n => 1, fun _ => 1))
    (hw1 : ∀ n, ∀ i : Fin n, (k n).weights.weights.entries.getD i 0 = 1) (hm : ∀ n, (k n).ml_m.Compliant)
    (hbin : ∀ᶠ n in atTop, ∀ ω, (H.D n ω).binOut = false)
    (hboth : Tendsto (fun n => P (Lacking H (fun _ => True) d n)) atTop (𝓝 0))
    {g₀ m : 𝒳 → ℝ} (law : ArmLaw (P.map (W 0)) y (fun w => 1 - d w) ξ g₀ (fun x => 1 - m x) τ 4) (hτ : ∀ x, τ ≤ m x)
    (hd : ∀ w, d w = 0 ∨ d w = 1) (hy : MemLp y 2 (P.map (W 0)))
    {θ : ℝ} (hp : ∫ w, d w ∂(P.map (W 0)) ≠ 0) (hθ : θ = (∫ w, d w * (y w - g₀ (ξ w)) ∂(P.map (W 0))) / ∫ w, d w ∂(P.map (W 0)))
    (hV : ∫ w, (d w * (y w - g₀ (ξ w) - θ) - m (ξ w) * (1 - d w) * (y w - g₀ (ξ w)) / (1 - m (ξ w))) ^ 2
      ∂(P.map (W 0)) ≠ 0) (hL : IrmAcross0 H g₀ m) :
    AsympValid E P W r H.fitted θ (Real.sqrt (∫ w, (d w * (y w - g₀ (ξ w) - θ) -
      m (ξ w) * (1 - d w) * (y w - g₀ (ξ w)) / (1 - m (ξ w))) ^ 2 ∂(P.map (W 0))) / ∫ w, d w ∂(P.map (W 0))) := by
  have hd0 : ∀ w, 0 ≤ d w := fun w => by rcases hd w with e | e <;> simp [e]
  rw [treated_sd law hd]
  refine H.asympArray (bad := Lacking H (fun _ => True) d) (fun q => irmReweigh0 ((treatedRegular H.iid H.measSt (Study.balancedScheme q)
    law hd H.measD H.measY hy hp hθ (irmPart0 law hτ hL.rates q)).array H.iid) (-1) law hτ hL q) ?_
    (fun n => LinearScoreClass.usualVsf (.irm _)) hvars hboth (irm_fits hg hvars hw hm hbin hd) ?_
  · simpa only [treated_psi law hd] using hV
  · refine Eventually.of_forall fun n ω hω q c o hc ho => ?_
    obtain ⟨w, hw', hf⟩ := irmAdjusted (hg n) (ht n) (hvars n) (hm n) hd hω hc ho rfl
    rw [hn n] at hw' hf
    unfold irmWeights at hw'
    rw [hatte n, if_pos rfl] at hw'
    obtain rfl := Except.ok.inj hw'
    have hev : EveryFold c.smpls (fun _ => True) fun i => d (W i ω) := (not_not.1 hω) _ (List.mem_of_getElem? hc.split)
    have hbt := hev.binary H.folds hc.cross fun i => hd _
    have ew : ∀ i : Fin n, (k n).weights.weights.entries.getD i 0 * c.d i = d (W i ω) := fun i => by rw [hw1, hc.d i, one_mul]
    have ep : (mean fun i : Fin n => (k n).weights.weights.entries.getD i 0 * c.d i) = mean fun i : Fin n => d (W i ω) := by
      simp only [ew]
    have hn0 : (n : ℝ) ≠ 0 := by
      have := hbt.one.choose.pos
      positivity
    have hp0 : (mean fun i : Fin n => d (W i ω)) ≠ 0 := by
      obtain ⟨j, hj⟩ := hbt.one
      unfold mean
      refine div_ne_zero (ne_of_gt ?_) hn0
      exact Finset.sum_pos' (fun i _ => hd0 _) ⟨j, Finset.mem_univ _, by rw [hj]; exact one_pos⟩
    have hκ := inv_ne_zero hp0
    rw [← repCoef_scale _ _ hκ, ← repSe_scale _ _ hκ, ← repPsi_scale _ _ hκ]
    refine rep_of_elems rfl hf ?_
    have htr : ∀ j : Fin n, 0 < trim τ (irmMhat H q n (H.foldOf q n ω j) (sample W n ω) (ξ (W j ω))) ∧
        0 < 1 - trim τ (irmMhat H q n (H.foldOf q n ω j) (sample W n ω) (ξ (W j ω))) := fun j => by
      have hx := trim_mem (τ := τ) (by linarith [hτ (ξ (W j ω)), (law.overlap (ξ (W j ω))).1])
        (irmMhat H q n (H.foldOf q n ω j) (sample W n ω) (ξ (W j ω)))
      have := law.pos
      constructor <;> linarith
    have ht1 : (mean fun j : Fin n => d (W j ω) / trim τ (irmMhat H q n (H.foldOf q n ω j) (sample W n ω) (ξ (W j ω)))) ≠ 0 := by
      obtain ⟨j, hj⟩ := hbt.one
      unfold mean
      refine div_ne_zero (ne_of_gt ?_) hn0
      exact Finset.sum_pos' (fun i _ => div_nonneg (hd0 _) (htr i).1.le) ⟨j, Finset.mem_univ _, by rw [hj]; exact div_pos one_pos (htr j).1⟩
    have ht0 : (mean fun j : Fin n => (1 - d (W j ω)) / (1 - trim τ (irmMhat H q n (H.foldOf q n ω j) (sample W n ω) (ξ (W j ω))))) ≠ 0 := by
      obtain ⟨j, hj⟩ := hbt.zero
      unfold mean
      refine div_ne_zero (ne_of_gt ?_) hn0
      refine Finset.sum_pos' (fun i _ => div_nonneg ?_ (htr i).2.le) ⟨j, Finset.mem_univ _, by rw [hj, sub_zero]; exact div_pos one_pos (htr j).2⟩
      rcases hd (W i ω) with e | e <;> simp [e]
    unfold irmElems atteWeights
    simp only [PsiElems.mk.injEq]
    rw [ep]
    simp only [ew]
    refine ⟨funext fun i => ?_, funext fun i => ?_⟩
    · have : mean (fun i : Fin n => d (W i ω) / mean fun i : Fin n => d (W i ω)) = 1 := by
        conv_lhs => unfold mean
        rw [← Finset.sum_div, div_right_comm]
        exact div_self hp0
      rw [this]
      show _ = _ * -d (W i ω)
      rw [div_one]
      ring
    · rw [hw1]
      have et : (fun j : Fin n => (1 - d (W j ω)) * ((1 - trim τ (irmMhat H q n (H.foldOf q n ω j) (sample W n ω) (ξ (W j ω))))⁻¹ - 0)) =
          fun j : Fin n => (1 - d (W j ω)) / (1 - trim τ (irmMhat H q n (H.foldOf q n ω j) (sample W n ω) (ξ (W j ω)))) := funext fun j => by
        rw [sub_zero, div_eq_mul_inv]
      show _ = _ * (y (W i ω) - armVal y (fun w => 1 - d w) ξ (irmG0hat H q n (H.foldOf q n ω i) (sample W n ω))
          (fun x => 1 - trim τ (irmMhat H q n (H.foldOf q n ω i) (sample W n ω) x)) (W i ω) +
        -1 * ((mean fun j : Fin n => (1 - d (W j ω)) * ((1 - trim τ (irmMhat H q n (H.foldOf q n ω j) (sample W n ω) (ξ (W j ω))))⁻¹ - 0))⁻¹ - 1) *
          ipwRes 0 y (fun w => 1 - d w) ξ (irmG0hat H q n (H.foldOf q n ω i) (sample W n ω))
            (fun x => 1 - trim τ (irmMhat H q n (H.foldOf q n ω i) (sample W n ω) x)) (W i ω))
      rw [et]
      unfold adjust normalizeIpw
      rw [if_pos rfl]
      simp only [armVal, ipwRes]
      have hx := htr i
      generalize (mean fun j : Fin n => d (W j ω) / trim τ (irmMhat H q n (H.foldOf q n ω j) (sample W n ω) (ξ (W j ω)))) = t1 at ht1 ⊢
      generalize (mean fun j : Fin n => (1 - d (W j ω)) / (1 - trim τ (irmMhat H q n (H.foldOf q n ω j) (sample W n ω) (ξ (W j ω))))) = t0 at ht0 ⊢
      generalize trim τ (irmMhat H q n (H.foldOf q n ω i) (sample W n ω) (ξ (W i ω))) = M at hx ⊢
      have hM : M ≠ 0 := hx.1.ne'
      have hM1 : 1 - M ≠ 0 := hx.2.ne'
      rcases hd (W i ω) with e | e <;> rw [e]
      · have h1 : 1 - (0 * (M * t1) + (1 - 0) * (1 - (1 - M) * t0)) = (1 - M) * t0 := by ring
        rw [h1]
        field_simp
        ring
      · simp only [one_mul, sub_self, zero_mul, add_zero, mul_zero, zero_div]
        field_simp
        ring

end Irm

section Apo

variable {k : ∀ n, ApoClass n Q} {H : Study E P W r K (fun n => apoSpec (k n)) tv y d ξ enc}

/-- Large-sample properties and influence function, APO, normalised weights. -/
theorem apo_normalized_valid_linear [IsProbabilityMeasure P] {τ v : ℝ} (hv : ∀ n, (k n).level = v) (hg : ∀ n, (k n).gClassifier = false)
    (hn : ∀ n, (k n).normalize = true) (ht : ∀ n, (k n).trimT = τ) (hvars : ∀ n, (k n).vars = none)
    (hw : ∀ n q, (k n).weights.at q = .ok (fun _ : Fin n => 1, fun _ => 1)) (hm : ∀ n, (k n).ml_m.Compliant)
    (hbin : ∀ᶠ n in atTop, ∀ ω, (H.D n ω).binOut = false)
    (hboth : Tendsto (fun n => P (Lacking H (fun _ => True) (atLevel d v) n)) atTop (𝓝 0))
    {g m : 𝒳 → ℝ} (law : ArmLaw (P.map (W 0)) y (atLevel d v) ξ g m τ 4) (hτ : ∀ x, m x ≤ 1 - τ)
    {θ : ℝ} (hθ : θ = ∫ w, g (ξ w) ∂(P.map (W 0)))
    (hV : ∫ w, (g (ξ w) + atLevel d v w * (y w - g (ξ w)) / m (ξ w) - θ) ^ 2 ∂(P.map (W 0)) ≠ 0) (hL : ApoRates H v g m)
    (across : ∀ q j j', oPE P fun n ω => ENNReal.ofReal (Real.sqrt n) * (errNorm P W ξ (apoMhat H v q) m 2 j n ω *
      errNorm P W ξ (apoGhat H v q) g 2 j' n ω)) :
    AsympValid E P W r H.fitted θ (Real.sqrt (∫ w, (g (ξ w) + atLevel d v w * (y w - g (ξ w)) / m (ξ w) - θ) ^ 2 ∂(P.map (W 0)))) ∧
      AsympLinear P W r (fun n ω => (H.fitted n ω).fw?) θ fun w => θ - (g (ξ w) + atLevel d v w * (y w - g (ξ w)) / m (ξ w)) := by
  classical
  have hμ : IsProbabilityMeasure (P.map (W 0)) := Measure.isProbabilityMeasure_map (H.iid.meas 0).aemeasurable
  have e1 : ∀ w, -1 * θ + armVal y (atLevel d v) ξ g m w = g (ξ w) + atLevel d v w * (y w - g (ξ w)) / m (ξ w) - θ := fun w => by
    unfold armVal
    ring
  have hsd : Real.sqrt (∫ w, (g (ξ w) + atLevel d v w * (y w - g (ξ w)) / m (ξ w) - θ) ^ 2 ∂(P.map (W 0))) =
      asySd (P.map (W 0)) (fun _ => -1) (armVal y (atLevel d v) ξ g m) θ := by
    unfold asySd
    simp only [e1]
    simp
  have hinf : (fun w => θ - (g (ξ w) + atLevel d v w * (y w - g (ξ w)) / m (ξ w))) =
      asyInf (P.map (W 0)) (fun _ => -1) (armVal y (atLevel d v) ξ g m) θ := by
    funext w
    unfold asyInf
    simp only [e1]
    simp [div_neg]
  rw [hsd, hinf]
  have law2 := law.mono (q := 2) (by norm_num)
  have hM : ∀ q, Honest ξ H.St (H.scheme q) (apoMhat H v q) := fun q =>
    Study.honest (H := H) hL.measM "ml_m" (measurable_atLevel H.measD v) MeasurableSet.univ q (on := fun _ => True)
  have hG : ∀ q, Honest ξ H.St (H.scheme q) (apoGhat H v q) := fun q =>
    Study.honest (H := H) hL.measG "ml_g_d_lvl1" H.measY (H.measD (measurableSet_singleton v)) q (on := fun w => d w = v)
  have hov : ∀ x, τ ≤ m x ∧ m x ≤ 1 - τ := fun x => ⟨(law.overlap x).1, hτ x⟩
  have hle : ∀ q j n ω, errNorm P W ξ (fun n k t x => trim τ (apoMhat H v q n k t x)) m 2 j n ω ≤ errNorm P W ξ (apoMhat H v q) m 2 j n ω :=
    fun q j n ω => by
      refine errNorm_post (fh := apoMhat H v q) (fun v x => ?_) 2 j n ω
      exact trim_close (hov x)
  refine H.asympArrayBoth (bad := Lacking H (fun _ => True) (atLevel d v)) (fun q => ((Part.regular H.iid H.measSt (Study.balancedScheme q)
    (Part.fixed measurable_const (memLp_const _)) (armPart_trim H.iid law hτ (hG q) (hM q) (hL.errG q) (hL.errM q) (hL.rate q))
      (by simp) ?_).array H.iid).reweigh 1 H.iid H.measSt (Study.balancedScheme q) law (mh := fun n k t x => trim τ (apoMhat H v q n k t x))
      (fun n k t x => ?_) (hG q) ((hM q).post (measurable_trim τ)) (hL.errG q) (fun j => (hL.errM q j).mono (hle q j))
    fun j j' => (across q j j').mono fun n ω => mul_le_mul_right (mul_le_mul_left (hle q j n ω) _) _) ?_
    (fun n => LinearScoreClass.usualVsf (.apo _)) hvars hboth (apo_fits hv hg hvars hw hm hbin) ?_
  · rw [integral_add (integrable_const _) (law2.mem.integrable one_le_two), law2.integral_eq, hθ]
    simp
  · have h1 := trim_mem ((hov x).1.trans (hov x).2) (apoMhat H v q n k t x)
    exact ⟨h1.1, by linarith [law.pos]⟩
  · simpa only [e1] using hV
  · refine Eventually.of_forall fun n ω hω q c o hc ho => ?_
    have hf := apoValues hv hg ht hvars hw hm hω hc ho
    rw [hn n] at hf
    refine rep_of_elems rfl hf ?_
    unfold apoElems adjust
    simp only [PsiElems.mk.injEq]
    refine ⟨funext fun i => ?_, funext fun i => ?_⟩
    · have : mean (fun _ : Fin n => (1 : ℝ)) = 1 := by
        unfold mean
        have : (n : ℝ) ≠ 0 := by
          have := i.pos
          positivity
        simp [this]
      rw [this]
      show _ = (-1 : ℝ)
      norm_num
    · rw [if_pos trivial, (normalizeIpw_weight (M := fun i : Fin n => trim τ (apoMhat H v q n (H.foldOf q n ω i) (sample W n ω) (ξ (W i ω))))
        (D := fun i : Fin n => atLevel d v (W i ω)) (fun i => atLevel_binary _ _ _) i).1]
      show _ = armVal y (atLevel d v) ξ (apoGhat H v q n (H.foldOf q n ω i) (sample W n ω))
          (fun x => trim τ (apoMhat H v q n (H.foldOf q n ω i) (sample W n ω) x)) (W i ω) +
        1 * ((mean fun j : Fin n => atLevel d v (W j ω) * ((trim τ (apoMhat H v q n (H.foldOf q n ω j) (sample W n ω) (ξ (W j ω))))⁻¹ - 0))⁻¹ - 1) *
          ipwRes 0 y (atLevel d v) ξ (apoGhat H v q n (H.foldOf q n ω i) (sample W n ω))
            (fun x => trim τ (apoMhat H v q n (H.foldOf q n ω i) (sample W n ω) x)) (W i ω)
      unfold armVal ipwRes
      ring

/-- **C79, APO, normalised weights.** -/
theorem C79_apo_normalized [IsProbabilityMeasure P] {τ v : ℝ} (hv : ∀ n, (k n).level = v) (hg : ∀ n, (k n).gClassifier = false)
    (hn : ∀ n, (k n).normalize = true) (ht : ∀ n, (k n).trimT = τ) (hvars : ∀ n, (k n).vars = none)
    (hw : ∀ n q, (k n).weights.at q = .ok (fun _ : Fin n => 1, fun _ => 1)) (hm : ∀ n, (k n).ml_m.Compliant)
    (hbin : ∀ᶠ n in atTop, ∀ ω, (H.D n ω).binOut = false)
    (hboth : Tendsto (fun n => P (Lacking H (fun _ => True) (atLevel d v) n)) atTop (𝓝 0))
    {g m : 𝒳 → ℝ} (law : ArmLaw (P.map (W 0)) y (atLevel d v) ξ g m τ 4) (hτ : ∀ x, m x ≤ 1 - τ)
    {θ : ℝ} (hθ : θ = ∫ w, g (ξ w) ∂(P.map (W 0)))
    (hV : ∫ w, (g (ξ w) + atLevel d v w * (y w - g (ξ w)) / m (ξ w) - θ) ^ 2 ∂(P.map (W 0)) ≠ 0) (hL : ApoRates H v g m)
    (across : ∀ q j j', oPE P fun n ω => ENNReal.ofReal (Real.sqrt n) * (errNorm P W ξ (apoMhat H v q) m 2 j n ω *
      errNorm P W ξ (apoGhat H v q) g 2 j' n ω)) :
    AsympValid E P W r H.fitted θ (Real.sqrt (∫ w, (g (ξ w) + atLevel d v w * (y w - g (ξ w)) / m (ξ w) - θ) ^ 2 ∂(P.map (W 0)))) :=
  (apo_normalized_valid_linear hv hg hn ht hvars hw hm hbin hboth law hτ hθ hV hL across).1

end Apo

end DML
