import Verif.AsymptoticShareProps
import Verif.AsymptoticSsmProps

/-!
# Large-sample properties of difference-in-differences models for repeated cross-sections (C79)
-/

namespace DML

open MeasureTheory ProbabilityTheory Filter Topology
open scoped ENNReal

variable {Ω : Type*} {mΩ : MeasurableSpace Ω} {S : Type*} [MeasurableSpace S] {𝒳 : Type*} [MeasurableSpace 𝒳] {Q : Type}
  {E : Ext} {P : Measure Ω} {W : ℕ → Ω → S} {r K : ℕ} {tv : String} {y d tt : S → ℝ} {ξ : S → 𝒳} {enc : 𝒳 → List Cell}

/-! ## Shares -/

/-- A share computed from the training set: between `τ` and one, converging to `p0` at the rate `1/√n`. -/
structure Share {s K : ℕ} (P : Measure Ω) (W : ℕ → Ω → S) (St : S → Fin s) (c : ∀ n, (Fin n → Fin s) → Scheme K n)
    (p : ∀ n, Fin K → (Fin n → S) → ℝ) (p0 τ : ℝ) : Prop where
  meas : ∀ n k, Measurable (p n k)
  uses : ∀ n k, UsesGiven St (p n k) fun α => (c n α).train k
  range : ∀ n k t, τ ≤ p n k t ∧ p n k t ≤ 1
  rate : ∀ k, OP P fun n ω => Real.sqrt n * (p n k (sample W n ω) - p0)

section Shares

variable {s : ℕ} {St : S → Fin s} {c : ∀ n, (Fin n → Fin s) → Scheme K n} {p : ∀ n, Fin K → (Fin n → S) → ℝ} {p0 τ : ℝ}
  {gh mh : ∀ n, Fin K → (Fin n → S) → 𝒳 → ℝ}

theorem Share.close (h : Share P W St c p p0 τ) (k : Fin K) : oP P fun n ω => p n k (sample W n ω) - p0 := (h.rate k).of_root

/-- A share is a fitted function that ignores the covariates. -/
theorem Share.honest (h : Share P W St c p p0 τ) : Honest ξ St c fun n k t _ => p n k t :=
  ⟨fun n k => (h.meas n k).comp measurable_fst, fun n k t t' h1 h2 => funext fun _ => h.uses n k t t' h1 h2⟩

omit [MeasurableSpace 𝒳] in
theorem Share.err [IsProbabilityMeasure P] (hW : Iid P W) (k : Fin K) (n : ℕ) (ω : Ω) :
    errNorm P W ξ (fun n k t _ => p n k t) (fun _ => p0) 2 k n ω = ENNReal.ofReal |p n k (sample W n ω) - p0| := by
  have hμ := hW.prob 0
  unfold errNorm
  rw [eLpNorm_const _ (by norm_num) (IsProbabilityMeasure.ne_zero _), measure_univ, ENNReal.one_rpow, mul_one, Real.enorm_eq_ofReal_abs]

omit [MeasurableSpace 𝒳] in
/-- The product with an error that vanishes. -/
theorem Share.product [IsProbabilityMeasure P] (hW : Iid P W) (h : Share P W St c p p0 τ) {R : ℕ → Ω → ℝ≥0∞} (hR : oPE P R) (k : Fin K) :
    oPE P fun n ω => ENNReal.ofReal (Real.sqrt n) * (errNorm P W ξ (fun n k t _ => p n k t) (fun _ => p0) 2 k n ω * R n ω) := by
  refine (hR.mul_OP (h.rate k)).mono fun n ω => le_of_eq ?_
  rw [Share.err hW, abs_mul, abs_of_nonneg (Real.sqrt_nonneg _), ENNReal.ofReal_mul (Real.sqrt_nonneg _), mul_assoc]

/-- The share of the other value. -/
theorem Share.compl (h : Share P W St c p p0 τ) (h1 : ∀ n k t, p n k t ≤ 1 - τ) (hτ : 0 ≤ τ) :
    Share P W St c (fun n k t => 1 - p n k t) (1 - p0) τ := by
  refine ⟨fun n k => measurable_const.sub (h.meas n k), fun n k t t' a b => ?_, fun n k t => ?_, fun k => ?_⟩
  · show 1 - p n k t = 1 - p n k t'
    rw [h.uses n k t t' a b]
  · have := h1 n k t
    have := (h.range n k t).1
    constructor <;> linarith
  · refine (h.rate k).mono (Eventually.of_forall fun n ω => le_of_eq ?_)
    rw [← abs_neg]
    congr 1
    ring

/-! ## Laws -/

/-- One treatment group, with the period as treatment: the outcome times the group indicator is regressed on group and covariates. -/
theorem DidCsLaw.groupFour {μ : Measure S} [IsProbabilityMeasure μ] {g00 g01 g10 g11 m : 𝒳 → ℝ} {lam τ' : ℝ}
    (h : DidCsLaw μ y d tt ξ g00 g01 g10 g11 m lam τ)
    (hn : MemLp (fun w => y w - (d w * tt w * g11 (ξ w) + d w * (1 - tt w) * g10 (ξ w) +
      (1 - d w) * tt w * g01 (ξ w) + (1 - d w) * (1 - tt w) * g00 (ξ w))) 4 μ)
    (hg : MemLp (fun w => g11 (ξ w)) 4 μ) (h0 : 0 < τ') (h1 : τ' ≤ τ) :
    ArmLaw μ (fun w => d w * y w) tt (fun w => (d w, ξ w)) (fun z => z.1 * g11 z.2) (fun _ => lam) τ' 4 := by
  have bd := bdd_of_binary h.binaryD
  have bdt : ∀ w, |d w * tt w| ≤ 1 := fun w => by
    rw [abs_mul]
    exact mul_le_one₀ (bd w) (abs_nonneg _) (bdd_of_binary h.binaryT w)
  have hs := h.share
  have hτ := h.pos
  refine ⟨h.measD.mul h.measY, h.measT, h.measD.prodMk h.measX, measurable_fst.mul (h.measG11.comp measurable_snd), measurable_const,
    fun w => ?_, ?_, h.period, h0, fun _ => ⟨by linarith, by linarith⟩, ?_, ?_⟩
  · rcases h.binaryT w with e | e <;> simp [e]
  · exact h.cell_noise.1.of_eq fun w => by ring
  · refine (memLp_bdd_mul hn (h.measD.mul h.measT) bdt).ae_eq (Eventually.of_forall fun w => ?_)
    show (y w - (d w * tt w * g11 (ξ w) + d w * (1 - tt w) * g10 (ξ w) +
      (1 - d w) * tt w * g01 (ξ w) + (1 - d w) * (1 - tt w) * g00 (ξ w))) * (d w * tt w) = tt w * (d w * y w - d w * g11 (ξ w))
    rcases h.binaryD w with e | e <;> rcases h.binaryT w with e' | e' <;> rw [e, e'] <;> ring
  · exact (memLp_bdd_mul hg h.measD bd).ae_eq (Eventually.of_forall fun w => mul_comm _ _)

/-- One cell, with four moments. -/
theorem DidCsLaw.cellFour {μ : Measure S} [IsProbabilityMeasure μ] {g00 g01 g10 g11 m : 𝒳 → ℝ} {lam τ' : ℝ}
    (h : DidCsLaw μ y d tt ξ g00 g01 g10 g11 m lam τ)
    (hn : MemLp (fun w => y w - (d w * tt w * g11 (ξ w) + d w * (1 - tt w) * g10 (ξ w) +
      (1 - d w) * tt w * g01 (ξ w) + (1 - d w) * (1 - tt w) * g00 (ξ w))) 4 μ)
    (hg : MemLp (fun w => g11 (ξ w)) 4 μ) (h0 : 0 < τ') (h1 : τ' ≤ τ) :
    ArmLaw μ y (fun w => d w * tt w) ξ g11 (fun x => m x * lam) (τ * τ') 4 := by
  have a := h.cell
  have hτ := h.pos
  have bdt : ∀ w, |d w * tt w| ≤ 1 := fun w => by
    rw [abs_mul]
    exact mul_le_one₀ (bdd_of_binary h.binaryD w) (abs_nonneg _) (bdd_of_binary h.binaryT w)
  refine ⟨a.measY, a.measU, a.measX, a.measG, a.measM, a.unit, a.noise, a.treat, mul_pos hτ h0,
    fun x => ⟨(mul_le_mul_of_nonneg_left h1 hτ.le).trans (a.overlap x).1, (a.overlap x).2⟩, ?_, hg⟩
  refine (memLp_bdd_mul hn (h.measD.mul h.measT) bdt).ae_eq (Eventually.of_forall fun w => ?_)
  show (y w - (d w * tt w * g11 (ξ w) + d w * (1 - tt w) * g10 (ξ w) +
    (1 - d w) * tt w * g01 (ξ w) + (1 - d w) * (1 - tt w) * g00 (ξ w))) * (d w * tt w) = d w * tt w * (y w - g11 (ξ w))
  rcases h.binaryD w with e | e <;> rcases h.binaryT w with e' | e' <;> rw [e, e'] <;> ring

/-! ## Parts of the score -/

/-- The correction within a treatment group: errors of the outcome model only have to vanish. -/
theorem groupPart [IsProbabilityMeasure P] (hW : Iid P W) {g : 𝒳 → ℝ}
    (law : ArmLaw (P.map (W 0)) (fun w => d w * y w) tt (fun w => (d w, ξ w)) (fun z => z.1 * g z.2) (fun _ => p0) τ 4)
    (hd : ∀ w, d w = 0 ∨ d w = 1) (hg : Honest ξ St c gh) (eg : ∀ k, oPE P (errNorm P W ξ gh g 2 k)) (hp : Share P W St c p p0 τ) :
    Part P W St c (fun n k t w => d w * gh n k t (ξ w) + d w * tt w / p n k t * (y w - gh n k t (ξ w)))
      (fun w => d w * g (ξ w) + d w * tt w / p0 * (y w - g (ξ w))) := by
  have hgD : Honest (fun w => (d w, ξ w)) St c fun n k t z => z.1 * gh n k t z.2 := by
    refine ⟨fun n k => ?_, fun n k t t' h1 h2 => funext fun w => ?_⟩
    · exact (measurable_fst.comp measurable_snd).mul ((hg.meas n k).comp (measurable_fst.prodMk (measurable_snd.comp measurable_snd)))
    · have e := congrFun (hg.uses n k t t' h1 h2) w
      exact congrArg (d w * ·) e
  have le : ∀ k n ω, errNorm P W (fun w => (d w, ξ w)) (fun n k t z => z.1 * gh n k t z.2) (fun z => z.1 * g z.2) 2 k n ω ≤
      errNorm P W ξ gh g 2 k n ω := fun k n ω => eLpNorm_mono fun w => by
    show ‖d w * gh n k (sample W n ω) (ξ w) - d w * g (ξ w)‖ ≤ ‖gh n k (sample W n ω) (ξ w) - g (ξ w)‖
    rcases hd w with e | e <;> simp [e]
  have egD := fun k => (eg k).mono (le k)
  refine (armPart hW law hgD hp.honest (fun n k t _ => hp.range n k t) egD (fun k => ?_) fun k => hp.product hW (egD k) k).congr
    (fun n k t w => ?_) fun w => ?_
  · refine (oPE_of_oP (hp.close k)).mono fun n ω => le_of_eq ?_
    exact Share.err hW k n ω
  · show _ = d w * gh n k t (ξ w) + tt w * (d w * y w - d w * gh n k t (ξ w)) / p n k t
    ring
  · show _ = d w * g (ξ w) + tt w * (d w * y w - d w * g (ξ w)) / p0
    ring

/-- The doubly robust signal of a cell. -/
theorem cellPart [IsProbabilityMeasure P] (hW : Iid P W) {u : S → ℝ} {g m1 : 𝒳 → ℝ} {τ' : ℝ}
    (law : ArmLaw (P.map (W 0)) y u ξ g (fun x => m1 x * p0) (τ * τ') 4) (h0 : 0 < τ') (h01 : τ' ≤ p0 ∧ p0 ≤ 1) (hτ : 0 < τ) {m : 𝒳 → ℝ}
    (mm : Measurable m) {φ : ℝ → ℝ} (mφ : Measurable φ) (hφ : ∀ v x, |φ v - m1 x| ≤ |v - m x|) (hr : ∀ v, τ ≤ φ v ∧ φ v ≤ 1)
    (hm1 : ∀ x, |m1 x| ≤ 1) (hg : Honest ξ St c gh) (hm : Honest ξ St c mh) (eg : ∀ k, oPE P (errNorm P W ξ gh g 2 k))
    (em : ∀ k, oPE P (errNorm P W ξ mh m 2 k)) (hp : Share P W St c p p0 τ')
    (rate : ∀ k, oPE P fun n ω => ENNReal.ofReal (Real.sqrt n) * (errNorm P W ξ mh m 2 k n ω * errNorm P W ξ gh g 2 k n ω)) :
    Part P W St c (fun n k t => armVal y u ξ (gh n k t) fun x => φ (mh n k t x) * p n k t) (armVal y u ξ g fun x => m1 x * p0) := by
  have hτ1 : τ' ≤ 1 := h01.1.trans h01.2
  have hP : Honest ξ St c fun n k t _ => p n k t := hp.honest
  have le : ∀ k n ω, errNorm P W ξ (fun n k t x => φ (mh n k t x) * p n k t) (fun x => m1 x * p0) 2 k n ω ≤
      errNorm P W ξ mh m 2 k n ω + errNorm P W ξ (fun n k t _ => p n k t) (fun _ => p0) 2 k n ω := fun k n ω => by
    have h := errNorm_mul (P := P) (W := W) law.measX hm hP mm (p0 := fun _ => p0) measurable_const hφ hm1 h0.le hτ1 (fun _ => h01) k n ω
    simp only [low_id (hp.range _ _ _)] at h
    exact h
  refine armPart hW law hg ((hm.post mφ).mul hP) (fun n k t x => ?_) eg (fun k => ((em k).add ?_).mono (le k)) fun k =>
    ((rate k).add (hp.product (ξ := ξ) hW (eg k) k)).mono fun n ω => ?_
  · have k1 := hr (mh n k t x)
    have k2 := hp.range n k t
    exact ⟨mul_le_mul k1.1 k2.1 h0.le (hτ.le.trans k1.1), mul_le_one₀ k1.2 (h0.le.trans k2.1) k2.2⟩
  · refine (oPE_of_oP (hp.close k)).mono fun n ω => le_of_eq ?_
    exact Share.err hW k n ω
  · rw [← mul_add, ← add_mul]
    gcongr
    exact le k n ω

/-- The doubly robust signal of a group that is drawn at random, with the share of the group in the training set. -/
theorem sharePart [IsProbabilityMeasure P] (hW : Iid P W) {u : S → ℝ} {g : 𝒳 → ℝ}
    (law : ArmLaw (P.map (W 0)) y u ξ g (fun _ => p0) τ 4) (hg : Honest ξ St c gh) (eg : ∀ k, oPE P (errNorm P W ξ gh g 2 k))
    (hp : Share P W St c p p0 τ) :
    Part P W St c (fun n k t => armVal y u ξ (gh n k t) fun _ => p n k t) (armVal y u ξ g fun _ => p0) := by
  refine armPart hW law hg hp.honest (fun n k t _ => hp.range n k t) eg (fun k => ?_) fun k => hp.product hW (eg k) k
  refine (oPE_of_oP (hp.close k)).mono fun n ω => le_of_eq ?_
  exact Share.err hW k n ω

/-- Products of shares. -/
theorem Share.mul [IsProbabilityMeasure P] {p' : ∀ n, Fin K → (Fin n → S) → ℝ} {p0' τ' : ℝ} (h : Share P W St c p p0 τ)
    (h' : Share P W St c p' p0' τ') (hτ : 0 ≤ τ) (hτ' : 0 ≤ τ') : Share P W St c (fun n k t => p n k t * p' n k t) (p0 * p0') (τ * τ') := by
  refine ⟨fun n k => (h.meas n k).mul (h'.meas n k), fun n k t t' a b => ?_, fun n k t => ?_, fun k => ?_⟩
  · show p n k t * p' n k t = p n k t' * p' n k t'
    rw [h.uses n k t t' a b, h'.uses n k t t' a b]
  · have k1 := h.range n k t
    have k2 := h'.range n k t
    exact ⟨mul_le_mul k1.1 k2.1 hτ' (hτ.trans k1.1), mul_le_one₀ k1.2 (hτ'.trans k2.1) k2.2⟩
  · refine (((h.rate k).mul (OP_of_sub (h'.close k))).add ((OP_const (P := P) p0).mul (h'.rate k))).mono (Eventually.of_forall fun n ω => le_of_eq ?_)
    congr 1
    ring

/-! ## The signal of the treated -/

/-- The difference in differences of an observation, corrected by residuals. -/
noncomputable def csSignal (y d tt : S → ℝ) (ξ : S → 𝒳) (g00 g01 g10 g11 m : 𝒳 → ℝ) (lam : ℝ) (w : S) : ℝ :=
  ((d w * g11 (ξ w) + d w * tt w / lam * (y w - g11 (ξ w))) - (d w * g10 (ξ w) + d w * (1 - tt w) / (1 - lam) * (y w - g10 (ξ w)))) -
    (csTerm y d tt ξ lam g01 m w - csTerm y d (fun w => 1 - tt w) ξ (1 - lam) g00 m w)

theorem DidCsLaw.signal_mean {μ : Measure S} [IsProbabilityMeasure μ] {g00 g01 g10 g11 m : 𝒳 → ℝ} {lam : ℝ}
    (h : DidCsLaw μ y d tt ξ g00 g01 g10 g11 m lam τ) (hd : ∫ w, d w ∂μ ≠ 0) :
    ∫ w, (-d w * changeOfTreated μ d ξ g00 g01 g10 g11 + csSignal y d tt ξ g00 g01 g10 g11 m lam w) ∂μ = 0 := by
  have bd := bdd_of_binary h.binaryD
  have id : Integrable d μ := (memLp_of_bdd (p := 1) h.measD bd).integrable le_rfl
  have M : ProbGuess m := ⟨h.measM, τ, h.pos, h.overlap⟩
  have w1 := h.within ⟨h.measG11, by simp⟩
  have w0 := h.flipT.within ⟨h.measG10, by simp⟩
  have c1 := h.cross_guess ⟨h.measG01, by simp⟩ M (Or.inr fun _ => rfl)
  have c0 := h.flipT.cross_guess ⟨h.measG00, by simp⟩ M (Or.inr fun _ => rfl)
  have idg : ∀ {g : 𝒳 → ℝ}, MemLp (fun w => g (ξ w)) 2 μ → Integrable (fun w => d w * g (ξ w)) μ := fun hg =>
    ((memLp_bdd_mul hg h.measD bd).integrable one_le_two).congr (Eventually.of_forall fun w => mul_comm _ _)
  have et : changeOfTreated μ d ξ g00 g01 g10 g11 * ∫ w, d w ∂μ = (∫ w, d w * g11 (ξ w) ∂μ - ∫ w, d w * g10 (ξ w) ∂μ) -
      (∫ w, d w * g01 (ξ w) ∂μ - ∫ w, d w * g00 (ξ w) ∂μ) := by
    unfold changeOfTreated
    rw [div_mul_cancel₀ _ hd]
    refine (((HasMean.of (idg h.memG11)).sub (HasMean.of (idg h.memG10))).sub
      ((HasMean.of (idg h.memG01)).sub (HasMean.of (idg h.memG00)))).2.symm.trans ?_ |>.symm
    exact integral_congr_ae (Eventually.of_forall fun w => by dsimp only; ring)
  have hh := (((w1.sub w0).sub (c1.sub c0)).sub ((HasMean.of id).smul (changeOfTreated μ d ξ g00 g01 g10 g11))).2
  rw [et, sub_self] at hh
  rw [← hh]
  refine integral_congr_ae (Eventually.of_forall fun w => ?_)
  simp only [csSignal]
  ring

/-- The signal of the treated as a part of a score: the outcome models of the treated only have to converge. -/
theorem csPart [IsProbabilityMeasure P] (hW : Iid P W) {g00 g01 g10 g11 m : 𝒳 → ℝ} {lam : ℝ}
    (law : DidCsLaw (P.map (W 0)) y d tt ξ g00 g01 g10 g11 m lam τ)
    (hn : MemLp (fun w => y w - (d w * tt w * g11 (ξ w) + d w * (1 - tt w) * g10 (ξ w) +
      (1 - d w) * tt w * g01 (ξ w) + (1 - d w) * (1 - tt w) * g00 (ξ w))) 4 (P.map (W 0)))
    (m00 : MemLp (fun w => g00 (ξ w)) 4 (P.map (W 0))) (m01 : MemLp (fun w => g01 (ξ w)) 4 (P.map (W 0)))
    (m10 : MemLp (fun w => g10 (ξ w)) 4 (P.map (W 0))) (m11 : MemLp (fun w => g11 (ξ w)) 4 (P.map (W 0)))
    {h00 h01 h10 h11 : ∀ n, Fin K → (Fin n → S) → 𝒳 → ℝ} (H00 : Honest ξ St c h00) (H01 : Honest ξ St c h01) (H10 : Honest ξ St c h10)
    (H11 : Honest ξ St c h11) (hm : Honest ξ St c mh) (e00 : ∀ k, oPE P (errNorm P W ξ h00 g00 2 k)) (e01 : ∀ k, oPE P (errNorm P W ξ h01 g01 2 k))
    (e10 : ∀ k, oPE P (errNorm P W ξ h10 g10 2 k)) (e11 : ∀ k, oPE P (errNorm P W ξ h11 g11 2 k)) (em : ∀ k, oPE P (errNorm P W ξ mh m 2 k))
    (r00 : ∀ k, oPE P fun n ω => ENNReal.ofReal (Real.sqrt n) * (errNorm P W ξ mh m 2 k n ω * errNorm P W ξ h00 g00 2 k n ω))
    (r01 : ∀ k, oPE P fun n ω => ENNReal.ofReal (Real.sqrt n) * (errNorm P W ξ mh m 2 k n ω * errNorm P W ξ h01 g01 2 k n ω))
    {τ' : ℝ} (h0 : 0 < τ') (h1 : τ' ≤ τ) (hp : Share P W St c p lam τ') (hp1 : ∀ n k t, p n k t ≤ 1 - τ') :
    Part P W St c (fun n k t => csSignal y d tt ξ (h00 n k t) (h01 n k t) (h10 n k t) (h11 n k t) (fun x => trim τ (mh n k t x)) (p n k t))
      (csSignal y d tt ξ g00 g01 g10 g11 m lam) := by
  have hμ := hW.prob 0
  have hτ := law.pos
  obtain ⟨w₀⟩ : Nonempty S := by
    by_contra hne
    rw [not_nonempty_iff] at hne
    have := measure_univ (μ := P.map (W 0))
    rw [Set.univ_eq_empty_iff.2 hne, measure_empty] at this
    exact zero_ne_one this
  have hs := law.share
  have hτ1 : τ ≤ 1 - τ := hs.1.trans hs.2
  have hq := hp.compl hp1 h0.le
  have nT : MemLp (fun w => y w - (d w * (1 - tt w) * g10 (ξ w) + d w * (1 - (1 - tt w)) * g11 (ξ w) +
      (1 - d w) * (1 - tt w) * g00 (ξ w) + (1 - d w) * (1 - (1 - tt w)) * g01 (ξ w))) 4 (P.map (W 0)) :=
    hn.ae_eq (Eventually.of_forall fun w => by ring)
  have nD : MemLp (fun w => y w - ((1 - d w) * tt w * g01 (ξ w) + (1 - d w) * (1 - tt w) * g00 (ξ w) +
      (1 - (1 - d w)) * tt w * g11 (ξ w) + (1 - (1 - d w)) * (1 - tt w) * g10 (ξ w))) 4 (P.map (W 0)) :=
    hn.ae_eq (Eventually.of_forall fun w => by ring)
  have nDT : MemLp (fun w => y w - ((1 - d w) * (1 - tt w) * g00 (ξ w) + (1 - d w) * (1 - (1 - tt w)) * g01 (ξ w) +
      (1 - (1 - d w)) * (1 - tt w) * g10 (ξ w) + (1 - (1 - d w)) * (1 - (1 - tt w)) * g11 (ξ w))) 4 (P.map (W 0)) :=
    hn.ae_eq (Eventually.of_forall fun w => by ring)
  have b0 : ∀ w, 1 - d w = 0 ∨ 1 - d w = 1 := law.flipD.binaryD
  have close0 : ∀ v x, |1 - trim τ v - (1 - m x)| ≤ |v - m x| := fun v x => by
    have e : 1 - trim τ v - (1 - m x) = -(trim τ v - m x) := by ring
    rw [e, abs_neg]
    exact trim_close (law.overlap x)
  have range0 : ∀ v, τ ≤ 1 - trim τ v ∧ 1 - trim τ v ≤ 1 := fun v => by
    have := trim_mem hτ1 v
    constructor <;> linarith [this.1, this.2]
  have hm0 : ∀ x, |1 - m x| ≤ 1 := fun x => by
    have := law.overlap x
    rw [abs_of_nonneg (by linarith)]
    linarith
  have mφ : Measurable fun v => 1 - trim τ v := measurable_const.sub (measurable_trim τ)
  have G11 := groupPart hW (law.groupFour hn m11 h0 h1) law.binaryD H11 e11 hp
  have G10 := groupPart hW (law.flipT.groupFour nT m10 h0 h1) law.binaryD H10 e10 hq
  have G01 := groupPart hW (law.flipD.groupFour nD m01 h0 h1) b0 H01 e01 hp
  have G00 := groupPart hW (law.flipD.flipT.groupFour nDT m00 h0 h1) b0 H00 e00 hq
  have C01 := cellPart hW (law.flipD.cellFour nD m01 h0 h1) h0 ⟨by linarith, by linarith⟩ hτ law.measM mφ close0 range0 hm0 H01 hm e01 em hp r01
  have C00 := cellPart hW (law.flipD.flipT.cellFour nDT m00 h0 h1) h0 ⟨by linarith, by linarith⟩ hτ law.measM mφ close0 range0 hm0 H00 hm
    e00 em hq r00
  refine (((G11.sub hW G10).sub hW (C01.sub hW G01)).sub hW (G00.sub hW C00)).congr (fun n k t w => ?_) fun w => ?_
  · have hp0 : p n k t ≠ 0 := (h0.trans_le (hp.range n k t).1).ne'
    have hq0 : 1 - p n k t ≠ 0 := (h0.trans_le (hq.range n k t).1).ne'
    have hx : ∀ x, 1 - trim τ (mh n k t x) ≠ 0 := fun x => (hτ.trans_le (range0 _).1).ne'
    unfold csSignal
    rw [csTerm_eq _ _ w hp0 (hx _), csTerm_eq _ _ w hq0 (hx _)]
    ring
  · have hp0 : lam ≠ 0 := by linarith
    have hq0 : 1 - lam ≠ 0 := by linarith
    have hx : 1 - m (ξ w) ≠ 0 := by
      have := law.overlap (ξ w)
      linarith
    unfold csSignal
    rw [csTerm_eq _ _ w hp0 hx, csTerm_eq _ _ w hq0 hx]
    ring

end Shares

/-! ## Fits -/

section Cs

variable {k : ∀ n, DidClass n Q} (H : Study E P W r K (fun n => csSpec (k n)) tv y d ξ enc)

open Classical in
/-- The functions fitted by `ml_g` among the observations with `d = v` in period `u` in repetition `q`. -/
noncomputable def csGhat (tt : S → ℝ) (l : String) (v u : ℝ) (q : Fin r) : ∀ n, Fin K → (Fin n → S) → 𝒳 → ℝ :=
  H.learned (fun n => (k n).ml_g) .predict l y (fun w => d w = v ∧ tt w = u) q

/-- The functions fitted by `ml_m` in repetition `q`. -/
noncomputable def csMhat (q : Fin r) : ∀ n, Fin K → (Fin n → S) → 𝒳 → ℝ :=
  H.learned (fun n => (k n).ml_m) .proba "ml_m" d (fun _ => True) q

variable {H}

/-- The values of one repetition. -/
theorem csValues {n : ℕ} (hg : (k n).gClassifier = false) (hvars : (k n).vars = none) (hm : (k n).ml_m.Compliant)
    (hd : ∀ w, d w = 0 ∨ d w = 1) {ω : Ω} (ht : (H.D n ω).tv = some fun i : Fin n => Cell.num (tt (W i ω)))
    (hω : ω ∉ Lacking H (fun _ => True) d n)
    {q : Fin r} {c : CellIn n Q} {o : LinOut n Q} (hc : H.Run n ω q c) (ho : (csSpec (k n)).est c = .ok o) :
    ∃ M : Fin n → ℝ, o.fit = (didCsElems (k n).score (k n).normalize (fun i => y (W i ω)) (fun i => d (W i ω)) (fun i => tt (W i ω))
        ⟨fun i => csGhat H tt "ml_g_d1_t1" 1 1 q n (H.foldOf q n ω i) (sample W n ω) (ξ (W i ω)),
          fun i => csGhat H tt "ml_g_d1_t0" 1 0 q n (H.foldOf q n ω i) (sample W n ω) (ξ (W i ω)),
          fun i => csGhat H tt "ml_g_d0_t1" 0 1 q n (H.foldOf q n ω i) (sample W n ω) (ξ (W i ω)),
          fun i => csGhat H tt "ml_g_d0_t0" 0 0 q n (H.foldOf q n ω i) (sample W n ω) (ξ (W i ω))⟩ M
        (fun i => H.trainMean d q n (H.foldOf q n ω i) (sample W n ω))
        (fun i => H.trainMean tt q n (H.foldOf q n ω i) (sample W n ω))).fit none ∧
      ((k n).score = .observational → M = fun i => trim (k n).trimT (csMhat H q n (H.foldOf q n ω i) (sample W n ω) (ξ (W i ω)))) := by
  classical
  obtain ⟨t', ht', hst, hstm⟩ := C27_didcs hc.cross.ok ho
  have et : t' = fun i : Fin n => tt (W i ω) := by
    unfold CellIn.time at ht'
    rw [hc.data, ht] at ht'
    rw [← Except.ok.inj ht']
    rfl
  have et' : ∀ i, t' i = tt (W i ω) := fun i => congrFun et i
  obtain ⟨p00, hp00, r00⟩ := hst "ml_g_d0_t0" 0 0 (by simp) (hc.noExt _)
  obtain ⟨p01, hp01, r01⟩ := hst "ml_g_d0_t1" 0 1 (by simp) (hc.noExt _)
  obtain ⟨p10, hp10, r10⟩ := hst "ml_g_d1_t0" 1 0 (by simp) (hc.noExt _)
  obtain ⟨p11, hp11, r11⟩ := hst "ml_g_d1_t1" 1 1 (by simp) (hc.noExt _)
  rw [hg] at r00 r01 r10 r11
  have hev : EveryFold c.smpls (fun _ => True) fun i => d (W i ω) := not_not.1 hω _ (List.mem_of_getElem? hc.split)
  have ed : c.d = fun i : Fin n => d (W i ω) := funext hc.d
  have ey : c.y = fun i : Fin n => y (W i ω) := funext hc.y
  have mem : ∀ l ∈ ["ml_g_d0_t0", "ml_g_d0_t1", "ml_g_d1_t0", "ml_g_d1_t1"], l ∈ (csSpec (k n)).learners := fun l hl => by
    unfold csSpec
    cases (k n).score <;> simp only [List.mem_cons, List.not_mem_nil, or_false] at hl ⊢ <;> tauto
  have v00 := fun i => hc.predict (L := fun n => (k n).ml_g) (u := y) (on := fun w => d w = 0 ∧ tt w = 0) (mem _ (by simp)) r00
    (fun i => by rw [hc.d i, et' i]) hc.y i
  have v01 := fun i => hc.predict (L := fun n => (k n).ml_g) (u := y) (on := fun w => d w = 0 ∧ tt w = 1) (mem _ (by simp)) r01
    (fun i => by rw [hc.d i, et' i]) hc.y i
  have v10 := fun i => hc.predict (L := fun n => (k n).ml_g) (u := y) (on := fun w => d w = 1 ∧ tt w = 0) (mem _ (by simp)) r10
    (fun i => by rw [hc.d i, et' i]) hc.y i
  have v11 := fun i => hc.predict (L := fun n => (k n).ml_g) (u := y) (on := fun w => d w = 1 ∧ tt w = 1) (mem _ (by simp)) r11
    (fun i => by rw [hc.d i, et' i]) hc.y i
  obtain ⟨t'', ht'', ho⟩ := bind_ok ho
  obtain rfl : t' = t'' := Except.ok.inj (ht'.symm.trans ht'')
  obtain ⟨g00, -, ho⟩ := bind_ok ho
  obtain ⟨g01, -, ho⟩ := bind_ok ho
  obtain ⟨g10, -, ho⟩ := bind_ok ho
  obtain ⟨g11, -, ho⟩ := bind_ok ho
  obtain ⟨m, -, ho⟩ := bind_ok ho
  obtain rfl := Except.ok.inj ho
  obtain rfl : g00.preds = p00 := Option.some.inj hp00
  obtain rfl : g01.preds = p01 := Option.some.inj hp01
  obtain rfl : g10.preds = p10 := Option.some.inj hp10
  obtain rfl : g11.preds = p11 := Option.some.inj hp11
  have e00 : g00.vec = fun i => csGhat H tt "ml_g_d0_t0" 0 0 q n (H.foldOf q n ω i) (sample W n ω) (ξ (W i ω)) := funext v00
  have e01 : g01.vec = fun i => csGhat H tt "ml_g_d0_t1" 0 1 q n (H.foldOf q n ω i) (sample W n ω) (ξ (W i ω)) := funext v01
  have e10 : g10.vec = fun i => csGhat H tt "ml_g_d1_t0" 1 0 q n (H.foldOf q n ω i) (sample W n ω) (ξ (W i ω)) := funext v10
  have e11 : g11.vec = fun i => csGhat H tt "ml_g_d1_t1" 1 1 q n (H.foldOf q n ω i) (sample W n ω) (ξ (W i ω)) := funext v11
  refine ⟨m.vec, ?_, fun hs => ?_⟩
  · show (didCsElems (k n).score (k n).normalize c.y c.d t' ⟨g11.vec, g10.vec, g01.vec, g00.vec⟩ m.vec (shareOf c.d c.smpls)
      (shareOf t' c.smpls)).fit c.cluster = _
    rw [hc.src.noCluster hvars, ed, ey, et, e00, e01, e10, e11, hc.share d, hc.share tt]
  · obtain ⟨pm, hpm, rm⟩ := hstm hs (hc.noExt _)
    obtain rfl : m.preds = pm := Option.some.inj hpm
    have lm : "ml_m" ∈ (csSpec (k n)).learners := by
      unfold csSpec
      simp [hs]
    exact funext fun i => hc.pred (L := fun n => (k n).ml_m) (m := .proba) (u := d) (on := fun _ => True) lm rm
      (fun _ => Iff.rfl) hc.d (fun f hf _ => ⟨hm, by rw [ed]; exact hev.binary H.folds hc.cross fun i => hd _, by
        obtain ⟨⟨i, hi, -, h1⟩, ⟨j, hj, -, h2⟩⟩ := hev f hf
        exact ⟨⟨i, by simpa using hi, by rw [ed]; exact h1⟩, ⟨j, by simpa using hj, by rw [ed]; exact h2⟩⟩⟩) i

/-- Fits succeed unless a training set lacks a treatment group. -/
theorem cs_fits (hg : ∀ n, (k n).gClassifier = false) (hvars : ∀ n, (k n).vars = none) (hm : ∀ n, (k n).ml_m.Compliant)
    (hbin : ∀ᶠ n in atTop, ∀ ω, (H.D n ω).binOut = false) (hd : ∀ w, d w = 0 ∨ d w = 1)
    (ht : ∀ᶠ n in atTop, ∀ ω, (H.D n ω).tv = some fun i : Fin n => Cell.num (tt (W i ω))) :
    ∀ᶠ n in atTop, ∀ ω, ω ∉ Lacking H (fun _ => True) d n →
      (fit (H.F n ω) (csSpec (k n)) (H.obj n ω) H.args).2 = .ok () := by
  filter_upwards [H.reached, H.smpls, hbin, H.treatment, H.split, ht] with n h1 h2 h3 h4 h5 h6 ω hω
  have ed : nums (H.D n ω).dv = fun i : Fin n => d (W i ω) := funext fun i => by
    show ((H.D n ω).dv i).val = _
    rw [h4 ω i]
    rfl
  refine C63_didcs (hvars n) (hg n) (hm n) (h3 ω) ?_ (h6 ω) (h1 ω) (h2 ω) ?_ (H.valid n _)
  · rw [ed]
    exact binary_of_every (not_not.1 hω) H.reps H.folds (h5 ω).1 (h5 ω).2 fun i => hd _
  · rw [ed]
    exact not_not.1 hω

/-- The share of the second period in the training sets, kept away from zero and one. -/
theorem cs_share [IsProbabilityMeasure P] (hC : H.Complements) (mt : Measurable tt) (ht : ∀ w, tt w = 0 ∨ tt w = 1) {lam τ : ℝ}
    (hl : ∫ w, tt w ∂(P.map (W 0)) = lam) (h0 : 0 < τ) (hs : τ ≤ lam ∧ lam ≤ 1 - τ) (q : Fin r) :
    Share P W H.St (H.scheme q) (fun n j t => trim τ (H.trainMean tt q n j t)) lam τ := by
  have hμ := H.iid.prob 0
  have m2 : MemLp tt 2 (P.map (W 0)) := memLp_of_bdd mt (bdd_of_binary ht)
  have hf := Study.trainMean_factor hC mt m2 q
  have hb := Study.trainMean_bdd hC mt m2 q
  have hτ1 : τ ≤ 1 - τ := hs.1.trans hs.2
  refine ⟨fun n j => (measurable_trim τ).comp (hf.meas n j), fun n j t t' a b => congrArg (trim τ) (hf.uses n j t t' a b), fun n j t => ?_,
    fun j => (hb j).mono (Eventually.of_forall fun n ω => ?_)⟩
  · have := trim_mem hτ1 (H.trainMean tt q n j t)
    exact ⟨this.1, by linarith [this.2]⟩
  · rw [hl, abs_mul, abs_mul]
    exact mul_le_mul_of_nonneg_left (trim_close hs) (abs_nonneg _)

/-- Some share of the second period in a training set is far from its limit. -/
def FarShare (H : Study E P W r K (fun n => csSpec (k n)) tv y d ξ enc) (u : S → ℝ) (v ε : ℝ) (n : ℕ) : Set Ω :=
  ⋃ q : Fin r, ⋃ j : Fin K, {ω | ε ≤ |H.trainMean u q n j (sample W n ω) - v|}

theorem farShare_null [IsProbabilityMeasure P] (hC : H.Complements) {u : S → ℝ} (mu : Measurable u) (h2 : MemLp u 2 (P.map (W 0))) {v ε : ℝ}
    (hv : ∫ w, u w ∂(P.map (W 0)) = v) (hε : 0 < ε) : Tendsto (fun n => P (FarShare H u v ε n)) atTop (𝓝 0) := by
  have h : Tendsto (fun n => ∑ q : Fin r, ∑ j : Fin K, P {ω | ε ≤ |H.trainMean u q n j (sample W n ω) - v|}) atTop (𝓝 0) := by
    have := tendsto_finsetSum (Finset.univ : Finset (Fin r)) fun q _ => tendsto_finsetSum (Finset.univ : Finset (Fin K)) fun j _ =>
      (Study.trainMean_factor hC mu h2 q).close j ε hε
    simpa [hv] using this
  refine tendsto_zero_of_le (Eventually.of_forall fun n => ?_) h
  exact (measure_iUnion_fintype_le _ _).trans (Finset.sum_le_sum fun q _ => measure_iUnion_fintype_le _ _)

theorem trim_of_near {τ v m : ℝ} (hm : τ ≤ m ∧ m ≤ 1 - τ) (h : ¬ τ / 2 ≤ |v - m|) : trim (τ / 2) v = v := by
  have h1 := _root_.abs_lt.1 (not_le.1 h)
  unfold trim
  rw [max_eq_left (by linarith [hm.1, h1.1]), min_eq_right (by linarith [hm.2, h1.2])]

theorem DidCsLaw.mean_period {μ : Measure S} [IsProbabilityMeasure μ] {g00 g01 g10 g11 m : 𝒳 → ℝ} {lam τ : ℝ}
    (h : DidCsLaw μ y d tt ξ g00 g01 g10 g11 m lam τ) : ∫ w, tt w ∂μ = lam := by
  have it : Integrable tt μ := (memLp_of_bdd (p := 1) h.measT (bdd_of_binary h.binaryT)).integrable le_rfl
  have := h.period.integral_eq (h.measD.prodMk h.measX) (it.sub (integrable_const _))
  rw [integral_sub it (integrable_const _)] at this
  simp at this
  linarith

theorem DidCsLaw.mean_treated {μ : Measure S} [IsProbabilityMeasure μ] {g00 g01 g10 g11 m : 𝒳 → ℝ} {lam τ : ℝ}
    (h : DidCsLaw μ y d tt ξ g00 g01 g10 g11 m lam τ) : 0 < ∫ w, d w ∂μ := by
  have hτ := h.pos
  have id : Integrable d μ := (memLp_of_bdd (p := 1) h.measD (bdd_of_binary h.binaryD)).integrable le_rfl
  have im : Integrable (fun w => m (ξ w)) μ := by
    refine (memLp_of_bdd (p := 1) (C := 1) (h.measM.comp h.measX) fun w => ?_).integrable le_rfl
    have := h.overlap (ξ w)
    simp only [Function.comp_apply]
    rw [_root_.abs_le]
    constructor <;> linarith
  have nz : ∫ w, (d w - m (ξ w)) ∂μ = 0 := h.treat.integral_eq h.measX (id.sub im)
  rw [integral_sub id im] at nz
  have h1 : ∫ _ : S, τ ∂μ ≤ ∫ w, m (ξ w) ∂μ := integral_mono (integrable_const _) im fun w => (h.overlap _).1
  simp only [integral_const, probReal_univ, one_smul] at h1
  linarith

variable (H)

/-- What is asked of the learners: their answers are measurable, the errors vanish, and for the untreated the products with the error of
the propensity vanish faster than `1/√n`, in probability, for every repetition. -/
structure CsRates (tt : S → ℝ) (g00 g01 g10 g11 m₀ : 𝒳 → ℝ) : Prop where
  measG : ∀ n, MeasLearner (k n).ml_g .predict enc
  measM : ∀ n, MeasLearner (k n).ml_m .proba enc
  err00 : ∀ q j, oPE P (errNorm P W ξ (csGhat H tt "ml_g_d0_t0" 0 0 q) g00 2 j)
  err01 : ∀ q j, oPE P (errNorm P W ξ (csGhat H tt "ml_g_d0_t1" 0 1 q) g01 2 j)
  err10 : ∀ q j, oPE P (errNorm P W ξ (csGhat H tt "ml_g_d1_t0" 1 0 q) g10 2 j)
  err11 : ∀ q j, oPE P (errNorm P W ξ (csGhat H tt "ml_g_d1_t1" 1 1 q) g11 2 j)
  errM : ∀ q j, oPE P (errNorm P W ξ (csMhat H q) m₀ 2 j)
  rate00 : ∀ q j, oPE P fun n ω => ENNReal.ofReal (Real.sqrt n) * (errNorm P W ξ (csMhat H q) m₀ 2 j n ω *
    errNorm P W ξ (csGhat H tt "ml_g_d0_t0" 0 0 q) g00 2 j n ω)
  rate01 : ∀ q j, oPE P fun n ω => ENNReal.ofReal (Real.sqrt n) * (errNorm P W ξ (csMhat H q) m₀ 2 j n ω *
    errNorm P W ξ (csGhat H tt "ml_g_d0_t1" 0 1 q) g01 2 j n ω)

variable {H}

theorem csGhat_honest (mt : Measurable tt) (hL : ∀ n, MeasLearner (k n).ml_g .predict enc) (l : String) (v u : ℝ) (q : Fin r) :
    Honest ξ H.St (H.scheme q) (csGhat H tt l v u q) := by
  classical
  exact Study.honest (H := H) hL l H.measY ((H.measD (measurableSet_singleton v)).inter (mt (measurableSet_singleton u))) q
    (on := fun w => d w = v ∧ tt w = u)

/-- **C79, DiD with repeated cross-sections, observational score without normalised weights.** -/
theorem C79_did_cs [IsProbabilityMeasure P] {τ : ℝ} (hs : ∀ n, (k n).score = .observational)
    (hn : ∀ n, (k n).normalize = false) (hg : ∀ n, (k n).gClassifier = false) (ht : ∀ n, (k n).trimT = τ)
    (hvars : ∀ n, (k n).vars = none) (hm : ∀ n, (k n).ml_m.Compliant) (hbin : ∀ᶠ n in atTop, ∀ ω, (H.D n ω).binOut = false)
    (htime : ∀ᶠ n in atTop, ∀ ω, (H.D n ω).tv = some fun i : Fin n => Cell.num (tt (W i ω)))
    (hboth : Tendsto (fun n => P (Lacking H (fun _ => True) d n)) atTop (𝓝 0)) (hC : H.Complements)
    {g00 g01 g10 g11 m : 𝒳 → ℝ} {lam : ℝ} (law : DidCsLaw (P.map (W 0)) y d tt ξ g00 g01 g10 g11 m lam τ)
    (h4 : MemLp (fun w => y w - (d w * tt w * g11 (ξ w) + d w * (1 - tt w) * g10 (ξ w) +
      (1 - d w) * tt w * g01 (ξ w) + (1 - d w) * (1 - tt w) * g00 (ξ w))) 4 (P.map (W 0)))
    (m00 : MemLp (fun w => g00 (ξ w)) 4 (P.map (W 0))) (m01 : MemLp (fun w => g01 (ξ w)) 4 (P.map (W 0)))
    (m10 : MemLp (fun w => g10 (ξ w)) 4 (P.map (W 0))) (m11 : MemLp (fun w => g11 (ξ w)) 4 (P.map (W 0)))
    {θ : ℝ} (hθ : θ = changeOfTreated (P.map (W 0)) d ξ g00 g01 g10 g11)
    (hV : ∫ w, (csSignal y d tt ξ g00 g01 g10 g11 m lam w - d w * θ) ^ 2 ∂(P.map (W 0)) ≠ 0) (hL : CsRates H tt g00 g01 g10 g11 m) :
    AsympValid E P W r H.fitted θ (Real.sqrt (∫ w, (csSignal y d tt ξ g00 g01 g10 g11 m lam w - d w * θ) ^ 2 ∂(P.map (W 0))) /
      ∫ w, d w ∂(P.map (W 0))) := by
  classical
  have hμ := H.iid.prob 0
  have hτ := law.pos
  have hp := law.mean_treated.ne'
  have hM : ∀ q, Honest ξ H.St (H.scheme q) (csMhat H q) := fun q => Study.honest (H := H) hL.measM "ml_m" H.measD MeasurableSet.univ q (on := fun _ => True)
  have hG := fun l v u q => csGhat_honest (H := H) law.measT hL.measG l v u q
  have hk := inv_ne_zero hp
  have md : MemLp d 2 (P.map (W 0)) := memLp_of_bdd H.measD (bdd_of_binary law.binaryD)
  have mt : MemLp tt 2 (P.map (W 0)) := memLp_of_bdd law.measT (bdd_of_binary law.binaryT)
  have sh := law.share
  have hsh := fun q => cs_share (H := H) hC law.measT law.binaryT law.mean_period (half_pos hτ) ⟨by linarith, by linarith⟩ q
  have part := fun q => csPart H.iid law h4 m00 m01 m10 m11 (hG "ml_g_d0_t0" 0 0 q) (hG "ml_g_d0_t1" 0 1 q) (hG "ml_g_d1_t0" 1 0 q)
    (hG "ml_g_d1_t1" 1 1 q) (hM q) (hL.err00 q) (hL.err01 q) (hL.err10 q) (hL.err11 q) (hL.errM q) (hL.rate00 q) (hL.rate01 q)
    (half_pos hτ) (half_le_self hτ.le) (hsh q) fun n j t => (trim_mem (by linarith) _).2
  have mom : ∫ w, (-d w * θ + csSignal y d tt ξ g00 g01 g10 g11 m lam w) ∂(P.map (W 0)) = 0 := by
    rw [hθ]
    exact law.signal_mean hp
  have e1 : ∀ w, -d w * θ + csSignal y d tt ξ g00 g01 g10 g11 m lam w = csSignal y d tt ξ g00 g01 g10 g11 m lam w - d w * θ := fun w => by ring
  have hid : ∫ w, -d w ∂(P.map (W 0)) ≠ 0 := by
    rw [integral_neg]
    exact neg_ne_zero.2 hp
  have hsd : Real.sqrt (∫ w, (csSignal y d tt ξ g00 g01 g10 g11 m lam w - d w * θ) ^ 2 ∂(P.map (W 0))) / ∫ w, d w ∂(P.map (W 0)) =
      asySd (P.map (W 0)) (fun w => -d w) (csSignal y d tt ξ g00 g01 g10 g11 m lam) θ := by
    unfold asySd
    simp only [e1]
    rw [integral_neg, abs_neg, abs_of_pos law.mean_treated]
  rw [hsd, ← asySd_scale _ _ _ _ hk]
  refine H.asymp (bad := fun n => Lacking H (fun _ => True) d n ∪ FarShare H tt lam (τ / 2) n)
    (fun q => Factor.regular ((Study.trainMean_factor hC H.measD md q).inv hp) hk
      H.iid H.measSt (Study.balancedScheme q) (Part.fixed H.measD.neg md.neg) (part q) hid mom) ?_
    (fun n => LinearScoreClass.usualVsf (.didCs _)) hvars ?_ ?_ ?_
  · have e : ∀ w, ((∫ w, d w ∂(P.map (W 0)))⁻¹ * -d w * θ + (∫ w, d w ∂(P.map (W 0)))⁻¹ *
        csSignal y d tt ξ g00 g01 g10 g11 m lam w) ^ 2 = (∫ w, d w ∂(P.map (W 0)))⁻¹ ^ 2 *
        (csSignal y d tt ξ g00 g01 g10 g11 m lam w - d w * θ) ^ 2 := fun w => by ring
    have hV' := mul_ne_zero (pow_ne_zero 2 hk) hV
    rw [← integral_const_mul] at hV'
    simpa only [e] using hV'
  · have h := hboth.add (farShare_null (H := H) hC law.measT mt law.mean_period (half_pos hτ))
    rw [add_zero] at h
    exact tendsto_zero_of_le (Eventually.of_forall fun n => measure_union_le _ _) h
  · exact (cs_fits hg hvars hm hbin law.binaryD htime).mono fun n h ω hω => h ω fun h' => hω (Or.inl h')
  · filter_upwards [htime] with n htn ω hω q c o hc ho
    obtain ⟨M, hf, hMv⟩ := csValues (hg n) (hvars n) (hm n) law.binaryD (htn ω) (fun h => hω (Or.inl h)) hc ho
    obtain rfl := hMv (hs n)
    rw [hs n, hn n, ht n] at hf
    refine rep_of_elems rfl hf ?_
    have hfar : ∀ i, trim (τ / 2) (H.trainMean tt q n (H.foldOf q n ω i) (sample W n ω)) =
        H.trainMean tt q n (H.foldOf q n ω i) (sample W n ω) := fun i =>
      trim_of_near sh fun h => hω (Or.inr (Set.mem_iUnion.2 ⟨q, Set.mem_iUnion.2 ⟨_, h⟩⟩))
    unfold didCsElems
    simp only [PsiElems.mk.injEq]
    refine ⟨funext fun i => ?_, funext fun i => ?_⟩
    · show -1 * (d (W i ω) / H.trainMean d q n (H.foldOf q n ω i) (sample W n ω)) =
        (H.trainMean d q n (H.foldOf q n ω i) (sample W n ω))⁻¹ * -d (W i ω)
      ring
    · show _ = (H.trainMean d q n (H.foldOf q n ω i) (sample W n ω))⁻¹ * csSignal y d tt ξ
          (csGhat H tt "ml_g_d0_t0" 0 0 q n (H.foldOf q n ω i) (sample W n ω)) (csGhat H tt "ml_g_d0_t1" 0 1 q n (H.foldOf q n ω i) (sample W n ω))
          (csGhat H tt "ml_g_d1_t0" 1 0 q n (H.foldOf q n ω i) (sample W n ω)) (csGhat H tt "ml_g_d1_t1" 1 1 q n (H.foldOf q n ω i) (sample W n ω))
          (fun x => trim τ (csMhat H q n (H.foldOf q n ω i) (sample W n ω) x))
          (trim (τ / 2) (H.trainMean tt q n (H.foldOf q n ω i) (sample W n ω))) (W i ω)
      rw [hfar i]
      simp only [csSignal, csTerm, didWa, csResid, cells]
      generalize trim τ (csMhat H q n (H.foldOf q n ω i) (sample W n ω) (ξ (W i ω))) = M
      generalize H.trainMean d q n (H.foldOf q n ω i) (sample W n ω) = D
      generalize H.trainMean tt q n (H.foldOf q n ω i) (sample W n ω) = T
      simp only [div_eq_mul_inv, mul_inv]
      ring

/-! ## Randomised treatments -/

/-- The signal of an observation if the treatment is randomised. -/
noncomputable def csRandomSignal (y d tt : S → ℝ) (ξ : S → 𝒳) (g00 g01 g10 g11 : 𝒳 → ℝ) (p lam : ℝ) (w : S) : ℝ :=
  (armVal y (fun w => d w * tt w) ξ g11 (fun _ => p * lam) w - armVal y (fun w => d w * (1 - tt w)) ξ g10 (fun _ => p * (1 - lam)) w) -
    (armVal y (fun w => (1 - d w) * tt w) ξ g01 (fun _ => (1 - p) * lam) w -
      armVal y (fun w => (1 - d w) * (1 - tt w)) ξ g00 (fun _ => (1 - p) * (1 - lam)) w)

variable (H)

/-- What is asked of the learners with the score for randomised treatments: their answers are measurable and the errors vanish in
probability, for every repetition, at any speed. -/
structure CsErrors (tt : S → ℝ) (g00 g01 g10 g11 : 𝒳 → ℝ) : Prop where
  measG : ∀ n, MeasLearner (k n).ml_g .predict enc
  err00 : ∀ q j, oPE P (errNorm P W ξ (csGhat H tt "ml_g_d0_t0" 0 0 q) g00 2 j)
  err01 : ∀ q j, oPE P (errNorm P W ξ (csGhat H tt "ml_g_d0_t1" 0 1 q) g01 2 j)
  err10 : ∀ q j, oPE P (errNorm P W ξ (csGhat H tt "ml_g_d1_t0" 1 0 q) g10 2 j)
  err11 : ∀ q j, oPE P (errNorm P W ξ (csGhat H tt "ml_g_d1_t1" 1 1 q) g11 2 j)

variable {H}

/-- **C79, DiD with repeated cross-sections, score for randomised treatments without normalised weights.** -/
theorem C79_did_cs_experimental [IsProbabilityMeasure P] {τ : ℝ} (hs : ∀ n, (k n).score = .experimental)
    (hn : ∀ n, (k n).normalize = false) (hg : ∀ n, (k n).gClassifier = false)
    (hvars : ∀ n, (k n).vars = none) (hm : ∀ n, (k n).ml_m.Compliant) (hbin : ∀ᶠ n in atTop, ∀ ω, (H.D n ω).binOut = false)
    (htime : ∀ᶠ n in atTop, ∀ ω, (H.D n ω).tv = some fun i : Fin n => Cell.num (tt (W i ω)))
    (hboth : Tendsto (fun n => P (Lacking H (fun _ => True) d n)) atTop (𝓝 0)) (hC : H.Complements)
    {g00 g01 g10 g11 : 𝒳 → ℝ} {p lam : ℝ} (law : DidCsLaw (P.map (W 0)) y d tt ξ g00 g01 g10 g11 (fun _ => p) lam τ)
    (h4 : MemLp (fun w => y w - (d w * tt w * g11 (ξ w) + d w * (1 - tt w) * g10 (ξ w) +
      (1 - d w) * tt w * g01 (ξ w) + (1 - d w) * (1 - tt w) * g00 (ξ w))) 4 (P.map (W 0)))
    (m00 : MemLp (fun w => g00 (ξ w)) 4 (P.map (W 0))) (m01 : MemLp (fun w => g01 (ξ w)) 4 (P.map (W 0)))
    (m10 : MemLp (fun w => g10 (ξ w)) 4 (P.map (W 0))) (m11 : MemLp (fun w => g11 (ξ w)) 4 (P.map (W 0)))
    {θ : ℝ} (hθ : θ = ∫ w, ((g11 (ξ w) - g10 (ξ w)) - (g01 (ξ w) - g00 (ξ w))) ∂(P.map (W 0)))
    (hV : ∫ w, (csRandomSignal y d tt ξ g00 g01 g10 g11 p lam w - θ) ^ 2 ∂(P.map (W 0)) ≠ 0) (hL : CsErrors H tt g00 g01 g10 g11) :
    AsympValid E P W r H.fitted θ (Real.sqrt (∫ w, (csRandomSignal y d tt ξ g00 g01 g10 g11 p lam w - θ) ^ 2 ∂(P.map (W 0)))) := by
  classical
  have hμ := H.iid.prob 0
  have hτ := law.pos
  have hG := fun l v u q => csGhat_honest (H := H) law.measT hL.measG l v u q
  have md : MemLp d 2 (P.map (W 0)) := memLp_of_bdd H.measD (bdd_of_binary law.binaryD)
  have mt : MemLp tt 2 (P.map (W 0)) := memLp_of_bdd law.measT (bdd_of_binary law.binaryT)
  have sh := law.share
  have sp : τ ≤ p ∧ p ≤ 1 - τ := by
    obtain ⟨w₀⟩ : Nonempty S := by
      by_contra hne
      rw [not_nonempty_iff] at hne
      have := measure_univ (μ := P.map (W 0))
      rw [Set.univ_eq_empty_iff.2 hne, measure_empty] at this
      exact zero_ne_one this
    exact law.overlap (ξ w₀)
  have hmean : ∫ w, d w ∂(P.map (W 0)) = p := by
    have id := md.integrable one_le_two
    have := law.treat.integral_eq law.measX (id.sub (integrable_const _))
    rw [integral_sub id (integrable_const _)] at this
    simp at this
    linarith
  have h2 := half_pos hτ
  have hsT := fun q => cs_share (H := H) hC law.measT law.binaryT law.mean_period h2 ⟨by linarith, by linarith⟩ q
  have hsD := fun q => cs_share (H := H) hC law.measD law.binaryD hmean h2 ⟨by linarith, by linarith⟩ q
  have hsT' := fun q => (hsT q).compl (fun n j t => (trim_mem (by linarith) _).2) h2.le
  have hsD' := fun q => (hsD q).compl (fun n j t => (trim_mem (by linarith) _).2) h2.le
  have nT : MemLp (fun w => y w - (d w * (1 - tt w) * g10 (ξ w) + d w * (1 - (1 - tt w)) * g11 (ξ w) +
      (1 - d w) * (1 - tt w) * g00 (ξ w) + (1 - d w) * (1 - (1 - tt w)) * g01 (ξ w))) 4 (P.map (W 0)) :=
    h4.ae_eq (Eventually.of_forall fun w => by ring)
  have nD : MemLp (fun w => y w - ((1 - d w) * tt w * g01 (ξ w) + (1 - d w) * (1 - tt w) * g00 (ξ w) +
      (1 - (1 - d w)) * tt w * g11 (ξ w) + (1 - (1 - d w)) * (1 - tt w) * g10 (ξ w))) 4 (P.map (W 0)) :=
    h4.ae_eq (Eventually.of_forall fun w => by ring)
  have nDT : MemLp (fun w => y w - ((1 - d w) * (1 - tt w) * g00 (ξ w) + (1 - d w) * (1 - (1 - tt w)) * g01 (ξ w) +
      (1 - (1 - d w)) * (1 - tt w) * g10 (ξ w) + (1 - (1 - d w)) * (1 - (1 - tt w)) * g11 (ξ w))) 4 (P.map (W 0)) :=
    h4.ae_eq (Eventually.of_forall fun w => by ring)
  have q0 : 0 < τ / 2 * (τ / 2) := mul_pos h2 h2
  have q1 : τ / 2 * (τ / 2) ≤ τ * (τ / 2) := by nlinarith
  have A11 := (law.cellFour h4 m11 h2 (half_le_self hτ.le)).weaken q0 q1
  have A10 := (law.flipT.cellFour nT m10 h2 (half_le_self hτ.le)).weaken q0 q1
  have A01 := (law.flipD.cellFour nD m01 h2 (half_le_self hτ.le)).weaken q0 q1
  have A00 := (law.flipD.flipT.cellFour nDT m00 h2 (half_le_self hτ.le)).weaken q0 q1
  have p11 := fun q => sharePart H.iid A11 (hG "ml_g_d1_t1" 1 1 q) (hL.err11 q) ((hsD q).mul (hsT q) h2.le h2.le)
  have p10 := fun q => sharePart H.iid A10 (hG "ml_g_d1_t0" 1 0 q) (hL.err10 q) ((hsD q).mul (hsT' q) h2.le h2.le)
  have p01 := fun q => sharePart H.iid A01 (hG "ml_g_d0_t1" 0 1 q) (hL.err01 q) ((hsD' q).mul (hsT q) h2.le h2.le)
  have p00 := fun q => sharePart H.iid A00 (hG "ml_g_d0_t0" 0 0 q) (hL.err00 q) ((hsD' q).mul (hsT' q) h2.le h2.le)
  have b11 := A11.mono (q := 2) (by norm_num)
  have b10 := A10.mono (q := 2) (by norm_num)
  have b01 := A01.mono (q := 2) (by norm_num)
  have b00 := A00.mono (q := 2) (by norm_num)
  have part : ∀ q, Part P W H.St (H.scheme q) (fun n j t => csRandomSignal y d tt ξ
      (csGhat H tt "ml_g_d0_t0" 0 0 q n j t) (csGhat H tt "ml_g_d0_t1" 0 1 q n j t) (csGhat H tt "ml_g_d1_t0" 1 0 q n j t)
      (csGhat H tt "ml_g_d1_t1" 1 1 q n j t) (trim (τ / 2) (H.trainMean d q n j t)) (trim (τ / 2) (H.trainMean tt q n j t)))
      (csRandomSignal y d tt ξ g00 g01 g10 g11 p lam) := fun q =>
    (((p11 q).sub H.iid (p10 q)).sub H.iid ((p01 q).sub H.iid (p00 q))).congr (fun _ _ _ _ => rfl) fun _ => rfl
  have hmom : ∫ w, csRandomSignal y d tt ξ g00 g01 g10 g11 p lam w ∂(P.map (W 0)) = θ := by
    have k := (((HasMean.of (b11.mem.integrable one_le_two)).sub (HasMean.of (b10.mem.integrable one_le_two))).sub
      ((HasMean.of (b01.mem.integrable one_le_two)).sub (HasMean.of (b00.mem.integrable one_le_two)))).2
    have k' := (((HasMean.of (b11.memG.integrable one_le_two)).sub (HasMean.of (b10.memG.integrable one_le_two))).sub
      ((HasMean.of (b01.memG.integrable one_le_two)).sub (HasMean.of (b00.memG.integrable one_le_two)))).2
    rw [b11.integral_eq, b10.integral_eq, b01.integral_eq, b00.integral_eq] at k
    rw [hθ]
    exact k.trans k'.symm
  have e1 : ∀ w, -1 * θ + csRandomSignal y d tt ξ g00 g01 g10 g11 p lam w = csRandomSignal y d tt ξ g00 g01 g10 g11 p lam w - θ := fun w => by ring
  have hsd : Real.sqrt (∫ w, (csRandomSignal y d tt ξ g00 g01 g10 g11 p lam w - θ) ^ 2 ∂(P.map (W 0))) =
      asySd (P.map (W 0)) (fun _ => -1) (csRandomSignal y d tt ξ g00 g01 g10 g11 p lam) θ := by
    unfold asySd
    simp only [e1]
    simp
  rw [hsd]
  refine H.asymp (bad := fun n => Lacking H (fun _ => True) d n ∪ (FarShare H tt lam (τ / 2) n ∪ FarShare H d p (τ / 2) n))
    (fun q => Part.regular H.iid H.measSt (Study.balancedScheme q) (Part.fixed measurable_const (memLp_const _)) (part q) (by simp) ?_) ?_
    (fun n => LinearScoreClass.usualVsf (.didCs _)) hvars ?_ ?_ ?_
  · rw [integral_add (integrable_const _) ((part q).mem0.integrable one_le_two), hmom]
    simp
  · simpa only [e1] using hV
  · have h := hboth.add ((farShare_null (H := H) hC law.measT mt law.mean_period h2).add (farShare_null (H := H) hC law.measD md hmean h2))
    rw [add_zero, add_zero] at h
    exact tendsto_zero_of_le (Eventually.of_forall fun n => (measure_union_le _ _).trans (add_le_add le_rfl (measure_union_le _ _))) h
  · exact (cs_fits hg hvars hm hbin law.binaryD htime).mono fun n h ω hω => h ω fun h' => hω (Or.inl h')
  · filter_upwards [htime] with n htn ω hω q c o hc ho
    obtain ⟨M, hf, -⟩ := csValues (hg n) (hvars n) (hm n) law.binaryD (htn ω) (fun h => hω (Or.inl h)) hc ho
    rw [hs n, hn n] at hf
    refine rep_of_elems rfl hf ?_
    have farT : ∀ i, trim (τ / 2) (H.trainMean tt q n (H.foldOf q n ω i) (sample W n ω)) =
        H.trainMean tt q n (H.foldOf q n ω i) (sample W n ω) := fun i =>
      trim_of_near sh fun h => hω (Or.inr (Or.inl (Set.mem_iUnion.2 ⟨q, Set.mem_iUnion.2 ⟨_, h⟩⟩)))
    have farD : ∀ i, trim (τ / 2) (H.trainMean d q n (H.foldOf q n ω i) (sample W n ω)) =
        H.trainMean d q n (H.foldOf q n ω i) (sample W n ω) := fun i =>
      trim_of_near sp fun h => hω (Or.inr (Or.inr (Set.mem_iUnion.2 ⟨q, Set.mem_iUnion.2 ⟨_, h⟩⟩)))
    unfold didCsElems
    simp only [PsiElems.mk.injEq]
    refine ⟨funext fun i => ?_, funext fun i => ?_⟩
    · show -1 * (1 : ℝ) = -1
      ring
    · show _ = csRandomSignal y d tt ξ
          (csGhat H tt "ml_g_d0_t0" 0 0 q n (H.foldOf q n ω i) (sample W n ω)) (csGhat H tt "ml_g_d0_t1" 0 1 q n (H.foldOf q n ω i) (sample W n ω))
          (csGhat H tt "ml_g_d1_t0" 1 0 q n (H.foldOf q n ω i) (sample W n ω)) (csGhat H tt "ml_g_d1_t1" 1 1 q n (H.foldOf q n ω i) (sample W n ω))
          (trim (τ / 2) (H.trainMean d q n (H.foldOf q n ω i) (sample W n ω)))
          (trim (τ / 2) (H.trainMean tt q n (H.foldOf q n ω i) (sample W n ω))) (W i ω)
      rw [farT i, farD i]
      simp only [csRandomSignal, armVal, didWa, csResid, cells]
      ring

end Cs

end DML
