import Verif.OrthogonalityProps

/-!
# Orthogonality under sample selection and with repeated cross-sections

C78, continued: SSM with outcomes missing at random and DiD with repeated cross-sections.
-/

namespace DML

open MeasureTheory Filter
open scoped ENNReal Topology

variable {S : Type*} [mS : MeasurableSpace S] {μ : Measure S} {𝒳 : Type*} [MeasurableSpace 𝒳]

theorem MeanZeroGiven.add {ξ : S → 𝒳} {u v : S → ℝ} (hu : MeanZeroGiven μ ξ u) (hv : MeanZeroGiven μ ξ v) (iu : Integrable u μ)
    (iv : Integrable v μ) : MeanZeroGiven μ ξ fun w => u w + v w := by
  refine (condExp_add iu iv _).trans ?_
  filter_upwards [hu, hv] with w h1 h2
  rw [Pi.add_apply, h1, h2]
  simp

theorem MeanZeroGiven.of_eq {ξ : S → 𝒳} {u v : S → ℝ} (hu : MeanZeroGiven μ ξ u) (e : ∀ w, v w = u w) : MeanZeroGiven μ ξ v := by
  have : v = u := funext e
  rw [this]
  exact hu

/-! ## Sample selection -/

/-- Outcomes `y` are observed if `s = 1`; the treatment `d` is binary.  `g_j(ξ)` is the mean of `y` given `d = j` and the covariates
among the selected; `π_j(ξ)` is the probability of selection given `d = j` and the covariates, `m(ξ)` that of treatment. -/
structure SsmLaw (μ : Measure S) (y d s : S → ℝ) (ξ : S → 𝒳) (g₀ g₁ π₀ π₁ m : 𝒳 → ℝ) (τ : ℝ) : Prop where
  measY : Measurable y
  measD : Measurable d
  measS : Measurable s
  measX : Measurable ξ
  measG0 : Measurable g₀
  measG1 : Measurable g₁
  measP0 : Measurable π₀
  measP1 : Measurable π₁
  measM : Measurable m
  binaryD : ∀ w, d w = 0 ∨ d w = 1
  binaryS : ∀ w, s w = 0 ∨ s w = 1
  noise : MeanZeroGiven μ (fun w => (d w, ξ w)) fun w => s w * (y w - (d w * g₁ (ξ w) + (1 - d w) * g₀ (ξ w)))
  select : MeanZeroGiven μ (fun w => (d w, ξ w)) fun w => s w - (d w * π₁ (ξ w) + (1 - d w) * π₀ (ξ w))
  treat : MeanZeroGiven μ ξ fun w => d w - m (ξ w)
  pos : 0 < τ
  overlap : ∀ x, τ ≤ m x ∧ m x ≤ 1 - τ
  chance0 : ∀ x, τ ≤ π₀ x ∧ π₀ x ≤ 1
  chance1 : ∀ x, τ ≤ π₁ x ∧ π₁ x ≤ 1
  memNoise : MemLp (fun w => s w * (y w - (d w * g₁ (ξ w) + (1 - d w) * g₀ (ξ w)))) 2 μ
  memG0 : MemLp (fun w => g₀ (ξ w)) 2 μ
  memG1 : MemLp (fun w => g₁ (ξ w)) 2 μ

section Ssm

variable [IsProbabilityMeasure μ] {y d s : S → ℝ} {ξ : S → 𝒳} {g₀ g₁ π₀ π₁ m : 𝒳 → ℝ} {τ : ℝ}

omit mS in
theorem bdd_of_binary {v : S → ℝ} (h : ∀ w, v w = 0 ∨ v w = 1) (w : S) : |v w| ≤ 1 := by
  rcases h w with e | e <;> simp [e]

/-- The two treatment levels play the same role. -/
theorem SsmLaw.flip (h : SsmLaw μ y d s ξ g₀ g₁ π₀ π₁ m τ) :
    SsmLaw μ y (fun w => 1 - d w) s ξ g₁ g₀ π₁ π₀ (fun x => 1 - m x) τ := by
  have e : ∀ a b c : ℝ, (1 - a) * b + (1 - (1 - a)) * c = a * c + (1 - a) * b := fun a b c => by ring
  refine ⟨h.measY, measurable_const.sub h.measD, h.measS, h.measX, h.measG1, h.measG0, h.measP1, h.measP0,
    measurable_const.sub h.measM, fun w => ?_, h.binaryS, ?_, ?_, ?_, h.pos, fun x => ?_, h.chance1, h.chance0, ?_, h.memG1, h.memG0⟩
  · rcases h.binaryD w with e | e <;> simp [e]
  · simp only [e]
    exact h.noise.mono (h.measD.prodMk h.measX) (φ := fun q => (1 - q.1, q.2))
      ((measurable_const.sub measurable_fst).prodMk measurable_snd) fun _ => rfl
  · simp only [e]
    exact h.select.mono (h.measD.prodMk h.measX) (φ := fun q => (1 - q.1, q.2))
      ((measurable_const.sub measurable_fst).prodMk measurable_snd) fun _ => rfl
  · exact h.treat.neg.of_eq fun w => by ring
  · have := h.overlap x
    constructor <;> linarith
  · simp only [e]
    exact h.memNoise

/-- The treated whose outcomes are observed. -/
theorem SsmLaw.arm (h : SsmLaw μ y d s ξ g₀ g₁ π₀ π₁ m τ) :
    ArmLaw μ y (fun w => d w * s w) ξ g₁ (fun x => m x * π₁ x) (τ * τ) 2 := by
  have hτ := h.pos
  have bd := bdd_of_binary h.binaryD
  have e1 : ∀ w, d w * s w * (y w - g₁ (ξ w)) = d w * (s w * (y w - (d w * g₁ (ξ w) + (1 - d w) * g₀ (ξ w)))) := fun w => by
    rcases h.binaryD w with e | e <;> rw [e] <;> ring
  have m1 : MemLp (fun w => d w * (s w * (y w - (d w * g₁ (ξ w) + (1 - d w) * g₀ (ξ w))))) 2 μ :=
    (memLp_bdd_mul h.memNoise h.measD bd).ae_eq (Eventually.of_forall fun w => mul_comm _ _)
  have b1 : ∀ x, |π₁ x| ≤ 1 := fun x => by
    have := h.chance1 x
    rw [abs_of_nonneg (by linarith)]
    exact this.2
  have b0 : ∀ x, |π₀ x| ≤ 1 := fun x => by
    have := h.chance0 x
    rw [abs_of_nonneg (by linarith)]
    exact this.2
  have bs : ∀ w, |s w - (d w * π₁ (ξ w) + (1 - d w) * π₀ (ξ w))| ≤ 2 := fun w => by
    have h1 := bdd_of_binary h.binaryS w
    have h2 : |d w * π₁ (ξ w) + (1 - d w) * π₀ (ξ w)| ≤ 1 := by
      rcases h.binaryD w with e | e
      · simpa [e] using b0 (ξ w)
      · simpa [e] using b1 (ξ w)
    exact (abs_sub _ _).trans (by linarith)
  have ms : Measurable fun w => s w - (d w * π₁ (ξ w) + (1 - d w) * π₀ (ξ w)) :=
    h.measS.sub ((h.measD.mul (h.measP1.comp h.measX)).add ((measurable_const.sub h.measD).mul (h.measP0.comp h.measX)))
  have is : Integrable (fun w => s w - (d w * π₁ (ξ w) + (1 - d w) * π₀ (ξ w))) μ := (memLp_of_bdd (p := 1) ms bs).integrable le_rfl
  have ids : Integrable (fun w => d w * (s w - (d w * π₁ (ξ w) + (1 - d w) * π₀ (ξ w)))) μ := by
    refine ((memLp_bdd_mul (memLp_of_bdd (p := 1) ms bs) h.measD bd).integrable le_rfl).congr (Eventually.of_forall fun w => mul_comm _ _)
  have bm : ∀ w, |d w - m (ξ w)| ≤ 2 := fun w => by
    have := h.overlap (ξ w)
    have h2 : |m (ξ w)| ≤ 1 := by
      rw [abs_of_nonneg (by linarith)]
      linarith
    exact (abs_sub _ _).trans (by linarith [bd w])
  have mm : Measurable fun w => d w - m (ξ w) := h.measD.sub (h.measM.comp h.measX)
  have im : Integrable (fun w => d w - m (ξ w)) μ := (memLp_of_bdd (p := 1) mm bm).integrable le_rfl
  have ipm : Integrable (fun w => π₁ (ξ w) * (d w - m (ξ w))) μ := by
    refine ((memLp_bdd_mul (memLp_of_bdd (p := 1) mm bm) (h.measP1.comp h.measX) fun w => b1 (ξ w)).integrable le_rfl).congr
      (Eventually.of_forall fun w => mul_comm _ _)
  refine ⟨h.measY, h.measD.mul h.measS, h.measX, h.measG1, h.measM.mul h.measP1, fun w => ?_, ?_, ?_, by positivity, fun x => ?_, ?_, h.memG1⟩
  · rcases h.binaryD w with e | e <;> rcases h.binaryS w with e' | e' <;> simp [e, e']
  · refine MeanZeroGiven.of_eq ?_ e1
    exact (h.noise.mul_left (h.memNoise.integrable one_le_two) (f := fun q => q.1) measurable_fst (m1.integrable one_le_two)).mono
      (h.measD.prodMk h.measX) measurable_snd fun _ => rfl
  · have n1 : MeanZeroGiven μ ξ fun w => d w * (s w - (d w * π₁ (ξ w) + (1 - d w) * π₀ (ξ w))) :=
      (h.select.mul_left is (f := fun q => q.1) measurable_fst ids).mono (h.measD.prodMk h.measX) measurable_snd fun _ => rfl
    have n2 : MeanZeroGiven μ ξ fun w => π₁ (ξ w) * (d w - m (ξ w)) := h.treat.mul_left im h.measP1 ipm
    refine (n1.add n2 ids ipm).of_eq fun w => ?_
    rcases h.binaryD w with e | e <;> rw [e] <;> ring
  · have h1 := h.overlap x
    have h2 := h.chance1 x
    constructor
    · exact mul_le_mul h1.1 h2.1 hτ.le (hτ.le.trans h1.1)
    · calc m x * π₁ x ≤ 1 * 1 := mul_le_mul (by linarith) h2.2 (hτ.le.trans h2.1) zero_le_one
        _ = 1 := one_mul 1
  · exact m1.ae_eq (Eventually.of_forall fun w => (e1 w).symm)

omit mS [MeasurableSpace 𝒳] in
theorem ssm_score (θ : ℝ) (g0' g1' p0' p1' m' : 𝒳 → ℝ) (w : S) (hd : d w = 0 ∨ d w = 1) :
    (ssmElems false (obs (d w)) (obs (1 - d w)) (obs (g1' (ξ w))) (obs (g0' (ξ w)))
      (obs (d w * p1' (ξ w) + (1 - d w) * p0' (ξ w))) (obs (m' (ξ w))) (obs (s w)) (obs (y w))).score θ 0 =
      armVal y (fun w => d w * s w) ξ g1' (fun x => m' x * p1' x) w -
        armVal y (fun w => (1 - d w) * s w) ξ g0' (fun x => (1 - m' x) * p0' x) w - θ := by
  simp only [PsiElems.score, ssmElems, obs, Bool.false_eq_true, if_false, armVal]
  rcases hd with e | e
  · rw [e]
    simp only [zero_mul, sub_zero, one_mul, zero_add, zero_div]
    ring
  · rw [e]
    simp only [sub_self, zero_mul, one_mul, add_zero, zero_div]
    ring

/-- A product of two probabilities along a path. -/
theorem product_path {m p k q : 𝒳 → ℝ} (hm : ∀ x, |m x| ≤ 1) (hp : ∀ x, |p x| ≤ 1) (dk : BoundedDirection k) (dq : BoundedDirection q) :
    ∃ B, ∀ (t : ℝ) (x : 𝒳), |t| ≤ 1 → |(m x + t * k x) * (p x + t * q x) - m x * p x| ≤ B * |t| := by
  obtain ⟨A, hA⟩ := dk.bdd
  obtain ⟨C, hC⟩ := dq.bdd
  refine ⟨A + C + A * C, fun t x ht => ?_⟩
  have hA0 : 0 ≤ A := (abs_nonneg _).trans (hA x)
  have hC0 : 0 ≤ C := (abs_nonneg _).trans (hC x)
  have e : (m x + t * k x) * (p x + t * q x) - m x * p x = t * (k x * p x + m x * q x + t * (k x * q x)) := by ring
  rw [e, abs_mul, mul_comm]
  refine mul_le_mul_of_nonneg_right ?_ (abs_nonneg _)
  refine (abs_add_le _ _).trans (add_le_add ((abs_add_le _ _).trans (add_le_add ?_ ?_)) ?_)
  · rw [abs_mul]
    calc |k x| * |p x| ≤ A * 1 := mul_le_mul (hA x) (hp x) (abs_nonneg _) hA0
      _ = A := mul_one A
  · rw [abs_mul]
    calc |m x| * |q x| ≤ 1 * C := mul_le_mul (hm x) (hC x) (abs_nonneg _) zero_le_one
      _ = C := one_mul C
  · rw [abs_mul, abs_mul]
    calc |t| * (|k x| * |q x|) ≤ 1 * (A * C) :=
          mul_le_mul ht (mul_le_mul (hA x) (hC x) (abs_nonneg _) hA0) (by positivity) zero_le_one
      _ = A * C := one_mul _

/-- Guessed probabilities of selection, bounded away from zero. -/
structure ChanceGuess (p' : 𝒳 → ℝ) : Prop where
  meas : Measurable p'
  bdd : ∃ σ, 0 < σ ∧ ∀ x, σ ≤ p' x ∧ p' x ≤ 1

/-- One arm with guesses of both probabilities. -/
theorem ArmLaw.guess_product {u : S → ℝ} {g q : 𝒳 → ℝ} {σ : ℝ} (h : ArmLaw μ y u ξ g q σ 2) {g' m' p' : 𝒳 → ℝ} (gg : Guess μ ξ g g')
    (gm : ProbGuess m') (gp : ChanceGuess p') (hr : (∀ x, g' x = g x) ∨ ∀ x, m' x * p' x = q x) :
    HasMean μ (armVal y u ξ g' fun x => m' x * p' x) (∫ w, g (ξ w) ∂μ) := by
  obtain ⟨a, ha, hm⟩ := gm.bdd
  obtain ⟨b, hb, hp⟩ := gp.bdd
  have lower : ∀ x, a * b ≤ m' x * p' x := fun x => mul_le_mul (hm x).1 (hp x).1 hb.le (ha.le.trans (hm x).1)
  refine h.robust gg.meas (gm.meas.mul gp.meas) gg.mem (mul_pos ha hb) lower (B := 1) (fun x => ?_) hr
  have h1 := h.overlap x
  have h2 := h.pos
  have h3 : m' x * p' x ≤ 1 := by
    calc m' x * p' x ≤ 1 * 1 := mul_le_mul (by linarith [(hm x).2]) (hp x).2 (hb.le.trans (hp x).1) zero_le_one
      _ = 1 := one_mul 1
  have h4 := lower x
  have h5 := mul_pos ha hb
  rw [_root_.abs_le]
  constructor <;> linarith

/-- SSM, outcomes missing at random: the score takes the probability of selection at the treatment of the observation.  The
parameter is the mean of `g₁(ξ) - g₀(ξ)`; doubly robust: the outcome models, or all probabilities, may be wrong. -/
theorem C78_ssm (h : SsmLaw μ y d s ξ g₀ g₁ π₀ π₁ m τ) {ate : ℝ} (hate : ate = ∫ w, (g₁ (ξ w) - g₀ (ξ w)) ∂μ) :
    Identifies μ (fun w => ssmElems false (obs (d w)) (obs (1 - d w)) (obs (g₁ (ξ w))) (obs (g₀ (ξ w)))
      (obs (d w * π₁ (ξ w) + (1 - d w) * π₀ (ξ w))) (obs (m (ξ w))) (obs (s w)) (obs (y w))) ate ∧
    (∀ h0 h1 q0 q1 k : 𝒳 → ℝ, Direction μ ξ h0 → Direction μ ξ h1 → BoundedDirection q0 → BoundedDirection q1 → BoundedDirection k →
      OrthogonalAlong μ (fun t w => ssmElems false (obs (d w)) (obs (1 - d w)) (obs (g₁ (ξ w) + t * h1 (ξ w))) (obs (g₀ (ξ w) + t * h0 (ξ w)))
        (obs (d w * (π₁ (ξ w) + t * q1 (ξ w)) + (1 - d w) * (π₀ (ξ w) + t * q0 (ξ w)))) (obs (m (ξ w) + t * k (ξ w))) (obs (s w))
        (obs (y w))) ate) ∧
    ∀ g0' g1' p0' p1' m' : 𝒳 → ℝ, Guess μ ξ g₀ g0' → Guess μ ξ g₁ g1' → ChanceGuess p0' → ChanceGuess p1' → ProbGuess m' →
      (((∀ x, g0' x = g₀ x) ∧ ∀ x, g1' x = g₁ x) ∨ ((∀ x, p0' x = π₀ x) ∧ (∀ x, p1' x = π₁ x) ∧ ∀ x, m' x = m x)) →
      expScore μ (fun w => ssmElems false (obs (d w)) (obs (1 - d w)) (obs (g1' (ξ w))) (obs (g0' (ξ w)))
        (obs (d w * p1' (ξ w) + (1 - d w) * p0' (ξ w))) (obs (m' (ξ w))) (obs (s w)) (obs (y w))) ate = 0 := by
  have a1 := h.arm
  have a0 := h.flip.arm
  have hτ := h.pos
  have sp : ate = ∫ w, g₁ (ξ w) ∂μ - ∫ w, g₀ (ξ w) ∂μ := by
    rw [hate, integral_sub (h.memG1.integrable one_le_two) (h.memG0.integrable one_le_two)]
  have rob : ∀ g0' g1' p0' p1' m' : 𝒳 → ℝ, Guess μ ξ g₀ g0' → Guess μ ξ g₁ g1' → ChanceGuess p0' → ChanceGuess p1' → ProbGuess m' →
      (((∀ x, g0' x = g₀ x) ∧ ∀ x, g1' x = g₁ x) ∨ ((∀ x, p0' x = π₀ x) ∧ (∀ x, p1' x = π₁ x) ∧ ∀ x, m' x = m x)) →
      Null μ fun w => (ssmElems false (obs (d w)) (obs (1 - d w)) (obs (g1' (ξ w))) (obs (g0' (ξ w)))
        (obs (d w * p1' (ξ w) + (1 - d w) * p0' (ξ w))) (obs (m' (ξ w))) (obs (s w)) (obs (y w))).score ate 0 := by
    intro g0' g1' p0' p1' m' G0 G1 P0 P1 M hr
    have i1 := a1.guess_product G1 M P1 (hr.imp (fun q => q.2) fun q x => by rw [q.2.1 x, q.2.2 x])
    have i0 := a0.guess_product G0 M.compl P0 (hr.imp (fun q => q.1) fun q x => by rw [q.1 x, q.2.2 x])
    simp only [ssm_score _ _ _ _ _ _ _ (h.binaryD _)]
    exact ((i1.sub i0).sub (HasMean.const _)).null (by rw [sp]; ring)
  refine ⟨?_, fun h0 h1 q0 q1 k d0 d1 dq0 dq1 dk => ?_, fun g0' g1' p0' p1' m' G0 G1 P0 P1 M hr => (rob g0' g1' p0' p1' m' G0 G1 P0 P1 M hr).2⟩
  · have nl := rob g₀ g₁ π₀ π₁ m ⟨h.measG0, by simp⟩ ⟨h.measG1, by simp⟩ ⟨h.measP0, τ, hτ, h.chance0⟩ ⟨h.measP1, τ, hτ, h.chance1⟩
      ⟨h.measM, τ, hτ, h.overlap⟩ (Or.inl ⟨fun _ => rfl, fun _ => rfl⟩)
    refine identifies_of ?_ nl.1 nl.2 ?_
    · have := integrable_const (μ := μ) (-1 : ℝ)
      exact this
    · simp [ssmElems]
  · have bm : ∀ x, |m x| ≤ 1 := fun x => by
      have := h.overlap x
      rw [abs_of_nonneg (by linarith)]
      linarith
    have bm' : ∀ x, |1 - m x| ≤ 1 := fun x => by
      have := h.overlap x
      rw [abs_of_nonneg (by linarith)]
      linarith
    have b1 : ∀ x, |π₁ x| ≤ 1 := fun x => by
      have := h.chance1 x
      rw [abs_of_nonneg (by linarith)]
      exact this.2
    have b0 : ∀ x, |π₀ x| ≤ 1 := fun x => by
      have := h.chance0 x
      rw [abs_of_nonneg (by linarith)]
      exact this.2
    have dk' : BoundedDirection fun x => -k x := ⟨dk.meas.neg, by
      obtain ⟨B, hB⟩ := dk.bdd
      exact ⟨B, fun x => by rw [abs_neg]; exact hB x⟩⟩
    obtain ⟨B1, hB1⟩ := product_path bm b1 dk dq1
    obtain ⟨B0, hB0⟩ := product_path bm' b0 dk' dq0
    have f1 := a1.flat d1.meas d1.mem (gt := fun t x => g₁ x + t * h1 x) (fun _ _ => rfl)
      (mt := fun t x => (m x + t * k x) * (π₁ x + t * q1 x))
      (fun t => (h.measM.add (dk.meas.const_mul t)).mul (h.measP1.add (dq1.meas.const_mul t))) hB1
    have f0 := a0.flat d0.meas d0.mem (gt := fun t x => g₀ x + t * h0 x) (fun _ _ => rfl)
      (mt := fun t x => (1 - (m x + t * k x)) * (π₀ x + t * q0 x))
      (fun t => (measurable_const.sub (h.measM.add (dk.meas.const_mul t))).mul (h.measP0.add (dq0.meas.const_mul t))) (B := B0)
      fun t x ht => by
        have := hB0 t x ht
        rw [show 1 - (m x + t * k x) = 1 - m x + t * -k x by ring]
        exact this
    exact orthogonal_of ((f1.sub f0).sub (FlatMean.const (integrable_const ate))) fun t w =>
      ssm_score _ (fun x => g₀ x + t * h0 x) (fun x => g₁ x + t * h1 x) (fun x => π₀ x + t * q0 x) (fun x => π₁ x + t * q1 x)
        (fun x => m x + t * k x) w (h.binaryD w)

end Ssm

/-! ## Repeated cross-sections -/

/-- Repeated cross-sections: every observation is from one of two periods `t`, drawn with probability `lam` whatever the treatment and the
covariates; `g_dt(ξ)` is the mean of `y` given treatment group, period and covariates. -/
structure DidCsLaw (μ : Measure S) (y d t : S → ℝ) (ξ : S → 𝒳) (g00 g01 g10 g11 m : 𝒳 → ℝ) (lam τ : ℝ) : Prop where
  measY : Measurable y
  measD : Measurable d
  measT : Measurable t
  measX : Measurable ξ
  measG00 : Measurable g00
  measG01 : Measurable g01
  measG10 : Measurable g10
  measG11 : Measurable g11
  measM : Measurable m
  binaryD : ∀ w, d w = 0 ∨ d w = 1
  binaryT : ∀ w, t w = 0 ∨ t w = 1
  noise : MeanZeroGiven μ (fun w => ((d w, t w), ξ w)) fun w => y w - (d w * t w * g11 (ξ w) + d w * (1 - t w) * g10 (ξ w) +
    (1 - d w) * t w * g01 (ξ w) + (1 - d w) * (1 - t w) * g00 (ξ w))
  period : MeanZeroGiven μ (fun w => (d w, ξ w)) fun w => t w - lam
  treat : MeanZeroGiven μ ξ fun w => d w - m (ξ w)
  pos : 0 < τ
  overlap : ∀ x, τ ≤ m x ∧ m x ≤ 1 - τ
  share : τ ≤ lam ∧ lam ≤ 1 - τ
  memNoise : MemLp (fun w => y w - (d w * t w * g11 (ξ w) + d w * (1 - t w) * g10 (ξ w) +
    (1 - d w) * t w * g01 (ξ w) + (1 - d w) * (1 - t w) * g00 (ξ w))) 2 μ
  memG00 : MemLp (fun w => g00 (ξ w)) 2 μ
  memG01 : MemLp (fun w => g01 (ξ w)) 2 μ
  memG10 : MemLp (fun w => g10 (ξ w)) 2 μ
  memG11 : MemLp (fun w => g11 (ξ w)) 2 μ

section DidCs

variable [IsProbabilityMeasure μ] {y d t : S → ℝ} {ξ : S → 𝒳} {g00 g01 g10 g11 m : 𝒳 → ℝ} {lam τ : ℝ}

/-- The treatment groups play the same role. -/
theorem DidCsLaw.flipD (h : DidCsLaw μ y d t ξ g00 g01 g10 g11 m lam τ) :
    DidCsLaw μ y (fun w => 1 - d w) t ξ g10 g11 g00 g01 (fun x => 1 - m x) lam τ := by
  have e : ∀ w, y w - ((1 - d w) * t w * g01 (ξ w) + (1 - d w) * (1 - t w) * g00 (ξ w) +
      (1 - (1 - d w)) * t w * g11 (ξ w) + (1 - (1 - d w)) * (1 - t w) * g10 (ξ w)) =
      y w - (d w * t w * g11 (ξ w) + d w * (1 - t w) * g10 (ξ w) + (1 - d w) * t w * g01 (ξ w) + (1 - d w) * (1 - t w) * g00 (ξ w)) :=
    fun w => by ring
  refine ⟨h.measY, measurable_const.sub h.measD, h.measT, h.measX, h.measG10, h.measG11, h.measG00, h.measG01,
    measurable_const.sub h.measM, fun w => ?_, h.binaryT, ?_, ?_, ?_, h.pos, fun x => ?_, h.share, ?_, h.memG10, h.memG11, h.memG00, h.memG01⟩
  · rcases h.binaryD w with e | e <;> simp [e]
  · refine MeanZeroGiven.of_eq ?_ e
    exact h.noise.mono ((h.measD.prodMk h.measT).prodMk h.measX) (φ := fun q => ((1 - q.1.1, q.1.2), q.2))
      (((measurable_const.sub (measurable_fst.comp measurable_fst)).prodMk (measurable_snd.comp measurable_fst)).prodMk measurable_snd)
      fun _ => rfl
  · exact h.period.mono (h.measD.prodMk h.measX) (φ := fun q => (1 - q.1, q.2))
      ((measurable_const.sub measurable_fst).prodMk measurable_snd) fun _ => rfl
  · exact h.treat.neg.of_eq fun w => by ring
  · have := h.overlap x
    constructor <;> linarith
  · exact h.memNoise.ae_eq (Eventually.of_forall fun w => (e w).symm)

/-- The periods play the same role. -/
theorem DidCsLaw.flipT (h : DidCsLaw μ y d t ξ g00 g01 g10 g11 m lam τ) :
    DidCsLaw μ y d (fun w => 1 - t w) ξ g01 g00 g11 g10 m (1 - lam) τ := by
  have e : ∀ w, y w - (d w * (1 - t w) * g10 (ξ w) + d w * (1 - (1 - t w)) * g11 (ξ w) +
      (1 - d w) * (1 - t w) * g00 (ξ w) + (1 - d w) * (1 - (1 - t w)) * g01 (ξ w)) =
      y w - (d w * t w * g11 (ξ w) + d w * (1 - t w) * g10 (ξ w) + (1 - d w) * t w * g01 (ξ w) + (1 - d w) * (1 - t w) * g00 (ξ w)) :=
    fun w => by ring
  refine ⟨h.measY, h.measD, measurable_const.sub h.measT, h.measX, h.measG01, h.measG00, h.measG11, h.measG10,
    h.measM, h.binaryD, fun w => ?_, ?_, ?_, h.treat, h.pos, h.overlap, ?_, ?_, h.memG01, h.memG00, h.memG11, h.memG10⟩
  · rcases h.binaryT w with e | e <;> simp [e]
  · refine MeanZeroGiven.of_eq ?_ e
    exact h.noise.mono ((h.measD.prodMk h.measT).prodMk h.measX) (φ := fun q => ((q.1.1, 1 - q.1.2), q.2))
      (((measurable_fst.comp measurable_fst).prodMk (measurable_const.sub (measurable_snd.comp measurable_fst))).prodMk measurable_snd)
      fun _ => rfl
  · exact h.period.neg.of_eq fun w => by ring
  · have := h.share
    constructor <;> linarith
  · exact h.memNoise.ae_eq (Eventually.of_forall fun w => (e w).symm)

theorem DidCsLaw.cell_noise (h : DidCsLaw μ y d t ξ g00 g01 g10 g11 m lam τ) :
    MeanZeroGiven μ (fun w => (d w, ξ w)) (fun w => d w * t w * (y w - g11 (ξ w))) ∧
      MemLp (fun w => d w * t w * (y w - g11 (ξ w))) 2 μ := by
  have bd := bdd_of_binary h.binaryD
  have bt := bdd_of_binary h.binaryT
  have bdt : ∀ w, |d w * t w| ≤ 1 := fun w => by
    rw [abs_mul]
    exact mul_le_one₀ (bd w) (abs_nonneg _) (bt w)
  have e1 : ∀ w, d w * t w * (y w - g11 (ξ w)) = d w * t w * (y w - (d w * t w * g11 (ξ w) + d w * (1 - t w) * g10 (ξ w) +
      (1 - d w) * t w * g01 (ξ w) + (1 - d w) * (1 - t w) * g00 (ξ w))) := fun w => by
    rcases h.binaryD w with e | e <;> rcases h.binaryT w with e' | e' <;> rw [e, e'] <;> ring
  have m1 : MemLp (fun w => d w * t w * (y w - (d w * t w * g11 (ξ w) + d w * (1 - t w) * g10 (ξ w) +
      (1 - d w) * t w * g01 (ξ w) + (1 - d w) * (1 - t w) * g00 (ξ w)))) 2 μ :=
    (memLp_bdd_mul h.memNoise (h.measD.mul h.measT) bdt).ae_eq (Eventually.of_forall fun w => mul_comm _ _)
  constructor
  · refine MeanZeroGiven.of_eq ?_ e1
    exact (h.noise.mul_left (h.memNoise.integrable one_le_two) (f := fun q => q.1.1 * q.1.2)
      ((measurable_fst.comp measurable_fst).mul (measurable_snd.comp measurable_fst)) (m1.integrable one_le_two)).mono
      ((h.measD.prodMk h.measT).prodMk h.measX) (φ := fun q => (q.1.1, q.2))
      ((measurable_fst.comp measurable_fst).prodMk measurable_snd) fun _ => rfl
  · exact m1.ae_eq (Eventually.of_forall fun w => (e1 w).symm)

theorem DidCsLaw.memT (h : DidCsLaw μ y d t ξ g00 g01 g10 g11 m lam τ) {p : ℝ≥0∞} : MemLp (fun w => t w - lam) p μ := by
  refine memLp_of_bdd (C := 2) (h.measT.sub measurable_const) fun w => ?_
  have h1 := bdd_of_binary h.binaryT w
  have h2 := h.share
  have h3 := h.pos
  refine (abs_sub _ _).trans ?_
  rw [abs_of_nonneg (a := lam) (by linarith)]
  linarith

/-- One cell. -/
theorem DidCsLaw.cell (h : DidCsLaw μ y d t ξ g00 g01 g10 g11 m lam τ) :
    ArmLaw μ y (fun w => d w * t w) ξ g11 (fun x => m x * lam) (τ * τ) 2 := by
  have hτ := h.pos
  have hl := h.share
  have bd := bdd_of_binary h.binaryD
  obtain ⟨n1, m1⟩ := h.cell_noise
  have idt : Integrable (fun w => d w * (t w - lam)) μ := by
    refine ((memLp_bdd_mul (h.memT (p := 1)) h.measD bd).integrable le_rfl).congr (Eventually.of_forall fun w => mul_comm _ _)
  have bm : ∀ w, |d w - m (ξ w)| ≤ 2 := fun w => by
    have := h.overlap (ξ w)
    have h2 : |m (ξ w)| ≤ 1 := by
      rw [abs_of_nonneg (by linarith)]
      linarith
    exact (abs_sub _ _).trans (by linarith [bd w])
  have mm : Measurable fun w => d w - m (ξ w) := h.measD.sub (h.measM.comp h.measX)
  have im : Integrable (fun w => d w - m (ξ w)) μ := (memLp_of_bdd (p := 1) mm bm).integrable le_rfl
  refine ⟨h.measY, h.measD.mul h.measT, h.measX, h.measG11, h.measM.mul_const lam, fun w => ?_, ?_, ?_, by positivity, fun x => ?_, m1,
    h.memG11⟩
  · rcases h.binaryD w with e | e <;> rcases h.binaryT w with e' | e' <;> simp [e, e']
  · exact n1.mono (h.measD.prodMk h.measX) measurable_snd fun _ => rfl
  · have n2 : MeanZeroGiven μ ξ fun w => d w * (t w - lam) :=
      (h.period.mul_left ((h.memT (p := 1)).integrable le_rfl) (f := fun q => q.1) measurable_fst idt).mono (h.measD.prodMk h.measX)
        measurable_snd fun _ => rfl
    have n3 : MeanZeroGiven μ ξ fun w => lam * (d w - m (ξ w)) := h.treat.mul_left (f := fun _ => lam) im measurable_const (im.const_mul _)
    exact (n2.add n3 idt (im.const_mul _)).of_eq fun w => by ring
  · have h1 := h.overlap x
    constructor
    · exact mul_le_mul h1.1 hl.1 hτ.le (hτ.le.trans h1.1)
    · calc m x * lam ≤ 1 * 1 := mul_le_mul (by linarith) (by linarith) (by linarith) zero_le_one
        _ = 1 := one_mul 1

/-- The outcome model of a cell, corrected within its treatment group: the correction makes up for any error. -/
theorem DidCsLaw.within (h : DidCsLaw μ y d t ξ g00 g01 g10 g11 m lam τ) {g' : 𝒳 → ℝ} (gg : Guess μ ξ g11 g') :
    HasMean μ (fun w => d w * g' (ξ w) + d w * t w / lam * (y w - g' (ξ w))) (∫ w, d w * g11 (ξ w) ∂μ) := by
  have hτ := h.pos
  have hl : lam ≠ 0 := by have := h.share; exact (by linarith : 0 < lam).ne'
  have bd := bdd_of_binary h.binaryD
  obtain ⟨n1, m1⟩ := h.cell_noise
  have mx := h.measD.prodMk h.measX
  have z1 := (HasMean.of_null ⟨m1.integrable one_le_two, n1.integral_eq mx (m1.integrable one_le_two)⟩).smul lam⁻¹
  have md : MemLp (fun w => d w * (g' (ξ w) - g11 (ξ w))) 2 μ :=
    (memLp_bdd_mul gg.mem h.measD bd).ae_eq (Eventually.of_forall fun w => mul_comm _ _)
  have z2 := (HasMean.of_null (h.period.null mx h.memT (f := fun q => q.1 * (g' q.2 - g11 q.2))
    (measurable_fst.mul ((gg.meas.sub h.measG11).comp measurable_snd)) md)).smul lam⁻¹
  have ig : Integrable (fun w => d w * g11 (ξ w)) μ :=
    ((memLp_bdd_mul h.memG11 h.measD bd).integrable one_le_two).congr (Eventually.of_forall fun w => mul_comm _ _)
  refine (((HasMean.of ig).add z1).sub z2).congr (fun w => ?_) (by ring)
  field_simp
  ring

/-- The outcome model of a cell of the untreated, corrected with reweighted observations. -/
noncomputable def csTerm (y d t : S → ℝ) (ξ : S → 𝒳) (lam : ℝ) (g' m' : 𝒳 → ℝ) (w : S) : ℝ :=
  d w * g' (ξ w) + (1 - d w) * t w / lam * (m' (ξ w) / (1 - m' (ξ w))) * (y w - g' (ξ w))

omit mS [MeasurableSpace 𝒳] in
theorem csTerm_eq (g' m' : 𝒳 → ℝ) (w : S) (hl : lam ≠ 0) (hm : 1 - m' (ξ w) ≠ 0) :
    csTerm y d t ξ lam g' m' w = armVal y (fun w => (1 - d w) * t w) ξ g' (fun x => (1 - m' x) * lam) w -
      ((1 - d w) * g' (ξ w) + (1 - d w) * t w / lam * (y w - g' (ξ w))) := by
  unfold csTerm armVal
  field_simp
  ring

theorem DidCsLaw.untreated_split (h : DidCsLaw μ y d t ξ g00 g01 g10 g11 m lam τ) :
    ∫ w, g01 (ξ w) ∂μ - ∫ w, (1 - d w) * g01 (ξ w) ∂μ = ∫ w, d w * g01 (ξ w) ∂μ := by
  have bd := bdd_of_binary h.binaryD
  have i0 : Integrable (fun w => g01 (ξ w)) μ := h.memG01.integrable one_le_two
  have i1 : Integrable (fun w => d w * g01 (ξ w)) μ :=
    ((memLp_bdd_mul h.memG01 h.measD bd).integrable one_le_two).congr (Eventually.of_forall fun w => mul_comm _ _)
  have e : (fun w => (1 - d w) * g01 (ξ w)) = fun w => g01 (ξ w) - d w * g01 (ξ w) := funext fun w => by ring
  rw [e, integral_sub i0 i1]
  ring

theorem DidCsLaw.cross_guess (h : DidCsLaw μ y d t ξ g00 g01 g10 g11 m lam τ) {g' m' : 𝒳 → ℝ} (gg : Guess μ ξ g01 g') (gm : ProbGuess m')
    (hr : (∀ x, g' x = g01 x) ∨ ∀ x, m' x = m x) : HasMean μ (csTerm y d t ξ lam g' m') (∫ w, d w * g01 (ξ w) ∂μ) := by
  have hτ := h.pos
  have hs := h.share
  have hl : 0 < lam := by linarith
  have a := h.flipD.cell.guess_product gg gm.compl (p' := fun _ => lam) ⟨measurable_const, lam, hl, fun _ => ⟨le_rfl, by linarith⟩⟩
    (hr.imp (fun q => q) fun q x => by rw [q x])
  have b := h.flipD.within gg
  exact (a.sub b).congr (fun w => csTerm_eq _ _ w hl.ne' (gm.ne _).2) h.untreated_split

theorem DidCsLaw.cross_path (h : DidCsLaw μ y d t ξ g00 g01 g10 g11 m lam τ) {k q : 𝒳 → ℝ} (dk : Direction μ ξ k) (dq : BoundedDirection q) :
    FlatMean μ (fun s => csTerm y d t ξ lam (fun x => g01 x + s * k x) fun x => m x + s * q x) (∫ w, d w * g01 (ξ w) ∂μ) := by
  have hτ := h.pos
  have hs := h.share
  have hl : 0 < lam := by linarith
  obtain ⟨B, hB⟩ := dq.bdd
  have guess : ∀ s : ℝ, Guess μ ξ g01 fun x => g01 x + s * k x := fun s =>
    ⟨h.measG01.add (dk.meas.const_mul s), (dk.mem.const_mul s).ae_eq (Eventually.of_forall fun w => by simp)⟩
  have a := h.flipD.cell.flat dk.meas dk.mem (gt := fun s x => g01 x + s * k x) (fun _ _ => rfl)
    (mt := fun s x => (1 - (m x + s * q x)) * lam) (fun s => (measurable_const.sub (h.measM.add (dq.meas.const_mul s))).mul_const lam)
    (B := B) fun s x _ => by
      rw [show (1 - (m x + s * q x)) * lam - (1 - m x) * lam = -(s * q x * lam) by ring, abs_neg, abs_mul, abs_mul, abs_of_pos hl]
      calc |s| * |q x| * lam ≤ |s| * B * 1 :=
            mul_le_mul (mul_le_mul_of_nonneg_left (hB x) (abs_nonneg _)) (by linarith) hl.le
              (mul_nonneg (abs_nonneg _) ((abs_nonneg _).trans (hB x)))
        _ = B * |s| := by ring
  have b : FlatMean μ (fun (s : ℝ) w => (1 - d w) * (g01 (ξ w) + s * k (ξ w)) + (1 - d w) * t w / lam * (y w - (g01 (ξ w) + s * k (ξ w))))
      (∫ w, (1 - d w) * g01 (ξ w) ∂μ) :=
    FlatMean.of_eq (fun s => (h.flipD.within (guess s)).1) fun s => (h.flipD.within (guess s)).2
  have c := a.sub b
  rw [h.untreated_split] at c
  refine c.congr_near (δ := τ / 2 / (|B| + 1)) (by positivity) fun s hsm w => ?_
  refine csTerm_eq (fun x => g01 x + s * k x) (fun x => m x + s * q x) w hl.ne' ?_
  have h1 : |s * q (ξ w)| ≤ τ / 2 := by
    rw [abs_mul]
    calc |s| * |q (ξ w)| ≤ τ / 2 / (|B| + 1) * (|B| + 1) :=
          mul_le_mul hsm ((hB _).trans (by linarith [le_abs_self B])) (abs_nonneg _) (by positivity)
      _ = τ / 2 := div_mul_cancel₀ _ (by positivity)
  have h2 := _root_.abs_le.1 h1
  have h3 := h.overlap (ξ w)
  exact (by linarith : 0 < 1 - (m (ξ w) + s * q (ξ w))).ne'

/-- The difference in differences among the treated. -/
noncomputable def changeOfTreated (μ : Measure S) (d : S → ℝ) (ξ : S → 𝒳) (g00 g01 g10 g11 : 𝒳 → ℝ) : ℝ :=
  (∫ w, d w * ((g11 (ξ w) - g10 (ξ w)) - (g01 (ξ w) - g00 (ξ w))) ∂μ) / ∫ w, d w ∂μ

/-- The score elements of an observation. -/
noncomputable def csObs (sc : DidScore) (yw dw tw g00w g01w g10w g11w mw p lam : ℝ) : PsiElems 1 :=
  didCsElems sc false (obs yw) (obs dw) (obs tw) ⟨obs g11w, obs g10w, obs g01w, obs g00w⟩ (obs mw) (obs p) (obs lam)

/-- In a sample, the score of an observation is the score function at that observation. -/
theorem C78_did_cs_elementwise {n : ℕ} (sc : DidScore) (y d t m p lam : Fin n → ℝ) (g : Cells n) (θ : ℝ) (i : Fin n) :
    (didCsElems sc false y d t g m p lam).score θ i =
      (csObs sc (y i) (d i) (t i) (g.d0t0 i) (g.d0t1 i) (g.d1t0 i) (g.d1t1 i) (m i) (p i) (lam i)).score θ 0 := by
  cases sc <;> rfl

omit mS [MeasurableSpace 𝒳] in
theorem did_cs_score (p θ : ℝ) (g00' g01' g10' g11' m' : 𝒳 → ℝ) (w : S) :
    (csObs .observational (y w) (d w) (t w) (g00' (ξ w)) (g01' (ξ w)) (g10' (ξ w)) (g11' (ξ w)) (m' (ξ w)) p lam).score θ 0 =
      p⁻¹ * ((((d w * g11' (ξ w) + d w * t w / lam * (y w - g11' (ξ w))) -
        (d w * g10' (ξ w) + d w * (1 - t w) / (1 - lam) * (y w - g10' (ξ w)))) -
        (csTerm y d t ξ lam g01' m' w - csTerm y d (fun w => 1 - t w) ξ (1 - lam) g00' m' w)) - θ * d w) := by
  simp only [PsiElems.score, csObs, didCsElems, didWa, csResid, cells, obs, csTerm]
  generalize (1 - lam) = l1
  generalize (1 - m' (ξ w)) = m1
  ring

omit mS [MeasurableSpace 𝒳] in
theorem did_cs_a (p : ℝ) (g00' g01' g10' g11' m' : 𝒳 → ℝ) (w : S) :
    (csObs .observational (y w) (d w) (t w) (g00' (ξ w)) (g01' (ξ w)) (g10' (ξ w)) (g11' (ξ w)) (m' (ξ w)) p lam).a 0 = -1 * (d w / p) := rfl

/-- DiD with repeated cross-sections, observational score: the parameter is the difference in differences among the treated.  The score
has mean zero there if the outcome models of the untreated, or the propensity, are right, whatever is used for the treated. -/
theorem C78_did_cs (h : DidCsLaw μ y d t ξ g00 g01 g10 g11 m lam τ) :
    Identifies μ (fun w => csObs .observational (y w) (d w) (t w) (g00 (ξ w)) (g01 (ξ w)) (g10 (ξ w)) (g11 (ξ w)) (m (ξ w))
      (∫ w, d w ∂μ) lam) (changeOfTreated μ d ξ g00 g01 g10 g11) ∧
    (∀ h00 h01 h10 h11 k : 𝒳 → ℝ, Direction μ ξ h00 → Direction μ ξ h01 → Direction μ ξ h10 → Direction μ ξ h11 → BoundedDirection k →
      OrthogonalAlong μ (fun s w => csObs .observational (y w) (d w) (t w) (g00 (ξ w) + s * h00 (ξ w)) (g01 (ξ w) + s * h01 (ξ w))
        (g10 (ξ w) + s * h10 (ξ w)) (g11 (ξ w) + s * h11 (ξ w)) (m (ξ w) + s * k (ξ w)) (∫ w, d w ∂μ) lam)
        (changeOfTreated μ d ξ g00 g01 g10 g11)) ∧
    ∀ (g00' g01' g10' g11' m' : 𝒳 → ℝ) (p' : ℝ), Guess μ ξ g00 g00' → Guess μ ξ g01 g01' → Guess μ ξ g10 g10' → Guess μ ξ g11 g11' →
      ProbGuess m' → (((∀ x, g00' x = g00 x) ∧ ∀ x, g01' x = g01 x) ∨ ∀ x, m' x = m x) →
      expScore μ (fun w => csObs .observational (y w) (d w) (t w) (g00' (ξ w)) (g01' (ξ w)) (g10' (ξ w)) (g11' (ξ w)) (m' (ξ w)) p' lam)
        (changeOfTreated μ d ξ g00 g01 g10 g11) = 0 := by
  have bd := bdd_of_binary h.binaryD
  have hτ := h.pos
  have id : Integrable d μ := (memLp_of_bdd (p := 1) h.measD bd).integrable le_rfl
  have im : Integrable (fun w => m (ξ w)) μ := by
    refine (memLp_of_bdd (p := 1) (C := 1) (h.measM.comp h.measX) fun w => ?_).integrable le_rfl
    have := h.overlap (ξ w)
    simp only [Function.comp_apply]
    rw [_root_.abs_le]
    constructor <;> linarith
  have hd : 0 < ∫ w, d w ∂μ := by
    have nz : ∫ w, (d w - m (ξ w)) ∂μ = 0 := h.treat.integral_eq h.measX (id.sub im)
    rw [integral_sub id im] at nz
    have h1 : ∫ _ : S, τ ∂μ ≤ ∫ w, m (ξ w) ∂μ := integral_mono (integrable_const _) im fun w => (h.overlap _).1
    simp only [integral_const, probReal_univ, one_smul] at h1
    linarith
  have idg : ∀ {g : 𝒳 → ℝ}, MemLp (fun w => g (ξ w)) 2 μ → Integrable (fun w => d w * g (ξ w)) μ := fun hg =>
    ((memLp_bdd_mul hg h.measD bd).integrable one_le_two).congr (Eventually.of_forall fun w => mul_comm _ _)
  have i11 := idg h.memG11
  have i10 := idg h.memG10
  have i01 := idg h.memG01
  have i00 := idg h.memG00
  have et : changeOfTreated μ d ξ g00 g01 g10 g11 * ∫ w, d w ∂μ = (∫ w, d w * g11 (ξ w) ∂μ - ∫ w, d w * g10 (ξ w) ∂μ) -
      (∫ w, d w * g01 (ξ w) ∂μ - ∫ w, d w * g00 (ξ w) ∂μ) := by
    unfold changeOfTreated
    rw [div_mul_cancel₀ _ hd.ne']
    refine (((HasMean.of i11).sub (HasMean.of i10)).sub ((HasMean.of i01).sub (HasMean.of i00))).2.symm.trans ?_ |>.symm
    exact integral_congr_ae (Eventually.of_forall fun w => by dsimp only; ring)
  have rob : ∀ (g00' g01' g10' g11' m' : 𝒳 → ℝ) (p' : ℝ), Guess μ ξ g00 g00' → Guess μ ξ g01 g01' → Guess μ ξ g10 g10' → Guess μ ξ g11 g11' →
      ProbGuess m' → (((∀ x, g00' x = g00 x) ∧ ∀ x, g01' x = g01 x) ∨ ∀ x, m' x = m x) →
      Null μ fun w => (csObs .observational (y w) (d w) (t w) (g00' (ξ w)) (g01' (ξ w)) (g10' (ξ w)) (g11' (ξ w)) (m' (ξ w)) p' lam).score
        (changeOfTreated μ d ξ g00 g01 g10 g11) 0 := by
    intro g00' g01' g10' g11' m' p' G00 G01 G10 G11 M hr
    have w1 := h.within G11
    have w0 := h.flipT.within G10
    have c1 := h.cross_guess G01 M (hr.imp (fun q => q.2) fun q => q)
    have c0 := h.flipT.cross_guess G00 M (hr.imp (fun q => q.1) fun q => q)
    simp only [did_cs_score]
    exact ((((w1.sub w0).sub (c1.sub c0)).sub ((HasMean.of id).smul _)).smul p'⁻¹).null (by rw [et]; ring)
  refine ⟨?_, fun h00 h01 h10 h11 k d00 d01 d10 d11 dk => ?_, fun g00' g01' g10' g11' m' p' G00 G01 G10 G11 M hr =>
    (rob g00' g01' g10' g11' m' p' G00 G01 G10 G11 M hr).2⟩
  · have n0 := rob g00 g01 g10 g11 m (∫ w, d w ∂μ) ⟨h.measG00, by simp⟩ ⟨h.measG01, by simp⟩ ⟨h.measG10, by simp⟩ ⟨h.measG11, by simp⟩
      ⟨h.measM, τ, hτ, h.overlap⟩ (Or.inr fun _ => rfl)
    refine identifies_of ?_ n0.1 n0.2 ?_
    · simp only [did_cs_a]
      exact (id.div_const _).const_mul _
    · simp only [did_cs_a]
      rw [integral_const_mul, integral_div, div_self hd.ne']
      norm_num
  · have guess : ∀ {f q : 𝒳 → ℝ}, Measurable f → Direction μ ξ q → ∀ s : ℝ, Guess μ ξ f fun x => f x + s * q x := fun hf hq s =>
      ⟨hf.add (hq.meas.const_mul s), (hq.mem.const_mul s).ae_eq (Eventually.of_forall fun w => by simp)⟩
    have w1 : FlatMean μ (fun (s : ℝ) w => d w * (g11 (ξ w) + s * h11 (ξ w)) + d w * t w / lam * (y w - (g11 (ξ w) + s * h11 (ξ w))))
        (∫ w, d w * g11 (ξ w) ∂μ) :=
      FlatMean.of_eq (fun s => (h.within (guess h.measG11 d11 s)).1) fun s => (h.within (guess h.measG11 d11 s)).2
    have w0 : FlatMean μ (fun (s : ℝ) w => d w * (g10 (ξ w) + s * h10 (ξ w)) +
        d w * (1 - t w) / (1 - lam) * (y w - (g10 (ξ w) + s * h10 (ξ w)))) (∫ w, d w * g10 (ξ w) ∂μ) :=
      FlatMean.of_eq (fun s => (h.flipT.within (guess h.measG10 d10 s)).1) fun s => (h.flipT.within (guess h.measG10 d10 s)).2
    have c1 := h.cross_path d01 dk
    have c0 := h.flipT.cross_path d00 dk
    exact orthogonal_of ((((w1.sub w0).sub (c1.sub c0)).sub ((FlatMean.const id).smul (changeOfTreated μ d ξ g00 g01 g10 g11))).smul
      (∫ w, d w ∂μ)⁻¹) fun s w => did_cs_score _ _ (fun x => g00 x + s * h00 x) (fun x => g01 x + s * h01 x) (fun x => g10 x + s * h10 x)
        (fun x => g11 x + s * h11 x) (fun x => m x + s * k x) w

omit mS [MeasurableSpace 𝒳] in
theorem did_cs_exp_score (p θ : ℝ) (g00' g01' g10' g11' : 𝒳 → ℝ) (mw : ℝ) (w : S) :
    (csObs .experimental (y w) (d w) (t w) (g00' (ξ w)) (g01' (ξ w)) (g10' (ξ w)) (g11' (ξ w)) mw p lam).score θ 0 =
      ((armVal y (fun w => d w * t w) ξ g11' (fun _ => p * lam) w - armVal y (fun w => d w * (1 - t w)) ξ g10' (fun _ => p * (1 - lam)) w) -
        (armVal y (fun w => (1 - d w) * t w) ξ g01' (fun _ => (1 - p) * lam) w -
          armVal y (fun w => (1 - d w) * (1 - t w)) ξ g00' (fun _ => (1 - p) * (1 - lam)) w)) - θ := by
  simp only [PsiElems.score, csObs, didCsElems, didWa, csResid, cells, obs, armVal]
  ring

/-- DiD with repeated cross-sections, experimental score: if the treatment does not depend on the covariates, the score has mean zero at the
difference in differences whatever is used for the outcome models; so it identifies it and is orthogonal. -/
theorem C78_did_cs_experimental {p : ℝ} (h : DidCsLaw μ y d t ξ g00 g01 g10 g11 (fun _ => p) lam τ) (m' : 𝒳 → ℝ) :
    (∀ g00' g01' g10' g11' : 𝒳 → ℝ, Guess μ ξ g00 g00' → Guess μ ξ g01 g01' → Guess μ ξ g10 g10' → Guess μ ξ g11 g11' →
      Identifies μ (fun w => csObs .experimental (y w) (d w) (t w) (g00' (ξ w)) (g01' (ξ w)) (g10' (ξ w)) (g11' (ξ w)) (m' (ξ w)) p lam)
        (∫ w, ((g11 (ξ w) - g10 (ξ w)) - (g01 (ξ w) - g00 (ξ w))) ∂μ)) ∧
    ∀ h00 h01 h10 h11 : 𝒳 → ℝ, Direction μ ξ h00 → Direction μ ξ h01 → Direction μ ξ h10 → Direction μ ξ h11 →
      OrthogonalAlong μ (fun s w => csObs .experimental (y w) (d w) (t w) (g00 (ξ w) + s * h00 (ξ w)) (g01 (ξ w) + s * h01 (ξ w))
        (g10 (ξ w) + s * h10 (ξ w)) (g11 (ξ w) + s * h11 (ξ w)) (m' (ξ w)) p lam)
        (∫ w, ((g11 (ξ w) - g10 (ξ w)) - (g01 (ξ w) - g00 (ξ w))) ∂μ) := by
  have hτ := h.pos
  have sp := ((((HasMean.of (h.memG11.integrable one_le_two)).sub (HasMean.of (h.memG10.integrable one_le_two))).sub
    ((HasMean.of (h.memG01.integrable one_le_two)).sub (HasMean.of (h.memG00.integrable one_le_two))))).2
  have rob : ∀ g00' g01' g10' g11' : 𝒳 → ℝ, Guess μ ξ g00 g00' → Guess μ ξ g01 g01' → Guess μ ξ g10 g10' → Guess μ ξ g11 g11' →
      Null μ fun w => (csObs .experimental (y w) (d w) (t w) (g00' (ξ w)) (g01' (ξ w)) (g10' (ξ w)) (g11' (ξ w)) (m' (ξ w)) p lam).score
        (∫ w, ((g11 (ξ w) - g10 (ξ w)) - (g01 (ξ w) - g00 (ξ w))) ∂μ) 0 := by
    intro g00' g01' g10' g11' G00 G01 G10 G11
    have known : ∀ {u : S → ℝ} {g g' : 𝒳 → ℝ} {q : ℝ}, ArmLaw μ y u ξ g (fun _ => q) (τ * τ) 2 → Guess μ ξ g g' →
        HasMean μ (armVal y u ξ g' fun _ => q) (∫ w, g (ξ w) ∂μ) := fun {u g g' q} ha gg =>
      ha.robust gg.meas ha.measM gg.mem ha.pos (fun x => (ha.overlap x).1) (B := 0) (fun x => by simp) (Or.inr fun _ => rfl)
    have c11 := known h.cell G11
    have c10 := known h.flipT.cell G10
    have c01 := known h.flipD.cell G01
    have c00 := known h.flipD.flipT.cell G00
    simp only [did_cs_exp_score]
    exact (((c11.sub c10).sub (c01.sub c00)).sub (HasMean.const _)).null (by rw [sp]; ring)
  refine ⟨fun g00' g01' g10' g11' G00 G01 G10 G11 => ?_, fun h00 h01 h10 h11 d00 d01 d10 d11 => ?_⟩
  · have n0 := rob g00' g01' g10' g11' G00 G01 G10 G11
    refine identifies_of ?_ n0.1 n0.2 ?_
    · have := integrable_const (μ := μ) (-1 * 1 : ℝ)
      exact this
    · simp [csObs, didCsElems, didWa]
  · have guess : ∀ {f q : 𝒳 → ℝ}, Measurable f → Direction μ ξ q → ∀ s : ℝ, Guess μ ξ f fun x => f x + s * q x := fun hf hq s =>
      ⟨hf.add (hq.meas.const_mul s), (hq.mem.const_mul s).ae_eq (Eventually.of_forall fun w => by simp)⟩
    refine orthogonal_of_sq (c := 0) fun s => ?_
    rw [mul_zero]
    exact (rob (fun x => g00 x + s * h00 x) (fun x => g01 x + s * h01 x) (fun x => g10 x + s * h10 x) (fun x => g11 x + s * h11 x)
      (guess h.measG00 d00 s) (guess h.measG01 d01 s) (guess h.measG10 d10 s) (guess h.measG11 d11 s)).2

end DidCs

end DML
