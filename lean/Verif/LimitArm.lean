import Verif.LimitNorm

/-!
# Large samples: doubly robust signals

Nothing here models code of the package.
-/

namespace DML

open MeasureTheory ProbabilityTheory Filter Topology
open scoped ENNReal

variable {Ω : Type*} {mΩ : MeasurableSpace Ω} {P : Measure Ω} {S : Type*} [MeasurableSpace S] {W : ℕ → Ω → S}
  {𝒳 : Type*} [MeasurableSpace 𝒳]

/-! ## Parts of a score -/

/-- A part of a score: `f` at fitted nuisance functions, `f0` at the true ones; the difference vanishes in the 2-norm and its
mean vanishes faster than `1/√n`. -/
structure Part {s K : ℕ} (P : Measure Ω) (W : ℕ → Ω → S) (St : S → Fin s) (c : ∀ n, (Fin n → Fin s) → Scheme K n)
    (f : ∀ n, Fin K → (Fin n → S) → S → ℝ) (f0 : S → ℝ) : Prop where
  meas : ∀ n k, Measurable (Function.uncurry (f n k))
  uses : ∀ n k, UsesGiven St (f n k) fun α => (c n α).train k
  meas0 : Measurable f0
  mem0 : MemLp f0 2 (P.map (W 0))
  close : ∀ k, oPE P fun n ω => eLpNorm (fun w => f n k (sample W n ω) w - f0 w) 2 (P.map (W 0))
  unbiased : ∀ k, oP P fun n ω => Real.sqrt n * ∫ w, (f n k (sample W n ω) w - f0 w) ∂(P.map (W 0))

namespace Part

variable [IsProbabilityMeasure P] {s K : ℕ} {St : S → Fin s} {c : ∀ n, (Fin n → Fin s) → Scheme K n}
  {f g : ∀ n, Fin K → (Fin n → S) → S → ℝ} {f0 g0 : S → ℝ}

omit [IsProbabilityMeasure P] in
theorem measAt (h : Part P W St c f f0) (n : ℕ) (k : Fin K) (t : Fin n → S) : Measurable fun w => f n k t w - f0 w :=
  ((h.meas n k).comp (measurable_const.prodMk measurable_id)).sub h.meas0

omit [IsProbabilityMeasure P] in
theorem fixed (hf : Measurable f0) (h : MemLp f0 2 (P.map (W 0))) : Part P W St c (fun _ _ _ => f0) f0 := by
  refine ⟨fun n k => hf.comp measurable_snd, fun n k t t' _ _ => rfl, hf, h, fun k => ?_, fun k => ?_⟩
  · simp only [sub_self]
    refine fun δ _ => ?_
    simp
  · simp only [sub_self, integral_zero, mul_zero]
    refine fun ε hε => ?_
    simp [not_le.2 hε]

theorem comb (hW : Iid P W) (α β : ℝ) (hf : Part P W St c f f0) (hg : Part P W St c g g0) :
    Part P W St c (fun n k t w => α * f n k t w + β * g n k t w) fun w => α * f0 w + β * g0 w := by
  have hμ : IsProbabilityMeasure (P.map (W 0)) := Measure.isProbabilityMeasure_map (hW.meas 0).aemeasurable
  refine ⟨fun n k => ((hf.meas n k).const_mul α).add ((hg.meas n k).const_mul β), fun n k t t' hs ht => ?_,
    (hf.meas0.const_mul α).add (hg.meas0.const_mul β), (hf.mem0.const_mul α).add (hg.mem0.const_mul β), fun k => ?_, fun k => ?_⟩
  · funext w
    rw [congrFun (hf.uses n k t t' hs ht) w, congrFun (hg.uses n k t t' hs ht) w]
  · refine (((hf.close k).const_mul (c := ENNReal.ofReal |α|) (by simp)).add
      ((hg.close k).const_mul (c := ENNReal.ofReal |β|) (by simp))).mono fun n ω => ?_
    refine le_trans (le_of_eq ?_) ((eLpNorm_add_le' (μ := P.map (W 0)) one_le_two ((hf.measAt n k (sample W n ω)).const_mul α)
      ((hg.measAt n k (sample W n ω)).const_mul β)).trans (le_of_eq ?_))
    · congr 1
      funext w
      ring
    · rw [eLpNorm_smul_real, eLpNorm_smul_real]
  · have hsum := ((hf.unbiased k).const_mul α).add ((hg.unbiased k).const_mul β)
    have hbad := (hf.close k).add (hg.close k) 1 one_pos
    refine hsum.congr_on hbad (Eventually.of_forall fun n ω hω => ?_)
    have hω' : eLpNorm (fun w => f n k (sample W n ω) w - f0 w) 2 (P.map (W 0)) +
      eLpNorm (fun w => g n k (sample W n ω) w - g0 w) 2 (P.map (W 0)) ≤ 1 := not_lt.1 hω
    have m1 : MemLp (fun w => f n k (sample W n ω) w - f0 w) 2 (P.map (W 0)) :=
      ⟨(hf.measAt n k _).aestronglyMeasurable, (le_self_add.trans hω').trans_lt ENNReal.one_lt_top⟩
    have m2 : MemLp (fun w => g n k (sample W n ω) w - g0 w) 2 (P.map (W 0)) :=
      ⟨(hg.measAt n k _).aestronglyMeasurable, (le_add_self.trans hω').trans_lt ENNReal.one_lt_top⟩
    have i1 := (m1.integrable one_le_two).const_mul α
    have i2 := (m2.integrable one_le_two).const_mul β
    have e : ∫ w, (α * f n k (sample W n ω) w + β * g n k (sample W n ω) w - (α * f0 w + β * g0 w)) ∂(P.map (W 0)) =
        α * ∫ w, (f n k (sample W n ω) w - f0 w) ∂(P.map (W 0)) + β * ∫ w, (g n k (sample W n ω) w - g0 w) ∂(P.map (W 0)) := by
      rw [← integral_const_mul, ← integral_const_mul, ← integral_add i1 i2]
      congr 1
      funext w
      ring
    rw [e]
    refine le_of_eq (congrArg _ ?_)
    ring

omit [IsProbabilityMeasure P] in
theorem congr (hf : Part P W St c f f0) (e : ∀ n k t w, g n k t w = f n k t w) (e0 : ∀ w, g0 w = f0 w) : Part P W St c g g0 := by
  have h1 : g = f := by funext n k t w; exact e n k t w
  have h2 : g0 = f0 := funext e0
  rw [h1, h2]
  exact hf

theorem sub (hW : Iid P W) (hf : Part P W St c f f0) (hg : Part P W St c g g0) :
    Part P W St c (fun n k t w => f n k t w - g n k t w) fun w => f0 w - g0 w :=
  (hf.comb hW 1 (-1) hg).congr (fun _ _ _ _ => by ring) fun _ => by ring

theorem neg (hW : Iid P W) (hf : Part P W St c f f0) : Part P W St c (fun n k t w => -f n k t w) fun w => -f0 w :=
  (hf.comb hW (-1) 0 hf).congr (fun _ _ _ _ => by ring) fun _ => by ring

/-- Scores made of parts are regular. -/
theorem regular (hW : Iid P W) (hSt : Measurable St) (hc : StrataBalanced c) {θ : ℝ} (ha : Part P W St c f f0)
    (hb : Part P W St c g g0) (hid : ∫ w, f0 w ∂(P.map (W 0)) ≠ 0) (hmom : ∫ w, (f0 w * θ + g0 w) ∂(P.map (W 0)) = 0) :
    RegularScore P W St K c f g f0 g0 θ := by
  have hpsi := (ha.comb hW θ 1 hb).congr (g := fun n k t w => f n k t w * θ + g n k t w) (g0 := fun w => f0 w * θ + g0 w)
    (fun _ _ _ _ => by ring) fun _ => by ring
  exact ⟨hSt, hc, ha.meas, hb.meas, ha.uses, hb.uses, ha.meas0, hb.meas0, ha.mem0, hpsi.mem0, hid, hmom,
    fun k => (ha.close k).risk, fun k => (hpsi.close k).risk, hpsi.unbiased⟩

end Part

/-! ## Errors of transformed nuisance functions -/

section
variable {s K : ℕ} {ξ : S → 𝒳} {St : S → Fin s} {c : ∀ n, (Fin n → Fin s) → Scheme K n}
  {fh : ∀ n, Fin K → (Fin n → S) → 𝒳 → ℝ}

theorem Honest.post (h : Honest ξ St c fh) {φ : ℝ → ℝ} (hφ : Measurable φ) :
    Honest ξ St c fun n k t x => φ (fh n k t x) :=
  ⟨fun n k => hφ.comp (h.meas n k), fun n k t t' hs ht => funext fun w => congrArg φ (congrFun (h.uses n k t t' hs ht) w)⟩

omit [MeasurableSpace 𝒳] in
/-- Maps that do not increase distances do not increase errors. -/
theorem errNorm_post {f0 : 𝒳 → ℝ} {φ : ℝ → ℝ} {f1 : 𝒳 → ℝ} (hφ : ∀ v x, |φ v - f1 x| ≤ |v - f0 x|) (p : ℝ≥0∞)
    (k : Fin K) (n : ℕ) (ω : Ω) :
    errNorm P W ξ (fun n k t x => φ (fh n k t x)) f1 p k n ω ≤ errNorm P W ξ fh f0 p k n ω :=
  eLpNorm_mono fun w => by
    rw [Real.norm_eq_abs, Real.norm_eq_abs]
    exact hφ _ _

end

/-- For functions bounded by one the 4-norm is small if the 2-norm is. -/
theorem eLpNorm_four_le {μ : Measure S} {f : S → ℝ} (hf : ∀ w, |f w| ≤ 1) :
    eLpNorm f 4 μ ^ (4 : ℕ) ≤ eLpNorm f 2 μ ^ (2 : ℕ) := by
  have h4 := eLpNorm_nnreal_pow_eq_lintegral (μ := μ) (f := f) (p := 4) (by norm_num)
  have h2 := eLpNorm_nnreal_pow_eq_lintegral (μ := μ) (f := f) (p := 2) (by norm_num)
  have e4 : ((4 : NNReal) : ℝ) = ((4 : ℕ) : ℝ) := by norm_num
  have e2 : ((2 : NNReal) : ℝ) = ((2 : ℕ) : ℝ) := by norm_num
  simp only [e4, ENNReal.rpow_natCast] at h4
  simp only [e2, ENNReal.rpow_natCast] at h2
  have c4 : ((4 : NNReal) : ℝ≥0∞) = 4 := rfl
  have c2 : ((2 : NNReal) : ℝ≥0∞) = 2 := rfl
  rw [c4] at h4
  rw [c2] at h2
  rw [h4, h2]
  refine lintegral_mono fun w => ?_
  have h1 : ‖f w‖ₑ ≤ 1 := by
    rw [Real.enorm_eq_ofReal_abs]
    exact (ENNReal.ofReal_le_ofReal (hf w)).trans ENNReal.ofReal_one.le
  exact pow_le_pow_of_le_one zero_le h1 (by norm_num)

theorem oPE.four {μ : Measure S} {g : ℕ → Ω → S → ℝ} (h : oPE P fun n ω => eLpNorm (g n ω) 2 μ) (hg : ∀ n ω w, |g n ω w| ≤ 1) :
    oPE P fun n ω => eLpNorm (g n ω) 4 μ := by
  intro δ hδ
  have hδ' : 0 < min δ 1 := lt_min hδ one_pos
  have hpow : 0 < min δ 1 ^ 2 := ENNReal.pow_pos hδ' 2
  refine tendsto_of_tendsto_of_tendsto_of_le_of_le tendsto_const_nhds (h _ hpow) (fun _ => zero_le) fun n => ?_
  refine measure_mono fun ω (hω : δ < eLpNorm (g n ω) 4 μ) => ?_
  show min δ 1 ^ 2 < eLpNorm (g n ω) 2 μ
  by_contra hc
  have h1 := eLpNorm_four_le (μ := μ) (hg n ω)
  have h2 : eLpNorm (g n ω) 4 μ ^ 4 ≤ (min δ 1) ^ 4 := by
    refine h1.trans ((pow_le_pow_left' (not_lt.1 hc) 2).trans (le_of_eq ?_))
    rw [← pow_mul]
  have h3 := (ENNReal.pow_right_strictMono (n := 4) (by norm_num)).le_iff_le.1 h2
  exact absurd (hω.trans_le (h3.trans (min_le_left _ _))) (lt_irrefl _)

/-! ## Doubly robust signals at fitted functions -/

section Arm

variable [IsProbabilityMeasure P] {y u : S → ℝ} {ξ : S → 𝒳} {g m : 𝒳 → ℝ} {τ : ℝ} {s K : ℕ} {St : S → Fin s}
  {c : ∀ n, (Fin n → Fin s) → Scheme K n} {gh mh : ∀ n, Fin K → (Fin n → S) → 𝒳 → ℝ}

/-- The doubly robust signal is a part of a score if the errors vanish in the 2-norm and their product vanishes faster than
`1/√n`. -/
theorem armPart (hW : Iid P W) (law : ArmLaw (P.map (W 0)) y u ξ g m τ 4) (hg : Honest ξ St c gh) (hm : Honest ξ St c mh)
    (hb : ∀ n k t x, τ ≤ mh n k t x ∧ mh n k t x ≤ 1) (eg : ∀ k, oPE P (errNorm P W ξ gh g 2 k))
    (em : ∀ k, oPE P (errNorm P W ξ mh m 2 k))
    (rate : ∀ k, oPE P fun n ω => ENNReal.ofReal (Real.sqrt n) * (errNorm P W ξ mh m 2 k n ω * errNorm P W ξ gh g 2 k n ω)) :
    Part P W St c (fun n k t => armVal y u ξ (gh n k t) (mh n k t)) (armVal y u ξ g m) := by
  have hμ : IsProbabilityMeasure (P.map (W 0)) := Measure.isProbabilityMeasure_map (hW.meas 0).aemeasurable
  have law2 := law.mono (q := 2) (by norm_num)
  have hτ := law.pos
  have mΔg : ∀ n k t, Measurable fun w => gh n k t (ξ w) - g (ξ w) := fun n k t => ((hg.measAt n k t).sub law.measG).comp law.measX
  have mΔm : ∀ n k t, Measurable fun w => mh n k t (ξ w) - m (ξ w) := fun n k t => ((hm.measAt n k t).sub law.measM).comp law.measX
  have mmh : ∀ n k t, Measurable fun w => mh n k t (ξ w) := fun n k t => (hm.measAt n k t).comp law.measX
  have mres : Measurable fun w => u w * (y w - g (ξ w)) := law.measU.mul (law.measY.sub (law.measG.comp law.measX))
  refine ⟨fun n k => ?_, fun n k t t' hs ht => ?_, law.measVal, (law.mem.mono_exponent (by norm_num)), fun k => ?_, fun k => ?_⟩
  · exact (hg.measJ law.measX n k).add (((law.measU.comp measurable_snd).mul ((law.measY.comp measurable_snd).sub
      (hg.measJ law.measX n k))).div (hm.measJ law.measX n k))
  · funext w
    have h1 : gh n k t (ξ w) = gh n k t' (ξ w) := congrFun (hg.uses n k t t' hs ht) w
    have h2 : mh n k t (ξ w) = mh n k t' (ξ w) := congrFun (hm.uses n k t t' hs ht) w
    unfold armVal
    rw [h1, h2]
  · have h4 : oPE P fun n ω => eLpNorm (fun w => mh n k (sample W n ω) (ξ w) - m (ξ w)) 4 (P.map (W 0)) :=
      oPE.four (em k) fun n ω w => by
        have h1 := hb n k (sample W n ω) (ξ w)
        have h2 := law.overlap (ξ w)
        rw [_root_.abs_le]
        constructor <;> linarith
    have hB := ((eg k).const_mul (c := ENNReal.ofReal (1 + τ⁻¹)) (by simp)).add
      ((h4.const_mul (c := ENNReal.ofReal (τ⁻¹ * τ⁻¹)) (by simp)).mul_const law.memNoise.2.ne)
    refine hB.mono fun n ω => ?_
    set G := gh n k (sample W n ω) with hG
    set M := mh n k (sample W n ω) with hM
    have hMb := fun x => hb n k (sample W n ω) x
    have hMp : ∀ x, 0 < M x := fun x => hτ.trans_le (hMb x).1
    have hmp : ∀ x, 0 < m x := fun x => hτ.trans_le (law.overlap x).1
    have e : (fun w => armVal y u ξ G M w - armVal y u ξ g m w) = fun w =>
        (G (ξ w) - g (ξ w)) * (1 - u w * (M (ξ w))⁻¹) + (u w * (y w - g (ξ w))) * ((M (ξ w))⁻¹ - (m (ξ w))⁻¹) := by
      funext w
      have h1 := (hMp (ξ w)).ne'
      have h2 := (hmp (ξ w)).ne'
      unfold armVal
      field_simp
      ring
    rw [e]
    have m1 : Measurable fun w => 1 - u w * (M (ξ w))⁻¹ := measurable_const.sub (law.measU.mul (mmh n k _).inv)
    have m2 : Measurable fun w => (M (ξ w))⁻¹ - (m (ξ w))⁻¹ := (mmh n k _).inv.sub (law.measM.comp law.measX).inv
    refine (eLpNorm_add_le' one_le_two ((mΔg n k _).mul m1) (mres.mul m2)).trans (add_le_add ?_ ?_)
    · have : ∀ w, ‖(G (ξ w) - g (ξ w)) * (1 - u w * (M (ξ w))⁻¹)‖ ≤ ‖(1 + τ⁻¹) * (G (ξ w) - g (ξ w))‖ := fun w => by
        rw [norm_mul, norm_mul, mul_comm]
        refine mul_le_mul_of_nonneg_right ?_ (norm_nonneg _)
        rw [Real.norm_eq_abs, Real.norm_eq_abs, abs_of_pos (a := 1 + τ⁻¹) (by positivity)]
        refine (abs_sub _ _).trans (add_le_add (by simp) ?_)
        rw [abs_mul]
        calc |u w| * |(M (ξ w))⁻¹| ≤ 1 * τ⁻¹ := mul_le_mul (law.unit_abs w) (inv_bdd hτ (hMb _).1) (abs_nonneg _) zero_le_one
          _ = τ⁻¹ := one_mul _
      refine (eLpNorm_mono this).trans (le_of_eq ?_)
      rw [eLpNorm_smul_real, abs_of_pos (a := 1 + τ⁻¹) (by positivity)]
      rfl
    · refine (eLpNorm_mul_four mres m2).trans ?_
      rw [mul_comm]
      refine mul_le_mul_left ?_ _
      have : ∀ w, ‖(M (ξ w))⁻¹ - (m (ξ w))⁻¹‖ ≤ ‖(τ⁻¹ * τ⁻¹) * (M (ξ w) - m (ξ w))‖ := fun w => by
        have h1 := (hMp (ξ w)).ne'
        have h2 := (hmp (ξ w)).ne'
        have e3 : (M (ξ w))⁻¹ - (m (ξ w))⁻¹ = -((M (ξ w))⁻¹ * (m (ξ w))⁻¹) * (M (ξ w) - m (ξ w)) := by
          field_simp
          ring
        rw [e3, norm_mul, norm_mul]
        refine mul_le_mul_of_nonneg_right ?_ (norm_nonneg _)
        rw [Real.norm_eq_abs, Real.norm_eq_abs, abs_neg, abs_mul, abs_of_pos (a := τ⁻¹ * τ⁻¹) (by positivity)]
        exact mul_le_mul (inv_bdd hτ (hMb _).1) (inv_bdd hτ (law.overlap _).1) (abs_nonneg _) (by positivity)
      refine (eLpNorm_mono this).trans (le_of_eq ?_)
      rw [eLpNorm_smul_real, abs_of_pos (a := τ⁻¹ * τ⁻¹) (by positivity)]
  · have hR := (rate k).const_mul (c := ENNReal.ofReal τ⁻¹) (by simp)
    refine oP_of_bound hR (eg k) fun n ω h1 => ?_
    set G := gh n k (sample W n ω) with hG
    set M := mh n k (sample W n ω) with hM
    have hMb := fun x => hb n k (sample W n ω) x
    have hMp : ∀ x, 0 < M x := fun x => hτ.trans_le (hMb x).1
    have L1 : MemLp (fun w => G (ξ w) - g (ξ w)) 2 (P.map (W 0)) :=
      ⟨(mΔg n k _).aestronglyMeasurable, h1.trans_lt ENNReal.one_lt_top⟩
    have L2 : MemLp (fun w => (M (ξ w) - m (ξ w)) * (M (ξ w))⁻¹) 2 (P.map (W 0)) := by
      refine memLp_of_bdd (C := 1 * τ⁻¹) ((mΔm n k _).mul (mmh n k _).inv) fun w => ?_
      have h1 := hMb (ξ w)
      have h2 := law.overlap (ξ w)
      rw [abs_mul]
      refine mul_le_mul ?_ (inv_bdd hτ h1.1) (abs_nonneg _) zero_le_one
      rw [_root_.abs_le]
      constructor <;> linarith
    have n1 := law2.signal (hg.measAt n k _) (hm.measAt n k _) L1 fun x => (hMb x).1
    have n2 := n1.sub law2.null
    have e : ∫ w, (armVal y u ξ G M w - armVal y u ξ g m w) ∂(P.map (W 0)) =
        ∫ w, (G (ξ w) - g (ξ w)) * ((M (ξ w) - m (ξ w)) * (M (ξ w))⁻¹) ∂(P.map (W 0)) :=
      n2.integral_eq (L1.integrable_mul L2) fun w => by
        rw [div_eq_mul_inv]
        ring
    rw [e, abs_mul, abs_of_nonneg (Real.sqrt_nonneg _), ENNReal.ofReal_mul (Real.sqrt_nonneg _)]
    have hb2 : eLpNorm (fun w => (M (ξ w) - m (ξ w)) * (M (ξ w))⁻¹) 2 (P.map (W 0)) ≤
        ENNReal.ofReal τ⁻¹ * errNorm P W ξ mh m 2 k n ω := by
      have : ∀ w, ‖(M (ξ w) - m (ξ w)) * (M (ξ w))⁻¹‖ ≤ ‖τ⁻¹ * (M (ξ w) - m (ξ w))‖ := fun w => by
        rw [norm_mul, norm_mul, mul_comm]
        refine mul_le_mul_of_nonneg_right ?_ (norm_nonneg _)
        rw [Real.norm_eq_abs, Real.norm_eq_abs, abs_of_pos (a := τ⁻¹) (by positivity)]
        exact inv_bdd hτ (hMb _).1
      refine (eLpNorm_mono this).trans (le_of_eq ?_)
      rw [eLpNorm_smul_real, abs_of_pos (a := τ⁻¹) (by positivity)]
      rfl
    refine (mul_le_mul_right ((integral_mul_le (mΔg n k _) ((mΔm n k _).mul (mmh n k _).inv)).trans
      (mul_le_mul_right hb2 _)) _).trans (le_of_eq ?_)
    have e3 : eLpNorm (fun w => G (ξ w) - g (ξ w)) 2 (P.map (W 0)) = errNorm P W ξ gh g 2 k n ω := rfl
    rw [e3]
    ring

end Arm

end DML
