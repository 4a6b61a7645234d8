import Verif.LimitScore
import Verif.Population

/-!
# Large samples: from errors of nuisance functions to regular scores

Nothing here models code of the package.
-/

namespace DML

open MeasureTheory ProbabilityTheory Filter Topology
open scoped ENNReal

variable {Ω : Type*} {mΩ : MeasurableSpace Ω} {P : Measure Ω} {S : Type*} [MeasurableSpace S] {W : ℕ → Ω → S}
  {𝒳 : Type*} [MeasurableSpace 𝒳]

/-! ## Errors that vanish in probability -/

theorem oPE.mono {R R' : ℕ → Ω → ℝ≥0∞} (h : oPE P R) (hle : ∀ n ω, R' n ω ≤ R n ω) : oPE P R' := fun δ hδ =>
  tendsto_of_tendsto_of_tendsto_of_le_of_le tendsto_const_nhds (h δ hδ) (fun _ => zero_le)
    fun n => measure_mono fun ω (hω : δ < R' n ω) => hω.trans_le (hle n ω)

theorem oPE.add {R R' : ℕ → Ω → ℝ≥0∞} (h : oPE P R) (h' : oPE P R') : oPE P fun n ω => R n ω + R' n ω := fun δ hδ => by
  have hδ2 : 0 < δ / 2 := ENNReal.div_pos hδ.ne' (by simp)
  have := (h _ hδ2).add (h' _ hδ2)
  rw [add_zero] at this
  refine tendsto_of_tendsto_of_tendsto_of_le_of_le tendsto_const_nhds this (fun _ => zero_le) fun n => ?_
  refine (measure_mono fun ω (hω : δ < R n ω + R' n ω) => ?_).trans (measure_union_le _ _)
  by_contra hc
  have h1 : R n ω ≤ δ / 2 := not_lt.1 fun h => hc (Or.inl h)
  have h2 : R' n ω ≤ δ / 2 := not_lt.1 fun h => hc (Or.inr h)
  exact absurd hω (not_lt.2 ((add_le_add h1 h2).trans (ENNReal.add_halves δ).le))

theorem oPE.mul {R R' : ℕ → Ω → ℝ≥0∞} (h : oPE P R) (h' : oPE P R') : oPE P fun n ω => R n ω * R' n ω := fun δ hδ => by
  have := (h δ hδ).add (h' 1 one_pos)
  rw [add_zero] at this
  refine tendsto_of_tendsto_of_tendsto_of_le_of_le tendsto_const_nhds this (fun _ => zero_le) fun n => ?_
  refine (measure_mono fun ω (hω : δ < R n ω * R' n ω) => ?_).trans (measure_union_le _ _)
  by_contra hc
  have h1 : R n ω ≤ δ := not_lt.1 fun h => hc (Or.inl h)
  have h2 : R' n ω ≤ 1 := not_lt.1 fun h => hc (Or.inr h)
  exact absurd hω (not_lt.2 ((mul_le_mul' h1 h2).trans (mul_one δ).le))

theorem oPE.const_mul {R : ℕ → Ω → ℝ≥0∞} (h : oPE P R) {c : ℝ≥0∞} (hc : c ≠ ∞) : oPE P fun n ω => c * R n ω := fun δ hδ => by
  rcases eq_or_ne δ ∞ with rfl | hδt
  · refine tendsto_const_nhds.congr fun n => ?_
    rw [show {ω | ∞ < c * R n ω} = ∅ from Set.eq_empty_iff_forall_notMem.2 fun ω h => not_top_lt (show ∞ < c * R n ω from h), measure_empty]
  rcases eq_or_ne c 0 with rfl | h0
  · refine tendsto_const_nhds.congr fun n => ?_
    rw [show {ω | δ < 0 * R n ω} = ∅ from Set.eq_empty_iff_forall_notMem.2 fun ω h => by
      have : δ < 0 * R n ω := h
      simp at this, measure_empty]
  refine tendsto_of_tendsto_of_tendsto_of_le_of_le tendsto_const_nhds (h (δ / c) (ENNReal.div_pos hδ.ne' hc)) (fun _ => zero_le)
    fun n => measure_mono fun ω (hω : δ < c * R n ω) => ?_
  exact ENNReal.div_lt_of_lt_mul' hω

theorem oPE.mul_const {R : ℕ → Ω → ℝ≥0∞} (h : oPE P R) {c : ℝ≥0∞} (hc : c ≠ ∞) : oPE P fun n ω => R n ω * c :=
  (h.const_mul hc).mono fun _ _ => (mul_comm _ _).le

/-- A random number bounded by an error outside of unlikely events. -/
theorem oP_of_bound {X : ℕ → Ω → ℝ} {R R' : ℕ → Ω → ℝ≥0∞} (hR : oPE P R) (hR' : oPE P R')
    (h : ∀ n ω, R' n ω ≤ 1 → ENNReal.ofReal |X n ω| ≤ R n ω) : oP P X := fun ε hε => by
  have hε' : (0 : ℝ≥0∞) < ENNReal.ofReal ε / 2 := ENNReal.div_pos (ENNReal.ofReal_pos.2 hε).ne' (by simp)
  have hlt : ENNReal.ofReal ε / 2 < ENNReal.ofReal ε := ENNReal.half_lt_self (ENNReal.ofReal_pos.2 hε).ne' ENNReal.ofReal_ne_top
  have := (hR _ hε').add (hR' 1 one_pos)
  rw [add_zero] at this
  refine tendsto_of_tendsto_of_tendsto_of_le_of_le tendsto_const_nhds this (fun _ => zero_le) fun n => ?_
  refine (measure_mono fun ω (hω : ε ≤ |X n ω|) => ?_).trans (measure_union_le _ _)
  by_contra hc
  have h1 : R n ω ≤ ENNReal.ofReal ε / 2 := not_lt.1 fun h => hc (Or.inl h)
  have h2 : R' n ω ≤ 1 := not_lt.1 fun h => hc (Or.inr h)
  exact absurd ((ENNReal.ofReal_le_ofReal hω).trans ((h n ω h2).trans h1)) (not_le.2 hlt)

theorem risk_eq (μ : Measure S) (g : S → ℝ) : risk μ g = eLpNorm g 2 μ * eLpNorm g 2 μ := by
  have h := eLpNorm_nnreal_pow_eq_lintegral (μ := μ) (f := g) (p := 2) (by norm_num)
  unfold risk
  have e2 : ((2 : NNReal) : ℝ) = ((2 : ℕ) : ℝ) := by norm_num
  simp only [e2, ENNReal.rpow_natCast] at h
  rw [← h, sq]
  rfl

theorem oPE.risk {μ : Measure S} {g : ℕ → Ω → S → ℝ} (h : oPE P fun n ω => eLpNorm (g n ω) 2 μ) :
    oPE P fun n ω => risk μ (g n ω) :=
  (h.mul h).mono fun _ _ => (risk_eq μ _).le

/-- Hölder's inequality. -/
theorem eLpNorm_mul_four {μ : Measure S} {f g : S → ℝ} (hf : Measurable f) (hg : Measurable g) :
    eLpNorm (fun w => f w * g w) 2 μ ≤ eLpNorm f 4 μ * eLpNorm g 4 μ := by
  have h4 : ENNReal.HolderTriple 4 4 2 := ⟨by
    rw [← ENNReal.toReal_eq_toReal_iff' (by simp) (by simp), ENNReal.toReal_add (by simp) (by simp)]
    norm_num⟩
  have := eLpNorm_smul_le_mul_eLpNorm (p := 4) (q := 4) (r := 2) (μ := μ) hg.aestronglyMeasurable hf.aestronglyMeasurable
  exact this

/-- Integrals of products. -/
theorem integral_mul_le {μ : Measure S} {f g : S → ℝ} (hf : Measurable f) (hg : Measurable g) :
    ENNReal.ofReal |∫ w, f w * g w ∂μ| ≤ eLpNorm f 2 μ * eLpNorm g 2 μ := by
  have h := eLpNorm_smul_le_mul_eLpNorm (p := 2) (q := 2) (r := 1) (μ := μ) hg.aestronglyMeasurable hf.aestronglyMeasurable
  refine le_trans ?_ h
  rw [eLpNorm_one_eq_lintegral_enorm]
  have h2 := enorm_integral_le_lintegral_enorm (μ := μ) fun w => f w * g w
  rw [Real.enorm_eq_ofReal_abs] at h2
  exact h2

theorem eLpNorm_add_le' {μ : Measure S} {p : ℝ≥0∞} (hp : 1 ≤ p) {f g : S → ℝ} (hf : Measurable f) (hg : Measurable g) :
    eLpNorm (fun w => f w + g w) p μ ≤ eLpNorm f p μ + eLpNorm g p μ :=
  eLpNorm_add_le hf.aestronglyMeasurable hg.aestronglyMeasurable hp

theorem eLpNorm_sub_le' {μ : Measure S} {p : ℝ≥0∞} (hp : 1 ≤ p) {f g : S → ℝ} (hf : Measurable f) (hg : Measurable g) :
    eLpNorm (fun w => f w - g w) p μ ≤ eLpNorm f p μ + eLpNorm g p μ :=
  eLpNorm_sub_le hf.aestronglyMeasurable hg.aestronglyMeasurable hp

theorem eLpNorm_smul_real {μ : Measure S} {p : ℝ≥0∞} (c : ℝ) (f : S → ℝ) :
    eLpNorm (fun w => c * f w) p μ = ENNReal.ofReal |c| * eLpNorm f p μ := by
  have := eLpNorm_const_smul (μ := μ) c f p
  rw [Real.enorm_eq_ofReal_abs] at this
  exact this

/-! ## Errors of fitted nuisance functions -/

/-- The `p`-norm of the error of the nuisance function fitted for fold `k` (with the distribution of one observation). -/
noncomputable def errNorm {K : ℕ} (P : Measure Ω) (W : ℕ → Ω → S) (ξ : S → 𝒳) (fh : ∀ n, Fin K → (Fin n → S) → 𝒳 → ℝ)
    (f0 : 𝒳 → ℝ) (p : ℝ≥0∞) (k : Fin K) (n : ℕ) (ω : Ω) : ℝ≥0∞ :=
  eLpNorm (fun w => fh n k (sample W n ω) (ξ w) - f0 (ξ w)) p (P.map (W 0))

/-- Fitted nuisance functions: they depend measurably on the training set and, apart from the strata, on nothing else. -/
structure Honest {s K : ℕ} (ξ : S → 𝒳) (St : S → Fin s) (c : ∀ n, (Fin n → Fin s) → Scheme K n)
    (fh : ∀ n, Fin K → (Fin n → S) → 𝒳 → ℝ) : Prop where
  meas : ∀ n k, Measurable (Function.uncurry (fh n k))
  uses : ∀ n k, UsesGiven St (fun t w => fh n k t (ξ w)) fun α => (c n α).train k

theorem Honest.measAt {s K : ℕ} {ξ : S → 𝒳} {St : S → Fin s} {c : ∀ n, (Fin n → Fin s) → Scheme K n}
    {fh : ∀ n, Fin K → (Fin n → S) → 𝒳 → ℝ} (h : Honest ξ St c fh) (n : ℕ) (k : Fin K) (t : Fin n → S) : Measurable fun x => fh n k t x :=
  (h.meas n k).comp (measurable_const.prodMk measurable_id)

theorem Honest.measJ {s K : ℕ} {ξ : S → 𝒳} {St : S → Fin s} {c : ∀ n, (Fin n → Fin s) → Scheme K n}
    {fh : ∀ n, Fin K → (Fin n → S) → 𝒳 → ℝ} (h : Honest ξ St c fh) (hξ : Measurable ξ) (n : ℕ) (k : Fin K) : Measurable fun q : (Fin n → S) × S => fh n k q.1 (ξ q.2) :=
  (h.meas n k).comp (measurable_fst.prodMk (hξ.comp measurable_snd))

/-! ## The partially linear models -/

section Pliv

variable [IsProbabilityMeasure P] {y d z : S → ℝ} {ξ : S → 𝒳} {θ : ℝ} {g m r : 𝒳 → ℝ} {s K : ℕ} {St : S → Fin s}
  {c : ∀ n, (Fin n → Fin s) → Scheme K n} {lh mh rh : ∀ n, Fin K → (Fin n → S) → 𝒳 → ℝ}

/-- The score of the partially linear models with fitted nuisance functions is regular if the errors vanish in the 4-norm
and the products of the 2-norms vanish faster than `1/√n`. -/
theorem plivRegular (hW : Iid P W) (hSt : Measurable St) (hc : StrataBalanced c) (law : PlivLaw (P.map (W 0)) y d z ξ θ g m r 4)
    (hid : ∫ w, (d w - r (ξ w)) * (z w - m (ξ w)) ∂(P.map (W 0)) ≠ 0)
    (hl : Honest ξ St c lh) (hm : Honest ξ St c mh) (hr : Honest ξ St c rh)
    (el : ∀ k, oPE P (errNorm P W ξ lh (fun x => θ * r x + g x) 4 k)) (em : ∀ k, oPE P (errNorm P W ξ mh m 4 k))
    (er : ∀ k, oPE P (errNorm P W ξ rh r 4 k))
    (rate : ∀ k, oPE P fun n ω => ENNReal.ofReal (Real.sqrt n) * (errNorm P W ξ mh m 2 k n ω *
      (errNorm P W ξ rh r 2 k n ω + errNorm P W ξ lh (fun x => θ * r x + g x) 2 k n ω))) :
    RegularScore P W St K c (fun n k t w => -((d w - rh n k t (ξ w)) * (z w - mh n k t (ξ w))))
      (fun n k t w => (y w - lh n k t (ξ w)) * (z w - mh n k t (ξ w)))
      (fun w => -((d w - r (ξ w)) * (z w - m (ξ w))))
      (fun w => (y w - (θ * r (ξ w) + g (ξ w))) * (z w - m (ξ w))) θ := by
  have hμ : IsProbabilityMeasure (P.map (W 0)) := Measure.isProbabilityMeasure_map (hW.meas 0).aemeasurable
  have law2 := law.mono (q := 2) (by norm_num)
  have mdr : Measurable fun w => d w - r (ξ w) := law.measD.sub (law.measR.comp law.measX)
  have mzm : Measurable fun w => z w - m (ξ w) := law.measZ.sub (law.measM.comp law.measX)
  have mζ : Measurable fun w => y w - θ * d w - g (ξ w) :=
    (law.measY.sub (law.measD.const_mul θ)).sub (law.measG.comp law.measX)
  have ml0 : Measurable fun x => θ * r x + g x := (law.measR.const_mul θ).add law.measG
  have mul4 : ∀ {f h : S → ℝ}, Measurable f → Measurable h → MemLp f 4 (P.map (W 0)) → MemLp h 4 (P.map (W 0)) →
      MemLp (fun w => f w * h w) 2 (P.map (W 0)) := fun hf hh h1 h2 =>
    ⟨(hf.mul hh).aestronglyMeasurable, (eLpNorm_mul_four hf hh).trans_lt (ENNReal.mul_lt_top h1.2 h2.2)⟩
  -- the errors as functions
  have mΔl : ∀ n k t, Measurable fun w => lh n k t (ξ w) - (θ * r (ξ w) + g (ξ w)) := fun n k t =>
    ((hl.measAt n k t).sub ml0).comp law.measX
  have mΔm : ∀ n k t, Measurable fun w => mh n k t (ξ w) - m (ξ w) := fun n k t => ((hm.measAt n k t).sub law.measM).comp law.measX
  have mΔr : ∀ n k t, Measurable fun w => rh n k t (ξ w) - r (ξ w) := fun n k t => ((hr.measAt n k t).sub law.measR).comp law.measX
  have mΔe : ∀ n k t, Measurable fun w => (lh n k t (ξ w) - (θ * r (ξ w) + g (ξ w))) - θ * (rh n k t (ξ w) - r (ξ w)) :=
    fun n k t => (mΔl n k t).sub ((mΔr n k t).const_mul θ)
  have psi0 : ∀ w, -((d w - r (ξ w)) * (z w - m (ξ w))) * θ + (y w - (θ * r (ξ w) + g (ξ w))) * (z w - m (ξ w)) =
      (y w - θ * d w - g (ξ w)) * (z w - m (ξ w)) := fun w => by ring
  have bound : ∀ (p : ℝ≥0∞), 1 ≤ p → ∀ k n ω, eLpNorm (fun w => (lh n k (sample W n ω) (ξ w) - (θ * r (ξ w) + g (ξ w))) -
      θ * (rh n k (sample W n ω) (ξ w) - r (ξ w))) p (P.map (W 0)) ≤
      errNorm P W ξ lh (fun x => θ * r x + g x) p k n ω + ENNReal.ofReal |θ| * errNorm P W ξ rh r p k n ω := fun p hp k n ω => by
    refine (eLpNorm_sub_le' hp (mΔl _ _ _) ((mΔr _ _ _).const_mul θ)).trans ?_
    rw [eLpNorm_smul_real]
    exact le_rfl
  refine ⟨hSt, hc, fun n k => ?_, fun n k => ?_, fun n k => ?_, fun n k => ?_, (mdr.mul mzm).neg,
    ((law.measY.sub (ml0.comp law.measX)).mul mzm), (mul4 mdr mzm law.memTreat law.memInstr).neg, ?_, ?_, ?_, fun k => ?_,
    fun k => ?_, fun k => ?_⟩
  · exact (((law.measD.comp measurable_snd).sub (hr.measJ law.measX n k)).mul
      ((law.measZ.comp measurable_snd).sub (hm.measJ law.measX n k))).neg
  · exact ((law.measY.comp measurable_snd).sub (hl.measJ law.measX n k)).mul
      ((law.measZ.comp measurable_snd).sub (hm.measJ law.measX n k))
  · intro t t' hs h
    funext w
    have h1 := congrFun (hr.uses n k t t' hs h) w
    have h2 := congrFun (hm.uses n k t t' hs h) w
    dsimp only at h1 h2 ⊢
    rw [h1, h2]
  · intro t t' hs h
    funext w
    have h1 := congrFun (hl.uses n k t t' hs h) w
    have h2 := congrFun (hm.uses n k t t' hs h) w
    dsimp only at h1 h2 ⊢
    rw [h1, h2]
  · simp only [psi0]
    exact mul4 mζ mzm law.memNoise law.memInstr
  · rw [integral_neg]
    exact neg_ne_zero.2 hid
  · simp only [psi0]
    exact law2.noise_instr.2
  · -- the denominator
    refine oPE.risk ?_
    have hb : oPE P fun n ω => errNorm P W ξ mh m 4 k n ω * eLpNorm (fun w => d w - r (ξ w)) 4 (P.map (W 0)) +
        errNorm P W ξ rh r 4 k n ω * eLpNorm (fun w => z w - m (ξ w)) 4 (P.map (W 0)) +
        errNorm P W ξ rh r 4 k n ω * errNorm P W ξ mh m 4 k n ω :=
      (((em k).mul_const law.memTreat.2.ne).add ((er k).mul_const law.memInstr.2.ne)).add ((er k).mul (em k))
    refine hb.mono fun n ω => ?_
    have e : (fun w => -((d w - rh n k (sample W n ω) (ξ w)) * (z w - mh n k (sample W n ω) (ξ w))) -
        -((d w - r (ξ w)) * (z w - m (ξ w)))) = fun w =>
        ((mh n k (sample W n ω) (ξ w) - m (ξ w)) * (d w - r (ξ w)) + (rh n k (sample W n ω) (ξ w) - r (ξ w)) * (z w - m (ξ w))) -
          (rh n k (sample W n ω) (ξ w) - r (ξ w)) * (mh n k (sample W n ω) (ξ w) - m (ξ w)) := by funext w; ring
    rw [e]
    refine (eLpNorm_sub_le' (by norm_num) (((mΔm _ _ _).mul mdr).add ((mΔr _ _ _).mul mzm)) ((mΔr _ _ _).mul (mΔm _ _ _))).trans ?_
    refine add_le_add ((eLpNorm_add_le' (by norm_num) ((mΔm _ _ _).mul mdr) ((mΔr _ _ _).mul mzm)).trans (add_le_add ?_ ?_)) ?_
    · exact eLpNorm_mul_four (mΔm _ _ _) mdr
    · exact eLpNorm_mul_four (mΔr _ _ _) mzm
    · exact eLpNorm_mul_four (mΔr _ _ _) (mΔm _ _ _)
  · -- the score
    refine oPE.risk ?_
    have he : oPE P fun n ω => errNorm P W ξ lh (fun x => θ * r x + g x) 4 k n ω + ENNReal.ofReal |θ| * errNorm P W ξ rh r 4 k n ω :=
      (el k).add ((er k).const_mul ENNReal.ofReal_ne_top)
    have hb := (((em k).mul_const law.memNoise.2.ne).add (he.mul_const law.memInstr.2.ne)).add (he.mul (em k))
    refine hb.mono fun n ω => ?_
    have e : (fun w => -((d w - rh n k (sample W n ω) (ξ w)) * (z w - mh n k (sample W n ω) (ξ w))) * θ +
        (y w - lh n k (sample W n ω) (ξ w)) * (z w - mh n k (sample W n ω) (ξ w)) -
        (-((d w - r (ξ w)) * (z w - m (ξ w))) * θ + (y w - (θ * r (ξ w) + g (ξ w))) * (z w - m (ξ w)))) = fun w =>
        ((lh n k (sample W n ω) (ξ w) - (θ * r (ξ w) + g (ξ w))) - θ * (rh n k (sample W n ω) (ξ w) - r (ξ w))) *
          (mh n k (sample W n ω) (ξ w) - m (ξ w)) -
        ((mh n k (sample W n ω) (ξ w) - m (ξ w)) * (y w - θ * d w - g (ξ w)) +
        ((lh n k (sample W n ω) (ξ w) - (θ * r (ξ w) + g (ξ w))) - θ * (rh n k (sample W n ω) (ξ w) - r (ξ w))) *
          (z w - m (ξ w))) := by
      funext w; ring
    rw [e]
    refine (eLpNorm_sub_le' (by norm_num) ((mΔe _ _ _).mul (mΔm _ _ _)) (((mΔm _ _ _).mul mζ).add ((mΔe _ _ _).mul mzm))).trans ?_
    rw [add_comm]
    refine add_le_add ((eLpNorm_add_le' (by norm_num) ((mΔm _ _ _).mul mζ) ((mΔe _ _ _).mul mzm)).trans (add_le_add ?_ ?_)) ?_
    · exact eLpNorm_mul_four (mΔm _ _ _) mζ
    · exact (eLpNorm_mul_four (mΔe _ _ _) mzm).trans (mul_le_mul_left (bound 4 (by norm_num) k n ω) _)
    · exact (eLpNorm_mul_four (mΔe _ _ _) (mΔm _ _ _)).trans (mul_le_mul_left (bound 4 (by norm_num) k n ω) _)
  · -- the bias
    have hR := (rate k).const_mul (c := ENNReal.ofReal |θ| + 1) (by simp)
    have hbad := ((el k).add (em k)).add (er k)
    refine oP_of_bound hR hbad fun n ω h1 => ?_
    have f1 : errNorm P W ξ lh (fun x => θ * r x + g x) 4 k n ω < ∞ :=
      ((le_self_add.trans le_self_add).trans h1).trans_lt ENNReal.one_lt_top
    have f2 : errNorm P W ξ mh m 4 k n ω < ∞ := ((le_add_self.trans le_self_add).trans h1).trans_lt ENNReal.one_lt_top
    have f3 : errNorm P W ξ rh r 4 k n ω < ∞ := (le_add_self.trans h1).trans_lt ENNReal.one_lt_top
    have L1 : MemLp (fun w => lh n k (sample W n ω) (ξ w) - (θ * r (ξ w) + g (ξ w))) 4 (P.map (W 0)) := ⟨(mΔl _ _ _).aestronglyMeasurable, f1⟩
    have L2 : MemLp (fun w => mh n k (sample W n ω) (ξ w) - m (ξ w)) 4 (P.map (W 0)) := ⟨(mΔm _ _ _).aestronglyMeasurable, f2⟩
    have L3 : MemLp (fun w => rh n k (sample W n ω) (ξ w) - r (ξ w)) 4 (P.map (W 0)) := ⟨(mΔr _ _ _).aestronglyMeasurable, f3⟩
    have h24 : (2 : ℝ≥0∞) ≤ 4 := by norm_num
    have hmom := law2.moment (hl.measAt n k (sample W n ω)) (hm.measAt n k (sample W n ω)) (hr.measAt n k (sample W n ω))
      (L1.mono_exponent h24) (L2.mono_exponent h24) (L3.mono_exponent h24)
    have n0 := law2.noise_instr
    have e : ∫ w, ((-((d w - rh n k (sample W n ω) (ξ w)) * (z w - mh n k (sample W n ω) (ξ w))) * θ +
        (y w - lh n k (sample W n ω) (ξ w)) * (z w - mh n k (sample W n ω) (ξ w))) -
        (-((d w - r (ξ w)) * (z w - m (ξ w))) * θ + (y w - (θ * r (ξ w) + g (ξ w))) * (z w - m (ξ w)))) ∂(P.map (W 0)) =
        ∫ w, ((lh n k (sample W n ω) (ξ w) - (θ * r (ξ w) + g (ξ w))) - θ * (rh n k (sample W n ω) (ξ w) - r (ξ w))) *
          (mh n k (sample W n ω) (ξ w) - m (ξ w)) ∂(P.map (W 0)) := by
      rw [← hmom]
      have M1 : MemLp (fun w => y w - lh n k (sample W n ω) (ξ w) - θ * (d w - rh n k (sample W n ω) (ξ w))) 2 (P.map (W 0)) := by
        have := (law2.memNoise.sub (L1.mono_exponent h24)).add ((L3.mono_exponent h24).const_mul θ)
        refine this.ae_eq (Eventually.of_forall fun w => ?_)
        simp only [Pi.add_apply, Pi.sub_apply]
        ring
      have M2 : MemLp (fun w => z w - mh n k (sample W n ω) (ξ w)) 2 (P.map (W 0)) := by
        have := law2.memInstr.sub (L2.mono_exponent h24)
        refine this.ae_eq (Eventually.of_forall fun w => ?_)
        simp only [Pi.sub_apply]
        ring
      have i1 : Integrable (fun w => (y w - lh n k (sample W n ω) (ξ w) - θ * (d w - rh n k (sample W n ω) (ξ w))) *
        (z w - mh n k (sample W n ω) (ξ w))) (P.map (W 0)) := M1.integrable_mul M2
      have := integral_sub i1 n0.1
      rw [n0.2, sub_zero] at this
      rw [← this]
      refine integral_congr_ae (Eventually.of_forall fun w => ?_)
      dsimp only
      ring
    rw [e, abs_mul, abs_of_nonneg (Real.sqrt_nonneg _), ENNReal.ofReal_mul (Real.sqrt_nonneg _)]
    refine (mul_le_mul_right ((integral_mul_le (mΔe n k (sample W n ω)) (mΔm n k (sample W n ω))).trans
      (mul_le_mul_left (bound 2 (by norm_num) k n ω) _)) _).trans ?_
    have e3 : errNorm P W ξ mh m 2 k n ω = eLpNorm (fun w => mh n k (sample W n ω) (ξ w) - m (ξ w)) 2 (P.map (W 0)) := rfl
    rw [← e3]
    generalize errNorm P W ξ mh m 2 k n ω = A
    generalize errNorm P W ξ rh r 2 k n ω = B
    generalize errNorm P W ξ lh (fun x => θ * r x + g x) 2 k n ω = C
    generalize ENNReal.ofReal (Real.sqrt n) = N
    generalize ENNReal.ofReal |θ| = T
    calc N * ((C + T * B) * A) ≤ N * (((T + 1) * (B + C)) * A) := by
          refine mul_le_mul_right (mul_le_mul_left ?_ _) _
          calc C + T * B ≤ (C + T * B) + (B + T * C) := le_self_add
            _ = (T + 1) * (B + C) := by ring
      _ = (T + 1) * (N * (A * (B + C))) := by ring

end Pliv

end DML
