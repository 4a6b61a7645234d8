import Verif.AsymptoticIrmProps
import Verif.LimitWeights

/-!
# Large-sample properties of fitted difference-in-differences models (C79)
-/

namespace DML

open MeasureTheory ProbabilityTheory Filter Topology
open scoped ENNReal

variable {Ω : Type*} {mΩ : MeasurableSpace Ω} {S : Type*} [MeasurableSpace S] {𝒳 : Type*} [MeasurableSpace 𝒳] {Q : Type}
  {E : Ext} {P : Measure Ω} {W : ℕ → Ω → S} {r K : ℕ} {tv : String} {y d : S → ℝ} {ξ : S → 𝒳} {enc : 𝒳 → List Cell}

/-! ## Weights of the untreated -/

section Weights

variable {s : ℕ} {St : S → Fin s} {c : ∀ n, (Fin n → Fin s) → Scheme K n} {gh mh : ∀ n, Fin K → (Fin n → S) → 𝒳 → ℝ}
  {u : S → ℝ} {g m : 𝒳 → ℝ} {τ : ℝ}

/-- The mean of the true weights. -/
theorem ArmLaw.ipw_integral {μ : Measure S} [IsProbabilityMeasure μ] (law : ArmLaw μ y u ξ g m τ 2) (e : ℝ) :
    ∫ w, invWt e u ξ m w ∂μ = 1 - e * ∫ w, u w ∂μ := by
  have n1 := law.treat.null law.measX law.memTreat (f := fun x => (m x)⁻¹) law.measM.inv
    (memLp_of_bdd (law.measM.comp law.measX).inv fun w => inv_bdd law.pos (law.overlap _).1)
  have iu : Integrable u μ := (memLp_of_bdd (p := 1) law.measU law.unit_abs).integrable le_rfl
  have i2 : Integrable (fun w => 1 - e * u w) μ := (integrable_const _).sub (iu.const_mul e)
  have h1 : ∫ w, invWt e u ξ m w ∂μ = ∫ w, (1 - e * u w) ∂μ := n1.integral_eq i2 fun w => by
    have := (law.pos.trans_le (law.overlap (ξ w)).1).ne'
    unfold invWt
    field_simp
    ring
  rw [h1, integral_sub (integrable_const _) (iu.const_mul e), integral_const_mul]
  simp

/-- Trimmed propensities of the untreated stay between `τ` and `1`. -/
theorem trim_compl {τ x v : ℝ} (hpos : 0 < τ) (h0 : τ ≤ x) (h1 : τ ≤ 1 - x) : τ ≤ 1 - trim τ v ∧ 1 - trim τ v ≤ 1 := by
  have h2 := trim_mem (τ := τ) (by linarith) v
  constructor <;> linarith

omit [MeasurableSpace 𝒳] in
/-- Errors of trimmed propensities of the untreated. -/
theorem errNorm_compl (h0 : ∀ x, τ ≤ m x) (h1 : ∀ x, τ ≤ 1 - m x) (k : Fin K) (n : ℕ) (ω : Ω) :
    errNorm P W ξ (fun n k t x => 1 - trim τ (mh n k t x)) (fun x => 1 - m x) 2 k n ω ≤ errNorm P W ξ mh m 2 k n ω := by
  refine errNorm_post (fh := mh) (φ := fun v => 1 - trim τ v) (fun v x => ?_) 2 k n ω
  rw [sub_sub_sub_cancel_left, abs_sub_comm]
  exact trim_close ⟨h0 x, by linarith [h1 x]⟩

/-- The score of the effect on the treated is regular. -/
theorem treatedRegular [IsProbabilityMeasure P] (hW : Iid P W) (hSt : Measurable St) (hc : StrataBalanced c)
    (law : ArmLaw (P.map (W 0)) y (fun w => 1 - d w) ξ g (fun x => 1 - m x) τ 4) (hd : ∀ w, d w = 0 ∨ d w = 1)
    (hdm : Measurable d) (hym : Measurable y) (hy : MemLp y 2 (P.map (W 0)))
    {θ : ℝ} (hp : ∫ w, d w ∂(P.map (W 0)) ≠ 0) (hθ : θ = (∫ w, d w * (y w - g (ξ w)) ∂(P.map (W 0))) / ∫ w, d w ∂(P.map (W 0)))
    {f : ∀ n, Fin K → (Fin n → S) → S → ℝ} (hf : Part P W St c f (armVal y (fun w => 1 - d w) ξ g fun x => 1 - m x)) :
    RegularScore P W St K c (fun _ _ _ w => -d w) (fun n k t w => y w - f n k t w) (fun w => -d w)
      (fun w => y w - armVal y (fun w => 1 - d w) ξ g (fun x => 1 - m x) w) θ := by
  have hμ := hW.prob 0
  have hdb : ∀ w, |d w| ≤ 1 := fun w => by rcases hd w with e | e <;> simp [e]
  have law2 := law.mono (q := 2) (by norm_num)
  have md : MemLp d 2 (P.map (W 0)) := memLp_of_bdd hdm hdb
  refine Part.regular hW hSt hc (Part.fixed hdm.neg md.neg) ((Part.fixed hym hy).sub hW hf) ?_ ?_
  · rw [integral_neg]
    exact neg_ne_zero.2 hp
  · have iy := hy.integrable one_le_two
    have i0 := law2.mem.integrable one_le_two
    have ig := law2.memG.integrable one_le_two
    have i2 : Integrable (fun w => y w - armVal y (fun w => 1 - d w) ξ g (fun x => 1 - m x) w) (P.map (W 0)) := iy.sub i0
    have i3 : Integrable (fun w => -d w * θ) (P.map (W 0)) := (md.neg.integrable one_le_two).mul_const θ
    have n1 : Null (P.map (W 0)) fun w => (1 - d w) * (y w - g (ξ w)) :=
      ⟨law2.memNoise.integrable one_le_two, law2.noise.integral_eq law2.measX (law2.memNoise.integrable one_le_two)⟩
    have i4 : Integrable (fun w => d w * (y w - g (ξ w))) (P.map (W 0)) := md.integrable_mul (hy.sub law2.memG)
    have h4 : ∫ w, (y w - g (ξ w)) ∂(P.map (W 0)) = ∫ w, d w * (y w - g (ξ w)) ∂(P.map (W 0)) :=
      n1.integral_eq i4 fun w => by ring
    have h5 := integral_sub iy ig
    rw [integral_add i3 i2, integral_sub iy i0, law2.integral_eq, integral_mul_const, integral_neg, ← h5, h4, hθ]
    field_simp
    ring

/-- The score of the effect on the treated at the true functions. -/
theorem treated_psi (law : ArmLaw (P.map (W 0)) y (fun w => 1 - d w) ξ g (fun x => 1 - m x) τ 4) (hd : ∀ w, d w = 0 ∨ d w = 1)
    (θ : ℝ) (w : S) : -d w * θ + (y w - armVal y (fun w => 1 - d w) ξ g (fun x => 1 - m x) w) =
      d w * (y w - g (ξ w) - θ) - m (ξ w) * (1 - d w) * (y w - g (ξ w)) / (1 - m (ξ w)) := by
  have hm1 : 1 - m (ξ w) ≠ 0 := (law.pos.trans_le (law.overlap (ξ w)).1).ne'
  simp only [armVal]
  rcases hd w with e | e <;> rw [e] <;> field_simp <;> ring

/-- Its asymptotic standard deviation. -/
theorem treated_sd (law : ArmLaw (P.map (W 0)) y (fun w => 1 - d w) ξ g (fun x => 1 - m x) τ 4) (hd : ∀ w, d w = 0 ∨ d w = 1)
    (θ : ℝ) : Real.sqrt (∫ w, (d w * (y w - g (ξ w) - θ) - m (ξ w) * (1 - d w) * (y w - g (ξ w)) / (1 - m (ξ w))) ^ 2
      ∂(P.map (W 0))) / ∫ w, d w ∂(P.map (W 0)) = asySd (P.map (W 0)) (fun w => -d w)
        (fun w => y w - armVal y (fun w => 1 - d w) ξ g (fun x => 1 - m x) w) θ := by
  have hd0 : ∀ w, 0 ≤ d w := fun w => by rcases hd w with e | e <;> simp [e]
  unfold asySd
  simp only [treated_psi law hd]
  rw [integral_neg, abs_neg, abs_of_nonneg (integral_nonneg hd0)]

/-- The same score with treated and untreated weights divided by their averages. -/
theorem treatedNormalized [IsProbabilityMeasure P] (hW : Iid P W) (hSt : Measurable St) (hc : StrataBalanced c)
    (law : ArmLaw (P.map (W 0)) y (fun w => 1 - d w) ξ g (fun x => 1 - m x) τ 4) (hτ : ∀ x, τ ≤ m x) (hd : ∀ w, d w = 0 ∨ d w = 1)
    (hdm : Measurable d) (hym : Measurable y) (hy : MemLp y 2 (P.map (W 0)))
    {θ : ℝ} (hp : ∫ w, d w ∂(P.map (W 0)) ≠ 0) (hθ : θ = (∫ w, d w * (y w - g (ξ w)) ∂(P.map (W 0))) / ∫ w, d w ∂(P.map (W 0)))
    (hg : Honest ξ St c gh) (hm : Honest ξ St c mh) (eg : ∀ k, oPE P (errNorm P W ξ gh g 2 k))
    (em : ∀ k, oPE P (errNorm P W ξ mh m 2 k))
    (rate : ∀ k k', oPE P fun n ω => ENNReal.ofReal (Real.sqrt n) * (errNorm P W ξ mh m 2 k n ω * errNorm P W ξ gh g 2 k' n ω)) :
    RegularArray P W (fun n ω i => (mean fun i : Fin n => d (W i ω))⁻¹ * -d (W i ω))
      (fun n ω i => (mean fun i : Fin n => d (W i ω))⁻¹ * (y (W i ω) - crossVal St c (fun n k t => armVal y (fun w => 1 - d w) ξ (gh n k t)
          fun x => 1 - trim τ (mh n k t x)) W n ω i) +
        ((mean fun i : Fin n => d (W i ω))⁻¹ - (mean (crossVal St c (fun n k t => invWt 1 (fun w => 1 - d w) ξ fun x => 1 - trim τ (mh n k t x)) W n ω))⁻¹) *
          crossVal St c (fun n k t => ipwRes 1 y (fun w => 1 - d w) ξ (gh n k t) fun x => 1 - trim τ (mh n k t x)) W n ω i)
      (fun w => (∫ w, d w ∂(P.map (W 0)))⁻¹ * -d w)
      (fun w => (∫ w, d w ∂(P.map (W 0)))⁻¹ * (y w - armVal y (fun w => 1 - d w) ξ g (fun x => 1 - m x) w)) θ := by
  have hμ := hW.prob 0
  have hdb : ∀ w, |d w| ≤ 1 := fun w => by rcases hd w with e | e <;> simp [e]
  have law2 := law.mono (q := 2) (by norm_num)
  have md : MemLp d 2 (P.map (W 0)) := memLp_of_bdd hdm hdb
  have id := md.integrable one_le_two
  have hm' := hm.post (φ := fun v => 1 - trim τ v) (measurable_const.sub (measurable_trim τ))
  have hb : ∀ n k t x, τ ≤ 1 - trim τ (mh n k t x) ∧ 1 - trim τ (mh n k t x) ≤ 1 := fun n k t x =>
    trim_compl law.pos (hτ x) (law.overlap x).1
  have em' : ∀ k, oPE P (errNorm P W ξ (fun n k t x => 1 - trim τ (mh n k t x)) (fun x => 1 - m x) 2 k) := fun k =>
    (em k).mono fun n ω => errNorm_compl hτ (fun x => (law.overlap x).1) k n ω
  have rate' : ∀ k k', oPE P fun n ω => ENNReal.ofReal (Real.sqrt n) *
      (errNorm P W ξ (fun n k t x => 1 - trim τ (mh n k t x)) (fun x => 1 - m x) 2 k n ω * errNorm P W ξ gh g 2 k' n ω) := fun k k' =>
    (rate k k').mono fun n ω => mul_le_mul_right (mul_le_mul_left (errNorm_compl hτ (fun x => (law.overlap x).1) k n ω) _) _
  have hR := (ipwRes_near law hb hW hg hm' eg em' 1).1
  have hI := ipw_near law hb hW hm' em' 1 (St := St) (c := c)
  have hD : Near P W St c (fun _ _ _ => d) d := Near.fixed hdm md
  have eI : ∫ w, invWt 1 (fun w => 1 - d w) ξ (fun x => 1 - m x) w ∂(P.map (W 0)) = ∫ w, d w ∂(P.map (W 0)) := by
    rw [law2.ipw_integral, integral_sub (integrable_const _) id]
    simp
  have n0 := ipwRes_null law hW 1
  have part := armPart_trim0 hW law hτ hg hm eg em fun k => rate k k
  have base := (treatedRegular hW hSt hc law hd hdm hym hy hp hθ part).array hW
  have t1 := (hD.mean_tendsto hW hSt hc).continuousAt (f := fun x => x⁻¹) (continuousAt_inv₀ hp)
  have t2 := (hI.mean_tendsto hW hSt hc).continuousAt (f := fun x => x⁻¹) (continuousAt_inv₀ (by rw [eI]; exact hp))
  have s1 : oP P fun n ω => Real.sqrt n * (((mean (crossVal St c (fun _ _ _ => d) W n ω))⁻¹ - (∫ w, d w ∂(P.map (W 0)))⁻¹) *
      mean (crossVal St c (fun n k t => ipwRes 1 y (fun w => 1 - d w) ξ (gh n k t) fun x => 1 - trim τ (mh n k t x)) W n ω)) := by
    refine weight_shift hW hSt hc hD hR hp n0.2 fun k k' => ?_
    have : ∀ n ω, bias P W (fun _ _ _ => d) d k n ω = 0 := fun n ω => by
      unfold bias
      simp
    simp only [this, zero_mul, mul_zero]
    refine fun ε hε => ?_
    simp [not_le.2 hε]
  have s2 := ipw_shift law hb hW hSt hc hg hm' eg em' rate' 1 1 (by rw [eI]; exact hp)
  rw [eI] at t2 s2
  have mD : ∀ n, Measurable fun ω => mean fun i : Fin n => d (W i ω) := fun n => Measurable.mean' fun i => hdm.comp (hW.meas i)
  have mI : ∀ n, Measurable fun ω => mean (crossVal St c (fun n k t => invWt 1 (fun w => 1 - d w) ξ fun x => 1 - trim τ (mh n k t x)) W n ω) :=
    fun n => Measurable.mean' fun i => crossVal_meas hW hSt hI.meas n i
  refine base.adjust hW (inv_ne_zero hp) (fun n => (mD n).inv) (fun n => (mD n).inv.sub (mI n).inv)
    (fun n i => crossVal_meas hW hSt hR.meas n i) t1 ?_ (hR.bdd hW hSt) ?_
  · refine (t1.sub t2).mono (Eventually.of_forall fun n ω => le_of_eq (congrArg _ ?_))
    show (mean (crossVal St c (fun _ _ _ => d) W n ω))⁻¹ - _ = _
    ring
  · refine (s1.sub s2).mono (Eventually.of_forall fun n ω => le_of_eq (congrArg _ ?_))
    show Real.sqrt n * (((mean (crossVal St c (fun _ _ _ => d) W n ω))⁻¹ - _) * _) = _
    ring

end Weights

/-! ## The difference-in-differences model -/

section Did

variable {k : ∀ n, DidClass n Q} (H : Study E P W r K (fun n => didSpec (k n)) tv y d ξ enc)

open Classical in
/-- The functions fitted by `ml_g` among the untreated in repetition `q`. -/
noncomputable def didG0hat (q : Fin r) : ∀ n, Fin K → (Fin n → S) → 𝒳 → ℝ :=
  H.learned (fun n => (k n).ml_g) .predict "ml_g0" y (fun w => d w = 0) q

open Classical in
/-- The functions fitted by `ml_g` among the treated in repetition `q`. -/
noncomputable def didG1hat (q : Fin r) : ∀ n, Fin K → (Fin n → S) → 𝒳 → ℝ :=
  H.learned (fun n => (k n).ml_g) .predict "ml_g1" y (fun w => d w = 1) q

/-- The functions fitted by `ml_m` in repetition `q`. -/
noncomputable def didMhat (q : Fin r) : ∀ n, Fin K → (Fin n → S) → 𝒳 → ℝ :=
  H.learned (fun n => (k n).ml_m) .proba "ml_m" d (fun _ => True) q

variable {H}

/-- The values of one repetition. -/
theorem didValues {n : ℕ} (hg : (k n).gClassifier = false) (hvars : (k n).vars = none) (hm : (k n).ml_m.Compliant)
    (hd : ∀ w, d w = 0 ∨ d w = 1) {ω : Ω} (hω : ω ∉ Lacking H (fun _ => True) d n)
    {q : Fin r} {c : CellIn n Q} {o : LinOut n Q} (hc : H.Run n ω q c) (ho : (didSpec (k n)).est c = .ok o) :
    ∃ M : Fin n → ℝ, o.fit = (didElems (k n).score (k n).normalize (fun i => y (W i ω)) (fun i => d (W i ω))
        (fun i => didG0hat H q n (H.foldOf q n ω i) (sample W n ω) (ξ (W i ω)))
        (fun i => didG1hat H q n (H.foldOf q n ω i) (sample W n ω) (ξ (W i ω))) M (shareOf (fun i => d (W i ω)) c.smpls)).fit none ∧
      ((k n).score = .observational → M = fun i => trim (k n).trimT (didMhat H q n (H.foldOf q n ω i) (sample W n ω) (ξ (W i ω)))) := by
  have hst := C27_did hc.cross.ok ho
  obtain ⟨p0, hp0, r0⟩ := hst.1 (hc.noExt _)
  obtain ⟨p1, hp1, r1⟩ := hst.2.1 (hc.noExt _)
  rw [hg] at r0 r1
  have hev : EveryFold c.smpls (fun _ => True) fun i => d (W i ω) := not_not.1 hω _ (List.mem_of_getElem? hc.split)
  have ed : c.d = fun i : Fin n => d (W i ω) := funext hc.d
  have ey : c.y = fun i : Fin n => y (W i ω) := funext hc.y
  have l0 : "ml_g0" ∈ (didSpec (k n)).learners := by
    unfold didSpec
    cases (k n).score <;> simp
  have l1 : "ml_g1" ∈ (didSpec (k n)).learners := by
    unfold didSpec
    cases (k n).score <;> simp
  have v0 := fun i => hc.predict (L := fun n => (k n).ml_g) (u := y) (on := fun w => d w = 0) l0 r0
    (fun i => by rw [hc.d i]) hc.y i
  have v1 := fun i => hc.predict (L := fun n => (k n).ml_g) (u := y) (on := fun w => d w = 1) l1 r1
    (fun i => by rw [hc.d i]) hc.y i
  obtain ⟨g0, g1, m, -, -, -, hf, hp, -⟩ := didEst_ok ho
  rw [hp] at hp0 hp1
  obtain rfl : g0.preds = p0 := Option.some.inj hp0
  obtain rfl : g1.preds = p1 := Option.some.inj hp1
  have e0 : g0.vec = fun i => didG0hat H q n (H.foldOf q n ω i) (sample W n ω) (ξ (W i ω)) := funext v0
  have e1 : g1.vec = fun i => didG1hat H q n (H.foldOf q n ω i) (sample W n ω) (ξ (W i ω)) := funext v1
  refine ⟨m.vec, ?_, fun hs => ?_⟩
  · rw [hf, hc.src.noCluster hvars, ed, ey, e0, e1]
  · obtain ⟨pm, hpm, rm⟩ := hst.2.2 hs (hc.noExt _)
    rw [hp] at hpm
    obtain rfl : m.preds = pm := Option.some.inj hpm
    have lm : "ml_m" ∈ (didSpec (k n)).learners := by
      unfold didSpec
      simp [hs]
    exact funext fun i => hc.pred (L := fun n => (k n).ml_m) (m := .proba) (u := d) (on := fun _ => True) lm rm
      (fun _ => Iff.rfl) hc.d (fun f hf _ => ⟨hm, by rw [ed]; exact hev.binary H.folds hc.cross fun i => hd _, by
        obtain ⟨⟨i, hi, -, h1⟩, ⟨j, hj, -, h2⟩⟩ := hev f hf
        exact ⟨⟨i, by simpa using hi, by rw [ed]; exact h1⟩, ⟨j, by simpa using hj, by rw [ed]; exact h2⟩⟩⟩) i

variable (H)

/-- What is asked of the learners of the difference-in-differences model: their answers are measurable, the errors vanish and
the products of the errors of any two folds vanish faster than `1/√n`, in probability, for every repetition. -/
structure DidRates (g₀ m₀ : 𝒳 → ℝ) : Prop where
  measG : ∀ n, MeasLearner (k n).ml_g .predict enc
  measM : ∀ n, MeasLearner (k n).ml_m .proba enc
  errG : ∀ q j, oPE P (errNorm P W ξ (didG0hat H q) g₀ 2 j)
  errM : ∀ q j, oPE P (errNorm P W ξ (didMhat H q) m₀ 2 j)
  rate : ∀ q j j', oPE P fun n ω => ENNReal.ofReal (Real.sqrt n) * (errNorm P W ξ (didMhat H q) m₀ 2 j n ω *
    errNorm P W ξ (didG0hat H q) g₀ 2 j' n ω)

variable {H}

/-- Fits succeed unless a training set lacks a group. -/
theorem did_fits (hg : ∀ n, (k n).gClassifier = false) (hvars : ∀ n, (k n).vars = none) (hm : ∀ n, (k n).ml_m.Compliant)
    (hbin : ∀ᶠ n in atTop, ∀ ω, (H.D n ω).binOut = false) (hd : ∀ w, d w = 0 ∨ d w = 1) :
    ∀ᶠ n in atTop, ∀ ω, ω ∉ Lacking H (fun _ => True) d n →
      (fit (H.F n ω) (didSpec (k n)) (H.obj n ω) H.args).2 = .ok () := by
  filter_upwards [H.reached, H.smpls, hbin, H.treatment, H.split] with n h1 h2 h3 h4 h5 ω hω
  have ed : nums (H.D n ω).dv = fun i : Fin n => d (W i ω) := funext fun i => by
    show ((H.D n ω).dv i).val = _
    rw [h4 ω i]
    rfl
  refine C63_did (hvars n) (hg n) (hm n) (h3 ω) ?_ (h1 ω) (h2 ω) ?_ (H.valid n _)
  · rw [ed]
    exact binary_of_every (not_not.1 hω) H.reps H.folds (h5 ω).1 (h5 ω).2 fun i => hd _
  · rw [ed]
    exact not_not.1 hω

/-- **C79, DiD, observational score with normalised weights (the default).** -/
theorem C79_did_normalized [IsProbabilityMeasure P] {τ : ℝ} (hs : ∀ n, (k n).score = .observational)
    (hn : ∀ n, (k n).normalize = true) (hg : ∀ n, (k n).gClassifier = false) (ht : ∀ n, (k n).trimT = τ)
    (hvars : ∀ n, (k n).vars = none) (hm : ∀ n, (k n).ml_m.Compliant)
    (hbin : ∀ᶠ n in atTop, ∀ ω, (H.D n ω).binOut = false)
    (hboth : Tendsto (fun n => P (Lacking H (fun _ => True) d n)) atTop (𝓝 0))
    {g₀ m : 𝒳 → ℝ} (law : ArmLaw (P.map (W 0)) y (fun w => 1 - d w) ξ g₀ (fun x => 1 - m x) τ 4) (hτ : ∀ x, τ ≤ m x)
    (hd : ∀ w, d w = 0 ∨ d w = 1) (hy : MemLp y 2 (P.map (W 0)))
    {θ : ℝ} (hp : ∫ w, d w ∂(P.map (W 0)) ≠ 0) (hθ : θ = (∫ w, d w * (y w - g₀ (ξ w)) ∂(P.map (W 0))) / ∫ w, d w ∂(P.map (W 0)))
    (hV : ∫ w, (d w * (y w - g₀ (ξ w) - θ) - m (ξ w) * (1 - d w) * (y w - g₀ (ξ w)) / (1 - m (ξ w))) ^ 2
      ∂(P.map (W 0)) ≠ 0) (hL : DidRates H g₀ m) :
    AsympValid E P W r H.fitted θ (Real.sqrt (∫ w, (d w * (y w - g₀ (ξ w) - θ) -
      m (ξ w) * (1 - d w) * (y w - g₀ (ξ w)) / (1 - m (ξ w))) ^ 2 ∂(P.map (W 0))) / ∫ w, d w ∂(P.map (W 0))) := by
  classical
  have hM : ∀ q, Honest ξ H.St (H.scheme q) (didMhat H q) := fun q => Study.honest (H := H) hL.measM "ml_m" H.measD MeasurableSet.univ q (on := fun _ => True)
  have hG : ∀ q, Honest ξ H.St (H.scheme q) (didG0hat H q) := fun q => Study.honest (H := H) hL.measG "ml_g0" H.measY (H.measD (measurableSet_singleton 0)) q (on := fun w => d w = 0)
  have hk := inv_ne_zero hp
  rw [treated_sd law hd, ← asySd_scale _ _ _ _ hk]
  refine H.asympArray (bad := Lacking H (fun _ => True) d) (fun q => treatedNormalized H.iid H.measSt (Study.balancedScheme q) law hτ hd
    H.measD H.measY hy hp hθ (hG q) (hM q) (hL.errG q) (hL.errM q) (hL.rate q)) ?_ (fun n => LinearScoreClass.usualVsf (.did _)) hvars
    hboth (did_fits hg hvars hm hbin hd) ?_
  · have e : ∀ w, ((∫ w, d w ∂(P.map (W 0)))⁻¹ * -d w * θ + (∫ w, d w ∂(P.map (W 0)))⁻¹ *
        (y w - armVal y (fun w => 1 - d w) ξ g₀ (fun x => 1 - m x) w)) ^ 2 = (∫ w, d w ∂(P.map (W 0)))⁻¹ ^ 2 *
        (d w * (y w - g₀ (ξ w) - θ) - m (ξ w) * (1 - d w) * (y w - g₀ (ξ w)) / (1 - m (ξ w))) ^ 2 := fun w => by
      rw [← treated_psi law hd]
      ring
    simp only [e]
    rw [integral_const_mul]
    exact mul_ne_zero (pow_ne_zero _ hk) hV
  · refine Eventually.of_forall fun n ω hω q c o hc ho => ?_
    obtain ⟨M, hf, hMv⟩ := didValues (hg n) (hvars n) (hm n) hd hω hc ho
    obtain rfl := hMv (hs n)
    rw [hs n, hn n, ht n] at hf
    refine rep_of_elems rfl hf ?_
    have hx : ∀ i : Fin n, 1 - trim τ (didMhat H q n (H.foldOf q n ω i) (sample W n ω) (ξ (W i ω))) ≠ 0 := fun i =>
      (law.pos.trans_le (trim_compl law.pos (hτ (ξ (W i ω))) (law.overlap (ξ (W i ω))).1).1).ne'
    have er : (fun i : Fin n => (1 - d (W i ω)) * (trim τ (didMhat H q n (H.foldOf q n ω i) (sample W n ω) (ξ (W i ω))) /
        (1 - trim τ (didMhat H q n (H.foldOf q n ω i) (sample W n ω) (ξ (W i ω)))))) =
        crossVal H.St (H.scheme q) (fun n k t => invWt 1 (fun w => 1 - d w) ξ fun x => 1 - trim τ (didMhat H q n k t x)) W n ω :=
      funext fun i => by
        show _ = (1 - d (W i ω)) * ((1 - trim τ (didMhat H q n (H.foldOf q n ω i) (sample W n ω) (ξ (W i ω))))⁻¹ - 1)
        have := hx i
        field_simp
        ring
    unfold didElems
    simp only [PsiElems.mk.injEq]
    refine ⟨funext fun i => ?_, funext fun i => ?_⟩
    · show -1 * (d (W i ω) / _) = _ * -d (W i ω)
      ring
    · simp only [didB1, didWr]
      rw [er]
      generalize (mean (crossVal H.St (H.scheme q) (fun n k t => invWt 1 (fun w => 1 - d w) ξ fun x => 1 - trim τ (didMhat H q n k t x)) W n ω)) = R
      show _ = _ * (y (W i ω) - armVal y (fun w => 1 - d w) ξ (didG0hat H q n (H.foldOf q n ω i) (sample W n ω))
          (fun x => 1 - trim τ (didMhat H q n (H.foldOf q n ω i) (sample W n ω) x)) (W i ω)) + _ *
        ipwRes 1 y (fun w => 1 - d w) ξ (didG0hat H q n (H.foldOf q n ω i) (sample W n ω))
          (fun x => 1 - trim τ (didMhat H q n (H.foldOf q n ω i) (sample W n ω) x)) (W i ω)
      simp only [armVal, ipwRes]
      have hx := hx i
      generalize trim τ (didMhat H q n (H.foldOf q n ω i) (sample W n ω) (ξ (W i ω))) = M at hx ⊢
      generalize (mean fun i : Fin n => d (W i ω)) = D
      have hq : M / (1 - M) = (1 - M)⁻¹ - 1 := by
        field_simp
        ring
      rw [hq]
      rcases hd (W i ω) with e | e <;> rw [e] <;> ring

end Did

end DML
