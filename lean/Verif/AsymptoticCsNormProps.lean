import Verif.AsymptoticCsProps

/-!
# Large-sample properties of difference-in-differences models for repeated cross-sections with normalised weights (C79)
-/

namespace DML

open MeasureTheory ProbabilityTheory Filter Topology
open scoped ENNReal

variable {Ω : Type*} {mΩ : MeasurableSpace Ω} {S : Type*} [MeasurableSpace S] {𝒳 : Type*} [MeasurableSpace 𝒳] {Q : Type}
  {E : Ext} {P : Measure Ω} {W : ℕ → Ω → S} {r K : ℕ} {tv : String} {y d tt : S → ℝ} {ξ : S → 𝒳} {enc : 𝒳 → List Cell}

section Weights

variable {s : ℕ} {St : S → Fin s} {c : ∀ n, (Fin n → Fin s) → Scheme K n} {gh mh : ∀ n, Fin K → (Fin n → S) → 𝒳 → ℝ}
  {f V : ∀ n, Fin K → (Fin n → S) → S → ℝ} {f0 v0 : S → ℝ}

/-- A known share. -/
theorem Share.const {p0 τ : ℝ} (h : τ ≤ p0 ∧ p0 ≤ 1) : Share P W St c (fun _ _ _ => p0) p0 τ :=
  ⟨fun _ _ => measurable_const, fun _ _ _ _ _ _ => rfl, fun _ _ _ => h, fun _ =>
    (OP_const (P := P) 0).mono (Eventually.of_forall fun n ω => by simp)⟩

/-- Dividing weights by their average, instead of by an estimate of its limit, does not matter in large samples. -/
theorem RegularArray.rescale [IsProbabilityMeasure P] {A B : ∀ n, Ω → Fin n → ℝ} {a0 b0 : S → ℝ} {θ : ℝ}
    (h : RegularArray P W A B a0 b0 θ) (σ : ℝ) (hW : Iid P W) (hSt : Measurable St) (hc : StrataBalanced c)
    (hf : Near P W St c f f0) (hV : Near P W St c V v0) (hp : ∫ w, f0 w ∂(P.map (W 0)) ≠ 0) {κ : ℕ → Ω → ℝ} (mκ : ∀ n, Measurable (κ n))
    (hκ : oP P fun n ω => κ n ω - (∫ w, f0 w ∂(P.map (W 0)))⁻¹)
    (s1 : oP P fun n ω => Real.sqrt n * (((mean (crossVal St c f W n ω))⁻¹ - (∫ w, f0 w ∂(P.map (W 0)))⁻¹) * mean (crossVal St c V W n ω)))
    (s2 : oP P fun n ω => Real.sqrt n * ((κ n ω - (∫ w, f0 w ∂(P.map (W 0)))⁻¹) * mean (crossVal St c V W n ω))) :
    RegularArray P W A (fun n ω i => B n ω i + σ * ((mean (crossVal St c f W n ω))⁻¹ - κ n ω) * crossVal St c V W n ω i) a0 b0 θ := by
  have hμ := hW.prob 0
  have t := ((hf.mean_tendsto hW hSt hc).continuousAt (f := fun x => x⁻¹) (continuousAt_inv₀ hp)).sub hκ
  have mf : ∀ n, Measurable fun ω => mean (crossVal St c f W n ω) := fun n => Measurable.mean' fun i => crossVal_meas hW hSt hf.meas n i
  have h1 := h.perturb (X := fun _ _ _ => 0)
    (Y := fun n ω i => σ * ((mean (crossVal St c f W n ω))⁻¹ - κ n ω) * crossVal St c V W n ω i)
    (fun _ _ => measurable_const) (fun n i => (((mf n).inv.sub (mκ n)).const_mul σ).mul (crossVal_meas hW hSt hV.meas n i)) ?_ ?_ ?_
  · simpa only [add_zero] using h1
  · refine (oP.of_tendsto (tendsto_const_nhds (x := (0 : ℝ)))).mono (Eventually.of_forall fun n ω => le_of_eq (congrArg _ ?_))
    unfold mean
    simp
  · refine (((t.sq.const_mul (σ ^ 2))).mul_OP (hV.bdd hW hSt)).mono (Eventually.of_forall fun n ω => le_of_eq (congrArg _ ?_))
    rw [← mean_mul_left]
    refine congrArg mean (funext fun i => ?_)
    ring
  · refine ((s1.sub s2).const_mul σ).mono (Eventually.of_forall fun n ω => le_of_eq (congrArg _ ?_))
    have : ∀ x : ℝ, 0 * θ + x = x := fun x => by ring
    simp only [this]
    rw [mean_mul_left]
    ring

/-- Weights that are known need no rates. -/
theorem known_shift [IsProbabilityMeasure P] (hW : Iid P W) (hSt : Measurable St) (hc : StrataBalanced c) (mf : Measurable f0)
    (h2 : MemLp f0 2 (P.map (W 0))) (hV : Near P W St c V v0) (hp : ∫ w, f0 w ∂(P.map (W 0)) ≠ 0) (hv : ∫ w, v0 w ∂(P.map (W 0)) = 0) :
    oP P fun n ω => Real.sqrt n * (((mean (crossVal St c (fun _ _ _ => f0) W n ω))⁻¹ - (∫ w, f0 w ∂(P.map (W 0)))⁻¹) *
      mean (crossVal St c V W n ω)) := by
  refine weight_shift hW hSt hc (Near.fixed mf h2) hV hp hv fun k k' => ?_
  have : ∀ n ω, bias P W (fun _ _ _ => f0) f0 k n ω = 0 := fun n ω => by
    unfold bias
    simp
  simp only [this, zero_mul, mul_zero]
  exact oP_zero

/-- Normalised weights within a treatment group. -/
theorem RegularArray.group [IsProbabilityMeasure P] {A B : ∀ n, Ω → Fin n → ℝ} {a0 b0 : S → ℝ} {θ : ℝ}
    (h : RegularArray P W A B a0 b0 θ) (σ : ℝ) (hW : Iid P W) (hSt : Measurable St) (hc : StrataBalanced c) {g : 𝒳 → ℝ} {τ p0 : ℝ}
    (law : ArmLaw (P.map (W 0)) (fun w => d w * y w) tt (fun w => (d w, ξ w)) (fun z => z.1 * g z.2) (fun _ => p0) τ 4)
    (h1 : τ ≤ p0 ∧ p0 ≤ 1) (md : Measurable d) (mt : Measurable tt)
    (hd : ∀ w, d w = 0 ∨ d w = 1) (ht : ∀ w, tt w = 0 ∨ tt w = 1) (hg : Honest ξ St c gh) (eg : ∀ k, oPE P (errNorm P W ξ gh g 2 k))
    (hp : ∫ w, d w ∂(P.map (W 0)) ≠ 0) :
    RegularArray P W A (fun n ω i => B n ω i + σ * ((mean (crossVal St c (fun _ _ _ w => d w * tt w / p0) W n ω))⁻¹ -
        (mean (crossVal St c (fun _ _ _ => d) W n ω))⁻¹) *
      crossVal St c (fun n k t w => d w * tt w / p0 * (y w - gh n k t (ξ w))) W n ω i) a0 b0 θ := by
  have hμ := hW.prob 0
  have bd := bdd_of_binary hd
  have bdt : ∀ w, |d w * tt w| ≤ 1 := fun w => by
    rw [abs_mul]
    exact mul_le_one₀ (bd w) (abs_nonneg _) (bdd_of_binary ht w)
  have hp0 : p0 ≠ 0 := (law.pos.trans_le h1.1).ne'
  have hgD : Honest (fun w => (d w, ξ w)) St c fun n k t z => z.1 * gh n k t z.2 := by
    refine ⟨fun n k => ?_, fun n k t t' h1 h2 => funext fun w => ?_⟩
    · exact (measurable_fst.comp measurable_snd).mul ((hg.meas n k).comp (measurable_fst.prodMk (measurable_snd.comp measurable_snd)))
    · have e := congrFun (hg.uses n k t t' h1 h2) w
      exact congrArg (d w * ·) e
  have egD : ∀ k, oPE P (errNorm P W (fun w => (d w, ξ w)) (fun n k t z => z.1 * gh n k t z.2) (fun z => z.1 * g z.2) 2 k) := fun k =>
    (eg k).mono fun n ω => eLpNorm_mono fun w => by
      show ‖d w * gh n k (sample W n ω) (ξ w) - d w * g (ξ w)‖ ≤ ‖gh n k (sample W n ω) (ξ w) - g (ξ w)‖
      rcases hd w with e | e <;> simp [e]
  have hR := (ipwRes_near law (mh := fun _ _ _ _ => p0) (fun _ _ _ _ => h1) hW hgD ⟨fun _ _ => measurable_const, fun _ _ _ _ _ _ => rfl⟩ egD
    (fun k δ hδ => by simp [errNorm]) 0).1
  have n0 := (ipwRes_null law hW 0).2
  have mf : Measurable fun w => d w * tt w / p0 := (md.mul mt).div_const p0
  have m2 : MemLp (fun w => d w * tt w / p0) 2 (P.map (W 0)) := memLp_of_bdd (C := |p0⁻¹|) mf fun w => by
    rw [div_eq_mul_inv, abs_mul]
    exact mul_le_of_le_one_left (abs_nonneg _) (bdt w)
  have md2 : MemLp d 2 (P.map (W 0)) := memLp_of_bdd md bd
  have ef : ∫ w, d w * tt w / p0 ∂(P.map (W 0)) = ∫ w, d w ∂(P.map (W 0)) := by
    have nul := law.treat.null law.measX law.memTreat (f := fun z => p0⁻¹ * z.1) (measurable_fst.const_mul _) (md2.const_mul p0⁻¹)
    have i2 := (md2.integrable one_le_two)
    exact nul.integral_eq i2 fun w => by
      field_simp
      ring
  have hp' : ∫ w, d w * tt w / p0 ∂(P.map (W 0)) ≠ 0 := by rwa [ef]
  have hD : Near P W St c (fun _ _ _ => d) d := Near.fixed md md2
  have t1 := (hD.mean_tendsto hW hSt hc).continuousAt (f := fun x => x⁻¹) (continuousAt_inv₀ hp)
  have mD : ∀ n, Measurable fun ω => mean (crossVal St c (fun _ _ _ => d) W n ω) := fun n =>
    Measurable.mean' fun i => crossVal_meas hW hSt hD.meas n i
  have s2 := known_shift hW hSt hc md md2 hR hp n0
  rw [← ef] at t1 s2
  refine (h.rescale σ hW hSt hc (Near.fixed mf m2) hR hp' (fun n => (mD n).inv) t1 (known_shift hW hSt hc mf m2 hR hp' n0) s2).congr
    (fun _ _ _ => rfl) fun n ω i => ?_
  congr 2
  show d (W i ω) * tt (W i ω) / p0 * _ = tt (W i ω) * (d (W i ω) * y (W i ω) - d (W i ω) * _) * (p0⁻¹ - 0)
  rw [sub_zero, div_eq_mul_inv]
  ring

/-- Normalised weights of a cell of the untreated. -/
theorem RegularArray.cell [IsProbabilityMeasure P] {A B : ∀ n, Ω → Fin n → ℝ} {a0 b0 : S → ℝ} {θ : ℝ}
    (h : RegularArray P W A B a0 b0 θ) (σ : ℝ) (hW : Iid P W) (hSt : Measurable St) (hc : StrataBalanced c) {u : S → ℝ} {g m : 𝒳 → ℝ} {τ e : ℝ}
    (law : ArmLaw (P.map (W 0)) y u ξ g m τ 4) (hb : ∀ n k t x, τ ≤ mh n k t x ∧ mh n k t x ≤ 1) (md : Measurable d)
    (hd : ∀ w, d w = 0 ∨ d w = 1) (hg : Honest ξ St c gh) (hm : Honest ξ St c mh) (eg : ∀ k, oPE P (errNorm P W ξ gh g 2 k))
    (em : ∀ k, oPE P (errNorm P W ξ mh m 2 k))
    (rate : ∀ k k', oPE P fun n ω => ENNReal.ofReal (Real.sqrt n) * (errNorm P W ξ mh m 2 k n ω * errNorm P W ξ gh g 2 k' n ω))
    (hp : ∫ w, d w ∂(P.map (W 0)) ≠ 0) (he : 1 - e * ∫ w, u w ∂(P.map (W 0)) = ∫ w, d w ∂(P.map (W 0))) :
    RegularArray P W A (fun n ω i => B n ω i + σ * ((mean (crossVal St c (fun n k t => invWt e u ξ (mh n k t)) W n ω))⁻¹ -
      (mean (crossVal St c (fun _ _ _ => d) W n ω))⁻¹) * crossVal St c (fun n k t => ipwRes e y u ξ (gh n k t) (mh n k t)) W n ω i) a0 b0 θ := by
  have hμ := hW.prob 0
  have md2 : MemLp d 2 (P.map (W 0)) := memLp_of_bdd md (bdd_of_binary hd)
  have ef : ∫ w, invWt e u ξ m w ∂(P.map (W 0)) = ∫ w, d w ∂(P.map (W 0)) := by
    rw [(law.mono (q := 2) (by norm_num)).ipw_integral, he]
  have hp' : ∫ w, invWt e u ξ m w ∂(P.map (W 0)) ≠ 0 := by rwa [ef]
  have hR := (ipwRes_near law hb hW hg hm eg em e).1
  have n0 := (ipwRes_null law hW e).2
  have hD : Near P W St c (fun _ _ _ => d) d := Near.fixed md md2
  have t1 := (hD.mean_tendsto hW hSt hc).continuousAt (f := fun x => x⁻¹) (continuousAt_inv₀ hp)
  have mD : ∀ n, Measurable fun ω => mean (crossVal St c (fun _ _ _ => d) W n ω) := fun n =>
    Measurable.mean' fun i => crossVal_meas hW hSt hD.meas n i
  have s2 := known_shift hW hSt hc md md2 hR hp n0
  rw [← ef] at t1 s2
  exact h.rescale σ hW hSt hc (ipw_near law hb hW hm em e) hR hp' (fun n => (mD n).inv) t1 (ipw_shift law hb hW hSt hc hg hm eg em rate e e hp') s2

end Weights

/-! ## Fits -/

section Cs

variable {k : ∀ n, DidClass n Q} (H : Study E P W r K (fun n => csSpec (k n)) tv y d ξ enc)

/-- What is asked of the learners with normalised weights: as without, and for the untreated also the products of errors in different folds
vanish faster than `1/√n`. -/
structure CsCrossRates (tt : S → ℝ) (g00 g01 g10 g11 m₀ : 𝒳 → ℝ) : Prop extends CsRates H tt g00 g01 g10 g11 m₀ where
  cross00 : ∀ q j j', oPE P fun n ω => ENNReal.ofReal (Real.sqrt n) * (errNorm P W ξ (csMhat H q) m₀ 2 j n ω *
    errNorm P W ξ (csGhat H tt "ml_g_d0_t0" 0 0 q) g00 2 j' n ω)
  cross01 : ∀ q j j', oPE P fun n ω => ENNReal.ofReal (Real.sqrt n) * (errNorm P W ξ (csMhat H q) m₀ 2 j n ω *
    errNorm P W ξ (csGhat H tt "ml_g_d0_t1" 0 1 q) g01 2 j' n ω)

variable {H}

/-- The share of the cell of the untreated in the second period. -/
theorem DidCsLaw.mean_cell {μ : Measure S} [IsProbabilityMeasure μ] {g00 g01 g10 g11 m : 𝒳 → ℝ} {lam τ : ℝ}
    (h : DidCsLaw μ y d tt ξ g00 g01 g10 g11 m lam τ) (hl : lam ≠ 0) :
    1 - lam⁻¹ * ∫ w, (1 - d w) * tt w ∂μ = ∫ w, d w ∂μ := by
  have md2 : MemLp d 2 μ := memLp_of_bdd h.measD (bdd_of_binary h.binaryD)
  have mt2 : MemLp tt 2 μ := memLp_of_bdd h.measT (bdd_of_binary h.binaryT)
  have id := md2.integrable one_le_two
  have m1 : MemLp (fun w => 1 - d w) 2 μ := (memLp_const 1).sub md2
  have nul : Null μ fun w => (tt w - lam) * (1 - d w) := h.period.null (h.measD.prodMk h.measX) (mt2.sub (memLp_const lam)) (f := fun z => 1 - z.1)
    (measurable_const.sub measurable_fst) m1
  have e : ∫ w, (1 - d w) * tt w ∂μ = ∫ w, lam * (1 - d w) ∂μ := nul.integral_eq ((m1.integrable one_le_two).const_mul lam) fun w => by ring
  rw [e, integral_const_mul, integral_sub (integrable_const _) id, inv_mul_cancel_left₀ hl]
  simp

/-- **C79, DiD with repeated cross-sections, observational score with normalised weights** (the default). -/
theorem C79_did_cs_normalized [IsProbabilityMeasure P] {τ : ℝ} (hs : ∀ n, (k n).score = .observational)
    (hn : ∀ n, (k n).normalize = true) (hg : ∀ n, (k n).gClassifier = false) (ht : ∀ n, (k n).trimT = τ)
    (hvars : ∀ n, (k n).vars = none) (hm : ∀ n, (k n).ml_m.Compliant) (hbin : ∀ᶠ n in atTop, ∀ ω, (H.D n ω).binOut = false)
    (htime : ∀ᶠ n in atTop, ∀ ω, (H.D n ω).tv = some fun i : Fin n => Cell.num (tt (W i ω)))
    (hboth : Tendsto (fun n => P (Lacking H (fun _ => True) d n)) atTop (𝓝 0))
    {g00 g01 g10 g11 m : 𝒳 → ℝ} {lam : ℝ} (law : DidCsLaw (P.map (W 0)) y d tt ξ g00 g01 g10 g11 m lam τ)
    (h4 : MemLp (fun w => y w - (d w * tt w * g11 (ξ w) + d w * (1 - tt w) * g10 (ξ w) +
      (1 - d w) * tt w * g01 (ξ w) + (1 - d w) * (1 - tt w) * g00 (ξ w))) 4 (P.map (W 0)))
    (m00 : MemLp (fun w => g00 (ξ w)) 4 (P.map (W 0))) (m01 : MemLp (fun w => g01 (ξ w)) 4 (P.map (W 0)))
    (m10 : MemLp (fun w => g10 (ξ w)) 4 (P.map (W 0))) (m11 : MemLp (fun w => g11 (ξ w)) 4 (P.map (W 0)))
    {θ : ℝ} (hθ : θ = changeOfTreated (P.map (W 0)) d ξ g00 g01 g10 g11)
    (hV : ∫ w, (csSignal y d tt ξ g00 g01 g10 g11 m lam w - d w * θ) ^ 2 ∂(P.map (W 0)) ≠ 0) (hL : CsCrossRates H tt g00 g01 g10 g11 m) :
    AsympValid E P W r H.fitted θ (Real.sqrt (∫ w, (csSignal y d tt ξ g00 g01 g10 g11 m lam w - d w * θ) ^ 2 ∂(P.map (W 0))) /
      ∫ w, d w ∂(P.map (W 0))) := by
  classical
  have hμ := H.iid.prob 0
  have hτ := law.pos
  have hp := law.mean_treated.ne'
  have hM : ∀ q, Honest ξ H.St (H.scheme q) (csMhat H q) := fun q => Study.honest (H := H) hL.measM "ml_m" H.measD MeasurableSet.univ q (on := fun _ => True)
  have hG := fun l v u q => csGhat_honest (H := H) law.measT hL.measG l v u q
  have hk := inv_ne_zero hp
  have md : MemLp d 2 (P.map (W 0)) := memLp_of_bdd H.measD (bdd_of_binary law.binaryD)
  have sh := law.share
  have hl0 : lam ≠ 0 := by linarith
  have hl1 : 1 - lam ≠ 0 := by linarith
  have part := fun q => csPart H.iid law h4 m00 m01 m10 m11 (hG "ml_g_d0_t0" 0 0 q) (hG "ml_g_d0_t1" 0 1 q) (hG "ml_g_d1_t0" 1 0 q)
    (hG "ml_g_d1_t1" 1 1 q) (hM q) (hL.err00 q) (hL.err01 q) (hL.err10 q) (hL.err11 q) (hL.errM q) (hL.rate00 q) (hL.rate01 q)
    hτ le_rfl (Share.const ⟨sh.1, by linarith⟩) fun _ _ _ => sh.2
  have mom : ∫ w, (-d w * θ + csSignal y d tt ξ g00 g01 g10 g11 m lam w) ∂(P.map (W 0)) = 0 := by
    rw [hθ]
    exact law.signal_mean hp
  have e1 : ∀ w, -d w * θ + csSignal y d tt ξ g00 g01 g10 g11 m lam w = csSignal y d tt ξ g00 g01 g10 g11 m lam w - d w * θ := fun w => by ring
  have hid : ∫ w, -d w ∂(P.map (W 0)) ≠ 0 := by
    rw [integral_neg]
    exact neg_ne_zero.2 hp
  have hsd : Real.sqrt (∫ w, (csSignal y d tt ξ g00 g01 g10 g11 m lam w - d w * θ) ^ 2 ∂(P.map (W 0))) / ∫ w, d w ∂(P.map (W 0)) =
      asySd (P.map (W 0)) (fun w => -d w) (csSignal y d tt ξ g00 g01 g10 g11 m lam) θ := by
    unfold asySd
    simp only [e1]
    rw [integral_neg, abs_neg, abs_of_pos law.mean_treated]
  have nT : MemLp (fun w => y w - (d w * (1 - tt w) * g10 (ξ w) + d w * (1 - (1 - tt w)) * g11 (ξ w) +
      (1 - d w) * (1 - tt w) * g00 (ξ w) + (1 - d w) * (1 - (1 - tt w)) * g01 (ξ w))) 4 (P.map (W 0)) :=
    h4.ae_eq (Eventually.of_forall fun w => by ring)
  have nD : MemLp (fun w => y w - ((1 - d w) * tt w * g01 (ξ w) + (1 - d w) * (1 - tt w) * g00 (ξ w) +
      (1 - (1 - d w)) * tt w * g11 (ξ w) + (1 - (1 - d w)) * (1 - tt w) * g10 (ξ w))) 4 (P.map (W 0)) :=
    h4.ae_eq (Eventually.of_forall fun w => by ring)
  have nDT : MemLp (fun w => y w - ((1 - d w) * (1 - tt w) * g00 (ξ w) + (1 - d w) * (1 - (1 - tt w)) * g01 (ξ w) +
      (1 - (1 - d w)) * (1 - tt w) * g10 (ξ w) + (1 - (1 - d w)) * (1 - (1 - tt w)) * g11 (ξ w))) 4 (P.map (W 0)) :=
    h4.ae_eq (Eventually.of_forall fun w => by ring)
  have hτ1 : τ ≤ 1 - τ := sh.1.trans sh.2
  -- the propensity of a cell
  have cellM : ∀ {v : ℝ}, τ ≤ v → v ≤ 1 → (∀ q, Honest ξ H.St (H.scheme q) fun n j t x => (1 - trim τ (csMhat H q n j t x)) * v) ∧
      (∀ q n j t x, τ * τ ≤ (1 - trim τ (csMhat H q n j t x)) * v ∧ (1 - trim τ (csMhat H q n j t x)) * v ≤ 1) ∧
      ∀ q j n ω, errNorm P W ξ (fun n j t x => (1 - trim τ (csMhat H q n j t x)) * v) (fun x => (1 - m x) * v) 2 j n ω ≤
        errNorm P W ξ (csMhat H q) m 2 j n ω := fun {v} h1 h2 => by
    refine ⟨fun q => (hM q).post ((measurable_const.sub (measurable_trim τ)).mul_const v), fun q n j t x => ?_, fun q j n ω => ?_⟩
    · have := trim_mem hτ1 (csMhat H q n j t x)
      exact ⟨mul_le_mul (by linarith [this.2]) h1 hτ.le (by linarith [this.2]), mul_le_one₀ (by linarith [this.1]) (hτ.le.trans h1) h2⟩
    · refine eLpNorm_mono fun w => ?_
      rw [Real.norm_eq_abs, Real.norm_eq_abs]
      have e : (1 - trim τ (csMhat H q n j (sample W n ω) (ξ w))) * v - (1 - m (ξ w)) * v =
          -((trim τ (csMhat H q n j (sample W n ω) (ξ w)) - m (ξ w)) * v) := by ring
      rw [e, abs_neg, abs_mul, abs_of_nonneg (hτ.le.trans h1)]
      exact (mul_le_of_le_one_right (abs_nonneg _) h2).trans (trim_close (law.overlap _))
  obtain ⟨c1, c2, c3⟩ := cellM sh.1 (by linarith)
  obtain ⟨b1, b2, b3⟩ := cellM (v := 1 - lam) (by linarith) (by linarith)
  have base := fun q => (Part.regular H.iid H.measSt (Study.balancedScheme q) (Part.fixed H.measD.neg md.neg) (part q) hid mom).array H.iid
  have hD : ∀ q, Near P W H.St (H.scheme q) (fun _ _ _ => d) d := fun q => Near.fixed H.measD md
  have t1 := fun q => ((hD q).mean_tendsto H.iid H.measSt (Study.balancedScheme q)).continuousAt (f := fun x => x⁻¹) (continuousAt_inv₀ hp)
  have mD : ∀ q n, Measurable fun ω => mean (crossVal H.St (H.scheme q) (fun _ _ _ => d) W n ω) := fun q n =>
    Measurable.mean' fun i => crossVal_meas H.iid H.measSt (hD q).meas n i
  have reg0 := fun q => (base q).adjust H.iid hk (V := fun _ _ _ => 0) (δ := fun _ _ => 0) (fun n => (mD q n).inv) (fun _ => measurable_const)
    (fun _ _ => measurable_const) (t1 q) oP_zero ((OP_const (P := P) 0).mono (Eventually.of_forall fun n ω => by simp [mean]))
    (oP_zero.mono (Eventually.of_forall fun n ω => by simp))
  have reg1 := fun q => (reg0 q).group 1 H.iid H.measSt (Study.balancedScheme q) (law.groupFour h4 m11 hτ le_rfl) ⟨sh.1, by linarith⟩
    H.measD law.measT law.binaryD law.binaryT (hG "ml_g_d1_t1" 1 1 q) (hL.err11 q) hp
  have reg2 := fun q => (reg1 q).group (-1) H.iid H.measSt (Study.balancedScheme q) (law.flipT.groupFour nT m10 hτ le_rfl)
    ⟨by linarith, by linarith⟩ H.measD law.flipT.measT law.binaryD law.flipT.binaryT (hG "ml_g_d1_t0" 1 0 q) (hL.err10 q) hp
  have reg3 := fun q => (reg2 q).cell (-1) H.iid H.measSt (Study.balancedScheme q) (law.flipD.cellFour nD m01 hτ le_rfl) (c2 q) H.measD law.binaryD
    (hG "ml_g_d0_t1" 0 1 q) (c1 q) (hL.err01 q) (fun j => (hL.errM q j).mono (c3 q j))
    (fun j j' => (hL.cross01 q j j').mono fun n ω => mul_le_mul_right (mul_le_mul_left (c3 q j n ω) _) _) hp (law.mean_cell hl0)
  have reg := fun q => (reg3 q).cell 1 H.iid H.measSt (Study.balancedScheme q) (law.flipD.flipT.cellFour nDT m00 hτ le_rfl) (b2 q) H.measD law.binaryD
    (hG "ml_g_d0_t0" 0 0 q) (b1 q) (hL.err00 q) (fun j => (hL.errM q j).mono (b3 q j))
    (fun j j' => (hL.cross00 q j j').mono fun n ω => mul_le_mul_right (mul_le_mul_left (b3 q j n ω) _) _) hp (law.flipT.mean_cell hl1)
  rw [hsd, ← asySd_scale _ _ _ _ hk]
  refine H.asympArray (bad := Lacking H (fun _ => True) d) reg ?_ (fun n => LinearScoreClass.usualVsf (.didCs _)) hvars hboth
    (cs_fits hg hvars hm hbin law.binaryD htime) ?_
  · have e : ∀ w, ((∫ w, d w ∂(P.map (W 0)))⁻¹ * -d w * θ + (∫ w, d w ∂(P.map (W 0)))⁻¹ *
        csSignal y d tt ξ g00 g01 g10 g11 m lam w) ^ 2 = (∫ w, d w ∂(P.map (W 0)))⁻¹ ^ 2 *
        (csSignal y d tt ξ g00 g01 g10 g11 m lam w - d w * θ) ^ 2 := fun w => by ring
    have hV' := mul_ne_zero (pow_ne_zero 2 hk) hV
    rw [← integral_const_mul] at hV'
    simpa only [e] using hV'
  · filter_upwards [htime] with n htn ω hω q c o hc ho
    obtain ⟨M, hf, hMv⟩ := csValues (hg n) (hvars n) (hm n) law.binaryD (htn ω) hω hc ho
    obtain rfl := hMv (hs n)
    rw [hs n, hn n, ht n] at hf
    refine rep_of_elems rfl hf ?_
    have hx : ∀ x : Fin K × 𝒳, 1 - trim τ (csMhat H q n x.1 (sample W n ω) x.2) ≠ 0 := fun x => by
      have := trim_mem hτ1 (csMhat H q n x.1 (sample W n ω) x.2)
      linarith [this.2]
    have odds : ∀ {v M : ℝ}, v ≠ 0 → 1 - M ≠ 0 → ((1 - M) * v)⁻¹ - v⁻¹ = v⁻¹ * (M / (1 - M)) := fun h1 h2 => by
      field_simp
      ring
    have w1 : mean (crossVal H.St (H.scheme q) (fun _ _ _ w => d w * tt w / lam) W n ω) =
        lam⁻¹ * mean fun i : Fin n => d (W i ω) * tt (W i ω) := by
      rw [← mean_mul_left]
      refine congrArg mean (funext fun i => ?_)
      show d (W i ω) * tt (W i ω) / lam = _
      rw [div_eq_mul_inv, mul_comm]
    have w2 : mean (crossVal H.St (H.scheme q) (fun _ _ _ w => d w * (1 - tt w) / (1 - lam)) W n ω) =
        (1 - lam)⁻¹ * mean fun i : Fin n => d (W i ω) * (1 - tt (W i ω)) := by
      rw [← mean_mul_left]
      refine congrArg mean (funext fun i => ?_)
      show d (W i ω) * (1 - tt (W i ω)) / (1 - lam) = _
      rw [div_eq_mul_inv, mul_comm]
    have w3 : mean (crossVal H.St (H.scheme q) (fun n j t => invWt lam⁻¹ (fun w => (1 - d w) * tt w) ξ fun x =>
        (1 - trim τ (csMhat H q n j t x)) * lam) W n ω) = lam⁻¹ * mean fun i : Fin n => (1 - d (W i ω)) * tt (W i ω) *
          (trim τ (csMhat H q n (H.foldOf q n ω i) (sample W n ω) (ξ (W i ω))) / (1 - trim τ (csMhat H q n (H.foldOf q n ω i) (sample W n ω) (ξ (W i ω))))) := by
      rw [← mean_mul_left]
      refine congrArg mean (funext fun i => ?_)
      show (1 - d (W i ω)) * tt (W i ω) * (((1 - trim τ (csMhat H q n (H.foldOf q n ω i) (sample W n ω) (ξ (W i ω)))) * lam)⁻¹ - lam⁻¹) = _
      rw [odds hl0 (hx (_, _))]
      ring
    have w4 : mean (crossVal H.St (H.scheme q) (fun n j t => invWt (1 - lam)⁻¹ (fun w => (1 - d w) * (1 - tt w)) ξ fun x =>
        (1 - trim τ (csMhat H q n j t x)) * (1 - lam)) W n ω) = (1 - lam)⁻¹ * mean fun i : Fin n => (1 - d (W i ω)) * (1 - tt (W i ω)) *
          (trim τ (csMhat H q n (H.foldOf q n ω i) (sample W n ω) (ξ (W i ω))) / (1 - trim τ (csMhat H q n (H.foldOf q n ω i) (sample W n ω) (ξ (W i ω))))) := by
      rw [← mean_mul_left]
      refine congrArg mean (funext fun i => ?_)
      show (1 - d (W i ω)) * (1 - tt (W i ω)) * (((1 - trim τ (csMhat H q n (H.foldOf q n ω i) (sample W n ω) (ξ (W i ω)))) * (1 - lam))⁻¹ - (1 - lam)⁻¹) = _
      rw [odds hl1 (hx (_, _))]
      ring
    rw [w1, w2, w3, w4]
    unfold didCsElems
    simp only [PsiElems.mk.injEq]
    refine ⟨funext fun i => ?_, funext fun i => ?_⟩
    · show -1 * (d (W i ω) / (mean fun i : Fin n => d (W i ω))) = (mean fun i : Fin n => d (W i ω))⁻¹ * -d (W i ω)
      ring
    · simp only [didWa, csResid, cells]
      generalize (mean fun i : Fin n => d (W i ω) * tt (W i ω)) = X1
      generalize (mean fun i : Fin n => d (W i ω) * (1 - tt (W i ω))) = X2
      generalize (mean fun i : Fin n => (1 - d (W i ω)) * tt (W i ω) *
          (trim τ (csMhat H q n (H.foldOf q n ω i) (sample W n ω) (ξ (W i ω))) / (1 - trim τ (csMhat H q n (H.foldOf q n ω i) (sample W n ω) (ξ (W i ω)))))) = X3
      generalize (mean fun i : Fin n => (1 - d (W i ω)) * (1 - tt (W i ω)) *
          (trim τ (csMhat H q n (H.foldOf q n ω i) (sample W n ω) (ξ (W i ω))) / (1 - trim τ (csMhat H q n (H.foldOf q n ω i) (sample W n ω) (ξ (W i ω)))))) = X4
      show _ = (mean fun i : Fin n => d (W i ω))⁻¹ * csSignal y d tt ξ
          (csGhat H tt "ml_g_d0_t0" 0 0 q n (H.foldOf q n ω i) (sample W n ω)) (csGhat H tt "ml_g_d0_t1" 0 1 q n (H.foldOf q n ω i) (sample W n ω))
          (csGhat H tt "ml_g_d1_t0" 1 0 q n (H.foldOf q n ω i) (sample W n ω)) (csGhat H tt "ml_g_d1_t1" 1 1 q n (H.foldOf q n ω i) (sample W n ω))
          (fun x => trim τ (csMhat H q n (H.foldOf q n ω i) (sample W n ω) x)) lam (W i ω) + 0 * 0 +
        1 * ((lam⁻¹ * X1)⁻¹ - (mean fun i : Fin n => d (W i ω))⁻¹) *
          (d (W i ω) * tt (W i ω) / lam * (y (W i ω) - csGhat H tt "ml_g_d1_t1" 1 1 q n (H.foldOf q n ω i) (sample W n ω) (ξ (W i ω)))) +
        -1 * (((1 - lam)⁻¹ * X2)⁻¹ - (mean fun i : Fin n => d (W i ω))⁻¹) *
          (d (W i ω) * (1 - tt (W i ω)) / (1 - lam) * (y (W i ω) - csGhat H tt "ml_g_d1_t0" 1 0 q n (H.foldOf q n ω i) (sample W n ω) (ξ (W i ω)))) +
        -1 * ((lam⁻¹ * X3)⁻¹ - (mean fun i : Fin n => d (W i ω))⁻¹) *
          ((1 - d (W i ω)) * tt (W i ω) * (y (W i ω) - csGhat H tt "ml_g_d0_t1" 0 1 q n (H.foldOf q n ω i) (sample W n ω) (ξ (W i ω))) *
            (((1 - trim τ (csMhat H q n (H.foldOf q n ω i) (sample W n ω) (ξ (W i ω)))) * lam)⁻¹ - lam⁻¹)) +
        1 * (((1 - lam)⁻¹ * X4)⁻¹ - (mean fun i : Fin n => d (W i ω))⁻¹) *
          ((1 - d (W i ω)) * (1 - tt (W i ω)) * (y (W i ω) - csGhat H tt "ml_g_d0_t0" 0 0 q n (H.foldOf q n ω i) (sample W n ω) (ξ (W i ω))) *
            (((1 - trim τ (csMhat H q n (H.foldOf q n ω i) (sample W n ω) (ξ (W i ω)))) * (1 - lam))⁻¹ - (1 - lam)⁻¹))
      rw [odds hl0 (hx (_, _)), odds hl1 (hx (_, _))]
      simp only [csSignal, csTerm]
      generalize (mean fun i : Fin n => d (W i ω)) = D
      generalize trim τ (csMhat H q n (H.foldOf q n ω i) (sample W n ω) (ξ (W i ω))) / (1 - trim τ (csMhat H q n (H.foldOf q n ω i) (sample W n ω) (ξ (W i ω)))) = O
      generalize csGhat H tt "ml_g_d0_t0" 0 0 q n (H.foldOf q n ω i) (sample W n ω) (ξ (W i ω)) = G00
      generalize csGhat H tt "ml_g_d0_t1" 0 1 q n (H.foldOf q n ω i) (sample W n ω) (ξ (W i ω)) = G01
      generalize csGhat H tt "ml_g_d1_t0" 1 0 q n (H.foldOf q n ω i) (sample W n ω) (ξ (W i ω)) = G10
      generalize csGhat H tt "ml_g_d1_t1" 1 1 q n (H.foldOf q n ω i) (sample W n ω) (ξ (W i ω)) = G11
      generalize y (W i ω) = Y
      generalize d (W i ω) = A
      generalize tt (W i ω) = T
      have k1 : lam * lam⁻¹ = 1 := mul_inv_cancel₀ hl0
      have k2 : (1 - lam) * (1 - lam)⁻¹ = 1 := mul_inv_cancel₀ hl1
      simp only [div_eq_mul_inv, mul_inv, inv_inv]
      generalize lam⁻¹ = L at k1 ⊢
      generalize (1 - lam)⁻¹ = L' at k2 ⊢
      linear_combination (-(X1⁻¹ * (A * T) * (Y - G11)) + X3⁻¹ * ((1 - A) * T) * O * (Y - G01)) * k1 +
        (X2⁻¹ * (A * (1 - T)) * (Y - G10) - X4⁻¹ * ((1 - A) * (1 - T)) * O * (Y - G00)) * k2

/-- **C79, DiD with repeated cross-sections, score for randomised treatments with normalised weights.** -/
theorem C79_did_cs_experimental_normalized [IsProbabilityMeasure P] {τ : ℝ} (hs : ∀ n, (k n).score = .experimental)
    (hn : ∀ n, (k n).normalize = true) (hg : ∀ n, (k n).gClassifier = false)
    (hvars : ∀ n, (k n).vars = none) (hm : ∀ n, (k n).ml_m.Compliant) (hbin : ∀ᶠ n in atTop, ∀ ω, (H.D n ω).binOut = false)
    (htime : ∀ᶠ n in atTop, ∀ ω, (H.D n ω).tv = some fun i : Fin n => Cell.num (tt (W i ω)))
    (hboth : Tendsto (fun n => P (Lacking H (fun _ => True) d n)) atTop (𝓝 0))
    {g00 g01 g10 g11 : 𝒳 → ℝ} {p lam : ℝ} (law : DidCsLaw (P.map (W 0)) y d tt ξ g00 g01 g10 g11 (fun _ => p) lam τ)
    (h4 : MemLp (fun w => y w - (d w * tt w * g11 (ξ w) + d w * (1 - tt w) * g10 (ξ w) +
      (1 - d w) * tt w * g01 (ξ w) + (1 - d w) * (1 - tt w) * g00 (ξ w))) 4 (P.map (W 0)))
    (m00 : MemLp (fun w => g00 (ξ w)) 4 (P.map (W 0))) (m01 : MemLp (fun w => g01 (ξ w)) 4 (P.map (W 0)))
    (m10 : MemLp (fun w => g10 (ξ w)) 4 (P.map (W 0))) (m11 : MemLp (fun w => g11 (ξ w)) 4 (P.map (W 0)))
    {θ : ℝ} (hθ : θ = ∫ w, ((g11 (ξ w) - g10 (ξ w)) - (g01 (ξ w) - g00 (ξ w))) ∂(P.map (W 0)))
    (hV : ∫ w, (csRandomSignal y d tt ξ g00 g01 g10 g11 p lam w - θ) ^ 2 ∂(P.map (W 0)) ≠ 0) (hL : CsErrors H tt g00 g01 g10 g11) :
    AsympValid E P W r H.fitted θ (Real.sqrt (∫ w, (csRandomSignal y d tt ξ g00 g01 g10 g11 p lam w - θ) ^ 2 ∂(P.map (W 0)))) := by
  classical
  have hμ := H.iid.prob 0
  have hτ := law.pos
  have hG := fun l v u q => csGhat_honest (H := H) law.measT hL.measG l v u q
  have sh := law.share
  have sp : τ ≤ p ∧ p ≤ 1 - τ := by
    obtain ⟨ω⟩ := nonempty_of_measure_ne_zero (μ := P) (s := Set.univ) (by simp)
    exact law.overlap (ξ (W 0 ω))
  have nT : MemLp (fun w => y w - (d w * (1 - tt w) * g10 (ξ w) + d w * (1 - (1 - tt w)) * g11 (ξ w) +
      (1 - d w) * (1 - tt w) * g00 (ξ w) + (1 - d w) * (1 - (1 - tt w)) * g01 (ξ w))) 4 (P.map (W 0)) :=
    h4.ae_eq (Eventually.of_forall fun w => by ring)
  have nD : MemLp (fun w => y w - ((1 - d w) * tt w * g01 (ξ w) + (1 - d w) * (1 - tt w) * g00 (ξ w) +
      (1 - (1 - d w)) * tt w * g11 (ξ w) + (1 - (1 - d w)) * (1 - tt w) * g10 (ξ w))) 4 (P.map (W 0)) :=
    h4.ae_eq (Eventually.of_forall fun w => by ring)
  have nDT : MemLp (fun w => y w - ((1 - d w) * (1 - tt w) * g00 (ξ w) + (1 - d w) * (1 - (1 - tt w)) * g01 (ξ w) +
      (1 - (1 - d w)) * (1 - tt w) * g10 (ξ w) + (1 - (1 - d w)) * (1 - (1 - tt w)) * g11 (ξ w))) 4 (P.map (W 0)) :=
    h4.ae_eq (Eventually.of_forall fun w => by ring)
  have A11 := law.cellFour h4 m11 hτ le_rfl
  have A10 := law.flipT.cellFour nT m10 hτ le_rfl
  have A01 := law.flipD.cellFour nD m01 hτ le_rfl
  have A00 := law.flipD.flipT.cellFour nDT m00 hτ le_rfl
  -- the shares are known
  have rg : ∀ {a b : ℝ}, τ ≤ a → a ≤ 1 → τ ≤ b → b ≤ 1 → τ * τ ≤ a * b ∧ a * b ≤ 1 := fun h1 h2 h3 h4 =>
    ⟨mul_le_mul h1 h3 hτ.le (hτ.le.trans h1), mul_le_one₀ h2 (hτ.le.trans h3) h4⟩
  have r11 := rg sp.1 (by linarith) sh.1 (by linarith)
  have r10 := rg (b := 1 - lam) sp.1 (by linarith) (by linarith) (by linarith)
  have r01 := rg (a := 1 - p) (by linarith) (by linarith) sh.1 (by linarith)
  have r00 := rg (a := 1 - p) (b := 1 - lam) (by linarith) (by linarith) (by linarith) (by linarith)
  have hMc : ∀ q (v : ℝ), Honest ξ H.St (H.scheme q) (fun _ _ _ _ => v) := fun q v =>
    ⟨fun n j => measurable_const, fun n j t t' _ _ => rfl⟩
  have hzero : ∀ (v : ℝ) (j : Fin K) n ω, errNorm P W ξ (fun _ _ _ _ => v) (fun _ => v) 2 j n ω = 0 := fun v j n ω => by
    show eLpNorm (fun _ => v - v) 2 (P.map (W 0)) = 0
    simp
  have eM : ∀ (v : ℝ) (j : Fin K), oPE P (errNorm P W ξ (fun _ _ _ _ => v) (fun _ => v) 2 j) := fun v j δ hδ => by simp [hzero]
  have hrate : ∀ (v : ℝ) (j : Fin K) (R : ℕ → Ω → ℝ≥0∞),
      oPE P fun n ω => ENNReal.ofReal (Real.sqrt n) * (errNorm P W ξ (fun _ _ _ _ => v) (fun _ => v) 2 j n ω * R n ω) := fun v j R δ hδ => by
    simp [hzero]
  have p11 := fun q => sharePart H.iid A11 (hG "ml_g_d1_t1" 1 1 q) (hL.err11 q) (Share.const r11)
  have p10 := fun q => sharePart H.iid A10 (hG "ml_g_d1_t0" 1 0 q) (hL.err10 q) (Share.const r10)
  have p01 := fun q => sharePart H.iid A01 (hG "ml_g_d0_t1" 0 1 q) (hL.err01 q) (Share.const r01)
  have p00 := fun q => sharePart H.iid A00 (hG "ml_g_d0_t0" 0 0 q) (hL.err00 q) (Share.const r00)
  have b11 := A11.mono (q := 2) (by norm_num)
  have b10 := A10.mono (q := 2) (by norm_num)
  have b01 := A01.mono (q := 2) (by norm_num)
  have b00 := A00.mono (q := 2) (by norm_num)
  have part : ∀ q, Part P W H.St (H.scheme q) (fun n j t => csRandomSignal y d tt ξ
      (csGhat H tt "ml_g_d0_t0" 0 0 q n j t) (csGhat H tt "ml_g_d0_t1" 0 1 q n j t) (csGhat H tt "ml_g_d1_t0" 1 0 q n j t)
      (csGhat H tt "ml_g_d1_t1" 1 1 q n j t) p lam)
      (csRandomSignal y d tt ξ g00 g01 g10 g11 p lam) := fun q =>
    (((p11 q).sub H.iid (p10 q)).sub H.iid ((p01 q).sub H.iid (p00 q))).congr (fun _ _ _ _ => rfl) fun _ => rfl
  have hmom : ∫ w, csRandomSignal y d tt ξ g00 g01 g10 g11 p lam w ∂(P.map (W 0)) = θ := by
    have k := (((HasMean.of (b11.mem.integrable one_le_two)).sub (HasMean.of (b10.mem.integrable one_le_two))).sub
      ((HasMean.of (b01.mem.integrable one_le_two)).sub (HasMean.of (b00.mem.integrable one_le_two)))).2
    have k' := (((HasMean.of (b11.memG.integrable one_le_two)).sub (HasMean.of (b10.memG.integrable one_le_two))).sub
      ((HasMean.of (b01.memG.integrable one_le_two)).sub (HasMean.of (b00.memG.integrable one_le_two)))).2
    rw [b11.integral_eq, b10.integral_eq, b01.integral_eq, b00.integral_eq] at k
    rw [hθ]
    exact k.trans k'.symm
  have e1 : ∀ w, -1 * θ + csRandomSignal y d tt ξ g00 g01 g10 g11 p lam w = csRandomSignal y d tt ξ g00 g01 g10 g11 p lam w - θ := fun w => by ring
  have hsd : Real.sqrt (∫ w, (csRandomSignal y d tt ξ g00 g01 g10 g11 p lam w - θ) ^ 2 ∂(P.map (W 0))) =
      asySd (P.map (W 0)) (fun _ => -1) (csRandomSignal y d tt ξ g00 g01 g10 g11 p lam) θ := by
    unfold asySd
    simp only [e1]
    simp
  rw [hsd]
  have base := fun q => (Part.regular H.iid H.measSt (Study.balancedScheme q) (Part.fixed measurable_const (memLp_const (-1 : ℝ))) (part q) (by simp)
    (by rw [integral_add (integrable_const _) ((part q).mem0.integrable one_le_two), hmom]; simp)).array H.iid (θ := θ)
  have reg := fun q => ((((base q).reweigh 1 H.iid H.measSt (Study.balancedScheme q) A11 (fun _ _ _ _ => r11) (hG "ml_g_d1_t1" 1 1 q) (hMc q _)
    (hL.err11 q) (eM _) fun j j' => hrate _ j _).reweigh (-1) H.iid H.measSt (Study.balancedScheme q) A10 (fun _ _ _ _ => r10)
      (hG "ml_g_d1_t0" 1 0 q) (hMc q _) (hL.err10 q) (eM _) fun j j' => hrate _ j _).reweigh (-1) H.iid H.measSt (Study.balancedScheme q) A01
        (fun _ _ _ _ => r01) (hG "ml_g_d0_t1" 0 1 q) (hMc q _) (hL.err01 q) (eM _) fun j j' => hrate _ j _).reweigh 1 H.iid H.measSt
          (Study.balancedScheme q) A00 (fun _ _ _ _ => r00) (hG "ml_g_d0_t0" 0 0 q) (hMc q _) (hL.err00 q) (eM _) fun j j' => hrate _ j _
  refine H.asympArray (bad := Lacking H (fun _ => True) d) reg ?_ (fun n => LinearScoreClass.usualVsf (.didCs _)) hvars hboth
    (cs_fits hg hvars hm hbin law.binaryD htime) ?_
  · simpa only [e1] using hV
  · filter_upwards [htime] with n htn ω hω q c o hc ho
    obtain ⟨M, hf, -⟩ := csValues (hg n) (hvars n) (hm n) law.binaryD (htn ω) hω hc ho
    rw [hs n, hn n] at hf
    refine rep_of_elems rfl hf ?_
    have wt : ∀ (u : S → ℝ) (v : ℝ), mean (crossVal H.St (H.scheme q) (fun n k t => invWt 0 u ξ fun _ => v) W n ω) =
        v⁻¹ * mean fun i : Fin n => u (W i ω) := fun u v => by
      rw [← mean_mul_left]
      refine congrArg mean (funext fun i => ?_)
      show u (W i ω) * (v⁻¹ - 0) = _
      rw [sub_zero, mul_comm]
    rw [wt, wt, wt, wt]
    unfold didCsElems
    simp only [PsiElems.mk.injEq]
    refine ⟨funext fun i => ?_, funext fun i => ?_⟩
    · show -1 * (1 : ℝ) = -1
      norm_num
    · simp only [didWa, csResid, cells]
      generalize (mean fun i : Fin n => d (W i ω) * tt (W i ω)) = X1
      generalize (mean fun i : Fin n => d (W i ω) * (1 - tt (W i ω))) = X2
      generalize (mean fun i : Fin n => (1 - d (W i ω)) * tt (W i ω)) = X3
      generalize (mean fun i : Fin n => (1 - d (W i ω)) * (1 - tt (W i ω))) = X4
      show _ = csRandomSignal y d tt ξ
          (csGhat H tt "ml_g_d0_t0" 0 0 q n (H.foldOf q n ω i) (sample W n ω)) (csGhat H tt "ml_g_d0_t1" 0 1 q n (H.foldOf q n ω i) (sample W n ω))
          (csGhat H tt "ml_g_d1_t0" 1 0 q n (H.foldOf q n ω i) (sample W n ω)) (csGhat H tt "ml_g_d1_t1" 1 1 q n (H.foldOf q n ω i) (sample W n ω))
          p lam (W i ω) +
        1 * (((p * lam)⁻¹ * X1)⁻¹ - 1) * (d (W i ω) * tt (W i ω) *
          (y (W i ω) - csGhat H tt "ml_g_d1_t1" 1 1 q n (H.foldOf q n ω i) (sample W n ω) (ξ (W i ω))) * ((p * lam)⁻¹ - 0)) +
        -1 * (((p * (1 - lam))⁻¹ * X2)⁻¹ - 1) * (d (W i ω) * (1 - tt (W i ω)) *
          (y (W i ω) - csGhat H tt "ml_g_d1_t0" 1 0 q n (H.foldOf q n ω i) (sample W n ω) (ξ (W i ω))) * ((p * (1 - lam))⁻¹ - 0)) +
        -1 * ((((1 - p) * lam)⁻¹ * X3)⁻¹ - 1) * ((1 - d (W i ω)) * tt (W i ω) *
          (y (W i ω) - csGhat H tt "ml_g_d0_t1" 0 1 q n (H.foldOf q n ω i) (sample W n ω) (ξ (W i ω))) * (((1 - p) * lam)⁻¹ - 0)) +
        1 * ((((1 - p) * (1 - lam))⁻¹ * X4)⁻¹ - 1) * ((1 - d (W i ω)) * (1 - tt (W i ω)) *
          (y (W i ω) - csGhat H tt "ml_g_d0_t0" 0 0 q n (H.foldOf q n ω i) (sample W n ω) (ξ (W i ω))) * (((1 - p) * (1 - lam))⁻¹ - 0))
      simp only [csRandomSignal, armVal]
      generalize csGhat H tt "ml_g_d0_t0" 0 0 q n (H.foldOf q n ω i) (sample W n ω) (ξ (W i ω)) = G00
      generalize csGhat H tt "ml_g_d0_t1" 0 1 q n (H.foldOf q n ω i) (sample W n ω) (ξ (W i ω)) = G01
      generalize csGhat H tt "ml_g_d1_t0" 1 0 q n (H.foldOf q n ω i) (sample W n ω) (ξ (W i ω)) = G10
      generalize csGhat H tt "ml_g_d1_t1" 1 1 q n (H.foldOf q n ω i) (sample W n ω) (ξ (W i ω)) = G11
      generalize y (W i ω) = Y
      generalize d (W i ω) = A
      generalize tt (W i ω) = T
      have ne : ∀ {v : ℝ}, τ * τ ≤ v ∧ v ≤ 1 → v * v⁻¹ = 1 := fun h => mul_inv_cancel₀ ((mul_pos hτ hτ).trans_le h.1).ne'
      have k11 := ne r11
      have k10 := ne r10
      have k01 := ne r01
      have k00 := ne r00
      generalize p * lam = a11 at k11 ⊢
      generalize p * (1 - lam) = a10 at k10 ⊢
      generalize (1 - p) * lam = a01 at k01 ⊢
      generalize (1 - p) * (1 - lam) = a00 at k00 ⊢
      simp only [div_eq_mul_inv, mul_inv, inv_inv]
      linear_combination -(X1⁻¹ * (A * T) * (Y - G11)) * k11 + (X2⁻¹ * (A * (1 - T)) * (Y - G10)) * k10 +
        (X3⁻¹ * ((1 - A) * T) * (Y - G01)) * k01 - (X4⁻¹ * ((1 - A) * (1 - T)) * (Y - G00)) * k00

end Cs

end DML
