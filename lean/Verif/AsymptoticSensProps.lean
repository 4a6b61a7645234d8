import Verif.LimitSens
import Verif.AsymptoticPlrBlpProps
import Verif.FrameworkStateProps

/-!
# Sensitivity analysis of the partially linear model in large samples (C87)

The bounds `theta ∓ strength * max_bias` of `sensitivity_analysis` (/repo/doubleml/double_ml_framework.py:443-529) and the one-sided confidence
limits for them.
-/

namespace DML

open MeasureTheory ProbabilityTheory Filter Topology
open scoped ENNReal

variable {Ω : Type*} {mΩ : MeasurableSpace Ω} {P : Measure Ω} {S : Type*} [MeasurableSpace S] {𝒳 : Type*} [MeasurableSpace 𝒳]
  {W : ℕ → Ω → S} {Q : Type} {E : Ext} {r K : ℕ} {tv : String} {y d : S → ℝ} {ξ : S → 𝒳} {enc : 𝒳 → List Cell}

/-- `res` is the result of the sensitivity analysis of the fitted object `t` of one treatment with the given parameters
(/repo/doubleml/double_ml.py:1460-1500, /repo/doubleml/double_ml_framework.py:443-529). -/
def IsSens {n : ℕ} (t : LinState n Q) (cfy cfd rho level : ℝ) (res : SensRes) : Prop :=
  ∃ q, t.fw? = some q ∧ q.fw.calcSens (.float cfy) (.float cfd) (.float rho) (.float level) = .ok [res]

/-! ## One repetition -/

section Vectors

variable {n : ℕ} (y d l m : Fin n → ℝ)

/-- Coefficient, scores and sensitivity elements of one repetition in terms of products of residuals. -/
theorem sens_ratio (hpos : 0 < mean fun i => (d i - m i) * (d i - m i)) {f : FitOne n} (hf : f = (plrPo y d l m).fit none) {s : SensElems n}
    (hs : s = plrSens (plrPoResid2 y d l m f.coef) d m) {uu uv vv : Fin n → ℝ} (huu : uu = fun i => (y i - l i) * (y i - l i))
    (huv : uv = fun i => (y i - l i) * (d i - m i)) (hvv : vv = fun i => (d i - m i) * (d i - m i)) :
    f.coef = ratioCoef uv vv ∧ 0 < s.nu2 ∧ s.maxBias = ratioBias uu uv vv ∧
      ∀ e i, f.scaledPsi i + e * s.psiMaxBias i = ratioScore uu uv vv e i := by
  rw [← hvv] at hpos
  have ha : mean (fun i => -((d i - m i) * (d i - m i))) = -mean vv := by
    rw [hvv]
    exact mean_neg _
  have hb : mean (fun i => (d i - m i) * (y i - l i)) = mean uv := by
    rw [huv]
    exact congrArg mean (funext fun i => mul_comm _ _)
  have hc : f.coef = ratioCoef uv vv := by
    rw [hf]
    show -mean (fun i => (d i - m i) * (y i - l i)) / mean (fun i => -((d i - m i) * (d i - m i))) = _
    rw [ha, hb, neg_div_neg_eq]
    rfl
  have hv2 : mean (fun i => (d i - m i) ^ 2) = mean vv := by
    rw [hvv]
    exact congrArg mean (funext fun i => sq _)
  have hnu : s.nu2 = (mean vv)⁻¹ := by
    rw [hs]
    show 1 / mean (fun i => (d i - m i) ^ 2) = _
    rw [hv2, one_div]
  have hres : ∀ i, plrPoResid2 y d l m f.coef i = uu i - 2 * ratioCoef uv vv * uv i + ratioCoef uv vv ^ 2 * vv i := fun i => by
    rw [hc, huu, huv, hvv]
    unfold plrPoResid2
    ring
  have hsi : s.sigma2 = ratioVar uu uv vv := by
    rw [hs]
    show mean (plrPoResid2 y d l m f.coef) = _
    rw [funext hres, mean_add, mean_sub, mean_mul_left, mean_mul_left]
    unfold ratioVar ratioCoef
    have := hpos.ne'
    field_simp
    ring
  have hmb : s.maxBias = ratioBias uu uv vv := by
    unfold SensElems.maxBias ratioBias
    rw [hsi, hnu]
  have hps : ∀ i, s.psiSigma2 i = uu i - 2 * ratioCoef uv vv * uv i + ratioCoef uv vv ^ 2 * vv i - ratioVar uu uv vv := fun i => by
    rw [← hsi, ← hres]
    rw [hs]
    rfl
  have hpn : ∀ i, s.psiNu2 i = (mean vv)⁻¹ - vv i * (mean vv)⁻¹ ^ 2 := fun i => by
    rw [← hnu, hvv]
    rw [hs]
    show 1 / mean (fun i => (d i - m i) ^ 2) - (d i - m i) ^ 2 * (1 / mean (fun i => (d i - m i) ^ 2)) ^ 2 =
      1 / mean (fun i => (d i - m i) ^ 2) - (d i - m i) * (d i - m i) * (1 / mean (fun i => (d i - m i) ^ 2)) ^ 2
    ring
  refine ⟨hc, by rw [hnu]; exact inv_pos.2 hpos, hmb, fun e i => ?_⟩
  have hsc : f.scaledPsi i = -(mean vv)⁻¹ * (uv i - ratioCoef uv vv * vv i) := by
    have h1 : f.scaledPsi i = (-((d i - m i) * (d i - m i)) * f.coef + (d i - m i) * (y i - l i)) /
        mean (fun i => -((d i - m i) * (d i - m i))) := by
      rw [hf]
      rfl
    rw [h1, ha, hc, huv, hvv]
    rw [div_eq_mul_inv, inv_neg]
    ring
  unfold ratioScore SensElems.psiMaxBias
  rw [hsc, hmb, hsi, hnu, hps, hpn]
  ring

/-- The sensitivity analysis of a parameter without clusters in terms of products of residuals. -/
theorem sensRes_ratio {r : ℕ} (b : Block n r) (s : Sens n r) {uu uv vv : Fin r → Fin n → ℝ} (h1 : ∀ q, b.allTheta q = ratioCoef (uv q) (vv q))
    (h2 : ∀ q, s.maxBias q = ratioBias (uu q) (uv q) (vv q))
    (h3 : ∀ q e i, b.psi i q + e * s.psiMaxBias i q = ratioScore (uu q) (uv q) (vv q) e i) (hn : 0 < n) (cfy cfd rho level : ℝ) :
    (b.sensRes s none cfy cfd rho level).thetaLower = median (fun q => ratioCoef (uv q) (vv q) +
      -confStrength cfy cfd rho * ratioBias (uu q) (uv q) (vv q)) ∧
    (b.sensRes s none cfy cfd rho level).thetaUpper = median (fun q => ratioCoef (uv q) (vv q) +
      confStrength cfy cfd rho * ratioBias (uu q) (uv q) (vv q)) ∧
    (b.sensRes s none cfy cfd rho level).ciLower = median (fun q => ratioCoef (uv q) (vv q) +
      -confStrength cfy cfd rho * ratioBias (uu q) (uv q) (vv q) - ppf level * Real.sqrt (1 / n * mean fun i =>
        ratioScore (uu q) (uv q) (vv q) (-confStrength cfy cfd rho) i ^ 2)) ∧
    (b.sensRes s none cfy cfd rho level).ciUpper = median (fun q => ratioCoef (uv q) (vv q) +
      confStrength cfy cfd rho * ratioBias (uu q) (uv q) (vv q) + ppf level * Real.sqrt (1 / n * mean fun i =>
        ratioScore (uu q) (uv q) (vv q) (confStrength cfy cfd rho) i ^ 2)) := by
  have hone : mean (fun _ : Fin n => (1 : ℝ)) = 1 := mean_const hn 1
  have hvar : ∀ psi : Fin n → ℝ, (varEst psi (fun _ => 1) none).1 = 1 / n * mean fun i => psi i ^ 2 := fun psi => by
    show 1 / ((n : ℝ) * mean (fun _ : Fin n => (1 : ℝ)) ^ 2) * mean (fun i => psi i ^ 2) = _
    rw [hone, one_pow, mul_one]
  have elo : ∀ q, b.sigmaLower s none (confStrength cfy cfd rho) q = Real.sqrt (1 / n * mean fun i =>
      ratioScore (uu q) (uv q) (vv q) (-confStrength cfy cfd rho) i ^ 2) := fun q => by
    unfold Block.sigmaLower
    rw [Option.map_none, hvar]
    refine congrArg Real.sqrt (congrArg _ (congrArg mean (funext fun i => ?_)))
    rw [← h3]
    ring
  have eup : ∀ q, b.sigmaUpper s none (confStrength cfy cfd rho) q = Real.sqrt (1 / n * mean fun i =>
      ratioScore (uu q) (uv q) (vv q) (confStrength cfy cfd rho) i ^ 2) := fun q => by
    unfold Block.sigmaUpper
    rw [Option.map_none, hvar]
    refine congrArg Real.sqrt (congrArg _ (congrArg mean (funext fun i => ?_)))
    rw [← h3]
  have tlo : ∀ q, b.thetaLower s (confStrength cfy cfd rho) q = ratioCoef (uv q) (vv q) +
      -confStrength cfy cfd rho * ratioBias (uu q) (uv q) (vv q) := fun q => by
    unfold Block.thetaLower
    rw [h1, h2]
    ring
  have tup : ∀ q, b.thetaUpper s (confStrength cfy cfd rho) q = ratioCoef (uv q) (vv q) +
      confStrength cfy cfd rho * ratioBias (uu q) (uv q) (vv q) := fun q => by
    unfold Block.thetaUpper
    rw [h1, h2]
  refine ⟨?_, ?_, ?_, ?_⟩
  · show aggTheta (b.thetaLower s (confStrength cfy cfd rho)) = _
    rw [funext tlo]
    rfl
  · show aggTheta (b.thetaUpper s (confStrength cfy cfd rho)) = _
    rw [funext tup]
    rfl
  · show median (fun q => b.thetaLower s (confStrength cfy cfd rho) q - ppf level * b.sigmaLower s none (confStrength cfy cfd rho) q) = _
    simp only [tlo, elo]
  · show median (fun q => b.thetaUpper s (confStrength cfy cfd rho) q + ppf level * b.sigmaUpper s none (confStrength cfy cfd rho) q) = _
    simp only [tup, eup]

end Vectors

section Plr

variable {k : ∀ n, PlrClass n Q} (H : Study E P W r K (fun n => plrSpec (k n)) tv y d ξ enc)

/-- Squared residuals of the outcome. -/
noncomputable def plrUU (q : Fin r) (n : ℕ) (ω : Ω) (i : Fin n) : ℝ :=
  (y (W i ω) - plrLhat H q n (H.foldOf q n ω i) (sample W n ω) (ξ (W i ω))) *
  (y (W i ω) - plrLhat H q n (H.foldOf q n ω i) (sample W n ω) (ξ (W i ω)))

/-- Products of the residuals. -/
noncomputable def plrUV (q : Fin r) (n : ℕ) (ω : Ω) (i : Fin n) : ℝ :=
  (y (W i ω) - plrLhat H q n (H.foldOf q n ω i) (sample W n ω) (ξ (W i ω))) *
  (d (W i ω) - plrMhat H q n (H.foldOf q n ω i) (sample W n ω) (ξ (W i ω)))

/-- Squared residuals of the treatment. -/
noncomputable def plrVV (q : Fin r) (n : ℕ) (ω : Ω) (i : Fin n) : ℝ :=
  (d (W i ω) - plrMhat H q n (H.foldOf q n ω i) (sample W n ω) (ξ (W i ω))) *
  (d (W i ω) - plrMhat H q n (H.foldOf q n ω i) (sample W n ω) (ξ (W i ω)))

variable {H}

theorem plr_parts [IsProbabilityMeasure P] {θ : ℝ} {g m : 𝒳 → ℝ} (law : EffectLaw (P.map (W 0)) y d ξ (fun _ => θ) g m)
    (hL : PlrRates H (fun x => θ * m x + g x) m)
    (hLL : ∀ q j, oPE P fun n ω => ENNReal.ofReal (Real.sqrt n) * (errNorm P W ξ (plrLhat H q) (fun x => θ * m x + g x) 2 j n ω *
      errNorm P W ξ (plrLhat H q) (fun x => θ * m x + g x) 2 j n ω))
    (hE : ∫ w, (y w - θ * d w - g (ξ w)) ^ 2 ∂(P.map (W 0)) ≠ 0) (hV : ∫ w, (d w - m (ξ w)) ^ 2 ∂(P.map (W 0)) ≠ 0) (q : Fin r) :
    RatioParts P W (plrUU H q) (plrUV H q) (plrVV H q) (fun w => y w - θ * d w - g (ξ w)) (fun w => d w - m (ξ w)) θ := by
  have hμ : IsProbabilityMeasure (P.map (W 0)) := Measure.isProbabilityMeasure_map (H.iid.meas 0).aemeasurable
  have hML : Honest ξ H.St (H.scheme q) (plrLhat H q) := Study.honest (H := H) hL.measL "ml_l" H.measY MeasurableSet.univ q (on := fun _ => True)
  have hMM : Honest ξ H.St (H.scheme q) (plrMhat H q) := Study.honest (H := H) hL.measM "ml_m" H.measD MeasurableSet.univ q (on := fun _ => True)
  have rMM : ∀ j, oPE P fun n ω => ENNReal.ofReal (Real.sqrt n) *
      (errNorm P W ξ (plrMhat H q) m 2 j n ω * errNorm P W ξ (plrMhat H q) m 2 j n ω) := fun j =>
    (hL.rate q j).mono fun n ω => by
      gcongr
      exact le_self_add
  have rML : ∀ j, oPE P fun n ω => ENNReal.ofReal (Real.sqrt n) * (errNorm P W ξ (plrLhat H q) (fun x => θ * m x + g x) 2 j n ω *
      errNorm P W ξ (plrMhat H q) m 2 j n ω) := fun j =>
    (hL.rate q j).mono fun n ω => by
      rw [mul_comm (errNorm P W ξ (plrLhat H q) (fun x => θ * m x + g x) 2 j n ω)]
      gcongr
      exact le_add_self
  have mL : Measurable fun x => θ * m x + g x := (law.measM.const_mul θ).add law.measG
  have eu : ∀ w, y w - (θ * m (ξ w) + g (ξ w)) = y w - θ * d w - g (ξ w) + θ * (d w - m (ξ w)) := fun w => by ring
  have puu := (Part.residuals (c := H.scheme q) H.iid law.measX law.measY law.measY mL mL law.outcome law.outcome law.memOutcome law.memOutcome
    hML hML (hL.errL q) (hL.errL q) (hLL q)).congr (g := fun n l t w => (y w - plrLhat H q n l t (ξ w)) * (y w - plrLhat H q n l t (ξ w)))
      (g0 := fun w => (y w - θ * d w - g (ξ w) + θ * (d w - m (ξ w))) ^ 2) (fun _ _ _ _ => rfl) fun w => by rw [eu, sq]
  have puv := (Part.residuals (c := H.scheme q) H.iid law.measX law.measY law.measD mL law.measM law.outcome law.treat law.memOutcome law.memTreat
    hML hMM (hL.errL q) (hL.errM q) rML).congr (g := fun n l t w => (y w - plrLhat H q n l t (ξ w)) * (d w - plrMhat H q n l t (ξ w)))
      (g0 := fun w => (y w - θ * d w - g (ξ w) + θ * (d w - m (ξ w))) * (d w - m (ξ w))) (fun _ _ _ _ => rfl) fun w => by rw [eu]
  have pvv := (Part.residuals (c := H.scheme q) H.iid law.measX law.measD law.measD law.measM law.measM law.treat law.treat law.memTreat law.memTreat
    hMM hMM (hL.errM q) (hL.errM q) rMM).congr (g := fun n l t w => (d w - plrMhat H q n l t (ξ w)) * (d w - plrMhat H q n l t (ξ w)))
      (g0 := fun w => (d w - m (ξ w)) ^ 2) (fun _ _ _ _ => rfl) fun w => by rw [sq]
  have hb := Study.balancedScheme (H := H) q
  have m1 : MemLp (fun w => y w - θ * d w - g (ξ w)) 2 (P.map (W 0)) := law.memNoise.mono_exponent (by norm_num)
  have m2 : MemLp (fun w => d w - m (ξ w)) 2 (P.map (W 0)) := law.memTreat.mono_exponent (by norm_num)
  have hx := law.cross (b := fun _ => (1 : ℝ)) measurable_const (C := 1) fun _ => by norm_num
  simp only [one_mul] at hx
  have i2 : Integrable (fun w => θ * (d w - m (ξ w)) ^ 2) (P.map (W 0)) := m2.integrable_sq.const_mul θ
  have i3 : Integrable (fun w => θ ^ 2 * (d w - m (ξ w)) ^ 2) (P.map (W 0)) := m2.integrable_sq.const_mul (θ ^ 2)
  have i4 : Integrable (fun w => 2 * θ * ((y w - θ * d w - g (ξ w)) * (d w - m (ξ w)))) (P.map (W 0)) := hx.1.const_mul (2 * θ)
  have i5 : Integrable (fun w => (y w - θ * d w - g (ξ w)) ^ 2) (P.map (W 0)) := m1.integrable_sq
  have i6 : Integrable (fun w => (y w - θ * d w - g (ξ w)) ^ 2 + 2 * θ * ((y w - θ * d w - g (ξ w)) * (d w - m (ξ w)))) (P.map (W 0)) :=
    i5.add i4
  refine ⟨puu.lin H.iid H.measSt hb, puv.lin H.iid H.measSt hb, pvv.lin H.iid H.measSt hb, puu.near_close H.iid H.measSt hb,
    puv.near_close H.iid H.measSt hb, pvv.near_close H.iid H.measSt hb, ?_, ?_, lt_of_le_of_ne (integral_nonneg fun w => sq_nonneg _) (Ne.symm hE),
    lt_of_le_of_ne (integral_nonneg fun w => sq_nonneg _) (Ne.symm hV)⟩
  · have e : ∀ w, (y w - θ * d w - g (ξ w) + θ * (d w - m (ξ w))) * (d w - m (ξ w)) =
        (y w - θ * d w - g (ξ w)) * (d w - m (ξ w)) + θ * (d w - m (ξ w)) ^ 2 := fun w => by ring
    simp only [e]
    rw [integral_add hx.1 i2, hx.2, zero_add, integral_const_mul]
  · have e : ∀ w, (y w - θ * d w - g (ξ w) + θ * (d w - m (ξ w))) ^ 2 =
        (y w - θ * d w - g (ξ w)) ^ 2 + 2 * θ * ((y w - θ * d w - g (ξ w)) * (d w - m (ξ w))) + θ ^ 2 * (d w - m (ξ w)) ^ 2 := fun w => by ring
    simp only [e]
    rw [integral_add i6 i3, integral_add i5 i4, integral_const_mul, integral_const_mul, hx.2, mul_zero, add_zero]

variable (H) in
/-- The sensitivity analysis of a fitted object is that of the products of its residuals, when the latter of the treatment are not all zero. -/
theorem plr_sens (hiv : ∀ n, (k n).iv = false) (hcl : ∀ n, (k n).mClassifier = false)
    (hvars : ∀ n, (k n).vars = none) (hbin : ∀ᶠ n in atTop, ∀ ω, lookupKey tv (H.D n ω).binTreats = some false) :
    ∀ᶠ n in atTop, ∀ ω, (∀ q, 0 < mean (plrVV H q n ω)) → ∀ {cfy cfd rho level : ℝ}, 0 ≤ cfy ∧ cfy < 1 → 0 ≤ cfd ∧ cfd < 1 → -1 ≤ rho ∧ rho ≤ 1 →
      0 < level ∧ level < 1 → ∃ res, (∀ res', IsSens (H.fitted n ω) cfy cfd rho level res' ↔ res' = res) ∧
      res.thetaLower = median (fun q => ratioCoef (plrUV H q n ω) (plrVV H q n ω) +
        -confStrength cfy cfd rho * ratioBias (plrUU H q n ω) (plrUV H q n ω) (plrVV H q n ω)) ∧
      res.thetaUpper = median (fun q => ratioCoef (plrUV H q n ω) (plrVV H q n ω) +
        confStrength cfy cfd rho * ratioBias (plrUU H q n ω) (plrUV H q n ω) (plrVV H q n ω)) ∧
      res.ciLower = median (fun q => ratioCoef (plrUV H q n ω) (plrVV H q n ω) +
        -confStrength cfy cfd rho * ratioBias (plrUU H q n ω) (plrUV H q n ω) (plrVV H q n ω) - ppf level * Real.sqrt (1 / n * mean fun i =>
          ratioScore (plrUU H q n ω) (plrUV H q n ω) (plrVV H q n ω) (-confStrength cfy cfd rho) i ^ 2)) ∧
      res.ciUpper = median (fun q => ratioCoef (plrUV H q n ω) (plrVV H q n ω) +
        confStrength cfy cfd rho * ratioBias (plrUU H q n ω) (plrUV H q n ω) (plrVV H q n ω) + ppf level * Real.sqrt (1 / n * mean fun i =>
          ratioScore (plrUU H q n ω) (plrUV H q n ω) (plrVV H q n ω) (confStrength cfy cfd rho) i ^ 2)) := by
  filter_upwards [H.runs hvars, H.reached, H.smpls, hbin, eventually_gt_atTop 0] with n h1 h2 h3 h4 hn ω hpos cfy cfd rho level hy hd hr hl
  obtain ⟨g1, g2, g3⟩ := h1 ω
  have hok : (fit (H.F n ω) (plrSpec (k n)) (H.obj n ω) H.args).2 = .ok () :=
    C63_plr (hvars n) (hcl n) (h4 ω) (h2 ω) (h3 ω) (H.valid n _)
  obtain ⟨A, c, o, V⟩ := fit_view (LinearScoreClass.usualVsf (.plr _)) ((h2 ω).ready (hvars n)).1.shaped hok g1
  have hj : 0 < (H.obj n ω).data.d.length := by omega
  have hcell : ∀ q : Fin r, (o 0 hj q).fit.coef = ratioCoef (plrUV H q n ω) (plrVV H q n ω) ∧ 0 < (o 0 hj q).sens.nu2 ∧
      (o 0 hj q).sens.maxBias = ratioBias (plrUU H q n ω) (plrUV H q n ω) (plrVV H q n ω) ∧
      ∀ e i, (o 0 hj q).fit.scaledPsi i + e * (o 0 hj q).sens.psiMaxBias i =
        ratioScore (plrUU H q n ω) (plrUV H q n ω) (plrVV H q n ω) e i := fun q => by
    obtain ⟨hcf, ho⟩ := V.cell 0 hj q
    have hp := hpos q
    generalize c 0 hj q = cc at hcf ho
    generalize o 0 hj q = oo at ho
    have hc := g3 q cc hcf
    have hst := C26_plr hc.cross.ok ho
    obtain ⟨pl, hpl, rl⟩ := hst.1 (hc.noExt _) fun _ => hc.noExt _
    obtain ⟨pm, hpm, rm⟩ := hst.2.1 (hc.noExt _)
    rw [hcl n] at rm
    have vl := fun i => hc.predict (L := fun n => (k n).ml_l) (u := y) (on := fun _ => True) (by simp [plrSpec, hiv n]) rl
      (fun _ => Iff.rfl) hc.y i
    have vm := fun i => hc.predict (L := fun n => (k n).ml_m) (u := d) (on := fun _ => True) (by simp [plrSpec, hiv n]) rm
      (fun _ => Iff.rfl) hc.d i
    obtain ⟨l, -, ho⟩ := bind_ok ho
    obtain ⟨m', -, ho⟩ := bind_ok ho
    obtain ⟨g', -, ho⟩ := bind_ok ho
    obtain rfl := Except.ok.inj ho
    obtain rfl : l.preds = pl := Option.some.inj hpl
    obtain rfl : m'.preds = pm := Option.some.inj hpm
    have el : ∀ i, l.vec i = plrLhat H q n (H.foldOf q n ω i) (sample W n ω) (ξ (W i ω)) := vl
    have em : ∀ i, m'.vec i = plrMhat H q n (H.foldOf q n ω i) (sample W n ω) (ξ (W i ω)) := vm
    have evv : plrVV H q n ω = fun i => (cc.d i - m'.vec i) * (cc.d i - m'.vec i) := funext fun i => by
      rw [hc.d i, em i]
      rfl
    refine sens_ratio cc.y cc.d l.vec m'.vec (by rw [← evv]; exact hp) ?_ ?_ (funext fun i => ?_) (funext fun i => ?_) evv
    · show (plrElems (k n).iv cc.y cc.d l.vec m'.vec g'.vec).fit cc.cluster = _
      rw [hiv n, hc.src.noCluster (hvars n)]
      rfl
    · show plrSens (plrResid2 (k n).iv cc.y cc.d l.vec m'.vec g'.vec _) cc.d m'.vec = _
      rw [hiv n]
      rfl
    · rw [hc.y i, el i]
      rfl
    · rw [hc.y i, hc.d i, el i, em i]
      rfl
  obtain ⟨Sx, B, hS, -, hSl, -, hSj⟩ := V.sens rfl
  have hval : validateSens (fun q => (o 0 hj q).sens) = fun q => (o 0 hj q).sens := by
    unfold validateSens
    rw [if_neg]
    rintro ⟨q, hq⟩
    exact absurd (hcell q).2.1 (not_lt.2 hq)
  have hclu : A.cluster = none := by
    have := V.cluster
    rw [show (plrSpec (k n)).vars = none from hvars n] at this
    exact this
  obtain ⟨b, hb⟩ := List.length_eq_one_iff.1 (V.nBlocks.trans g2)
  obtain ⟨s, hs⟩ := List.length_eq_one_iff.1 (hSl.trans g2)
  have hb1 := V.block 0 hj
  have hs1 := (hSj 0 hj).1
  rw [hb] at hb1
  rw [hs] at hs1
  have hb2 : b = _ := Option.some.inj hb1
  have hs2 : s = _ := Option.some.inj hs1
  refine ⟨b.sensRes s none cfy cfd rho level, fun res' => ?_, sensRes_ratio b s (fun q => ?_) (fun q => ?_) (fun q e i => ?_) hn _ _ _ _⟩
  · have key := calcSens_ok A hS hy hd hr hl
    rw [hb, hs, hclu] at key
    unfold IsSens Study.fitted
    rw [V.fw]
    constructor
    · rintro ⟨q, hq, he⟩
      obtain rfl := Option.some.inj hq
      have he' := (show A.calcSens _ _ _ _ = _ from he).symm.trans key
      exact (List.cons.inj (Except.ok.inj he')).1
    · rintro rfl
      exact ⟨_, rfl, key⟩
  · rw [hb2]
    exact (hcell q).1
  · rw [hs2]
    unfold cellSens
    rw [hval]
    exact (hcell q).2.2.1
  · rw [hb2, hs2]
    unfold cellSens cellBlock
    rw [hval]
    exact (hcell q).2.2.2 e i

/-- What the theorems below ask of the model and the learners: the conditions of C79 for the score `partialling out`, and that the squared error
of the learner of the outcome vanishes faster than `1/√n`. -/
structure PlrSensSetup (H : Study E P W r K (fun n => plrSpec (k n)) tv y d ξ enc) (θ : ℝ) (g m : 𝒳 → ℝ) : Prop where
  score : ∀ n, (k n).iv = false
  regressor : ∀ n, (k n).mClassifier = false
  vars : ∀ n, (k n).vars = none
  notBinary : ∀ᶠ n in atTop, ∀ ω, lookupKey tv (H.D n ω).binTreats = some false
  law : PlrLaw (P.map (W 0)) y d ξ θ g m 4
  rates : PlrRates H (fun x => θ * m x + g x) m
  rateL : ∀ q j, oPE P fun n ω => ENNReal.ofReal (Real.sqrt n) * (errNorm P W ξ (plrLhat H q) (fun x => θ * m x + g x) 2 j n ω *
    errNorm P W ξ (plrLhat H q) (fun x => θ * m x + g x) 2 j n ω)
  varE : ∫ w, (y w - θ * d w - g (ξ w)) ^ 2 ∂(P.map (W 0)) ≠ 0
  varD : ∫ w, (d w - m (ξ w)) ^ 2 ∂(P.map (W 0)) ≠ 0

section Main

variable [IsProbabilityMeasure P] {θ : ℝ} {g m : 𝒳 → ℝ} {cfy cfd rho level : ℝ}

theorem PlrSensSetup.parts (h : PlrSensSetup H θ g m) (q : Fin r) :
    RatioParts P W (plrUU H q) (plrUV H q) (plrVV H q) (fun w => y w - θ * d w - g (ξ w)) (fun w => d w - m (ξ w)) θ :=
  plr_parts ⟨h.law.measY, h.law.measD, h.law.measX, measurable_const, h.law.measG, h.law.measM, h.law.noise, h.law.instr, h.law.memNoise,
    h.law.memInstr, h.law.memInstr.const_mul θ⟩ h.rates h.rateL h.varE h.varD q

/-- Samples where the residuals of the treatment vanish in some repetition. -/
theorem PlrSensSetup.bad (h : PlrSensSetup H θ g m) : Tendsto (fun n => P {ω | ¬ ∀ q, 0 < mean (plrVV H q n ω)}) atTop (𝓝 0) := by
  have h1 : oP P fun n ω => ∑ q : Fin r, |mean (plrVV H q n ω) - ∫ w, (d w - m (ξ w)) ^ 2 ∂(P.map (W 0))| :=
    oP.sum _ fun q _ => ((h.parts q).vvLin.tends H.iid).abs
  refine tendsto_zero_of_le ?_ (h1 _ (h.parts ⟨0, H.reps⟩).posV)
  refine Eventually.of_forall fun n => measure_mono fun ω hω => ?_
  have hω' : ¬ ∀ q, 0 < mean (plrVV H q n ω) := hω
  push Not at hω'
  obtain ⟨q, hq⟩ := hω'
  have h2 : |mean (plrVV H q n ω) - ∫ w, (d w - m (ξ w)) ^ 2 ∂(P.map (W 0))| ≤
      ∑ q : Fin r, |mean (plrVV H q n ω) - ∫ w, (d w - m (ξ w)) ^ 2 ∂(P.map (W 0))| :=
    Finset.single_le_sum (f := fun q : Fin r => |mean (plrVV H q n ω) - ∫ w, (d w - m (ξ w)) ^ 2 ∂(P.map (W 0))|) (fun _ _ => abs_nonneg _)
      (Finset.mem_univ q)
  refine le_trans ?_ (le_trans h2 (le_abs_self _))
  rw [abs_sub_comm]
  refine le_trans ?_ (le_abs_self _)
  linarith

/-- **C87, the bounds are consistent.**  `theta.lower` and `theta.upper` of the sensitivity analysis converge in probability to the coefficient
minus and plus the confounding strength times the standard deviation of the error over that of the residual of the treatment. -/
theorem C87_bounds (h : PlrSensSetup H θ g m) (hy : 0 ≤ cfy ∧ cfy < 1) (hd : 0 ≤ cfd ∧ cfd < 1) (hr : -1 ≤ rho ∧ rho ≤ 1)
    (hl : 0 < level ∧ level < 1) {η : ℝ} (hη : 0 < η) :
    ProbTends P (fun n => {ω | ∃ res, IsSens (H.fitted n ω) cfy cfd rho level res ∧
      |res.thetaLower - (θ - confStrength cfy cfd rho * biasBound (P.map (W 0)) (fun w => y w - θ * d w - g (ξ w)) fun w => d w - m (ξ w))| < η ∧
      |res.thetaUpper - (θ + confStrength cfy cfd rho * biasBound (P.map (W 0)) (fun w => y w - θ * d w - g (ξ w)) fun w => d w - m (ξ w))| < η})
      1 := by
  have hm : ∀ e : ℝ, oP P fun n ω => median (fun q => ratioCoef (plrUV H q n ω) (plrVV H q n ω) + e * ratioBias (plrUU H q n ω) (plrUV H q n ω)
      (plrVV H q n ω)) - (θ + e * biasBound (P.map (W 0)) (fun w => y w - θ * d w - g (ξ w)) fun w => d w - m (ξ w)) := fun e => by
    have h1 := oP.median (P := P) H.reps (m := fun _ => 1) (X := fun n ω q => ratioCoef (plrUV H q n ω) (plrVV H q n ω) +
      e * ratioBias (plrUU H q n ω) (plrUV H q n ω) (plrVV H q n ω))
      (Y := fun _ _ => θ + e * biasBound (P.map (W 0)) (fun w => y w - θ * d w - g (ξ w)) fun w => d w - m (ξ w)) fun q =>
        ((LinExp.comb 1 e ((h.parts q).coef H.iid) ((h.parts q).bias H.iid)).tends H.iid).mono
          (Eventually.of_forall fun n ω => le_of_eq (congrArg _ (by ring)))
    exact h1.mono (Eventually.of_forall fun n ω => le_of_eq (congrArg _ (one_mul _).symm))
  have h2 := ((hm (-confStrength cfy cfd rho)).abs.add (hm (confStrength cfy cfd rho)).abs) η hη
  have h3 := h2.add h.bad
  rw [add_zero] at h3
  have h4 : ProbTends P (fun _ => Set.univ) 1 := ⟨by simp, by simp⟩
  refine h4.congr_off (B := fun n => {ω | η ≤ |(|median (fun q => ratioCoef (plrUV H q n ω) (plrVV H q n ω) + -confStrength cfy cfd rho *
      ratioBias (plrUU H q n ω) (plrUV H q n ω) (plrVV H q n ω)) - (θ + -confStrength cfy cfd rho *
        biasBound (P.map (W 0)) (fun w => y w - θ * d w - g (ξ w)) fun w => d w - m (ξ w))| +
      |median (fun q => ratioCoef (plrUV H q n ω) (plrVV H q n ω) + confStrength cfy cfd rho *
      ratioBias (plrUU H q n ω) (plrUV H q n ω) (plrVV H q n ω)) - (θ + confStrength cfy cfd rho *
        biasBound (P.map (W 0)) (fun w => y w - θ * d w - g (ξ w)) fun w => d w - m (ξ w))|)|} ∪ {ω | ¬ ∀ q, 0 < mean (plrVV H q n ω)})
    (tendsto_zero_of_le (Eventually.of_forall fun n => measure_union_le _ _) h3) ?_
  filter_upwards [plr_sens H h.score h.regressor h.vars h.notBinary] with n hn ω hω
  have hω2 : ∀ q, 0 < mean (plrVV H q n ω) := not_not.1 fun hh => hω (Or.inr hh)
  obtain ⟨res, e1, e2, e3, -, -⟩ := hn ω hω2 hy hd hr hl
  refine ⟨fun _ => trivial, fun _ => ⟨res, (e1 res).2 rfl, ?_, ?_⟩⟩
  · rw [e2, sub_eq_add_neg θ, ← neg_mul]
    by_contra hc
    exact hω (Or.inl ((not_lt.1 hc).trans ((le_add_of_nonneg_right (abs_nonneg _)).trans (le_abs_self _))))
  · rw [e3]
    by_contra hc
    exact hω (Or.inl ((not_lt.1 hc).trans ((le_add_of_nonneg_left (abs_nonneg _)).trans (le_abs_self _))))

/-- **C87, what the confidence limits do.**  With `s e` the asymptotic standard deviation of the estimated coefficient plus `e` times the estimated
bound of the bias, the lower limit is below the lower bound with probability tending to `Φ(z s(c) / s(-c))` and the upper limit is above the
upper bound with probability tending to `Φ(z s(-c) / s(c))`, where `c` is the confounding strength and `z` the quantile of the level: the
standard errors of the two bounds are exchanged. -/
theorem C87_limits (h : PlrSensSetup H θ g m) (hy : 0 ≤ cfy ∧ cfy < 1) (hd : 0 ≤ cfd ∧ cfd < 1) (hr : -1 ≤ rho ∧ rho ≤ 1)
    (hl : 0 < level ∧ level < 1) {s : ℝ → ℝ}
    (hs : ∀ e, s e = boundSd (P.map (W 0)) (fun w => y w - θ * d w - g (ξ w)) (fun w => d w - m (ξ w)) e)
    (hlo : s (-confStrength cfy cfd rho) ≠ 0) (hup : s (confStrength cfy cfd rho) ≠ 0) :
    ProbTends P (fun n => {ω | ∃ res, IsSens (H.fitted n ω) cfy cfd rho level res ∧ res.ciLower ≤
      θ - confStrength cfy cfd rho * biasBound (P.map (W 0)) (fun w => y w - θ * d w - g (ξ w)) fun w => d w - m (ξ w)})
      (Phi (ppf level * s (confStrength cfy cfd rho) / s (-confStrength cfy cfd rho))) ∧
    ProbTends P (fun n => {ω | ∃ res, IsSens (H.fitted n ω) cfy cfd rho level res ∧
      θ + confStrength cfy cfd rho * biasBound (P.map (W 0)) (fun w => y w - θ * d w - g (ξ w)) (fun w => d w - m (ξ w)) ≤ res.ciUpper})
      (Phi (ppf level * s (-confStrength cfy cfd rho) / s (confStrength cfy cfd rho))) := by
  rw [hs] at hlo hup
  have h1 := (RatioParts.limits H.reps H.iid h.parts (-confStrength cfy cfd rho) hlo (ppf level)).1
  have h2 := (RatioParts.limits H.reps H.iid h.parts (confStrength cfy cfd rho) hup (ppf level)).2
  rw [neg_neg] at h1
  rw [hs, hs]
  refine ⟨h1.congr_off h.bad ?_, h2.congr_off h.bad ?_⟩
  · filter_upwards [plr_sens H h.score h.regressor h.vars h.notBinary] with n hn ω hω
    obtain ⟨res, e1, -, -, e2, -⟩ := hn ω (not_not.1 hω) hy hd hr hl
    rw [neg_mul, ← sub_eq_add_neg, ← e2]
    constructor
    · rintro ⟨res', h3, h4⟩
      rwa [(e1 res').1 h3] at h4
    · exact fun h4 => ⟨res, (e1 res).2 rfl, h4⟩
  · filter_upwards [plr_sens H h.score h.regressor h.vars h.notBinary] with n hn ω hω
    obtain ⟨res, e1, -, -, -, e2⟩ := hn ω (not_not.1 hω) hy hd hr hl
    rw [← e2]
    constructor
    · rintro ⟨res', h3, h4⟩
      rwa [(e1 res').1 h3] at h4
    · exact fun h4 => ⟨res, (e1 res).2 rfl, h4⟩

/-- The two standard deviations agree when the residual of the treatment is uncorrelated with the cube of the error. -/
theorem PlrSensSetup.same_sd (h : PlrSensSetup H θ g m) (h3 : ∫ w, (d w - m (ξ w)) * (y w - θ * d w - g (ξ w)) ^ 3 ∂(P.map (W 0)) = 0) (e : ℝ) :
    boundSd (P.map (W 0)) (fun w => y w - θ * d w - g (ξ w)) (fun w => d w - m (ξ w)) (-e) =
      boundSd (P.map (W 0)) (fun w => y w - θ * d w - g (ξ w)) (fun w => d w - m (ξ w)) e := by
  have hμ : IsProbabilityMeasure (P.map (W 0)) := Measure.isProbabilityMeasure_map (H.iid.meas 0).aemeasurable
  have hp := h.parts ⟨0, H.reps⟩
  have mf := (hp.coef H.iid).sq
  have mp := (hp.bias H.iid).sq
  have mV := hp.vvClose.sq
  have mE : MemLp (fun w => (y w - θ * d w - g (ξ w)) ^ 2) 2 (P.map (W 0)) :=
    ((hp.var H.iid).sq.add (memLp_const _)).ae_eq (Eventually.of_forall fun w => sub_add_cancel _ _)
  have mVE : MemLp (fun w => (y w - θ * d w - g (ξ w)) * (d w - m (ξ w))) 2 (P.map (W 0)) :=
    (hp.uvClose.sq.sub (mV.const_mul θ)).ae_eq (Eventually.of_forall fun w => by simp only [Pi.sub_apply]; ring)
  have i1 : Integrable (fun w => (d w - m (ξ w)) * (y w - θ * d w - g (ξ w)) ^ 3) (P.map (W 0)) :=
    (mVE.integrable_mul mE).congr (Eventually.of_forall fun w => by simp only [Pi.mul_apply]; ring)
  have i2 : Integrable (fun w => (d w - m (ξ w)) ^ 3 * (y w - θ * d w - g (ξ w))) (P.map (W 0)) :=
    (mVE.integrable_mul mV).congr (Eventually.of_forall fun w => by simp only [Pi.mul_apply]; ring)
  have z2 : ∫ w, (d w - m (ξ w)) ^ 3 * (y w - θ * d w - g (ξ w)) ∂(P.map (W 0)) = 0 := by
    have := MeanZeroGiven.integral_mul (h.law.measD.prodMk h.law.measX) h.law.noise (h.law.memNoise.integrable (by norm_num))
      (f := fun q => (q.1 - m q.2) ^ 3) ((measurable_fst.sub (h.law.measM.comp measurable_snd)).pow_const 3)
      (i2.congr (Eventually.of_forall fun w => mul_comm _ _))
    simpa only [mul_comm] using this
  have zero : ∫ w, coefIF (P.map (W 0)) (fun w => y w - θ * d w - g (ξ w)) (fun w => d w - m (ξ w)) w *
      biasIF (P.map (W 0)) (fun w => y w - θ * d w - g (ξ w)) (fun w => d w - m (ξ w)) w ∂(P.map (W 0)) = 0 := by
    unfold coefIF biasIF
    generalize biasBound (P.map (W 0)) (fun w => y w - θ * d w - g (ξ w)) (fun w => d w - m (ξ w)) = β
    generalize ∫ w, (d w - m (ξ w)) ^ 2 ∂(P.map (W 0)) = δ
    generalize ∫ w, (y w - θ * d w - g (ξ w)) ^ 2 ∂(P.map (W 0)) = σ
    have e1 : ∀ w, (d w - m (ξ w)) * (y w - θ * d w - g (ξ w)) / δ * (((y w - θ * d w - g (ξ w)) ^ 2 / δ - σ * (d w - m (ξ w)) ^ 2 / δ ^ 2) / (2 * β)) =
        (δ⁻¹ ^ 2 * (2 * β)⁻¹) * ((d w - m (ξ w)) * (y w - θ * d w - g (ξ w)) ^ 3) -
        (δ⁻¹ ^ 3 * σ * (2 * β)⁻¹) * ((d w - m (ξ w)) ^ 3 * (y w - θ * d w - g (ξ w))) := fun w => by
      simp only [div_eq_mul_inv, ← inv_pow]
      ring
    simp only [e1]
    rw [integral_sub (i1.const_mul _) (i2.const_mul _), integral_const_mul, integral_const_mul, h3, z2, mul_zero, mul_zero, sub_zero]
  unfold boundSd
  refine congrArg Real.sqrt ?_
  generalize coefIF (P.map (W 0)) (fun w => y w - θ * d w - g (ξ w)) (fun w => d w - m (ξ w)) = f at *
  generalize biasIF (P.map (W 0)) (fun w => y w - θ * d w - g (ξ w)) (fun w => d w - m (ξ w)) = p at *
  have j1 : Integrable (fun w => (f w + e * p w) ^ 2) (P.map (W 0)) := (mf.add (mp.const_mul e)).integrable_sq
  have j2 : Integrable (fun w => 4 * e * (f w * p w)) (P.map (W 0)) := (mf.integrable_mul mp).const_mul (4 * e)
  have e2 : ∀ w, (f w + -e * p w) ^ 2 = (f w + e * p w) ^ 2 - 4 * e * (f w * p w) := fun w => by ring
  simp only [e2]
  rw [integral_sub j1 j2, integral_const_mul, zero, mul_zero, sub_zero]

/-- **C87, partial: the confidence limits cover the bounds with the asked probability** if the residual of the treatment is uncorrelated with the
cube of the error, as with errors that are symmetric given treatment and covariates.  Missing: without this condition the claim is false, see
`C87_violated`. -/
theorem C87_cover_partial (h : PlrSensSetup H θ g m) (hy : 0 ≤ cfy ∧ cfy < 1) (hd : 0 ≤ cfd ∧ cfd < 1) (hr : -1 ≤ rho ∧ rho ≤ 1)
    (hl : 0 < level ∧ level < 1) (h3 : ∫ w, (d w - m (ξ w)) * (y w - θ * d w - g (ξ w)) ^ 3 ∂(P.map (W 0)) = 0)
    (hup : boundSd (P.map (W 0)) (fun w => y w - θ * d w - g (ξ w)) (fun w => d w - m (ξ w)) (confStrength cfy cfd rho) ≠ 0) :
    ProbTends P (fun n => {ω | ∃ res, IsSens (H.fitted n ω) cfy cfd rho level res ∧ res.ciLower ≤
      θ - confStrength cfy cfd rho * biasBound (P.map (W 0)) (fun w => y w - θ * d w - g (ξ w)) fun w => d w - m (ξ w)}) level ∧
    ProbTends P (fun n => {ω | ∃ res, IsSens (H.fitted n ω) cfy cfd rho level res ∧
      θ + confStrength cfy cfd rho * biasBound (P.map (W 0)) (fun w => y w - θ * d w - g (ξ w)) (fun w => d w - m (ξ w)) ≤ res.ciUpper}) level := by
  have h1 := C87_limits h hy hd hr hl (fun _ => rfl) (by rw [h.same_sd h3]; exact hup) hup
  rw [h.same_sd h3, mul_div_assoc, div_self hup, mul_one, Phi_ppf hl.1 hl.2] at h1
  exact h1

end Main

end Plr

end DML
