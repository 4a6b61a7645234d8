import Verif.LimitInference
import Verif.LimitPower
import Verif.FitOkProps
import Verif.FitView
import Verif.UnitsFitProps
import Verif.ClassTuneProps
import Verif.MultiFitProps

/-!
# Large samples: whole fits

From a sequence of calls of `fit` for growing samples to the limits of what the fitted objects report.
-/

namespace DML

open MeasureTheory ProbabilityTheory Filter Topology
open scoped ENNReal

variable {Ω : Type*} {mΩ : MeasurableSpace Ω} {P : Measure Ω} {S : Type*} [MeasurableSpace S] {W : ℕ → Ω → S}

/-! ## Probabilities of events about the results -/

/-- The probabilities of the events `A n` tend to `p`.  Events need not be measurable: the outer probabilities of the
events and of their complements have to converge. -/
def ProbTends (P : Measure Ω) (A : ℕ → Set Ω) (p : ℝ) : Prop :=
  Tendsto (fun n => P.real (A n)) atTop (𝓝 p) ∧ Tendsto (fun n => P.real (A n)ᶜ) atTop (𝓝 (1 - p))

theorem measureReal_congr_on [IsProbabilityMeasure P] {A A' B : ℕ → Set Ω} {p : ℝ}
    (h : Tendsto (fun n => P.real (A' n)) atTop (𝓝 p)) (hB : Tendsto (fun n => P (B n)) atTop (𝓝 0))
    (hA : ∀ᶠ n in atTop, ∀ ω, ω ∉ B n → (ω ∈ A n ↔ ω ∈ A' n)) : Tendsto (fun n => P.real (A n)) atTop (𝓝 p) := by
  have hB' : Tendsto (fun n => P.real (B n)) atTop (𝓝 0) := by
    have := (ENNReal.tendsto_toReal (by simp : (0 : ℝ≥0∞) ≠ ∞)).comp hB
    rwa [ENNReal.toReal_zero] at this
  have h1 := h.sub hB'
  have h2 := h.add hB'
  rw [sub_zero] at h1
  rw [add_zero] at h2
  refine tendsto_of_tendsto_of_tendsto_of_le_of_le' h1 h2 ?_ ?_ <;> filter_upwards [hA] with n hn
  · rw [sub_le_iff_le_add]
    refine (measureReal_mono (fun ω hω => ?_) (measure_ne_top _ _)).trans (measureReal_union_le _ _)
    by_cases hb : ω ∈ B n
    · exact Or.inr hb
    · exact Or.inl ((hn ω hb).2 hω)
  · refine (measureReal_mono (fun ω hω => ?_) (measure_ne_top _ _)).trans (measureReal_union_le _ _)
    by_cases hb : ω ∈ B n
    · exact Or.inr hb
    · exact Or.inl ((hn ω hb).1 hω)

theorem ProbTends.of_close [IsProbabilityMeasure P] {A A' B : ℕ → Set Ω} {p : ℝ} (hm : ∀ n, MeasurableSet (A' n))
    (h : Tendsto (fun n => P.real (A' n)) atTop (𝓝 p)) (hB : Tendsto (fun n => P (B n)) atTop (𝓝 0))
    (hA : ∀ᶠ n in atTop, ∀ ω, ω ∉ B n → (ω ∈ A n ↔ ω ∈ A' n)) : ProbTends P A p := by
  refine ⟨measureReal_congr_on h hB hA, measureReal_congr_on (A' := fun n => (A' n)ᶜ) ?_ hB ?_⟩
  · have : ∀ n, P.real (A' n)ᶜ = 1 - P.real (A' n) := fun n => probReal_compl_eq_one_sub (hm n)
    simp only [this]
    exact tendsto_const_nhds.sub h
  · filter_upwards [hA] with n hn ω hω
    exact not_congr (hn ω hω)

/-! ## Measurability of the statistics -/

theorem median_continuous {r : ℕ} (hr : 0 < r) : Continuous (median : (Fin r → ℝ) → ℝ) := by
  rw [Metric.continuous_iff]
  intro f ε hε
  refine ⟨ε / 2, by linarith, fun g hg => ?_⟩
  rw [Real.dist_eq]
  refine lt_of_le_of_lt (abs_median_sub_le hr (d := ε / 2) fun i => ?_) (by linarith)
  rw [← Real.dist_eq]
  exact (dist_le_pi_dist g f i).trans hg.le

theorem Measurable.median' {r : ℕ} (hr : 0 < r) {f : Ω → Fin r → ℝ} (h : ∀ k, Measurable fun ω => f ω k) :
    Measurable fun ω => median (f ω) := (median_continuous hr).measurable.comp (measurable_pi_lambda _ h)

theorem Measurable.mean' {n : ℕ} {f : Ω → Fin n → ℝ} (h : ∀ i, Measurable fun ω => f ω i) : Measurable fun ω => mean (f ω) :=
  (Finset.measurable_fun_sum Finset.univ fun (i : Fin n) _ => h i).div_const _

theorem Measurable.aggSe' {r : ℕ} (hr : 0 < r) {f g : Ω → Fin r → ℝ} (hf : ∀ k, Measurable fun ω => f ω k)
    (hg : ∀ k, Measurable fun ω => g ω k) (v : ℝ) : Measurable fun ω => aggSe (f ω) (g ω) fun _ => v := by
  unfold aggSe
  exact (Measurable.median' hr fun k => ((hg k).pow_const 2).add ((((hf k).sub (Measurable.median' hr hf)).pow_const 2).div_const v)).sqrt

/-! ## What a fitted object reports -/

variable {Q : Type}

/-- The standard deviation of an influence function with mean zero. -/
noncomputable def infSd (μ : Measure S) (f : S → ℝ) : ℝ := Real.sqrt (∫ w, f w ^ 2 ∂μ)

/-- An influence function: mean zero and finite positive variance. -/
structure IsInf (μ : Measure S) (f : S → ℝ) : Prop where
  meas : Measurable f
  sq : MemLp f 2 μ
  mean : ∫ w, f w ∂μ = 0
  var : ∫ w, f w ^ 2 ∂μ ≠ 0

/-- The influence function of an estimate from scores `a θ + b`, with the opposite sign. -/
noncomputable def asyInf (μ : Measure S) (a0 b0 : S → ℝ) (θ : ℝ) (w : S) : ℝ := (a0 w * θ + b0 w) / ∫ w, a0 w ∂μ

/-- Frameworks `G n` with `r` repetitions (`none` if there is none) estimate `θ` with influence function `-φ`: with probability tending
to one they hold one parameter whose estimates `X`, standard errors `T` and scaled scores `U` (`all_thetas`, `all_ses`, `scaled_psi`)
behave in every repetition like `θ - mean φ`, like the standard deviation of `φ` divided by `√n`, and like `φ` in the mean square. -/
structure AsympLinear (P : Measure Ω) (W : ℕ → Ω → S) (r : ℕ) (G : ∀ n, Ω → Option (DynFW n)) (θ : ℝ) (φ : S → ℝ) : Prop where
  inf : IsInf (P.map (W 0)) φ
  view : ∃ (X T : ℕ → Ω → Fin r → ℝ) (U : ∀ n, Ω → Fin n → Fin r → ℝ) (bad : ℕ → Set Ω),
    (∀ n k, Measurable fun ω => X n ω k) ∧ (∀ n k, Measurable fun ω => T n ω k) ∧ (∀ n i k, Measurable fun ω => U n ω i k) ∧
    (∀ k, oP P fun n ω => Real.sqrt n * (X n ω k - θ) + (∑ i : Fin n, φ (W i ω)) / Real.sqrt n) ∧
    (∀ k, oP P fun n ω => Real.sqrt n * T n ω k - infSd (P.map (W 0)) φ) ∧
    (∀ k, oP P fun n ω => mean fun i => (U n ω i k - φ (W i ω)) ^ 2) ∧
    Tendsto (fun n => P (bad n)) atTop (𝓝 0) ∧
    ∀ᶠ n in atTop, ∀ ω, ω ∉ bad n → ∃ A : FW n r, G n ω = some ⟨r, A⟩ ∧ A.Valid ∧ A.cluster = none ∧
      A.blocks = [⟨aggTheta (X n ω), aggSe (X n ω) (T n ω) fun _ => (n : ℝ), X n ω, T n ω, n, U n ω⟩]

/-- The large-sample properties of fitted models `t n` (for `n` observations and one treatment) with true parameter `θ`
and asymptotic standard deviation `σ`: events about `coef`, `se`, `confint(level)` and `pval`. -/
structure AsympValid (E : Ext) (P : Measure Ω) (W : ℕ → Ω → S) (r : ℕ) (t : ∀ n, Ω → LinState n Q) (θ σ : ℝ) : Prop where
  /-- `√n (coef - θ) / σ` is asymptotically standard normal -/
  normal : ∀ x, ProbTends P (fun n => {ω | ∃ v, (t n ω).coef 0 = some v ∧ Real.sqrt n * (v - θ) / σ ≤ x}) (Phi x)
  /-- `√n se` converges to `σ` in probability -/
  scale : ∀ ε, 0 < ε → ProbTends P (fun n => {ω | ∃ v, (t n ω).se 0 = some v ∧ |Real.sqrt n * v - σ| < ε}) 1
  /-- `(coef - θ) / se` is asymptotically standard normal -/
  student : ∀ x, ProbTends P (fun n => {ω | ∃ v e, (t n ω).coef 0 = some v ∧ (t n ω).se 0 = some e ∧ (v - θ) / e ≤ x}) (Phi x)
  /-- `confint(level)` covers `θ` with probability tending to the level -/
  cover : ∀ l, 0 < l → l < 1 → ProbTends P (fun n => {ω | ∃ lo hi,
    (infer E (t n ω) fun _ => .confint (.bool false) (.float l)).2 = .ok (.cis [(lo, hi)]) ∧ lo ≤ θ ∧ θ ≤ hi}) l
  /-- `confint(level)` covers any other value with probability tending to zero -/
  exclude : ∀ l, 0 < l → l < 1 → ∀ u, u ≠ θ → ProbTends P (fun n => {ω | ∃ lo hi,
    (infer E (t n ω) fun _ => .confint (.bool false) (.float l)).2 = .ok (.cis [(lo, hi)]) ∧ lo ≤ u ∧ u ≤ hi}) 0
  /-- if the true parameter is zero, `pval <= α` has probability tending to `α` -/
  test : θ = 0 → ∀ α, 0 < α → α < 1 → ProbTends P (fun n => {ω | ∃ q p, (t n ω).fw? = some q ∧ q.fw.blocks.map Block.pval = [p] ∧
    p ≤ α}) α
  /-- if the true parameter is not zero, `pval <= α` has probability tending to one -/
  power : θ ≠ 0 → ∀ α, 0 < α → ProbTends P (fun n => {ω | ∃ q p, (t n ω).fw? = some q ∧ q.fw.blocks.map Block.pval = [p] ∧
    p ≤ α}) 1
  /-- what is needed to combine the estimate with others from the same sample -/
  linear : ∃ φ, AsympLinear P W r (fun n ω => (t n ω).fw?) θ φ ∧ σ = infSd (P.map (W 0)) φ

/-- Estimate of one repetition in terms of the components of the score. -/
noncomputable def repCoef {n : ℕ} (a b : Fin n → ℝ) : ℝ := -mean b / mean a

/-- Standard error of one repetition in terms of the components of the score. -/
noncomputable def repSe {n : ℕ} (a b : Fin n → ℝ) : ℝ :=
  Real.sqrt (1 / (n * mean a ^ 2) * mean fun i => (a i * repCoef a b + b i) ^ 2)

/-- Scaled score of one repetition in terms of the components of the score. -/
noncomputable def repPsi {n : ℕ} (a b : Fin n → ℝ) (i : Fin n) : ℝ := (a i * repCoef a b + b i) / mean a

theorem fit_coef_eq {n : ℕ} (e : PsiElems n) : (e.fit none).coef = repCoef e.a e.b := rfl

theorem fit_se_eq {n : ℕ} (e : PsiElems n) : (e.fit none).se = repSe e.a e.b := rfl

/-- Estimate and standard error of a repetition whose score components are known. -/
theorem rep_of_elems {n : ℕ} {e : PsiElems n} {f : FitOne n} {cl : Option (ClusterRep n)} (hcl : cl = none) (hf : f = e.fit cl)
    {a b : Fin n → ℝ} (he : e = ⟨a, b⟩) : f.coef = repCoef a b ∧ f.se = repSe a b ∧ f.scaledPsi = repPsi a b := by
  subst hcl hf he
  exact ⟨rfl, rfl, rfl⟩

/-- Multiplying the score by a non-zero number changes neither the estimate nor its standard error. -/
theorem repCoef_scale {n : ℕ} (a b : Fin n → ℝ) {κ : ℝ} (hκ : κ ≠ 0) : repCoef (fun i => κ * a i) (fun i => κ * b i) = repCoef a b := by
  unfold repCoef mean
  rw [← Finset.mul_sum, ← Finset.mul_sum, mul_div_assoc, mul_div_assoc, ← mul_neg, mul_div_mul_left _ _ hκ]

theorem repSe_scale {n : ℕ} (a b : Fin n → ℝ) {κ : ℝ} (hκ : κ ≠ 0) : repSe (fun i => κ * a i) (fun i => κ * b i) = repSe a b := by
  unfold repSe
  rw [repCoef_scale a b hκ]
  have e1 : mean (fun i => κ * a i) = κ * mean a := by
    unfold mean
    rw [← Finset.mul_sum, mul_div_assoc]
  have e2 : mean (fun i => (κ * a i * repCoef a b + κ * b i) ^ 2) = κ ^ 2 * mean fun i => (a i * repCoef a b + b i) ^ 2 := by
    unfold mean
    rw [mul_div_assoc', Finset.mul_sum]
    congr 1
    exact Finset.sum_congr rfl fun i _ => by ring
  rw [e1, e2]
  congr 1
  generalize mean (fun i => (a i * repCoef a b + b i) ^ 2) = V
  generalize mean a = A
  have h2 : κ ^ 2 ≠ 0 := pow_ne_zero 2 hκ
  calc 1 / (n * (κ * A) ^ 2) * (κ ^ 2 * V) = κ ^ 2 * V / (κ ^ 2 * (n * A ^ 2)) := by rw [one_div_mul_eq_div]; ring
    _ = V / (n * A ^ 2) := mul_div_mul_left _ _ h2
    _ = _ := by rw [one_div_mul_eq_div]

theorem repPsi_scale {n : ℕ} (a b : Fin n → ℝ) {κ : ℝ} (hκ : κ ≠ 0) : repPsi (fun i => κ * a i) (fun i => κ * b i) = repPsi a b := by
  funext i
  unfold repPsi
  rw [repCoef_scale a b hκ]
  have e1 : mean (fun i => κ * a i) = κ * mean a := by
    unfold mean
    rw [← Finset.mul_sum, mul_div_assoc]
  rw [e1, mul_assoc, ← mul_add, mul_div_mul_left _ _ hκ]

theorem confint_of_fw {n : ℕ} {E : Ext} {t : LinState n Q} {r : ℕ} {A : FW n r} (h : t.fw? = some ⟨r, A⟩) {l : ℝ}
    (h0 : 0 < l) (h1 : l < 1) : (infer E t fun _ => .confint (.bool false) (.float l)).2 =
      .ok (.cis (A.blocks.map fun b => b.ci fun _ => pointCrit l)) := by
  unfold MState.fw? at h
  unfold infer
  cases hf : t.framework with
  | none => rw [hf] at h; cases h
  | some o =>
    rw [hf] at h
    have h' := Option.some.inj h
    dsimp only [RState.step]
    have hl : ¬ (l ≤ 0 ∨ l ≥ 1) := by
      push Not
      exact ⟨h0, h1⟩
    obtain ⟨rr, ad, st⟩ := o
    dsimp only at h'
    cases h'
    unfold FW.confint
    dsimp only
    rw [if_neg hl, if_neg (by simp)]
    rfl

/-- From the limits of the repetitions to the limits of the reported numbers. -/
theorem asympValid_of [IsProbabilityMeasure P] (hW : Iid P W) {E : Ext} {r : ℕ} (hr : 0 < r)
    {a b : Fin r → ∀ n, Ω → Fin n → ℝ} {a0 b0 : S → ℝ} {θ : ℝ} (hreg : ∀ k, RegularArray P W (a k) (b k) a0 b0 θ)
    (hv : ∫ w, (a0 w * θ + b0 w) ^ 2 ∂(P.map (W 0)) ≠ 0)
    {sp : ∀ n, LinSpec n Q} (husual : ∀ n, UsualVsf (sp n)) (hvars : ∀ n, (sp n).vars = none)
    {F : ∀ n, Ω → Frame n} {s : ∀ n, Ω → LinState n Q} {args : FitArgs} {bad : ℕ → Set Ω}
    (hbad : Tendsto (fun n => P (bad n)) atTop (𝓝 0))
    (hgood : ∀ᶠ n in atTop, ∀ ω, ω ∉ bad n → Shaped (s n ω) ∧ (s n ω).nRep = r ∧ (s n ω).data.d.length = 1 ∧
      (fit (F n ω) (sp n) (s n ω) args).2 = .ok () ∧
      ∀ (k : Fin r) ci o, CellFrom (F n ω) (sp n) (s n ω) args.ext k 0 ci → (sp n).est ci = .ok o →
        o.fit.coef = repCoef (a k n ω) (b k n ω) ∧
        o.fit.se = repSe (a k n ω) (b k n ω) ∧ o.fit.scaledPsi = repPsi (a k n ω) (b k n ω)) :
    AsympValid E P W r (fun n ω => (fit (F n ω) (sp n) (s n ω) args).1) θ (asySd (P.map (W 0)) a0 b0 θ) ∧
      AsympLinear P W r (fun n ω => (fit (F n ω) (sp n) (s n ω) args).1.fw?) θ (asyInf (P.map (W 0)) a0 b0 θ) := by
  have hZ : NormalLimit P (asyZ P W a0 b0 θ) := (hreg ⟨0, hr⟩).normal hW hv
  have hσ : 0 < asySd (P.map (W 0)) a0 b0 θ := (hreg ⟨0, hr⟩).asySd_pos hv
  have hrep := fun k => (hreg k).repLimit hW hv
  have hμ := hW.prob 0
  let J : ℝ := ∫ w, a0 w ∂(P.map (W 0))
  have hJ : J ≠ 0 := (hreg ⟨0, hr⟩).identified
  let φ : S → ℝ := fun w => (a0 w * θ + b0 w) / J
  have evar : ∫ w, φ w ^ 2 ∂(P.map (W 0)) = (∫ w, (a0 w * θ + b0 w) ^ 2 ∂(P.map (W 0))) / J ^ 2 := by
    simp only [φ, div_pow]
    rw [integral_div]
  have hinf : IsInf (P.map (W 0)) φ := ⟨(hreg ⟨0, hr⟩).measPsi0.div_const _, by
    simp only [φ, div_eq_mul_inv]
    exact (hreg ⟨0, hr⟩).sqPsi.mul_const _, by
    simp only [φ]
    rw [integral_div, (hreg ⟨0, hr⟩).moment, zero_div], by
    rw [evar]
    exact div_ne_zero hv (pow_ne_zero 2 hJ)⟩
  have esd : asySd (P.map (W 0)) a0 b0 θ = infSd (P.map (W 0)) φ := by
    unfold infSd asySd
    rw [evar, Real.sqrt_div' _ (sq_nonneg _), Real.sqrt_sq_eq_abs]
  have hφ : asyInf (P.map (W 0)) a0 b0 θ = φ := rfl
  rw [hφ]
  have hlin := fun k => (hreg k).linear hW
  have hclose := fun k => (hreg k).closeScaled hW
  have mA := fun k n i => (hreg k).measA n i
  have mB := fun k n i => (hreg k).measB n i
  let U : ∀ n, Ω → Fin n → Fin r → ℝ := fun n ω i k => repPsi (a k n ω) (b k n ω) i
  have mU : ∀ n i k, Measurable fun ω => U n ω i k := fun n i k =>
    (((mA k n i).mul ((Measurable.mean' (mB k n)).neg.div (Measurable.mean' (mA k n)))).add (mB k n i)).div (Measurable.mean' (mA k n))
  have hUc : ∀ k, oP P fun n ω => mean fun i => (U n ω i k - φ (W i ω)) ^ 2 := hclose
  have hXl : ∀ k, oP P fun n ω => Real.sqrt n * (repCoef (a k n ω) (b k n ω) - θ) + (∑ i : Fin n, φ (W i ω)) / Real.sqrt n := fun k => by
    refine (hlin k).mono (Eventually.of_forall fun n ω => le_of_eq ?_)
    simp only [φ]
    rw [← Finset.sum_div, div_right_comm]
    rfl
  clear_value φ
  generalize asySd (P.map (W 0)) a0 b0 θ = σ at *
  generalize asyZ P W a0 b0 θ = Z at *
  let X : ℕ → Ω → Fin r → ℝ := fun n ω k => repCoef (a k n ω) (b k n ω)
  let T : ℕ → Ω → Fin r → ℝ := fun n ω k => repSe (a k n ω) (b k n ω)
  have hXT : ∀ k, RepLimit P Z σ θ (fun n ω => X n ω k) fun n ω => T n ω k := hrep
  have mX : ∀ n k, Measurable fun ω => X n ω k := fun n k => (Measurable.mean' (mB k n)).neg.div (Measurable.mean' (mA k n))
  have mT : ∀ n k, Measurable fun ω => T n ω k := fun n k =>
    ((((Measurable.mean' (mA k n)).pow_const 2).const_mul _).const_div _ |>.mul (Measurable.mean' fun i =>
      (((mA k n i).mul (mX n k)).add (mB k n i)).pow_const 2)).sqrt
  have mth : ∀ n, Measurable fun ω => aggTheta (X n ω) := fun n => Measurable.median' hr (mX n)
  have mse : ∀ n : ℕ, Measurable fun ω => aggSe (X n ω) (T n ω) fun _ => (n : ℝ) := fun n => Measurable.aggSe' hr (mX n) (mT n) _
  -- the reported numbers
  have hview : ∀ᶠ n in atTop, ∀ ω, ω ∉ bad n → ∃ A : FW n r,
      (fit (F n ω) (sp n) (s n ω) args).1.coef 0 = some (aggTheta (X n ω)) ∧
      (fit (F n ω) (sp n) (s n ω) args).1.se 0 = some (aggSe (X n ω) (T n ω) fun _ => (n : ℝ)) ∧
      (fit (F n ω) (sp n) (s n ω) args).1.fw? = some ⟨r, A⟩ ∧
      A.blocks = [⟨aggTheta (X n ω), aggSe (X n ω) (T n ω) fun _ => (n : ℝ), X n ω, T n ω, n, U n ω⟩] ∧ A.Valid ∧ A.cluster = none := by
    filter_upwards [hgood] with n hn ω hω
    obtain ⟨h1, h2, h3, h4, h5⟩ := hn ω hω
    obtain ⟨A, ci, o, V⟩ := fit_view (husual n) h1 h4 h2
    have hj : 0 < (s n ω).data.d.length := by omega
    have hfit := fun k => h5 k _ _ (V.cell 0 hj k).1 (V.cell 0 hj k).2
    have hco : (fun k => (o 0 hj k).fit.coef) = X n ω := funext fun k => (hfit k).1
    have hse : (fun k => (o 0 hj k).fit.se) = T n ω := funext fun k => (hfit k).2.1
    have hps : (fun i k => (o 0 hj k).fit.scaledPsi i) = U n ω := funext fun i => funext fun k => congrFun (hfit k).2.2 i
    obtain ⟨G, hG, B, rfl, hB1, hB2, -⟩ := fitted_good (hvars n) (husual n) h1 h3 h4
    have hvs : vsfOf ((sp n).vars.map fun v => v (s n ω).data.cv) = n := by rw [hvars]; rfl
    refine ⟨A, ?_, ?_, V.fw, ?_, ?_⟩
    · rw [V.coef 0 hj, hco]
    · rw [V.se 0 hj, hco, hse, hvs]
    · have hl := V.nBlocks
      rw [h3] at hl
      obtain ⟨bl, hbl⟩ := List.length_eq_one_iff.1 hl
      have hb := V.block 0 hj
      rw [hbl] at hb ⊢
      rw [Option.some.inj hb]
      unfold cellBlock
      rw [hco, hse, hvs, hps]
    · unfold getFw at hG
      rw [V.fw] at hG
      have hG' : (⟨r, A⟩ : DynFW n) = ⟨(s n ω).nRep, B⟩ := Except.ok.inj hG
      subst h2
      cases hG'
      exact ⟨hB1, hB2⟩
  have hlast : AsympLinear P W r (fun n ω => (fit (F n ω) (sp n) (s n ω) args).1.fw?) θ φ :=
    ⟨hinf, X, T, U, bad, mX, mT, mU, hXl, fun k => by
      rw [← esd]
      exact (hXT k).scale, hUc, hbad, by
      filter_upwards [hview] with n hn ω hω
      obtain ⟨A, -, -, h1, h2, h3, h4⟩ := hn ω hω
      exact ⟨A, h1, h3, h4, h2⟩⟩
  clear_value X T
  have hcis : ∀ l, 0 < l → l < 1 → ∀ u c, Tendsto (fun n => P.real {ω | median (fun k => X n ω k - T n ω k * pointCrit l) ≤ u ∧
        u ≤ median fun k => X n ω k + T n ω k * pointCrit l}) atTop (𝓝 c) → ProbTends P (fun n => {ω | ∃ lo hi,
      (infer E (fit (F n ω) (sp n) (s n ω) args).1 fun _ => .confint (.bool false) (.float l)).2 = .ok (.cis [(lo, hi)]) ∧
        lo ≤ u ∧ u ≤ hi}) c := fun l h0 h1 u c hlim => by
    have hms : ∀ n, MeasurableSet {ω | median (fun k => X n ω k - T n ω k * pointCrit l) ≤ u ∧
        u ≤ median fun k => X n ω k + T n ω k * pointCrit l} := fun n =>
      (measurableSet_le (Measurable.median' hr fun k => (mX n k).sub ((mT n k).mul_const _)) measurable_const).inter
        (measurableSet_le measurable_const (Measurable.median' hr fun k => (mX n k).add ((mT n k).mul_const _)))
    refine ProbTends.of_close hms hlim hbad ?_
    filter_upwards [hview] with n hn ω hω
    obtain ⟨A, -, -, h3, h4, -⟩ := hn ω hω
    rw [confint_of_fw h3 h0 h1, h4]
    constructor
    · rintro ⟨lo, hi, he, h5⟩
      have he' := Out.cis.inj (Except.ok.inj he)
      have he2 := (List.cons.inj he').1
      unfold Block.ci at he2
      rw [Prod.mk.injEq] at he2
      rw [← he2.1, ← he2.2] at h5
      exact h5
    · intro h5
      exact ⟨_, _, rfl, h5⟩
  have hmp : ∀ α : ℝ, ∀ n, MeasurableSet {ω | median (fun k => 2 * (1 - Phi |X n ω k / T n ω k|)) ≤ α} := fun α n =>
    measurableSet_le (Measurable.median' hr fun k =>
      ((Phi_continuous.measurable.comp ((mX n k).div (mT n k)).norm).const_sub 1).const_mul 2) measurable_const
  have hpv : ∀ α c : ℝ, Tendsto (fun n => P.real {ω | median (fun k => 2 * (1 - Phi |X n ω k / T n ω k|)) ≤ α}) atTop (𝓝 c) →
      ProbTends P (fun n => {ω | ∃ q p, (fit (F n ω) (sp n) (s n ω) args).1.fw? = some q ∧ q.fw.blocks.map Block.pval = [p] ∧ p ≤ α}) c :=
      fun α c hlim => by
    refine ProbTends.of_close (hmp α) hlim hbad ?_
    filter_upwards [hview] with n hn ω hω
    obtain ⟨A, -, -, h3, h4, -⟩ := hn ω hω
    simp only [h3, Option.some.injEq]
    constructor
    · rintro ⟨q, p, rfl, hp, h5⟩
      rw [h4] at hp
      rw [← (List.cons.inj hp).1] at h5
      exact h5
    · intro h5
      exact ⟨_, _, rfl, by rw [h4]; rfl, h5⟩
  refine ⟨⟨fun x => ?_, fun ε hε => ?_, fun x => ?_, fun l h0 h1 => ?_, fun l h0 h1 u hu => ?_, fun hθ α h0 h1 => ?_, fun hθ α h0 => ?_,
    φ, hlast, esd⟩, hlast⟩
  · refine ProbTends.of_close (A' := fun n : ℕ => {ω | Real.sqrt n * (aggTheta (X n ω) - θ) / σ ≤ x})
      (fun n => measurableSet_le ((((mth n).sub_const θ).const_mul _).div_const _) measurable_const)
      (agg_normal hr hσ hZ hXT x) hbad ?_
    filter_upwards [hview] with n hn ω hω
    obtain ⟨_, h1, -⟩ := hn ω hω
    simp only [h1, Option.some.injEq, exists_eq_left']
  · refine ProbTends.of_close (A' := fun n : ℕ => {ω | |Real.sqrt n * aggSe (X n ω) (T n ω) (fun _ => (n : ℝ)) - σ| < ε})
      (fun n => measurableSet_lt (((mse n).const_mul _).sub_const σ).norm measurable_const) ?_ hbad ?_
    · have h := (agg_scale hr hσ hXT).real hε
      have e : ∀ n : ℕ, P.real {ω | |Real.sqrt n * aggSe (X n ω) (T n ω) (fun _ => (n : ℝ)) - σ| < ε} =
          1 - P.real {ω | ε ≤ |Real.sqrt n * aggSe (X n ω) (T n ω) (fun _ => (n : ℝ)) - σ|} := by
        intro n
        have hms : MeasurableSet {ω | ε ≤ |Real.sqrt n * aggSe (X n ω) (T n ω) (fun _ => (n : ℝ)) - σ|} :=
          measurableSet_le measurable_const (((mse n).const_mul _).sub_const σ).norm
        rw [← probReal_compl_eq_one_sub hms]
        congr 1
        ext ω
        rw [Set.mem_compl_iff, Set.mem_ofPred_eq, Set.mem_ofPred_eq, not_le]
      simp only [e]
      simpa using tendsto_const_nhds.sub h
    · filter_upwards [hview] with n hn ω hω
      obtain ⟨_, -, h1, -⟩ := hn ω hω
      simp only [h1, Option.some.injEq, exists_eq_left']
  · refine ProbTends.of_close (A' := fun n : ℕ => {ω | (aggTheta (X n ω) - θ) / aggSe (X n ω) (T n ω) (fun _ => (n : ℝ)) ≤ x})
      (fun n => measurableSet_le (((mth n).sub_const θ).div (mse n)) measurable_const)
      (agg_student hr hσ hZ hXT x) hbad ?_
    filter_upwards [hview] with n hn ω hω
    obtain ⟨_, h1, h2, -⟩ := hn ω hω
    simp only [h1, h2, Option.some.injEq, exists_eq_left', exists_and_left]
  · have hq : 0 < pointCrit l := ppf_pos (by linarith) (by linarith)
    have hlim := agg_cover hr hσ hZ hXT hq
    have hval : 2 * Phi (pointCrit l) - 1 = l := by
      unfold pointCrit
      rw [Phi_ppf (by linarith) (by linarith)]
      ring
    rw [hval] at hlim
    exact hcis l h0 h1 θ l hlim
  · exact hcis l h0 h1 u 0 (agg_exclude hr hZ.bdd hXT _ hu)
  · subst hθ
    exact hpv α α (agg_pval hr hσ hZ hXT h0 h1)
  · exact hpv α 1 (agg_power hr hσ hZ.bdd hXT hθ h0 (hmp α))

end DML
