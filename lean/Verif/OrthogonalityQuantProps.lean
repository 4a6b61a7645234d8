import Verif.OrthogonalityCausalProps
import Verif.Nested

/-!
# Quantile-type scores

C78, continued: potential quantiles, local potential quantiles and conditional value at risk.  The outcome enters through indicators, so that what the
scores identify is a distribution function at the parameter.
-/

namespace DML

open MeasureTheory Filter
open scoped ENNReal Topology

variable {S : Type*} [mS : MeasurableSpace S] {μ : Measure S} {𝒳 : Type*} [MeasurableSpace 𝒳]

theorem measurable_indLe (θ : ℝ) : Measurable fun v : ℝ => indLe v θ := by
  unfold indLe
  exact Measurable.ite measurableSet_Iic measurable_const measurable_const

theorem measurable_indEq (t : ℝ) : Measurable fun v : ℝ => indEq v t := by
  unfold indEq
  exact Measurable.ite (measurableSet_singleton t) measurable_const measurable_const

theorem indLe_bdd (v θ : ℝ) : |indLe v θ| ≤ 1 := by
  unfold indLe
  split_ifs <;> simp

theorem indEq_zero_one (v t : ℝ) : indEq v t = 0 ∨ indEq v t = 1 := by
  unfold indEq
  split_ifs
  · exact Or.inr rfl
  · exact Or.inl rfl

/-- One level of the treatment under unconfoundedness: those with `d = level` show the potential outcome `v`, and the probability of the level given the
covariates is `m(ξ)`. -/
structure LevelLaw (μ : Measure S) (y v d : S → ℝ) (level : ℝ) (ξ : S → 𝒳) (m : 𝒳 → ℝ) (τ : ℝ) : Prop where
  measY : Measurable y
  measV : Measurable v
  measD : Measurable d
  measX : Measurable ξ
  measM : Measurable m
  consistent : ∀ w, d w = level → y w = v w
  treat : MeanZeroGiven μ ξ fun w => indEq (d w) level - m (ξ w)
  pos : 0 < τ
  overlap : ∀ x, τ ≤ m x ∧ m x ≤ 1 - τ

section

variable [IsProbabilityMeasure μ] {ξ : S → 𝒳} {y v d : S → ℝ} {level τ : ℝ} {m : 𝒳 → ℝ}

/-- A function of the potential outcome whose conditional mean does not depend on the treatment. -/
theorem LevelLaw.arm (h : LevelLaw μ y v d level ξ m τ) {f : ℝ → ℝ} (hf : Measurable f) {g : 𝒳 → ℝ}
    (hc : CondMean μ (fun w => (indEq (d w) level, ξ w)) (fun w => f (v w)) ξ g) :
    ArmLaw μ (fun w => f (y w)) (fun w => indEq (d w) level) ξ g m τ 2 := by
  have mu : Measurable fun w => indEq (d w) level := (measurable_indEq level).comp h.measD
  have bu : ∀ w, |indEq (d w) level| ≤ 1 := bdd_of_binary fun w => indEq_zero_one _ _
  have e : ∀ w, indEq (d w) level * (f (y w) - g (ξ w)) = indEq (d w) level * (f (v w) - g (ξ w)) := by
    intro w
    by_cases hw : d w = level
    · rw [h.consistent w hw]
    · simp [indEq, hw]
  have m1 : MemLp (fun w => indEq (d w) level * (f (v w) - g (ξ w))) 2 μ :=
    (memLp_bdd_mul hc.mem mu bu).ae_eq (Eventually.of_forall fun w => mul_comm _ _)
  refine ⟨hf.comp h.measY, mu, h.measX, hc.measG, h.measM, fun w => ?_, ?_, h.treat, h.pos, fun x => ⟨(h.overlap x).1, ?_⟩, ?_, hc.memG⟩
  · rcases indEq_zero_one (d w) level with q | q <;> simp [q]
  · refine MeanZeroGiven.of_eq ?_ e
    exact (hc.zero.mul_left (hc.mem.integrable one_le_two) (f := fun q => q.1) measurable_fst (m1.integrable one_le_two)).mono
      (mu.prodMk h.measX) measurable_snd fun _ => rfl
  · linarith [(h.overlap x).2, h.pos]
  · exact m1.ae_eq (Eventually.of_forall fun w => (e w).symm)

omit [IsProbabilityMeasure μ] in
theorem LevelLaw.prob (h : LevelLaw μ y v d level ξ m τ) : ProbGuess m := ⟨h.measM, τ, h.pos, h.overlap⟩

theorem LevelLaw.mean (h : LevelLaw μ y v d level ξ m τ) {f : ℝ → ℝ} {g : 𝒳 → ℝ}
    (hc : CondMean μ (fun w => (indEq (d w) level, ξ w)) (fun w => f (v w)) ξ g) : ∫ w, g (ξ w) ∂μ = ∫ w, f (v w) ∂μ :=
  hc.integral_eq (((measurable_indEq level).comp h.measD).prodMk h.measX)

omit [IsProbabilityMeasure μ] in
/-- The mean of an indicator. -/
theorem integral_indLe (hv : Measurable v) (θ : ℝ) : ∫ w, indLe (v w) θ ∂μ = μ.real {w | v w ≤ θ} := by
  have e : (fun w => indLe (v w) θ) = Set.indicator {w | v w ≤ θ} fun _ => (1 : ℝ) := by
    funext w
    by_cases hw : v w ≤ θ
    · rw [Set.indicator_of_mem (by exact hw)]
      simp [indLe, hw]
    · rw [Set.indicator_of_notMem (by exact hw)]
      simp [indLe, hw]
  have hs : MeasurableSet {w | v w ≤ θ} := hv measurableSet_Iic
  rw [e, integral_indicator hs, setIntegral_const]
  simp

/-! ## Potential quantiles -/

omit mS [MeasurableSpace 𝒳] in
theorem pq_score (q θ : ℝ) (g' m' : 𝒳 → ℝ) (w : S) :
    pqScore q θ (indEq (d w) level) (g' (ξ w)) (m' (ξ w)) (y w) =
      armVal (fun w => indLe (y w) θ) (fun w => indEq (d w) level) ξ g' m' w - q := by
  unfold pqScore armVal
  ring

/-- PQ: `G θ (ξ) = P(v ≤ θ | ξ)` does not depend on the treatment.  At every `θ` the expected score is `P(v ≤ θ) - q` if one of the two functions is
right, whatever the other; it does not change to first order with the two functions.  So with the right probability of the level and any other function
(such as the regression of the indicator at a preliminary estimate instead of `θ`), the zeros of the expected score are exactly the `q`-quantiles of the
potential outcome. -/
theorem C78_pq (h : LevelLaw μ y v d level ξ m τ) {G : ℝ → 𝒳 → ℝ}
    (cdf : ∀ θ, CondMean μ (fun w => (indEq (d w) level, ξ w)) (fun w => indLe (v w) θ) ξ (G θ)) (q : ℝ) :
    (∀ g' : 𝒳 → ℝ, Direction μ ξ g' → ∀ θ, ∫ w, pqScore q θ (indEq (d w) level) (g' (ξ w)) (m (ξ w)) (y w) ∂μ = 0 ↔
      μ.real {w | v w ≤ θ} = q) ∧
    (∀ (θ : ℝ) (hg k : 𝒳 → ℝ), Direction μ ξ hg → BoundedDirection k →
      HasDerivAt (fun t => ∫ w, pqScore q θ (indEq (d w) level) (G θ (ξ w) + t * hg (ξ w)) (m (ξ w) + t * k (ξ w)) (y w) ∂μ) 0 0) ∧
    ∀ (θ : ℝ) (g' m' : 𝒳 → ℝ), Guess μ ξ (G θ) g' → ProbGuess m' → ((∀ x, g' x = G θ x) ∨ ∀ x, m' x = m x) →
      ∫ w, pqScore q θ (indEq (d w) level) (g' (ξ w)) (m' (ξ w)) (y w) ∂μ = μ.real {w | v w ≤ θ} - q := by
  have rob : ∀ (θ : ℝ) (g' m' : 𝒳 → ℝ), Guess μ ξ (G θ) g' → ProbGuess m' → ((∀ x, g' x = G θ x) ∨ ∀ x, m' x = m x) →
      ∫ w, pqScore q θ (indEq (d w) level) (g' (ξ w)) (m' (ξ w)) (y w) ∂μ = μ.real {w | v w ≤ θ} - q := by
    intro θ g' m' gg gm hr
    have a := h.arm (measurable_indLe θ) (cdf θ)
    have i := (a.guess gg gm hr).sub (HasMean.const q)
    simp only [pq_score]
    rw [i.2, h.mean (f := fun v => indLe v θ) (cdf θ), integral_indLe h.measV]
  refine ⟨fun g' dg θ => ?_, fun θ hg k dg dk => ?_, rob⟩
  · rw [rob θ g' m ⟨dg.meas, dg.mem.sub (cdf θ).memG⟩ h.prob (Or.inr fun _ => rfl), sub_eq_zero]
  · have a := h.arm (measurable_indLe θ) (cdf θ)
    have f := (a.path dg dk).sub (FlatMean.const (integrable_const q))
    refine (f.congr fun t w => ?_).hasDerivAt
    exact pq_score q θ (fun x => G θ x + t * hg x) (fun x => m x + t * k x) w

/-- The preliminary estimate of PQ and CVaR: with the right probability of the level, the expected weighted score is `P(v ≤ θ) - q`. -/
theorem C78_pq_preliminary (h : LevelLaw μ y v d level ξ m τ) {G : ℝ → 𝒳 → ℝ}
    (cdf : ∀ θ, CondMean μ (fun w => (indEq (d w) level, ξ w)) (fun w => indLe (v w) θ) ξ (G θ)) (q θ : ℝ) :
    ∫ w, ipwScore level q θ (d w) (y w) (m (ξ w)) ∂μ = μ.real {w | v w ≤ θ} - q := by
  rw [← (C78_pq h cdf q).2.2 θ (fun _ => 0) m ⟨measurable_const, ((cdf θ).memG.neg).ae_eq (Eventually.of_forall fun w => by simp)⟩ h.prob
    (Or.inr fun _ => rfl)]
  refine integral_congr_ae (Eventually.of_forall fun w => ?_)
  simp only [ipwScore, pqScore]
  ring

/-! ## Conditional value at risk -/

omit mS [MeasurableSpace 𝒳] in
theorem cvar_score (q a θ : ℝ) (g' m' : 𝒳 → ℝ) (w : S) :
    (cvarElems level q a (obs (y w)) (obs (d w)) (obs (g' (ξ w))) (obs (m' (ξ w)))).score θ 0 =
      armVal (fun w => cvarTarget q a (y w)) (fun w => indEq (d w) level) ξ g' m' w - θ := by
  simp only [PsiElems.score, cvarElems, obs, armVal]
  ring

theorem measurable_cvarTarget (q a : ℝ) : Measurable (cvarTarget q a) := by
  unfold cvarTarget
  fun_prop

/-- CVaR, with `a` in the place of the quantile: the parameter is the mean of `max(a, (v - q a)/(1 - q))`; doubly robust. -/
theorem C78_cvar (h : LevelLaw μ y v d level ξ m τ) (q a : ℝ) {g : 𝒳 → ℝ}
    (hc : CondMean μ (fun w => (indEq (d w) level, ξ w)) (fun w => cvarTarget q a (v w)) ξ g) :
    Identifies μ (fun w => cvarElems level q a (obs (y w)) (obs (d w)) (obs (g (ξ w))) (obs (m (ξ w)))) (∫ w, cvarTarget q a (v w) ∂μ) ∧
    (∀ hg k : 𝒳 → ℝ, Direction μ ξ hg → BoundedDirection k →
      OrthogonalAlong μ (fun t w => cvarElems level q a (obs (y w)) (obs (d w)) (obs (g (ξ w) + t * hg (ξ w))) (obs (m (ξ w) + t * k (ξ w))))
        (∫ w, cvarTarget q a (v w) ∂μ)) ∧
    ∀ g' m' : 𝒳 → ℝ, Guess μ ξ g g' → ProbGuess m' → ((∀ x, g' x = g x) ∨ ∀ x, m' x = m x) →
      expScore μ (fun w => cvarElems level q a (obs (y w)) (obs (d w)) (obs (g' (ξ w))) (obs (m' (ξ w)))) (∫ w, cvarTarget q a (v w) ∂μ) = 0 := by
  have ar := h.arm (measurable_cvarTarget q a) hc
  rw [← h.mean hc]
  have rob : ∀ g' m' : 𝒳 → ℝ, Guess μ ξ g g' → ProbGuess m' → ((∀ x, g' x = g x) ∨ ∀ x, m' x = m x) →
      Null μ fun w => (cvarElems level q a (obs (y w)) (obs (d w)) (obs (g' (ξ w))) (obs (m' (ξ w)))).score (∫ w, g (ξ w) ∂μ) 0 := by
    intro g' m' gg gm hr
    simp only [cvar_score]
    exact ((ar.guess gg gm hr).sub (HasMean.const _)).null (by ring)
  refine ⟨?_, fun hg k dg dk => ?_, fun g' m' gg gm hr => (rob g' m' gg gm hr).2⟩
  · have nl := rob g m ⟨hc.measG, by simp⟩ h.prob (Or.inr fun _ => rfl)
    refine identifies_of ?_ nl.1 nl.2 ?_
    · simp only [cvarElems]
      exact integrable_const _
    · simp [cvarElems]
  · exact orthogonal_of ((ar.path dg dk).sub (FlatMean.const (integrable_const (∫ w, g (ξ w) ∂μ)))) fun t w =>
      cvar_score q a _ (fun x => g x + t * hg x) (fun x => m x + t * k x) w

/-- The target through the part above `a`. -/
theorem cvarTarget_eq {q : ℝ} (hq : q < 1) (a x : ℝ) : cvarTarget q a x = a + max 0 (x - a) / (1 - q) := by
  have h1 : 0 < 1 - q := by linarith
  unfold cvarTarget
  rcases le_total x a with hx | hx
  · rw [max_eq_left (by linarith : x - a ≤ 0), zero_div, add_zero, max_eq_left]
    rw [div_le_iff₀ h1]
    nlinarith
  · rw [max_eq_right (by linarith : 0 ≤ x - a), max_eq_right]
    · field_simp
      ring
    · rw [le_div_iff₀ h1]
      nlinarith

theorem integrable_above (hv : Integrable v μ) (a : ℝ) : Integrable (fun w => max 0 (v w - a)) μ := by
  have := (hv.sub (integrable_const a)).pos_part
  refine this.congr (Eventually.of_forall fun w => ?_)
  simp [max_comm]

theorem integral_cvarTarget (hv : Integrable v μ) {q : ℝ} (hq : q < 1) (a : ℝ) :
    ∫ w, cvarTarget q a (v w) ∂μ = a + (∫ w, max 0 (v w - a) ∂μ) / (1 - q) := by
  simp only [cvarTarget_eq hq]
  rw [integral_add (integrable_const _) ((integrable_above hv a).div_const _), integral_div]
  simp

/-- The weight of the values above `p`. -/
theorem real_above (hm : Measurable v) (p : ℝ) : μ.real {w | p < v w} = 1 - μ.real {w | v w ≤ p} := by
  have hs : MeasurableSet {w | v w ≤ p} := hm measurableSet_Iic
  have e : {w | p < v w} = {w | v w ≤ p}ᶜ := by
    ext w
    simp
  rw [e, probReal_compl_eq_one_sub hs]

omit [IsProbabilityMeasure μ] in
theorem integral_ind_above (hm : Measurable v) (p c : ℝ) :
    ∫ w, (if p < v w then c else 0) ∂μ = c * μ.real {w | p < v w} := by
  have hs : MeasurableSet {w | p < v w} := hm measurableSet_Ioi
  have e : (fun w => if p < v w then c else 0) = Set.indicator {w | p < v w} fun _ => c := by
    funext w
    by_cases hw : p < v w
    · rw [Set.indicator_of_mem (by exact hw)]
      simp [hw]
    · rw [Set.indicator_of_notMem (by exact hw)]
      simp [hw]
  rw [e, integral_indicator hs, setIntegral_const]
  simp [mul_comm]

omit [IsProbabilityMeasure μ] in
theorem integrable_ind_above [IsFiniteMeasure μ] (hm : Measurable v) (p c : ℝ) : Integrable (fun w => if p < v w then c else 0) μ := by
  refine (integrable_const |c|).mono' ?_ (Eventually.of_forall fun w => ?_)
  · exact (Measurable.ite (hm measurableSet_Ioi) measurable_const measurable_const).aestronglyMeasurable
  · split_ifs <;> simp

/-- At a quantile, the parameter of CVaR is the mean of the potential outcome above the quantile; at any other number it is at least as large; and the
difference is at most the distance times the probability of lying between the two. -/
theorem C78_cvar_meaning (hm : Measurable v) (hv : Integrable v μ) {q p : ℝ} (hq : q < 1) (hp : μ.real {w | v w ≤ p} = q) :
    ∫ w, cvarTarget q p (v w) ∂μ = (∫ w in {w | p < v w}, v w ∂μ) / μ.real {w | p < v w} ∧
    ∀ a, 0 ≤ ∫ w, cvarTarget q a (v w) ∂μ - ∫ w, cvarTarget q p (v w) ∂μ ∧
      ∫ w, cvarTarget q a (v w) ∂μ - ∫ w, cvarTarget q p (v w) ∂μ ≤
        |a - p| * (|μ.real {w | v w ≤ a} - μ.real {w | v w ≤ p}| / (1 - q)) := by
  have h1 : 0 < 1 - q := by linarith
  have above : μ.real {w | p < v w} = 1 - q := by rw [real_above hm, hp]
  have hs : MeasurableSet {w | p < v w} := hm measurableSet_Ioi
  refine ⟨?_, fun a => ?_⟩
  · rw [integral_cvarTarget hv hq, above]
    have e : ∫ w, max 0 (v w - p) ∂μ = ∫ w in {w | p < v w}, v w ∂μ - p * (1 - q) := by
      rw [← above, ← integral_ind_above hm p p, ← integral_indicator hs, ← integral_sub (hv.indicator hs) (integrable_ind_above hm p p)]
      refine integral_congr_ae (Eventually.of_forall fun w => ?_)
      dsimp only
      by_cases hw : p < v w
      · rw [Set.indicator_of_mem (by exact hw), if_pos hw, max_eq_right (by linarith)]
      · rw [Set.indicator_of_notMem (by exact hw), if_neg hw, max_eq_left (by linarith [not_lt.1 hw]), sub_zero]
    rw [e]
    field_simp
    ring
  · -- the change, observation by observation
    have key : ∫ w, cvarTarget q a (v w) ∂μ - ∫ w, cvarTarget q p (v w) ∂μ =
        (∫ w, (max 0 (v w - a) - max 0 (v w - p) + if p < v w then a - p else 0) ∂μ) / (1 - q) := by
      have s1 := ((HasMean.of (integrable_above hv a)).sub (HasMean.of (integrable_above hv p))).add
        (HasMean.of (integrable_ind_above hm p (a - p)))
      rw [integral_cvarTarget hv hq, integral_cvarTarget hv hq, s1.2, integral_ind_above hm, above]
      field_simp
      ring
    have ii : Integrable (fun w => max 0 (v w - a) - max 0 (v w - p) + if p < v w then a - p else 0) μ :=
      ((integrable_above hv a).sub (integrable_above hv p)).add (integrable_ind_above hm p _)
    rw [key]
    constructor
    · refine div_nonneg (integral_nonneg fun w => ?_) h1.le
      dsimp only
      split_ifs with hw
      · rw [max_eq_right (by linarith : 0 ≤ v w - p)]
        have := le_max_right 0 (v w - a)
        show (0 : ℝ) ≤ _
        linarith
      · rw [max_eq_left (by linarith [not_lt.1 hw] : v w - p ≤ 0)]
        simp
    · rw [← mul_div_assoc]
      refine div_le_div_of_nonneg_right ?_ h1.le
      have sm : ∀ b : ℝ, Integrable (fun w => indLe (v w) b) μ := fun b =>
        (memLp_of_bdd (p := 1) ((measurable_indLe b).comp hm) fun w => indLe_bdd _ _).integrable le_rfl
      have hb : ∫ w, (max 0 (v w - a) - max 0 (v w - p) + if p < v w then a - p else 0) ∂μ ≤
          ∫ w, (a - p) * (indLe (v w) a - indLe (v w) p) ∂μ := by
        refine integral_mono ii (((sm a).sub (sm p)).const_mul _) fun w => ?_
        dsimp only
        unfold indLe
        rcases le_or_gt (v w) p with h2 | h2 <;> rcases le_or_gt (v w) a with h3 | h3
        · rw [max_eq_left (by linarith : v w - a ≤ 0), max_eq_left (by linarith : v w - p ≤ 0), if_neg (not_lt.2 h2), if_pos h3, if_pos h2]
          linarith
        · rw [max_eq_right (by linarith : 0 ≤ v w - a), max_eq_left (by linarith : v w - p ≤ 0), if_neg (not_lt.2 h2), if_neg (not_le.2 h3),
            if_pos h2]
          linarith
        · rw [max_eq_left (by linarith : v w - a ≤ 0), max_eq_right (by linarith : 0 ≤ v w - p), if_pos h2, if_pos h3, if_neg (not_le.2 h2)]
          linarith
        · rw [max_eq_right (by linarith : 0 ≤ v w - a), max_eq_right (by linarith : 0 ≤ v w - p), if_pos h2, if_neg (not_le.2 h3),
            if_neg (not_le.2 h2)]
          linarith
      refine hb.trans ?_
      rw [integral_const_mul, integral_sub (sm a) (sm p), integral_indLe hm, integral_indLe hm]
      exact (le_abs_self _).trans (abs_mul _ _).le

/-- So errors in the plugged-in quantile do not matter to first order, if the distribution function is continuous there. -/
theorem C78_cvar_quantile (hm : Measurable v) (hv : Integrable v μ) {q p : ℝ} (hq : q < 1) (hp : μ.real {w | v w ≤ p} = q)
    (cont : ContinuousAt (fun a => μ.real {w | v w ≤ a}) p) :
    HasDerivAt (fun a => ∫ w, cvarTarget q a (v w) ∂μ) 0 p := by
  obtain ⟨-, hb⟩ := C78_cvar_meaning hm hv hq hp
  have h1 : 0 < 1 - q := by linarith
  rw [hasDerivAt_iff_isLittleO]
  simp only [smul_zero, sub_zero]
  rw [Asymptotics.isLittleO_iff]
  intro c hc
  have h2 : ∀ᶠ a in 𝓝 p, |μ.real {w | v w ≤ a} - μ.real {w | v w ≤ p}| < c * (1 - q) := by
    have := Metric.tendsto_nhds.1 cont (c * (1 - q)) (by positivity)
    simpa only [Real.dist_eq] using this
  filter_upwards [h2] with a ha
  obtain ⟨b1, b2⟩ := hb a
  rw [Real.norm_eq_abs, Real.norm_eq_abs, abs_of_nonneg b1, mul_comm c]
  refine b2.trans (mul_le_mul_of_nonneg_left ?_ (abs_nonneg _))
  rw [div_le_iff₀ h1]
  exact ha.le

end

/-! ## Local potential quantiles -/

/-- Potential treatments `d₀ ≤ d₁` of the two values of the instrument, and the potential outcome `v` of one treatment; given the covariates the instrument
tells nothing about the potential treatments and `v`.  `G₀ θ`, `G₁ θ` are the conditional means of the indicator that the treatment is `level` and the
outcome at most `θ`, and `r₀`, `r₁` those of the treatment. -/
structure LocalLaw (μ : Measure S) (y v d d₀ d₁ z : S → ℝ) (level : ℝ) (ξ : S → 𝒳) (G₀ G₁ : ℝ → 𝒳 → ℝ) (r₀ r₁ m : 𝒳 → ℝ) (τ : ℝ) : Prop where
  measY : Measurable y
  measV : Measurable v
  consistent : ∀ w, d w = level → y w = v w
  treatment : Unconfounded μ d d₀ d₁ z ξ r₀ r₁ m τ
  below0 : ∀ θ, CondMean μ (fun w => (z w, ξ w)) (fun w => indEq (d₀ w) level * indLe (v w) θ) ξ (G₀ θ)
  below1 : ∀ θ, CondMean μ (fun w => (z w, ξ w)) (fun w => indEq (d₁ w) level * indLe (v w) θ) ξ (G₁ θ)
  binary0 : ∀ w, d₀ w = 0 ∨ d₀ w = 1
  binary1 : ∀ w, d₁ w = 0 ∨ d₁ w = 1
  monotone : ∀ w, d₀ w ≤ d₁ w
  isLevel : level = 0 ∨ level = 1
  compliers : 0 < μ.real {w | d₀ w < d₁ w}

section

variable [IsProbabilityMeasure μ] {ξ : S → 𝒳} {y v d d₀ d₁ z : S → ℝ} {level τ : ℝ} {G₀ G₁ : ℝ → 𝒳 → ℝ} {r₀ r₁ m : 𝒳 → ℝ}

omit [IsProbabilityMeasure μ] in
theorem LocalLaw.below (h : LocalLaw μ y v d d₀ d₁ z level ξ G₀ G₁ r₀ r₁ m τ) (θ : ℝ) :
    Unconfounded μ (fun w => indEq (d w) level * indLe (y w) θ) (fun w => indEq (d₀ w) level * indLe (v w) θ)
      (fun w => indEq (d₁ w) level * indLe (v w) θ) z ξ (G₀ θ) (G₁ θ) m τ := by
  have u := h.treatment
  refine ⟨u.measD, u.measX, u.measM, u.binary, fun w => ?_, h.below0 θ, h.below1 θ, u.treat, u.pos, u.overlap⟩
  have e : indEq (d w) level * indLe (y w) θ = indEq (d w) level * indLe (v w) θ := by
    by_cases hw : d w = level
    · rw [h.consistent w hw]
    · simp [indEq, hw]
  rw [e, u.consistent w]
  rcases u.binary w with q | q <;> rw [q] <;> simp

omit mS [MeasurableSpace 𝒳] in
theorem lpq_score (q θ c : ℝ) (g0' g1' m' : 𝒳 → ℝ) (w : S) :
    lpqScore level q θ (indEq (d w) level) (m' (ξ w)) (g0' (ξ w)) (g1' (ξ w)) (y w) (z w) c =
      (2 * level - 1) / c * (armVal (fun w => indEq (d w) level * indLe (y w) θ) z ξ g1' m' w -
        armVal (fun w => indEq (d w) level * indLe (y w) θ) (fun w => 1 - z w) ξ g0' (fun x => 1 - m' x) w) - q := by
  unfold lpqScore armVal
  ring

/-- Among the compliers: the difference of the two means. -/
theorem LocalLaw.mean_below (h : LocalLaw μ y v d d₀ d₁ z level ξ G₀ G₁ r₀ r₁ m τ) (θ : ℝ) :
    (2 * level - 1) * (∫ w, G₁ θ (ξ w) ∂μ - ∫ w, G₀ θ (ξ w) ∂μ) = μ.real {w | d₀ w < d₁ w ∧ v w ≤ θ} := by
  have mx := h.treatment.measD.prodMk h.treatment.measX
  have hs : MeasurableSet {w | d₀ w < d₁ w ∧ v w ≤ θ} :=
    (measurableSet_lt h.treatment.mean0.meas h.treatment.mean1.meas).inter (h.measV measurableSet_Iic)
  rw [(h.below1 θ).integral_eq mx, (h.below0 θ).integral_eq mx, ← integral_sub (h.below1 θ).integrable.1 (h.below0 θ).integrable.1,
    ← integral_const_mul]
  have e : (fun w => (2 * level - 1) * (indEq (d₁ w) level * indLe (v w) θ - indEq (d₀ w) level * indLe (v w) θ)) =
      Set.indicator {w | d₀ w < d₁ w ∧ v w ≤ θ} fun _ => (1 : ℝ) := by
    funext w
    have hm := h.monotone w
    by_cases hw : d₀ w < d₁ w ∧ v w ≤ θ
    · rw [Set.indicator_of_mem (by exact hw)]
      obtain ⟨h1, h2⟩ := hw
      rcases h.binary0 w with a | a <;> rcases h.binary1 w with b | b <;> rw [a, b] at h1 ⊢ <;> first | (exfalso; linarith) | skip
      rcases h.isLevel with l | l <;> rw [l] <;> (simp [indEq, indLe, h2]; try norm_num)
    · rw [Set.indicator_of_notMem (by exact hw)]
      by_cases h2 : v w ≤ θ
      · have h1 : d₀ w = d₁ w := le_antisymm hm (not_lt.1 fun h1 => hw ⟨h1, h2⟩)
        rw [h1]
        ring
      · simp [indLe, h2]
  rw [e, integral_indicator hs, setIntegral_const]
  simp

/-- LPQ, with `c` in the place of the share of the compliers.  If the propensity of the instrument is right, or both other functions are, the expected score
at `θ` is `P(complier, v ≤ θ)/c - q`, so with the right share it is `P(v ≤ θ | complier) - q`; it does not change to first order with the functions. -/
theorem C78_lpq (h : LocalLaw μ y v d d₀ d₁ z level ξ G₀ G₁ r₀ r₁ m τ) (q c : ℝ) :
    (∀ (θ : ℝ) (g0' g1' m' : 𝒳 → ℝ), Guess μ ξ (G₀ θ) g0' → Guess μ ξ (G₁ θ) g1' → ProbGuess m' →
      (((∀ x, g0' x = G₀ θ x) ∧ ∀ x, g1' x = G₁ θ x) ∨ ∀ x, m' x = m x) →
      ∫ w, lpqScore level q θ (indEq (d w) level) (m' (ξ w)) (g0' (ξ w)) (g1' (ξ w)) (y w) (z w) c ∂μ =
        μ.real {w | d₀ w < d₁ w ∧ v w ≤ θ} / c - q) ∧
    (∀ (g0' g1' : 𝒳 → ℝ), Direction μ ξ g0' → Direction μ ξ g1' → c = μ.real {w | d₀ w < d₁ w} → ∀ θ,
      ∫ w, lpqScore level q θ (indEq (d w) level) (m (ξ w)) (g0' (ξ w)) (g1' (ξ w)) (y w) (z w) c ∂μ = 0 ↔
        μ.real {w | d₀ w < d₁ w ∧ v w ≤ θ} / μ.real {w | d₀ w < d₁ w} = q) ∧
    ∀ (θ : ℝ) (h0 h1 k : 𝒳 → ℝ), Direction μ ξ h0 → Direction μ ξ h1 → BoundedDirection k →
      HasDerivAt (fun t => ∫ w, lpqScore level q θ (indEq (d w) level) (m (ξ w) + t * k (ξ w)) (G₀ θ (ξ w) + t * h0 (ξ w))
        (G₁ θ (ξ w) + t * h1 (ξ w)) (y w) (z w) c ∂μ) 0 0 := by
  have rob : ∀ (θ : ℝ) (g0' g1' m' : 𝒳 → ℝ), Guess μ ξ (G₀ θ) g0' → Guess μ ξ (G₁ θ) g1' → ProbGuess m' →
      (((∀ x, g0' x = G₀ θ x) ∧ ∀ x, g1' x = G₁ θ x) ∨ ∀ x, m' x = m x) →
      ∫ w, lpqScore level q θ (indEq (d w) level) (m' (ξ w)) (g0' (ξ w)) (g1' (ξ w)) (y w) (z w) c ∂μ =
        μ.real {w | d₀ w < d₁ w ∧ v w ≤ θ} / c - q := by
    intro θ g0' g1' m' G0 G1 M hr
    have l := (h.below θ).law
    have i1 := (l.treated one_le_two).guess G1 M (hr.imp (fun q => q.2) id)
    have i0 := (l.untreated one_le_two).guess G0 M.compl (hr.imp (fun q => q.1) fun q x => by rw [q x])
    have i := ((i1.sub i0).smul ((2 * level - 1) / c)).sub (HasMean.const q)
    simp only [lpq_score]
    rw [i.2, ← h.mean_below θ]
    ring
  refine ⟨rob, fun g0' g1' d0 d1 hc θ => ?_, fun θ h0 h1 k dh0 dh1 dk => ?_⟩
  · rw [rob θ g0' g1' m ⟨d0.meas, d0.mem.sub (h.below0 θ).memG⟩ ⟨d1.meas, d1.mem.sub (h.below1 θ).memG⟩
      ⟨h.treatment.measM, τ, h.treatment.pos, h.treatment.overlap⟩ (Or.inr fun _ => rfl), hc, sub_eq_zero]
  · have l := (h.below θ).law
    have f := ((((l.treated one_le_two).path dh1 dk).sub ((l.untreated one_le_two).path_compl dh0 dk l.measM)).smul ((2 * level - 1) / c)).sub
      (FlatMean.const (integrable_const q))
    refine (f.congr fun t w => ?_).hasDerivAt
    exact lpq_score q θ c (fun x => G₀ θ x + t * h0 x) (fun x => G₁ θ x + t * h1 x) (fun x => m x + t * k x) w

omit mS [MeasurableSpace 𝒳] in
theorem compProb_one (r0' r1' m' : 𝒳 → ℝ) (w : S) :
    compProb (obs (z w)) (obs (d w)) (obs (m' (ξ w))) (obs (r0' (ξ w))) (obs (r1' (ξ w))) =
      armVal d z ξ r1' m' w - armVal d (fun w => 1 - z w) ξ r0' (fun x => 1 - m' x) w := by
  simp only [compProb, mean_one, obs, armVal]
  ring

/-- The estimated share of the compliers averages terms with mean `P(complier)`, if the propensity of the instrument is right or both other functions are; the
mean does not change to first order with the functions. -/
theorem C78_lpq_share (h : LocalLaw μ y v d d₀ d₁ z level ξ G₀ G₁ r₀ r₁ m τ) :
    (∀ r0' r1' m' : 𝒳 → ℝ, Guess μ ξ r₀ r0' → Guess μ ξ r₁ r1' → ProbGuess m' →
      (((∀ x, r0' x = r₀ x) ∧ ∀ x, r1' x = r₁ x) ∨ ∀ x, m' x = m x) →
      ∫ w, compProb (obs (z w)) (obs (d w)) (obs (m' (ξ w))) (obs (r0' (ξ w))) (obs (r1' (ξ w))) ∂μ = μ.real {w | d₀ w < d₁ w}) ∧
    ∀ h0 h1 k : 𝒳 → ℝ, Direction μ ξ h0 → Direction μ ξ h1 → BoundedDirection k →
      HasDerivAt (fun t => ∫ w, compProb (obs (z w)) (obs (d w)) (obs (m (ξ w) + t * k (ξ w))) (obs (r₀ (ξ w) + t * h0 (ξ w)))
        (obs (r₁ (ξ w) + t * h1 (ξ w))) ∂μ) 0 0 := by
  have l := h.treatment.law
  have mx := h.treatment.measD.prodMk h.treatment.measX
  have hs : MeasurableSet {w | d₀ w < d₁ w} := measurableSet_lt h.treatment.mean0.meas h.treatment.mean1.meas
  have share : ∫ w, r₁ (ξ w) ∂μ - ∫ w, r₀ (ξ w) ∂μ = μ.real {w | d₀ w < d₁ w} := by
    rw [h.treatment.mean1.integral_eq mx, h.treatment.mean0.integral_eq mx,
      ← integral_sub h.treatment.mean1.integrable.1 h.treatment.mean0.integrable.1]
    have e : (fun w => d₁ w - d₀ w) = Set.indicator {w | d₀ w < d₁ w} fun _ => (1 : ℝ) := by
      funext w
      have hm := h.monotone w
      by_cases hw : d₀ w < d₁ w
      · rw [Set.indicator_of_mem (by exact hw)]
        rcases h.binary0 w with a | a <;> rcases h.binary1 w with b | b <;> rw [a, b] at hw ⊢ <;> first | (exfalso; linarith) | norm_num
      · rw [Set.indicator_of_notMem (by exact hw), le_antisymm hm (not_lt.1 hw), sub_self]
    rw [e, integral_indicator hs, setIntegral_const]
    simp
  refine ⟨fun r0' r1' m' R0 R1 M hr => ?_, fun h0 h1 k dh0 dh1 dk => ?_⟩
  · have i1 := (l.treated one_le_two).guess R1 M (hr.imp (fun q => q.2) id)
    have i0 := (l.untreated one_le_two).guess R0 M.compl (hr.imp (fun q => q.1) fun q x => by rw [q x])
    simp only [compProb_one]
    rw [(i1.sub i0).2, share]
  · have f := ((l.treated one_le_two).path dh1 dk).sub ((l.untreated one_le_two).path_compl dh0 dk l.measM)
    refine (f.congr fun t w => ?_).hasDerivAt
    exact compProb_one (fun x => r₀ x + t * h0 x) (fun x => r₁ x + t * h1 x) (fun x => m x + t * k x) w

/-- The expected score of LPQ at the local quantile is not insensitive to the share of the compliers: its derivative is `-q/share`, never zero.  The score is
evaluated at an estimate of the share, from the same observations, and the standard error takes that estimate as known. -/
theorem C78_lpq_share_violated (h : LocalLaw μ y v d d₀ d₁ z level ξ G₀ G₁ r₀ r₁ m τ) {q θ : ℝ} (hq : 0 < q)
    (hθ : μ.real {w | d₀ w < d₁ w ∧ v w ≤ θ} / μ.real {w | d₀ w < d₁ w} = q) :
    HasDerivAt (fun c => ∫ w, lpqScore level q θ (indEq (d w) level) (m (ξ w)) (G₀ θ (ξ w)) (G₁ θ (ξ w)) (y w) (z w) c ∂μ)
        (-(q / μ.real {w | d₀ w < d₁ w})) (μ.real {w | d₀ w < d₁ w}) ∧ -(q / μ.real {w | d₀ w < d₁ w}) ≠ 0 := by
  have hc := h.compliers
  refine ⟨?_, neg_ne_zero.2 (div_pos hq hc).ne'⟩
  have e : (fun c => ∫ w, lpqScore level q θ (indEq (d w) level) (m (ξ w)) (G₀ θ (ξ w)) (G₁ θ (ξ w)) (y w) (z w) c ∂μ) =
      fun c => μ.real {w | d₀ w < d₁ w ∧ v w ≤ θ} * c⁻¹ - q := by
    funext c
    rw [(C78_lpq h q c).1 θ (G₀ θ) (G₁ θ) m ⟨(h.below0 θ).measG, by simp⟩ ⟨(h.below1 θ).measG, by simp⟩
      ⟨h.treatment.measM, τ, h.treatment.pos, h.treatment.overlap⟩ (Or.inr fun _ => rfl), div_eq_mul_inv]
  rw [e]
  have hd := ((hasDerivAt_inv hc.ne').const_mul (μ.real {w | d₀ w < d₁ w ∧ v w ≤ θ})).sub_const q
  refine hd.congr_deriv ?_
  rw [← hθ]
  field_simp

end

end DML
