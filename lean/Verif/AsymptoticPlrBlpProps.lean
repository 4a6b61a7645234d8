import Verif.AsymptoticBlpProps
import Verif.LimitResid
import Verif.OrthogonalityDesignProps

/-!
# Large-sample properties of heterogeneous effects in the partially linear model (C86)

`cate` and `gate` of the partially linear regression model regress the residual of the outcome on the basis times the residual of the
treatment.  Both residuals come from fitted functions.
-/

namespace DML

open MeasureTheory ProbabilityTheory Filter Topology
open scoped ENNReal

variable {Ω : Type*} {mΩ : MeasurableSpace Ω} {S : Type*} [MeasurableSpace S] {𝒳 : Type*} [MeasurableSpace 𝒳] {Q : Type}
  {E : Ext} {P : Measure Ω} {W : ℕ → Ω → S} {K p : ℕ} {tv : String} {y d : S → ℝ} {ξ : S → 𝒳} {enc : 𝒳 → List Cell}

/-! ## The calls -/

/-- `_partial_out` (/repo/doubleml/plm/plr.py:436-465) of an object with one repetition and one treatment; `iv` says that the score is
`"IV-type"`.  `none` if an exception is raised: predictions have not been stored (`ValueError`), or the object lacks a
prediction. -/
noncomputable def LinState.partialOut {n : ℕ} (iv : Bool) (t : LinState n Q) : Option ((Fin n → ℝ) × (Fin n → ℝ)) := do
  let f ← t.preds
  let o ← f 0 0
  let m ← lookupKey "ml_m" o.1
  if iv then do
    let g ← lookupKey "ml_g" o.1
    let θ ← t.coef 0
    pure (plrResidIv t.data.yNum t.data.dNum (fun i => (m i).getD 0) (fun i => (g i).getD 0) θ)
  else do
    let l ← lookupKey "ml_l" o.1
    pure (plrResid t.data.yNum t.data.dNum (fun i => (l i).getD 0) fun i => (m i).getD 0)

/-- `b` is the result of `cate(basis)` for the fitted object `t` (/repo/doubleml/plm/plr.py:359-397). -/
def IsPlrCate {n : ℕ} (ols : Ols) (iv : Bool) (t : LinState n Q) (names : List String) (basis : Fin n → Fin p → ℝ) (isGate : Bool)
    (b : Blp n p) : Prop :=
  ∃ s, t.partialOut iv = some s ∧ plrCate ols t.data.d.length t.nRep s names basis isGate = .ok b

/-- `B` is the result of `gate(groups)` for the fitted object `t` (/repo/doubleml/plm/plr.py:399-434). -/
def IsPlrGate {n : ℕ} (ols : Ols) (iv : Bool) (t : LinState n Q) (g : GArg n) (B : Σ cols : List (String × GCol n), Blp n cols.length) :
    Prop :=
  ∃ s, t.partialOut iv = some s ∧ plrGate ols t.data.d.length t.nRep s g = .ok B

/-- `gate` is `cate` for the matrix of the groups. -/
theorem isPlrGate_iff {n : ℕ} {ols : Ols} {iv : Bool} {t : LinState n Q} {g : GArg n} {cols : List (String × GCol n)}
    (hg : gateGroups g = .ok cols) (hp : cols.length = p) {basis : Fin n → Fin p → ℝ}
    (hb : ∀ i (j : Fin cols.length), basis i (Fin.cast hp j) = colMatrix cols i j) (Φ : ∀ q, Blp n q → Prop) :
    (∃ B, IsPlrGate ols iv t g B ∧ Φ _ B.2) ↔ ∃ b, IsPlrCate ols iv t (cols.map Prod.fst) basis true b ∧ Φ p b := by
  subst hp
  obtain rfl : basis = colMatrix cols := funext fun i => funext fun j => hb i j
  have key : ∀ s B, plrGate ols t.data.d.length t.nRep s g = .ok B ↔
      ∃ b, plrCate ols t.data.d.length t.nRep s (cols.map Prod.fst) (colMatrix cols) true = .ok b ∧ B = ⟨cols, b⟩ := fun s B => by
    unfold plrGate
    simp only [Bind.bind, Except.bind, hg, Pure.pure, Except.pure]
    cases e : plrCate ols t.data.d.length t.nRep s (cols.map Prod.fst) (colMatrix cols) true with
    | error x => simp
    | ok b =>
      simp only [Except.ok.injEq, exists_eq_left']
      exact eq_comm
  constructor
  · rintro ⟨B, ⟨s, h1, h2⟩, h3⟩
    obtain ⟨b, h4, rfl⟩ := (key s B).1 h2
    exact ⟨b, ⟨s, h1, h4⟩, h3⟩
  · rintro ⟨b, ⟨s, h1, h2⟩, h3⟩
    exact ⟨⟨cols, b⟩, ⟨s, h1, (key s _).2 ⟨b, h2, rfl⟩⟩, h3⟩

/-! ## Heterogeneous effects -/

/-- The partially linear model with the effect `τ(ξ)`: `y = τ(ξ) d + g(ξ) + ζ` with `E[ζ | d, ξ] = 0` and `d = m(ξ) + v` with
`E[v | ξ] = 0`. -/
structure EffectLaw (μ : Measure S) (y d : S → ℝ) (ξ : S → 𝒳) (τ g m : 𝒳 → ℝ) : Prop where
  measY : Measurable y
  measD : Measurable d
  measX : Measurable ξ
  measT : Measurable τ
  measG : Measurable g
  measM : Measurable m
  noise : MeanZeroGiven μ (fun w => (d w, ξ w)) fun w => y w - τ (ξ w) * d w - g (ξ w)
  treat : MeanZeroGiven μ ξ fun w => d w - m (ξ w)
  memNoise : MemLp (fun w => y w - τ (ξ w) * d w - g (ξ w)) 4 μ
  memTreat : MemLp (fun w => d w - m (ξ w)) 4 μ
  memEffect : MemLp (fun w => τ (ξ w) * (d w - m (ξ w))) 4 μ

section Effect

variable {μ : Measure S} [IsProbabilityMeasure μ] {τ g m : 𝒳 → ℝ}

theorem EffectLaw.outcome (h : EffectLaw μ y d ξ τ g m) : MeanZeroGiven μ ξ fun w => y w - (τ (ξ w) * m (ξ w) + g (ξ w)) := by
  have h1 : MeanZeroGiven μ ξ fun w => y w - τ (ξ w) * d w - g (ξ w) :=
    h.noise.mono (h.measD.prodMk h.measX) (φ := Prod.snd) measurable_snd fun _ => rfl
  have h2 := h.treat.mul_left (h.memTreat.integrable (by norm_num)) h.measT (h.memEffect.integrable (by norm_num))
  exact (h1.add h2 (h.memNoise.integrable (by norm_num)) (h.memEffect.integrable (by norm_num))).of_eq fun w => by ring

omit [IsProbabilityMeasure μ] in
theorem EffectLaw.memOutcome (h : EffectLaw μ y d ξ τ g m) : MemLp (fun w => y w - (τ (ξ w) * m (ξ w) + g (ξ w))) 4 μ :=
  (h.memNoise.add h.memEffect).ae_eq (Eventually.of_forall fun w => by simp only [Pi.add_apply]; ring)

/-- The noise is orthogonal to the residual of the treatment times functions of the covariates. -/
theorem EffectLaw.cross (h : EffectLaw μ y d ξ τ g m) {b : 𝒳 → ℝ} (hb : Measurable b) {C : ℝ} (hC : ∀ x, |b x| ≤ C) :
    Null μ fun w => (y w - τ (ξ w) * d w - g (ξ w)) * (b (ξ w) * (d w - m (ξ w))) :=
  h.noise.null (h.measD.prodMk h.measX) (h.memNoise.mono_exponent (by norm_num)) (f := fun q => b q.2 * (q.1 - m q.2))
    ((hb.comp measurable_snd).mul (measurable_fst.sub (h.measM.comp measurable_snd)))
    (((memLp_bdd_mul (h.memTreat.mono_exponent (by norm_num)) (hb.comp h.measX) fun w => hC _)).ae_eq
      (Eventually.of_forall fun w => mul_comm _ _))

/-- A mean-zero residual times a bounded function of the covariates. -/
theorem MeanZeroGiven.weighted {u : S → ℝ} {u0 b : 𝒳 → ℝ} (hξ : Measurable ξ) (h : MeanZeroGiven μ ξ fun w => u w - u0 (ξ w))
    (hu : MemLp (fun w => u w - u0 (ξ w)) 4 μ) (hb : Measurable b) {C : ℝ} (hC : ∀ x, |b x| ≤ C) :
    MeanZeroGiven μ ξ (fun w => b (ξ w) * u w - b (ξ w) * u0 (ξ w)) ∧ MemLp (fun w => b (ξ w) * u w - b (ξ w) * u0 (ξ w)) 4 μ := by
  have h1 : MemLp (fun w => b (ξ w) * (u w - u0 (ξ w))) 4 μ :=
    (memLp_bdd_mul hu (hb.comp hξ) fun w => hC _).ae_eq (Eventually.of_forall fun w => mul_comm _ _)
  simp only [← mul_sub]
  exact ⟨h.mul_left (hu.integrable (by norm_num)) hb (h1.integrable (by norm_num)), h1⟩

end Effect

section Plr

variable {k : ∀ n, PlrClass n Q} {H : Study E P W 1 K (fun n => plrSpec (k n)) tv y d ξ enc}

/-- The residuals of the fitted objects. -/
theorem plr_partialOut (hiv : ∀ n, (k n).iv = false) (hcl : ∀ n, (k n).mClassifier = false)
    (hvars : ∀ n, (k n).vars = none) (hbin : ∀ᶠ n in atTop, ∀ ω, lookupKey tv (H.D n ω).binTreats = some false)
    (hstore : H.args.storePredictions = .bool true) :
    ∀ᶠ n in atTop, ∀ ω, (H.fitted n ω).nRep = 1 ∧ (H.fitted n ω).data.d.length = 1 ∧ (H.fitted n ω).partialOut false =
      some (fun i : Fin n => y (W i ω) - plrLhat H 0 n (H.foldOf 0 n ω i) (sample W n ω) (ξ (W i ω)),
        fun i : Fin n => d (W i ω) - plrMhat H 0 n (H.foldOf 0 n ω i) (sample W n ω) (ξ (W i ω))) := by
  filter_upwards [H.runs hvars, H.reached, H.smpls, hbin] with n h1 h2 h3 h4 ω
  obtain ⟨g1, g2, g3⟩ := h1 ω
  have hok : (fit (H.F n ω) (plrSpec (k n)) (H.obj n ω) H.args).2 = .ok () :=
    C63_plr (hvars n) (hcl n) (h4 ω) (h2 ω) (h3 ω) (H.valid n _)
  have hdat : (H.fitted n ω).data = H.D n ω := by
    have := (fit_frame (H.F n ω) (plrSpec (k n)) (H.obj n ω) H.args).1.data.active (by rw [g2])
    exact this.trans ((h2 ω).ready (hvars n)).2
  refine ⟨(fit_nRep hok).trans g1, ?_, ?_⟩
  · rw [hdat, (h2 ω).1]
    rfl
  obtain ⟨p', m', fw, hck, -, -, -⟩ := fit_ok hok
  obtain ⟨hp, hm⟩ := checkFit_ok hck
  obtain ⟨c, o, l, k1, -, k2, -, -, -, -, -, k3, -⟩ := fit_cells hok hstore hm (j := 0) (k := 0) (by omega) (by omega)
  have hc := g3 0 c k1
  have hst := C26_plr hc.cross.ok k2
  obtain ⟨pl, hpl, rl⟩ := hst.1 (hc.noExt _) fun _ => hc.noExt _
  obtain ⟨pm, hpm, rm⟩ := hst.2.1 (hc.noExt _)
  rw [hcl n] at rm
  have vl := fun i => hc.predict (L := fun n => (k n).ml_l) (u := y) (on := fun _ => True) (by simp [plrSpec, hiv n]) rl
    (fun _ => Iff.rfl) hc.y i
  have vm := fun i => hc.predict (L := fun n => (k n).ml_m) (u := d) (on := fun _ => True) (by simp [plrSpec, hiv n]) rm
    (fun _ => Iff.rfl) hc.d i
  have k3 := k3 rfl
  have hy : ∀ i, (H.D n ω).yNum i = y (W i ω) := fun i => by
    rw [← hc.data]
    exact hc.y i
  have hd : ∀ i, (H.D n ω).dNum i = d (W i ω) := fun i => by
    rw [← hc.data]
    exact hc.d i
  unfold Study.fitted at hdat ⊢
  unfold LinState.partialOut
  cases hpr : (fit (H.F n ω) (plrSpec (k n)) (H.obj n ω) H.args).1.preds with
  | none => rw [hpr] at k3; simp at k3
  | some f =>
    rw [hpr] at k3
    simp only [Option.map_some, Option.some.injEq] at k3
    simp only [Option.bind_eq_bind, Option.bind_some, k3, hpm, hpl, Bool.false_eq_true, if_false, hdat]
    refine congrArg some (Prod.ext (funext fun i => ?_) (funext fun i => ?_))
    · show (H.D n ω).yNum i - (pl i).getD 0 = _
      rw [hy]
      exact congrArg _ (vl i)
    · show (H.D n ω).dNum i - (pm i).getD 0 = _
      rw [hd]
      exact congrArg _ (vm i)

/-- **C86, heterogeneous effects in the partially linear model.**  In the model `y = τ(ξ) d + g(ξ) + ζ` fitted with the score
`partialling out` and stored predictions, `cate(basis)` estimates the linear combination `β` of the basis that is closest to `τ(ξ)` when squared
distances are weighted by the squared residual of the treatment (`hβ`).  `x` is a bounded basis of the covariates without
collinearity on the variation of the treatment (`hrank`), `v` is a row of the basis.  With `c` the solution of
`E[(d - m)² x xᵀ] c = v`, the asymptotic variance is that of `cᵀx (d - m)` times the residual of the regression.  The learners meet the conditions
of C79. -/
theorem C86_cate [IsProbabilityMeasure P] {ols : Ols} (hols : OlsSpec ols) (hiv : ∀ n, (k n).iv = false)
    (hcl : ∀ n, (k n).mClassifier = false) (hvars : ∀ n, (k n).vars = none)
    (hbin : ∀ᶠ n in atTop, ∀ ω, lookupKey tv (H.D n ω).binTreats = some false)
    (hstore : H.args.storePredictions = .bool true) {τ g m : 𝒳 → ℝ} (law : EffectLaw (P.map (W 0)) y d ξ τ g m)
    (hL : PlrRates H (fun x => τ x * m x + g x) m)
    {x : 𝒳 → Fin p → ℝ} (hx : ∀ j, Measurable fun u => x u j) {C : ℝ} (hC : ∀ u j, |x u j| ≤ C)
    (hrank : ∀ u : Fin p → ℝ, ∫ w, ((∑ j, x (ξ w) j * u j) * (d w - m (ξ w))) ^ 2 ∂(P.map (W 0)) = 0 → u = 0)
    {β : Fin p → ℝ} (hβ : ∀ j, ∫ w, x (ξ w) j * (τ (ξ w) - ∑ k, x (ξ w) k * β k) * (d w - m (ξ w)) ^ 2 ∂(P.map (W 0)) = 0)
    {names : List String} (hnames : names.Nodup) (isGate : Bool) {v c : Fin p → ℝ}
    (hc : ∀ j, v j = ∑ k, (∫ w, x (ξ w) j * x (ξ w) k * (d w - m (ξ w)) ^ 2 ∂(P.map (W 0))) * c k) {σ : ℝ} (hσ : 0 < σ)
    (hV : σ ^ 2 = ∫ w, ((∑ k, c k * x (ξ w) k) * (d w - m (ξ w)) * (y w - τ (ξ w) * d w - g (ξ w) +
      (τ (ξ w) - ∑ k, x (ξ w) k * β k) * (d w - m (ξ w)))) ^ 2 ∂(P.map (W 0))) :
    BlpLimit P (fun n ω => IsPlrCate ols false (H.fitted n ω) names (fun i j => x (ξ (W i ω)) j) isGate) names isGate v
      (∑ j, v j * β j) σ := by
  have hμ : IsProbabilityMeasure (P.map (W 0)) := Measure.isProbabilityMeasure_map (H.iid.meas 0).aemeasurable
  have hML : Honest ξ H.St (H.scheme 0) (plrLhat H 0) := Study.honest (H := H) hL.measL "ml_l" H.measY MeasurableSet.univ 0 (on := fun _ => True)
  have hMM : Honest ξ H.St (H.scheme 0) (plrMhat H 0) := Study.honest (H := H) hL.measM "ml_m" H.measD MeasurableSet.univ 0 (on := fun _ => True)
  have rMM : ∀ j, oPE P fun n ω => ENNReal.ofReal (Real.sqrt n) *
      (errNorm P W ξ (plrMhat H 0) m 2 j n ω * errNorm P W ξ (plrMhat H 0) m 2 j n ω) := fun j =>
    (hL.rate 0 j).mono fun n ω => by
      gcongr
      exact le_self_add
  have rML : ∀ j, oPE P fun n ω => ENNReal.ofReal (Real.sqrt n) * (errNorm P W ξ (plrLhat H 0) (fun x => τ x * m x + g x) 2 j n ω *
      errNorm P W ξ (plrMhat H 0) m 2 j n ω) := fun j =>
    (hL.rate 0 j).mono fun n ω => by
      rw [mul_comm (errNorm P W ξ (plrLhat H 0) (fun x => τ x * m x + g x) 2 j n ω)]
      gcongr
      exact le_add_self
  have hw := fun j => law.treat.weighted law.measX law.memTreat (hx j) fun u => hC u j
  have hxx : ∀ j l, Part P W H.St (H.scheme 0) (fun n q t w => x (ξ w) j * (d w - plrMhat H 0 n q t (ξ w)) *
      (x (ξ w) l * (d w - plrMhat H 0 n q t (ξ w)))) fun w => x (ξ w) j * (d w - m (ξ w)) * (x (ξ w) l * (d w - m (ξ w))) := fun j l => by
    have h1 := Part.residuals (c := H.scheme 0) H.iid law.measX (((hx j).comp law.measX).mul law.measD) (((hx l).comp law.measX).mul law.measD)
      ((hx j).mul law.measM) ((hx l).mul law.measM) (hw j).1 (hw l).1 (hw j).2 (hw l).2 (hMM.weigh (hx j)) (hMM.weigh (hx l))
      (oPE.weigh (fun u => hC u j) (hL.errM 0)) (oPE.weigh (fun u => hC u l) (hL.errM 0))
      (oPE.weigh_rate (E := fun q n ω => errNorm P W ξ (fun n q t u => x u j * plrMhat H 0 n q t u) (fun u => x u j * m u) 2 q n ω)
        (fun u => hC u l) fun q => by
          have := oPE.weigh_rate (E := fun q n ω => errNorm P W ξ (plrMhat H 0) m 2 q n ω) (fun u => hC u j) rMM q
          simpa only [mul_comm (errNorm P W ξ (plrMhat H 0) m 2 q _ _)] using this)
    exact h1.congr (fun n q t w => by simp only [Pi.mul_apply, Function.comp_apply]; ring) fun w => by simp only [Pi.mul_apply, Function.comp_apply]; ring
  have hxs : ∀ j, Part P W H.St (H.scheme 0) (fun n q t w => x (ξ w) j * (d w - plrMhat H 0 n q t (ξ w)) *
      (y w - plrLhat H 0 n q t (ξ w))) fun w => x (ξ w) j * (d w - m (ξ w)) * (y w - (τ (ξ w) * m (ξ w) + g (ξ w))) := fun j => by
    have h1 := Part.residuals (c := H.scheme 0) H.iid law.measX law.measY (((hx j).comp law.measX).mul law.measD)
      ((law.measT.mul law.measM).add law.measG) ((hx j).mul law.measM) law.outcome (hw j).1 law.memOutcome (hw j).2 hML (hMM.weigh (hx j))
      (hL.errL 0) (oPE.weigh (fun u => hC u j) (hL.errM 0)) (oPE.weigh_rate (fun u => hC u j) rML)
    exact h1.congr (fun n q t w => by simp only [Pi.mul_apply, Function.comp_apply]; ring) fun w => by simp only [Pi.mul_apply, Pi.add_apply, Function.comp_apply]; ring
  have mx : ∀ j, MemLp (fun w => x (ξ w) j * (d w - m (ξ w))) 2 (P.map (W 0)) := fun j => by
    have := (hw j).2.mono_exponent (p := 2) (by norm_num)
    simpa only [← mul_sub] using this
  have m2 : MemLp (fun w => d w - m (ξ w)) 2 (P.map (W 0)) := law.memTreat.mono_exponent (by norm_num)
  have mT : MemLp (fun w => τ (ξ w) * (d w - m (ξ w))) 2 (P.map (W 0)) := law.memEffect.mono_exponent (by norm_num)
  have hG := GenOls.of_parts (xh := fun j n q t w => x (ξ w) j * (d w - plrMhat H 0 n q t (ξ w)))
    (sh := fun n q t w => y w - plrLhat H 0 n q t (ξ w)) (x0 := fun w j => x (ξ w) j * (d w - m (ξ w)))
    (s0 := fun w => y w - (τ (ξ w) * m (ξ w) + g (ξ w))) H.iid H.measSt (Study.balancedScheme 0) hxx hxs (β := β) (fun u hu => hrank u (by
      rw [← hu]
      refine integral_congr_ae (Eventually.of_forall fun w => ?_)
      show ((∑ j, x (ξ w) j * u j) * (d w - m (ξ w))) ^ 2 = (∑ j, x (ξ w) j * (d w - m (ξ w)) * u j) ^ 2
      rw [Finset.sum_mul]
      refine congrArg (· ^ 2) (Finset.sum_congr rfl fun j _ => ?_)
      ring)) fun j => by
      have n1 := law.cross (hx j) fun u => hC u j
      have mb : MemLp (fun w => τ (ξ w) * (d w - m (ξ w)) - ∑ k, x (ξ w) k * (d w - m (ξ w)) * β k) 2 (P.map (W 0)) :=
        mT.sub (memLp_finsetSum _ fun k _ => (mx k).mul_const _)
      have n2 := hβ j
      have e2 : ∀ w, x (ξ w) j * (τ (ξ w) - ∑ k, x (ξ w) k * β k) * (d w - m (ξ w)) ^ 2 =
          x (ξ w) j * (d w - m (ξ w)) * (τ (ξ w) * (d w - m (ξ w)) - ∑ k, x (ξ w) k * (d w - m (ξ w)) * β k) := fun w => by
        have : ∑ k, x (ξ w) k * (d w - m (ξ w)) * β k = (∑ k, x (ξ w) k * β k) * (d w - m (ξ w)) := by
          rw [Finset.sum_mul]
          exact Finset.sum_congr rfl fun k _ => by ring
        rw [this]
        ring
      simp only [e2] at n2
      have e3 : ∀ w, x (ξ w) j * (d w - m (ξ w)) * (y w - (τ (ξ w) * m (ξ w) + g (ξ w)) - ∑ k, x (ξ w) k * (d w - m (ξ w)) * β k) =
          (y w - τ (ξ w) * d w - g (ξ w)) * (x (ξ w) j * (d w - m (ξ w))) +
          x (ξ w) j * (d w - m (ξ w)) * (τ (ξ w) * (d w - m (ξ w)) - ∑ k, x (ξ w) k * (d w - m (ξ w)) * β k) := fun w => by ring
      simp only [e3]
      have i2 : Integrable (fun w => x (ξ w) j * (d w - m (ξ w)) * (τ (ξ w) * (d w - m (ξ w)) - ∑ k, x (ξ w) k * (d w - m (ξ w)) * β k))
        (P.map (W 0)) := (mx j).integrable_mul mb
      rw [integral_add n1.1 i2, n2, n1.2, add_zero]
  set X : ∀ n, Ω → Fin n → Fin p → ℝ := fun n ω i j =>
    x (ξ (W i ω)) j * (d (W i ω) - plrMhat H 0 n (H.foldOf 0 n ω i) (sample W n ω) (ξ (W i ω))) with hX
  set s : ∀ n, Ω → Fin n → ℝ := fun n ω i => y (W i ω) - plrLhat H 0 n (H.foldOf 0 n ω i) (sample W n ω) (ξ (W i ω)) with hs
  set o : ℕ → Ω → OlsRes p := fun n ω => ols (s n ω) (X n ω) with ho
  obtain ⟨hZ, hZm, hR⟩ := GenOls.limit (X := X) (s := s) (o := o) (v := v) (c := c) H.iid hG (fun n ω hf => hols _ _ hf) (fun j => by
      rw [hc j]
      refine Finset.sum_congr rfl fun l _ => congrArg (· * c l) (integral_congr_ae (Eventually.of_forall fun w => ?_))
      show x (ξ w) j * x (ξ w) l * (d w - m (ξ w)) ^ 2 = x (ξ w) j * (d w - m (ξ w)) * (x (ξ w) l * (d w - m (ξ w)))
      ring) hσ (by
      rw [hV]
      refine integral_congr_ae (Eventually.of_forall fun w => ?_)
      have e1 : ∑ k, x (ξ w) k * (d w - m (ξ w)) * β k = (∑ k, x (ξ w) k * β k) * (d w - m (ξ w)) := by
        rw [Finset.sum_mul]
        exact Finset.sum_congr rfl fun k _ => by ring
      show _ = (∑ k, c k * (x (ξ w) k * (d w - m (ξ w)) * (y w - (τ (ξ w) * m (ξ w) + g (ξ w)) - ∑ k, x (ξ w) k * (d w - m (ξ w)) * β k))) ^ 2
      simp only [e1]
      have e2 : ∀ r : ℝ, ∑ k, c k * (x (ξ w) k * (d w - m (ξ w)) * r) = (∑ k, c k * x (ξ w) k) * (d w - m (ξ w)) * r := fun r => by
        rw [Finset.sum_mul, Finset.sum_mul]
        exact Finset.sum_congr rfl fun k _ => by ring
      rw [e2]
      refine congrArg (· ^ 2) (congrArg _ ?_)
      ring)
  refine blpLimit_of (s := s) (X := X) hZ hZm hσ hR (bad := fun _ => ∅) (by simp) ?_
  filter_upwards [plr_partialOut hiv hcl hvars hbin hstore] with n hn ω _ b
  obtain ⟨h1, h2, h3⟩ := hn ω
  have e : plrCate ols (H.fitted n ω).data.d.length (H.fitted n ω).nRep
      (fun i => y (W i ω) - plrLhat H 0 n (H.foldOf 0 n ω i) (sample W n ω) (ξ (W i ω)),
        fun i => d (W i ω) - plrMhat H 0 n (H.foldOf 0 n ω i) (sample W n ω) (ξ (W i ω))) names (fun (i : Fin n) j => x (ξ (W i ω)) j) isGate =
        .ok ⟨s n ω, names, X n ω, isGate, some (o n ω)⟩ := by
    unfold plrCate blpCreate
    rw [h1, h2, if_neg (by simp), if_neg (by simp), if_pos hnames]
    rfl
  unfold IsPlrCate
  rw [h3]
  constructor
  · rintro ⟨s', e1, e2⟩
    obtain rfl := Option.some.inj e1
    rw [e] at e2
    exact (Except.ok.inj e2).symm
  · rintro rfl
    exact ⟨_, rfl, e⟩

/-- The basis of disjoint groups, weighted by squared residuals. -/
theorem bit_weighted {μ : Measure S} {G : S → Fin p → Bool} (hG : ∀ j, Measurable fun w => G w j)
    (hex : ∀ w j k, G w j = true → G w k = true → j = k) (f : S → ℝ) (j l : Fin p) :
    ∫ w, bit (G w j) * bit (G w l) * f w ∂μ = if j = l then ∫ w in {w | G w j = true}, f w ∂μ else 0 := by
  simp only [bit_mul hex]
  by_cases h : j = l
  · simp only [if_pos h]
    exact integral_bit hG j f
  · simp only [if_neg h, zero_mul, integral_zero]

/-- **C86, group effects in the partially linear model.**  For disjoint groups of the covariates in which the treatment varies, `gate(groups)`
estimates for group `j` the mean of the effect `τ(ξ)` over the group *weighted by the squared residual of the treatment*. -/
theorem C86_gate_weighted [IsProbabilityMeasure P] {ols : Ols} (hols : OlsSpec ols) (hiv : ∀ n, (k n).iv = false)
    (hcl : ∀ n, (k n).mClassifier = false) (hvars : ∀ n, (k n).vars = none)
    (hbin : ∀ᶠ n in atTop, ∀ ω, lookupKey tv (H.D n ω).binTreats = some false)
    (hstore : H.args.storePredictions = .bool true) {τ g m : 𝒳 → ℝ} (law : EffectLaw (P.map (W 0)) y d ξ τ g m)
    (hL : PlrRates H (fun x => τ x * m x + g x) m) {names : List String} (hnames : names.Nodup) {gr : 𝒳 → Fin names.length → Bool}
    (hgr : ∀ j, Measurable fun u => gr u j) (hex : ∀ u j l, gr u j = true → gr u l = true → j = l)
    (hpos : ∀ j, 0 < ∫ w in {w | gr (ξ w) j = true}, (d w - m (ξ w)) ^ 2 ∂(P.map (W 0))) (j : Fin names.length) {θ σ : ℝ}
    (hθ : θ = (∫ w in {w | gr (ξ w) j = true}, τ (ξ w) * (d w - m (ξ w)) ^ 2 ∂(P.map (W 0))) /
      ∫ w in {w | gr (ξ w) j = true}, (d w - m (ξ w)) ^ 2 ∂(P.map (W 0)))
    (hσ : 0 < σ) (hV : σ ^ 2 = (∫ w in {w | gr (ξ w) j = true}, ((d w - m (ξ w)) * (y w - τ (ξ w) * d w - g (ξ w) +
      (τ (ξ w) - θ) * (d w - m (ξ w)))) ^ 2 ∂(P.map (W 0))) / (∫ w in {w | gr (ξ w) j = true}, (d w - m (ξ w)) ^ 2 ∂(P.map (W 0))) ^ 2) :
    GateLimit P (fun n ω => IsPlrGate ols false (H.fitted n ω)
      (boolFrame (List.ofFn fun l => (names[l], fun i : Fin n => gr (ξ (W i ω)) l)))) names j θ σ := by
  have hμ : IsProbabilityMeasure (P.map (W 0)) := Measure.isProbabilityMeasure_map (H.iid.meas 0).aemeasurable
  set V : Fin names.length → ℝ := fun j => ∫ w in {w | gr (ξ w) j = true}, (d w - m (ξ w)) ^ 2 ∂(P.map (W 0)) with hVdef
  set β : Fin names.length → ℝ := fun j => (∫ w in {w | gr (ξ w) j = true}, τ (ξ w) * (d w - m (ξ w)) ^ 2 ∂(P.map (W 0))) / V j with hβdef
  have hG : ∀ j, Measurable fun w => gr (ξ w) j := fun j => (hgr j).comp law.measX
  have hexw : ∀ w j l, gr (ξ w) j = true → gr (ξ w) l = true → j = l := fun w => hex (ξ w)
  have m2 : MemLp (fun w => d w - m (ξ w)) 2 (P.map (W 0)) := law.memTreat.mono_exponent (by norm_num)
  have mT : MemLp (fun w => τ (ξ w) * (d w - m (ξ w))) 2 (P.map (W 0)) := law.memEffect.mono_exponent (by norm_num)
  have iV : Integrable (fun w => (d w - m (ξ w)) ^ 2) (P.map (W 0)) := m2.integrable_sq
  have iT : Integrable (fun w => τ (ξ w) * (d w - m (ξ w)) ^ 2) (P.map (W 0)) :=
    (mT.integrable_mul m2).congr (Eventually.of_forall fun w => by simp only [Pi.mul_apply]; ring)
  have hbb : ∀ w j, bit (gr (ξ w) j) * bit (gr (ξ w) j) = bit (gr (ξ w) j) := fun w j => by rw [bit_mul hexw, if_pos rfl]
  have key := C86_cate (H := H) hols hiv hcl hvars hbin hstore law hL (x := fun u j => bit (gr u j))
    (fun j => (measurable_of_countable bit).comp (hgr j)) (C := 1) (fun u j => by cases gr u j <;> simp [bit]) (fun u hu => by
      have e : ∀ w, ((∑ j, bit (gr (ξ w) j) * u j) * (d w - m (ξ w))) ^ 2 = ∑ j, bit (gr (ξ w) j) * (d w - m (ξ w)) ^ 2 * u j ^ 2 := fun w => by
        rw [mul_pow, sq (∑ j, bit (gr (ξ w) j) * u j), Finset.sum_mul, Finset.sum_mul]
        refine Finset.sum_congr rfl fun j _ => ?_
        have := bit_sum hexw w j u
        linear_combination u j * (d w - m (ξ w)) ^ 2 * this
      simp only [e] at hu
      rw [integral_finsetSum _ fun j _ => ?_] at hu
      · simp only [integral_mul_const, integral_bit hG] at hu
        funext j
        have := (Finset.sum_eq_zero_iff_of_nonneg fun j _ => mul_nonneg (hpos j).le (sq_nonneg (u j))).1 hu j (Finset.mem_univ j)
        rcases mul_eq_zero.1 this with h | h
        · exact absurd h (hpos j).ne'
        · exact pow_eq_zero_iff two_ne_zero |>.1 h
      · have : Integrable (fun w => bit (gr (ξ w) j) * (d w - m (ξ w)) ^ 2) (P.map (W 0)) := by
          refine (iV.bdd_mul (c := 1) ((measurable_of_countable bit).comp (hG j)).aestronglyMeasurable (Eventually.of_forall fun w => ?_))
          show ‖bit (gr (ξ w) j)‖ ≤ 1
          cases gr (ξ w) j <;> simp [bit]
        exact this.mul_const _) (β := β) (fun j => by
      have e : ∀ w, bit (gr (ξ w) j) * (τ (ξ w) - ∑ k, bit (gr (ξ w) k) * β k) * (d w - m (ξ w)) ^ 2 =
          bit (gr (ξ w) j) * (τ (ξ w) * (d w - m (ξ w)) ^ 2 - β j * (d w - m (ξ w)) ^ 2) := fun w => by
        have := bit_sum hexw w j β
        linear_combination -(d w - m (ξ w)) ^ 2 * this
      simp only [e]
      rw [integral_bit hG j fun w => τ (ξ w) * (d w - m (ξ w)) ^ 2 - β j * (d w - m (ξ w)) ^ 2,
        integral_sub iT.integrableOn (iV.const_mul _).integrableOn, integral_const_mul]
      show _ - β j * V j = 0
      rw [hβdef]
      dsimp only
      rw [div_mul_cancel₀ _ (hpos j).ne', sub_self]) hnames true (v := fun l => if j = l then 1 else 0)
    (c := fun l => if j = l then 1 / V j else 0) (fun l => by
      simp only [bit_weighted hG hexw, mul_ite, mul_zero, Finset.sum_ite_eq, Finset.mem_univ, if_true]
      by_cases h : j = l
      · subst h
        simp only [if_true]
        exact (mul_one_div_cancel (hpos j).ne').symm
      · rw [if_neg h, if_neg (Ne.symm h), zero_mul]) hσ (by
      have e : ∀ w, ((∑ k, (if j = k then 1 / V j else 0) * bit (gr (ξ w) k)) * (d w - m (ξ w)) * (y w - τ (ξ w) * d w - g (ξ w) +
          (τ (ξ w) - ∑ k, bit (gr (ξ w) k) * β k) * (d w - m (ξ w)))) ^ 2 = bit (gr (ξ w) j) * ((d w - m (ξ w)) *
          (y w - τ (ξ w) * d w - g (ξ w) + (τ (ξ w) - β j) * (d w - m (ξ w)))) ^ 2 / V j ^ 2 := fun w => by
        simp only [ite_mul, zero_mul, Finset.sum_ite_eq, Finset.mem_univ, if_true]
        have h1 := bit_sum hexw w j β
        have h2 := hbb w j
        have h3 : bit (gr (ξ w) j) * (y w - τ (ξ w) * d w - g (ξ w) + (τ (ξ w) - ∑ k, bit (gr (ξ w) k) * β k) * (d w - m (ξ w))) =
            bit (gr (ξ w) j) * (y w - τ (ξ w) * d w - g (ξ w) + (τ (ξ w) - β j) * (d w - m (ξ w))) := by
          linear_combination -(d w - m (ξ w)) * h1
        have h4 : 1 / V j * bit (gr (ξ w) j) * (d w - m (ξ w)) * (y w - τ (ξ w) * d w - g (ξ w) +
            (τ (ξ w) - ∑ k, bit (gr (ξ w) k) * β k) * (d w - m (ξ w))) = 1 / V j * (d w - m (ξ w)) * (bit (gr (ξ w) j) *
              (y w - τ (ξ w) * d w - g (ξ w) + (τ (ξ w) - β j) * (d w - m (ξ w)))) := by
          rw [← h3]
          ring
        rw [h4, mul_pow, mul_pow, mul_pow, sq (bit (gr (ξ w) j)), h2, one_div, inv_pow]
        ring
      simp only [e, integral_div]
      rw [integral_bit hG j fun w => ((d w - m (ξ w)) * (y w - τ (ξ w) * d w - g (ξ w) + (τ (ξ w) - β j) * (d w - m (ξ w)))) ^ 2, hV, hθ])
  have hval : ∑ l, (if j = l then (1 : ℝ) else 0) * β l = θ := by
    simp only [ite_mul, one_mul, zero_mul, Finset.sum_ite_eq, Finset.mem_univ, if_true]
    exact hθ.symm
  rw [hval] at key
  have hne : ∀ n ω, (List.ofFn fun l : Fin names.length => (names[l], fun i : Fin n => gr (ξ (W i ω)) l)) ≠ [] := fun n ω e => by
    have := congrArg List.length e
    rw [List.length_ofFn, List.length_nil] at this
    exact absurd j.2 (by omega)
  refine BlpLimit.groups j key fun n ω Φ => ?_
  rw [isPlrGate_iff (gateGroups_bool (hne n ω)) (p := names.length) (by simp) (basis := fun i j => bit (gr (ξ (W i ω)) j)) (fun i l => ?_) Φ]
  · have : List.map Prod.fst (List.map (fun g : String × (Fin n → Bool) => (g.1, GCol.bool g.2))
        (List.ofFn fun l : Fin names.length => (names[l], fun i : Fin n => gr (ξ (W i ω)) l))) = names := by
      rw [List.map_map, List.map_ofFn]
      exact List.ofFn_getElem ..
    rw [this]
  · unfold colMatrix
    simp [GCol.values, bit]
    rfl

/-- **C86, groups with a common effect.**  If the effect is `θ` throughout group `j`, `gate(groups)` estimates it.  Missing from the full
statement: the average effect of a group in which the effect varies, see `C86_gate_violated`. -/
theorem C86_gate_partial [IsProbabilityMeasure P] {ols : Ols} (hols : OlsSpec ols) (hiv : ∀ n, (k n).iv = false)
    (hcl : ∀ n, (k n).mClassifier = false) (hvars : ∀ n, (k n).vars = none)
    (hbin : ∀ᶠ n in atTop, ∀ ω, lookupKey tv (H.D n ω).binTreats = some false)
    (hstore : H.args.storePredictions = .bool true) {τ g m : 𝒳 → ℝ} (law : EffectLaw (P.map (W 0)) y d ξ τ g m)
    (hL : PlrRates H (fun x => τ x * m x + g x) m) {names : List String} (hnames : names.Nodup) {gr : 𝒳 → Fin names.length → Bool}
    (hgr : ∀ j, Measurable fun u => gr u j) (hex : ∀ u j l, gr u j = true → gr u l = true → j = l)
    (hpos : ∀ j, 0 < ∫ w in {w | gr (ξ w) j = true}, (d w - m (ξ w)) ^ 2 ∂(P.map (W 0))) (j : Fin names.length) {θ σ : ℝ}
    (hθ : ∀ w, gr (ξ w) j = true → τ (ξ w) = θ)
    (hσ : 0 < σ) (hV : σ ^ 2 = (∫ w in {w | gr (ξ w) j = true}, ((d w - m (ξ w)) * (y w - θ * d w - g (ξ w))) ^ 2 ∂(P.map (W 0))) /
      (∫ w in {w | gr (ξ w) j = true}, (d w - m (ξ w)) ^ 2 ∂(P.map (W 0))) ^ 2) :
    GateLimit P (fun n ω => IsPlrGate ols false (H.fitted n ω)
      (boolFrame (List.ofFn fun l => (names[l], fun i : Fin n => gr (ξ (W i ω)) l)))) names j θ σ := by
  have hs : MeasurableSet {w | gr (ξ w) j = true} := (hgr j).comp law.measX (measurableSet_singleton true)
  refine C86_gate_weighted hols hiv hcl hvars hbin hstore law hL hnames hgr hex hpos j ?_ hσ ?_
  · rw [setIntegral_congr_fun (g := fun w => θ * (d w - m (ξ w)) ^ 2) hs fun w hw => by simp only [hθ _ hw], integral_const_mul,
      mul_div_cancel_right₀ _ (hpos j).ne']
  · rw [hV]
    congr 1
    refine setIntegral_congr_fun hs fun w hw => ?_
    simp only [hθ _ hw]
    ring

end Plr

end DML
