import Verif.LimitLearn
import Verif.LimitNorm

/-!
# Large samples: a sequence of studies

Models fitted to the first `n` observations of a sequence of independent and identically distributed observations.
-/

namespace DML

open MeasureTheory ProbabilityTheory Filter Topology
open scoped ENNReal

variable {Ω : Type*} {mΩ : MeasurableSpace Ω} {S : Type*} [MeasurableSpace S] {𝒳 : Type*} [MeasurableSpace 𝒳] {Q : Type}

/-- Model objects of the classes `sp n` on the first `n` observations of the sequence `W` of independent observations with
the same distribution: outcome `y`, one treatment `d` (called `tv`), covariates `ξ` whose columns are given by `enc`.  The
sample splits are set without looking at the data, except that they may depend on strata `St` of the observations over which
they are balanced; the hyper-parameters are set without looking at the data; `fit` is called without external predictions. -/
structure Study (E : Ext) (P : Measure Ω) (W : ℕ → Ω → S) (r K : ℕ) (sp : ∀ n, LinSpec n Q) (tv : String) (y d : S → ℝ)
    (ξ : S → 𝒳) (enc : 𝒳 → List Cell) where
  F : ∀ n, Ω → Frame n
  D : ∀ n, Ω → DataState n
  obj : ∀ n, Ω → LinState n Q
  args : FitArgs
  strata : ℕ
  St : S → Fin strata
  splits : ∀ n, (Fin n → Fin strata) → List (List (Fold n))
  par : ℕ → String → Option (List (Option (List Q)))
  iid : Iid P W
  reps : 0 < r
  folds : 0 < K
  measY : Measurable y
  measD : Measurable d
  measX : Measurable ξ
  measSt : Measurable St
  /-- the objects are built from the data and used in any way that leaves the data object alone -/
  reached : ∀ᶠ n in atTop, ∀ ω, Reached E (F n ω) (sp n) (D n ω) tv (obj n ω)
  smpls : ∀ᶠ n in atTop, ∀ ω, (obj n ω).smpls = some (splits n (strataOf St (sample W n ω)))
  split : ∀ᶠ n in atTop, ∀ ω, (splits n (strataOf St (sample W n ω))).length = r ∧
    ∀ T ∈ splits n (strataOf St (sample W n ω)), CrossSplit K T
  /-- the number of observations of a stratum in a test set differs by at most a constant from its proportional share -/
  balanced : ∃ C : ℝ, ∀ n α, ∀ T ∈ splits n α, ∀ f ∈ T, ∀ a : Fin strata,
    |(n : ℝ) * (f.test.filter fun i => decide (α i = a)).length - f.test.length * (Finset.univ.filter fun i => α i = a).card| ≤
      C * n
  params : ∀ᶠ n in atTop, ∀ ω, ∀ l ∈ (sp n).learners, (obj n ω).params l tv = par n l
  outcome : ∀ᶠ n in atTop, ∀ ω i, (D n ω).yv i = Cell.num (y (W i ω))
  treatment : ∀ᶠ n in atTop, ∀ ω i, (D n ω).dv i = Cell.num (d (W i ω))
  covariates : ∀ᶠ n in atTop, ∀ ω i, rowX (D n ω) i = enc (ξ (W i ω))
  valid : ∀ n m, ValidArgs (sp n) tv m args
  noExt : args.ext = .none

variable {E : Ext} {P : Measure Ω} {W : ℕ → Ω → S} {r K : ℕ} {sp : ∀ n, LinSpec n Q} {tv : String} {y d : S → ℝ} {ξ : S → 𝒳}
  {enc : 𝒳 → List Cell}

namespace Study

variable (H : Study E P W r K sp tv y d ξ enc)

/-- The cross-fitting scheme of repetition `q`. -/
noncomputable def scheme (q : Fin r) (n : ℕ) (α : Fin n → Fin H.strata) : Scheme K n := schemeAt H.folds (H.splits n α) q

/-- The splits of the first `n` observations. -/
def splitsAt (n : ℕ) (ω : Ω) : List (List (Fold n)) := H.splits n (strataOf H.St (sample W n ω))

/-- The fold of an observation in repetition `q`. -/
noncomputable def foldOf (q : Fin r) (n : ℕ) (ω : Ω) (i : Fin n) : Fin K :=
  (H.scheme q n (strataOf H.St (sample W n ω))).fold i

/-- The fitted models. -/
noncomputable def fitted (n : ℕ) (ω : Ω) : LinState n Q := (fit (H.F n ω) (sp n) (H.obj n ω) H.args).1

/-- The nuisance functions a learner stored under the name `l` is fitted to in repetition `q`: target `u`, observations
satisfying `on`. -/
noncomputable def learned (L : ℕ → Learner Q (List Cell)) (m : Method) (l : String) (u : S → ℝ) (on : S → Prop)
    [DecidablePred on] (q : Fin r) (n : ℕ) (k : Fin K) (t : Fin n → S) (x : 𝒳) : ℝ :=
  nuis (L n) m (H.par n l) enc ξ u on (H.splits n (strataOf H.St t)) q k t x

/-- What is known about the estimation of one repetition. -/
structure Run (n : ℕ) (ω : Ω) (q : Fin r) (c : CellIn n Q) : Prop where
  src : CellFrom (H.F n ω) (sp n) (H.obj n ω) H.args.ext q 0 c
  treat : c.treat = tv
  data : c.data = H.D n ω
  noExt : ∀ l, c.extOf l = none
  cross : CrossSplit K c.smpls
  split : (H.splitsAt n ω)[(q : ℕ)]? = some c.smpls
  smpls : (H.obj n ω).smpls = some (H.splitsAt n ω)
  params : ∀ l ∈ (sp n).learners, (H.obj n ω).params l tv = H.par n l
  y : ∀ i, c.y i = y (W i ω)
  d : ∀ i, c.d i = d (W i ω)
  x : ∀ i, rowX c.data i = enc (ξ (W i ω))

variable {H}

theorem honest {L : ℕ → Learner Q (List Cell)} {m : Method} (hL : ∀ n, MeasLearner (L n) m enc) (l : String) {u : S → ℝ}
    (hu : Measurable u) {on : S → Prop} [DecidablePred on] (hon : MeasurableSet {w | on w}) (q : Fin r) :
    Honest ξ H.St (H.scheme q) (H.learned L m l u on q) := by
  refine ⟨fun n k => ?_, fun n k t t' hs ht => ?_⟩
  · have h1 : Measurable fun z : (Fin n → Fin H.strata) × ((Fin n → S) × 𝒳) =>
        nuis (L n) m (H.par n l) enc ξ u on (H.splits n z.1) q k z.2.1 z.2.2 :=
      measurable_from_prod_countable_right fun α => fitted_meas (hL n) H.measX hu hon
        (parAt (H.par n l) q k) (trainOf (splitAt K (H.splits n α) q) k)
    have hA : Measurable fun z : (Fin n → S) × 𝒳 => strataOf H.St z.1 :=
      measurable_pi_lambda _ fun j => H.measSt.comp ((measurable_pi_apply j).comp measurable_fst)
    exact h1.comp (hA.prodMk measurable_id)
  · have h1 := fitted_uses (L := L n) (m := m) (enc := enc) (ξ := ξ) (y := u) (on := on) (parAt (H.par n l) q k)
      (trainOf (splitAt K (H.splits n (strataOf H.St t)) q) k) t t' ht
    funext w
    have h2 := congrFun h1 w
    show nuis (L n) m (H.par n l) enc ξ u on (H.splits n (strataOf H.St t)) q k t (ξ w) =
      nuis (L n) m (H.par n l) enc ξ u on (H.splits n (strataOf H.St t')) q k t' (ξ w)
    rw [← hs]
    exact h2

theorem balancedScheme (q : Fin r) : StrataBalanced (H.scheme q) := by
  obtain ⟨C, hC⟩ := H.balanced
  exact strataBalanced_of H.folds hC q

/-- The predictions of a fit are the values of the learned functions. -/
theorem Run.pred {n : ℕ} {ω : Ω} {q : Fin r} {c : CellIn n Q} (h : H.Run n ω q c) {l : String} (hl : l ∈ (sp n).learners)
    {L : ℕ → Learner Q (List Cell)} {m : Method} {u : S → ℝ} {on : S → Prop} [DecidablePred on] {on' : Fin n → Prop}
    [DecidablePred on'] {u' : Fin n → ℝ} {post : ℝ → ℝ} {p : NV n} (hp : FoldRule c l (L n) m on' (rowX c.data) u' post p)
    (hon : ∀ i : Fin n, on' i ↔ on (W i ω)) (hu : ∀ i : Fin n, u' i = u (W i ω))
    (hseen : ∀ f ∈ c.smpls, ClassesSeen (L n) m u' (f.train.filter fun j => decide (on' j)))
    (i : Fin n) :
    (p i).getD 0 = post (H.learned L m l u on q n (H.foldOf q n ω i) (sample W n ω) (ξ (W i ω))) := by
  have := hp.nuis H.folds h.src hl h.smpls h.split h.cross (t := sample W n ω) (enc := enc) (ξ := ξ) (y := u) (on := on)
    hon h.x hu hseen i
  rw [this, h.treat, h.params l hl]
  rfl

/-- The same for regressors. -/
theorem Run.predict {n : ℕ} {ω : Ω} {q : Fin r} {c : CellIn n Q} (h : H.Run n ω q c) {l : String} (hl : l ∈ (sp n).learners)
    {L : ℕ → Learner Q (List Cell)} {u : S → ℝ} {on : S → Prop} [DecidablePred on] {on' : Fin n → Prop}
    [DecidablePred on'] {u' : Fin n → ℝ} {post : ℝ → ℝ} {p : NV n} (hp : FoldRule c l (L n) .predict on' (rowX c.data) u' post p)
    (hon : ∀ i : Fin n, on' i ↔ on (W i ω)) (hu : ∀ i : Fin n, u' i = u (W i ω)) (i : Fin n) :
    (p i).getD 0 = post (H.learned L .predict l u on q n (H.foldOf q n ω i) (sample W n ω) (ξ (W i ω))) :=
  h.pred hl hp hon hu (fun _ _ h => by cases h) i

/-- From regular components of the scores to the large-sample properties of the fitted models and their influence function. -/
theorem asympArrayBoth [IsProbabilityMeasure P] {a b : Fin r → ∀ n, Ω → Fin n → ℝ} {a0 b0 : S → ℝ} {θ : ℝ}
    (hreg : ∀ q, RegularArray P W (a q) (b q) a0 b0 θ) (hv : ∫ w, (a0 w * θ + b0 w) ^ 2 ∂(P.map (W 0)) ≠ 0)
    (husual : ∀ n, UsualVsf (sp n)) (hvars : ∀ n, (sp n).vars = none) {bad : ℕ → Set Ω}
    (hbad : Tendsto (fun n => P (bad n)) atTop (𝓝 0))
    (hok : ∀ᶠ n in atTop, ∀ ω, ω ∉ bad n → (fit (H.F n ω) (sp n) (H.obj n ω) H.args).2 = .ok ())
    (hcell : ∀ᶠ n in atTop, ∀ ω, ω ∉ bad n → ∀ q c o, H.Run n ω q c → (sp n).est c = .ok o →
      o.fit.coef = repCoef (a q n ω) (b q n ω) ∧ o.fit.se = repSe (a q n ω) (b q n ω) ∧
      o.fit.scaledPsi = repPsi (a q n ω) (b q n ω)) :
    AsympValid E P W r H.fitted θ (asySd (P.map (W 0)) a0 b0 θ) ∧
      AsympLinear P W r (fun n ω => (H.fitted n ω).fw?) θ (asyInf (P.map (W 0)) a0 b0 θ) := by
  refine asympValid_of H.iid H.reps hreg hv husual hvars hbad ?_
  filter_upwards [H.reached, H.smpls, H.split, H.params, H.outcome, H.treatment, H.covariates, hok, hcell]
    with n h1 h2 h3 h4 h5 h6 h7 h8 h9 ω hω
  obtain ⟨g1, g2⟩ := (h1 ω).ready (hvars n)
  have hd : (H.obj n ω).data.d = [tv] := by rw [g2]; exact (h1 ω).1
  have hrep : (H.obj n ω).nRep = r := (g1.split _ (h2 ω)).1.symm.trans (h3 ω).1
  refine ⟨g1.shaped, hrep, by rw [hd]; rfl, h8 ω hω, fun q c o hc ho => h9 ω hω q c o ?_ ho⟩
  have ht : c.treat = tv := by
    have := hc.treat
    rw [hd] at this
    exact (Option.some.inj this).symm
  have hdata : c.data = H.D n ω := by
    rw [hc.data, g2]
    unfold activeData
    rw [if_neg (by rw [(h1 ω).1]; simp)]
  have hsm : (H.splitsAt n ω)[(q : ℕ)]? = some c.smpls := by
    obtain ⟨l, e1, e2⟩ := hc.smpls
    rw [h2 ω] at e1
    have e3 : H.splitsAt n ω = l := Option.some.inj e1
    rw [e3]
    exact e2
  refine ⟨hc, ht, hdata, fun l => ?_, (h3 ω).2 _ (List.mem_of_getElem? hsm), hsm, h2 ω, h4 ω, fun i => ?_, fun i => ?_, fun i => ?_⟩
  · rw [H.noExt] at hc
    exact extOf_none hc l
  · show (c.data.yv i).val = _
    rw [hdata, h5 ω i]
    rfl
  · show (c.data.dv i).val = _
    rw [hdata, h6 ω i]
    rfl
  · rw [hdata, h7 ω i]

/-- The same without the influence function: from regular components to the large-sample properties of the fitted models. -/
theorem asympArray [IsProbabilityMeasure P] {a b : Fin r → ∀ n, Ω → Fin n → ℝ} {a0 b0 : S → ℝ} {θ : ℝ}
    (hreg : ∀ q, RegularArray P W (a q) (b q) a0 b0 θ) (hv : ∫ w, (a0 w * θ + b0 w) ^ 2 ∂(P.map (W 0)) ≠ 0)
    (husual : ∀ n, UsualVsf (sp n)) (hvars : ∀ n, (sp n).vars = none) {bad : ℕ → Set Ω}
    (hbad : Tendsto (fun n => P (bad n)) atTop (𝓝 0))
    (hok : ∀ᶠ n in atTop, ∀ ω, ω ∉ bad n → (fit (H.F n ω) (sp n) (H.obj n ω) H.args).2 = .ok ())
    (hcell : ∀ᶠ n in atTop, ∀ ω, ω ∉ bad n → ∀ q c o, H.Run n ω q c → (sp n).est c = .ok o →
      o.fit.coef = repCoef (a q n ω) (b q n ω) ∧ o.fit.se = repSe (a q n ω) (b q n ω) ∧
      o.fit.scaledPsi = repPsi (a q n ω) (b q n ω)) :
    AsympValid E P W r H.fitted θ (asySd (P.map (W 0)) a0 b0 θ) :=
  (H.asympArrayBoth hreg hv husual hvars hbad hok hcell).1

/-- From regular scores to the large-sample properties of the fitted models. -/
theorem asympBoth [IsProbabilityMeasure P] {a b : Fin r → ∀ n, Fin K → (Fin n → S) → S → ℝ} {a0 b0 : S → ℝ} {θ : ℝ}
    (hreg : ∀ q, RegularScore P W H.St K (H.scheme q) (a q) (b q) a0 b0 θ) (hv : ∫ w, (a0 w * θ + b0 w) ^ 2 ∂(P.map (W 0)) ≠ 0)
    (husual : ∀ n, UsualVsf (sp n)) (hvars : ∀ n, (sp n).vars = none) {bad : ℕ → Set Ω}
    (hbad : Tendsto (fun n => P (bad n)) atTop (𝓝 0))
    (hok : ∀ᶠ n in atTop, ∀ ω, ω ∉ bad n → (fit (H.F n ω) (sp n) (H.obj n ω) H.args).2 = .ok ())
    (hcell : ∀ᶠ n in atTop, ∀ ω, ω ∉ bad n → ∀ q c o, H.Run n ω q c → (sp n).est c = .ok o →
      o.fit.coef = repCoef (crossVal H.St (H.scheme q) (a q) W n ω) (crossVal H.St (H.scheme q) (b q) W n ω) ∧
      o.fit.se = repSe (crossVal H.St (H.scheme q) (a q) W n ω) (crossVal H.St (H.scheme q) (b q) W n ω) ∧
      o.fit.scaledPsi = repPsi (crossVal H.St (H.scheme q) (a q) W n ω) (crossVal H.St (H.scheme q) (b q) W n ω)) :
    AsympValid E P W r H.fitted θ (asySd (P.map (W 0)) a0 b0 θ) ∧
      AsympLinear P W r (fun n ω => (H.fitted n ω).fw?) θ (asyInf (P.map (W 0)) a0 b0 θ) := by
  exact H.asympArrayBoth (fun q => (hreg q).array H.iid) hv husual hvars hbad hok hcell

/-- From regular scores to the large-sample properties of the fitted models. -/
theorem asymp [IsProbabilityMeasure P] {a b : Fin r → ∀ n, Fin K → (Fin n → S) → S → ℝ} {a0 b0 : S → ℝ} {θ : ℝ}
    (hreg : ∀ q, RegularScore P W H.St K (H.scheme q) (a q) (b q) a0 b0 θ) (hv : ∫ w, (a0 w * θ + b0 w) ^ 2 ∂(P.map (W 0)) ≠ 0)
    (husual : ∀ n, UsualVsf (sp n)) (hvars : ∀ n, (sp n).vars = none) {bad : ℕ → Set Ω}
    (hbad : Tendsto (fun n => P (bad n)) atTop (𝓝 0))
    (hok : ∀ᶠ n in atTop, ∀ ω, ω ∉ bad n → (fit (H.F n ω) (sp n) (H.obj n ω) H.args).2 = .ok ())
    (hcell : ∀ᶠ n in atTop, ∀ ω, ω ∉ bad n → ∀ q c o, H.Run n ω q c → (sp n).est c = .ok o →
      o.fit.coef = repCoef (crossVal H.St (H.scheme q) (a q) W n ω) (crossVal H.St (H.scheme q) (b q) W n ω) ∧
      o.fit.se = repSe (crossVal H.St (H.scheme q) (a q) W n ω) (crossVal H.St (H.scheme q) (b q) W n ω) ∧
      o.fit.scaledPsi = repPsi (crossVal H.St (H.scheme q) (a q) W n ω) (crossVal H.St (H.scheme q) (b q) W n ω)) :
    AsympValid E P W r H.fitted θ (asySd (P.map (W 0)) a0 b0 θ) :=
  (H.asympBoth hreg hv husual hvars hbad hok hcell).1

end Study

end DML
