import Verif.JointProps
import Verif.MultiFitProps
import Verif.StudyCreated
import Verif.AsymptoticIrmProps

/-! # Joint confidence intervals of `DoubleMLAPOS` objects (C84)

The sub-models of a `DoubleMLAPOS` object (`apoCreate`, Verif/Multi.lean) are objects in the sense of `Study` (Verif/Study.lean), and
so `C84_apos` and `C84_contrast` hold for average potential outcomes under the assumptions of `C79_apo` at every level.
Nothing here models code of the package beyond the definitions of the imported files. -/

namespace DML

open MeasureTheory Filter Topology

variable {Ω S 𝒳 Q : Type} [MeasurableSpace Ω] [MeasurableSpace S] [MeasurableSpace 𝒳] {P : Measure Ω} {W : ℕ → Ω → S} {r K p : ℕ} {E : Ext}
  {tv : String} {y d : S → ℝ} {ξ : S → 𝒳} {enc : 𝒳 → List Cell}

/-- The sub-models of a created object: their split is the one drawn by the object. -/
theorem initSub_drawn {M : Type} {n : ℕ} (E : Ext) (F : Frame n) {D : DataState n} (hd : D.d = [tv]) {c : SubClass n Q M} (hv : c.spec.vars = none)
    {w w' : Draws n} {S : List (List IdxPair)} (hS : multiDraw K r w = .ok S) (hw : ∀ q i, w.assign q i < K) {m : MState n Q M}
    (h : initSub D w' K r S c = .ok m) :
    Reached E F c.spec D tv m ∧ m.smpls = some ((List.range r).map fun q => assignFolds K (w.assign q)) ∧
      m.params = initParams c.spec.learners [tv] r := by
  obtain ⟨a1, a2, a3, a4, a5, a6, a7⟩ := multiDraw_ok hS
  have h0 : S ≠ [] := fun h => by rw [h] at a4; simp at a4; omega
  have hacc := nested_accepted h0 (by omega) a5 a6 a7
  refine ⟨⟨hd, (initSub_reached E F h).1⟩, ?_⟩
  unfold initSub at h
  obtain ⟨s, hs, h⟩ := bind_ok h
  obtain ⟨-, -, h⟩ := bind_ok h
  have hdata : s.data = D := by
    rw [initModel_irrel _ _ _ _ _ w' (firstFold n)] at hs
    refine (initModel_ready hv hs fun K' hK' r i => ?_).2
    obtain rfl : (K : ℤ) = K' := Option.some.inj hK'
    show ((0 : ℕ) : ℤ) < K
    omega
  unfold syncSplit at h
  rcases hq : setSampleSplitting c.spec s (nestedSplit S) none with ⟨t, (e | u)⟩
  · rw [hq] at h; cases h
  rw [hq] at h
  obtain rfl := Except.ok.inj h
  obtain ⟨l, nr, nf, cl, g1, -, g3⟩ := setSampleSplitting_ok (by rw [hq])
  rw [hq] at g3
  rw [hacc] at g1
  obtain ⟨rfl, rfl, rfl⟩ : S = l ∧ S.length = nr ∧ K = nf := by simpa using Except.ok.inj g1
  have g3' : t = _ := g3
  subst g3'
  refine ⟨?_, ?_⟩
  · show some (S.map fun r => r.map (toFold : IdxPair → Fold n)) = _
    rw [a3, List.map_map]
    refine congrArg some (List.map_congr_left fun q _ => ?_)
    show ((assignFolds K fun i => w.assign q i % K).map Fold.idx).map toFold = _
    rw [List.map_map, show (toFold ∘ Fold.idx : Fold n → Fold n) = id from funext toFold_idx, List.map_id]
    congr 1
    funext i
    exact Nat.mod_eq_of_lt (hw q i)
  · show initParams c.spec.learners s.data.d S.length = _
    rw [hdata, hd, a4]

/-- The sub-models of a created `DoubleMLAPOS` object. -/
theorem apoCreate_drawn {M : Type} {n : ℕ} (E : Ext) (F : Frame n) {D : DataState n} (hd : D.d = [tv]) {c : Fin p → SubClass n Q M}
    (hv : ∀ j, (c j).spec.vars = none) {w : Draws n} (hw : ∀ q i, w.assign q i < K) {s : Multi n Q M}
    (h : apoCreate (List.ofFn c) D K r true w = .ok s) {m : Fin p → MState n Q M} (hs : s.subs = some (List.ofFn m)) (j : Fin p) :
    Reached E F (c j).spec D tv (m j) ∧ (m j).smpls = some ((List.range r).map fun q => assignFolds K (w.assign q)) ∧
      (m j).params = initParams (c j).spec.learners [tv] r := by
  unfold apoCreate apoDraw setDrawn at h
  rw [if_pos rfl] at h
  cases hS : multiDraw K r w with
  | error e =>
    rw [show multiDraw (multiEmpty (n := n) (P := Q) (M := M) K r).nFolds (multiEmpty (n := n) (P := Q) (M := M) K r).nRep w = .error e from hS] at h
    cases h
  | ok S =>
    rw [show multiDraw (multiEmpty (n := n) (P := Q) (M := M) K r).nFolds (multiEmpty (n := n) (P := Q) (M := M) K r).nRep w = .ok S from hS] at h
    dsimp only at h
    unfold reinit initSubs at h
    dsimp only at h
    cases hm : (List.ofFn c).mapM (initSub D w (multiEmpty (n := n) (P := Q) (M := M) K r).nFolds (multiEmpty (n := n) (P := Q) (M := M) K r).nRep S) with
    | error e => rw [hm] at h; cases h
    | ok l =>
      rw [hm] at h
      obtain rfl := Except.ok.inj h
      obtain rfl := Option.some.inj hs
      obtain ⟨x, hx, hx'⟩ := mapM_getElem? hm (i := j) (b := m j) (by simp)
      obtain rfl : c j = x := by simpa using hx
      exact initSub_drawn E F hd (hv j) hS hw hx'

/-- The sub-models of created `DoubleMLAPOS` objects, drawn within the strata `St`, as a `Study`. -/
noncomputable def Study.ofApos (E : Ext) (hW : Iid P W) (hK : 2 ≤ K) (hr : 0 < r) {c : Fin p → ∀ n, SubClass n Q (Option (List (FittedModel Q (List Cell))))}
    (hv : ∀ j n, (c j n).spec.vars = none) (F : ∀ n, Ω → Frame n) {D : ∀ n, Ω → DataState n} (hD : Holds W tv y d ξ enc D)
    {s : ℕ} {St : S → Fin s} (hSt : Measurable St) {w : ∀ n, (Fin n → Fin s) → Draws n}
    (hw : ∀ n α q, EvenDraw K α ((w n α).assign q)) {o : ∀ n, Ω → Multi n Q (Option (List (FittedModel Q (List Cell))))}
    (ho : ∀ᶠ n in atTop, ∀ ω, apoCreate (List.ofFn fun j => c j n) (D n ω) K r true (w n (strataOf St (sample W n ω))) = .ok (o n ω))
    {m : Fin p → ∀ n, Ω → LinState n Q} (hm : ∀ n ω, (o n ω).subs = some (List.ofFn fun j => m j n ω))
    {args : FitArgs} (ha : ∀ j n m, ValidArgs (c j n).spec tv m args) (hx : args.ext = .none) (j : Fin p) :
    Study E P W r K (fun n => (c j n).spec) tv y d ξ enc where
  F := F
  D := D
  obj := m j
  args := args
  strata := s
  St := St
  splits := fun n α => (List.range r).map fun q => assignFolds K ((w n α).assign q)
  par := fun n l => initParams (c j n).spec.learners [tv] r l tv
  iid := hW
  reps := hr
  folds := by omega
  measY := hD.measY
  measD := hD.measD
  measX := hD.measX
  measSt := hSt
  reached := by
    filter_upwards [ho] with n h ω
    exact (apoCreate_drawn E (F n ω) (hD.treats n ω) (fun j => hv j n) (fun q i => (hw n _ q).1 i) (h ω) (hm n ω) j).1
  smpls := by
    filter_upwards [ho] with n h ω
    exact (apoCreate_drawn E (F n ω) (hD.treats n ω) (fun j => hv j n) (fun q i => (hw n _ q).1 i) (h ω) (hm n ω) j).2.1
  split := by
    refine Eventually.of_forall fun n ω => ⟨by simp, fun T hT => ?_⟩
    obtain ⟨q, -, rfl⟩ := List.mem_map.1 hT
    exact crossSplit_assign (hw n _ q).1
  balanced := balanced_assign hK hw
  params := by
    filter_upwards [ho] with n h ω l _
    rw [(apoCreate_drawn E (F n ω) (hD.treats n ω) (fun j => hv j n) (fun q i => (hw n _ q).1 i) (h ω) (hm n ω) j).2.2]
  outcome := Eventually.of_forall hD.outcome
  treatment := Eventually.of_forall hD.treatment
  covariates := Eventually.of_forall hD.covariates
  valid := ha j
  noExt := hx

/-! ## The models of the levels -/

/-- The assumptions of `C79_apo` at level `v`: the settings of the class, overlap, and learners that converge fast enough. -/
structure ApoLevel [IsProbabilityMeasure P] {k : ∀ n, ApoClass n Q} (H : Study E P W r K (fun n => apoSpec (k n)) tv y d ξ enc) (τ v : ℝ)
    (g m : 𝒳 → ℝ) (θ : ℝ) : Prop where
  level : ∀ n, (k n).level = v
  regression : ∀ n, (k n).gClassifier = false
  plain : ∀ n, (k n).normalize = false
  trimT : ∀ n, (k n).trimT = τ
  vars : ∀ n, (k n).vars = none
  weights : ∀ n q, (k n).weights.at q = .ok (fun _ : Fin n => 1, fun _ => 1)
  compliant : ∀ n, (k n).ml_m.Compliant
  notBinary : ∀ᶠ n in atTop, ∀ ω, (H.D n ω).binOut = false
  both : Tendsto (fun n => P (Lacking H (fun _ => True) (atLevel d v) n)) atTop (𝓝 0)
  law : ArmLaw (P.map (W 0)) y (atLevel d v) ξ g m τ 4
  overlap : ∀ x, m x ≤ 1 - τ
  param : θ = ∫ w, g (ξ w) ∂(P.map (W 0))
  var : ∫ w, (g (ξ w) + atLevel d v w * (y w - g (ξ w)) / m (ξ w) - θ) ^ 2 ∂(P.map (W 0)) ≠ 0
  rates : ApoRates H v g m

/-- The signal of the average potential outcome at level `v`. -/
noncomputable def apoSignal (y d : S → ℝ) (ξ : S → 𝒳) (v : ℝ) (g m : 𝒳 → ℝ) (w : S) : ℝ :=
  g (ξ w) + atLevel d v w * (y w - g (ξ w)) / m (ξ w)

variable [IsProbabilityMeasure P] {k : Fin p → ∀ n, ApoClass n Q} {H : ∀ j, Study E P W r K (fun n => apoSpec (k j n)) tv y d ξ enc}
  {τ v : Fin p → ℝ} {g m : Fin p → 𝒳 → ℝ} {θ : Fin p → ℝ}

/-- The sub-models of a `DoubleMLAPOS` object have influence functions. -/
theorem apo_subs (hH : ∀ j, ApoLevel (H j) (τ j) (v j) (g j) (m j) (θ j)) {F : ∀ n, Ω → Frame n} (hF : ∀ j, (H j).F = F) {a : FitArgs}
    (ha : ∀ j, (H j).args = a) {chk : Fin p → ℕ → ℕ → Except Exc Unit} :
    SubsLinear P W r F (fun j n => ⟨apoSpec (k j n), 0, chk j n⟩) (fun j => (H j).obj) a θ fun j w =>
      θ j - apoSignal y d ξ (v j) (g j) (m j) w where
  fits := fun j => ⟨_, (hH j).both, by
    have := apo_fits (hH j).level (hH j).regression (hH j).vars (hH j).weights (hH j).compliant (hH j).notBinary
    rw [hF j, ha j] at this
    exact this⟩
  linear := fun j => by
    have := (apo_valid_linear (hH j).level (hH j).regression (hH j).plain (hH j).trimT (hH j).vars (hH j).weights (hH j).compliant
      (hH j).notBinary (hH j).both (hH j).law (hH j).overlap (hH j).param (hH j).var (hH j).rates).2
    unfold Study.fitted at this
    rw [hF j, ha j] at this
    exact this

/-- The classes of the sub-models meet the assumptions of `C48_contrasts`. -/
theorem apo_plain {n : ℕ} {k : ApoClass n Q} (hv : k.vars = none) (chk : ℕ → Except Exc Unit) :
    PlainClass (n : ℝ) (⟨apoSpec k, 0, chk⟩ : SubClass n Q (Option (List (FittedModel Q (List Cell))))) :=
  ⟨hv, rfl, fun x o hx ho => by
    rw [LinearScoreClass.usualVsf (.apo k) x o ho, hx]
    rfl⟩

/-- **C84, `DoubleMLAPOS`.** Under the assumptions of `C79_apo` at every level: after `fit` and `bootstrap`, the intervals of
`confint(joint=True)` cover all average potential outcomes with probability tending to the level. -/
theorem C84_apo_levels {L : Type} [DecidableEq L] (hW : Iid P W) (hr : 0 < r) (hp : 0 < p)
    (hH : ∀ j, ApoLevel (H j) (τ j) (v j) (g j) (m j) (θ j)) {F : ∀ n, Ω → Frame n} (hF : ∀ j, (H j).F = F) {a : FitArgs}
    (hx : a.ext = .none) (ha : ∀ j, (H j).args = a) {chk : Fin p → ℕ → ℕ → Except Exc Unit} {levels : List L} (hl : levels.length = p)
    {o : ∀ n, Ω → Multi n Q (Option (List (FittedModel Q (List Cell))))} (ho : ∀ n ω, (o n ω).subs = some (List.ofFn fun j => (H j).obj n ω))
    {B : ℕ → ℕ} (hB : Tendsto B atTop atTop) {l : ℝ} (h0 : 0 < l) (h1 : l < 1) :
    ProbTends (P.prod normalDraws) (fun n => {z | ∃ cis,
      multiJointCis E (apoFit (F n z.1) levels tv (List.ofFn fun j => ⟨apoSpec (k j n), 0, chk j n⟩) (o n z.1) a .none).1 (B n) z.2 l =
        .ok (.cis cis) ∧ Covers cis θ}) l :=
  C84_apos hW hr hp hx (apo_subs hH hF ha) hl ho hB h0 h1

/-- **C84, causal contrasts.** The same for the joint intervals of `causal_contrast`, if the signals of any two levels differ: they cover
all differences of average potential outcomes from the reference levels. -/
theorem C84_apo_contrasts {L : Type} [DecidableEq L] (hW : Iid P W) (hr : 0 < r) (hp : p ≠ 1)
    (hH : ∀ j, ApoLevel (H j) (τ j) (v j) (g j) (m j) (θ j)) {F : ∀ n, Ω → Frame n} (hF : ∀ j, (H j).F = F) {a : FitArgs}
    (hx : a.ext = .none) (ha : ∀ j, (H j).args = a) {chk : Fin p → ℕ → ℕ → Except Exc Unit} {levels : List L} (hl : levels.length = p)
    (hnd : levels.Nodup) {o : ∀ n, Ω → Multi n Q (Option (List (FittedModel Q (List Cell))))}
    (ho : ∀ n ω, (o n ω).subs = some (List.ofFn fun j => (H j).obj n ω)) {refs : RefArg L} (hrefs : refs.list ≠ []) (hsub : refs.list ⊆ levels)
    (hv : ∀ i j : Fin p, i ≠ j → ∫ w, ((apoSignal y d ξ (v i) (g i) (m i) w - θ i) - (apoSignal y d ξ (v j) (g j) (m j) w - θ j)) ^ 2
      ∂(P.map (W 0)) ≠ 0) (str : L → String) {B : ℕ → ℕ} (hB : Tendsto B atTop atTop) {l : ℝ} (h0 : 0 < l) (h1 : l < 1) :
    ProbTends (P.prod normalDraws) (fun n => {z | ∃ C cis,
      causalContrast levels str (apoFit (F n z.1) levels tv (List.ofFn fun j => ⟨apoSpec (k j n), 0, chk j n⟩) (o n z.1) a .none).1 refs = .ok C ∧
      C.jointCis E (B n) z.2 l = .ok (.cis cis) ∧ cis.length = (contrastPairs levels refs.list []).length ∧
      ∀ (t : ℕ) (i j : Fin p), (contrastPairs levels refs.list [])[t]? = some ((i : ℕ), (j : ℕ)) →
        ∃ ci, cis[t]? = some ci ∧ ci.1 ≤ θ i - θ j ∧ θ i - θ j ≤ ci.2}) l := by
  refine C84_contrast hW hr (fun j n => apo_plain ((hH j).vars n) _) ?_ hx (apo_subs hH hF ha) hl hnd hp ho hrefs hsub (fun i j hij => ?_)
    str hB h0 h1
  · refine (eventually_all.2 fun j => ((H j).reached.and ((H j).smpls.and (H j).split))).mono fun n h j ω => ?_
    obtain ⟨e1, e2, e3⟩ := h j
    obtain ⟨g1, g2⟩ := (e1 ω).ready ((hH j).vars n)
    refine ⟨g1.shaped, ?_, (g1.split _ (e2 ω)).1.symm.trans (e3 ω).1⟩
    rw [g2, (e1 ω).1]
    rfl
  · have e : ∀ w, (θ i - apoSignal y d ξ (v i) (g i) (m i) w - (θ j - apoSignal y d ξ (v j) (g j) (m j) w)) ^ 2 =
        ((apoSignal y d ξ (v i) (g i) (m i) w - θ i) - (apoSignal y d ξ (v j) (g j) (m j) w - θ j)) ^ 2 := fun w => by ring
    simp only [e]
    exact hv i j hij

end DML
