import Verif.FitOkProps
import Verif.ConstructProps
import Verif.ReorderProps

/-!
# C63 for several treatments, binary treatments and binary outcomes

`FitOkProps` shows for every model class that a model with one treatment and a continuous outcome can be fitted.  Here are
the remaining cases.  Models with several treatments (`DoubleMLPLR`, `DoubleMLPLIV`) activate one treatment after the other.
For binary outcomes (IRM, APO, IIVM) and binary treatments (PLR) `fit` looks at the predictions and refuses those that are
all 0 or 1 (`_check_binary_predictions`, /repo/doubleml/utils/_checks.py:200-209): nothing else can go wrong, and with
learners that do not return labels the fit succeeds.
-/

namespace DML

open Finset

variable {n : ℕ} {P M : Type}

/-! ## Learners that do not return labels -/

/-- The learner never answers exactly 0 or 1: a classifier that returns probabilities of both classes, not labels. -/
def Learner.Soft (L : Learner P (List Cell)) (m : Method) : Prop := ∀ p T x v, L.answer m p T x = some v → v ≠ 0 ∧ v ≠ 1

/-- What `fit` asks of a learner used as a classifier (`b`): one column per class and both classes among the training
observations in `on` of every fold.  Nothing is asked of a regressor. -/
def Trains (L : Learner P (List Cell)) (b : Bool) (y : Fin n → ℝ) (S : List (Fold n)) (on : Fin n → Prop) : Prop :=
  b = true → L.Compliant ∧ BinaryTarget y ∧ EveryFold S on y

theorem Trains.method {L : Learner P (List Cell)} {b : Bool} {y : Fin n → ℝ} {S : List (Fold n)} {on : Fin n → Prop}
    (h : Trains L b y S on) : methodOf b = .proba → L.Compliant ∧ BinaryTarget y ∧ EveryFold S on y := by
  cases b with
  | false => intro q; cases q
  | true => intro _; exact h rfl

/-- All predictions are 0 or 1. -/
def Labels (p : NV n) : Prop := ∀ i, p i = some 0 ∨ p i = some 1

theorem checkBinaryPreds_or (p : NV n) :
    checkBinaryPreds p = .ok () ∨ checkBinaryPreds p = .error .valueError ∧ Labels p := by
  unfold checkBinaryPreds Labels
  split_ifs with h
  · exact .inr ⟨rfl, h⟩
  · exact .inl rfl

theorem checkOut_or (c : CellIn n P) (p : NV n) :
    checkOut c p = .ok () ∨ checkOut c p = .error .valueError ∧ c.data.binOut = true ∧ Labels p := by
  unfold checkOut
  split_ifs with h
  · rcases checkBinaryPreds_or p with h1 | ⟨h1, h2⟩
    · exact .inl h1
    · exact .inr ⟨h1, h, h2⟩
  · exact .inl rfl

/-- The predictions of a soft learner are not all labels. -/
theorem crossFit_soft {L : Learner P (List Cell)} {m : Method} {c : CellIn n P} {l : String} {x : Fin n → List Cell}
    {y : Fin n → ℝ} {S : List (Fold n)} {r : CvRes n P (List Cell)} (hn : 0 < n) (hS : FoldsOk S) (hL : L.Soft m)
    (hm : m = .proba → L.Compliant ∧ BinaryTarget y ∧ ∀ f ∈ S, BothClasses y f) (h : crossFit L m c l x y S = .ok r) :
    ¬ Labels r.preds := by
  intro hlab
  obtain ⟨⟨k, hk⟩, hi, -⟩ := C26_complete hS.partition ⟨0, hn⟩
  replace hi : (⟨0, hn⟩ : Fin n) ∈ S[k].test := hi
  unfold crossFit at h
  obtain ⟨p, v, h1, h2⟩ : ∃ p v, r.preds ⟨0, hn⟩ = some v ∧
      L.answer m p ((S[k].train).map fun j => (x j, y j)) (x ⟨0, hn⟩) = some v := by
    cases m with
    | predict =>
      refine ⟨_, _, C26_prediction_rule rfl hS.partition hS.nodup h k hk _ hi, rfl⟩
    | proba =>
      obtain ⟨g1, g2, g3⟩ := hm rfl
      obtain ⟨q1, q2⟩ := C26_prediction_rule_proba g1 rfl rfl g2 hS.partition h k hk _ hi (g3 _ (List.getElem_mem hk))
      obtain ⟨v, hv⟩ := Option.isSome_iff_exists.1 q1
      exact ⟨_, v, hv, q2.symm.trans hv⟩
  obtain ⟨h3, h4⟩ := hL _ _ _ _ h2
  rcases hlab ⟨0, hn⟩ with g | g
  · rw [h1] at g
    exact h3 (Option.some.inj g)
  · rw [h1] at g
    exact h4 (Option.some.inj g)

theorem condLearn_soft {L : Learner P (List Cell)} {b : Bool} {c : CellIn n P} {l : String} {x : Fin n → List Cell}
    {y : Fin n → ℝ} {on keep : Fin n → Prop} [DecidablePred on] [DecidablePred keep] {r : CvRes n P (List Cell)} (hn : 0 < n)
    (hS : FoldsOk c.smpls) (hL : L.Soft (methodOf b)) (hm : Trains L b y c.smpls on)
    (h : condLearn L (methodOf b) c l x y on keep = .ok r) : ¬ Labels r.preds := by
  obtain ⟨r', h1, rfl⟩ := condLearn_ok h
  refine crossFit_soft (r := r') hn ⟨?_, fun f hf => (condSmpls_mem hf).1⟩ hL (fun hq => ?_) h1
  · rw [isPartition_cond]
    exact hS.partition
  · obtain ⟨g1, g2, he⟩ := hm.method hq
    refine ⟨g1, g2, fun f hf => ?_⟩
    obtain ⟨-, g, hg, hfg⟩ := condSmpls_mem hf
    obtain ⟨⟨j0, h0, h0', h0''⟩, j1, h1, h1', h1''⟩ := he g hg
    exact ⟨⟨j0, (hfg j0).2 ⟨h0, h0'⟩, h0''⟩, j1, (hfg j1).2 ⟨h1, h1'⟩, h1''⟩

theorem learn_soft {L : Learner P (List Cell)} {b : Bool} {c : CellIn n P} {l : String} {y : Fin n → ℝ}
    {r : CvRes n P (List Cell)} (hn : 0 < n) (hS : FoldsOk c.smpls) (hL : L.Soft (methodOf b))
    (hm : Trains L b y c.smpls fun _ => True) (h : learn L (methodOf b) c l y = .ok r) : ¬ Labels r.preds := by
  refine crossFit_soft hn hS hL (fun hq => ?_) (learn_ok h)
  obtain ⟨g1, g2, he⟩ := hm.method hq
  refine ⟨g1, g2, fun f hf => ?_⟩
  obtain ⟨⟨j0, h0, -, h0''⟩, j1, h1, -, h1''⟩ := he f hf
  exact ⟨⟨j0, h0, h0''⟩, j1, h1, h1''⟩

/-! ## External predictions that are not labels -/

/-- The predictions supplied for learner `l` and treatment `tv` are not all 0 or 1, in every repetition. -/
def ExtArg.SoftFor (e : ExtArg) (n nRep : ℕ) (tv l : String) : Prop :=
  ∀ r q A, e.supplied tv l = some (.arr2 r q A) → ∀ k < nRep, ∃ i : Fin n, A i k ≠ 0 ∧ A i k ≠ 1

theorem extSoft {e : ExtArg} {nRep : ℕ} {tv l : String} {learners : List String} {k : ℕ} (hk : k < nRep)
    (hs : e.SoftFor n nRep tv l) {x : List (String × Option (Fin n → ℝ))} (he : setExt n e learners tv k = .ok x)
    {v : Fin n → ℝ} (hv : (lookupKey l x).join = some v) : ¬ ∀ i, v i = 0 ∨ v i = 1 := by
  have hx : x = learners.map fun l => (l, (e.supplied tv l).bind (extColumn n k)) := by
    refine mapM_ok_map he fun l _ b hb => ?_
    cases e with
    | none => rw [← Except.ok.inj hb]; rfl
    | notDict => cases hb
    | dict items =>
      dsimp only at hb
      cases hi : lookupKey tv items with
      | none => rw [hi] at hb; cases hb
      | some w =>
        rw [hi] at hb
        cases w with
        | notDict => cases hb
        | dict inner =>
          rw [← Except.ok.inj hb]
          simp only [ExtArg.supplied, hi]
  have hmem : (l, some v) ∈ x := by
    apply lookupKey_mem
    cases hq : lookupKey l x with
    | none => rw [hq] at hv; cases hv
    | some w => rw [hq] at hv; exact congrArg some hv
  rw [hx] at hmem
  obtain ⟨l', -, hl'⟩ := List.mem_map.1 hmem
  obtain ⟨rfl, h2⟩ := Prod.mk.inj hl'
  cases hq : e.supplied tv l' with
  | none => rw [hq] at h2; cases h2
  | some w =>
    rw [hq] at h2
    cases w with
    | arr2 r q A =>
      obtain ⟨i, h3, h4⟩ := hs r q A hq k hk
      obtain rfl : (fun i : Fin n => A i k) = v := Option.some.inj h2
      intro h5
      rcases h5 i with h6 | h6
      · exact h3 h6
      · exact h4 h6
    | _ => cases h2

/-! ## Any number of treatments -/

/-- Arguments of `fit` of the documented types for a model with the treatments `ds`: `n_jobs_cv` is `None` or an integer,
the two switches are booleans, external predictions are absent or a well-formed dictionary with an entry for every
treatment. -/
structure ValidArgsFor (sp : Spec n P M) (ds : List String) (nRep : ℕ) (a : FitArgs) : Prop where
  jobs : a.nJobs = .none ∨ ∃ k, a.nJobs.asInt = some k
  preds : ∃ b, a.storePredictions = .bool b
  models : ∃ b, a.storeModels = .bool b
  ext : a.ext = .none ∨ (sp.extImpl = true ∧ a.ext.WellFormed ds sp.learners n nRep ∧ ∀ tv ∈ ds, a.ext.Covers tv)

theorem ValidArgs.forOne {sp : Spec n P M} {tv : String} {nRep : ℕ} {a : FitArgs} (h : ValidArgs sp tv nRep a) :
    ValidArgsFor sp [tv] nRep a where
  jobs := h.jobs
  preds := h.preds
  models := h.models
  ext := h.ext.imp_right fun ⟨h1, h2, h3⟩ => ⟨h1, h2, fun tv' ht => by rw [List.mem_singleton.1 ht]; exact h3⟩

theorem ValidArgsFor.check {sp : Spec n P M} {s : MState n P M} {a : FitArgs} (h : ValidArgsFor sp s.data.d s.nRep a) :
    (∃ p m, checkFit sp s a = .ok (p, m)) ∧ ∀ tv ∈ s.data.d, a.ext.Covers tv := by
  have h1 : checkJobs a.nJobs = .ok () := by
    rcases h.jobs with h | ⟨k, h⟩
    · rw [h]; rfl
    · unfold checkJobs
      split
      · rfl
      · rw [h]
  obtain ⟨p, hp⟩ := h.preds
  obtain ⟨m, hm⟩ := h.models
  have h2 : checkFitExt sp s a.ext = .ok () := by
    unfold checkFitExt
    rcases h.ext with h | ⟨h, h', -⟩
    · rw [h]
      split_ifs with h3 h4
      · rfl
      · cases h4
      · rfl
    · rw [if_pos h]
      exact (C28_accepted_iff _ _ _ _ _).2 h'
  refine ⟨⟨p, m, ?_⟩, ?_⟩
  · simp only [checkFit, h1, hp, hm, checkBool, h2, bind, Except.bind, pure, Except.pure]
  · rcases h.ext with h | ⟨-, -, h⟩
    · rw [h]; exact fun _ _ => trivial
    · exact h

/-- The object `s` was created from the data `D`, with any number of treatments, and then went through any history of fits,
tuning, inference calls, draws, explicitly set splits and parameter assignments, some of which may have raised.  Stratified
draws assign every observation to one of the folds. -/
def ReachedFrom (E : Ext) (F : Frame n) (sp : Spec n P M) (D : DataState n) (s : MState n P M) : Prop :=
  ∃ start nf nr dr w s₀ os, initModel sp D start nf nr dr w = .ok s₀ ∧
    (∀ K, nf.asInt = some K → ∀ r i, (w.assign r i : ℤ) < K) ∧ PlainHistory E F sp s₀ os ∧ s = mrun E F sp s₀ os

theorem Reached.from {E : Ext} {F : Frame n} {sp : Spec n P M} {D : DataState n} {tv : String} {s : MState n P M}
    (h : Reached E F sp D tv s) : ReachedFrom E F sp D s := h.2

theorem ReachedFrom.ready {E : Ext} {F : Frame n} {sp : Spec n P M} (hv : sp.vars = none) {D : DataState n}
    {s : MState n P M} (h : ReachedFrom E F sp D s) : FitReady sp s ∧ SameData D s.data := by
  obtain ⟨start, nf, nr, dr, w, s₀, os, h1, h2, h3, rfl⟩ := h
  obtain ⟨g1, g2⟩ := initModel_ready hv h1 h2
  obtain ⟨g3, g4⟩ := mrun_ready E F hv g1 h3
  exact ⟨g3, g2 ▸ g4⟩

/-- Every treatment of the data object can be made the active one. -/
def Activates (F : Frame n) (D : DataState n) : Prop := 1 < D.d.length → ∀ tv ∈ D.d, ∃ D', setXD F D tv = .ok D'

theorem Activates.one {F : Frame n} {D : DataState n} {tv : String} (h : D.d = [tv]) : Activates F D := fun hl => by
  rw [h] at hl
  simp at hl

/-- The general statement: if every cell can be estimated or raises `e₀`, the fit succeeds or raises `e₀`. -/
theorem C63_of_cells_or {E : Ext} {F : Frame n} {sp : Spec n P M} (e₀ : Exc) (hv : sp.vars = none)
    (hsig : sp.sensImpl = true → ∀ c o, sp.est c = .ok o → 0 ≤ o.sens.sigma2) {D : DataState n}
    {s : MState n P M} (h : ReachedFrom E F sp D s) (hact : Activates F D) {L : List (List (Fold n))} (hL : s.smpls = some L)
    {a : FitArgs} (ha : ValidArgsFor sp D.d s.nRep a)
    (hcell : ∀ tv ∈ D.d, ∀ q S c, q < s.nRep → L[q]? = some S → FoldsOk S → CellOf (activeData F D tv) tv q S c →
      setExt n a.ext sp.learners tv q = .ok c.ext → (∃ o, sp.est c = .ok o) ∨ sp.est c = .error e₀)
    (hkeys : OneKey sp.keys sp.learners)
    (hloss : ∀ tv q S c o, CellOf (activeData F D tv) tv q S c → sp.est c = .ok o →
      ∀ l ∈ sp.learners, (lookupKey l o.preds).isSome ∧ (lookupKey l o.targets).isSome) :
    (fit F sp s a).2 = .ok () ∨ (fit F sp s a).2 = .error e₀ := by
  obtain ⟨h1, h2⟩ := h.ready hv
  have hd := h2.d
  rw [← hd] at ha
  obtain ⟨⟨p, m, hc⟩, hx⟩ := ha.check
  refine ready_fit_or e₀ hv hsig h1 hL hc hx ?_ fun tv ht q S c hq hS hcl he hw => ?_
  · rw [hd]
    intro hl tv ht
    rw [setXD_congr F h2]
    exact hact hl tv ht
  · rw [hd] at ht
    rw [activeData_congr F h2] at hcl
    have hlen : q < s.nRep := by
      rw [← (h1.split L hL).1]
      exact (List.getElem?_eq_some_iff.1 hq).1
    rcases hcell tv ht q S c hlen hq hS hcl he with ⟨o, ho⟩ | ho
    · obtain ⟨r, hr⟩ := calcLoss_total fun l hl => ⟨hkeys l hl, hloss tv q S c o hcl ho l hl⟩
      exact .inl ⟨o, r, ho, hr⟩
    · exact .inr ho

/-- If every cell can be estimated, the fit succeeds. -/
theorem C63_of_cells_many {E : Ext} {F : Frame n} {sp : Spec n P M} (hv : sp.vars = none)
    (hsig : sp.sensImpl = true → ∀ c o, sp.est c = .ok o → 0 ≤ o.sens.sigma2) {D : DataState n}
    {s : MState n P M} (h : ReachedFrom E F sp D s) (hact : Activates F D) {L : List (List (Fold n))} (hL : s.smpls = some L)
    {a : FitArgs} (ha : ValidArgsFor sp D.d s.nRep a)
    (hcell : ∀ tv ∈ D.d, ∀ q S c, q < s.nRep → L[q]? = some S → FoldsOk S → CellOf (activeData F D tv) tv q S c →
      setExt n a.ext sp.learners tv q = .ok c.ext → ∃ o, sp.est c = .ok o)
    (hkeys : OneKey sp.keys sp.learners)
    (hloss : ∀ tv q S c o, CellOf (activeData F D tv) tv q S c → sp.est c = .ok o →
      ∀ l ∈ sp.learners, (lookupKey l o.preds).isSome ∧ (lookupKey l o.targets).isSome) :
    (fit F sp s a).2 = .ok () := by
  have key : ∀ e, (fit F sp s a).2 = .ok () ∨ (fit F sp s a).2 = .error e := fun e =>
    C63_of_cells_or e hv hsig h hact hL ha (fun tv ht q S c h1 h2 h3 h4 h5 => .inl (hcell tv ht q S c h1 h2 h3 h4 h5))
      hkeys hloss
  rcases key .valueError with h1 | h1
  · exact h1
  · rcases key .typeError with h2 | h2
    · exact h2
    · rw [h1] at h2
      cases h2

/-! ## The data object -/

theorem setXDFirst_conds {F : Frame n} {S T : DataState n} (h : setXDFirst F S = .ok T) :
    ∃ tv ∈ S.d, T.d = S.d ∧ (T.force = .yes → ∀ c ∈ xdList T tv, finiteCol (F.col c)) ∧
      (T.force = .allowNan → ∀ c ∈ xdList T tv, notInfCol (F.col c)) := by
  obtain ⟨tv, l, htl, he⟩ := setXDFirst_head h
  have hT : T.d = S.d := by rw [he]
  have h1 : T.force = S.force := by rw [he]
  have h2 : xdList T tv = xdList S tv := by rw [he]; rfl
  have h3 : setXD F S tv = .ok T := by
    unfold setXDFirst at h
    rw [htl] at h
    exact h
  refine ⟨tv, by rw [htl]; simp, hT, ?_⟩
  rw [h1, h2]
  unfold setXD at h3
  split_ifs at h3 with g1 g2 g3 g4
  exact ⟨fun q => not_not.1 fun q' => g3 ⟨q, q'⟩, fun q => not_not.1 fun q' => g4 ⟨q, q'⟩⟩

/-- All treatments of a new data object can be activated: their columns were checked when it was created. -/
theorem FreshData.activates {F : Frame n} {D : DataState n} (h : FreshData F D) : Activates F D := by
  intro _ tv' htv'
  obtain ⟨-, cl, a, h⟩ := h
  unfold dataInit at h
  obtain ⟨c, hc, h⟩ := bind_ok h
  by_cases hcf : ∀ cs ∈ c, ∀ c ∈ cs, finiteCol (F.col c)
  swap
  · rw [if_pos hcf] at h; cases h
  rw [if_neg (not_not.2 hcf)] at h
  obtain ⟨y, hy, h⟩ := bind_ok h
  obtain ⟨d, hd, h⟩ := bind_ok h
  obtain ⟨z, hz, h⟩ := bind_ok h
  obtain ⟨t, ht, h⟩ := bind_ok h
  obtain ⟨s, hs, h⟩ := bind_ok h
  obtain ⟨x, hx, h⟩ := bind_ok h
  dsimp only at h
  split at h
  · cases h
  obtain ⟨u, hu, h⟩ := bind_ok h
  obtain ⟨f, hf, h⟩ := bind_ok h
  by_cases hdf : ∀ c ∈ d, finiteCol (F.col c)
  swap
  · rw [if_pos hdf] at h; cases h
  rw [if_neg (not_not.2 hdf)] at h
  by_cases hyf : finiteCol (F.col y)
  swap
  · rw [if_pos hyf] at h; cases h
  rw [if_neg (not_not.2 hyf)] at h
  obtain ⟨_, hr, h⟩ := bind_ok h
  obtain ⟨S3, hS3, h⟩ := bind_ok h
  split_ifs at h with hda
  obtain rfl : S3 = D := by cases h; rfl
  have hr' := setYZTS_ok hr
  rw [hr'] at hS3
  obtain ⟨tv, htv, hD, key⟩ := setXDFirst_conds hS3
  replace htv : tv ∈ d := htv
  replace hD : S3.d = d := hD
  clear hr hr' hda h hS3
  have hmem : ∀ c ∈ xdList S3 tv', c ∈ xdList S3 tv ∨ finiteCol (F.col c) := by
    intro c hc
    unfold xdList at hc ⊢
    split_ifs at hc ⊢ with hu
    · by_cases hct : c = tv
      · right
        rw [hct]
        exact hdf tv htv
      · left
        exact (List.mem_erase_of_ne hct).2 (List.mem_of_mem_erase hc)
    · exact .inl hc
  have h1 : ∀ c ∈ S3.d, finiteCol (F.col c) := by rw [hD]; exact hdf
  refine ⟨{ S3 with dv := F.col tv', xv := (xdList S3 tv').map F.col }, ?_⟩
  unfold setXD
  rw [if_neg (not_not.2 htv'), if_neg (not_not.2 (h1 tv' htv')), if_neg, if_neg]
  · rintro ⟨q1, q2⟩
    refine q2 fun c hc => ?_
    rcases hmem c hc with q3 | q3
    · exact key.2 q1 c q3
    · exact notInf_of_finite q3
  · rintro ⟨q1, q2⟩
    refine q2 fun c hc => ?_
    rcases hmem c hc with q3 | q3
    · exact key.1 q1 c q3
    · exact q3

theorem FreshData.dv {F : Frame n} {D : DataState n} (h : FreshData F D) {tv : String} (ht : tv ∈ D.d) :
    (activeData F D tv).dv = F.col tv := by
  unfold activeData
  split_ifs with hl
  · rfl
  · obtain ⟨d, h1, h2⟩ := h.one (by
      have : D.d.length ≠ 0 := by
        intro h0
        rw [List.length_eq_zero_iff.1 h0] at ht
        cases ht
      omega)
    rw [h1] at ht
    rw [h2, List.mem_singleton.1 ht]

theorem lookupKey_graph {α : Type} (f : String → α) {l : List String} {k : String} (h : k ∈ l) :
    lookupKey k (l.map fun c => (c, f c)) = some (f k) := by
  obtain ⟨v, hv⟩ := lookupKey_of_mem (L := l.map fun c => (c, f c)) (l := k) (by simpa [Function.comp_def] using h)
  obtain ⟨c, -, hc⟩ := List.mem_map.1 (lookupKey_mem hv)
  obtain ⟨rfl, h2⟩ := Prod.mk.inj hc
  rw [hv, h2]

theorem FreshData.binTreat {F : Frame n} {D : DataState n} (h : FreshData F D) {tv : String} (ht : tv ∈ D.d) :
    lookupKey tv D.binTreats = some (isBinaryCol (F.col tv)) := by
  rw [h.roles.1]
  exact lookupKey_graph _ ht

/-! ## PLR -/

theorem CellOf.split {D : DataState n} {tv : String} {q : ℕ} {S : List (Fold n)} {c : CellIn n P} (h : CellOf D tv q S c)
    (hS : FoldsOk S) : FoldsOk c.smpls := by
  rw [h.smpls]
  exact hS

theorem CellOf.fits {D : DataState n} {tv : String} {q : ℕ} {S : List (Fold n)} {c : CellIn n P} (h : CellOf D tv q S c)
    (l : String) : (c.paramsOf l).Fits c.smpls.length := by
  rw [h.smpls]
  exact h.params l

/-- A cell of a PLR model can be estimated unless the treatment is binary and its predictions are labels. -/
theorem plr_or {k : PlrClass n P} {c : CellIn n P} (hS : FoldsOk c.smpls) (hp : ∀ l, (c.paramsOf l).Fits c.smpls.length)
    (hm : Trains k.ml_m k.mClassifier (fun i => (c.data.dv i).val) c.smpls fun _ => True)
    {b : Bool} (hb : lookupKey c.treat c.data.binTreats = some b) :
    (∃ o, plrEst k c = .ok o) ∨ plrEst k c = .error .valueError ∧ b = true ∧
      ((∃ e, c.extOf "ml_m" = some e ∧ ∀ i, e i = 0 ∨ e i = 1) ∨
        ∃ r, learn k.ml_m (methodOf k.mClassifier) c "ml_m" (fun i => (c.data.dv i).val) = .ok r ∧ Labels r.preds) := by
  have hlearn : ∀ (Le : Learner P (List Cell)) (l : String) (y : Fin n → ℝ), ∃ r, learn Le .predict c l y = .ok r :=
    fun Le l y => learn_total' y hS (hp l) (fun q => by cases q)
  obtain ⟨l, el⟩ : ∃ r, plrL k c = .ok r := by
    unfold plrL
    split
    · exact ⟨_, rfl⟩
    · split_ifs
      · exact ⟨_, rfl⟩
      · exact hlearn _ _ _
  have hG : ∀ m, ∃ r, plrG k c l m = .ok r := by
    intro m
    unfold plrG
    split_ifs
    · split
      · exact ⟨_, rfl⟩
      · exact hlearn _ _ _
    · exact ⟨_, rfl⟩
  have hchk : ∀ p : NV n, checkTreatPreds c p = .ok () ∨ checkTreatPreds c p = .error .valueError ∧ b = true ∧ Labels p := by
    intro p
    unfold checkTreatPreds
    rw [hb]
    cases b with
    | false => exact .inl rfl
    | true =>
      rcases checkBinaryPreds_or p with h | ⟨h, h'⟩
      · exact .inl h
      · exact .inr ⟨h, rfl, h'⟩
  have hfin : ∀ m, plrM k c = .ok m → ∃ o, plrEst k c = .ok o := by
    intro m em
    obtain ⟨g, eg⟩ := hG m
    unfold plrEst
    simp only [el, em, eg, bind, Except.bind, pure, Except.pure]
    exact ⟨_, rfl⟩
  have herr : ∀ e, plrM k c = .error e → plrEst k c = .error e := by
    intro e em
    unfold plrEst
    simp only [el, em, bind, Except.bind]
  cases he : c.extOf "ml_m" with
  | some e =>
    have hM : plrM k c = (checkTreatPreds c (extRes (P := P) e).preds).bind fun _ => .ok (extRes e) := by
      unfold plrM
      rw [he]
      rfl
    rcases hchk (extRes (P := P) e).preds with h | ⟨h, h1, h2⟩
    · exact .inl (hfin (extRes e) (by rw [hM, h]; rfl))
    · refine .inr ⟨herr _ (by rw [hM, h]; rfl), h1, .inl ⟨e, rfl, fun i => ?_⟩⟩
      exact (h2 i).imp Option.some.inj Option.some.inj
  | none =>
    obtain ⟨r, hr⟩ := learn_total' (L := k.ml_m) (m := methodOf k.mClassifier) (l := "ml_m") (fun i => (c.data.dv i).val) hS
      (hp _) hm.method
    have hM : plrM k c = (checkTreatPreds c r.preds).bind fun _ => .ok r := by
      unfold plrM
      rw [he]
      show (learn k.ml_m (methodOf k.mClassifier) c "ml_m" (fun i => (c.data.dv i).val)).bind _ = _
      rw [hr]
      rfl
    rcases hchk r.preds with h | ⟨h, h1, h2⟩
    · exact .inl (hfin r (by rw [hM, h]; rfl))
    · exact .inr ⟨herr _ (by rw [hM, h]; rfl), h1, .inr ⟨r, hr, h2⟩⟩

theorem plr_sigma {k : PlrClass n P} (_ : (plrSpec k).sensImpl = true) (c : CellIn n P)
    (o : CellOut n (Option (List (FittedModel P (List Cell))))) (ho : (plrSpec k).est c = .ok o) : 0 ≤ o.sens.sigma2 := by
  obtain ⟨l, -, ho⟩ := bind_ok ho
  obtain ⟨m, -, ho⟩ := bind_ok ho
  obtain ⟨g, -, ho⟩ := bind_ok ho
  rw [← Except.ok.inj ho]
  show 0 ≤ mean (plrResid2 _ _ _ _ _ _ _)
  unfold plrResid2
  split_ifs
  · exact mean_sq_nonneg _
  · exact mean_sq_nonneg _

theorem plr_oneKey (k : PlrClass n P) : OneKey (plrSpec k).keys (plrSpec k).learners := by
  unfold plrSpec
  dsimp only
  cases k.iv
  · exact plr_keys _
  · exact plrI_keys _

theorem plr_stored {k : PlrClass n P} (c : CellIn n P) (o : CellOut n (Option (List (FittedModel P (List Cell)))))
    (ho : (plrSpec k).est c = .ok o) (l : String) (hl : l ∈ (plrSpec k).learners) :
    (lookupKey l o.preds).isSome ∧ (lookupKey l o.targets).isSome := by
  obtain ⟨_, -, ho⟩ := bind_ok ho
  obtain ⟨_, -, ho⟩ := bind_ok ho
  obtain ⟨_, -, ho⟩ := bind_ok ho
  rw [← Except.ok.inj ho]
  have hl' : l ∈ ["ml_l", "ml_m", "ml_g"] := by
    unfold plrSpec at hl
    dsimp only at hl
    split at hl
    · exact hl
    · have : l = "ml_l" ∨ l = "ml_m" := by simpa using hl
      rcases this with rfl | rfl <;> simp
  simp only [List.mem_cons, List.not_mem_nil, or_false] at hl'
  rcases hl' with rfl | rfl | rfl <;> exact ⟨rfl, rfl⟩

theorem FreshData.cellBin {F : Frame n} {D : DataState n} (h : FreshData F D) {tv : String} (ht : tv ∈ D.d) {q : ℕ}
    {S : List (Fold n)} {c : CellIn n P} (hc : CellOf (activeData F D tv) tv q S c) :
    lookupKey c.treat c.data.binTreats = some (isBinaryCol (F.col tv)) := by
  rw [hc.treat, hc.data, (activeData_same F D tv).roles]
  exact h.binTreat ht

/-- PLR with any number of treatments, binary or not, with regressors or classifiers: whatever happened before, `fit`
succeeds or raises the `ValueError` about predictions that are labels. -/
theorem C63_plr_many_or {E : Ext} {F : Frame n} {k : PlrClass n P} (hv : k.vars = none) {D : DataState n} (hD : FreshData F D)
    {s : LinState n P} (h : ReachedFrom E F (plrSpec k) D s) {L : List (List (Fold n))} (hL : s.smpls = some L)
    (hm : ∀ tv ∈ D.d, ∀ S ∈ L, Trains k.ml_m k.mClassifier (nums (F.col tv)) S fun _ => True) {a : FitArgs}
    (ha : ValidArgsFor (plrSpec k) D.d s.nRep a) :
    (fit F (plrSpec k) s a).2 = .ok () ∨ (fit F (plrSpec k) s a).2 = .error .valueError := by
  refine C63_of_cells_or .valueError hv plr_sigma h hD.activates hL ha (fun tv ht q S c _ hq hS hc _ => ?_)
    (plr_oneKey k)
    fun _ _ _ c o _ => plr_stored c o
  have hd : (fun i => (c.data.dv i).val) = nums (F.col tv) := by rw [hc.data, hD.dv ht]; rfl
  refine (plr_or (hc.split hS) hc.fits ?_ (hD.cellBin ht hc)).imp_right And.left
  rw [hd, hc.smpls]
  exact hm tv ht S (List.mem_of_getElem? hq)

/-- **C63.** PLR with any number of treatments: `fit` succeeds if for binary treatments neither the learner nor the supplied
predictions are labels. -/
theorem C63_plr_many {E : Ext} {F : Frame n} {k : PlrClass n P} (hv : k.vars = none) (hn : 0 < n) {D : DataState n}
    (hD : FreshData F D) {s : LinState n P} (h : ReachedFrom E F (plrSpec k) D s) {L : List (List (Fold n))}
    (hL : s.smpls = some L)
    (hm : ∀ tv ∈ D.d, ∀ S ∈ L, Trains k.ml_m k.mClassifier (nums (F.col tv)) S fun _ => True) {a : FitArgs}
    (ha : ValidArgsFor (plrSpec k) D.d s.nRep a)
    (hs : ∀ tv ∈ D.d, ZeroOne (F.col tv) → k.ml_m.Soft (methodOf k.mClassifier) ∧ a.ext.SoftFor n s.nRep tv "ml_m") :
    (fit F (plrSpec k) s a).2 = .ok () := by
  refine C63_of_cells_many hv plr_sigma h hD.activates hL ha (fun tv ht q S c hqr hq hS hc he => ?_) (plr_oneKey k)
    fun _ _ _ c o _ => plr_stored c o
  have hd : (fun i => (c.data.dv i).val) = nums (F.col tv) := by rw [hc.data, hD.dv ht]; rfl
  have hT : Trains k.ml_m k.mClassifier (fun i => (c.data.dv i).val) c.smpls fun _ => True := by
    rw [hd, hc.smpls]
    exact hm tv ht S (List.mem_of_getElem? hq)
  rcases plr_or (hc.split hS) hc.fits hT (hD.cellBin ht hc) with h1 | ⟨-, h1, h2⟩
  · exact h1
  · obtain ⟨g1, g2⟩ := hs tv ht ((isBinaryCol_iff _).1 h1)
    rcases h2 with ⟨e, h2, h3⟩ | ⟨r, h2, h3⟩
    · exact absurd h3 (extSoft hqr g2 he h2)
    · exact absurd h3 (learn_soft hn (hc.split hS) g1 hT h2)

/-! ## PLIV -/

theorem plivPart_total (L : Learner P (List Cell)) {c : CellIn n P} (hS : FoldsOk c.smpls)
    (hp : ∀ l, (c.paramsOf l).Fits c.smpls.length) (l : String) (y : Fin n → ℝ) : ∃ r, plivPart L c l y = .ok r := by
  unfold plivPart
  cases c.extOf l with
  | some e => exact ⟨_, rfl⟩
  | none => exact learn_total' y hS (hp l) (fun q => by cases q)

/-- **C63.** PLIV with one instrument and any number of treatments: no condition beyond a split. -/
theorem C63_pliv_many {E : Ext} {F : Frame n} {k : PlivClass n P} (hv : k.vars = none) {D : DataState n} (hD : FreshData F D)
    {z : String} (hz : D.z = some [z]) {s : LinState n P} (h : ReachedFrom E F (plivSpec k) D s) {L : List (List (Fold n))}
    (hL : s.smpls = some L) {a : FitArgs} (ha : ValidArgsFor (plivSpec k) D.d s.nRep a) :
    (fit F (plivSpec k) s a).2 = .ok () := by
  refine C63_of_cells_many hv (fun hs => by cases hs) h hD.activates hL ha (fun tv ht q S c hqr hq hS hc he => ?_) ?_ ?_
  · have hi : c.instr = .ok (nums (F.col z)) := by
      unfold CellIn.instr
      have : c.data.zv = some [F.col z] := by
        rw [hc.data, (activeData_same F D tv).roles]
        exact (hD.instr _).2 ⟨z, hz, rfl⟩
      rw [this]
      rfl
    have hP := fun L => plivPart_total L (hc.split hS) hc.fits
    obtain ⟨l, e1⟩ := hP k.ml_l "ml_l" c.y
    obtain ⟨m, e2⟩ := hP k.ml_m "ml_m" (nums (F.col z))
    obtain ⟨r, e3⟩ := hP k.ml_r "ml_r" c.d
    obtain ⟨g, e4⟩ : ∃ g, plivG k c (nums (F.col z)) l m r = .ok g := by
      unfold plivG
      split
      · exact hP _ _ _
      · exact ⟨_, rfl⟩
    show ∃ o, plivEst k c = .ok o
    unfold plivEst
    simp only [hi, e1, e2, e3, e4, bind, Except.bind, pure, Except.pure]
    exact ⟨_, rfl⟩
  · unfold plivSpec
    dsimp only
    cases k.iv
    · exact pliv_keys
    · exact plivI_keys
  · intro tv q S c o _ ho
    obtain ⟨_, -, ho⟩ := bind_ok ho
    obtain ⟨_, -, ho⟩ := bind_ok ho
    obtain ⟨_, -, ho⟩ := bind_ok ho
    obtain ⟨_, -, ho⟩ := bind_ok ho
    obtain ⟨_, -, ho⟩ := bind_ok ho
    rw [← Except.ok.inj ho]
    intro l hl
    have hl' : l ∈ ["ml_l", "ml_m", "ml_r", "ml_g"] := by
      unfold plivSpec at hl
      dsimp only at hl
      split at hl
      · exact hl
      · have : l = "ml_l" ∨ l = "ml_m" ∨ l = "ml_r" := by simpa using hl
        rcases this with rfl | rfl | rfl <;> simp
    simp only [List.mem_cons, List.not_mem_nil, or_false] at hl'
    rcases hl' with rfl | rfl | rfl | rfl <;> exact ⟨rfl, rfl⟩

/-- A name contains another one. -/
def Contains (name part : String) : Prop := part.toList <:+: name.toList

theorem plivName_l (z : String) : "ml_l".toList <:+: (plivName z).toList ↔ Contains z "ml_l" := by
  unfold plivName Contains
  rw [String.toList_append]
  show ['m', 'l', '_', 'l'] <:+: 'm' :: 'l' :: '_' :: 'm' :: '_' :: z.toList ↔ ['m', 'l', '_', 'l'] <:+: z.toList
  simp [List.infix_cons_iff]

theorem plivName_r (z : String) : "ml_r".toList <:+: (plivName z).toList ↔ Contains z "ml_r" := by
  unfold plivName Contains
  rw [String.toList_append]
  show ['m', 'l', '_', 'r'] <:+: 'm' :: 'l' :: '_' :: 'm' :: '_' :: z.toList ↔ ['m', 'l', '_', 'r'] <:+: z.toList
  simp [List.infix_cons_iff]

theorem plivName_m (z : String) : "ml_m".toList <:+: (plivName z).toList := by
  unfold plivName
  rw [String.toList_append]
  exact ⟨[], '_' :: z.toList, rfl⟩

theorem plivMulti_keys {zs : List String} (h : ∀ z ∈ zs, ¬ Contains z "ml_l" ∧ ¬ Contains z "ml_r") :
    OneKey [("ml_l", false), ("ml_m", false), ("ml_r", false)] (["ml_l", "ml_r"] ++ zs.map plivName) := by
  intro l hl
  rcases List.mem_append.1 hl with hl | hl
  · have : OneKey [("ml_l", false), ("ml_m", false), ("ml_r", false)] ["ml_l", "ml_r"] := by decide
    exact this l hl
  · obtain ⟨z, hz, rfl⟩ := List.mem_map.1 hl
    obtain ⟨h1, h2⟩ := h z hz
    rw [List.filter_cons, if_neg, List.filter_cons, if_pos, List.filter_cons, if_neg]
    · rfl
    · simpa using fun q => h2 ((plivName_r z).1 q)
    · simpa using plivName_m z
    · simpa using fun q => h1 ((plivName_l z).1 q)

theorem mem_keys {α β : Type} {l : String} {f : α → β} {xs : List (String × α)} (h : l ∈ xs.map Prod.fst) :
    (lookupKey l (xs.map fun q => (q.1, f q.2))).isSome := by
  obtain ⟨v, hv⟩ := lookupKey_of_mem (L := xs.map fun q => (q.1, f q.2)) (l := l) (by simpa [Function.comp_def] using h)
  rw [hv]
  rfl

theorem cell_instrs {F : Frame n} {D : DataState n} (hD : FreshData F D) {zs : List String} (hz : D.z = some zs) {tv : String}
    {q : ℕ} {S : List (Fold n)} {c : CellIn n P} (hc : CellOf (activeData F D tv) tv q S c) :
    c.instrs = zs.map fun z => (z, F.col z) := by
  unfold CellIn.instrs
  have h1 : c.data.z = some zs := by
    rw [hc.data, (activeData_same F D tv).roles]
    exact hz
  have h2 : c.data.zv = some (zs.map F.col) := by
    rw [hc.data, (activeData_same F D tv).roles]
    show D.zv = _
    rw [hD.roles.2.2.2.1, hz]
    rfl
  rw [h1, h2, Option.getD_some, Option.getD_some]
  clear h1 h2 hz
  induction zs with
  | nil => rfl
  | cons z t ih => simpa using ih

theorem plivInstrs_names {k : PlivClass n P} {c : CellIn n P} {I : List (String × (Fin n → Cell))}
    {ms : List (String × CvRes n P (List Cell))} (h : I.mapM (plivInstr k c) = .ok ms) :
    ms.map Prod.fst = I.map fun zc => plivName zc.1 := by
  rw [mapM_ok_iff] at h
  induction h with
  | nil => rfl
  | cons ha _ ih =>
    obtain ⟨_, -, ha⟩ := bind_ok ha
    rw [List.map_cons, List.map_cons, ih, ← Except.ok.inj ha]

/-- What a successful cell of a model with several instruments stores. -/
theorem plivMulti_stored {F : Frame n} {D : DataState n} (hD : FreshData F D) {zs : List String} (hz : D.z = some zs)
    {k : PlivClass n P} {tv : String} {q : ℕ} {S : List (Fold n)} {c : CellIn n P} {o : LinOut n P}
    (hc : CellOf (activeData F D tv) tv q S c) (ho : plivMultiEst k c = .ok o) (l : String)
    (hl : l ∈ ["ml_l", "ml_r"] ++ zs.map plivName) : (lookupKey l o.preds).isSome ∧ (lookupKey l o.targets).isSome := by
  obtain ⟨r1, -, ho⟩ := bind_ok ho
  obtain ⟨ms, h2, ho⟩ := bind_ok ho
  obtain ⟨r3, -, ho⟩ := bind_ok ho
  rw [← Except.ok.inj ho]
  have hms : ms.map Prod.fst = zs.map plivName := by
    have := plivInstrs_names h2
    rw [this, cell_instrs hD hz hc, List.map_map]
    rfl
  have hmem : l ∈ ([("ml_l", r1)] ++ ms ++ [("ml_r", r3)]).map Prod.fst := by
    simp only [List.map_append, hms, List.map_cons, List.map_nil]
    simp only [List.mem_append, List.mem_cons, List.not_mem_nil, or_false] at hl ⊢
    tauto
  constructor
  · have := mem_keys (f := CvRes.preds) hmem
    simpa only [List.map_append, List.map_cons, List.map_nil] using this
  · have := mem_keys (f := CvRes.targets) hmem
    simpa only [List.map_append, List.map_cons, List.map_nil] using this

theorem plivMulti_total {k : PlivClass n P} {c : CellIn n P} (hS : FoldsOk c.smpls)
    (hp : ∀ l, (c.paramsOf l).Fits c.smpls.length) : ∃ o, plivMultiEst k c = .ok o := by
  have hP := fun L => plivPart_total L hS hp
  obtain ⟨l, e1⟩ := hP k.ml_l "ml_l" c.y
  obtain ⟨r, e3⟩ := hP k.ml_r "ml_r" c.d
  obtain ⟨ms, e2⟩ : ∃ ms, c.instrs.mapM (plivInstr k c) = .ok ms := by
    induction c.instrs with
    | nil => exact ⟨[], rfl⟩
    | cons z zs ih =>
      obtain ⟨ms, hms⟩ := ih
      obtain ⟨m, hm⟩ := hP k.ml_m (plivName z.1) fun i => (z.2 i).val
      refine ⟨(plivName z.1, m) :: ms, ?_⟩
      simp only [List.mapM_cons, plivInstr, hm, hms, bind, Except.bind, pure, Except.pure]
  unfold plivMultiEst
  simp only [e1, e2, e3, bind, Except.bind, pure, Except.pure]
  exact ⟨_, rfl⟩

/-- **C63.** PLIV with several instruments: `fit` succeeds if no name of an instrument contains `ml_l` or `ml_r`. -/
theorem C63_pliv_instruments {E : Ext} {F : Frame n} {k : PlivClass n P} (hv : k.vars = none) {D : DataState n}
    (hD : FreshData F D) {zs : List String} (hz : D.z = some zs) (hn : ∀ z ∈ zs, ¬ Contains z "ml_l" ∧ ¬ Contains z "ml_r")
    {s : LinState n P} (h : ReachedFrom E F (plivMultiSpec k zs) D s) {L : List (List (Fold n))} (hL : s.smpls = some L)
    {a : FitArgs} (ha : ValidArgsFor (plivMultiSpec k zs) D.d s.nRep a) : (fit F (plivMultiSpec k zs) s a).2 = .ok () :=
  C63_of_cells_many hv (fun hs => by cases hs) h hD.activates hL ha
    (fun _ _ _ _ _ _ _ hS hc _ => plivMulti_total (hc.split hS) hc.fits) (plivMulti_keys hn)
    fun _ _ _ _ _ hc ho => plivMulti_stored hD hz hc ho

/-- Otherwise no fit succeeds: the losses of the learners are attributed by the names of the learners
(/repo/doubleml/double_ml.py:1108-1109), and `ml_m_<instrument>` then contains two of them. -/
theorem C63_pliv_instruments_violated {F : Frame n} {k : PlivClass n P} {zs : List String} {z : String} (hz : z ∈ zs)
    (hn : Contains z "ml_l" ∨ Contains z "ml_r") {s : LinState n P} (hR : 0 < s.nRep) (hd : 0 < s.data.d.length) (a : FitArgs) :
    (fit F (plivMultiSpec k zs) s a).2 ≠ .ok () := by
  intro h
  obtain ⟨p, m, fw, h1, -⟩ := fit_ok h
  obtain ⟨hp, hm⟩ := checkFit_ok h1
  obtain ⟨c, o, l, -, -, -, hl, -⟩ := fit_cells h hp hm hd hR
  obtain ⟨b, hb⟩ := mapM_ok_mem hl (plivName z) (List.mem_append_right _ (List.mem_map_of_mem hz))
  unfold learnerLoss at hb
  have h2 : 2 ≤ ((plivMultiSpec k zs).keys.filter fun q => decide (q.1.toList <:+: (plivName z).toList)).length := by
    show 2 ≤ ([("ml_l", false), ("ml_m", false), ("ml_r", false)].filter fun q : String × Bool =>
      decide (q.1.toList <:+: (plivName z).toList)).length
    rw [List.filter_cons, List.filter_cons, List.filter_cons, List.filter_nil]
    dsimp only
    rw [if_pos (decide_eq_true (plivName_m z))]
    rcases hn with hn | hn
    · rw [if_pos (decide_eq_true ((plivName_l z).2 hn))]
      simp
    · rw [if_pos (decide_eq_true ((plivName_r z).2 hn))]
      split_ifs <;> simp
  split at hb
  · rename_i q hq
    rw [hq] at h2
    simp at h2
  · cases hb

/-! ## Projection on the instruments -/

theorem mapM_total {α β : Type} {f : α → Except Exc β} (l : List α) (h : ∀ a ∈ l, ∃ b, f a = .ok b) : ∃ r, l.mapM f = .ok r := by
  induction l with
  | nil => exact ⟨[], rfl⟩
  | cons a t ih =>
    obtain ⟨b, hb⟩ := h a (by simp)
    obtain ⟨r, hr⟩ := ih fun x hx => h x (by simp [hx])
    refine ⟨b :: r, ?_⟩
    rw [List.mapM_cons, hb, hr]
    rfl

/-- Learning from fold-specific targets succeeds if there is one target for every training observation. -/
theorem perFold_total {L : Learner P (List Cell)} {x : Fin n → List Cell} {S : List (Fold n)} {ps : Params P} (hS : FoldsOk S)
    (hps : ps.Fits S.length) {ts : List (List ℝ)}
    (ht : ∀ k (hk : k < S.length), ∃ v : List ℝ, ts[k]? = some v ∧ v.length = S[k].train.length) (m1 : Bool) :
    ∃ r, cvPredict L ⟨x, .perFold ts, S, ps, .predict, false, m1⟩ = .ok r ∧ ∀ i, (r.preds i).isSome := by
  suffices h : ∃ r, cvPredict L ⟨x, .perFold ts, S, ps, .predict, false, m1⟩ = .ok r by
    obtain ⟨r, hr⟩ := h
    refine ⟨r, hr, fun i => ?_⟩
    obtain ⟨⟨k, hk⟩, hi, -⟩ := C26_complete hS.partition i
    rw [C26_prediction_rule rfl hS.partition hS.nodup hr k hk i hi]
    rfl
  obtain ⟨data, hd⟩ : ∃ data, foldData x (.perFold ts) .predict S = .ok data := by
    refine mapM_total _ fun fk hfk => ?_
    obtain ⟨h1, h2⟩ := List.mem_zipIdx' hfk
    obtain ⟨v, hv, hl⟩ := ht fk.2 h1
    unfold perFoldData
    rw [hv]
    dsimp only
    rw [if_neg (by rw [h2, hl]; exact not_not.2 rfl)]
    exact ⟨_, rfl⟩
  obtain ⟨pl, hpl⟩ : ∃ pl, foldParams ps S.length = .ok pl := by
    cases ps with
    | default => exact ⟨_, rfl⟩
    | same p => exact ⟨_, rfl⟩
    | perFold l =>
      unfold foldParams
      dsimp only
      rw [if_neg (not_not.2 (hps l rfl))]
      exact ⟨_, rfl⟩
  obtain ⟨b, hb⟩ := predictLoop_total (L := L) (m := .predict) (x := x)
    (S.zip ((pl.zip data).map fun pd => (⟨pd.1, pd.2⟩ : FittedModel P (List Cell)))) (fun _ _ _ _ => ⟨_, rfl⟩) (fun _ => none)
  unfold cvPredict
  rw [if_pos (by simp [CvArgs.manual, Target.isPerFold])]
  unfold manualPredict
  simp only [hS.partition, Bool.not_true, Bool.false_and, Bool.false_eq_true, if_false, hd, hpl, reduceCtorEq, decide_false,
    bind, Except.bind] at hb ⊢
  rw [hb]
  exact ⟨_, rfl⟩

theorem plivZ_total {k : PlivClass n P} {c : CellIn n P} (hS : FoldsOk c.smpls)
    (hp : ∀ l, (c.paramsOf l).Fits c.smpls.length) : ∃ o, plivZEst k c = .ok o := by
  obtain ⟨r, hr⟩ := ssmPart_total_all (L := k.ml_r) (m := .predict) (l := "ml_r") c.xz c.d hS (hp _) (fun q => by cases q)
  unfold plivZEst
  rw [hr]
  exact ⟨_, rfl⟩

theorem plivXZ_total {k : PlivClass n P} {c : CellIn n P} (hS : FoldsOk c.smpls)
    (hp : ∀ l, (c.paramsOf l).Fits c.smpls.length) : ∃ o, plivXZEst k c = .ok o := by
  obtain ⟨l, e1⟩ := ssmPart_total_all (L := k.ml_l) (m := .predict) (l := "ml_l") (rowX c.data) c.y hS (hp _)
    (fun q => by cases q)
  obtain ⟨m, em, -, hms⟩ := cvPredict_succeeds (L := k.ml_m) (x := c.xz) (y := c.d) (m := .predict) (hp "ml_m") hS.partition
    (fun q => by cases q) hS.nodup true c.wantModels
  have e2 : plivXZM k c = .ok m := by
    unfold plivXZM
    simp only [em, checkFinite_ok hms, bind, Except.bind, pure, Except.pure]
  obtain ⟨r, er, hrs⟩ := perFold_total (L := k.ml_r) (x := rowX c.data) hS (hp "ml_r") (ts := m.trainPreds.getD [])
    (fun q hq => ⟨_, trainPreds_ok em q hq, by rw [List.length_map]⟩) c.wantModels
  have e3 : plivXZR k c (m.trainPreds.getD []) = .ok r := by
    unfold plivXZR
    simp only [er, checkFinite_ok hrs, bind, Except.bind, pure, Except.pure]
  unfold plivXZEst
  simp only [e1, e2, e3, bind, Except.bind, pure, Except.pure]
  exact ⟨_, rfl⟩

/-- **C63.** PLIV with the treatment projected on covariates and instruments (`_partialZ`). -/
theorem C63_plivZ {E : Ext} {F : Frame n} {k : PlivClass n P} (hv : k.vars = none) {D : DataState n} (hD : FreshData F D)
    {s : LinState n P} (h : ReachedFrom E F (plivZSpec k) D s) {L : List (List (Fold n))} (hL : s.smpls = some L)
    {a : FitArgs} (ha : ValidArgsFor (plivZSpec k) D.d s.nRep a) : (fit F (plivZSpec k) s a).2 = .ok () := by
  refine C63_of_cells_many hv (fun hs => by cases hs) h hD.activates hL ha
    (fun _ _ _ _ _ _ _ hS hc _ => plivZ_total (hc.split hS) hc.fits) ?_ ?_
  · show OneKey [("ml_r", false)] ["ml_r"]
    decide
  · intro tv q S c o _ ho l hl
    obtain ⟨_, -, ho⟩ := bind_ok ho
    rw [← Except.ok.inj ho]
    obtain rfl : l = "ml_r" := List.mem_singleton.1 hl
    exact ⟨rfl, rfl⟩

/-- **C63.** PLIV with partialled-out covariates and the treatment projected on the instruments (`_partialXZ`). -/
theorem C63_plivXZ {E : Ext} {F : Frame n} {k : PlivClass n P} (hv : k.vars = none) {D : DataState n} (hD : FreshData F D)
    {s : LinState n P} (h : ReachedFrom E F (plivXZSpec k) D s) {L : List (List (Fold n))} (hL : s.smpls = some L)
    {a : FitArgs} (ha : ValidArgsFor (plivXZSpec k) D.d s.nRep a) : (fit F (plivXZSpec k) s a).2 = .ok () := by
  refine C63_of_cells_many hv (fun hs => by cases hs) h hD.activates hL ha
    (fun _ _ _ _ _ _ _ hS hc _ => plivXZ_total (hc.split hS) hc.fits) pliv_keys ?_
  intro tv q S c o _ ho l hl
  obtain ⟨_, -, ho⟩ := bind_ok ho
  obtain ⟨_, -, ho⟩ := bind_ok ho
  obtain ⟨_, -, ho⟩ := bind_ok ho
  rw [← Except.ok.inj ho]
  have hl' : l ∈ ["ml_l", "ml_m", "ml_r"] := hl
  simp only [List.mem_cons, List.not_mem_nil, or_false] at hl'
  rcases hl' with rfl | rfl | rfl <;> exact ⟨rfl, rfl⟩

end DML
