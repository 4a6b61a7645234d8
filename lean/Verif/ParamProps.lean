import Verif.PlrModelProps
import Verif.CrossFitProps

/-!
# C45: learner parameters
-/

namespace DML

open Finset

variable {n : ℕ} {P M : Type}

/-! ## Specification -/

/-- What the argument of `set_ml_nuisance_params` asks for in repetition `k`, fold `f`: nothing, the dictionary, or the
entry `[k][f]` of the nested list. -/
def ParamArg.at : ParamArg P → ℕ → ℕ → Option P
  | .none, _, _ => Option.none
  | .dict p, _, _ => some p
  | .list l, k, f => (l[k]?).bind fun r => r[f]?

/-- Nested lists must have one entry per repetition, each with one entry per fold. -/
def ParamArg.Fits (nRep nFolds : ℕ) : ParamArg P → Prop
  | .list l => l.length = nRep ∧ ∀ r ∈ l, r.length = nFolds
  | _ => True

/-- The parameters the model holds for learner `l`, treatment `tv`, repetition `k`, fold `f`. -/
def MState.paramAt (s : MState n P M) (l tv : String) (k f : ℕ) : Option P :=
  (s.params l tv).bind fun ps => (ps[k]?).bind fun q => q.bind fun r => r[f]?

open Classical in
/-- The value after a history of assignments: the last acceptable one for this learner and treatment decides. -/
noncomputable def lastParam (learners treats : List String) (nRep nFolds : ℕ) (l tv : String) (k f : ℕ) :
    Option P → List (String × String × ParamArg P) → Option P
  | v, [] => v
  | v, q :: qs =>
    if q.1 = l ∧ q.2.1 = tv ∧ l ∈ learners ∧ tv ∈ treats ∧ q.2.2.Fits nRep nFolds then
      lastParam learners treats nRep nFolds l tv k f (q.2.2.at k f) qs
    else lastParam learners treats nRep nFolds l tv k f v qs

/-! ## Single calls -/

theorem paramValue_ok {nRep nFolds : ℕ} {a : ParamArg P} {v : List (Option (List P))}
    (h : paramValue nRep nFolds a = .ok v) : a.Fits nRep nFolds ∧
      ∀ k < nRep, ∀ f < nFolds, ((v[k]?).bind fun q => q.bind fun r => r[f]?) = a.at k f := by
  cases a with
  | none =>
    obtain rfl := Except.ok.inj h
    refine ⟨trivial, ?_⟩
    intro k hk f hf
    simp [ParamArg.at, hk]
  | dict p =>
    obtain rfl := Except.ok.inj h
    refine ⟨trivial, ?_⟩
    intro k hk f hf
    simp [ParamArg.at, hk, hf]
  | list l =>
    unfold paramValue at h
    dsimp only at h
    by_cases h1 : l.length ≠ nRep
    · rw [if_pos h1] at h; cases h
    · rw [if_neg h1] at h
      by_cases h2 : (l.all fun x => decide (x.length = nFolds)) = true
      · rw [if_pos h2] at h
        obtain rfl := Except.ok.inj h
        refine ⟨⟨not_not.1 h1, ?_⟩, ?_⟩
        · simpa using h2
        · intro k hk f hf
          simp only [ParamArg.at, List.getElem?_map]
          cases l[k]? <;> rfl
      · rw [if_neg h2] at h; cases h

theorem paramValue_of_fits {nRep nFolds : ℕ} {a : ParamArg P} (h : a.Fits nRep nFolds) :
    ∃ v, paramValue nRep nFolds a = .ok v := by
  cases a with
  | none => exact ⟨_, rfl⟩
  | dict p => exact ⟨_, rfl⟩
  | list l =>
    refine ⟨l.map some, ?_⟩
    unfold paramValue
    dsimp only
    rw [if_neg (not_not.2 h.1), if_pos (by simpa using h.2)]

/-- **C45.** `set_ml_nuisance_params` accepts exactly: a learner of the model, a treatment of the data, and `None`, a
dictionary or a nested list of the right dimensions. -/
theorem C45_accepted_iff (sp : Spec n P M) (s : MState n P M) (l tv : String) (a : ParamArg P) :
    (setNuisanceParams sp s l tv a).2 = .ok () ↔ l ∈ sp.learners ∧ tv ∈ s.data.d ∧ a.Fits s.nRep s.nFolds := by
  unfold setNuisanceParams
  by_cases h1 : l ∉ sp.learners
  · rw [if_pos h1]
    exact ⟨fun h => (by cases h), fun h => absurd h.1 h1⟩
  rw [if_neg h1]
  by_cases h2 : tv ∉ s.data.d
  · rw [if_pos h2]
    exact ⟨fun h => (by cases h), fun h => absurd h.2.1 h2⟩
  rw [if_neg h2]
  cases hv : paramValue s.nRep s.nFolds a with
  | error e =>
    refine ⟨fun h => (by cases h), fun h => ?_⟩
    obtain ⟨v, hv'⟩ := paramValue_of_fits h.2.2
    rw [hv] at hv'; cases hv'
  | ok v => exact ⟨fun _ => ⟨not_not.1 h1, not_not.1 h2, (paramValue_ok hv).1⟩, fun _ => rfl⟩

/-- **C45.** A rejected call changes nothing. -/
theorem C45_rejected_without_change (sp : Spec n P M) (s : MState n P M) (l tv : String) (a : ParamArg P) {e : Exc}
    (h : (setNuisanceParams sp s l tv a).2 = .error e) : (setNuisanceParams sp s l tv a).1 = s := by
  unfold setNuisanceParams at h ⊢
  split
  · rfl
  · rename_i h1
    rw [if_neg h1] at h
    split
    · rfl
    · rename_i h2
      rw [if_neg h2] at h
      cases hv : paramValue s.nRep s.nFolds a with
      | error e => rfl
      | ok v => rw [hv] at h; cases h

/-- **C45.** An accepted call sets the parameters of every repetition and fold of exactly this learner and treatment:
the dictionary everywhere, or entry `[k][f]` of the list; everything else in the model stays as it is. -/
theorem C45_set (sp : Spec n P M) (s : MState n P M) (l tv : String) (a : ParamArg P)
    (h : (setNuisanceParams sp s l tv a).2 = .ok ()) :
    (∀ k < s.nRep, ∀ f < s.nFolds, (setNuisanceParams sp s l tv a).1.paramAt l tv k f = a.at k f) ∧
    (∀ l' tv', (l' ≠ l ∨ tv' ≠ tv) → (setNuisanceParams sp s l tv a).1.params l' tv' = s.params l' tv') ∧
    (setNuisanceParams sp s l tv a).1 = { s with params := (setNuisanceParams sp s l tv a).1.params } := by
  obtain ⟨h1, h2, h3⟩ := (C45_accepted_iff sp s l tv a).1 h
  obtain ⟨v, hv⟩ := paramValue_of_fits h3
  have key : (setNuisanceParams sp s l tv a).1 = { s with params := setNuisanceParams.set2' s.params l tv v } := by
    unfold setNuisanceParams
    rw [if_neg (not_not.2 h1), if_neg (not_not.2 h2), hv]
  refine ⟨?_, ?_, by rw [key]⟩
  · intro k hk f hf
    rw [key]
    simp only [MState.paramAt, setNuisanceParams.set2', and_self, if_true, Option.bind_some]
    exact (paramValue_ok hv).2 k hk f hf
  · intro l' tv' hne
    rw [key]
    simp only [setNuisanceParams.set2']
    rw [if_neg]
    rintro ⟨rfl, rfl⟩
    simp at hne

/-! ## Histories -/

/-- Calls that fit, do inference or set parameters. -/
def MOp.paramHistory : MOp n P → Bool
  | .fit _ => true
  | .infer _ => true
  | .setParams .. => true
  | _ => false

/-- The parameter assignments of a history. -/
def assignments : List (MOp n P) → List (String × String × ParamArg P)
  | [] => []
  | .setParams l tv a :: os => (l, tv, a) :: assignments os
  | _ :: os => assignments os

theorem lastParam_step (sp : Spec n P M) (s : MState n P M) (l tv l' tv' : String) (a : ParamArg P) {k f : ℕ}
    (hk : k < s.nRep) (hf : f < s.nFolds) (qs : List (String × String × ParamArg P)) :
    lastParam sp.learners s.data.d s.nRep s.nFolds l tv k f (s.paramAt l tv k f) ((l', tv', a) :: qs) =
      lastParam sp.learners s.data.d s.nRep s.nFolds l tv k f
        ((setNuisanceParams sp s l' tv' a).1.paramAt l tv k f) qs := by
  conv_lhs => unfold lastParam
  by_cases hc : l' = l ∧ tv' = tv ∧ l ∈ sp.learners ∧ tv ∈ s.data.d ∧ a.Fits s.nRep s.nFolds
  · rw [if_pos hc]
    obtain ⟨rfl, rfl, h1, h2, h3⟩ := hc
    rw [(C45_set sp s _ _ a ((C45_accepted_iff sp s _ _ a).2 ⟨h1, h2, h3⟩)).1 k hk f hf]
  · rw [if_neg hc]
    suffices h : (setNuisanceParams sp s l' tv' a).1.paramAt l tv k f = s.paramAt l tv k f by rw [h]
    cases hr : (setNuisanceParams sp s l' tv' a).2 with
    | error e => rw [C45_rejected_without_change sp s l' tv' a hr]
    | ok u =>
      have hacc := (C45_accepted_iff sp s l' tv' a).1 hr
      have hne : l ≠ l' ∨ tv ≠ tv' := by
        by_contra hcon
        push Not at hcon
        obtain ⟨rfl, rfl⟩ := hcon
        exact hc ⟨rfl, rfl, hacc⟩
      unfold MState.paramAt
      rw [(C45_set sp s l' tv' a hr).2.1 l tv hne]

/-- **C45.** Histories: after any sequence of parameter assignments (accepted or rejected), fits and inference calls the
model holds, for every learner, treatment, repetition and fold, the value of the last accepted assignment for this
learner and treatment, or the initial value if there is none. -/
theorem C45_history (E : Ext) (F : Frame n) (sp : Spec n P M) (s : MState n P M) (os : List (MOp n P))
    (ho : ∀ o ∈ os, o.paramHistory = true) (l tv : String) {k f : ℕ} (hk : k < s.nRep) (hf : f < s.nFolds) :
    (mrun E F sp s os).paramAt l tv k f =
      lastParam sp.learners s.data.d s.nRep s.nFolds l tv k f (s.paramAt l tv k f) (assignments os) := by
  induction os generalizing s with
  | nil => rfl
  | cons o os ih =>
    have ho' : ∀ o ∈ os, o.paramHistory = true := fun o' h' => ho o' (List.mem_cons_of_mem _ h')
    have hc := ho o (List.mem_cons_self ..)
    have same : ∀ t : MState n P M, t.data.d = s.data.d → t.nRep = s.nRep → t.nFolds = s.nFolds →
        t.params = s.params → (mrun E F sp t os).paramAt l tv k f =
          lastParam sp.learners s.data.d s.nRep s.nFolds l tv k f (s.paramAt l tv k f) (assignments os) := by
      intro t h1 h2 h3 h4
      rw [ih t ho' (by rw [h2]; exact hk) (by rw [h3]; exact hf), h1, h2, h3]
      unfold MState.paramAt
      rw [h4]
    cases o with
    | fit a =>
      obtain ⟨f1, _, _, f4, _⟩ := fit_frame F sp s a
      exact same (fit F sp s a).1 f1.data.d f1.nRep f4 f1.params
    | infer o =>
      have h1 := (infer_frame E s o).1
      refine same (infer E s o).1 ?_ ?_ ?_ ?_ <;> rw [h1]
    | setParams l' tv' a =>
      have hfr := setNuisanceParams_frame sp s l' tv' a
      have hd := hfr.data.d
      have hr := hfr.rest
      have h2 : (setNuisanceParams sp s l' tv' a).1.nRep = s.nRep := by rw [hr]
      have h3 : (setNuisanceParams sp s l' tv' a).1.nFolds = s.nFolds := by rw [hr]
      show (mrun E F sp (setNuisanceParams sp s l' tv' a).1 os).paramAt l tv k f = _
      rw [ih _ ho' (by rw [h2]; exact hk) (by rw [h3]; exact hf), hd, h2, h3]
      exact (lastParam_step sp s l tv l' tv' a hk hf (assignments os)).symm
    | draw w => cases hc
    | setSplit a cl => cases hc
    | tune f a b => cases hc
    | data o => cases hc

/-- **C45.** A newly constructed model uses the learners as given. -/
theorem C45_initial {sp : Spec n P M} {D : DataState n} {start : ℝ} {nf nr dr : PyVal} {w : Draws n} {s : MState n P M}
    (h : initModel sp D start nf nr dr w = .ok s) (l tv : String) (k f : ℕ) : s.paramAt l tv k f = none := by
  have key : ∀ r : ℕ, s.params = initParams sp.learners D.d r → s.paramAt l tv k f = none := by
    intro r hr
    unfold MState.paramAt
    rw [hr]
    unfold initParams
    split
    · simp only [Option.bind_some, List.getElem?_replicate]
      split <;> rfl
    · rfl
  unfold initModel at h
  obtain ⟨_, _, h⟩ := bind_ok h
  obtain ⟨k', hk, h⟩ := bind_ok h
  obtain ⟨r, hr, h⟩ := bind_ok h
  obtain ⟨b, hb, h⟩ := bind_ok h
  cases b with
  | false =>
    obtain rfl := Except.ok.inj h
    exact key r.toNat rfl
  | true =>
    rw [if_pos rfl] at h
    split at h
    · cases h
    · rename_i t hd
      obtain rfl := Except.ok.inj h
      have : t.params = initParams sp.learners D.d r.toNat := by
        unfold drawSampleSplitting at hd
        split at hd
        · cases hd
        · cases hd; rfl
      exact key r.toNat this

/-! ## Use in a fit -/

theorem lookupKey_of_mem {α : Type} {l : String} {L : List (String × α)} (h : l ∈ L.map Prod.fst) :
    ∃ v, lookupKey l L = some v := by
  induction L with
  | nil => cases h
  | cons p L ih =>
    unfold lookupKey
    split
    · exact ⟨_, rfl⟩
    · rename_i hp
      rcases List.mem_cons.1 h with h | h
      · exact absurd h.symm hp
      · exact ih h

/-- The parameters of fold `f` in a cell are those held for its treatment and repetition. -/
theorem CellFrom.paramsOf {F : Frame n} {sp : Spec n P M} {s : MState n P M} {ext : ExtArg} {k j : ℕ} {c : CellIn n P}
    (h : CellFrom F sp s ext k j c) {l : String} (hl : l ∈ sp.learners) (f : ℕ) :
    (c.paramsOf l).at f = s.paramAt l c.treat k f := by
  obtain ⟨h1, h2⟩ := h.params
  obtain ⟨v, hv⟩ := lookupKey_of_mem (l := l) (by rw [h1]; exact hl)
  obtain ⟨ps, hp, hk⟩ := h2 _ (lookupKey_mem hv)
  unfold CellIn.paramsOf MState.paramAt
  rw [hv]
  dsimp only at hp hk
  rw [hp]
  simp only [Option.bind_some, hk, Option.join_some]
  cases v <;> rfl

/-- **C45.** In a fit the class estimates treatment `j` in repetition `k` with, for each of its learners and each fold,
the parameters the model holds for this learner, treatment, repetition and fold. -/
theorem C45_used_in_fit {F : Frame n} {sp : Spec n P M} {s : MState n P M} {a : FitArgs} (h : (fit F sp s a).2 = .ok ())
    {j k : ℕ} (hj : j < s.data.d.length) (hk : k < s.nRep) :
    ∃ (c : CellIn n P) (o : CellOut n M), sp.est c = .ok o ∧
      ((fit F sp s a).1.heap (fit F sp s a).1.arr).coef j k = some o.fit.coef ∧
      ∀ l ∈ sp.learners, ∀ f, (c.paramsOf l).at f = s.paramAt l s.data.d[j] k f := by
  obtain ⟨p, m, _, hc, _⟩ := fit_ok h
  obtain ⟨hp, hm⟩ := checkFit_ok hc
  obtain ⟨c, o, l, H, _, ho, _, h1, _⟩ := fit_cells h hp hm hj hk
  have ht : c.treat = s.data.d[j] := by
    have := H.treat
    rw [List.getElem?_eq_getElem hj] at this
    exact (Option.some.inj this).symm
  exact ⟨c, o, ho, h1, fun l hl f => by rw [H.paramsOf hl f, ht]⟩

/-- **C45.** End to end for PLR: the stored prediction of `ml_l` for an observation in the test set of fold `f` of
repetition `k` is the one of the learner with the parameters held for (`ml_l`, treatment, repetition, fold), trained
on the training observations of this fold. -/
theorem C45_plr_prediction {F : Frame n} {c : PlrClass n P} {s : MState n P (Option (List (FittedModel P (List Cell))))}
    {a : FitArgs} (hiv : c.iv = false) (he : a.ext = .none) (hp : a.storePredictions = .bool true)
    (h : (fit F (plrSpec c) s a).2 = .ok ()) {j k : ℕ} (hj : j < s.data.d.length) (hk : k < s.nRep)
    {L : List (List (Fold n))} {S : List (Fold n)} (hs : s.smpls = some L) (hS : L[k]? = some S)
    (hpart : isPartition S = true) (hnd : ∀ f ∈ S, f.train.Nodup) :
    ∃ D : DataState n, D = activeData F s.data s.data.d[j] ∧ ∃ preds targets,
      (fit F (plrSpec c) s a).1.preds.map (fun t => t j k) = some (some (preds, targets)) ∧
      ∃ q, lookupKey "ml_l" preds = some q ∧ ∀ f (hf : f < S.length), ∀ i ∈ S[f].test,
        q i = some (c.ml_l.predict (s.paramAt "ml_l" s.data.d[j] k f)
          (S[f].train.map fun i => (rowX D i, (D.yv i).val)) (rowX D i)) := by
  obtain ⟨p, m, _, hc, _⟩ := fit_ok h
  obtain ⟨hp', hm⟩ := checkFit_ok hc
  rw [hp] at hp'; cases hp'
  obtain ⟨ci, o, l, H, _, ho, _, _, _, _, _, hpr, _⟩ := fit_cells h hp hm hj hk
  have ht : ci.treat = s.data.d[j] := by
    have := H.treat
    rw [List.getElem?_eq_getElem hj] at this
    exact (Option.some.inj this).symm
  refine ⟨_, rfl, o.preds, o.targets, hpr rfl, ?_⟩
  have hext : ci.extOf "ml_l" = none := by
    have := H.ext
    rw [he] at this
    have hl : (plrSpec c).learners = ["ml_l", "ml_m"] := by simp [plrSpec, hiv]
    rw [hl] at this
    have := Except.ok.inj this
    unfold CellIn.extOf
    rw [← this]
    simp [lookupKey]
  have hsm : ci.smpls = S := by
    obtain ⟨L', h1, h2⟩ := H.smpls
    rw [hs] at h1
    obtain rfl := Option.some.inj h1
    rw [hS] at h2
    exact (Option.some.inj h2).symm
  have ho : plrEst c ci = .ok o := ho
  unfold plrEst at ho
  obtain ⟨rl, hrl, ho⟩ := bind_ok ho
  obtain ⟨rm, hrm, ho⟩ := bind_ok ho
  obtain ⟨rg, hrg, ho⟩ := bind_ok ho
  obtain rfl := Except.ok.inj ho
  refine ⟨rl.preds, by simp [lookupKey], ?_⟩
  intro f hf i hi
  unfold plrL at hrl
  rw [hext] at hrl
  simp only [hiv, Bool.false_and] at hrl
  rw [if_neg (by simp)] at hrl
  unfold learn at hrl
  obtain ⟨r, hr, hrl⟩ := bind_ok hrl
  obtain ⟨u, hu, hrl⟩ := bind_ok hrl
  obtain rfl := Except.ok.inj hrl
  have hd : ci.data = activeData F s.data s.data.d[j] := by rw [H.data, ht]
  have := C26_prediction_rule (L := c.ml_l) rfl (by rw [hsm]; exact hpart) (by rw [hsm]; exact hnd) hr f
    (by rw [hsm]; exact hf) i (by simp only [hsm]; exact hi)
  rw [this]
  simp only [Target.dataOf, hsm, hd]
  have hpar := H.paramsOf (l := "ml_l") (by simp [plrSpec]; split <;> simp) f
  rw [hpar, ht]


/-! ## Non-vacuity -/

/-- The parameters fit the number of folds. -/
def Params.Fits (ps : Params P) (k : ℕ) : Prop := ∀ l, ps = .perFold l → l.length = k

/-- Cross-fitting with `predict` succeeds on a valid split. -/
theorem cvPredict_total {X : Type} (L : Learner P X) (x : Fin n → X) (y : Fin n → ℝ) {smpls : List (Fold n)} {ps : Params P}
    (hps : ps.Fits smpls.length) (hp : isPartition smpls = true) (hnd : ∀ f ∈ smpls, f.train.Nodup) (rt rm : Bool) :
    ∃ r, cvPredict L ⟨x, .plain y, smpls, ps, .predict, rt, rm⟩ = .ok r := by
  by_cases hf : ps.isPerFold = false
  · obtain ⟨_, r, _, h, _⟩ := C26_paths_agree L x y hf hp hnd rt rm
    exact ⟨r, h⟩
  · obtain ⟨l, rfl⟩ : ∃ l, ps = .perFold l := by
      cases ps with
      | default => simp [Params.isPerFold] at hf
      | same p => simp [Params.isPerFold] at hf
      | perFold l => exact ⟨l, rfl⟩
    have hl : foldParams (.perFold l) smpls.length = .ok (l.map some) := by
      unfold foldParams
      dsimp only
      rw [if_neg (not_not.2 (hps l rfl))]
    obtain ⟨b, hb⟩ := predictLoop_total (L := L) (m := .predict) (x := x)
      (smpls.zip (((l.map some).zip (smpls.map fun f => trainData x (fitTarget .predict y) f.train)).map fun pd =>
        (⟨pd.1, pd.2⟩ : FittedModel P X))) (fun _ _ i _ => ⟨_, rfl⟩) (fun _ => none)
    unfold cvPredict
    rw [if_pos (by simp [CvArgs.manual, Params.isPerFold])]
    unfold manualPredict
    simp only [hp, Target.isPerFold, Bool.not_true, Bool.false_and, Bool.and_false, Bool.false_eq_true, if_false, foldData, hl]
    simp only [bind, Except.bind] at hb ⊢
    rw [hb]
    exact ⟨_, rfl⟩

/-- A cross-fitted regression succeeds on a valid split. -/
theorem learn_total (L : Learner P (List Cell)) {c : CellIn n P} {l : String}
    (hl : (c.paramsOf l).Fits c.smpls.length)
    (hp : isPartition c.smpls = true) (hnd : ∀ f ∈ c.smpls, f.train.Nodup) (y : Fin n → ℝ) :
    ∃ r, learn L .predict c l y = .ok r ∧ ∀ f (hf : f < c.smpls.length), ∀ i ∈ c.smpls[f].test,
      r.preds i = some (L.predict ((c.paramsOf l).at f) (c.smpls[f].train.map fun j => (rowX c.data j, y j)) (rowX c.data i)) := by
  obtain ⟨r', hr'⟩ := cvPredict_total L (rowX c.data) y hl hp hnd false c.wantModels
  have hv : ∀ f (hf : f < c.smpls.length), ∀ i ∈ c.smpls[f].test, r'.preds i =
      some (L.predict ((c.paramsOf l).at f) (c.smpls[f].train.map fun j => (rowX c.data j, y j)) (rowX c.data i)) :=
    fun f hf i hi => C26_prediction_rule rfl hp hnd hr' f hf i hi
  refine ⟨r', ?_, hv⟩
  unfold learn
  rw [hr']
  have hfin : checkFinite r'.preds c.smpls = .ok () := by
    unfold checkFinite
    rw [if_pos]
    rw [List.all_eq_true]
    intro i hi
    obtain ⟨t, ht, hit⟩ := List.mem_flatten.1 hi
    obtain ⟨f, hf, rfl⟩ := List.mem_map.1 ht
    obtain ⟨q, hq, rfl⟩ := List.mem_iff_getElem.1 hf
    rw [hv q hq i hit]; rfl
  simp only [bind, Except.bind, hfin, pure, Except.pure]

/-- A class whose `ml_m` always predicts `1/2` and whose `ml_l` predicts its parameter (0 without). -/
noncomputable def exHalf : PlrClass 2 ℕ :=
  { ml_l := ⟨fun p _ _ => (p.getD 0 : ℕ), fun _ _ _ => []⟩
    ml_m := ⟨fun _ _ _ => 1 / 2, fun _ _ _ => []⟩
    ml_g := ⟨fun _ _ _ => 0, fun _ _ _ => []⟩
    mClassifier := false
    iv := false }

/-- C45: on a constructed model with one repetition and two folds a dictionary and a list of the right shape are
accepted, a list of the wrong shape is not, and the last accepted one is in force. -/
example (E : Ext) (w : Draws 2) : ∃ s, initModel (plrSpec exHalf) exState 0 (.int 2) (.int 1) (.bool true) w = .ok s ∧
    (mrun E exFrame (plrSpec exHalf) s
      [.setParams "ml_l" "d" (.dict 7), .setParams "ml_l" "d" (.list [[1, 2]]), .setParams "ml_m" "d" (.dict 9),
        .setParams "ml_l" "d" (.list [[3]])]).paramAt "ml_l" "d" 0 1 = some 2 := by
  obtain ⟨s, hi, hs, hf⟩ := exModel (k := exHalf) ⟨rfl, rfl⟩ w
  refine ⟨s, hi, ?_⟩
  rw [C45_history E exFrame (plrSpec exHalf) s _ (by simp [MOp.paramHistory]) "ml_l" "d" (by rw [hs.nRep]; exact one_pos)
    (by rw [hf]; exact one_lt_two)]
  rw [C45_initial hi, hs.nRep, hf, hs.data]
  simp [assignments, lastParam, ParamArg.Fits, ParamArg.at, plrSpec, exHalf, exState]

end DML
