import Verif.StoreModels
import Verif.ClassTuneProps

/-!
# C81: storing the fitted models changes nothing else

`fit(store_models=True)` and `fit(store_models=False)` give the same estimates, standard errors, scores, predictions, losses,
sensitivity elements and framework.
-/

namespace DML

open Finset

variable {n : ℕ} {P M : Type}

/-! ## Specification -/

/-- The data with some treatment active. -/
def ActiveIn (F : Frame n) (D A : DataState n) : Prop := ∃ tv ∈ D.d, A = activeData F D tv

/-- Every repetition uses a partition of the observations into test sets. -/
def MState.Partitions (s : MState n P M) : Prop := ∀ l, s.smpls = some l → ∀ S ∈ l, isPartition S = true

/-- The model classes.  Where a learner is a classifier, it has one column per class and its target has the values 0 and 1;
nothing is asked of the other learners. -/
inductive StoreClass (R : DataState n → Prop) : LinSpec n P → Prop
  | plr (k : PlrClass n P) (hm : ∀ A, R A → Suits k.ml_m (if k.mClassifier then .proba else .predict) A.dNum) :
      StoreClass R (plrSpec k)
  | irm (k : IrmClass n P) (hg : ∀ A, R A → Suits k.ml_g (methodOf k.gClassifier) A.yNum)
      (hm : ∀ A, R A → Suits k.ml_m .proba A.dNum) : StoreClass R (irmSpec k)
  | apo (k : ApoClass n P) (hg : ∀ A, R A → Suits k.ml_g (methodOf k.gClassifier) A.yNum) (hm : k.ml_m.Compliant) :
      StoreClass R (apoSpec k)
  | iivm (k : IivmClass n P) (hg : ∀ A, R A → Suits k.ml_g (methodOf k.gClassifier) A.yNum)
      (hm : ∀ A, R A → ∀ z, A.instr = .ok z → Suits k.ml_m .proba z) (hr : ∀ A, R A → Suits k.ml_r .proba A.dNum) :
      StoreClass R (iivmSpec k)
  | did (k : DidClass n P) (hg : ∀ A, R A → Suits k.ml_g (methodOf k.gClassifier) A.yNum)
      (hm : k.score = .observational → ∀ A, R A → Suits k.ml_m .proba A.dNum) : StoreClass R (didSpec k)
  | didCs (k : DidClass n P) (hg : ∀ A, R A → Suits k.ml_g (methodOf k.gClassifier) A.yNum)
      (hm : k.score = .observational → ∀ A, R A → Suits k.ml_m .proba A.dNum) : StoreClass R (csSpec k)
  | ssm (k : SsmClass n P) (hg : ∀ A, R A → Suits k.ml_g (methodOf k.gClassifier) A.yNum)
      (hm : ∀ A, R A → Suits k.ml_m .proba A.dNum)
      (hp : ∀ A, R A → ∀ s, A.sel = .ok s → Suits k.ml_pi .proba s) : StoreClass R (ssmSpec k)
  | ssmNon (k : SsmNonClass n P) : StoreClass R (ssmNonSpec k)
  | pliv (k : PlivClass n P) : StoreClass R (plivSpec k)
  | plivMulti (k : PlivClass n P) (zs : List String) : StoreClass R (plivMultiSpec k zs)
  | plivZ (k : PlivClass n P) : StoreClass R (plivZSpec k)
  | plivXZ (k : PlivClass n P) : StoreClass R (plivXZSpec k)
  | pq (k : PqClass n P) : StoreClass R (pqSpec k)
  | cvar (k : PqClass n P) : StoreClass R (cvarSpec k)
  | lpq (k : LpqClass n P) : StoreClass R (lpqSpec k)

/-! ## Lemmas -/

/-- The cells give the same results without keeping the models. -/
def CellsKeep (R : DataState n → Prop) (sp : Spec n P M) : Prop :=
  ∀ c : CellIn n P, isPartition c.smpls = true → R c.data → Keeps CellOut.noModels (sp.est c) (sp.est c.quiet)

theorem StoreClass.cells {R : DataState n → Prop} {sp : LinSpec n P} (h : StoreClass R sp) : CellsKeep R sp := by
  intro c hS hR
  cases h with
  | plr k hm => exact plr_keeps hS k (hm _ hR)
  | irm k hg hm => exact irm_keeps hS k (hg _ hR) (hm _ hR)
  | apo k hg hm => exact apo_keeps hS k (hg _ hR) hm
  | iivm k hg hm hr => exact iivm_keeps hS k (hg _ hR) (hm _ hR) (hr _ hR)
  | did k hg hm => exact did_keeps hS k (hg _ hR) fun h => hm h _ hR
  | didCs k hg hm => exact cs_keeps hS k (hg _ hR) fun h => hm h _ hR
  | ssm k hg hm hp => exact ssm_keeps hS k (hg _ hR) (hm _ hR) (hp _ hR)
  | ssmNon k => exact ssmNon_keeps k c
  | pliv k => exact pliv_keeps hS k
  | plivMulti k zs => exact plivMulti_keeps hS k
  | plivZ k => exact plivZ_keeps hS k
  | plivXZ k => exact plivXZ_keeps hS k
  | pq k => exact pq_keeps k c
  | cvar k => exact cvar_keeps k c
  | lpq k => exact lpq_keeps k c

theorem cellIn_quiet (sp : Spec n P M) (s : MState n P M) (md : Option (ℕ → ℕ → Option (List (String × M)))) (ext : ExtArg)
    (m : Bool) (tv : String) (k : ℕ) :
    cellIn sp { s with models := md } ext false tv k = (cellIn sp s ext m tv k).map CellIn.quiet := by
  unfold cellIn
  cases setExt n ext sp.learners tv k with
  | error e => rfl
  | ok e =>
    show (repSmpls s k >>= _) = Except.map _ (repSmpls s k >>= _)
    cases repSmpls s k with
    | error e => rfl
    | ok f =>
      show (repCluster sp s f k >>= _) = Except.map _ (repCluster sp s f k >>= _)
      cases repCluster sp s f k with
      | error e => rfl
      | ok cl =>
        show (sp.learners.mapM (getParams s tv k) >>= _) = Except.map _ (sp.learners.mapM (getParams s tv k) >>= _)
        cases sp.learners.mapM (getParams s tv k) with
        | error e => rfl
        | ok p => rfl

theorem storeCell_quiet {sp : Spec n P M} {p m : Bool} {s : MState n P M} (md : Option (ℕ → ℕ → Option (List (String × M))))
    (k j : ℕ) {o o' : CellOut n M} (ho : o'.noModels = o.noModels) :
    storeCell sp p false { s with models := md } k j o' =
      ({ (storeCell sp p m s k j o).1 with models := md }, (storeCell sp p m s k j o).2) := by
  have h1 : o'.fit = o.fit := show o'.noModels.fit = o.noModels.fit by rw [ho]
  have h2 : o'.preds = o.preds := show o'.noModels.preds = o.noModels.preds by rw [ho]
  have h3 : o'.targets = o.targets := show o'.noModels.targets = o.noModels.targets by rw [ho]
  have h4 : o'.sens = o.sens := show o'.noModels.sens = o.noModels.sens by rw [ho]
  unfold storeCell
  dsimp only
  rw [h2, h3]
  split_ifs with hb
  · cases calcLoss sp o.preds o.targets with
    | error e => rfl
    | ok l =>
      unfold writeCell
      dsimp only
      rw [h1, h2, h3, h4]
      rfl
  · rfl

section loop

variable {F : Frame n} {s₀ : MState n P M} (hP : s₀.Partitions) {sp : Spec n P M}
  (hest : CellsKeep (ActiveIn F s₀.data) sp) (md : Option (ℕ → ℕ → Option (List (String × M))))

include hP hest

theorem fitCell_quiet {ext : ExtArg} {p m : Bool} {s : MState n P M} (h : SameSettings s₀ s) (kj : ℕ × ℕ)
    (hf : (fitCell F sp ext p m s kj).2 = .ok ()) :
    fitCell F sp ext p false { s with models := md } kj = ({ (fitCell F sp ext p m s kj).1 with models := md }, .ok ()) := by
  obtain ⟨k, j⟩ := kj
  unfold fitCell at hf ⊢
  dsimp only at hf ⊢
  cases ha : activate F s.data j with
  | error e => rw [ha] at hf; cases hf
  | ok E =>
    rw [ha] at hf
    dsimp only at hf ⊢
    have hR : ActiveIn F s₀.data E := by
      rw [activate_congr F h.data] at ha
      obtain ⟨tv, h1, h2⟩ := activate_ok ha
      exact ⟨tv, List.mem_of_getElem? h1, h2⟩
    have hq := cellIn_quiet sp { s with data := E } md ext m (E.d.getD j "") k
    dsimp only at hq
    rw [hq]
    cases hci : cellIn sp { s with data := E } ext m (E.d.getD j "") k with
    | error e => rw [hci] at hf; cases hf
    | ok c =>
      rw [hci] at hf
      obtain ⟨f, cl, ps, e, _, hfs, _, _, hcc⟩ := cellIn_ok hci
      have hcd : c.data = E := by rw [hcc]
      have hcs : c.smpls = f := by rw [hcc]
      obtain ⟨l, hl, hk⟩ := repSmpls_ok hfs
      have hpart : isPartition c.smpls = true := by
        rw [hcs]
        exact hP l (by rw [← h.smpls]; exact hl) f (List.mem_of_getElem? hk)
      change (match sp.est c with
        | .error e => ({ s with data := E }, .error e)
        | .ok o => storeCell sp p m { s with data := E, start := o.start } k j o : MState n P M × Except Exc Unit).2 = .ok () at hf
      change (match sp.est c.quiet with
        | .error e => ({ s with data := E, models := md }, .error e)
        | .ok o => storeCell sp p false { s with data := E, models := md, start := o.start } k j o :
          MState n P M × Except Exc Unit) = ({ (match sp.est c with
        | .error e => ({ s with data := E }, .error e)
        | .ok o => storeCell sp p m { s with data := E, start := o.start } k j o : MState n P M × Except Exc Unit).1 with
          models := md }, .ok ())
      cases he : sp.est c with
      | error e => rw [he] at hf; cases hf
      | ok o =>
        rw [he] at hf
        obtain ⟨o', ho', heq⟩ := hest c hpart (by rw [hcd]; exact hR) o he
        rw [ho']
        have hst : o'.start = o.start := show o'.noModels.start = o.noModels.start by rw [heq]
        dsimp only at hf ⊢
        rw [hst]
        have := storeCell_quiet (sp := sp) (p := p) (m := m) (s := { s with data := E, start := o.start }) md k j heq
        dsimp only at this
        rw [this, hf]

theorem fitLoop_quiet {ext : ExtArg} {p m : Bool} (L : List (ℕ × ℕ)) {s : MState n P M} (h : SameSettings s₀ s)
    (hf : (fitLoop F sp ext p m s L).2 = .ok ()) :
    fitLoop F sp ext p false { s with models := md } L = ({ (fitLoop F sp ext p m s L).1 with models := md }, .ok ()) := by
  induction L generalizing s with
  | nil => rfl
  | cons kj L ih =>
    obtain ⟨h1, h2, h3⟩ := fitLoop_cons hf
    rw [h3]
    have hc := fitCell_quiet hP hest md h kj h1
    have hs := h.trans (fitCell_frame F sp ext p m s kj).settings
    rw [← ih hs h2]
    conv_lhs => unfold fitLoop
    rw [hc]

end loop

theorem finishAt_quiet {sp : Spec n P M} {r : ℕ} (s : MState n P M) (md : Option (ℕ → ℕ → Option (List (String × M)))) :
    finishAt r sp (aggregate sp { s with models := md }) =
      ({ (finishAt r sp (aggregate sp s)).1 with models := md }, (finishAt r sp (aggregate sp s)).2) := by
  unfold finishAt
  have e : frameworkOf r sp (aggregate sp { s with models := md }) = frameworkOf r sp (aggregate sp s) := rfl
  rw [e]
  cases (frameworkOf r sp (aggregate sp s)).construct with
  | error e => rfl
  | ok fw => rfl

theorem checkFit_store {sp : Spec n P M} {s : MState n P M} {a : FitArgs} {p m : Bool} (h : checkFit sp s a = .ok (p, m))
    (b : Bool) : checkFit sp s { a with storeModels := .bool b } = .ok (p, b) := by
  unfold checkFit at h ⊢
  obtain ⟨_, h1, h⟩ := bind_ok h
  obtain ⟨p', h2, h⟩ := bind_ok h
  obtain ⟨m', h3, h⟩ := bind_ok h
  obtain ⟨_, h4, h⟩ := bind_ok h
  have h := Except.ok.inj h
  simp only [Prod.mk.injEq] at h
  obtain ⟨rfl, rfl⟩ := h
  have h5 : checkBool (.bool b) = .ok b := rfl
  simp only [bind, Except.bind, h1, h2, h4, h5]
  rfl

/-! ## The theorem -/

/-- **C81.** A successful fit that stores the fitted models would have succeeded without storing them, and would have left the
same object but for the stored models: estimates, standard errors, scores, predictions, losses, sensitivity elements and
framework are the same. -/
theorem C81_storing_is_harmless {F : Frame n} {sp : LinSpec n P} {s : LinState n P} (hP : s.Partitions)
    (hsp : StoreClass (ActiveIn F s.data) sp) {a : FitArgs}
    (h : (fit F sp s { a with storeModels := .bool true }).2 = .ok ()) :
    fit F sp s { a with storeModels := .bool false } =
      ({ (fit F sp s { a with storeModels := .bool true }).1 with models := s.models }, .ok ()) := by
  obtain ⟨p, m, fw, h1, h2, h3, h4⟩ := fit_ok h
  obtain ⟨-, hm⟩ := checkFit_ok h1
  cases hm
  have hc := checkFit_store h1 false
  have hl := fitLoop_quiet hP hsp.cells s.models (cellOrder s.nRep s.data.d.length) (initFit_frame sp s p true).settings h2
  have hi : ({ initFit sp s p true with models := s.models } : LinState n P) = initFit sp s p false := by
    unfold initFit
    simp
  rw [hi] at hl
  have e1 := fit_eq (F := F) hc (by
    show (fitLoop F sp a.ext p false _ _).2 = _
    rw [hl])
  have e2 := fit_eq (F := F) h1 h2
  rw [e2] at h ⊢
  rw [e1]
  change finishAt _ sp (aggregate sp (fitLoop F sp a.ext p false (initFit sp s p false) (cellOrder s.nRep s.data.d.length)).1) = _
  rw [hl, finishAt_quiet, h]

end DML
