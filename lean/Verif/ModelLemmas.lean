import Verif.Model
import Verif.DataProps

/-!
# Lemmas about the model object
-/

namespace DML

open Finset

variable {n : ℕ} {P M : Type}

/-! ## Settings -/

/-- The data with treatment `tv` active, as the loop of `fit` leaves them: with several treatments the treatment
is selected, with one treatment the data are used as they are. -/
def activeData (F : Frame n) (D : DataState n) (tv : String) : DataState n :=
  if D.d.length > 1 then { D with dv := F.col tv, xv := (xdList D tv).map F.col } else D

/-- Two data states that differ at most in the treatment that happens to be active. -/
structure SameData (D D' : DataState n) : Prop where
  roles : D' = { D with dv := D'.dv, xv := D'.xv }
  active : D.d.length ≤ 1 → D' = D

theorem SameData.refl (D : DataState n) : SameData D D := ⟨rfl, fun _ => rfl⟩

theorem SameData.d {D D' : DataState n} (h : SameData D D') : D'.d = D.d := by rw [h.roles]

theorem SameData.trans {D D' D'' : DataState n} (h : SameData D D') (h' : SameData D' D'') : SameData D D'' := by
  refine ⟨?_, fun hl => (h'.active (by rw [h.d]; exact hl)).trans (h.active hl)⟩
  obtain ⟨h1, _⟩ := h
  obtain ⟨h2, _⟩ := h'
  rw [h2, h1]

theorem SameData.symm {D D' : DataState n} (h : SameData D D') : SameData D' D := by
  refine ⟨?_, fun hl => (h.active (by rw [← h.d]; exact hl)).symm⟩
  have h1 := h.roles
  generalize D'.dv = a at h1
  generalize D'.xv = b at h1
  subst h1
  rfl

theorem setXD_congr (F : Frame n) {D D' : DataState n} (h : SameData D D') (tv : String) :
    setXD F D' tv = setXD F D tv := by
  have h1 := h.roles
  generalize D'.dv = a at h1
  generalize D'.xv = b at h1
  subst h1
  rfl

theorem activate_congr (F : Frame n) {D D' : DataState n} (h : SameData D D') (j : ℕ) :
    activate F D' j = activate F D j := by
  unfold activate
  rw [h.d]
  cases hj : D.d[j]? with
  | none => rfl
  | some tv =>
    dsimp only
    by_cases hl : D.d.length > 1
    · rw [if_pos hl, if_pos hl, setXD_congr F h]
    · rw [if_neg hl, if_neg hl, h.active (by omega)]

theorem activeData_same (F : Frame n) (D : DataState n) (tv : String) : SameData D (activeData F D tv) := by
  unfold activeData
  split_ifs with h
  · exact ⟨rfl, fun hl => by omega⟩
  · exact .refl D

theorem activeData_congr (F : Frame n) {D D' : DataState n} (h : SameData D D') (tv : String) :
    activeData F D' tv = activeData F D tv := by
  have hd := h.d
  unfold activeData
  rw [hd]
  by_cases hl : D.d.length > 1
  · rw [if_pos hl, if_pos hl]
    have h1 := h.roles
    generalize D'.dv = a at h1
    generalize D'.xv = b at h1
    subst h1
    rfl
  · rw [if_neg hl, if_neg hl, h.active (by omega)]

theorem activate_ok {F : Frame n} {D D' : DataState n} {j : ℕ} (h : activate F D j = .ok D') :
    ∃ tv, D.d[j]? = some tv ∧ D' = activeData F D tv := by
  unfold activate at h
  cases hj : D.d[j]? with
  | none => rw [hj] at h; cases h
  | some tv =>
    rw [hj] at h
    dsimp only at h
    refine ⟨tv, rfl, ?_⟩
    unfold activeData
    split_ifs at h ⊢ with hl
    · exact (setXD_ok h).2
    · cases h; rfl

/-- Two model states with the same data (up to the active treatment), split, parameters and array shapes. -/
structure SameSettings (s s' : MState n P M) : Prop where
  data : SameData s.data s'.data
  smpls : s'.smpls = s.smpls
  smplsCluster : s'.smplsCluster = s.smplsCluster
  params : s'.params = s.params
  nRep : s'.nRep = s.nRep
  nFoldsPer : s'.nFoldsPer = s.nFoldsPer
  nT : (s'.heap s'.arr).nT = (s.heap s.arr).nT
  nR : (s'.heap s'.arr).nR = (s.heap s.arr).nR

theorem SameSettings.refl (s : MState n P M) : SameSettings s s :=
  ⟨.refl _, rfl, rfl, rfl, rfl, rfl, rfl, rfl⟩

theorem SameSettings.trans {s s' s'' : MState n P M} (h : SameSettings s s') (h' : SameSettings s' s'') :
    SameSettings s s'' :=
  ⟨h.data.trans h'.data, h'.smpls.trans h.smpls, h'.smplsCluster.trans h.smplsCluster, h'.params.trans h.params,
    h'.nRep.trans h.nRep, h'.nFoldsPer.trans h.nFoldsPer, h'.nT.trans h.nT, h'.nR.trans h.nR⟩

theorem SameSettings.symm {s s' : MState n P M} (h : SameSettings s s') : SameSettings s' s :=
  ⟨h.data.symm, h.smpls.symm, h.smplsCluster.symm, h.params.symm, h.nRep.symm, h.nFoldsPer.symm, h.nT.symm, h.nR.symm⟩

/-- What the loops of `fit` leave alone. -/
structure FitFrame (s s' : MState n P M) : Prop where
  settings : SameSettings s s'
  arr : s'.arr = s.arr
  next : s'.next = s.next
  nFolds : s'.nFolds = s.nFolds
  framework : s'.framework = s.framework
  coef : s'.coef = s.coef
  se : s'.se = s.se
  heap : ∀ a, a ≠ s.arr → s'.heap a = s.heap a

theorem FitFrame.refl (s : MState n P M) : FitFrame s s := ⟨.refl s, rfl, rfl, rfl, rfl, rfl, rfl, fun _ _ => rfl⟩

theorem FitFrame.trans {s s' s'' : MState n P M} (h : FitFrame s s') (h' : FitFrame s' s'') : FitFrame s s'' :=
  ⟨h.settings.trans h'.settings, h'.arr.trans h.arr, h'.next.trans h.next, h'.nFolds.trans h.nFolds,
    h'.framework.trans h.framework, h'.coef.trans h.coef, h'.se.trans h.se,
    fun a ha => (h'.heap a (by rw [h.arr]; exact ha)).trans (h.heap a ha)⟩

/-! ## One cell -/

/-- The estimation of cell `(k, j)` from the settings of `s`: `o` is what the model class computes from the
treatment `j` (active, with its covariates), the folds of repetition `k`, the parameters stored for this
treatment and repetition, the external predictions for this treatment and repetition, and some start value. -/
def CellEst (F : Frame n) (sp : Spec n P M) (s : MState n P M) (ext : ExtArg) (wantModels : Bool) (k j : ℕ)
    (o : CellOut n M) : Prop :=
  ∃ tv f c p e x, s.data.d[j]? = some tv ∧ setExt n ext sp.learners tv k = .ok e ∧ repSmpls s k = .ok f ∧
    repCluster sp s f k = .ok c ∧
    sp.learners.mapM (getParams s tv k) = .ok p ∧
    sp.est ⟨activeData F s.data tv, tv, f, c, p, e, x, wantModels, k⟩ = .ok o

theorem repSmpls_congr {s s' : MState n P M} (h : SameSettings s s') (k : ℕ) : repSmpls s' k = repSmpls s k := by
  unfold repSmpls; rw [h.smpls]

theorem getParams_congr {s s' : MState n P M} (h : SameSettings s s') (tv : String) (k : ℕ) :
    getParams s' tv k = getParams s tv k := by
  funext l; unfold getParams; rw [h.params]

theorem SameData.cv {D D' : DataState n} (h : SameData D D') : D'.cv = D.cv := by rw [h.roles]

theorem repCluster_congr {sp : Spec n P M} {s s' : MState n P M} (h : SameSettings s s') (f : List (Fold n)) (k : ℕ) :
    repCluster sp s' f k = repCluster sp s f k := by
  unfold repCluster; rw [h.smplsCluster, h.nFoldsPer, h.data.cv]

theorem SameSettings.withData {s s' : MState n P M} (h : SameSettings s s') (D : DataState n) :
    SameSettings { s with data := D } { s' with data := D } :=
  ⟨.refl _, h.smpls, h.smplsCluster, h.params, h.nRep, h.nFoldsPer, h.nT, h.nR⟩

theorem CellEst.congr {F : Frame n} {sp : Spec n P M} {s s' : MState n P M} (h : SameSettings s s') {ext : ExtArg}
    {wm : Bool} {k j : ℕ} {o : CellOut n M} (hc : CellEst F sp s ext wm k j o) : CellEst F sp s' ext wm k j o := by
  obtain ⟨tv, f, c, p, e, x, h1, h2, h3, h4, h5, h6⟩ := hc
  refine ⟨tv, f, c, p, e, x, by rw [h.data.d]; exact h1, h2, by rw [repSmpls_congr h]; exact h3, ?_,
    by rw [getParams_congr h]; exact h5, by rw [activeData_congr F h.data]; exact h6⟩
  rw [repCluster_congr h]
  exact h4

theorem cellIn_ok {sp : Spec n P M} {s : MState n P M} {ext : ExtArg} {wm : Bool} {tv : String} {k : ℕ}
    {c : CellIn n P} (h : cellIn sp s ext wm tv k = .ok c) :
    ∃ f cl p e, setExt n ext sp.learners tv k = .ok e ∧ repSmpls s k = .ok f ∧ repCluster sp s f k = .ok cl ∧
      sp.learners.mapM (getParams s tv k) = .ok p ∧ c = ⟨s.data, tv, f, cl, p, e, s.start, wm, k⟩ := by
  unfold cellIn at h
  obtain ⟨e, he, h⟩ := bind_ok h
  obtain ⟨f, hf, h⟩ := bind_ok h
  obtain ⟨cl, hcl, h⟩ := bind_ok h
  obtain ⟨p, hp, h⟩ := bind_ok h
  exact ⟨f, cl, p, e, he, hf, hcl, hp, (Except.ok.inj h).symm⟩

theorem getD_of_getElem? {l : List String} {j : ℕ} {tv : String} (h : l[j]? = some tv) : l.getD j "" = tv := by
  rw [List.getD_eq_getElem?_getD, h]; rfl

theorem writeCell_frame (sp : Spec n P M) (p m : Bool) (s : MState n P M) (k j : ℕ) (o : CellOut n M)
    (l : List (String × Option ℝ)) : FitFrame s (writeCell sp p m s k j o l) := by
  refine ⟨⟨.refl _, rfl, rfl, rfl, rfl, rfl, ?_, ?_⟩, rfl, rfl, rfl, rfl, rfl, rfl, ?_⟩
  · simp [writeCell]
  · simp [writeCell]
  · intro a ha; simp [writeCell, ha]

theorem withData_frame (s : MState n P M) (D : DataState n) (x : ℝ) (h : SameData s.data D) :
    FitFrame s { s with data := D, start := x } :=
  ⟨⟨h, rfl, rfl, rfl, rfl, rfl, rfl, rfl⟩, rfl, rfl, rfl, rfl, rfl, rfl, fun _ _ => rfl⟩

theorem storeCell_frame (sp : Spec n P M) (p m : Bool) (s : MState n P M) (k j : ℕ) (o : CellOut n M) :
    FitFrame s (storeCell sp p m s k j o).1 := by
  unfold storeCell
  split
  · cases calcLoss sp o.preds o.targets with
    | error e => exact .refl s
    | ok l => exact writeCell_frame sp p m s k j o l
  · exact .refl s

/-- Successful or not, a cell leaves the rest of the object alone. -/
theorem fitCell_frame (F : Frame n) (sp : Spec n P M) (ext : ExtArg) (p m : Bool) (s : MState n P M) (kj : ℕ × ℕ) :
    FitFrame s (fitCell F sp ext p m s kj).1 := by
  unfold fitCell
  cases ha : activate F s.data kj.2 with
  | error e => exact .refl s
  | ok D =>
    obtain ⟨tv, _, hD⟩ := activate_ok ha
    have hs : SameData s.data D := hD ▸ activeData_same F s.data tv
    dsimp only
    cases (cellIn sp { s with data := D } ext m (D.d.getD kj.2 "") kj.1).bind sp.est with
    | error e => exact withData_frame s D s.start hs
    | ok o => exact (withData_frame s D o.start hs).trans (storeCell_frame sp p m _ kj.1 kj.2 o)

/-- A successful cell estimates from the current settings and writes exactly one entry per array. -/
theorem fitCell_ok {F : Frame n} {sp : Spec n P M} {ext : ExtArg} {p m : Bool} {s : MState n P M} {k j : ℕ}
    (h : (fitCell F sp ext p m s (k, j)).2 = .ok ()) :
    ∃ D o l, SameData s.data D ∧ CellEst F sp s ext m k j o ∧ calcLoss sp o.preds o.targets = .ok l ∧
      j < (s.heap s.arr).nT ∧ k < (s.heap s.arr).nR ∧
      (fitCell F sp ext p m s (k, j)).1 = writeCell sp p m { s with data := D, start := o.start } k j o l := by
  unfold fitCell at h ⊢
  cases ha : activate F s.data j with
  | error e => rw [ha] at h; cases h
  | ok D =>
    obtain ⟨tv, htv, hD⟩ := activate_ok ha
    have hs : SameData s.data D := hD ▸ activeData_same F s.data tv
    rw [ha] at h
    dsimp only at h ⊢
    have hname : D.d.getD j "" = tv := by rw [hs.d]; exact getD_of_getElem? htv
    rw [hname] at h ⊢
    cases hc : (cellIn sp { s with data := D } ext m tv k).bind sp.est with
    | error e => rw [hc] at h; cases h
    | ok o =>
      rw [hc] at h
      dsimp only at h ⊢
      obtain ⟨ci, hci, ho⟩ := bind_ok hc
      obtain ⟨f, cl, ps, e, h1, h2, h3, h4, h5⟩ := cellIn_ok hci
      unfold storeCell at h ⊢
      by_cases hb : j < (s.heap s.arr).nT ∧ k < (s.heap s.arr).nR
      swap
      · rw [if_neg hb] at h; cases h
      rw [if_pos hb] at h ⊢
      cases hl : calcLoss sp o.preds o.targets with
      | error e => rw [hl] at h; cases h
      | ok l =>
        refine ⟨D, o, l, hs, ?_, hl, hb.1, hb.2, rfl⟩
        subst h5
        have hd : SameSettings s { s with data := D } := ⟨hs, rfl, rfl, rfl, rfl, rfl, rfl, rfl⟩
        rw [repCluster_congr hd] at h3
        subst hD
        exact ⟨tv, f, cl, ps, e, _, htv, h1, h2, h3, h4, ho⟩

/-! ## The loops -/

theorem fitLoop_frame (F : Frame n) (sp : Spec n P M) (ext : ExtArg) (p m : Bool) (L : List (ℕ × ℕ))
    (s : MState n P M) : FitFrame s (fitLoop F sp ext p m s L).1 := by
  induction L generalizing s with
  | nil => exact .refl s
  | cons c cs ih =>
    have h := fitCell_frame F sp ext p m s c
    unfold fitLoop
    rcases hq : fitCell F sp ext p m s c with ⟨s', (e | u)⟩
    · rw [hq] at h; exact h
    · rw [hq] at h; exact h.trans (ih s')

theorem fitLoop_cons {F : Frame n} {sp : Spec n P M} {ext : ExtArg} {p m : Bool} {c : ℕ × ℕ} {cs : List (ℕ × ℕ)}
    {s : MState n P M} (h : (fitLoop F sp ext p m s (c :: cs)).2 = .ok ()) :
    (fitCell F sp ext p m s c).2 = .ok () ∧
      (fitLoop F sp ext p m (fitCell F sp ext p m s c).1 cs).2 = .ok () ∧
      fitLoop F sp ext p m s (c :: cs) = fitLoop F sp ext p m (fitCell F sp ext p m s c).1 cs := by
  unfold fitLoop at h
  rw [show fitLoop F sp ext p m s (c :: cs) = (match fitCell F sp ext p m s c with
    | (s, .error e) => (s, .error e)
    | (s, .ok ()) => fitLoop F sp ext p m s cs) from rfl]
  rcases hq : fitCell F sp ext p m s c with ⟨s', (e | u)⟩
  · rw [hq] at h; cases h
  · rw [hq] at h; exact ⟨rfl, h, rfl⟩

theorem fitLoop_append (F : Frame n) (sp : Spec n P M) (ext : ExtArg) (p m : Bool) (L L' : List (ℕ × ℕ))
    (s : MState n P M) (h : (fitLoop F sp ext p m s (L ++ L')).2 = .ok ()) :
    (fitLoop F sp ext p m s L).2 = .ok () ∧
      fitLoop F sp ext p m s (L ++ L') = fitLoop F sp ext p m (fitLoop F sp ext p m s L).1 L' := by
  induction L generalizing s with
  | nil => exact ⟨rfl, rfl⟩
  | cons c cs ih =>
    obtain ⟨h1, h2, h3⟩ := fitLoop_cons h
    obtain ⟨h4, h5⟩ := ih _ h2
    have h6 : fitLoop F sp ext p m s (c :: cs) = fitLoop F sp ext p m (fitCell F sp ext p m s c).1 cs := by
      rw [fitLoop]
      rcases hq : fitCell F sp ext p m s c with ⟨s', (e | u)⟩
      · rw [hq] at h1; cases h1
      · rfl
    rw [h6]
    exact ⟨h4, h3.trans h5⟩

/-- The stored results of cell `(k, j)`. -/
structure Stored (sp : Spec n P M) (p m : Bool) (s : MState n P M) (k j : ℕ) (o : CellOut n M) : Prop where
  coef : (s.heap s.arr).coef j k = some o.fit.coef
  se : (s.heap s.arr).se j k = some o.fit.se
  scores : s.scores j k = some (o.fit.psi, o.fit.deriv)
  loss : ∀ f, s.loss = some f → ∃ l, calcLoss sp o.preds o.targets = .ok l ∧ f j k = some l
  preds : p = true → ∀ f, s.preds = some f → f j k = some (o.preds, o.targets)
  models : m = true → ∀ f, s.models = some f → f j k = some o.models
  sens : sp.sensImpl = true → ∀ f, s.sens = some f → f j k = some o.sens

/-- The entries of cell `(k, j)` are the same in two states. -/
structure SameCell (s s' : MState n P M) (k j : ℕ) : Prop where
  coef : (s'.heap s'.arr).coef j k = (s.heap s.arr).coef j k
  se : (s'.heap s'.arr).se j k = (s.heap s.arr).se j k
  scores : s'.scores j k = s.scores j k
  loss : s'.loss.map (fun f => f j k) = s.loss.map fun f => f j k
  preds : s'.preds.map (fun f => f j k) = s.preds.map fun f => f j k
  models : s'.models.map (fun f => f j k) = s.models.map fun f => f j k
  sens : s'.sens.map (fun f => f j k) = s.sens.map fun f => f j k

theorem SameCell.refl (s : MState n P M) (k j : ℕ) : SameCell s s k j := ⟨rfl, rfl, rfl, rfl, rfl, rfl, rfl⟩

theorem SameCell.trans {s s' s'' : MState n P M} {k j : ℕ} (h : SameCell s s' k j) (h' : SameCell s' s'' k j) :
    SameCell s s'' k j :=
  ⟨h'.coef.trans h.coef, h'.se.trans h.se, h'.scores.trans h.scores, h'.loss.trans h.loss, h'.preds.trans h.preds,
    h'.models.trans h.models, h'.sens.trans h.sens⟩

theorem of_map_eq {α : Type} {o o' : Option (ℕ → ℕ → α)} {j k : ℕ} {f : ℕ → ℕ → α}
    (h : o'.map (fun f => f j k) = o.map fun f => f j k) (h' : o' = some f) : ∃ g, o = some g ∧ g j k = f j k := by
  subst h'
  cases o with
  | none => cases h
  | some g => exact ⟨g, rfl, (Option.some.inj h).symm⟩

theorem Stored.same {sp : Spec n P M} {p m : Bool} {s s' : MState n P M} {k j : ℕ} {o : CellOut n M}
    (h : Stored sp p m s k j o) (hs : SameCell s s' k j) : Stored sp p m s' k j o := by
  refine ⟨hs.coef.trans h.coef, hs.se.trans h.se, hs.scores.trans h.scores, ?_, ?_, ?_, ?_⟩
  · intro f hf
    obtain ⟨g, hg, hgf⟩ := of_map_eq hs.loss hf
    rw [← hgf]; exact h.loss g hg
  · intro hp f hf
    obtain ⟨g, hg, hgf⟩ := of_map_eq hs.preds hf
    rw [← hgf]; exact h.preds hp g hg
  · intro hp f hf
    obtain ⟨g, hg, hgf⟩ := of_map_eq hs.models hf
    rw [← hgf]; exact h.models hp g hg
  · intro hp f hf
    obtain ⟨g, hg, hgf⟩ := of_map_eq hs.sens hf
    rw [← hgf]; exact h.sens hp g hg

theorem set2_self {α : Type} (f : ℕ → ℕ → α) (j k : ℕ) (v : α) : set2 f j k v j k = v := by simp [set2]

theorem set2_ne {α : Type} (f : ℕ → ℕ → α) {j k a b : ℕ} (v : α) (h : ¬ (a = j ∧ b = k)) : set2 f j k v a b = f a b := by
  simp [set2, h]

theorem writeCell_stored (sp : Spec n P M) (p m : Bool) (s : MState n P M) (k j : ℕ) (o : CellOut n M)
    {l : List (String × Option ℝ)} (hl : calcLoss sp o.preds o.targets = .ok l) :
    Stored sp p m (writeCell sp p m s k j o l) k j o := by
  refine ⟨?_, ?_, set2_self _ _ _ _, ?_, ?_, ?_, ?_⟩
  · simp [writeCell, set2_self]
  · simp [writeCell, set2_self]
  · intro f hf
    simp only [writeCell, Option.map_eq_some_iff] at hf
    obtain ⟨g, _, rfl⟩ := hf
    exact ⟨l, hl, set2_self _ _ _ _⟩
  · intro hp f hf
    simp only [writeCell, hp, if_true, Option.map_eq_some_iff] at hf
    obtain ⟨g, _, rfl⟩ := hf
    exact set2_self _ _ _ _
  · intro hp f hf
    simp only [writeCell, hp, if_true, Option.map_eq_some_iff] at hf
    obtain ⟨g, _, rfl⟩ := hf
    exact set2_self _ _ _ _
  · intro hp f hf
    simp only [writeCell, hp, if_true, Option.map_eq_some_iff] at hf
    obtain ⟨g, _, rfl⟩ := hf
    exact set2_self _ _ _ _

theorem map_set2_ne {α : Type} (o : Option (ℕ → ℕ → α)) {j k a b : ℕ} (v : α) (h : ¬ (a = j ∧ b = k)) :
    (o.map fun f => set2 f j k v).map (fun f => f a b) = o.map fun f => f a b := by
  cases o with
  | none => rfl
  | some f => simp [set2, h]

theorem writeCell_other (sp : Spec n P M) (p m : Bool) (s : MState n P M) {k j k' j' : ℕ} (o : CellOut n M)
    (l : List (String × Option ℝ)) (h : (k', j') ≠ (k, j)) : SameCell s (writeCell sp p m s k j o l) k' j' := by
  have h' : ¬ (j' = j ∧ k' = k) := fun hh => h (by rw [hh.1, hh.2])
  refine ⟨?_, ?_, set2_ne _ _ h', map_set2_ne _ _ h', ?_, ?_, ?_⟩
  · simp [writeCell, set2_ne _ _ h']
  · simp [writeCell, set2_ne _ _ h']
  · simp only [writeCell]
    cases p with
    | true => exact map_set2_ne _ _ h'
    | false => rfl
  · simp only [writeCell]
    cases m with
    | true => exact map_set2_ne _ _ h'
    | false => rfl
  · simp only [writeCell]
    cases sp.sensImpl with
    | true => exact map_set2_ne _ _ h'
    | false => rfl

/-- Cells outside the list are not touched. -/
theorem fitLoop_other {F : Frame n} {sp : Spec n P M} {ext : ExtArg} {p m : Bool} (L : List (ℕ × ℕ))
    (s : MState n P M) {k j : ℕ} (hk : (k, j) ∉ L) (h : (fitLoop F sp ext p m s L).2 = .ok ()) :
    SameCell s (fitLoop F sp ext p m s L).1 k j := by
  induction L generalizing s with
  | nil => exact .refl s k j
  | cons c cs ih =>
    obtain ⟨h1, h2, h3⟩ := fitLoop_cons h
    rw [h3]
    rcases c with ⟨k', j'⟩
    obtain ⟨D, o, l, _, _, _, _, _, hw⟩ := fitCell_ok h1
    have hne : (k, j) ≠ (k', j') := fun hh => hk (by rw [hh]; exact List.mem_cons_self ..)
    have h4 : SameCell s (fitCell F sp ext p m s (k', j')).1 k j := by
      rw [hw]
      have h6 : SameCell s { s with data := D, start := o.start } k j := ⟨rfl, rfl, rfl, rfl, rfl, rfl, rfl⟩
      exact h6.trans (writeCell_other sp p m { s with data := D, start := o.start } o l hne)
    exact h4.trans (ih _ (fun hh => hk (List.mem_cons_of_mem _ hh)) h2)

/-- After a successful run of the loops every cell of the list holds what the model class computes for it
from the settings. -/
theorem fitLoop_stored {F : Frame n} {sp : Spec n P M} {ext : ExtArg} {p m : Bool} (L : List (ℕ × ℕ))
    (s : MState n P M) (h : (fitLoop F sp ext p m s L).2 = .ok ()) {k j : ℕ} (hk : (k, j) ∈ L) :
    ∃ o, CellEst F sp s ext m k j o ∧ Stored sp p m (fitLoop F sp ext p m s L).1 k j o ∧
      j < (s.heap s.arr).nT ∧ k < (s.heap s.arr).nR := by
  induction L generalizing s with
  | nil => cases hk
  | cons c cs ih =>
    obtain ⟨h1, h2, h3⟩ := fitLoop_cons h
    have hf := fitCell_frame F sp ext p m s c
    rw [h3]
    by_cases hcs : (k, j) ∈ cs
    · obtain ⟨o, ho, hst, hj, hr⟩ := ih _ h2 hcs
      exact ⟨o, ho.congr hf.settings.symm, hst, by rw [← hf.settings.nT]; exact hj, by rw [← hf.settings.nR]; exact hr⟩
    · have hc : (k, j) = c := by
        rcases List.mem_cons.1 hk with h' | h'
        · exact h'
        · exact absurd h' hcs
      subst hc
      obtain ⟨D, o, l, _, ho, hl, hj, hr, hw⟩ := fitCell_ok h1
      refine ⟨o, ho, ?_, hj, hr⟩
      have h5 := fitLoop_other cs _ hcs h2
      rw [hw] at h5
      rw [hw]
      exact (writeCell_stored sp p m _ k j o hl).same h5

theorem writeCell_vsf (sp : Spec n P M) (p m : Bool) (s : MState n P M) (k j : ℕ) (o : CellOut n M)
    (l : List (String × Option ℝ)) : ((writeCell sp p m s k j o l).heap (writeCell sp p m s k j o l).arr).vsf =
      Function.update (s.heap s.arr).vsf j (some o.fit.vsf) := by simp [writeCell]

theorem fitLoop_vsf_other {F : Frame n} {sp : Spec n P M} {ext : ExtArg} {p m : Bool} (L : List (ℕ × ℕ))
    (s : MState n P M) {j : ℕ} (hj : j ∉ L.map Prod.snd) (h : (fitLoop F sp ext p m s L).2 = .ok ()) :
    ((fitLoop F sp ext p m s L).1.heap (fitLoop F sp ext p m s L).1.arr).vsf j = (s.heap s.arr).vsf j := by
  induction L generalizing s with
  | nil => rfl
  | cons c cs ih =>
    obtain ⟨h1, h2, h3⟩ := fitLoop_cons h
    rcases c with ⟨k', j'⟩
    obtain ⟨D, o, l, _, _, _, _, _, hw⟩ := fitCell_ok h1
    simp only [List.map_cons, List.mem_cons, not_or] at hj
    rw [h3, ih _ hj.2 h2, hw, writeCell_vsf, Function.update_of_ne hj.1]

/-- The scaling factor of treatment `j` is the one of the last repetition. -/
theorem fitLoop_vsf {F : Frame n} {sp : Spec n P M} {ext : ExtArg} {p m : Bool} (L L' : List (ℕ × ℕ))
    (s : MState n P M) {k j : ℕ} (hj : j ∉ L'.map Prod.snd) (h : (fitLoop F sp ext p m s (L ++ (k, j) :: L')).2 = .ok ()) :
    ∃ o, CellEst F sp s ext m k j o ∧
      ((fitLoop F sp ext p m s (L ++ (k, j) :: L')).1.heap (fitLoop F sp ext p m s (L ++ (k, j) :: L')).1.arr).vsf j =
        some o.fit.vsf := by
  obtain ⟨h1, h2⟩ := fitLoop_append F sp ext p m L _ s h
  rw [h2] at h
  obtain ⟨h3, h4, h5⟩ := fitLoop_cons h
  have hf := fitLoop_frame F sp ext p m L s
  obtain ⟨D, o, l, _, ho, _, _, _, hw⟩ := fitCell_ok h3
  refine ⟨o, ho.congr hf.settings.symm, ?_⟩
  rw [h2, h5, fitLoop_vsf_other L' _ hj h4, hw, writeCell_vsf, Function.update_self]

theorem mem_cellOrder {r t k j : ℕ} : (k, j) ∈ cellOrder r t ↔ k < r ∧ j < t := by
  simp only [cellOrder, List.mem_flatMap, List.mem_range, List.mem_map, Prod.mk.injEq]
  constructor
  · rintro ⟨a, ha, b, hb, rfl, rfl⟩; exact ⟨ha, hb⟩
  · rintro ⟨h1, h2⟩; exact ⟨k, h1, j, h2, rfl, rfl⟩

theorem cellOrder_succ (r t : ℕ) : cellOrder (r + 1) t = cellOrder r t ++ (List.range t).map fun j => (r, j) := by
  simp [cellOrder, List.range_succ, List.flatMap_append]

theorem cellOrder_split {r t j : ℕ} (hr : 0 < r) (hj : j < t) :
    ∃ L L', cellOrder r t = L ++ (r - 1, j) :: L' ∧ j ∉ L'.map Prod.snd := by
  obtain ⟨r, rfl⟩ : ∃ q, r = q + 1 := ⟨r - 1, by omega⟩
  obtain ⟨u, rfl⟩ : ∃ u, t = j + 1 + u := ⟨t - (j + 1), by omega⟩
  refine ⟨cellOrder r (j + 1 + u) ++ (List.range j).map (fun j => (r, j)),
    (List.range u).map (fun i => (r, j + 1 + i)), ?_, ?_⟩
  · rw [cellOrder_succ, List.range_add, List.range_succ]
    simp [List.append_assoc]
  · simp only [List.map_map, List.mem_map, List.mem_range, Function.comp, not_exists, not_and]
    intro x _ h; omega

/-! ## fit as a whole -/

theorem initFit_frame (sp : Spec n P M) (s : MState n P M) (p m : Bool) : FitFrame s (initFit sp s p m) :=
  ⟨⟨.refl _, rfl, rfl, rfl, rfl, rfl, rfl, rfl⟩, rfl, rfl, rfl, rfl, rfl, rfl, fun _ _ => rfl⟩

theorem finishAt_ok {r : ℕ} {sp : Spec n P M} {s : MState n P M} (h : (finishAt r sp s).2 = .ok ()) :
    ∃ fw, (frameworkOf r sp s).construct = .ok fw ∧
      (finishAt r sp s).1 = { s with framework := some ⟨r, s.arr, { fw := fw }⟩ } := by
  unfold finishAt at h ⊢
  cases hc : (frameworkOf r sp s).construct with
  | error e => rw [hc] at h; cases h
  | ok fw => exact ⟨fw, rfl, rfl⟩

/-- A successful fit is a successful run of the loops followed by the aggregation and the construction of a new
framework. -/
theorem fit_ok {F : Frame n} {sp : Spec n P M} {s : MState n P M} {a : FitArgs} (h : (fit F sp s a).2 = .ok ()) :
    ∃ p m fw, checkFit sp s a = .ok (p, m) ∧
      (fitLoop F sp a.ext p m (initFit sp s p m) (cellOrder s.nRep s.data.d.length)).2 = .ok () ∧
      (frameworkOf (s.heap s.arr).nR sp
        (aggregate sp (fitLoop F sp a.ext p m (initFit sp s p m) (cellOrder s.nRep s.data.d.length)).1)).construct =
        .ok fw ∧
      (fit F sp s a).1 =
        { aggregate sp (fitLoop F sp a.ext p m (initFit sp s p m) (cellOrder s.nRep s.data.d.length)).1 with
          framework := some ⟨(s.heap s.arr).nR, s.arr, { fw := fw }⟩ } := by
  have hfr : ∀ p m, FitFrame s (fitLoop F sp a.ext p m (initFit sp s p m) (cellOrder s.nRep s.data.d.length)).1 :=
    fun p m => (initFit_frame sp s p m).trans (fitLoop_frame F sp a.ext p m _ _)
  unfold fit at h ⊢
  cases hc : checkFit sp s a with
  | error e => rw [hc] at h; cases h
  | ok pm =>
    rcases pm with ⟨p, m⟩
    rw [hc] at h
    dsimp only at h ⊢
    have hf := hfr p m
    rcases hq : fitLoop F sp a.ext p m (initFit sp s p m) (cellOrder s.nRep s.data.d.length) with ⟨s', (e | u)⟩
    · rw [hq] at h; cases h
    · rw [hq] at h hf
      dsimp only at h hf ⊢
      rw [hf.settings.nR] at h ⊢
      obtain ⟨fw, h1, h2⟩ := finishAt_ok h
      refine ⟨p, m, fw, rfl, by rw [hq], by rw [hq]; exact h1, ?_⟩
      rw [h2, hq]
      have harr : (aggregate sp s').arr = s.arr := hf.arr
      rw [harr]

end DML
