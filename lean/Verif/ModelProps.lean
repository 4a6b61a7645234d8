import Verif.ModelLemmas
import Verif.FrameworkStateProps
import Verif.SplittingProps

/-!
# Properties of the model object: refitting, re-splitting, held frameworks, several treatments

C29 (fit is a function of data, split and settings), C30 (changing the split), C31 (frameworks obtained
earlier), C32 (several treatments).
-/

namespace DML

open Finset

variable {n : ℕ} {P M : Type}

/-! ## Two runs of fit from the same settings -/

/-- The result of a cell without the start value. -/
def CellOut.forget (o : CellOut n M) : CellOut n M := { o with start := 0 }

/-- A model class whose results do not depend on the start value of the root search.  All linear scores are of
this kind. -/
def StartFree (sp : Spec n P M) : Prop :=
  ∀ (c : CellIn n P) (x : ℝ), (sp.est { c with start := x }).map CellOut.forget = (sp.est c).map CellOut.forget

/-- The arrays have one row per treatment and one column per repetition, and there is a repetition. -/
structure Shaped (s : MState n P M) : Prop where
  pos : 0 < s.nRep
  nT : (s.heap s.arr).nT = s.data.d.length
  nR : (s.heap s.arr).nR = s.nRep

theorem map_ok {α β : Type} {x : Except Exc α} {f : α → β} {b : β} (h : x.map f = .ok b) : ∃ a, x = .ok a ∧ f a = b := by
  cases x with
  | error e => cases h
  | ok a => exact ⟨a, rfl, Except.ok.inj h⟩

theorem cellIn_congr {sp : Spec n P M} {s s' : MState n P M} (h : SameSettings s s') (ext : ExtArg) (m : Bool)
    (tv : String) (k : ℕ) :
    cellIn sp s' ext m tv k = (cellIn sp s ext m tv k).map fun c => { c with data := s'.data, start := s'.start } := by
  unfold cellIn
  rw [repSmpls_congr h, getParams_congr h]
  cases setExt n ext sp.learners tv k with
  | error e => rfl
  | ok e =>
    cases repSmpls s k with
    | error e => rfl
    | ok f =>
      simp only [bind, Except.bind]
      rw [repCluster_congr h]
      cases repCluster sp s f k with
      | error e => rfl
      | ok c =>
        simp only
        cases List.mapM (getParams s tv k) sp.learners with
        | error e => rfl
        | ok p => rfl

/-- The estimation of one cell from two states with the same settings. -/
theorem est_congr {sp : Spec n P M} (hsf : StartFree sp) {s s' : MState n P M} (h : SameSettings s s') (D : DataState n)
    (ext : ExtArg) (m : Bool) (tv : String) (k : ℕ) :
    ((cellIn sp { s' with data := D } ext m tv k).bind sp.est).map CellOut.forget =
      ((cellIn sp { s with data := D } ext m tv k).bind sp.est).map CellOut.forget := by
  rw [cellIn_congr (h.withData D)]
  cases hc : cellIn sp { s with data := D } ext m tv k with
  | error e => rfl
  | ok c =>
    obtain ⟨f, cl, ps, e, _, _, _, _, rfl⟩ := cellIn_ok hc
    exact hsf ⟨D, tv, f, cl, ps, e, s.start, m, k⟩ s'.start

theorem forget_fields {o o' : CellOut n M} (h : o'.forget = o.forget) :
    o'.fit = o.fit ∧ o'.preds = o.preds ∧ o'.targets = o.targets ∧ o'.models = o.models ∧ o'.sens = o.sens := by
  simp only [CellOut.forget, CellOut.mk.injEq] at h
  exact ⟨h.1, h.2.1, h.2.2.1, h.2.2.2.1, h.2.2.2.2.1⟩

/-- The tables a fit fills are present. -/
structure Tables (sp : Spec n P M) (p m : Bool) (s : MState n P M) : Prop where
  loss : s.loss.isSome
  preds : p = true → s.preds.isSome
  models : m = true → s.models.isSome
  sens : sp.sensImpl = true → s.sens.isSome

theorem initFit_tables (sp : Spec n P M) (s : MState n P M) (p m : Bool) : Tables sp p m (initFit sp s p m) := by
  refine ⟨rfl, fun h => ?_, fun h => ?_, fun h => ?_⟩ <;> simp [initFit, h]

theorem writeCell_tables {sp : Spec n P M} {p m : Bool} {s : MState n P M} (h : Tables sp p m s) (k j : ℕ)
    (o : CellOut n M) (l : List (String × Option ℝ)) : Tables sp p m (writeCell sp p m s k j o l) := by
  refine ⟨?_, fun hp => ?_, fun hp => ?_, fun hp => ?_⟩
  · simp [writeCell, h.loss]
  · simp [writeCell, hp, h.preds hp]
  · simp [writeCell, hp, h.models hp]
  · simp [writeCell, hp, h.sens hp]

theorem Tables.withData {sp : Spec n P M} {p m : Bool} {s : MState n P M} (h : Tables sp p m s) (D : DataState n) (x : ℝ) :
    Tables sp p m { s with data := D, start := x } := ⟨h.loss, h.preds, h.models, h.sens⟩

/-- What a fit reports for cell `(k, j)` is the same in two states. -/
structure SameReport (sp : Spec n P M) (p m : Bool) (s s' : MState n P M) (k j : ℕ) : Prop where
  coef : (s'.heap s'.arr).coef j k = (s.heap s.arr).coef j k
  se : (s'.heap s'.arr).se j k = (s.heap s.arr).se j k
  scores : s'.scores j k = s.scores j k
  loss : s'.loss.map (fun f => f j k) = s.loss.map fun f => f j k
  preds : p = true → s'.preds.map (fun f => f j k) = s.preds.map fun f => f j k
  models : m = true → s'.models.map (fun f => f j k) = s.models.map fun f => f j k
  sens : sp.sensImpl = true → s'.sens.map (fun f => f j k) = s.sens.map fun f => f j k

theorem SameReport.of_same {sp : Spec n P M} {p m : Bool} {s s' t t' : MState n P M} {k j : ℕ}
    (h : SameReport sp p m s s' k j) (h1 : SameCell s t k j) (h2 : SameCell s' t' k j) : SameReport sp p m t t' k j :=
  ⟨h2.coef.trans (h.coef.trans h1.coef.symm), h2.se.trans (h.se.trans h1.se.symm),
    h2.scores.trans (h.scores.trans h1.scores.symm), h2.loss.trans (h.loss.trans h1.loss.symm),
    fun hp => h2.preds.trans ((h.preds hp).trans h1.preds.symm),
    fun hp => h2.models.trans ((h.models hp).trans h1.models.symm),
    fun hp => h2.sens.trans ((h.sens hp).trans h1.sens.symm)⟩

theorem map_set2_some {α : Type} {o : Option (ℕ → ℕ → α)} (h : o.isSome) (j k : ℕ) (v : α) :
    (o.map fun f => set2 f j k v).map (fun f => f j k) = some v := by
  cases o with
  | none => cases h
  | some f => simp [set2]

theorem writeCell_report {sp : Spec n P M} {p m : Bool} {s s' : MState n P M} (h : Tables sp p m s)
    (h' : Tables sp p m s') (k j : ℕ) {o o' : CellOut n M} (ho : o'.forget = o.forget) (l : List (String × Option ℝ)) :
    SameReport sp p m (writeCell sp p m s k j o l) (writeCell sp p m s' k j o' l) k j := by
  obtain ⟨h1, h2, h3, h4, h5⟩ := forget_fields ho
  refine ⟨?_, ?_, ?_, ?_, fun hp => ?_, fun hp => ?_, fun hp => ?_⟩
  · simp [writeCell, set2, h1]
  · simp [writeCell, set2, h1]
  · simp [writeCell, set2, h1]
  · simp only [writeCell]; rw [map_set2_some h.loss, map_set2_some h'.loss]
  · simp only [writeCell, hp, if_true]; rw [map_set2_some (h.preds hp), map_set2_some (h'.preds hp), h2, h3]
  · simp only [writeCell, hp, if_true]; rw [map_set2_some (h.models hp), map_set2_some (h'.models hp), h4]
  · simp only [writeCell, hp, if_true]; rw [map_set2_some (h.sens hp), map_set2_some (h'.sens hp), h5]

/-- One cell from two states with the same settings. -/
theorem fitCell_sim {F : Frame n} {sp : Spec n P M} (hsf : StartFree sp) {ext : ExtArg} {p m : Bool}
    {s s' : MState n P M} (h : SameSettings s s') (kj : ℕ × ℕ) :
    (fitCell F sp ext p m s' kj).2 = (fitCell F sp ext p m s kj).2 ∧
      ((fitCell F sp ext p m s kj).2 = .ok () → ∃ D o o' l, o'.forget = o.forget ∧
        (fitCell F sp ext p m s kj).1 = writeCell sp p m { s with data := D, start := o.start } kj.1 kj.2 o l ∧
        (fitCell F sp ext p m s' kj).1 = writeCell sp p m { s' with data := D, start := o'.start } kj.1 kj.2 o' l) := by
  unfold fitCell
  rw [activate_congr F h.data]
  cases activate F s.data kj.2 with
  | error e => exact ⟨rfl, fun hh => by cases hh⟩
  | ok D =>
    dsimp only
    have he := est_congr hsf h D ext m (D.d.getD kj.2 "") kj.1
    cases h1 : (cellIn sp { s with data := D } ext m (D.d.getD kj.2 "") kj.1).bind sp.est with
    | error e =>
      rw [h1] at he
      cases h2 : (cellIn sp { s' with data := D } ext m (D.d.getD kj.2 "") kj.1).bind sp.est with
      | ok o => rw [h2] at he; cases he
      | error e' =>
        rw [h2] at he
        refine ⟨?_, fun hh => by cases hh⟩
        exact congrArg Except.error (Except.error.inj he)
    | ok o =>
      rw [h1] at he
      obtain ⟨o', h2, ho⟩ := map_ok he
      rw [h2]
      dsimp only
      obtain ⟨_, hp, ht, _, _⟩ := forget_fields ho
      unfold storeCell
      dsimp only
      rw [h.nT, h.nR]
      by_cases hb : kj.2 < (s.heap s.arr).nT ∧ kj.1 < (s.heap s.arr).nR
      swap
      · rw [if_neg hb, if_neg hb]; exact ⟨rfl, fun hh => by cases hh⟩
      rw [if_pos hb, if_pos hb, hp, ht]
      cases calcLoss sp o.preds o.targets with
      | error e => exact ⟨rfl, fun hh => by cases hh⟩
      | ok l => exact ⟨rfl, fun _ => ⟨D, o, o', l, ho, rfl, rfl⟩⟩

theorem fitLoop_error {F : Frame n} {sp : Spec n P M} {ext : ExtArg} {p m : Bool} {s : MState n P M} {c : ℕ × ℕ}
    {cs : List (ℕ × ℕ)} {e : Exc} (h : (fitCell F sp ext p m s c).2 = .error e) :
    (fitLoop F sp ext p m s (c :: cs)).2 = .error e := by
  unfold fitLoop
  rcases hq : fitCell F sp ext p m s c with ⟨s', (e' | u)⟩
  · rw [hq] at h; exact h
  · rw [hq] at h; cases h

theorem fitLoop_step {F : Frame n} {sp : Spec n P M} {ext : ExtArg} {p m : Bool} {s : MState n P M} {c : ℕ × ℕ}
    {cs : List (ℕ × ℕ)} (h : (fitCell F sp ext p m s c).2 = .ok ()) :
    fitLoop F sp ext p m s (c :: cs) = fitLoop F sp ext p m (fitCell F sp ext p m s c).1 cs := by
  rw [fitLoop]
  rcases hq : fitCell F sp ext p m s c with ⟨s', (e' | u)⟩
  · rw [hq] at h; cases h
  · rfl

/-- The loops from two states with the same settings. -/
theorem fitLoop_sim {F : Frame n} {sp : Spec n P M} (hsf : StartFree sp) {ext : ExtArg} {p m : Bool} (L : List (ℕ × ℕ))
    {s s' : MState n P M} (h : SameSettings s s') (ht : Tables sp p m s) (ht' : Tables sp p m s') :
    (fitLoop F sp ext p m s' L).2 = (fitLoop F sp ext p m s L).2 ∧
      ((fitLoop F sp ext p m s L).2 = .ok () →
        (∀ k j, (k, j) ∈ L → SameReport sp p m (fitLoop F sp ext p m s L).1 (fitLoop F sp ext p m s' L).1 k j) ∧
        (∀ j ∈ L.map Prod.snd,
          ((fitLoop F sp ext p m s' L).1.heap (fitLoop F sp ext p m s' L).1.arr).vsf j =
            ((fitLoop F sp ext p m s L).1.heap (fitLoop F sp ext p m s L).1.arr).vsf j) ∧
        Tables sp p m (fitLoop F sp ext p m s L).1 ∧ Tables sp p m (fitLoop F sp ext p m s' L).1) := by
  induction L generalizing s s' with
  | nil =>
    refine ⟨rfl, fun _ => ⟨fun k j hh => (by cases hh), fun j hh => (by cases hh), ht, ht'⟩⟩
  | cons c cs ih =>
    obtain ⟨h2, h3⟩ := fitCell_sim (F := F) hsf (ext := ext) (p := p) (m := m) h c
    cases hc : (fitCell F sp ext p m s c).2 with
    | error e =>
      rw [fitLoop_error hc, fitLoop_error (h2.trans hc)]
      exact ⟨rfl, fun hh => by cases hh⟩
    | ok u =>
      cases u
      obtain ⟨D, o, o', l, ho, hw, hw'⟩ := h3 hc
      have hf := fitCell_frame F sp ext p m s c
      have hf' := fitCell_frame F sp ext p m s' c
      have hset : SameSettings (fitCell F sp ext p m s c).1 (fitCell F sp ext p m s' c).1 :=
        (hf.settings.symm.trans h).trans hf'.settings
      have hT : Tables sp p m (fitCell F sp ext p m s c).1 := by
        rw [hw]; exact writeCell_tables (ht.withData D _) _ _ _ _
      have hT' : Tables sp p m (fitCell F sp ext p m s' c).1 := by
        rw [hw']; exact writeCell_tables (ht'.withData D _) _ _ _ _
      have hrep : SameReport sp p m (fitCell F sp ext p m s c).1 (fitCell F sp ext p m s' c).1 c.1 c.2 := by
        rw [hw, hw']
        exact writeCell_report (ht.withData D _) (ht'.withData D _) _ _ ho _
      have hvsf : ((fitCell F sp ext p m s' c).1.heap (fitCell F sp ext p m s' c).1.arr).vsf c.2 =
          ((fitCell F sp ext p m s c).1.heap (fitCell F sp ext p m s c).1.arr).vsf c.2 := by
        rw [hw, hw', writeCell_vsf, writeCell_vsf, Function.update_self, Function.update_self, (forget_fields ho).1]
      rw [fitLoop_step hc, fitLoop_step (h2.trans hc)]
      obtain ⟨h4, h5⟩ := ih hset hT hT'
      refine ⟨h4, fun hok => ?_⟩
      obtain ⟨h6, h7, h8, h9⟩ := h5 hok
      refine ⟨fun k j hkj => ?_, fun j hj => ?_, h8, h9⟩
      · by_cases hcs : (k, j) ∈ cs
        · exact h6 k j hcs
        · have hcc : (k, j) = c := by
            rcases List.mem_cons.1 hkj with h' | h'
            · exact h'
            · exact absurd h' hcs
          subst hcc
          exact hrep.of_same (fitLoop_other cs _ hcs hok) (fitLoop_other cs _ hcs (h4.trans hok))
      · by_cases hcs : j ∈ cs.map Prod.snd
        · exact h7 j hcs
        · have hj' : j = c.2 := by
            rcases List.mem_cons.1 hj with h' | h'
            · exact h'
            · exact absurd h' hcs
          rw [fitLoop_vsf_other cs _ hcs hok, fitLoop_vsf_other cs _ hcs (h4.trans hok), hj', hvsf]

theorem fitLoop_tables {F : Frame n} {sp : Spec n P M} {ext : ExtArg} {p m : Bool} (L : List (ℕ × ℕ))
    {s : MState n P M} (ht : Tables sp p m s) (h : (fitLoop F sp ext p m s L).2 = .ok ()) :
    Tables sp p m (fitLoop F sp ext p m s L).1 := by
  induction L generalizing s with
  | nil => exact ht
  | cons c cs ih =>
    obtain ⟨h1, h2, h3⟩ := fitLoop_cons h
    obtain ⟨k, j⟩ := c
    obtain ⟨D, o, l, _, _, _, _, _, hw⟩ := fitCell_ok h1
    rw [h3]
    refine ih ?_ h2
    rw [hw]
    exact writeCell_tables (ht.withData D _) _ _ _ _

/-! ## Aggregation and framework -/

theorem aggCoef_congr {A B : Arr} (hT : B.nT = A.nT) (hR : B.nR = A.nR)
    (hc : ∀ j < A.nT, ∀ k < A.nR, B.coef j k = A.coef j k) : aggCoef B = aggCoef A := by
  obtain ⟨t, r, c, e, v⟩ := A
  obtain ⟨t', r', c', e', v'⟩ := B
  simp only at hT hR hc
  subst hT hR
  funext j
  unfold aggCoef
  by_cases hj : j < t'
  · have h1 : (∀ k < r', (c' j k).isSome) ↔ ∀ k < r', (c j k).isSome :=
      forall₂_congr fun k hk => by rw [hc j hj k hk]
    have h2 : rowOf c' r' j = rowOf c r' j := by funext k; simp only [rowOf]; rw [hc j hj k k.2]
    simp only [hj, true_and, h1, h2]
  · simp only [hj, false_and, if_false]

theorem aggSes_congr {A B : Arr} (hT : B.nT = A.nT) (hR : B.nR = A.nR)
    (hc : ∀ j < A.nT, ∀ k < A.nR, B.coef j k = A.coef j k) (hs : ∀ j < A.nT, ∀ k < A.nR, B.se j k = A.se j k)
    (hv : ∀ j < A.nT, B.vsf j = A.vsf j) : aggSes B = aggSes A := by
  obtain ⟨t, r, c, e, v⟩ := A
  obtain ⟨t', r', c', e', v'⟩ := B
  simp only at hT hR hc hs hv
  subst hT hR
  funext j
  unfold aggSes
  by_cases hj : j < t'
  · have h1 : (∀ k < r', (c' j k).isSome ∧ (e' j k).isSome) ↔ ∀ k < r', (c j k).isSome ∧ (e j k).isSome :=
      forall₂_congr fun k hk => by rw [hc j hj k hk, hs j hj k hk]
    have h2 : rowOf c' r' j = rowOf c r' j := by funext k; simp only [rowOf]; rw [hc j hj k k.2]
    have h3 : rowOf e' r' j = rowOf e r' j := by funext k; simp only [rowOf]; rw [hs j hj k k.2]
    simp only [hj, true_and, h1, h2, h3, hv j hj]
  · simp only [hj, false_and, if_false]

theorem validAt_congr {S S' : ℕ → ℕ → Option (SensElems n)} {r j : ℕ} (h : ∀ k < r, S' j k = S j k) :
    validAt S' r j = validAt S r j := by
  have h2 : (fun i : Fin r => (S' j i).getD .zero) = fun i : Fin r => (S j i).getD .zero := by
    funext i; rw [h i i.2]
  funext k
  unfold validAt
  rw [h2]

/-- The state after the loops, seen through everything the rest of `fit` reads. -/
structure SameAfterLoop (sp : Spec n P M) (t t' : MState n P M) : Prop where
  settings : SameSettings t t'
  shaped : Shaped t
  coef : ∀ j < (t.heap t.arr).nT, ∀ k < (t.heap t.arr).nR, (t'.heap t'.arr).coef j k = (t.heap t.arr).coef j k
  se : ∀ j < (t.heap t.arr).nT, ∀ k < (t.heap t.arr).nR, (t'.heap t'.arr).se j k = (t.heap t.arr).se j k
  vsf : ∀ j < (t.heap t.arr).nT, (t'.heap t'.arr).vsf j = (t.heap t.arr).vsf j
  scores : ∀ j < (t.heap t.arr).nT, ∀ k < (t.heap t.arr).nR, t'.scores j k = t.scores j k
  sens : sp.sensImpl = true → ∃ S S', t.sens = some S ∧ t'.sens = some S' ∧
    ∀ j < (t.heap t.arr).nT, ∀ k < (t.heap t.arr).nR, S' j k = S j k

theorem SameAfterLoop.aggCoef {sp : Spec n P M} {t t' : MState n P M} (h : SameAfterLoop sp t t') :
    (aggregate sp t').coef = (aggregate sp t).coef := aggCoef_congr h.settings.nT h.settings.nR h.coef

theorem SameAfterLoop.aggSe {sp : Spec n P M} {t t' : MState n P M} (h : SameAfterLoop sp t t') :
    (aggregate sp t').se = (aggregate sp t).se := aggSes_congr h.settings.nT h.settings.nR h.coef h.se h.vsf

theorem SameAfterLoop.aggSens {sp : Spec n P M} {t t' : MState n P M} (h : SameAfterLoop sp t t')
    (hs : sp.sensImpl = true) : ∃ S S', (aggregate sp t).sens = some S ∧ (aggregate sp t').sens = some S' ∧
      ∀ j < (t.heap t.arr).nT, S' j = S j := by
  obtain ⟨S, S', h1, h2, h3⟩ := h.sens hs
  refine ⟨_, _, by simp only [aggregate, hs, if_true, h1]; rfl, by simp only [aggregate, hs, if_true, h2]; rfl, ?_⟩
  intro j hj
  rw [h.settings.nRep]
  exact validAt_congr fun k hk => h3 j hj k (by rw [h.shaped.nR]; exact hk)

theorem SameAfterLoop.framework {sp : Spec n P M} {t t' : MState n P M} (h : SameAfterLoop sp t t') :
    frameworkOf (t.heap t.arr).nR sp (aggregate sp t') = frameworkOf (t.heap t.arr).nR sp (aggregate sp t) := by
  have hd : t'.data.d = t.data.d := h.settings.data.d
  have hc := h.aggCoef
  have he := h.aggSe
  simp only [frameworkOf, FW.mk.injEq]
  refine ⟨?_, ?_, ?_, ?_, ?_⟩
  · have h0 : (((aggregate sp t').heap (aggregate sp t').arr)).nT = (t.heap t.arr).nT := h.settings.nT
    rw [h0]
    apply List.map_congr_left
    intro j hj
    have hj := List.mem_range.1 hj
    simp only [blockOf, Block.mk.injEq]
    refine ⟨by rw [hc], by rw [he], ?_, ?_, ?_, ?_⟩
    · funext k; exact congrArg (fun o => Option.getD o 0) (h.coef j hj k k.2)
    · funext k; exact congrArg (fun o => Option.getD o 0) (h.se j hj k k.2)
    · exact congrArg (fun o => Option.getD o 0) (h.vsf j hj)
    · funext i k
      exact congrArg (fun o => (Option.map (fun p : (Fin n → ℝ) × (Fin n → ℝ) => p.1 i / mean p.2) o).getD 0)
        (h.scores j hj k k.2)
  · have h1 : (aggregate sp t').data.cv = (aggregate sp t).data.cv := h.settings.data.cv
    have h2 : (aggregate sp t').smpls = (aggregate sp t).smpls := h.settings.smpls
    have h3 : (aggregate sp t').smplsCluster = (aggregate sp t).smplsCluster := h.settings.smplsCluster
    have h4 : (aggregate sp t').nFoldsPer = (aggregate sp t).nFoldsPer := h.settings.nFoldsPer
    rw [h1, h2, h3, h4]
  · cases hs : sp.sensImpl with
    | false => rfl
    | true =>
      obtain ⟨S, S', h1, h2, h3⟩ := h.aggSens hs
      simp only [if_true, h1, h2, Option.map_some]
      have : (aggregate sp t').data.d = t.data.d := hd
      rw [this]
      have : (aggregate sp t).data.d = t.data.d := rfl
      rw [this]
      congr 1
      apply List.map_congr_left
      intro j hj
      have hj := List.mem_range.1 hj
      rw [← h.shaped.nT] at hj
      simp only [sensBlock, h3 j hj]
  · cases hs : sp.sensImpl with
    | false => rfl
    | true =>
      obtain ⟨S, S', h1, h2, h3⟩ := h.aggSens hs
      simp only [if_true, h1, h2, Option.map_some]
      have : (aggregate sp t').data.d = t.data.d := hd
      rw [this]
      have : (aggregate sp t).data.d = t.data.d := rfl
      rw [this]
      congr 1
      apply List.map_congr_left
      intro j hj
      have hj := List.mem_range.1 hj
      rw [← h.shaped.nT] at hj
      simp only [sensBlock, h3 j hj]
  · exact congrArg some hd

/-! ## What a model reports -/

/-- What the inference methods of a model work with: the framework as it sees the shared arrays. -/
noncomputable def MState.inference (s : MState n P M) : Option (Σ r, RState n r) :=
  s.framework.map fun o => ⟨o.r, o.view s.heap⟩

/-- The results of inference methods are determined by `MState.inference`. -/
theorem infer_congr (E : Ext) {s s' : MState n P M} (h : s'.inference = s.inference) (o : ∀ r, Op n r) :
    (infer E s' o).2 = (infer E s o).2 := by
  unfold MState.inference at h
  unfold infer
  cases hf : s.framework with
  | none =>
    rw [hf] at h
    cases hf' : s'.framework with
    | none => rfl
    | some x => rw [hf'] at h; cases h
  | some x =>
    rw [hf] at h
    cases hf' : s'.framework with
    | none => rw [hf'] at h; cases h
    | some x' =>
      rw [hf'] at h
      have h1 := Option.some.inj h
      have : ∀ (a b : Σ r, RState n r), a = b → (a.2.step E (o a.1)).2 = (b.2.step E (o b.1)).2 := by
        rintro a b rfl; rfl
      exact this _ _ h1

/-- Everything a model reports about its last fit is the same in two states; predictions and models are compared
if the fit was asked to store them. -/
structure SameResults (sp : Spec n P M) (p m : Bool) (s s' : MState n P M) : Prop where
  coef : s'.coef = s.coef
  se : s'.se = s.se
  allCoef : ∀ j < s.data.d.length, ∀ k < s.nRep, (s'.heap s'.arr).coef j k = (s.heap s.arr).coef j k
  allSe : ∀ j < s.data.d.length, ∀ k < s.nRep, (s'.heap s'.arr).se j k = (s.heap s.arr).se j k
  scores : ∀ j < s.data.d.length, ∀ k < s.nRep, s'.scores j k = s.scores j k
  loss : ∀ j < s.data.d.length, ∀ k < s.nRep, s'.loss.map (fun f => f j k) = s.loss.map fun f => f j k
  preds : p = true → ∀ j < s.data.d.length, ∀ k < s.nRep, s'.preds.map (fun f => f j k) = s.preds.map fun f => f j k
  models : m = true → ∀ j < s.data.d.length, ∀ k < s.nRep, s'.models.map (fun f => f j k) = s.models.map fun f => f j k
  sens : sp.sensImpl = true → ∀ j < s.data.d.length, s'.sens.map (fun f => f j) = s.sens.map fun f => f j
  inference : s'.inference = s.inference

theorem Shaped.frame {s s' : MState n P M} (h : Shaped s) (hf : FitFrame s s') : Shaped s' :=
  ⟨by rw [hf.settings.nRep]; exact h.pos, by rw [hf.settings.nT, hf.settings.data.d]; exact h.nT, by rw [hf.settings.nR, hf.settings.nRep]; exact h.nR⟩

theorem fit_eq {F : Frame n} {sp : Spec n P M} {s : MState n P M} {a : FitArgs} {p m : Bool}
    (hc : checkFit sp s a = .ok (p, m))
    (h : (fitLoop F sp a.ext p m (initFit sp s p m) (cellOrder s.nRep s.data.d.length)).2 = .ok ()) :
    fit F sp s a = finishAt (s.heap s.arr).nR sp
      (aggregate sp (fitLoop F sp a.ext p m (initFit sp s p m) (cellOrder s.nRep s.data.d.length)).1) := by
  have hf := (initFit_frame sp s p m).trans
    (fitLoop_frame F sp a.ext p m (cellOrder s.nRep s.data.d.length) (initFit sp s p m))
  unfold fit
  rw [hc]
  dsimp only
  rcases hq : fitLoop F sp a.ext p m (initFit sp s p m) (cellOrder s.nRep s.data.d.length) with ⟨t, (e | u)⟩
  · rw [hq] at h; cases h
  · rw [hq] at hf
    dsimp only at hf ⊢
    rw [hf.settings.nR]

theorem checkFit_congr {sp : Spec n P M} {s s' : MState n P M} (h : SameSettings s s') (a : FitArgs) :
    checkFit sp s' a = checkFit sp s a := by
  unfold checkFit checkFitExt; rw [h.data.d, h.nRep]

theorem initFit_settings {sp : Spec n P M} {s s' : MState n P M} (h : SameSettings s s') (p m : Bool) :
    SameSettings (initFit sp s p m) (initFit sp s' p m) :=
  ((initFit_frame sp s p m).settings.symm.trans h).trans (initFit_frame sp s' p m).settings

theorem fitLoop_after {F : Frame n} {sp : Spec n P M} (hsf : StartFree sp) {s s' : MState n P M} (h : SameSettings s s')
    (hs : Shaped s) {ext : ExtArg} {p m : Bool}
    (hok : (fitLoop F sp ext p m (initFit sp s p m) (cellOrder s.nRep s.data.d.length)).2 = .ok ()) :
    SameAfterLoop sp (fitLoop F sp ext p m (initFit sp s p m) (cellOrder s.nRep s.data.d.length)).1
      (fitLoop F sp ext p m (initFit sp s' p m) (cellOrder s.nRep s.data.d.length)).1 := by
  have hf := (initFit_frame sp s p m).trans
    (fitLoop_frame F sp ext p m (cellOrder s.nRep s.data.d.length) (initFit sp s p m))
  have hf' := (initFit_frame sp s' p m).trans
    (fitLoop_frame F sp ext p m (cellOrder s.nRep s.data.d.length) (initFit sp s' p m))
  obtain ⟨_, h2⟩ := fitLoop_sim (F := F) (ext := ext) hsf (cellOrder s.nRep s.data.d.length) (initFit_settings h p m)
    (initFit_tables sp s p m) (initFit_tables sp s' p m)
  obtain ⟨h3, h4, h5, h6⟩ := h2 hok
  have hnT := hf.settings.nT
  have hnR := hf.settings.nR
  have hcell : ∀ j < (s.heap s.arr).nT, ∀ k < (s.heap s.arr).nR, (k, j) ∈ cellOrder s.nRep s.data.d.length := by
    intro j hj k hk
    rw [hs.nT] at hj; rw [hs.nR] at hk
    exact mem_cellOrder.2 ⟨hk, hj⟩
  refine ⟨(hf.settings.symm.trans h).trans hf'.settings, hs.frame hf, ?_, ?_, ?_, ?_, ?_⟩
  · intro j hj k hk
    rw [hnT] at hj; rw [hnR] at hk
    exact (h3 k j (hcell j hj k hk)).coef
  · intro j hj k hk
    rw [hnT] at hj; rw [hnR] at hk
    exact (h3 k j (hcell j hj k hk)).se
  · intro j hj
    rw [hnT] at hj
    exact h4 j (List.mem_map.2 ⟨(0, j), hcell j hj 0 (by rw [hs.nR]; exact hs.pos), rfl⟩)
  · intro j hj k hk
    rw [hnT] at hj; rw [hnR] at hk
    exact (h3 k j (hcell j hj k hk)).scores
  · intro hsens
    obtain ⟨S, hS⟩ := Option.isSome_iff_exists.1 (h5.sens hsens)
    obtain ⟨S', hS'⟩ := Option.isSome_iff_exists.1 (h6.sens hsens)
    refine ⟨S, S', hS, hS', fun j hj k hk => ?_⟩
    rw [hnT] at hj; rw [hnR] at hk
    have := (h3 k j (hcell j hj k hk)).sens hsens
    rw [hS, hS'] at this
    exact Option.some.inj this

theorem checkFit_ok {sp : Spec n P M} {s : MState n P M} {a : FitArgs} {p m : Bool} (h : checkFit sp s a = .ok (p, m)) :
    a.storePredictions = .bool p ∧ a.storeModels = .bool m := by
  unfold checkFit at h
  obtain ⟨_, _, h⟩ := bind_ok h
  obtain ⟨p', hp, h⟩ := bind_ok h
  obtain ⟨m', hm, h⟩ := bind_ok h
  obtain ⟨_, _, h⟩ := bind_ok h
  have h := Except.ok.inj h
  simp only [Prod.mk.injEq] at h
  obtain ⟨rfl, rfl⟩ := h
  have key : ∀ (v : PyVal) (b : Bool), checkBool v = .ok b → v = .bool b := by
    intro v b hb
    cases v <;> simp only [checkBool] at hb
    all_goals first | (cases hb; rfl) | cases hb
  exact ⟨key _ _ hp, key _ _ hm⟩

/-- The framework as its methods see it right after its construction. -/
theorem view_fresh {r : ℕ} {sp : Spec n P M} {s : MState n P M} {fw : FW n r} (h : (frameworkOf r sp s).construct = .ok fw) :
    FwObj.view s.heap ⟨r, s.arr, { fw := fw }⟩ = { fw := fw } := by
  have hb : fw.blocks = (List.range (s.heap s.arr).nT).map (blockOf r s) := by
    unfold FW.construct at h
    split_ifs at h
    cases h
    simp [FW.normBench, frameworkOf]
  have hv : fw.blocks.zipIdx.map (fun bj => ({ bj.1 with
      allTheta := fun k => ((s.heap s.arr).coef bj.2 k).getD 0
      allSe := fun k => ((s.heap s.arr).se bj.2 k).getD 0
      vsf := ((s.heap s.arr).vsf bj.2).getD 0 } : Block n r)) = fw.blocks := by
    rw [hb]
    apply List.ext_getElem
    · simp
    · intro i h1 h2
      simp [blockOf]
      exact ⟨rfl, rfl⟩
  unfold FwObj.view
  simp only [RState.mk.injEq, and_true]
  exact congrArg (fun b => ({ fw with blocks := b } : FW n r)) hv

/-- **C29.** `fit` is a function of the data, the sample split, the learner parameters and its arguments: two model
objects that agree in these, whatever else happened to them before, raise the same exception or both succeed
with the same estimates, standard errors, scores, losses, predictions, models, sensitivity elements and the same
framework.  The start value of a numerical root search is left out of the settings, therefore the theorem is about
model classes whose result does not depend on it. -/
theorem C29_fit_from_settings (F : Frame n) {sp : Spec n P M} (hsf : StartFree sp) {s s' : MState n P M}
    (h : SameSettings s s') (hs : Shaped s) (a : FitArgs) {p m : Bool} (hp : a.storePredictions = .bool p)
    (hm : a.storeModels = .bool m) :
    (fit F sp s' a).2 = (fit F sp s a).2 ∧
      ((fit F sp s a).2 = .ok () → SameResults sp p m (fit F sp s a).1 (fit F sp s' a).1) := by
  have hcc := checkFit_congr (sp := sp) h a
  cases hc : checkFit sp s a with
  | error e =>
    have h1 : (fit F sp s a).2 = .error e := by unfold fit; rw [hc]
    have h2 : (fit F sp s' a).2 = .error e := by unfold fit; rw [hcc, hc]
    rw [h1, h2]
    exact ⟨rfl, fun hh => by cases hh⟩
  | ok pm =>
    obtain ⟨p', m'⟩ := pm
    rw [hc] at hcc
    obtain ⟨hp', hm'⟩ := checkFit_ok hc
    rw [hp] at hp'; rw [hm] at hm'
    cases hp'; cases hm'
    have hL : cellOrder s'.nRep s'.data.d.length = cellOrder s.nRep s.data.d.length := by rw [h.nRep, h.data.d]
    obtain ⟨h1, h2⟩ := fitLoop_sim (F := F) (ext := a.ext) hsf (cellOrder s.nRep s.data.d.length)
      (initFit_settings h p m) (initFit_tables sp s p m) (initFit_tables sp s' p m)
    cases hl : (fitLoop F sp a.ext p m (initFit sp s p m) (cellOrder s.nRep s.data.d.length)).2 with
    | error e =>
      rw [hl] at h1
      have e1 : (fit F sp s a).2 = .error e := by
        unfold fit; rw [hc]; dsimp only
        rcases hq : fitLoop F sp a.ext p m (initFit sp s p m) (cellOrder s.nRep s.data.d.length) with ⟨t, (e' | u)⟩
        · rw [hq] at hl; exact hl
        · rw [hq] at hl; cases hl
      have e2 : (fit F sp s' a).2 = .error e := by
        unfold fit; rw [hcc, hL]; dsimp only
        rcases hq : fitLoop F sp a.ext p m (initFit sp s' p m) (cellOrder s.nRep s.data.d.length) with ⟨t, (e' | u)⟩
        · rw [hq] at h1; exact h1
        · rw [hq] at h1; cases h1
      rw [e1, e2]
      exact ⟨rfl, fun hh => by cases hh⟩
    | ok u =>
      cases u
      have hafter := fitLoop_after (F := F) hsf h hs hl
      have hf := (initFit_frame sp s p m).trans
        (fitLoop_frame F sp a.ext p m (cellOrder s.nRep s.data.d.length) (initFit sp s p m))
      have hnR := hf.settings.nR
      have hnRs := h.nR
      obtain ⟨h3, _, h5, h6⟩ := h2 hl
      have E1 := fit_eq (F := F) (a := a) hc hl
      have E2 := fit_eq (F := F) (s := s') (a := a) hcc (by rw [hL]; exact h1.trans hl)
      rw [hL, hnRs] at E2
      have hfw := hafter.framework
      rw [hnR] at hfw
      rw [E1, E2]
      generalize (fitLoop F sp a.ext p m (initFit sp s p m) (cellOrder s.nRep s.data.d.length)).1 = t at *
      generalize (fitLoop F sp a.ext p m (initFit sp s' p m) (cellOrder s.nRep s.data.d.length)).1 = t' at *
      have hd : t.data.d.length = s.data.d.length := by rw [hf.settings.data.d]
      have hnr : t.nRep = s.nRep := hf.settings.nRep
      have hrep : ∀ j < t.data.d.length, ∀ k < t.nRep, SameReport sp p m t t' k j := by
        intro j hj k hk
        rw [hd] at hj; rw [hnr] at hk
        exact h3 k j (mem_cellOrder.2 ⟨hk, hj⟩)
      generalize (s.heap s.arr).nR = r at *
      cases hcon : (frameworkOf r sp (aggregate sp t)).construct with
      | error e =>
        have g1 : finishAt r sp (aggregate sp t) = (aggregate sp t, .error e) := by unfold finishAt; rw [hcon]
        have g2 : finishAt r sp (aggregate sp t') = (aggregate sp t', .error e) := by unfold finishAt; rw [hfw, hcon]
        rw [g1, g2]
        exact ⟨rfl, fun hh => by cases hh⟩
      | ok fw =>
        have g1 : finishAt r sp (aggregate sp t) =
            ({ aggregate sp t with framework := some ⟨r, t.arr, { fw := fw }⟩ }, .ok ()) := by
          unfold finishAt; rw [hcon]; rfl
        have g2 : finishAt r sp (aggregate sp t') =
            ({ aggregate sp t' with framework := some ⟨r, t'.arr, { fw := fw }⟩ }, .ok ()) := by
          unfold finishAt; rw [hfw, hcon]; rfl
        rw [g1, g2]
        refine ⟨rfl, fun _ => ⟨hafter.aggCoef, hafter.aggSe, fun j hj k hk => (hrep j hj k hk).coef,
          fun j hj k hk => (hrep j hj k hk).se, fun j hj k hk => (hrep j hj k hk).scores,
          fun j hj k hk => (hrep j hj k hk).loss, fun hp j hj k hk => (hrep j hj k hk).preds hp,
          fun hp j hj k hk => (hrep j hj k hk).models hp, fun hp j hj => ?_, ?_⟩⟩
        · obtain ⟨S, S', e1, e2, e3⟩ := hafter.aggSens hp
          have e1' : ({ aggregate sp t with framework := some ⟨r, t.arr, { fw := fw }⟩ } : MState n P M).sens = some S := e1
          have e2' : ({ aggregate sp t' with framework := some ⟨r, t'.arr, { fw := fw }⟩ } : MState n P M).sens = some S' := e2
          rw [e1', e2']
          exact congrArg some (e3 j (by rw [hafter.shaped.nT]; exact hj))
        · have v1 := view_fresh hcon
          have v2 := view_fresh (hfw ▸ hcon)
          unfold MState.inference
          simp only [Option.map_some]
          have w1 : FwObj.view (aggregate sp t).heap ⟨r, t.arr, { fw := fw }⟩ = { fw := fw } := v1
          have w2 : FwObj.view (aggregate sp t').heap ⟨r, t'.arr, { fw := fw }⟩ = { fw := fw } := v2
          rw [w1, w2]

/-- The estimation of treatment `j` in repetition `k`, written out: the treatment is the `j`-th one, the folds are
those of repetition `k` of the current split, cluster information and parameters are the current ones. -/
structure CellFrom (F : Frame n) (sp : Spec n P M) (s : MState n P M) (ext : ExtArg) (k j : ℕ) (c : CellIn n P) : Prop where
  treat : s.data.d[j]? = some c.treat
  data : c.data = activeData F s.data c.treat
  smpls : ∃ l, s.smpls = some l ∧ l[k]? = some c.smpls
  cluster : ∀ v, sp.vars = some v → ∃ l q, s.smplsCluster = some l ∧ l[k]? = some q ∧
    c.cluster = some ⟨v s.data.cv, c.smpls, q, s.nFoldsPer⟩
  noCluster : sp.vars = none → c.cluster = none
  params : c.params.map Prod.fst = sp.learners ∧ ∀ lp ∈ c.params, ∃ ps, s.params lp.1 c.treat = some ps ∧ ps[k]? = some lp.2
  ext : setExt n ext sp.learners c.treat k = .ok c.ext
  rep : c.rep = k

theorem getParams_ok {s : MState n P M} {tv l : String} {k : ℕ} {q : String × Option (List P)}
    (h : getParams s tv k l = .ok q) : q.1 = l ∧ ∃ ps, s.params l tv = some ps ∧ ps[k]? = some q.2 := by
  unfold getParams at h
  cases hp : s.params l tv with
  | none => rw [hp] at h; cases h
  | some ps =>
    rw [hp] at h
    dsimp only at h
    cases hk : ps[k]? with
    | none => rw [hk] at h; cases h
    | some p =>
      rw [hk] at h
      obtain rfl := Except.ok.inj h
      exact ⟨rfl, ps, rfl, hk⟩

theorem mapM_getParams {s : MState n P M} {tv : String} {k : ℕ} (ls : List String) {p : List (String × Option (List P))}
    (h : ls.mapM (getParams s tv k) = .ok p) :
    p.map Prod.fst = ls ∧ ∀ lp ∈ p, ∃ ps, s.params lp.1 tv = some ps ∧ ps[k]? = some lp.2 := by
  induction ls generalizing p with
  | nil =>
    simp only [List.mapM_nil, pure, Except.pure] at h
    cases h
    exact ⟨rfl, fun _ hh => by cases hh⟩
  | cons l ls ih =>
    rw [List.mapM_cons] at h
    obtain ⟨q, hq, h⟩ := bind_ok h
    obtain ⟨qs, hqs, h⟩ := bind_ok h
    obtain rfl := Except.ok.inj h
    obtain ⟨h1, ps, h2, h3⟩ := getParams_ok hq
    obtain ⟨h4, h5⟩ := ih hqs
    refine ⟨by rw [List.map_cons, h1, h4], ?_⟩
    intro lp hlp
    rcases List.mem_cons.1 hlp with rfl | hlp
    · exact ⟨ps, by rw [h1]; exact h2, h3⟩
    · exact h5 lp hlp

theorem repSmpls_ok {s : MState n P M} {k : ℕ} {f : List (Fold n)} (h : repSmpls s k = .ok f) :
    ∃ l, s.smpls = some l ∧ l[k]? = some f := by
  unfold repSmpls at h
  cases hs : s.smpls with
  | none => rw [hs] at h; cases h
  | some l =>
    rw [hs] at h
    dsimp only at h
    cases hk : l[k]? with
    | none => rw [hk] at h; cases h
    | some f' =>
      rw [hk] at h
      obtain rfl := Except.ok.inj h
      exact ⟨l, rfl, hk⟩

theorem CellEst.from {F : Frame n} {sp : Spec n P M} {s : MState n P M} {ext : ExtArg} {wm : Bool} {k j : ℕ}
    {o : CellOut n M} (h : CellEst F sp s ext wm k j o) :
    ∃ c, CellFrom F sp s ext k j c ∧ c.wantModels = wm ∧ sp.est c = .ok o := by
  obtain ⟨tv, f, cl, p, e, x, h1, h2, h3, h4, h5, h6⟩ := h
  refine ⟨_, ⟨h1, rfl, repSmpls_ok h3, ?_, ?_, mapM_getParams _ h5, h2, rfl⟩, rfl, h6⟩
  · intro v hv
    unfold repCluster at h4
    rw [hv] at h4
    dsimp only at h4
    cases hs : s.smplsCluster with
    | none => rw [hs] at h4; cases h4
    | some l =>
      rw [hs] at h4
      dsimp only at h4
      cases hk : l[k]? with
      | none => rw [hk] at h4; cases h4
      | some q =>
        rw [hk] at h4
        obtain rfl := Except.ok.inj h4
        exact ⟨l, q, rfl, hk, rfl⟩
  · intro hv
    unfold repCluster at h4
    rw [hv] at h4
    exact (Except.ok.inj h4).symm

/-- A successful fit in terms of its cells. -/
theorem fit_cells {F : Frame n} {sp : Spec n P M} {s : MState n P M} {a : FitArgs} (h : (fit F sp s a).2 = .ok ())
    {p m : Bool} (hp : a.storePredictions = .bool p) (hm : a.storeModels = .bool m) {j k : ℕ}
    (hj : j < s.data.d.length) (hk : k < s.nRep) :
    ∃ c o l, CellFrom F sp s a.ext k j c ∧ c.wantModels = m ∧ sp.est c = .ok o ∧ calcLoss sp o.preds o.targets = .ok l ∧
      ((fit F sp s a).1.heap (fit F sp s a).1.arr).coef j k = some o.fit.coef ∧
      ((fit F sp s a).1.heap (fit F sp s a).1.arr).se j k = some o.fit.se ∧
      (fit F sp s a).1.scores j k = some (o.fit.psi, o.fit.deriv) ∧
      (fit F sp s a).1.loss.map (fun f => f j k) = some (some l) ∧
      (p = true → (fit F sp s a).1.preds.map (fun f => f j k) = some (some (o.preds, o.targets))) ∧
      (m = true → (fit F sp s a).1.models.map (fun f => f j k) = some (some o.models)) := by
  obtain ⟨p', m', fw, h1, h2, h3, h4⟩ := fit_ok h
  obtain ⟨hp', hm'⟩ := checkFit_ok h1
  rw [hp] at hp'; rw [hm] at hm'
  cases hp'; cases hm'
  obtain ⟨o, ho, hst, _⟩ := fitLoop_stored _ _ h2 (mem_cellOrder.2 ⟨hk, hj⟩)
  obtain ⟨c, hc, hcm, hce⟩ := (ho.congr (initFit_frame sp s p m).settings.symm).from
  have hT := ((fitLoop_tables (F := F) (ext := a.ext) (p := p) (m := m) (cellOrder s.nRep s.data.d.length)
    (initFit_tables sp s p m)) h2)
  obtain ⟨fl, hfl⟩ := Option.isSome_iff_exists.1 hT.loss
  obtain ⟨l, hl, hl'⟩ := hst.loss fl hfl
  refine ⟨c, o, l, hc, hcm, hce, hl, ?_, ?_, ?_, ?_, ?_, ?_⟩
  · rw [h4]; exact hst.coef
  · rw [h4]; exact hst.se
  · rw [h4]; exact hst.scores
  · rw [h4]
    show (Option.map _ (fitLoop F sp a.ext p m (initFit sp s p m) (cellOrder s.nRep s.data.d.length)).1.loss) = _
    rw [hfl, Option.map_some, hl']
  · intro hp
    rw [h4]
    obtain ⟨f, hf⟩ := Option.isSome_iff_exists.1 (hT.preds hp)
    show (Option.map _ (fitLoop F sp a.ext p m (initFit sp s p m) (cellOrder s.nRep s.data.d.length)).1.preds) = _
    rw [hf, Option.map_some, hst.preds hp f hf]
  · intro hp
    rw [h4]
    obtain ⟨f, hf⟩ := Option.isSome_iff_exists.1 (hT.models hp)
    show (Option.map _ (fitLoop F sp a.ext p m (initFit sp s p m) (cellOrder s.nRep s.data.d.length)).1.models) = _
    rw [hf, Option.map_some, hst.models hp f hf]

/-- **C29.** The results reported after a successful fit belong to the sample split the model reports: for every
treatment and repetition the stored estimate, standard error, scores, losses, predictions and models are what the
model class computes from the folds of this repetition of the current split; the reported estimate is the median
over the repetitions. -/
theorem C29_results_of_current_split {F : Frame n} {sp : Spec n P M} {s : MState n P M} {a : FitArgs} (hs : Shaped s)
    (h : (fit F sp s a).2 = .ok ()) {p m : Bool} (hp : a.storePredictions = .bool p) (hm : a.storeModels = .bool m) :
    (fit F sp s a).1.smpls = s.smpls ∧ (fit F sp s a).1.smplsCluster = s.smplsCluster ∧
    (fit F sp s a).1.params = s.params ∧ (fit F sp s a).1.nRep = s.nRep ∧
    ∀ j < s.data.d.length, ∃ est : Fin s.nRep → CellOut n M,
      (fit F sp s a).1.coef j = some (median fun k => (est k).fit.coef) ∧
      ∀ k : Fin s.nRep, ∃ c l, CellFrom F sp s a.ext k j c ∧ sp.est c = .ok (est k) ∧
        calcLoss sp (est k).preds (est k).targets = .ok l ∧
        ((fit F sp s a).1.heap (fit F sp s a).1.arr).coef j k = some (est k).fit.coef ∧
        ((fit F sp s a).1.heap (fit F sp s a).1.arr).se j k = some (est k).fit.se ∧
        (fit F sp s a).1.scores j k = some ((est k).fit.psi, (est k).fit.deriv) ∧
        (fit F sp s a).1.loss.map (fun f => f j k) = some (some l) ∧
        (p = true → (fit F sp s a).1.preds.map (fun f => f j k) = some (some ((est k).preds, (est k).targets))) ∧
        (m = true → (fit F sp s a).1.models.map (fun f => f j k) = some (some (est k).models)) := by
  obtain ⟨p', m', fw, h1, h2, h3, h4⟩ := fit_ok h
  have hf := (initFit_frame sp s p' m').trans
    (fitLoop_frame F sp a.ext p' m' (cellOrder s.nRep s.data.d.length) (initFit sp s p' m'))
  refine ⟨by rw [h4]; exact hf.settings.smpls, by rw [h4]; exact hf.settings.smplsCluster,
    by rw [h4]; exact hf.settings.params, by rw [h4]; exact hf.settings.nRep, ?_⟩
  intro j hj
  choose c o l H using fun k : Fin s.nRep => fit_cells h hp hm hj k.2
  refine ⟨o, ?_, fun k => ⟨c k, l k, (H k).1, (H k).2.2⟩⟩
  have hco : (fit F sp s a).1.coef = aggCoef ((fit F sp s a).1.heap (fit F sp s a).1.arr) := by rw [h4]; rfl
  have hnR : ((fit F sp s a).1.heap (fit F sp s a).1.arr).nR = s.nRep := by
    rw [h4]; exact hf.settings.nR.trans hs.nR
  have hnT : ((fit F sp s a).1.heap (fit F sp s a).1.arr).nT = s.data.d.length := by
    rw [h4]; exact hf.settings.nT.trans hs.nT
  have hval : ∀ k : Fin s.nRep, ((fit F sp s a).1.heap (fit F sp s a).1.arr).coef j k = some (o k).fit.coef :=
    fun k => (H k).2.2.2.2.1
  rw [hco]
  generalize (fit F sp s a).1.heap (fit F sp s a).1.arr = A at *
  obtain ⟨t, r, cf, se, v⟩ := A
  simp only at hnR hnT hval
  subst hnR
  unfold aggCoef
  rw [if_pos ⟨by rw [hnT]; exact hj, fun k hk => by simp [hval ⟨k, hk⟩]⟩]
  unfold aggTheta
  congr 2
  funext k
  simp [rowOf, hval]

/-! ## Histories -/

theorem initArrays_shaped {s : MState n P M} (h : 0 < s.nRep) : Shaped (initArrays s) := by
  refine ⟨h, ?_, ?_⟩ <;> simp [initArrays, Arr.fresh]

/-- What holds in every state of a model object: the arrays fit the data, and addresses are allocated. -/
structure WF (s : MState n P M) : Prop where
  shaped : Shaped s
  arr : s.arr < s.next
  framework : ∀ o, s.framework = some o → o.addr < s.next

theorem checkInteger_lower {v : PyVal} {z : ℤ} (h : checkInteger v (some 1) none = .ok z) : 1 ≤ z := by
  unfold checkInteger at h
  cases hv : v.asInt with
  | none => simp only [hv] at h; cases h
  | some w =>
    simp only [hv] at h
    split_ifs at h with h1
    · cases h
      simpa using h1

theorem drawSampleSplitting_nRep {sp : Spec n P M} {s t : MState n P M} {w : Draws n}
    (h : drawSampleSplitting sp s w = (t, .ok ())) : t.nRep = s.nRep ∧ t.framework = s.framework := by
  unfold drawSampleSplitting at h
  cases hd : drawnSplit sp s w with
  | error e => rw [hd] at h; cases h
  | ok q => rw [hd] at h; cases h; exact ⟨rfl, rfl⟩

theorem initModel_wf {sp : Spec n P M} {D : DataState n} {start : ℝ} {nf nr dr : PyVal} {w : Draws n} {s : MState n P M}
    (h : initModel sp D start nf nr dr w = .ok s) : WF s ∧ s.framework = none := by
  unfold initModel at h
  obtain ⟨_, _, h⟩ := bind_ok h
  obtain ⟨k, hk, h⟩ := bind_ok h
  obtain ⟨r, hr, h⟩ := bind_ok h
  obtain ⟨b, hb, h⟩ := bind_ok h
  have hr1 := checkInteger_lower hr
  cases b with
  | false =>
    obtain rfl := Except.ok.inj h
    refine ⟨⟨initArrays_shaped ?_, by simp [initArrays], fun o ho => by cases ho⟩, rfl⟩
    dsimp only; omega
  | true =>
    rw [if_pos rfl] at h
    split at h
    · cases h
    · rename_i t hd
      obtain rfl := Except.ok.inj h
      obtain ⟨h1, h2⟩ := drawSampleSplitting_nRep hd
      refine ⟨⟨initArrays_shaped ?_, by simp [initArrays], fun o ho => ?_⟩, h2⟩
      · rw [h1]; dsimp only; omega
      · have : t.framework = some o := ho
        rw [h2] at this; cases this

/-- Tuning changes parameters and the active treatment only. -/
structure TuneFrame (s s' : MState n P M) : Prop where
  rest : s' = { s with data := s'.data, params := s'.params }
  data : SameData s.data s'.data

theorem TuneFrame.refl (s : MState n P M) : TuneFrame s s := ⟨rfl, .refl _⟩

theorem TuneFrame.trans {s s' s'' : MState n P M} (h : TuneFrame s s') (h' : TuneFrame s' s'') : TuneFrame s s'' := by
  refine ⟨?_, h.data.trans h'.data⟩
  have h1 := h.rest
  have h2 := h'.rest
  generalize s''.data = a at h2
  generalize s''.params = b at h2
  generalize s'.data = c at h1
  generalize s'.params = d at h1
  subst h2 h1
  rfl

theorem setNuisanceParams_frame (sp : Spec n P M) (s : MState n P M) (l tv : String) (a : ParamArg P) :
    TuneFrame s (setNuisanceParams sp s l tv a).1 := by
  unfold setNuisanceParams
  split
  · exact .refl s
  · split
    · exact .refl s
    · cases paramValue s.nRep s.nFolds a with
      | error e => exact .refl s
      | ok v => exact ⟨rfl, .refl _⟩

theorem setAll_frame (sp : Spec n P M) (tv : String) (arg : String → Except Exc (ParamArg P)) (s : MState n P M)
    (ls : List String) : TuneFrame s (setAll sp tv arg s ls).1 := by
  induction ls generalizing s with
  | nil => exact .refl s
  | cons l ls ih =>
    unfold setAll
    cases arg l with
    | error e => exact .refl s
    | ok a =>
      dsimp only
      have h := setNuisanceParams_frame sp s l tv a
      rcases hq : setNuisanceParams sp s l tv a with ⟨t, (e | u)⟩
      · rw [hq] at h; exact h
      · rw [hq] at h; exact h.trans (ih t)

theorem tuneTreatFolds_frame (sp : Spec n P M) (f : Search n P) (b : Bool)
    (s : MState n P M) (j : ℕ) (t : TuneTable P) : TuneFrame s (tuneTreatFolds sp f b s j t).1 := by
  unfold tuneTreatFolds
  rcases tuneReps (fun k => f j k s.data) s j (List.range s.nRep) t with e | ⟨t', rs⟩
  · exact .refl s
  · dsimp only
    cases b with
    | false => exact .refl s
    | true =>
      rw [if_pos rfl]
      cases rs with
      | nil => exact .refl s
      | cons r rs =>
        dsimp only
        have h := setAll_frame sp (s.data.d.getD j "") (foldArg (r :: rs)) s (tuneKeys r)
        rcases hq : setAll sp (s.data.d.getD j "") (foldArg (r :: rs)) s (tuneKeys r) with ⟨t, (e | u)⟩
        · rw [hq] at h; exact h
        · rw [hq] at h; exact h

theorem tuneTreatGlobal_frame (sp : Spec n P M) (f : Search n P) (b : Bool)
    (s : MState n P M) (j : ℕ) : TuneFrame s (tuneTreatGlobal sp f b s j).1 := by
  unfold tuneTreatGlobal
  cases f j 0 s.data [⟨List.finRange n, List.finRange n⟩] with
  | error e => exact .refl s
  | ok r =>
    dsimp only
    cases b with
    | false => exact .refl s
    | true =>
      rw [if_pos rfl]
      have h := setAll_frame sp (s.data.d.getD j "") (globalArg r) s (tuneKeys r)
      rcases hq : setAll sp (s.data.d.getD j "") (globalArg r) s (tuneKeys r) with ⟨t, (e | u)⟩
      · rw [hq] at h; exact h
      · rw [hq] at h; exact h

theorem activate_frame {F : Frame n} {s : MState n P M} {j : ℕ} {D : DataState n} (h : activate F s.data j = .ok D) :
    TuneFrame s { s with data := D } := by
  obtain ⟨tv, _, rfl⟩ := activate_ok h
  exact ⟨rfl, activeData_same F s.data tv⟩

theorem tuneFolds_frame (F : Frame n) (sp : Spec n P M) (f : Search n P) (b : Bool)
    (s : MState n P M) (js : List ℕ) (t : TuneTable P) : TuneFrame s (tuneFolds F sp f b s js t).1 := by
  induction js generalizing s t with
  | nil => exact .refl s
  | cons j js ih =>
    unfold tuneFolds
    cases ha : activate F s.data j with
    | error e => exact .refl s
    | ok D =>
      dsimp only
      have h := (activate_frame ha).trans (tuneTreatFolds_frame sp f b { s with data := D } j t)
      rcases hq : tuneTreatFolds sp f b { s with data := D } j t with ⟨u, (e | t')⟩
      · rw [hq] at h; exact h
      · rw [hq] at h; exact h.trans (ih u t')

theorem tuneGlobal_frame (F : Frame n) (sp : Spec n P M) (f : Search n P) (b : Bool)
    (s : MState n P M) (js : List ℕ) (t : List (TuneRes P)) : TuneFrame s (tuneGlobal F sp f b s js t).1 := by
  induction js generalizing s t with
  | nil => exact .refl s
  | cons j js ih =>
    unfold tuneGlobal
    cases ha : activate F s.data j with
    | error e => exact .refl s
    | ok D =>
      dsimp only
      have h := (activate_frame ha).trans (tuneTreatGlobal_frame sp f b { s with data := D } j)
      rcases hq : tuneTreatGlobal sp f b { s with data := D } j with ⟨u, (e | r)⟩
      · rw [hq] at h; exact h
      · rw [hq] at h; exact h.trans (ih u _)

theorem tune_frame (F : Frame n) (sp : Spec n P M) (f : Search n P) (a b : Bool)
    (s : MState n P M) : TuneFrame s (tune F sp f a b s).1 := by
  unfold tune
  cases a with
  | true =>
    rw [if_pos rfl]
    have h := tuneFolds_frame F sp f b s (List.range s.data.d.length) ⟨s.data.d.length, List.replicate s.nRep none⟩
    rcases hq : tuneFolds F sp f b s (List.range s.data.d.length) ⟨s.data.d.length, List.replicate s.nRep none⟩ with ⟨u, (e | t)⟩
    · rw [hq] at h; exact h
    · rw [hq] at h; exact h
  | false =>
    rw [if_neg (by simp)]
    have h := tuneGlobal_frame F sp f b s (List.range s.data.d.length) []
    rcases hq : tuneGlobal F sp f b s (List.range s.data.d.length) [] with ⟨u, (e | t)⟩
    · rw [hq] at h; exact h
    · rw [hq] at h; exact h

/-- What `fit` changes: the arrays at its own address, and its results. -/
theorem fit_frame (F : Frame n) (sp : Spec n P M) (s : MState n P M) (a : FitArgs) :
    SameSettings s (fit F sp s a).1 ∧ (fit F sp s a).1.arr = s.arr ∧ (fit F sp s a).1.next = s.next ∧
      (fit F sp s a).1.nFolds = s.nFolds ∧ (∀ x, x ≠ s.arr → (fit F sp s a).1.heap x = s.heap x) ∧
      (∀ o, (fit F sp s a).1.framework = some o → s.framework = some o ∨ o.addr = s.arr) := by
  unfold fit
  cases hc : checkFit sp s a with
  | error e => exact ⟨.refl s, rfl, rfl, rfl, fun _ _ => rfl, fun o h => .inl h⟩
  | ok pm =>
    obtain ⟨p, m⟩ := pm
    dsimp only
    have hf := (initFit_frame sp s p m).trans
      (fitLoop_frame F sp a.ext p m (cellOrder s.nRep s.data.d.length) (initFit sp s p m))
    rcases hq : fitLoop F sp a.ext p m (initFit sp s p m) (cellOrder s.nRep s.data.d.length) with ⟨t, (e | u)⟩
    · rw [hq] at hf
      exact ⟨hf.settings, hf.arr, hf.next, hf.nFolds, hf.heap, fun o h => .inl (by rw [← hf.framework]; exact h)⟩
    · rw [hq] at hf
      dsimp only at hf ⊢
      have hset : SameSettings s (aggregate sp t) := ⟨hf.settings.data, hf.settings.smpls, hf.settings.smplsCluster,
        hf.settings.params, hf.settings.nRep, hf.settings.nFoldsPer, hf.settings.nT, hf.settings.nR⟩
      unfold finishAt
      cases (frameworkOf (t.heap t.arr).nR sp (aggregate sp t)).construct with
      | error e =>
        exact ⟨hset, hf.arr, hf.next, hf.nFolds, hf.heap, fun o h => .inl (by rw [← hf.framework]; exact h)⟩
      | ok fw =>
        refine ⟨⟨hset.data, hset.smpls, hset.smplsCluster, hset.params, hset.nRep, hset.nFoldsPer, hset.nT, hset.nR⟩,
          hf.arr, hf.next, hf.nFolds, hf.heap, fun o h => .inr ?_⟩
        obtain rfl := Option.some.inj h
        exact hf.arr

theorem infer_frame (E : Ext) (s : MState n P M) (o : ∀ r, Op n r) :
    (infer E s o).1 = { s with framework := (infer E s o).1.framework } ∧
      ∀ x, (infer E s o).1.framework = some x → ∃ y, s.framework = some y ∧ x.addr = y.addr := by
  unfold infer
  cases hf : s.framework with
  | none => exact ⟨by dsimp only, fun x hx => by rw [hf] at hx; cases hx⟩
  | some fw => exact ⟨rfl, fun x hx => ⟨fw, rfl, by obtain rfl := Option.some.inj hx; rfl⟩⟩

theorem setSampleSplitting_ok {sp : Spec n P M} {s : MState n P M} {a : SplitArg} {cl : Option (List (List ClusterPair))}
    (h : (setSampleSplitting sp s a cl).2 = .ok ()) :
    ∃ l nr nf c, checkSampleSplitting n a = .ok (l, nr, nf) ∧ checkedCluster sp s cl nr nf = .ok c ∧
      (setSampleSplitting sp s a cl).1 = initArrays { s with
        smpls := some (l.map fun r => r.map toFold)
        smplsCluster := c
        nRep := nr
        nFolds := nf
        params := initParams sp.learners s.data.d nr } := by
  unfold setSampleSplitting at h ⊢
  cases hc : checkSampleSplitting n a with
  | error e => rw [hc] at h; cases h
  | ok q =>
    obtain ⟨l, nr, nf⟩ := q
    rw [hc] at h
    dsimp only at h ⊢
    cases hcl : checkedCluster sp s cl nr nf with
    | error e => rw [hcl] at h; cases h
    | ok c => exact ⟨l, nr, nf, c, rfl, hcl, rfl⟩

theorem setSampleSplitting_error {sp : Spec n P M} {s : MState n P M} {a : SplitArg} {cl : Option (List (List ClusterPair))}
    {e : Exc} (h : (setSampleSplitting sp s a cl).2 = .error e) : (setSampleSplitting sp s a cl).1 = s := by
  unfold setSampleSplitting at h ⊢
  cases hc : checkSampleSplitting n a with
  | error e => rfl
  | ok q =>
    obtain ⟨l, nr, nf⟩ := q
    rw [hc] at h
    dsimp only at h ⊢
    cases hcl : checkedCluster sp s cl nr nf with
    | error e => rfl
    | ok c => rw [hcl] at h; cases h

/-- Method calls that do not go through the data object. -/
def MOp.notData : MOp n P → Bool
  | .data _ => false
  | _ => true

theorem WF.of_rest {s s' : MState n P M} (h : WF s) (hd : s'.data.d = s.data.d) (hh : s'.heap = s.heap)
    (ha : s'.arr = s.arr) (hn : s'.next = s.next) (hr : s'.nRep = s.nRep) (hf : s'.framework = s.framework) : WF s' :=
  ⟨⟨by rw [hr]; exact h.shaped.pos, by rw [hh, ha, hd]; exact h.shaped.nT, by rw [hh, ha, hr]; exact h.shaped.nR⟩,
    by rw [ha, hn]; exact h.arr, fun o ho => by rw [hn]; exact h.framework o (by rw [← hf]; exact ho)⟩

theorem mstep_wf (E : Ext) (F : Frame n) (sp : Spec n P M) {s : MState n P M} (h : WF s) (o : MOp n P)
    (ho : o.notData = true) : WF (mstep E F sp s o).1 := by
  cases o with
  | fit a =>
    obtain ⟨h1, h2, h3, _, h4, h5⟩ := fit_frame F sp s a
    have hw : ∀ t : MState n P M, SameSettings s t → t.arr = s.arr → t.next = s.next →
        (∀ o, t.framework = some o → s.framework = some o ∨ o.addr = s.arr) → WF t := by
      intro t g1 g2 g3 g5
      refine ⟨⟨by rw [g1.nRep]; exact h.shaped.pos, by rw [g1.nT, g1.data.d]; exact h.shaped.nT,
        by rw [g1.nR, g1.nRep]; exact h.shaped.nR⟩, by rw [g2, g3]; exact h.arr, fun o ho => ?_⟩
      rw [g3]
      rcases g5 o ho with g | g
      · exact h.framework o g
      · rw [g]; exact h.arr
    exact hw _ h1 h2 h3 h5
  | draw w =>
    show WF (drawSampleSplitting sp s w).1
    unfold drawSampleSplitting
    rcases drawnSplit sp s w with e | ⟨l, c⟩
    · exact h
    · exact h.of_rest rfl rfl rfl rfl rfl rfl
  | setSplit a cl =>
    show WF (setSampleSplitting sp s a cl).1
    cases hr : (setSampleSplitting sp s a cl).2 with
    | error e => rw [setSampleSplitting_error hr]; exact h
    | ok u =>
      obtain ⟨l, nr, nf, c, h1, h2, h3⟩ := setSampleSplitting_ok hr
      rw [h3]
      refine ⟨initArrays_shaped (C22_accepted_splits_valid n a l nr nf h1).2.1, ?_, fun o ho => ?_⟩
      · simp [initArrays]
      · have := h.framework o ho
        simp only [initArrays]; omega
  | setParams l tv p =>
    have hf := setNuisanceParams_frame sp s l tv p
    show WF (setNuisanceParams sp s l tv p).1
    exact h.of_rest hf.data.d (by rw [hf.rest]) (by rw [hf.rest]) (by rw [hf.rest]) (by rw [hf.rest]) (by rw [hf.rest])
  | tune f a b =>
    have hf := tune_frame F sp f a b s
    show WF (tune F sp f a b s).1
    exact h.of_rest hf.data.d (by rw [hf.rest]) (by rw [hf.rest]) (by rw [hf.rest]) (by rw [hf.rest]) (by rw [hf.rest])
  | infer o =>
    obtain ⟨h1, h2⟩ := infer_frame E s o
    show WF (infer E s o).1
    rw [h1]
    refine ⟨⟨h.shaped.pos, h.shaped.nT, h.shaped.nR⟩, h.arr, fun x hx => ?_⟩
    obtain ⟨y, hy, hxy⟩ := h2 x hx
    rw [hxy]; exact h.framework y hy
  | data o => cases ho

theorem mrun_wf (E : Ext) (F : Frame n) (sp : Spec n P M) {s : MState n P M} (h : WF s) (os : List (MOp n P))
    (ho : ∀ o ∈ os, o.notData = true) : WF (mrun E F sp s os) := by
  induction os generalizing s with
  | nil => exact h
  | cons o os ih =>
    exact ih (mstep_wf E F sp h o (ho o (List.mem_cons_self ..))) fun o' h' => ho o' (List.mem_cons_of_mem _ h')

/-- Calls that fit or do inference. -/
def MOp.calm : MOp n P → Bool
  | .fit _ => true
  | .infer _ => true
  | _ => false

theorem mrun_settings (E : Ext) (F : Frame n) (sp : Spec n P M) (s : MState n P M) (os : List (MOp n P))
    (ho : ∀ o ∈ os, o.calm = true) : SameSettings s (mrun E F sp s os) := by
  induction os generalizing s with
  | nil => exact .refl s
  | cons o os ih =>
    refine SameSettings.trans ?_ (ih _ fun o' h' => ho o' (List.mem_cons_of_mem _ h'))
    have hc := ho o (List.mem_cons_self ..)
    cases o with
    | fit a => exact (fit_frame F sp s a).1
    | infer o =>
      have h1 := (infer_frame E s o).1
      show SameSettings s (infer E s o).1
      rw [h1]
      exact ⟨.refl _, rfl, rfl, rfl, rfl, rfl, rfl, rfl⟩
    | draw w => cases hc
    | setSplit a cl => cases hc
    | setParams l tv p => cases hc
    | tune f a b => cases hc
    | data o => cases hc

/-- **C29.** Fitting again reproduces the results, whatever fits (successful or not, with whatever arguments) and
inference calls happened in between: the same exception, or the same results, including all later answers of
`confint`, `bootstrap`, `p_adjust` and the sensitivity methods. -/
theorem C29_refit (E : Ext) (F : Frame n) {sp : Spec n P M} (hsf : StartFree sp) {s : MState n P M} (hs : WF s)
    (os : List (MOp n P)) (ho : ∀ o ∈ os, o.calm = true) (a : FitArgs) {p m : Bool} (hp : a.storePredictions = .bool p)
    (hm : a.storeModels = .bool m) :
    (fit F sp (mrun E F sp s os) a).2 = (fit F sp s a).2 ∧
      ((fit F sp s a).2 = .ok () →
        SameResults sp p m (fit F sp s a).1 (fit F sp (mrun E F sp s os) a).1 ∧
        ∀ q : ∀ r, Op n r, (infer E (fit F sp (mrun E F sp s os) a).1 q).2 = (infer E (fit F sp s a).1 q).2) := by
  obtain ⟨h1, h2⟩ := C29_fit_from_settings F hsf (mrun_settings E F sp s os ho) hs.shaped a hp hm
  exact ⟨h1, fun hok => ⟨h2 hok, fun q => infer_congr E (h2 hok).inference q⟩⟩

/-! ## C30 -/

/-- **C30 (partial).** A successful `set_sample_splitting` resets all estimates, standard errors and scores the model
itself reports to `NaN`, for the new number of repetitions.  Missing from the full property: the framework behind
`confint`, `bootstrap`, `p_adjust` and the sensitivity methods is not reset (`C30_violated_inference`), and
`draw_sample_splitting` resets nothing (`C30_violated_draw`). -/
theorem C30_estimates_reset_partial {sp : Spec n P M} {s : MState n P M} {a : SplitArg}
    {cl : Option (List (List ClusterPair))} (h : (setSampleSplitting sp s a cl).2 = .ok ()) (j k : ℕ) :
    (setSampleSplitting sp s a cl).1.coef j = none ∧ (setSampleSplitting sp s a cl).1.se j = none ∧
    ((setSampleSplitting sp s a cl).1.heap (setSampleSplitting sp s a cl).1.arr).coef j k = none ∧
    ((setSampleSplitting sp s a cl).1.heap (setSampleSplitting sp s a cl).1.arr).se j k = none ∧
    (setSampleSplitting sp s a cl).1.scores j k = none := by
  obtain ⟨l, nr, nf, c, _, _, h3⟩ := setSampleSplitting_ok h
  rw [h3]
  simp [initArrays, Arr.fresh]

theorem view_congr {h h' : ℕ → Arr} {o : FwObj n} (he : h' o.addr = h o.addr) : o.view h' = o.view h := by
  unfold FwObj.view; rw [he]

/-- **C30 (violated).** After a successful `set_sample_splitting` all inference methods answer exactly as before, from
the results of the previous split: for every model in every state. -/
theorem C30_violated_inference (E : Ext) {sp : Spec n P M} {s : MState n P M} (hs : WF s) {a : SplitArg}
    {cl : Option (List (List ClusterPair))} (h : (setSampleSplitting sp s a cl).2 = .ok ()) :
    (setSampleSplitting sp s a cl).1.inference = s.inference ∧
      ∀ q : ∀ r, Op n r, (infer E (setSampleSplitting sp s a cl).1 q).2 = (infer E s q).2 := by
  have key : (setSampleSplitting sp s a cl).1.inference = s.inference := by
    obtain ⟨l, nr, nf, c, _, _, h3⟩ := setSampleSplitting_ok h
    rw [h3]
    unfold MState.inference
    show Option.map _ s.framework = _
    cases hf : s.framework with
    | none => rfl
    | some o =>
      have := hs.framework o hf
      simp only [Option.map_some]
      rw [view_congr]
      simp only [initArrays]
      rw [Function.update_of_ne (by omega)]
  exact ⟨key, infer_congr E key⟩

/-- **C30 (violated).** `draw_sample_splitting` replaces the split and keeps everything else: estimates, standard
errors, scores, losses, predictions and the framework remain those of the previous split. -/
theorem C30_violated_draw (E : Ext) {sp : Spec n P M} {s : MState n P M} {w : Draws n} :
    (drawSampleSplitting sp s w).1 = { s with smpls := (drawSampleSplitting sp s w).1.smpls
                                              smplsCluster := (drawSampleSplitting sp s w).1.smplsCluster } ∧
      ∀ q : ∀ r, Op n r, (infer E (drawSampleSplitting sp s w).1 q).2 = (infer E s q).2 := by
  have key : (drawSampleSplitting sp s w).1 = { s with
      smpls := (drawSampleSplitting sp s w).1.smpls
      smplsCluster := (drawSampleSplitting sp s w).1.smplsCluster } := by
    unfold drawSampleSplitting
    rcases drawnSplit sp s w with e | ⟨l, c⟩ <;> rfl
  refine ⟨key, fun q => infer_congr E ?_ q⟩
  rw [key]
  rfl

/-! ## C31 -/

/-- Method calls other than `fit`. -/
def MOp.notFit : MOp n P → Bool
  | .fit _ => false
  | _ => true

theorem mstep_heap (E : Ext) (F : Frame n) (sp : Spec n P M) {s : MState n P M} (hs : s.arr < s.next) (o : MOp n P)
    {x : ℕ} (hx : x < s.next) (ho : o.notFit = true ∨ x ≠ s.arr) :
    (mstep E F sp s o).1.heap x = s.heap x ∧ x < (mstep E F sp s o).1.next ∧
      (mstep E F sp s o).1.arr < (mstep E F sp s o).1.next ∧ (x ≠ s.arr → x ≠ (mstep E F sp s o).1.arr) := by
  cases o with
  | fit a =>
    have hx' : x ≠ s.arr := by
      rcases ho with h | h
      · cases h
      · exact h
    obtain ⟨h1, h2, h3, _, h4, h5⟩ := fit_frame F sp s a
    refine ⟨h4 x hx', ?_, ?_, fun h => ?_⟩
    · show x < (fit F sp s a).1.next; rw [h3]; exact hx
    · show (fit F sp s a).1.arr < (fit F sp s a).1.next; rw [h2, h3]; exact hs
    · show x ≠ (fit F sp s a).1.arr; rw [h2]; exact h
  | draw w =>
    have h := (C30_violated_draw E (sp := sp) (s := s) (w := w)).1
    show (drawSampleSplitting sp s w).1.heap x = _ ∧ x < (drawSampleSplitting sp s w).1.next ∧
      (drawSampleSplitting sp s w).1.arr < (drawSampleSplitting sp s w).1.next ∧ (x ≠ s.arr → x ≠ (drawSampleSplitting sp s w).1.arr)
    rw [h]
    exact ⟨rfl, hx, hs, fun h => h⟩
  | setSplit a cl =>
    show (setSampleSplitting sp s a cl).1.heap x = _ ∧ x < (setSampleSplitting sp s a cl).1.next ∧
      (setSampleSplitting sp s a cl).1.arr < (setSampleSplitting sp s a cl).1.next ∧
        (x ≠ s.arr → x ≠ (setSampleSplitting sp s a cl).1.arr)
    cases hr : (setSampleSplitting sp s a cl).2 with
    | error e => rw [setSampleSplitting_error hr]; exact ⟨rfl, hx, hs, fun h => h⟩
    | ok u =>
      obtain ⟨l, nr, nf, c, h1, h2, h3⟩ := setSampleSplitting_ok hr
      rw [h3]
      simp only [initArrays]
      refine ⟨Function.update_of_ne (by omega) _ _, by omega, by omega, fun _ => by omega⟩
  | setParams l tv p =>
    have hf := (setNuisanceParams_frame sp s l tv p).rest
    show (setNuisanceParams sp s l tv p).1.heap x = _ ∧ x < (setNuisanceParams sp s l tv p).1.next ∧
      (setNuisanceParams sp s l tv p).1.arr < (setNuisanceParams sp s l tv p).1.next ∧
        (x ≠ s.arr → x ≠ (setNuisanceParams sp s l tv p).1.arr)
    rw [hf]
    exact ⟨rfl, hx, hs, fun h => h⟩
  | tune f a b =>
    have hf := (tune_frame F sp f a b s).rest
    show (tune F sp f a b s).1.heap x = _ ∧ x < (tune F sp f a b s).1.next ∧
      (tune F sp f a b s).1.arr < (tune F sp f a b s).1.next ∧ (x ≠ s.arr → x ≠ (tune F sp f a b s).1.arr)
    rw [hf]
    exact ⟨rfl, hx, hs, fun h => h⟩
  | infer o =>
    have hf := (infer_frame E s o).1
    show (infer E s o).1.heap x = _ ∧ x < (infer E s o).1.next ∧ (infer E s o).1.arr < (infer E s o).1.next ∧
      (x ≠ s.arr → x ≠ (infer E s o).1.arr)
    rw [hf]
    exact ⟨rfl, hx, hs, fun h => h⟩
  | data o => exact ⟨rfl, hx, hs, fun h => h⟩

/-- **C31 (partial).** A framework object that was obtained from a model keeps all its contents (estimates, standard
errors, per-repetition values, scaling factors, scores) through every history of calls on the model in which the
model is not fitted again.  Missing from the full property: fitting the model again on the same split, see
`C31_violated`. -/
theorem C31_snapshot_without_refit_partial (E : Ext) (F : Frame n) (sp : Spec n P M) {s : MState n P M} (hs : WF s)
    {o : FwObj n} (ho : s.framework = some o) (os : List (MOp n P)) (hos : ∀ q ∈ os, q.notFit = true) :
    o.view (mrun E F sp s os).heap = o.view s.heap := by
  have hx := hs.framework o ho
  have ha := hs.arr
  clear hs ho
  induction os generalizing s with
  | nil => rfl
  | cons q os ih =>
    obtain ⟨h1, h2, h3, _⟩ := mstep_heap E F sp ha q hx (.inl (hos q (List.mem_cons_self ..)))
    exact (ih (fun q' h' => hos q' (List.mem_cons_of_mem _ h')) h2 h3).trans (view_congr h1)

theorem mrun_frozen (E : Ext) (F : Frame n) (sp : Spec n P M) {s : MState n P M} (ha : s.arr < s.next) {x : ℕ}
    (hx : x < s.next) (hne : x ≠ s.arr) (os : List (MOp n P)) : (mrun E F sp s os).heap x = s.heap x := by
  induction os generalizing s with
  | nil => rfl
  | cons q os ih =>
    obtain ⟨h1, h2, h3, h4⟩ := mstep_heap E F sp ha q hx (.inr hne)
    exact (ih h3 h2 (h4 hne)).trans h1

/-- **C31 (partial).** Once a new sample split has been set, frameworks obtained before keep all their contents through
every later history, including fits. -/
theorem C31_snapshot_after_resplit_partial (E : Ext) (F : Frame n) (sp : Spec n P M) {s : MState n P M} (hs : WF s)
    {o : FwObj n} (ho : s.framework = some o) {a : SplitArg} {cl : Option (List (List ClusterPair))}
    (h : (setSampleSplitting sp s a cl).2 = .ok ()) (os : List (MOp n P)) :
    o.view (mrun E F sp (setSampleSplitting sp s a cl).1 os).heap = o.view s.heap := by
  have hx := hs.framework o ho
  obtain ⟨l, nr, nf, c, _, _, h3⟩ := setSampleSplitting_ok h
  apply view_congr
  rw [mrun_frozen E F sp _ _ _ os]
  · rw [h3]; simp only [initArrays]; exact Function.update_of_ne (by omega) _ _
  · rw [h3]; simp [initArrays]
  · rw [h3]; simp only [initArrays]; omega
  · rw [h3]; simp only [initArrays]; omega

theorem view_view (h : ℕ → Arr) (o : FwObj n) : ({ o with st := o.view h } : FwObj n).view h = o.view h := by
  unfold FwObj.view
  simp only [RState.mk.injEq, and_true, FW.mk.injEq]
  apply List.ext_getElem
  · simp
  · intro i h1 h2
    simp

/-- **C31 (partial).** Inference calls on the model, including `bootstrap`, leave estimates, standard errors, scores
and all other estimation results of its framework as they are. -/
theorem C31_inference_keeps_results_partial (E : Ext) {s : MState n P M} {o : FwObj n} (ho : s.framework = some o)
    (q : ∀ r, Op n r) : ∃ st : RState n o.r, (infer E s q).1.framework = some { o with st := st } ∧
      (({ o with st := st } : FwObj n).view (infer E s q).1.heap).fw = (o.view s.heap).fw := by
  unfold infer
  rw [ho]
  refine ⟨_, rfl, ?_⟩
  have h1 : (((o.view s.heap).step E (q o.r)).1).fw = (o.view s.heap).fw := step_fw E _ _
  have h2 : ∀ st : RState n o.r, (({ o with st := st } : FwObj n).view s.heap).fw =
      (({ o with st := { st with boot := none, sens := none } } : FwObj n).view s.heap).fw := fun st => rfl
  rw [h2]
  have h3 := congrArg RState.fw (view_view s.heap o)
  rw [h2] at h3
  rw [← h3]
  have h4 : ({ ((o.view s.heap).step E (q o.r)).1 with boot := none, sens := none } : RState n o.r) =
      { o.view s.heap with boot := none, sens := none } := by
    simp only [RState.mk.injEq, and_true]; exact h1
  rw [h4]

/-! ## C32 -/

/-- **C32.** With valid roles and fresh data arrays, treatment `j` is estimated with the `j`-th treatment column as
treatment and with the covariates, followed by the other treatments iff requested; no column occurs twice and the
treatment is not among them.  Its results are stored in slot `j`. -/
theorem C32_right_columns {F : Frame n} {sp : Spec n P M} {s : MState n P M} {a : FitArgs} (hv : RolesValid F s.data)
    (hfr : Fresh F s.data) (h : (fit F sp s a).2 = .ok ()) {j k : ℕ} (hj : j < s.data.d.length) (hk : k < s.nRep) :
    ∃ (c : CellIn n P) (o : CellOut n M), sp.est c = .ok o ∧ c.treat = s.data.d[j] ∧
      c.data.yv = F.col s.data.y ∧ c.data.dv = F.col s.data.d[j] ∧
      c.data.xv = (s.data.x ++ if s.data.useOther then s.data.d.erase s.data.d[j] else []).map F.col ∧
      (s.data.x ++ if s.data.useOther then s.data.d.erase s.data.d[j] else []).Nodup ∧
      s.data.d[j] ∉ (s.data.x ++ if s.data.useOther then s.data.d.erase s.data.d[j] else []) ∧
      ((fit F sp s a).1.heap (fit F sp s a).1.arr).coef j k = some o.fit.coef ∧
      ((fit F sp s a).1.heap (fit F sp s a).1.arr).se j k = some o.fit.se ∧
      (fit F sp s a).1.scores j k = some (o.fit.psi, o.fit.deriv) := by
  obtain ⟨p, m, _, hc, _⟩ := fit_ok h
  obtain ⟨hp, hm⟩ := checkFit_ok hc
  obtain ⟨c, o, l, H, _, ho, _, h1, h2, h3, _⟩ := fit_cells h hp hm hj hk
  have ht : c.treat = s.data.d[j] := by
    have := H.treat
    rw [List.getElem?_eq_getElem hj] at this
    exact (Option.some.inj this).symm
  have hmem : s.data.d[j] ∈ s.data.d := List.getElem_mem hj
  have hnd := hv.1
  unfold roleList at hnd
  have hdx : (s.data.d ++ s.data.x).Nodup := by
    have h' : ([s.data.y] ++ s.data.d ++ s.data.x).Nodup := by
      refine List.Nodup.sublist ?_ hnd
      simp [List.append_assoc]
    rw [List.append_assoc] at h'
    exact (List.nodup_append.1 h').2.1
  obtain ⟨hnd1, hnd2, hdis⟩ := List.nodup_append.1 hdx
  refine ⟨c, o, ho, ht, ?_, ?_, ?_, ?_, ?_, h1, h2, h3⟩
  · rw [H.data]
    unfold activeData
    split_ifs
    · exact hfr.1
    · exact hfr.1
  · rw [H.data, ht]
    unfold activeData
    split_ifs with hl
    · rfl
    · obtain ⟨tv, htv, e1, _⟩ := hfr.2.2.2.2.2
      obtain ⟨i, hi, rfl⟩ := List.getElem_of_mem htv
      have : i = j := by omega
      subst this
      exact e1
  · rw [H.data, ht]
    unfold activeData
    by_cases hl : s.data.d.length > 1
    · rw [if_pos hl, ← xdList_eq hv hmem]
    · rw [if_neg hl]
      obtain ⟨tv, htv, _, e2⟩ := hfr.2.2.2.2.2
      obtain ⟨i, hi, rfl⟩ := List.getElem_of_mem htv
      have : i = j := by omega
      subst this
      exact e2
  · split_ifs
    · refine List.nodup_append.2 ⟨hnd2, hnd1.erase _, fun x hx y hy => ?_⟩
      exact (hdis y (List.mem_of_mem_erase hy) x hx).symm
    · simpa using hnd2
  · intro hmem'
    rcases List.mem_append.1 hmem' with h' | h'
    · exact hdis _ hmem _ h' rfl
    · split_ifs at h'
      · exact hnd1.not_mem_erase h'
      · cases h'

theorem CellEst.unique {F : Frame n} {sp sp' : Spec n P M} (hsf : StartFree sp') (hl : sp'.learners = sp.learners)
    (hvars : sp'.vars = sp.vars) {s : MState n P M} {ext : ExtArg} {wm : Bool} {k j : ℕ} {tv : String}
    (ht : s.data.d[j]? = some tv) (he : ∀ c : CellIn n P, c.treat = tv → sp'.est c = sp.est c) {o o' : CellOut n M}
    (h : CellEst F sp s ext wm k j o) (h' : CellEst F sp' s ext wm k j o') : o'.forget = o.forget := by
  obtain ⟨tv1, f, c, p, e, x, h1, h2, h3, h4, h5, h6⟩ := h
  obtain ⟨tv2, f', c', p', e', x', g1, g2, g3, g4, g5, g6⟩ := h'
  rw [ht] at h1 g1
  obtain rfl := Option.some.inj h1
  obtain rfl := Option.some.inj g1
  rw [hl] at g2 g5
  rw [h2] at g2
  obtain rfl := Except.ok.inj g2
  rw [h3] at g3
  obtain rfl := Except.ok.inj g3
  have h4' : repCluster sp' s f k = .ok c := by
    unfold repCluster at h4 ⊢; rw [hvars]; exact h4
  rw [h4'] at g4
  obtain rfl := Except.ok.inj g4
  rw [h5] at g5
  obtain rfl := Except.ok.inj g5
  rw [← he _ rfl] at h6
  have := hsf ⟨activeData F s.data tv, tv, f, c, p, e, x, wm, k⟩ x'
  simp only at this
  rw [g6, h6] at this
  exact Except.ok.inj this

/-- **C32.** The slots of treatment `j` are determined by its own estimation: if the estimation of the other treatments
is replaced by anything else (`sp'` agrees with `sp` on treatment `tv` only), the estimate, the standard error and
the scores of `tv` do not change. -/
theorem C32_other_treatments_irrelevant {F : Frame n} {sp sp' : Spec n P M} (hsf : StartFree sp')
    (hl : sp'.learners = sp.learners) (hvars : sp'.vars = sp.vars) {s : MState n P M} {a : FitArgs}
    (h : (fit F sp s a).2 = .ok ()) (h' : (fit F sp' s a).2 = .ok ()) {j k : ℕ} (hj : j < s.data.d.length)
    (hk : k < s.nRep) (he : ∀ c : CellIn n P, c.treat = s.data.d[j] → sp'.est c = sp.est c) :
    ((fit F sp' s a).1.heap (fit F sp' s a).1.arr).coef j k = ((fit F sp s a).1.heap (fit F sp s a).1.arr).coef j k ∧
    ((fit F sp' s a).1.heap (fit F sp' s a).1.arr).se j k = ((fit F sp s a).1.heap (fit F sp s a).1.arr).se j k ∧
    (fit F sp' s a).1.scores j k = (fit F sp s a).1.scores j k := by
  obtain ⟨p, m, fw, h1, h2, h3, h4⟩ := fit_ok h
  obtain ⟨p', m', fw', g1, g2, g3, g4⟩ := fit_ok h'
  obtain ⟨hp, hm⟩ := checkFit_ok h1
  obtain ⟨hp', hm'⟩ := checkFit_ok g1
  rw [hp] at hp'; rw [hm] at hm'
  cases hp'; cases hm'
  obtain ⟨o, ho, hst, _⟩ := fitLoop_stored _ _ h2 (mem_cellOrder.2 ⟨hk, hj⟩)
  obtain ⟨o', ho', hst', _⟩ := fitLoop_stored _ _ g2 (mem_cellOrder.2 ⟨hk, hj⟩)
  have e := CellEst.unique hsf hl hvars (List.getElem?_eq_getElem hj) he
    (ho.congr (initFit_frame sp s p m).settings.symm) (ho'.congr (initFit_frame sp' s p m).settings.symm)
  have ef := (forget_fields e).1
  rw [h4, g4]
  refine ⟨hst'.coef.trans ?_, hst'.se.trans ?_, hst'.scores.trans ?_⟩
  · rw [ef]; exact hst.coef.symm
  · rw [ef]; exact hst.se.symm
  · rw [ef]; exact hst.scores.symm

end DML
