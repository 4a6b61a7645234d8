import Verif.FitView
import Verif.UnitsFitProps
import Verif.ApoExtProps
import Verif.FrameworkPoolProps
import Verif.NestedClassesProps
import Verif.FitOkBinaryProps
import Verif.ConstructMulti

/-!
# C63: fits of `DoubleMLAPOS` and `DoubleMLQTE` succeed

The sub-models of every object that is reached by a history of calls are themselves reached models, and a fit of the whole
object succeeds as soon as the fits of its sub-models do.
-/

namespace DML

variable {n : ℕ} {P M : Type} {L : Type}

/-! ## Sub-models are reached -/

/-- All sub-models (if there are any) are reached models with a split and a common number of repetitions. -/
def SubsReached (E : Ext) (F : Frame n) (cs : List (SubClass n P M)) (D : DataState n) (s : Multi n P M) : Prop :=
  ∀ ms, s.subs = some ms → ∃ R, List.Forall₂ (fun c m => ReachedFrom E F c.spec D m ∧ m.smpls.isSome ∧ m.nRep = R) cs ms

/-- Draws in which every observation is in the first fold. -/
def firstFold (n : ℕ) : Draws n := ⟨fun _ => Equiv.refl _, fun _ _ => 0, fun _ _ _ => Equiv.refl _⟩

theorem initModel_irrel (sp : Spec n P M) (D : DataState n) (st : ℝ) (nf nr : PyVal) (w w' : Draws n) :
    initModel sp D st nf nr (.bool false) w = initModel sp D st nf nr (.bool false) w' := by
  unfold initModel
  simp only [checkBool, bind, Except.bind, Bool.false_eq_true, if_false]

theorem ReachedFrom.fit {E : Ext} {F : Frame n} {sp : Spec n P M} {D : DataState n} {s : MState n P M}
    (h : ReachedFrom E F sp D s) (a : FitArgs) : ReachedFrom E F sp D (DML.fit F sp s a).1 := by
  obtain ⟨start, nf, nr, dr, w, s₀, os, h1, h2, h3, rfl⟩ := h
  refine ⟨start, nf, nr, dr, w, s₀, os ++ [.fit a], h1, h2, h3.snoc (o := .fit a) trivial, ?_⟩
  rw [mrun_snoc]
  rfl

theorem initSub_reached (E : Ext) (F : Frame n) {D : DataState n} {w : Draws n} {K R : ℕ} {S : List (List IdxPair)} {c : SubClass n P M}
    {m : MState n P M} (h : initSub D w K R S c = .ok m) :
    ReachedFrom E F c.spec D m ∧ m.smpls.isSome ∧ ∀ l r k, checkSampleSplitting n (nestedSplit S) = .ok (l, r, k) → m.nRep = r := by
  unfold initSub at h
  obtain ⟨s, hs, h⟩ := bind_ok h
  obtain ⟨-, -, h⟩ := bind_ok h
  unfold syncSplit at h
  rcases hq : setSampleSplitting c.spec s (nestedSplit S) none with ⟨t, (e | u)⟩
  · rw [hq] at h; cases h
  rw [hq] at h
  obtain rfl := Except.ok.inj h
  obtain ⟨l, nr, nf, cl, g1, -, g3⟩ := setSampleSplitting_ok (by rw [hq])
  rw [hq] at g3
  have hK : 1 ≤ (K : ℤ) := by
    have hs' := hs
    unfold initModel at hs'
    obtain ⟨-, -, hs'⟩ := bind_ok hs'
    obtain ⟨k, hk, -⟩ := bind_ok hs'
    simp [checkInteger, PyVal.asInt] at hk
    split_ifs at hk
    omega
  refine ⟨⟨c.start, .int K, .int R, .bool false, firstFold n, s, [.setSplit (nestedSplit S) none], ?_, ?_, ⟨trivial, trivial⟩, ?_⟩,
    by rw [show t = _ from g3]; rfl, fun l' r' k' h' => ?_⟩
  · rw [initModel_irrel c.spec D c.start _ _ (firstFold n) w]
    exact hs
  · intro K' hK' r i
    simp [PyVal.asInt] at hK'
    show ((0 : ℕ) : ℤ) < K'
    omega
  · show t = (setSampleSplitting c.spec s (nestedSplit S) none).1
    rw [hq]
  · rw [g1] at h'
    cases h'
    rw [show t = _ from g3]
    rfl

theorem initSubs_reached (E : Ext) (F : Frame n) {cs : List (SubClass n P M)} {D : DataState n} {w : Draws n} {K R : ℕ}
    {S : List (List IdxPair)} {ms : List (MState n P M)} (h : cs.mapM (initSub D w K R S) = .ok ms) :
    ∃ R, List.Forall₂ (fun c m => ReachedFrom E F c.spec D m ∧ m.smpls.isSome ∧ m.nRep = R) cs ms := by
  rw [mapM_ok_iff] at h
  rcases hc : checkSampleSplitting n (nestedSplit S) with e | ⟨l, r, k⟩
  · refine ⟨0, h.imp fun c m hm => ?_⟩
    obtain ⟨s, -, hm⟩ := bind_ok hm
    obtain ⟨-, -, hm⟩ := bind_ok hm
    unfold syncSplit setSampleSplitting at hm
    rw [hc] at hm
    cases hm
  · refine ⟨r, h.imp fun c m hm => ?_⟩
    obtain ⟨h1, h2, h3⟩ := initSub_reached E F hm
    exact ⟨h1, h2, h3 l r k hc⟩

theorem reinit_reached (E : Ext) (F : Frame n) {cs : List (SubClass n P M)} {D : DataState n} (w : Draws n) {s : Multi n P M}
    (h : SubsReached E F cs D s) : SubsReached E F cs D (reinit cs D w s).1 := by
  unfold reinit
  cases hi : initSubs cs D w s with
  | error e => exact h
  | ok l =>
    intro ms hms
    obtain rfl := Option.some.inj hms
    unfold initSubs at hi
    cases hS : s.smpls with
    | none => rw [hS] at hi; cases hi
    | some S =>
      rw [hS] at hi
      exact initSubs_reached E F hi

theorem SubsReached.congr {E : Ext} {F : Frame n} {cs : List (SubClass n P M)} {D : DataState n} {s s' : Multi n P M}
    (h : SubsReached E F cs D s) (h1 : s'.subs = s.subs) : SubsReached E F cs D s' := by
  intro ms hms
  rw [h1] at hms
  exact h ms hms

theorem fitSubs_forall (F : Frame n) {Q : SubClass n P M → MState n P M → Prop}
    (hQ : ∀ c m a, Q c m → Q c (fit F c.spec m a).1) {cas : List (SubClass n P M × FitArgs)} {cs : List (SubClass n P M)}
    {ms : List (MState n P M)} (hp : cas.map Prod.fst <+: cs) (h : List.Forall₂ Q cs ms) :
    List.Forall₂ Q cs (fitSubs F cas ms).1 := by
  induction cas generalizing cs ms with
  | nil => unfold fitSubs; exact h
  | cons ca cas ih =>
    obtain ⟨t, rfl⟩ := hp
    cases h with
    | cons h1 h2 =>
      rename_i m ms
      have h3 := hQ _ _ ca.2 h1
      have h4 := ih (List.prefix_append _ t) h2
      unfold fitSubs
      generalize fit F ca.1.spec m ca.2 = q at *
      obtain ⟨m', (e | u)⟩ := q
      · exact .cons h3 h2
      · exact .cons h3 h4

theorem multiFit_reached {E : Ext} (F : Frame n) {cs : List (SubClass n P M)} {D : DataState n} {cas : List (SubClass n P M × FitArgs)}
    (hp : cas.map Prod.fst <+: cs) (g : List (DynFW n) → Except Exc (List (DynFW n))) {s : Multi n P M} (h : SubsReached E F cs D s) :
    SubsReached E F cs D (multiFit F cas g s).1 := by
  unfold multiFit
  cases hs : s.subs with
  | none => exact h
  | some ms =>
    obtain ⟨R, h1⟩ := h ms hs
    have h2 := fitSubs_forall F (Q := fun c m => ReachedFrom E F c.spec D m ∧ m.smpls.isSome ∧ m.nRep = R)
      (fun c m a hm => ⟨hm.1.fit a, by rw [(fit_frame F c.spec m a).1.smpls]; exact hm.2.1,
        by rw [(fit_frame F c.spec m a).1.nRep]; exact hm.2.2⟩) hp h1
    dsimp only
    rcases hq : fitSubs F cas ms with ⟨ms', (e | u)⟩
    · intro ms'' hms
      obtain rfl := Option.some.inj hms
      rw [hq] at h2
      exact ⟨R, h2⟩
    · intro ms'' hms
      rw [(setFw_split _ _).2.2.2] at hms
      obtain rfl := Option.some.inj hms
      rw [hq] at h2
      exact ⟨R, h2⟩

theorem zipWith_prefix {α β γ : Type} {f : α → β → α × γ} (hf : ∀ a b, (f a b).1 = a) (l : List α) (r : List β) :
    (List.zipWith f l r).map Prod.fst <+: l := by
  induction l generalizing r with
  | nil => simp
  | cons a l ih =>
    cases r with
    | nil => simp
    | cons b r =>
      simp only [List.zipWith_cons_cons, List.map_cons, hf]
      exact List.cons_prefix_cons.2 ⟨rfl, ih r⟩

theorem multiSet_reached {E : Ext} {F : Frame n} {cs : List (SubClass n P M)} {D : DataState n} (w : Draws n) {s : Multi n P M}
    (a : SplitArg) (h : SubsReached E F cs D s) : SubsReached E F cs D (multiSet cs D w s a).1 := by
  unfold multiSet
  rcases checkSampleSplitting n a with e | ⟨S, r, k⟩
  · exact h
  · exact reinit_reached E F w (s := { s with smpls := some S, nRep := r, nFolds := k }) (h.congr rfl)

theorem multiInfer_reached {E' E : Ext} {F : Frame n} {cs : List (SubClass n P M)} {D : DataState n} {s : Multi n P M}
    (o : ∀ r, Op n r) (h : SubsReached E F cs D s) : SubsReached E F cs D (multiInfer E' s o).1 := by
  unfold multiInfer
  cases hs : s.framework with
  | none => exact h
  | some f => exact h.congr rfl

theorem setDrawn_reached {E : Ext} {F : Frame n} {cs : List (SubClass n P M)} {D : DataState n} {s : Multi n P M} (w : Draws n)
    (h : SubsReached E F cs D s) : SubsReached E F cs D (setDrawn s w).1 := by
  unfold setDrawn
  cases multiDraw s.nFolds s.nRep w with
  | error e => exact h
  | ok S => exact h.congr rfl

theorem empty_reached (E : Ext) (F : Frame n) (cs : List (SubClass n P M)) (D : DataState n) (k r : ℕ) :
    SubsReached E F cs D (multiEmpty k r) := by
  intro ms h; cases h

theorem qteDraw_reached {E : Ext} {F : Frame n} {cs : List (SubClass n P M)} {D : DataState n} {s : Multi n P M} (w : Draws n)
    (h : SubsReached E F cs D s) : SubsReached E F cs D (qteDraw cs D s w).1 := by
  unfold qteDraw
  have h1 := setDrawn_reached w h
  generalize setDrawn s w = q at *
  obtain ⟨s', (e | u)⟩ := q
  · exact h1
  · exact reinit_reached E F w h1

theorem qteRun_reached {E : Ext} {F : Frame n} {cs : List (SubClass n P M)} {D : DataState n} {w0 : Draws n} {s : Multi n P M}
    (h : SubsReached E F cs D s) (ops : List (MultiOp n L)) : SubsReached E F cs D (qteRun E F cs D w0 s ops) := by
  induction ops generalizing s with
  | nil => exact h
  | cons o os ih =>
    refine ih ?_
    cases o with
    | fit a e =>
      show SubsReached E F cs D (qteFit F cs s a).1
      unfold qteFit
      split_ifs
      · exact h
      · exact multiFit_reached F (by rw [List.map_map]; simp [Function.comp_def]) _ h
    | draw w => exact qteDraw_reached w h
    | setSplit a => exact multiSet_reached w0 a h
    | infer o => exact multiInfer_reached o h

theorem apoRun_reached [DecidableEq L] {E : Ext} {F : Frame n} {levels : List L} {dCol : String} {cs : List (SubClass n P M)}
    {D : DataState n} {w0 : Draws n} {s : Multi n P M} (h : SubsReached E F cs D s) (ops : List (MultiOp n L)) :
    SubsReached E F cs D (apoRun E F levels dCol cs D w0 s ops) := by
  induction ops generalizing s with
  | nil => exact h
  | cons o os ih =>
    refine ih ?_
    cases o with
    | fit a e =>
      show SubsReached E F cs D (apoFit F levels dCol cs s a e).1
      unfold apoFit
      cases apoExtArgs levels dCol e with
      | error x => exact h
      | ok es => exact multiFit_reached F (zipWith_prefix (fun _ _ => rfl) cs es) _ h
    | draw w => exact setDrawn_reached w h
    | setSplit a => exact multiSet_reached w0 a h
    | infer o => exact multiInfer_reached o h

theorem apoCreate_reached (E : Ext) (F : Frame n) {cs : List (SubClass n P M)} {D : DataState n} {k r : ℕ} {b : Bool} {w : Draws n}
    {s : Multi n P M} (h : apoCreate cs D k r b w = .ok s) : SubsReached E F cs D s := by
  unfold apoCreate at h
  have h0 := setDrawn_reached w (empty_reached E F cs D k r)
  split_ifs at h
  · unfold apoDraw at h
    generalize setDrawn (multiEmpty k r) w = q at *
    obtain ⟨s', (e | u)⟩ := q
    · cases h
    have h1 := reinit_reached E F w h0
    dsimp only at h
    generalize reinit cs D w s' = q at *
    obtain ⟨s'', (e | u)⟩ := q
    · cases h
    obtain rfl := Except.ok.inj h
    exact h1
  · obtain rfl := Except.ok.inj h
    exact empty_reached E F cs D k r

theorem qteCreate_reached (E : Ext) (F : Frame n) {cs : List (SubClass n P M)} {D : DataState n} {k r : ℕ} {b : Bool} {w : Draws n}
    {s : Multi n P M} (h : qteCreate cs D k r b w = .ok s) : SubsReached E F cs D s := by
  unfold qteCreate at h
  have h0 := qteDraw_reached w (empty_reached E F cs D k r)
  split_ifs at h
  · generalize qteDraw cs D (multiEmpty k r) w = q at *
    obtain ⟨s', (e | u)⟩ := q
    · cases h
    have h1 := reinit_reached E F w h0
    dsimp only at h
    generalize reinit cs D w s' = q at *
    obtain ⟨s'', (e | u)⟩ := q
    · cases h
    obtain rfl := Except.ok.inj h
    exact h1
  · obtain rfl := Except.ok.inj h
    exact empty_reached E F cs D k r

/-! ## Frameworks of the sub-models -/

theorem FW.construct_valid {r : ℕ} {A B : FW n r} (h : A.construct = .ok B) : B.Valid := by
  obtain ⟨h1, h2, h3, h4⟩ := FW.construct_ok h
  rw [FW.valid_iff]
  refine ⟨h2, fun hs => ?_, h3, h4⟩
  rw [h1] at hs ⊢
  simp [FW.normBench] at hs ⊢
  intro h
  rw [hs] at h
  cases h

theorem view_valid {o : FwObj n} (h : o.st.fw.Valid) (H : ℕ → Arr) : (o.view H).fw.Valid := by
  rw [FW.valid_iff] at h ⊢
  obtain ⟨⟨h1, h2⟩, h3, h4, h5⟩ := h
  have hl : (o.view H).fw.blocks.length = o.st.fw.blocks.length := by simp [FwObj.view]
  refine ⟨⟨?_, ?_⟩, h3, h4, ?_⟩
  · rw [hl]; exact h1
  · rw [hl]; exact h2
  · rw [hl]; exact h5

/-- A valid framework with `R` repetitions and one parameter, without clusters. -/
def GoodFw (R : ℕ) (A : DynFW n) : Prop :=
  ∃ B : FW n R, A = ⟨R, B⟩ ∧ B.Valid ∧ B.cluster = none ∧ ∃ b, B.blocks = [b] ∧ b.vsf = n

theorem fitted_good {F : Frame n} {sp : Spec n P M} (hv : sp.vars = none) (hu : UsualVsf sp) {m : MState n P M} (hs : Shaped m)
    (h1 : m.data.d.length = 1) {a : FitArgs} (h : (fit F sp m a).2 = .ok ()) : ∃ A, getFw (fit F sp m a).1 = .ok A ∧ GoodFw m.nRep A := by
  obtain ⟨A, c, o, hA⟩ := fit_view hu hs h rfl
  refine ⟨⟨m.nRep, A⟩, by unfold getFw; rw [hA.fw], A, rfl, ?_, by rw [hA.cluster, hv]; rfl, ?_⟩
  · obtain ⟨p, m', fw, -, -, h3, h4⟩ := fit_ok h
    have hfw := hA.fw
    unfold MState.fw? at hfw
    have hfr : (fit F sp m a).1.framework = some ⟨(m.heap m.arr).nR, m.arr, { fw := fw }⟩ := by rw [h4]
    rw [hfr] at hfw
    have hval := view_valid (o := ⟨(m.heap m.arr).nR, m.arr, { fw := fw }⟩) (FW.construct_valid h3) (fit F sp m a).1.heap
    have hfw := Option.some.inj hfw
    have key : ∀ X Y : DynFW n, X = Y → Y.fw.Valid → X.fw.Valid := fun X Y e h => e ▸ h
    exact key ⟨m.nRep, A⟩ _ hfw.symm hval
  · have h2 := hA.nBlocks
    rw [h1] at h2
    obtain ⟨b, hb⟩ := List.length_eq_one_iff.1 h2
    refine ⟨b, hb, ?_⟩
    have h3 := hA.block 0 (by omega)
    rw [hb, hv] at h3
    obtain rfl := Option.some.inj h3
    rfl

theorem concat_good {R : ℕ} {As : List (DynFW n)} (h0 : As ≠ []) (h : ∀ A ∈ As, GoodFw R A) : ∃ C, DynFW.concat As = .ok C := by
  have : ∃ Bs : List (FW n R), As = Bs.map (DynFW.mk R) ∧ ∀ B ∈ Bs, B.Valid ∧ B.cluster = none := by
    clear h0
    induction As with
    | nil => exact ⟨[], rfl, by simp⟩
    | cons A As ih =>
      obtain ⟨Bs, rfl, hB⟩ := ih fun A hA => h A (by simp [hA])
      obtain ⟨B, rfl, h1, h2, -⟩ := h A (by simp)
      exact ⟨B :: Bs, rfl, by simpa using ⟨⟨h1, h2⟩, hB⟩⟩
  obtain ⟨Bs, rfl, hB⟩ := this
  cases Bs with
  | nil => simp at h0
  | cons B Bs =>
    have hc := concat_valid (As := B :: Bs) (by simp) (fun A hA => (hB A hA).1) (fun A hA => (hB A hA).2)
    have hm : ((B :: Bs).map (DynFW.mk R)).mapM (DynFW.castTo R) = .ok (B :: Bs) := by
      rw [mapM_ok_iff, List.forall₂_map_left_iff]
      exact List.forall₂_same.2 fun x _ => castTo_self x
    rw [List.map_cons] at hm ⊢
    unfold DynFW.concat
    simp only [hm, hc, bind, Except.bind]
    exact ⟨_, rfl⟩

theorem diff_good {R : ℕ} {A B : DynFW n} (hA : GoodFw R A) (hB : GoodFw R B) : ∃ C, A.sub B = .ok C ∧ GoodFw R C := by
  obtain ⟨A, rfl, hA1, hA2, a, hA3, hA4⟩ := hA
  obtain ⟨B, rfl, hB1, hB2, b, hB3, hB4⟩ := hB
  have h := FW.bin_eq_ok (op := Block.sub) (FW.valid_iff.1 hA1).1 (FW.valid_iff.1 hB1).1
    (⟨fun _ => by rw [hA3, hB3]; rfl, by rw [hA2, hB2]⟩) (by
      rw [hA3, hB3]
      intro p hp
      simp only [List.zip_cons_cons, List.zip_nil_right, List.mem_singleton] at hp
      subst hp
      show |a.vsf - b.vsf| ≤ 1e-8 + 1e-5 * |b.vsf|
      rw [hA4, hB4, sub_self, abs_zero]
      positivity)
  obtain ⟨C, hC⟩ : ∃ C, FW.sub A B = .ok C := ⟨_, h⟩
  have hC' : FW.bin Block.sub A B = .ok C := hC
  refine ⟨⟨R, C⟩, ?_, C, rfl, ?_, ?_, ?_⟩
  · unfold DynFW.sub
    simp only [castTo_self, hC, bind, Except.bind]
    rfl
  · unfold FW.bin at hC'
    split_ifs at hC'
    exact FW.construct_valid hC'
  · rw [h] at hC'
    rw [← Except.ok.inj hC']
    exact hA2
  · rw [h] at hC'
    rw [← Except.ok.inj hC']
    exact ⟨a.sub b, by simp [hA3, hB3], hA4⟩

theorem qteDiffs_good {R : ℕ} : ∀ {As : List (DynFW n)}, (∀ A ∈ As, GoodFw R A) → ∃ Ds, qteDiffs As = .ok Ds ∧
    (∀ A ∈ Ds, GoodFw R A) ∧ (2 ≤ As.length → Ds ≠ [])
  | [], _ => ⟨[], rfl, by simp, by simp⟩
  | [_], _ => ⟨[], rfl, by simp, by simp⟩
  | A0 :: A1 :: As, h => by
    obtain ⟨C, h1, h2⟩ := diff_good (h A1 (by simp)) (h A0 (by simp))
    obtain ⟨Ds, h3, h4, -⟩ := qteDiffs_good (As := As) fun A hA => h A (by simp [hA])
    refine ⟨C :: Ds, ?_, by simpa using ⟨h2, h4⟩, by simp⟩
    unfold qteDiffs
    simp only [h1, h3, bind, Except.bind]
    rfl

/-! ## Fits of the whole object -/

/-- What a fit of a sub-model needs and gives. -/
structure SubFits (F : Frame n) (R : ℕ) (ca : SubClass n P M × FitArgs) (m : MState n P M) : Prop where
  vars : ca.1.spec.vars = none
  vsf : UsualVsf ca.1.spec
  shaped : Shaped m
  one : m.data.d.length = 1
  nRep : m.nRep = R
  ok : (fit F ca.1.spec m ca.2).2 = .ok ()

theorem fitSubs_good {F : Frame n} {R : ℕ} {cas : List (SubClass n P M × FitArgs)} {ms : List (MState n P M)}
    (h : List.Forall₂ (SubFits F R) cas ms) : ∃ ms' As, fitSubs F cas ms = (ms', .ok ()) ∧ ms'.mapM getFw = .ok As ∧
      (∀ A ∈ As, GoodFw R A) ∧ As.length = cas.length := by
  induction h with
  | nil => exact ⟨[], [], rfl, rfl, by simp, rfl⟩
  | cons h1 _ ih =>
    rename_i ca m cas ms _
    obtain ⟨ms', As, h3, h4, h5, h6⟩ := ih
    obtain ⟨A, hA, hA'⟩ := fitted_good h1.vars h1.vsf h1.shaped h1.one h1.ok
    rw [h1.nRep] at hA'
    have hok := h1.ok
    refine ⟨(fit F ca.1.spec m ca.2).1 :: ms', A :: As, ?_, ?_, by simpa using ⟨hA', h5⟩, by simp [h6]⟩
    · unfold fitSubs
      generalize fit F ca.1.spec m ca.2 = q at *
      obtain ⟨m', (e | u)⟩ := q
      · cases hok
      · dsimp only
        rw [h3]
    · rw [List.mapM_cons, hA, h4]; rfl

theorem multiFit_total {F : Frame n} {R : ℕ} {cas : List (SubClass n P M × FitArgs)} {s : Multi n P M} {ms : List (MState n P M)}
    (hs : s.subs = some ms) (h : List.Forall₂ (SubFits F R) cas ms) {g : List (DynFW n) → Except Exc (List (DynFW n))}
    (hg : ∀ As : List (DynFW n), As.length = cas.length → (∀ A ∈ As, GoodFw R A) →
      ∃ Ds, g As = .ok Ds ∧ (∀ A ∈ Ds, GoodFw R A) ∧ Ds ≠ []) : (multiFit F cas g s).2 = .ok () := by
  obtain ⟨ms', As, h1, h2, h3, h4⟩ := fitSubs_good h
  obtain ⟨Ds, h5, h6, h7⟩ := hg As h4 h3
  obtain ⟨C, hC⟩ := concat_good h7 h6
  unfold multiFit
  rw [hs]
  dsimp only
  rw [h1]
  dsimp only
  rw [h2]
  show (setFw _ ((Except.ok As).bind g)).2 = _
  unfold setFw
  rw [show (Except.ok As).bind g = g As from rfl, h5]
  rw [show (Except.ok Ds).bind DynFW.concat = DynFW.concat Ds from rfl, hC]

/-! ## Which classes -/

theorem pq_usualVsf (k : PqClass n P) : UsualVsf (pqSpec k) := by
  intro c o h
  obtain ⟨_, _, h⟩ := bind_ok h
  obtain rfl := Except.ok.inj h
  exact varEst_vsf _ _ _

theorem cvar_usualVsf (k : PqClass n P) : UsualVsf (cvarSpec k) := by
  intro c o h
  obtain ⟨_, _, h⟩ := bind_ok h
  obtain rfl := Except.ok.inj h
  exact varEst_vsf _ _ _

theorem lpq_usualVsf (k : LpqClass n P) : UsualVsf (lpqSpec k) := by
  intro c o h
  obtain ⟨_, _, h⟩ := bind_ok h
  obtain ⟨_, _, h⟩ := bind_ok h
  obtain rfl := Except.ok.inj h
  exact varEst_vsf _ _ _

/-! ## External predictions of `DoubleMLAPOS` -/

/-- All arrays have one row per observation and one column per repetition. -/
def ApoExt.Shaped (n R : ℕ) : ApoExt L → Prop
  | .dict items => ∀ l inner, (l, ExtInner.dict inner) ∈ items → ∀ k v, (k, v) ∈ inner → ∃ a, v = .arr2 n R a
  | _ => True

theorem apoExtArgs_valid [DecidableEq L] {levels : List L} {tv : String} {e : ApoExt L} {es : List ExtArg} {R : ℕ}
    (h : apoExtArgs levels tv e = .ok es) (hs : e.Shaped n R) : ∀ x ∈ es, x = .none ∨ (x.WellFormed [tv] apoLearners n R ∧ x.Covers tv) := by
  intro x hx
  unfold apoExtArgs at h
  cases e with
  | none =>
    obtain rfl := Except.ok.inj h
    obtain ⟨_, _, rfl⟩ := List.mem_map.1 hx
    exact .inl rfl
  | notDict => cases h
  | dict items =>
    dsimp only at h
    obtain ⟨_, _, h⟩ := bind_ok h
    obtain ⟨i, hi⟩ := List.getElem?_of_mem hx
    obtain ⟨l, -, hr⟩ := mapM_getElem? h hi
    unfold renameApoExt at hr
    cases hk : lookupLevel l items with
    | none => rw [hk] at hr; cases hr
    | some v =>
      rw [hk] at hr
      cases v with
      | notDict => cases hr
      | dict inner =>
        obtain rfl := Except.ok.inj hr
        refine .inr ⟨?_, ?_⟩
        · intro t v htv
          rw [List.mem_singleton] at htv
          obtain ⟨rfl, rfl⟩ := Prod.mk.inj htv
          refine ⟨by simp, _, rfl, fun q w hq => ?_⟩
          obtain ⟨q', hq', he⟩ := List.mem_filterMap.1 hq
          obtain ⟨w', hw', he⟩ := Option.map_eq_some_iff.1 he
          obtain ⟨rfl, rfl⟩ := Prod.mk.inj he
          refine ⟨?_, hs l inner (lookupLevel_mem hk) q' w' (lookupKey_mem hw')⟩
          simp only [List.mem_cons, List.not_mem_nil, or_false] at hq'
          rcases hq' with rfl | rfl | rfl <;> simp [apoLearners]
        · exact ⟨_, by simp [lookupKey]; rfl⟩

/-! ## C63 -/

/-- The classes of the sub-models of a `DoubleMLAPOS` object: one `DoubleMLAPO` per treatment level, created with start value
zero and some checks. -/
noncomputable def aposClasses (chk : ApoClass n P → ℕ → Except Exc Unit) (ks : List (ApoClass n P)) :
    List (SubClass n P (Option (List (FittedModel P (List Cell))))) := ks.map fun k => ⟨apoSpec k, 0, chk k⟩

/-- Arguments of `fit` of the documented types. -/
structure PlainArgs (a : FitArgs) : Prop where
  jobs : a.nJobs = .none ∨ ∃ k, a.nJobs.asInt = some k
  preds : ∃ b, a.storePredictions = .bool b
  models : ∃ b, a.storeModels = .bool b

theorem forall₂_mem {α β : Type} {Q : α → β → Prop} {l : List α} {r : List β} (h : List.Forall₂ Q l r) :
    List.Forall₂ (fun a b => Q a b ∧ a ∈ l ∧ b ∈ r) l r := by
  induction h with
  | nil => exact .nil
  | cons h1 _ ih => exact .cons ⟨h1, by simp, by simp⟩ (ih.imp fun a b h => ⟨h.1, by simp [h.2.1], by simp [h.2.2]⟩)

theorem forall₂_zipped {α β γ δ : Type} {Q : α → β → Prop} {T : δ → β → Prop} {f : α → γ → δ} {l : List α} {r : List β} {x : List γ}
    (h : List.Forall₂ Q l r) (hl : x.length = l.length) (hT : ∀ a b c, Q a b → c ∈ x → T (f a c) b) :
    List.Forall₂ T (List.zipWith f l x) r := by
  induction h generalizing x with
  | nil => simp
  | cons h1 _ ih =>
    cases x with
    | nil => simp at hl
    | cons c x =>
      rw [List.zipWith_cons_cons]
      exact .cons (hT _ _ _ h1 (by simp)) (ih (by simpa using hl) fun a b c' hq hc => hT a b c' hq (by simp [hc]))

/-- **C63, APOS.** The fit of a `DoubleMLAPOS` object succeeds — also after earlier fits, draws and newly set splits — if its
sub-models exist, every training set has observations at each level and at other levels, the weights are there for all
repetitions, and external predictions (if any) cover all levels with arrays of the right shape. -/
theorem C63_apos [DecidableEq L] {E : Ext} {F : Frame n} {D : DataState n} {tv : String} (hd : D.d = [tv]) {levels : List L}
    {ks : List (ApoClass n P)} (hl : levels.length = ks.length) (h0 : ks ≠ []) {chk : ApoClass n P → ℕ → Except Exc Unit}
    {K R : ℕ} {b : Bool} {w w0 : Draws n} {s₀ : Multi n P (Option (List (FittedModel P (List Cell))))}
    (hc : apoCreate (aposClasses chk ks) D K R b w = .ok s₀) (ops : List (MultiOp n L))
    {ms : List (LinState n P)} (hms : (apoRun E F levels tv (aposClasses chk ks) D w0 s₀ ops).subs = some ms)
    (hv : ∀ k ∈ ks, k.vars = none) (hg : ∀ k ∈ ks, k.gClassifier = false) (hm : ∀ k ∈ ks, k.ml_m.Compliant)
    (hy : D.binOut = false) (hb : ∀ k ∈ ks, BinaryTarget (isLevel k.level (nums D.dv)))
    (hf : ∀ m ∈ ms, ∀ T, m.smpls = some T → ∀ S ∈ T, ∀ k ∈ ks, EveryFold S (fun _ => True) (isLevel k.level (nums D.dv)))
    (hw : ∀ m ∈ ms, ∀ T, m.smpls = some T → ∀ k ∈ ks, ∀ q < T.length, ∃ w : (Fin n → ℝ) × (Fin n → ℝ), k.weights.at q = .ok w)
    {a : FitArgs} (ha : PlainArgs a) {e : ApoExt L} (he : e.Valid levels) (hs : ∀ m ∈ ms, e.Shaped n m.nRep) :
    (apoFit F levels tv (aposClasses chk ks) (apoRun E F levels tv (aposClasses chk ks) D w0 s₀ ops) a e).2 = .ok () := by
  have hr := apoRun_reached (levels := levels) (dCol := tv) (w0 := w0) (apoCreate_reached E F hc) ops
  generalize apoRun E F levels tv (aposClasses chk ks) D w0 s₀ ops = s at *
  obtain ⟨R, hR⟩ := hr ms hms
  obtain ⟨es, hes⟩ := (apoExtArgs_ok_iff (dCol := tv)).2 he
  unfold apoFit
  rw [hes]
  have hlen := apoExtArgs_length hes
  refine multiFit_total hms (R := R) (forall₂_zipped (forall₂_mem hR) (by rw [hlen, hl]; simp [aposClasses]) ?_) ?_
  · rintro c m x ⟨⟨h1, h2, h3⟩, h4, h5⟩ hx
    obtain ⟨k, hk, rfl⟩ := List.mem_map.1 h4
    obtain ⟨T, hT⟩ := Option.isSome_iff_exists.1 h2
    have h1 : ReachedFrom E F (apoSpec k) D m := h1
    obtain ⟨hready, hdata⟩ := h1.ready (hv k hk)
    have hreach : Reached E F (apoSpec k) D tv m := ⟨hd, h1⟩
    refine ⟨hv k hk, (apo_linear k).usualVsf, hready.shaped, by rw [hdata.d, hd]; rfl, h3, ?_⟩
    refine C63_apo (hv k hk) (hg k hk) (hm k hk) hy (hb k hk) hreach hT (fun S hS => hf m h5 T hT S hS k hk)
      (fun q hq => hw m h5 T hT k hk q hq) ⟨ha.jobs, ha.preds, ha.models, ?_⟩
    rcases apoExtArgs_valid (n := n) hes (hs m h5) x hx with h6 | ⟨h6, h7⟩
    · exact .inl h6
    · exact .inr ⟨rfl, h6, h7⟩
  · intro As hAs hA
    refine ⟨As, rfl, hA, fun h => ?_⟩
    rw [h] at hAs
    simp only [List.length_nil, List.length_zipWith, hlen, hl, aposClasses, List.length_map, min_self] at hAs
    exact h0 (List.length_eq_zero_iff.1 hAs.symm)

/-- What the split of a repetition must offer to a quantile model: every training set can be halved along the treatment (for
local quantiles: along treatment and instrument), with both values in every part that is used for training. -/
def QuantReady (k : QuantKind) (E : NestedExt n) (D : DataState n) (S : List (Fold n)) : Prop :=
  match k with
  | .lpq => ∃ zc : Fin n → Cell, D.zv = some [zc] ∧ BinaryTarget (nums zc) ∧
      HalvesReady E S (lpqStrata (nums D.dv) (nums zc)) (nums zc)
  | _ => BinaryTarget (nums D.dv) ∧ HalvesReady E S (nums D.dv) (nums D.dv)

/-- The classes of the sub-models of a `DoubleMLQTE` object: for every entry of the list one quantile model of the same kind. -/
noncomputable def qteClasses (V : QuantEnv n) (k : QuantKind) (g m : Learner P (List Cell)) (y : Fin n → ℝ)
    (start : QuantInit → ℝ) (chk : QuantInit → ℕ → Except Exc Unit) (is : List QuantInit) :
    List (SubClass n P (Option (List (FittedModel P (List Cell))))) :=
  is.map fun i => ⟨quantSpec V k g m i none y, start i, chk i⟩

theorem quantSpec_vars (V : QuantEnv n) (k : QuantKind) (g m : Learner P (List Cell)) (i : QuantInit) (y : Fin n → ℝ) :
    (quantSpec V k g m i none y).vars = none := by cases k <;> rfl

theorem quantSpec_vsf (V : QuantEnv n) (k : QuantKind) (g m : Learner P (List Cell)) (i : QuantInit) (y : Fin n → ℝ) :
    UsualVsf (quantSpec V k g m i none y) := by
  cases k
  · exact pq_usualVsf _
  · exact cvar_usualVsf _
  · exact lpq_usualVsf _

theorem quantSpec_fit {E : Ext} {F : Frame n} {V : QuantEnv n} {k : QuantKind} {g m : Learner P (List Cell)} {i : QuantInit}
    {y : Fin n → ℝ} (hE : V.nested.Ok) (hm : m.Compliant) {D : DataState n} {tv : String} {s : LinState n P}
    (h : Reached E F (quantSpec V k g m i none y) D tv s) {T : List (List (Fold n))} (hT : s.smpls = some T) (hn : T ≠ [])
    (hf : ∀ S ∈ T, QuantReady k V.nested D S) {a : FitArgs} (ha : PlainArgs a) (he : a.ext = .none) :
    (fit F (quantSpec V k g m i none y) s a).2 = .ok () := by
  obtain ⟨S₀, hS₀⟩ := List.exists_mem_of_ne_nil T hn
  cases k with
  | pq =>
    exact C63_pq rfl hE hm (hf S₀ hS₀).1 h hT (fun S hS => (hf S hS).2) ⟨ha.jobs, ha.preds, ha.models, .inl he⟩ (.inr he)
  | cvar =>
    exact C63_cvar rfl hE hm (hf S₀ hS₀).1 h hT (fun S hS => (hf S hS).2) ⟨ha.jobs, ha.preds, ha.models, .inl he⟩
  | lpq =>
    obtain ⟨zc, hz, hzb, -⟩ := hf S₀ hS₀
    refine C63_lpq rfl hE hm hz hzb h hT (fun S hS => ?_) ⟨ha.jobs, ha.preds, ha.models, .inl he⟩ (.inr he)
    obtain ⟨zc', hz', -, h'⟩ := hf S hS
    rw [hz] at hz'
    cases hz'
    exact h'

/-- **C63, QTE.** The fit of a `DoubleMLQTE` object with at least one quantile succeeds — also after earlier fits, draws and
newly set splits — if its sub-models exist and the training sets can be halved; external predictions are not implemented. -/
theorem C63_qte {E : Ext} {F : Frame n} {V : QuantEnv n} (hE : V.nested.Ok) {k : QuantKind} {g m : Learner P (List Cell)}
    (hm : m.Compliant) {y : Fin n → ℝ} {start : QuantInit → ℝ} {chk : QuantInit → ℕ → Except Exc Unit} {is : List QuantInit}
    (h2 : 2 ≤ is.length) {D : DataState n} {tv : String} (hd : D.d = [tv]) {K R : ℕ} {b : Bool} {w w0 : Draws n}
    {s₀ : Multi n P (Option (List (FittedModel P (List Cell))))}
    (hc : qteCreate (qteClasses V k g m y start chk is) D K R b w = .ok s₀) (ops : List (MultiOp n L)) {ms : List (LinState n P)}
    (hms : (qteRun E F (qteClasses V k g m y start chk is) D w0 s₀ ops).subs = some ms)
    (hf : ∀ s ∈ ms, ∀ T, s.smpls = some T → ∀ S ∈ T, QuantReady k V.nested D S) {a : FitArgs} (ha : PlainArgs a)
    (he : a.ext = .none) :
    (qteFit F (qteClasses V k g m y start chk is) (qteRun E F (qteClasses V k g m y start chk is) D w0 s₀ ops) a).2 = .ok () := by
  have hr := qteRun_reached (w0 := w0) (qteCreate_reached E F hc) ops
  generalize qteRun E F (qteClasses V k g m y start chk is) D w0 s₀ ops = s at *
  obtain ⟨R, hR⟩ := hr ms hms
  unfold qteFit
  rw [he, if_neg (by simp [ExtArg.given])]
  refine multiFit_total hms (R := R) ?_ ?_
  · rw [List.forall₂_map_left_iff]
    refine (forall₂_mem hR).imp ?_
    rintro c t ⟨⟨h1, h2, h3⟩, h4, h5⟩
    obtain ⟨i, hi, rfl⟩ := List.mem_map.1 h4
    obtain ⟨T, hT⟩ := Option.isSome_iff_exists.1 h2
    have h1 : ReachedFrom E F (quantSpec V k g m i none y) D t := h1
    obtain ⟨hready, hdata⟩ := h1.ready (quantSpec_vars V k g m i y)
    refine ⟨quantSpec_vars V k g m i y, quantSpec_vsf V k g m i y, hready.shaped, by rw [hdata.d, hd]; rfl, h3, ?_⟩
    refine quantSpec_fit hE hm ⟨hd, h1⟩ hT ?_ (fun S hS => hf t h5 T hT S hS) ha he
    rintro rfl
    have h6 := hready.split [] hT
    have h7 := hready.shaped.pos
    have h8 := h6.1
    simp at h8
    omega
  · intro As hAs hA
    obtain ⟨Ds, g1, g2, g3⟩ := qteDiffs_good hA
    refine ⟨Ds, g1, g2, g3 ?_⟩
    rw [hAs]
    simpa [qteClasses] using h2

end DML
