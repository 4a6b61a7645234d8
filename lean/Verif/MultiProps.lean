import Verif.Multi
import Verif.ModelProps
import Verif.DrawSplitProps
import Verif.FrameworkLawsProps

/-!
# C49, C50: `DoubleMLAPOS` and `DoubleMLQTE` and their sub-models
-/

namespace DML

variable {n : ℕ} {P M : Type} {L : Type}

/-! ## Specification -/

/-- A sub-model is set up for the given split. -/
structure SubOn (D : DataState n) (S : List (List IdxPair)) (nRep nFolds : ℕ) (m : MState n P M) : Prop where
  smpls : m.smpls = some (S.map (List.map toFold))
  nRep : m.nRep = nRep
  nFolds : m.nFolds = nFolds
  data : SameData D m.data
  shaped : Shaped m

/-- All sub-models (if there are any) are set up for the split, `n_rep` and `n_folds` that the object reports. -/
def Synced (cs : List (SubClass n P M)) (D : DataState n) (s : Multi n P M) : Prop :=
  ∀ ms, s.subs = some ms → ms.length = cs.length ∧
    ∃ S, s.smpls = some S ∧ ∀ m ∈ ms, SubOn D S s.nRep s.nFolds m

/-- A split with at least two roles: no repetition is the documented special case without sample splitting. -/
def Ordinary (n : ℕ) (a : SplitArg) : Prop :=
  ∀ S r k, checkSampleSplitting n a = .ok (S, r, k) → ∀ rep ∈ S, ¬ NoSplit n rep

/-! ## Lemmas -/

theorem nestedSplit_eq (S : List (List IdxPair)) : nestedSplit S = nestedArg S := rfl

theorem Fold.idx_eq (f : Fold n) : f.idx = f.toPair := rfl

theorem toFold_idx (f : Fold n) : toFold f.idx = f := by
  have h : ∀ l : List (Fin n), ((l.map fun (i : Fin n) => (i.val : ℤ)).filterMap fun (z : ℤ) =>
      if h : 0 ≤ z ∧ z < n then some (⟨z.toNat, by omega⟩ : Fin n) else none) = l := by
    intro l
    induction l with
    | nil => rfl
    | cons i l ih =>
      rw [List.map_cons, List.filterMap_cons_some (b := i)]
      · rw [ih]
      · have := i.2
        rw [dif_pos ⟨by omega, by omega⟩]
        congr 1
  unfold toFold Fold.idx
  rw [h, h]

/-- Accepted splits are stored with sorted index arrays. -/
theorem accepted_sorted {a : SplitArg} {S : List (List IdxPair)} {r k : ℕ}
    (h : checkSampleSplitting n a = .ok (S, r, k)) : ∀ rep ∈ S, ∀ p ∈ rep, isort p.1 = p.1 ∧ isort p.2 = p.2 := by
  have recheck_sorted : ∀ {l s : List IdxPair}, l.mapM (recheck n) = .ok s → ∀ p ∈ s, isort p.1 = p.1 ∧ isort p.2 = p.2 := by
    intro l s h
    rw [mapM_ok_iff] at h
    induction h with
    | nil => intro p hp; cases hp
    | cons hab _ ih =>
      rw [recheck_ok_iff] at hab
      intro p hp
      rcases List.mem_cons.1 hp with rfl | hp
      · rw [hab.2.2.2.2.2]; exact ⟨isort_isort _, isort_isort _⟩
      · exact ih p hp
  have nested_sorted : ∀ l s : List (List IdxPair), List.Forall₂ (fun l s => l.mapM (recheck n) = .ok s) l s →
      ∀ rep ∈ s, ∀ p ∈ rep, isort p.1 = p.1 ∧ isort p.2 = p.2 := by
    intro l s h
    induction h with
    | nil => intro rep hrep; cases hrep
    | cons hab _ ih =>
      intro rep hrep
      rcases List.mem_cons.1 hrep with rfl | hrep
      · exact recheck_sorted hab
      · exact ih rep hrep
  cases a with
  | other => cases h
  | tuple elems =>
    unfold checkSampleSplitting at h
    dsimp only at h
    cases hpo : pairOf elems with
    | none => rw [hpo] at h; cases h
    | some ab =>
      obtain ⟨a, b⟩ := ab
      rw [hpo] at h
      dsimp only at h
      obtain ⟨p, hp, h⟩ := bind_ok h
      obtain ⟨x, hx, h⟩ := bind_ok h
      obtain ⟨y, hy, h⟩ := bind_ok h
      split_ifs at h with hxy
      · cases h
        rw [checkTpl_ok_iff] at hp
        intro rep hrep q hq
        rw [List.mem_singleton] at hrep
        subst hrep
        rw [List.mem_singleton] at hq
        subst hq
        rw [hp.2.2.2.2.2.2.2]
        exact ⟨isort_isort _, isort_isort _⟩
  | list items =>
    unfold checkSampleSplitting at h
    dsimp only at h
    cases hat : allTuples items with
    | some ts =>
      rw [hat] at h
      dsimp only [checkFlat] at h
      cases hps : ts.mapM pairOf with
      | none => rw [hps] at h; cases h
      | some ps =>
        rw [hps] at h
        dsimp only at h
        obtain ⟨smpl, hsm, h⟩ := bind_ok h
        obtain ⟨hs1, hs2, hs3, _⟩ := checked_list hsm
        obtain ⟨x, hx, h⟩ := bind_ok h
        have rest : ∀ (s : List IdxPair), smpl.mapM (recheck n) = .ok s →
            (([s], 1, smpl.length) : List (List IdxPair) × ℕ × ℕ) = (S, r, k) →
            ∀ rep ∈ S, ∀ p ∈ rep, isort p.1 = p.1 ∧ isort p.2 = p.2 := by
          intro s hs he
          cases he
          intro rep hrep
          rw [List.mem_singleton] at hrep
          subst hrep
          exact recheck_sorted hs
        split_ifs at h with h1
        · match smpl, hs2, h, rest with
          | [], _, h, rest =>
            obtain ⟨s, hs, h⟩ := bind_ok h
            exact rest s hs (Except.ok.inj h)
          | [f], hs2, h, rest =>
            dsimp only at h
            obtain ⟨y, hy, h⟩ := bind_ok h
            split_ifs at h
            · cases h
              intro rep hrep
              rw [List.mem_singleton] at hrep
              subst hrep
              exact hs2
            · obtain ⟨s, hs, h⟩ := bind_ok h
              exact rest s hs (Except.ok.inj h)
          | _ :: _ :: _, _, h, rest =>
            obtain ⟨s, hs, h⟩ := bind_ok h
            exact rest s hs (Except.ok.inj h)
    | none =>
      rw [hat] at h
      dsimp only at h
      cases hal : allLists items with
      | none => rw [hal] at h; cases h
      | some ls =>
        rw [hal] at h
        dsimp only [checkNested] at h
        cases hit : allInnerTuples ls with
        | none => rw [hit] at h; cases h
        | some ts =>
          rw [hit] at h
          dsimp only at h
          cases hpp : ts.mapM fun l => l.mapM pairOf with
          | none => rw [hpp] at h; cases h
          | some ps =>
            rw [hpp] at h
            dsimp only at h
            split_ifs at h with h1
            · obtain ⟨sm, hsm, h⟩ := bind_ok h
              obtain ⟨parts, hparts, h⟩ := bind_ok h
              split_ifs at h
              · obtain ⟨s, hs, h⟩ := bind_ok h
                cases h
                exact nested_sorted _ _ ((mapM_ok_iff _ _ _).1 hs)

/-- A normalised valid split is accepted and kept as it is when it is handed to a sub-model. -/
theorem nested_accepted {S : List (List IdxPair)} {k : ℕ} (h0 : S ≠ []) (hk : 1 ≤ k) (hl : ∀ rep ∈ S, rep.length = k)
    (hv : ∀ rep ∈ S, ValidSplit n rep) (hs : ∀ rep ∈ S, ∀ p ∈ rep, isort p.1 = p.1 ∧ isort p.2 = p.2) :
    checkSampleSplitting n (nestedSplit S) = .ok (S, S.length, k) := by
  match S, h0 with
  | rep :: S, _ =>
    rw [nestedSplit_eq, C22_nested_accepted_iff]
    have hr := hl rep (by simp)
    refine ⟨fun h => by rw [h] at hr; simp at hr; omega, fun l hl' => by rw [hl l (by simp [hl']), hr], hv, ?_⟩
    have hid : (rep :: S).map (List.map fun p => (isort p.1, isort p.2)) = rep :: S := by
      conv_rhs => rw [← List.map_id (rep :: S)]
      refine List.map_congr_left fun l hl => ?_
      show l.map (fun p => (isort p.1, isort p.2)) = l
      conv_rhs => rw [← List.map_id l]
      refine List.map_congr_left fun p hp => ?_
      exact Prod.ext (hs l hl p hp).1 (hs l hl p hp).2
    rw [hid, hr]
    rfl

/-- The drawn split is valid and normalised. -/
theorem multiDraw_ok {nFolds nRep : ℕ} {w : Draws n} {S : List (List IdxPair)} (h : multiDraw nFolds nRep w = .ok S) :
    2 ≤ nFolds ∧ 1 ≤ nRep ∧ S = (List.range nRep).map (fun r => (assignFolds nFolds fun i => w.assign r i % nFolds).map Fold.idx) ∧
    S.length = nRep ∧ (∀ rep ∈ S, rep.length = nFolds) ∧ (∀ rep ∈ S, ValidSplit n rep) ∧
    ∀ rep ∈ S, ∀ p ∈ rep, isort p.1 = p.1 ∧ isort p.2 = p.2 := by
  unfold multiDraw at h
  split_ifs at h with h1
  push Not at h1
  obtain rfl := Except.ok.inj h
  refine ⟨h1.1, by omega, rfl, by simp, ?_, ?_, ?_⟩
  · intro rep hrep
    obtain ⟨r, _, rfl⟩ := List.mem_map.1 hrep
    simp [assignFolds]
  · intro rep hrep
    obtain ⟨r, _, rfl⟩ := List.mem_map.1 hrep
    obtain ⟨_, h2, h3⟩ := C23_stratified_partition nFolds (fun i => w.assign r i % nFolds)
      fun i => Nat.mod_lt _ (by omega)
    exact validSplit_of_folds _ h2 (fun f hf => (h3 f hf).1) fun f hf i hi => ((h3 f hf).2 i).1 hi
  · intro rep hrep p hp
    obtain ⟨r, _, rfl⟩ := List.mem_map.1 hrep
    obtain ⟨f, hf, rfl⟩ := List.mem_map.1 hp
    simp only [assignFolds, List.mem_map] at hf
    obtain ⟨j, _, rfl⟩ := hf
    exact ⟨isort_of_pairwise (map_val_pairwise _), isort_of_pairwise (map_val_pairwise _)⟩

theorem initModel_nodraw (sp : Spec n P M) (D : DataState n) (start : ℝ) {k r : ℕ} (hk : 1 ≤ k) (hr : 1 ≤ r) (w : Draws n)
    (hv : sp.vars = none) : ∃ s, initModel sp D start (.int k) (.int r) (.bool false) w = .ok s ∧ s.data = D := by
  have hc : checkClusterVars sp D = .ok () := by unfold checkClusterVars; rw [hv]; rfl
  have hi : ∀ m : ℕ, 1 ≤ m → checkInteger (.int m) (some 1) none = .ok (m : ℤ) := by
    intro m hm
    simp [checkInteger, PyVal.asInt]
    omega
  unfold initModel
  simp only [hc, hi k hk, hi r hr, checkBool, bind, Except.bind, Bool.false_eq_true, if_false]
  exact ⟨_, rfl, rfl⟩

/-- What `set_sample_splitting` does to a sub-model that is given a normalised valid split. -/
theorem syncSplit_eq {c : SubClass n P M} (hv : c.spec.vars = none) {S : List (List IdxPair)} {k : ℕ}
    (hc : checkSampleSplitting n (nestedSplit S) = .ok (S, S.length, k)) (s : MState n P M) :
    syncSplit c S s = .ok (initArrays { s with
        smpls := some (S.map (List.map toFold))
        smplsCluster := none
        nRep := S.length
        nFolds := k
        params := initParams c.spec.learners s.data.d S.length }) := by
  have hcl : checkedCluster c.spec s none S.length k = .ok none := by unfold checkedCluster; rw [hv]
  unfold syncSplit setSampleSplitting
  rw [hc]
  dsimp only
  rw [hcl]

/-- Sub-models created for a normalised valid split use this split. -/
theorem initSub_eq {c : SubClass n P M} (hv : c.spec.vars = none) (hck : ∀ r, c.check r = .ok ()) (D : DataState n)
    (w : Draws n) {S : List (List IdxPair)} {k : ℕ} (h0 : S ≠ []) (hk : 1 ≤ k) 
    (hc : checkSampleSplitting n (nestedSplit S) = .ok (S, S.length, k)) :
    ∃ m, initSub D w k S.length S c = .ok m ∧ SubOn D S S.length k m := by
  have hl : 1 ≤ S.length := List.length_pos_of_ne_nil h0
  obtain ⟨s, hs, hd⟩ := initModel_nodraw c.spec D c.start hk hl w hv
  unfold initSub
  simp only [hs, hck, bind, Except.bind]
  rw [syncSplit_eq hv hc]
  exact ⟨_, rfl, ⟨rfl, rfl, rfl, by show SameData D s.data; rw [hd]; exact .refl _, initArrays_shaped hl⟩⟩

theorem mapM_exists {α β : Type} {f : α → Except Exc β} {Q : α → β → Prop} {l : List α}
    (h : ∀ a ∈ l, ∃ b, f a = .ok b ∧ Q a b) : ∃ r, l.mapM f = .ok r ∧ List.Forall₂ Q l r := by
  induction l with
  | nil => exact ⟨[], rfl, .nil⟩
  | cons a l ih =>
    obtain ⟨b, hb, hq⟩ := h a (by simp)
    obtain ⟨r, hr, hf⟩ := ih fun x hx => h x (by simp [hx])
    refine ⟨b :: r, ?_, .cons hq hf⟩
    rw [List.mapM_cons, hb, hr]; rfl

/-- Re-creating the sub-models succeeds and synchronises them. -/
theorem reinit_eq {cs : List (SubClass n P M)} (hv : ∀ c ∈ cs, c.spec.vars = none) (hck : ∀ c ∈ cs, ∀ r, c.check r = .ok ())
    (D : DataState n) (w : Draws n) (s : Multi n P M) {S : List (List IdxPair)} (hS : s.smpls = some S) (h0 : S ≠ [])
    (hr : S.length = s.nRep) (hk : 1 ≤ s.nFolds) (hc : checkSampleSplitting n (nestedSplit S) = .ok (S, S.length, s.nFolds)) :
    ∃ ms, reinit cs D w s = ({ s with subs := some ms }, .ok ()) ∧ ms.length = cs.length ∧
      ∀ m ∈ ms, SubOn D S s.nRep s.nFolds m := by
  obtain ⟨ms, h1, h2⟩ := mapM_exists (l := cs) (f := initSub D w s.nFolds s.nRep S) (Q := fun _ m => SubOn D S s.nRep s.nFolds m)
    fun c hc' => by rw [← hr]; exact initSub_eq (hv c hc') (hck c hc') D w h0 hk hc
  refine ⟨ms, ?_, h2.length_eq.symm, ?_⟩
  · unfold reinit initSubs
    rw [hS]
    dsimp only
    rw [h1]
  · intro m hm
    clear h1
    induction h2 with
    | nil => cases hm
    | cons h _ ih =>
      rcases List.mem_cons.1 hm with rfl | hm
      · exact h
      · exact ih (fun c hc => hv c (by simp [hc])) (fun c hc => hck c (by simp [hc])) hm

theorem reinit_synced {cs : List (SubClass n P M)} (hv : ∀ c ∈ cs, c.spec.vars = none) (hck : ∀ c ∈ cs, ∀ r, c.check r = .ok ())
    (D : DataState n) (w : Draws n) (s : Multi n P M) {S : List (List IdxPair)} (hS : s.smpls = some S) (h0 : S ≠ [])
    (hr : S.length = s.nRep) (hk : 1 ≤ s.nFolds) (hc : checkSampleSplitting n (nestedSplit S) = .ok (S, S.length, s.nFolds)) :
    Synced cs D (reinit cs D w s).1 := by
  obtain ⟨ms, h1, h2, h3⟩ := reinit_eq hv hck D w s hS h0 hr hk hc
  rw [h1]
  intro ms' hms
  obtain rfl := Option.some.inj hms
  exact ⟨h2, S, hS, h3⟩

theorem multiSet_synced {cs : List (SubClass n P M)} (hv : ∀ c ∈ cs, c.spec.vars = none)
    (hck : ∀ c ∈ cs, ∀ r, c.check r = .ok ()) (D : DataState n) (w : Draws n) {s : Multi n P M} (h : Synced cs D s)
    {a : SplitArg} (ha : Ordinary n a) : Synced cs D (multiSet cs D w s a).1 := by
  unfold multiSet
  cases hc : checkSampleSplitting n a with
  | error e => exact h
  | ok q =>
    obtain ⟨S, r, k⟩ := q
    obtain ⟨h1, h2, h3, h4⟩ := C22_accepted_splits_valid n a S r k hc
    have h0 : S ≠ [] := fun h => by rw [h] at h1; simp at h1; omega
    refine reinit_synced hv hck D w { s with smpls := some S, nRep := r, nFolds := k } rfl h0 h1 h3 ?_
    exact nested_accepted h0 h3 (fun rep hrep => (h4 rep hrep).1)
      (fun rep hrep => (h4 rep hrep).2.resolve_right fun hn => ha S r k hc rep hrep hn.2.2) (accepted_sorted hc)

theorem qteDraw_synced {cs : List (SubClass n P M)} (hv : ∀ c ∈ cs, c.spec.vars = none)
    (hck : ∀ c ∈ cs, ∀ r, c.check r = .ok ()) (D : DataState n) {s : Multi n P M} (h : Synced cs D s) (w : Draws n) :
    Synced cs D (qteDraw cs D s w).1 := by
  unfold qteDraw setDrawn
  cases hd : multiDraw s.nFolds s.nRep w with
  | error e => exact h
  | ok S =>
    obtain ⟨h1, h2, _, h3, h4, h5, h6⟩ := multiDraw_ok hd
    have h0 : S ≠ [] := fun h => by rw [h] at h3; simp at h3; omega
    exact reinit_synced hv hck D w { s with smpls := some S } rfl h0 h3 (by show 1 ≤ s.nFolds; omega)
      (nested_accepted h0 (by show 1 ≤ s.nFolds; omega) h4 h5 h6)

theorem SubOn.fit {D : DataState n} {S : List (List IdxPair)} {r k : ℕ} {m : MState n P M} (h : SubOn D S r k m)
    (F : Frame n) (sp : Spec n P M) (a : FitArgs) : SubOn D S r k (DML.fit F sp m a).1 := by
  obtain ⟨h1, h2, h3, h4, h5, h6⟩ := fit_frame F sp m a
  refine ⟨by rw [h1.smpls, h.smpls], by rw [h1.nRep, h.nRep], by rw [h4, h.nFolds], h.data.trans h1.data, ?_⟩
  exact ⟨by rw [h1.nRep]; exact h.shaped.pos, by rw [h1.nT, h1.data.d]; exact h.shaped.nT,
    by rw [h1.nR, h1.nRep]; exact h.shaped.nR⟩

theorem fitSubs_on {D : DataState n} {S : List (List IdxPair)} {r k : ℕ} (F : Frame n)
    (cas : List (SubClass n P M × FitArgs)) (ms : List (MState n P M)) (h : ∀ m ∈ ms, SubOn D S r k m) :
    (fitSubs F cas ms).1.length = ms.length ∧ ∀ m ∈ (fitSubs F cas ms).1, SubOn D S r k m := by
  induction cas generalizing ms with
  | nil => exact ⟨by unfold fitSubs; rfl, h⟩
  | cons ca cas ih =>
    match ms with
    | [] => exact ⟨rfl, h⟩
    | m :: ms =>
      have hm := (h m (by simp)).fit F ca.1.spec ca.2
      unfold fitSubs
      rcases hq : DML.fit F ca.1.spec m ca.2 with ⟨m', (e | u)⟩
      · rw [hq] at hm
        refine ⟨rfl, ?_⟩
        intro x hx
        rcases List.mem_cons.1 hx with rfl | hx
        · exact hm
        · exact h x (by simp [hx])
      · rw [hq] at hm
        obtain ⟨h1, h2⟩ := ih ms fun x hx => h x (by simp [hx])
        refine ⟨by dsimp only; rw [List.length_cons, List.length_cons, h1], ?_⟩
        intro x hx
        rcases List.mem_cons.1 hx with rfl | hx
        · exact hm
        · exact h2 x hx

theorem setFw_split (s : Multi n P M) (l : Except Exc (List (DynFW n))) :
    (setFw s l).1.smpls = s.smpls ∧ (setFw s l).1.nRep = s.nRep ∧ (setFw s l).1.nFolds = s.nFolds ∧
      (setFw s l).1.subs = s.subs := by
  unfold setFw
  cases l.bind DynFW.concat <;> exact ⟨rfl, rfl, rfl, rfl⟩

theorem Synced.congr {cs : List (SubClass n P M)} {D : DataState n} {s s' : Multi n P M} (h : Synced cs D s)
    (h1 : s'.smpls = s.smpls) (h2 : s'.nRep = s.nRep) (h3 : s'.nFolds = s.nFolds) (h4 : s'.subs = s.subs) : Synced cs D s' := by
  intro ms hms
  rw [h4] at hms
  rw [h1, h2, h3]
  exact h ms hms

theorem multiFit_synced {cs : List (SubClass n P M)} {D : DataState n} (F : Frame n) (cas : List (SubClass n P M × FitArgs))
    (g : List (DynFW n) → Except Exc (List (DynFW n))) {s : Multi n P M} (h : Synced cs D s) :
    Synced cs D (multiFit F cas g s).1 := by
  unfold multiFit
  cases hs : s.subs with
  | none => exact h
  | some ms =>
    obtain ⟨h1, S, h2, h3⟩ := h ms hs
    obtain ⟨h4, h5⟩ := fitSubs_on F cas ms h3
    dsimp only
    rcases hq : fitSubs F cas ms with ⟨ms', (e | u)⟩
    · rw [hq] at h4 h5
      intro x hx
      obtain rfl := Option.some.inj hx
      exact ⟨by rw [← h1]; exact h4, S, h2, h5⟩
    · rw [hq] at h4 h5
      have h6 : Synced cs D { s with subs := some ms' } := by
        intro x hx
        obtain rfl := Option.some.inj hx
        exact ⟨by rw [← h1]; exact h4, S, h2, h5⟩
      obtain ⟨a1, a2, a3, a4⟩ := setFw_split { s with subs := some ms' } ((ms'.mapM getFw).bind g)
      exact h6.congr a1 a2 a3 a4

theorem multiInfer_synced {cs : List (SubClass n P M)} {D : DataState n} (E : Ext) {s : Multi n P M} (h : Synced cs D s)
    (o : ∀ r, Op n r) : Synced cs D (multiInfer E s o).1 := by
  unfold multiInfer
  cases hs : s.framework with
  | none => exact h
  | some f => exact h.congr rfl rfl rfl rfl

theorem empty_synced (cs : List (SubClass n P M)) (D : DataState n) (k r : ℕ) : Synced cs D (multiEmpty k r) := by
  intro ms h; cases h

/-! ## C49 -/

theorem qteStep_synced {cs : List (SubClass n P M)} (hv : ∀ c ∈ cs, c.spec.vars = none)
    (hck : ∀ c ∈ cs, ∀ r, c.check r = .ok ()) (E : Ext) (F : Frame n) (D : DataState n) (w0 : Draws n) {s : Multi n P M}
    (h : Synced cs D s) (o : MultiOp n L) (ho : ∀ a, o = .setSplit a → Ordinary n a) :
    Synced cs D (qteStep E F cs D w0 s o) := by
  cases o with
  | fit a e =>
    unfold qteStep qteFit
    dsimp only
    split_ifs
    · exact h
    · exact multiFit_synced F _ _ h
  | draw w => exact qteDraw_synced hv hck D h w
  | setSplit a => exact multiSet_synced hv hck D w0 h (ho a rfl)
  | infer o => exact multiInfer_synced E h o

theorem qteCreate_synced {cs : List (SubClass n P M)} (hv : ∀ c ∈ cs, c.spec.vars = none)
    (hck : ∀ c ∈ cs, ∀ r, c.check r = .ok ()) (D : DataState n) {k r : ℕ} {b : Bool} {w : Draws n} {s : Multi n P M}
    (h : qteCreate cs D k r b w = .ok s) : Synced cs D s := by
  unfold qteCreate at h
  cases b with
  | false => obtain rfl := Except.ok.inj h; exact empty_synced cs D k r
  | true =>
    rw [if_pos rfl] at h
    unfold qteDraw setDrawn at h
    cases hd : multiDraw (multiEmpty (n := n) (P := P) (M := M) k r).nFolds (multiEmpty (n := n) (P := P) (M := M) k r).nRep w with
    | error e => rw [hd] at h; cases h
    | ok S =>
      rw [hd] at h
      obtain ⟨h1, h2, _, h3, h4, h5, h6⟩ := multiDraw_ok hd
      have h0 : S ≠ [] := fun h => by rw [h] at h3; simp at h3; omega
      obtain ⟨ms, e1, _, _⟩ := reinit_eq hv hck D w { (multiEmpty (n := n) (P := P) (M := M) k r) with smpls := some S } rfl h0 h3
        (by show 1 ≤ k; have : 2 ≤ k := h1; omega) (nested_accepted h0 (by have : 2 ≤ k := h1; show 1 ≤ k; omega) h4 h5 h6)
      dsimp only at h e1
      rw [e1] at h
      dsimp only at h
      have e2 := reinit_synced hv hck D w { (multiEmpty (n := n) (P := P) (M := M) k r) with smpls := some S, subs := some ms } rfl h0 h3
        (by show 1 ≤ k; have : 2 ≤ k := h1; omega) (nested_accepted h0 (by have : 2 ≤ k := h1; show 1 ≤ k; omega) h4 h5 h6)
      dsimp only at e2
      split at h
      · cases h
      · rename_i s' hq
        obtain rfl := Except.ok.inj h
        rw [hq] at e2
        exact e2

/-- **C49 (partial, `DoubleMLQTE`).** After any history of `draw_sample_splitting`, `set_sample_splitting` (with anything
but the special case without sample splitting), `fit` (successful or not) and inference calls, every sub-model is set
up for exactly the split, `n_rep` and `n_folds` the object reports.  Missing: the special case, which breaks the
property (`C49_qte_violated`). -/
theorem C49_qte_partial {cs : List (SubClass n P M)} (hv : ∀ c ∈ cs, c.spec.vars = none)
    (hck : ∀ c ∈ cs, ∀ r, c.check r = .ok ()) (E : Ext) (F : Frame n) (D : DataState n) {k r : ℕ} {b : Bool} {w w0 : Draws n}
    {s : Multi n P M} (h : qteCreate cs D k r b w = .ok s) (ops : List (MultiOp n L))
    (hops : ∀ a, .setSplit a ∈ ops → Ordinary n a) : Synced cs D (qteRun E F cs D w0 s ops) := by
  have hs := qteCreate_synced hv hck D h
  clear h
  induction ops generalizing s with
  | nil => exact hs
  | cons o os ih =>
    exact ih (fun a ha => hops a (by simp [ha])) (qteStep_synced hv hck E F D w0 hs o fun a e => hops a (by simp [e]))

/-- Everything but `draw_sample_splitting`. -/
def MultiOp.isDraw : MultiOp n L → Bool
  | .draw _ => true
  | _ => false

theorem apoStep_synced [DecidableEq L] {cs : List (SubClass n P M)} (hv : ∀ c ∈ cs, c.spec.vars = none)
    (hck : ∀ c ∈ cs, ∀ r, c.check r = .ok ()) (E : Ext) (F : Frame n) (levels : List L) (dCol : String) (D : DataState n)
    (w0 : Draws n) {s : Multi n P M} (h : Synced cs D s) (o : MultiOp n L) (hd : o.isDraw = false)
    (ho : ∀ a, o = .setSplit a → Ordinary n a) : Synced cs D (apoStep E F levels dCol cs D w0 s o) := by
  cases o with
  | fit a e =>
    unfold apoStep apoFit
    dsimp only
    cases apoExtArgs levels dCol e with
    | error x => exact h
    | ok es => exact multiFit_synced F _ _ h
  | draw w => cases hd
  | setSplit a => exact multiSet_synced hv hck D w0 h (ho a rfl)
  | infer o => exact multiInfer_synced E h o

theorem apoCreate_eq {cs : List (SubClass n P M)} (hv : ∀ c ∈ cs, c.spec.vars = none)
    (hck : ∀ c ∈ cs, ∀ r, c.check r = .ok ()) (D : DataState n) {k r : ℕ} (hk : 2 ≤ k) (hr : 1 ≤ r) (w : Draws n) :
    ∃ ms S, apoCreate cs D k r true w = .ok ⟨k, r, some S, some ms, none⟩ ∧ multiDraw k r w = .ok S ∧
      ms.length = cs.length ∧ ∀ m ∈ ms, SubOn D S r k m := by
  obtain ⟨S, hd⟩ : ∃ S, multiDraw k r w = .ok S := by
    unfold multiDraw
    rw [if_neg (by omega)]
    exact ⟨_, rfl⟩
  obtain ⟨h1, h2, _, h3, h4, h5, h6⟩ := multiDraw_ok hd
  have h0 : S ≠ [] := fun h => by rw [h] at h3; simp at h3; omega
  obtain ⟨ms, e1, e2, e3⟩ := reinit_eq hv hck D w { (multiEmpty (n := n) (P := P) (M := M) k r) with smpls := some S } rfl h0 h3
    (by show 1 ≤ k; omega) (nested_accepted h0 (by show 1 ≤ k; omega) h4 h5 h6)
  refine ⟨ms, S, ?_, hd, e2, e3⟩
  unfold apoCreate apoDraw setDrawn
  rw [if_pos rfl]
  have : multiDraw (multiEmpty (n := n) (P := P) (M := M) k r).nFolds (multiEmpty (n := n) (P := P) (M := M) k r).nRep w = .ok S := hd
  rw [this]
  dsimp only at e1 ⊢
  rw [e1]
  rfl

theorem apoCreate_synced {cs : List (SubClass n P M)} (hv : ∀ c ∈ cs, c.spec.vars = none)
    (hck : ∀ c ∈ cs, ∀ r, c.check r = .ok ()) (D : DataState n) {k r : ℕ} {b : Bool} {w : Draws n} {s : Multi n P M}
    (h : apoCreate cs D k r b w = .ok s) : Synced cs D s := by
  cases b with
  | false => obtain rfl := Except.ok.inj h; exact empty_synced cs D k r
  | true =>
    by_cases hkr : 2 ≤ k ∧ 1 ≤ r
    · obtain ⟨ms, S, h1, _, h2, h3⟩ := apoCreate_eq hv hck D hkr.1 hkr.2 w
      rw [h1] at h
      obtain rfl := Except.ok.inj h
      intro x hx
      obtain rfl := Option.some.inj hx
      exact ⟨h2, S, rfl, h3⟩
    · exfalso
      unfold apoCreate apoDraw setDrawn multiDraw at h
      rw [if_pos rfl, if_pos (show (multiEmpty (n := n) (P := P) (M := M) k r).nFolds < 2 ∨
        (multiEmpty (n := n) (P := P) (M := M) k r).nRep = 0 by show k < 2 ∨ r = 0; omega)] at h
      cases h

/-- **C49 (partial, `DoubleMLAPOS`).** After any history of `set_sample_splitting` (with anything but the special case
without sample splitting), `fit` and inference calls, every sub-model is set up for exactly the split the object
reports.  Missing: histories with `draw_sample_splitting` and the special case, which break the property
(`C49_apos_violated`, `C49_apos_attribute_violated`). -/
theorem C49_apos_partial [DecidableEq L] {cs : List (SubClass n P M)} (hv : ∀ c ∈ cs, c.spec.vars = none)
    (hck : ∀ c ∈ cs, ∀ r, c.check r = .ok ()) (E : Ext) (F : Frame n) (levels : List L) (dCol : String) (D : DataState n)
    {k r : ℕ} {b : Bool} {w w0 : Draws n} {s : Multi n P M} (h : apoCreate cs D k r b w = .ok s) (ops : List (MultiOp n L))
    (hd : ∀ o ∈ ops, o.isDraw = false) (hops : ∀ a, .setSplit a ∈ ops → Ordinary n a) :
    Synced cs D (apoRun E F levels dCol cs D w0 s ops) := by
  have hs := apoCreate_synced hv hck D h
  clear h
  induction ops generalizing s with
  | nil => exact hs
  | cons o os ih =>
    exact ih (fun o ho => hd o (by simp [ho])) (fun a ha => hops a (by simp [ha]))
      (apoStep_synced hv hck E F levels dCol D w0 hs o (hd o (by simp)) fun a e => hops a (by simp [e]))

theorem fitSubs_ok {F : Frame n} {cas : List (SubClass n P M × FitArgs)} {ms ms' : List (MState n P M)}
    (h : fitSubs F cas ms = (ms', .ok ())) (hl : cas.length = ms.length) :
    ms'.length = ms.length ∧ ∀ (i : ℕ) (ca : SubClass n P M × FitArgs) (m : MState n P M), cas[i]? = some ca → ms[i]? = some m →
      (DML.fit F ca.1.spec m ca.2).2 = .ok () ∧ ms'[i]? = some (DML.fit F ca.1.spec m ca.2).1 := by
  induction cas generalizing ms ms' with
  | nil =>
    cases ms with
    | nil => cases h; exact ⟨rfl, fun i ca m hc => by simp at hc⟩
    | cons m ms => simp at hl
  | cons ca cas ih =>
    cases ms with
    | nil => simp at hl
    | cons m ms =>
      unfold fitSubs at h
      rcases hq : DML.fit F ca.1.spec m ca.2 with ⟨m', (e | u)⟩
      · rw [hq] at h; cases h
      · rw [hq] at h
        dsimp only at h
        rcases hq' : fitSubs F cas ms with ⟨ms1, u1⟩
        rw [hq'] at h
        cases h
        obtain ⟨h1, h2⟩ := ih hq' (by simpa using hl)
        refine ⟨by simp [h1], ?_⟩
        intro i ca' m1 hc hm
        cases i with
        | zero =>
          simp only [List.getElem?_cons_zero, Option.some.injEq] at hc hm ⊢
          subst hc; subst hm
          rw [hq]
          exact ⟨rfl, rfl⟩
        | succ i =>
          simp only [List.getElem?_cons_succ] at hc hm ⊢
          exact h2 i ca' m1 hc hm

theorem multiFit_ok {F : Frame n} {cas : List (SubClass n P M × FitArgs)}
    {g : List (DynFW n) → Except Exc (List (DynFW n))} {s : Multi n P M} (h : (multiFit F cas g s).2 = .ok ()) :
    ∃ ms ms' fs ds A, s.subs = some ms ∧ fitSubs F cas ms = (ms', .ok ()) ∧ ms'.mapM getFw = .ok fs ∧ g fs = .ok ds ∧
      DynFW.concat ds = .ok A ∧ (multiFit F cas g s).1 = { s with subs := some ms', framework := some ⟨A.r, { fw := A.fw }⟩ } := by
  unfold multiFit at h ⊢
  cases hs : s.subs with
  | none => rw [hs] at h; cases h
  | some ms =>
    rw [hs] at h
    dsimp only at h ⊢
    rcases hq : fitSubs F cas ms with ⟨ms', (e | u)⟩
    · rw [hq] at h; cases h
    · rw [hq] at h
      dsimp only at h ⊢
      unfold setFw at h ⊢
      cases hf : ms'.mapM getFw with
      | error e => rw [hf] at h; cases h
      | ok fs =>
        rw [hf] at h
        cases hg : g fs with
        | error e => simp only [hg, Except.bind] at h; cases h
        | ok ds =>
          cases hc : DynFW.concat ds with
          | error e => simp only [hg, hc, Except.bind] at h; cases h
          | ok A =>
            refine ⟨ms, ms', fs, ds, A, rfl, hq, hf, hg, hc, ?_⟩
            simp only [hg, hc, Except.bind]

/-- **C49.** What synchronisation means for `fit`: if all sub-models are set up for the reported split, then after a
successful `fit` the estimate of every sub-model, treatment and repetition is what its class computes from the folds
of this repetition of the split the object reports. -/
theorem C49_fit_uses_reported_split {cs : List (SubClass n P M)} {D : DataState n} {F : Frame n}
    {as : List FitArgs} (hl : as.length = cs.length) {g : List (DynFW n) → Except Exc (List (DynFW n))} {s : Multi n P M}
    (hS : Synced cs D s) (h : (multiFit F (List.zip cs as) g s).2 = .ok ()) {i : ℕ} {c : SubClass n P M} {a : FitArgs}
    (hc : cs[i]? = some c) (ha : as[i]? = some a) {p m : Bool} (hp : a.storePredictions = .bool p)
    (hm : a.storeModels = .bool m) {j k : ℕ} (hj : j < D.d.length) (hk : k < s.nRep) :
    ∃ S rep ms sub x o, (multiFit F (List.zip cs as) g s).1.smpls = some S ∧ S[k]? = some rep ∧
      (multiFit F (List.zip cs as) g s).1.subs = some ms ∧ ms[i]? = some sub ∧
      x.smpls = rep.map toFold ∧ c.spec.est x = .ok o ∧
      (sub.heap sub.arr).coef j k = some o.fit.coef ∧ (sub.heap sub.arr).se j k = some o.fit.se ∧
      sub.scores j k = some (o.fit.psi, o.fit.deriv) := by
  obtain ⟨ms, ms', fs, ds, A, h1, h2, h3, h4, h5, h6⟩ := multiFit_ok h
  obtain ⟨hlen, S, hs, hon⟩ := hS ms h1
  have hzl : (List.zip cs as).length = ms.length := by simp [hl, hlen]
  obtain ⟨h7, h8⟩ := fitSubs_ok h2 hzl
  have hi : i < cs.length := (List.getElem?_eq_some_iff.1 hc).1
  obtain ⟨sub0, hsub⟩ : ∃ x, ms[i]? = some x := ⟨ms[i]'(by omega), by simp⟩
  have hz : (List.zip cs as)[i]? = some (c, a) := by
    simp [List.getElem?_zip_eq_some, hc, ha]
  obtain ⟨h9, h10⟩ := h8 i (c, a) sub0 hz hsub
  have hon0 := hon sub0 (List.mem_of_getElem? hsub)
  obtain ⟨x, o, l, hx, _, hest, _, hco, hse, hsc, _⟩ := fit_cells h9 hp hm (j := j) (k := k)
    (by rw [hon0.data.d]; exact hj) (by rw [hon0.nRep]; exact hk)
  obtain ⟨l', hl', hlk⟩ := hx.smpls
  rw [hon0.smpls] at hl'
  obtain rfl := Option.some.inj hl'
  rw [List.getElem?_map, Option.map_eq_some_iff] at hlk
  obtain ⟨rep, hrep, hrf⟩ := hlk
  rw [h6]
  exact ⟨S, rep, ms', _, x, o, hs, hrep, rfl, h10, hrf.symm, hest, hco, hse, hsc⟩

/-- Two draws for two observations and two folds, the second with the folds exchanged. -/
def exDraw (b : Bool) : Draws 2 :=
  ⟨fun _ => Equiv.refl _, fun _ i => if b then i.val else 1 - i.val, fun _ _ _ => Equiv.refl _⟩

/-- **C49 violated (`DoubleMLAPOS.draw_sample_splitting`).** A second draw replaces the split the object reports but not
the split of any sub-model, for every choice of sub-models: `fit` continues to use the first split. -/
theorem C49_apos_violated {cs : List (SubClass 2 P M)} (h0 : cs ≠ []) (hv : ∀ c ∈ cs, c.spec.vars = none)
    (hck : ∀ c ∈ cs, ∀ r, c.check r = .ok ()) (D : DataState 2) :
    ∃ s, apoCreate cs D 2 1 true (exDraw true) = .ok s ∧ (apoDraw s (exDraw false)).2 = .ok () ∧
      ∃ S ms, (apoDraw s (exDraw false)).1.smpls = some S ∧ (apoDraw s (exDraw false)).1.subs = some ms ∧ ms ≠ [] ∧
        ∀ m ∈ ms, m.smpls ≠ some (S.map (List.map toFold)) := by
  obtain ⟨ms, S, h1, h2, h3, h4⟩ := apoCreate_eq hv hck D (k := 2) (r := 1) (by norm_num) (by norm_num) (exDraw true)
  have e2 : multiDraw 2 1 (exDraw false) = .ok [[([0], [1]), ([1], [0])]] := by decide
  have e1 : multiDraw 2 1 (exDraw true) = .ok [[([1], [0]), ([0], [1])]] := by decide
  refine ⟨_, h1, ?_⟩
  unfold apoDraw setDrawn
  dsimp only
  rw [e2]
  refine ⟨rfl, _, ms, rfl, rfl, ?_, ?_⟩
  · intro h; rw [h] at h3; exact h0 (List.length_eq_zero_iff.1 h3.symm)
  · intro m hm
    rw [(h4 m hm).smpls]
    rw [e1] at h2
    obtain rfl := Except.ok.inj h2
    intro h
    have := congrArg (fun o : Option (List (List (Fold 2))) => o.map fun l => l.map fun r => r.map fun f => f.test) h
    revert this
    decide

/-- **C49 violated (`DoubleMLAPOS` created without a split).** `draw_sample_splitting` then succeeds and a split is
reported, but there are no sub-models: every `fit` raises `AttributeError`. -/
theorem C49_apos_attribute_violated [DecidableEq L] (cs : List (SubClass n P M)) (D : DataState n) {k r : ℕ} (hk : 2 ≤ k)
    (hr : 1 ≤ r) (w : Draws n) (F : Frame n) (levels : List L) (dCol : String) (a : FitArgs) :
    ∃ s, apoCreate cs D k r false w = .ok s ∧ (apoDraw s w).2 = .ok () ∧ (apoDraw s w).1.smpls.isSome ∧
      (apoFit F levels dCol cs (apoDraw s w).1 a .none).2 = .error .attributeError := by
  refine ⟨multiEmpty k r, rfl, ?_⟩
  unfold apoDraw setDrawn multiDraw
  rw [if_neg (by show ¬ (k < 2 ∨ r = 0); omega)]
  exact ⟨rfl, rfl, rfl⟩

/-- All observations, as `np.arange(n_obs)`. -/
def arange (n : ℕ) : IdxIn := ⟨true, allIdx n⟩

theorem allIdx_range (n : ℕ) : InRange n (allIdx n) := fun _ hx => mem_allIdx.1 hx

theorem noSplit_accepted (n : ℕ) :
    checkSampleSplitting n (.tuple [arange n, arange n]) = .ok ([[(isort (allIdx n), isort (allIdx n))]], 1, 1) := by
  have h1 : checkTpl n false (arange n) (arange n) = .ok (isort (allIdx n), isort (allIdx n)) := by
    rw [checkTpl_ok_iff]
    exact ⟨rfl, rfl, (by intro h; cases h), allIdx_nodup n, allIdx_nodup n, allIdx_range n, allIdx_range n, rfl⟩
  have h2 : checkIsPartition n [(isort (allIdx n), isort (allIdx n))] = .ok true := by
    rw [checkIsPartition_iff]
    exact ⟨by simp, by simpa using isort_perm (allIdx n)⟩
  unfold checkSampleSplitting
  show (do
    let p ← checkTpl n false (arange n) (arange n)
    let x ← checkIsPartition n [p]
    let y ← checkIsPartition n [(p.2, p.1)]
    if x && y then return ([[p]], 1, 1) else .error .valueError : Except Exc (List (List IdxPair) × ℕ × ℕ)) = _
  simp only [h1, h2, bind, Except.bind, Bool.and_self, if_true]
  rfl

/-- Handed on to a sub-model, the split without sample splitting is rejected. -/
theorem noSplit_rejected (hn : 0 < n) :
    ∃ e, checkSampleSplitting n (nestedSplit [[(isort (allIdx n), isort (allIdx n))]]) = .error e := by
  cases hc : checkSampleSplitting n (nestedSplit [[(isort (allIdx n), isort (allIdx n))]]) with
  | error e => exact ⟨e, rfl⟩
  | ok out =>
    rw [nestedSplit_eq, C22_nested_accepted_iff] at hc
    have h := (hc.2.2.1 [(isort (allIdx n), isort (allIdx n))] (by simp)).disjoint (isort (allIdx n), isort (allIdx n)) (by simp) 0
    have h0 : (0 : ℤ) ∈ isort (allIdx n) := mem_isort.2 (mem_allIdx.2 ⟨le_rfl, by exact_mod_cast hn⟩)
    exact absurd h0 (h h0)

/-- **C49 violated (both classes, no sample splitting).** The documented argument for no sample splitting,
`(np.arange(n), np.arange(n))`, makes `set_sample_splitting` raise, but only after the object has replaced the split it
reports: all sub-models keep the old one. -/
theorem C49_qte_violated {cs : List (SubClass n P M)} (h0 : cs ≠ []) (hn : 0 < n) {D : DataState n} (w : Draws n)
    {s : Multi n P M} (hs : Synced cs D s) (hf : s.nFolds ≠ 1) (hsub : s.subs.isSome) :
    ∃ e S ms, (multiSet cs D w s (.tuple [arange n, arange n])).2 = .error e ∧
      (multiSet cs D w s (.tuple [arange n, arange n])).1.smpls = some S ∧
      (multiSet cs D w s (.tuple [arange n, arange n])).1.nFolds = 1 ∧
      (multiSet cs D w s (.tuple [arange n, arange n])).1.subs = some ms ∧ ms ≠ [] ∧
      s.subs = some ms ∧ ∀ m ∈ ms, m.nFolds ≠ 1 := by
  obtain ⟨ms, hms⟩ := Option.isSome_iff_exists.1 hsub
  obtain ⟨hl, S0, hS0, hon⟩ := hs ms hms
  obtain ⟨e, he⟩ : ∃ e, initSubs cs D w { s with
      smpls := some [[(isort (allIdx n), isort (allIdx n))]]
      nRep := 1
      nFolds := 1 } = .error e := by
    match cs, h0 with
    | c :: cs, _ =>
      obtain ⟨e, he⟩ := noSplit_rejected (n := n) hn
      have h1 : ∀ x : MState n P M, syncSplit c [[(isort (allIdx n), isort (allIdx n))]] x = .error e := by
        intro x
        unfold syncSplit setSampleSplitting
        rw [he]
      unfold initSubs
      dsimp only
      rw [List.mapM_cons]
      unfold initSub
      simp only [h1]
      cases initModel c.spec D c.start (.int (1 : ℕ)) (.int (1 : ℕ)) (.bool false) w with
      | error e' => exact ⟨e', rfl⟩
      | ok x =>
        cases c.check 1 with
        | error e' => exact ⟨e', rfl⟩
        | ok u => exact ⟨e, rfl⟩
  have hset : multiSet cs D w s (.tuple [arange n, arange n]) = ({ s with
      smpls := some [[(isort (allIdx n), isort (allIdx n))]]
      nRep := 1
      nFolds := 1 }, .error e) := by
    unfold multiSet
    rw [noSplit_accepted n]
    dsimp only
    unfold reinit
    rw [he]
  rw [hset]
  refine ⟨e, _, ms, rfl, rfl, rfl, hms, ?_, hms, fun m hm => by rw [(hon m hm).nFolds]; exact hf⟩
  intro h; rw [h] at hl; exact h0 (List.length_eq_zero_iff.1 hl.symm)

/-- **C49 violated (`DoubleMLAPOS` with `weights_bar`).** If the constructor of a sub-model refuses the new number of
repetitions (`weights_bar` has one column per repetition), `set_sample_splitting` raises after the reported split and
`n_rep` have been replaced; the sub-models keep the old ones. -/
theorem C49_apos_weights_violated {c : SubClass n P M} {cs : List (SubClass n P M)} {D : DataState n} (w : Draws n)
    {s : Multi n P M} (hs : Synced (c :: cs) D s) (hsub : s.subs.isSome) {a : SplitArg} {S : List (List IdxPair)} {r k : ℕ}
    (ha : checkSampleSplitting n a = .ok (S, r, k)) (hr : r ≠ s.nRep) {e : Exc} (hc : c.check r = .error e)
    (hv : c.spec.vars = none) :
    (multiSet (c :: cs) D w s a).2 = .error e ∧ (multiSet (c :: cs) D w s a).1.smpls = some S ∧
      (multiSet (c :: cs) D w s a).1.nRep = r ∧
      ∃ ms, (multiSet (c :: cs) D w s a).1.subs = some ms ∧ ms ≠ [] ∧ ∀ m ∈ ms, m.nRep ≠ r := by
  obtain ⟨ms, hms⟩ := Option.isSome_iff_exists.1 hsub
  obtain ⟨hl, S0, hS0, hon⟩ := hs ms hms
  obtain ⟨h1, h2, h3, h4⟩ := C22_accepted_splits_valid n a S r k ha
  obtain ⟨x, hx, _⟩ := initModel_nodraw c.spec D c.start h3 h2 w hv
  have he : initSubs (c :: cs) D w { s with
      smpls := some S
      nRep := r
      nFolds := k } = .error e := by
    unfold initSubs
    dsimp only
    rw [List.mapM_cons]
    unfold initSub
    simp only [hx, hc, bind, Except.bind]
  have hset : multiSet (c :: cs) D w s a = ({ s with
      smpls := some S
      nRep := r
      nFolds := k }, .error e) := by
    unfold multiSet
    rw [ha]
    dsimp only
    unfold reinit
    rw [he]
  rw [hset]
  refine ⟨rfl, rfl, rfl, ms, hms, ?_, fun m hm => by rw [(hon m hm).nRep]; exact hr.symm⟩
  intro h; rw [h] at hl; cases hl

/-- A sub-model class for the examples. -/
def exSub (n : ℕ) : SubClass n Unit Unit :=
  ⟨⟨[], [], false, false, true, none, fun _ => .error .valueError⟩, 0, fun _ => .ok ()⟩

/-- Non-vacuity of the theorems above: a created object with two sub-models, two folds and three repetitions. -/
example (D : DataState 2) (w : Draws 2) : ∃ s, apoCreate [exSub 2, exSub 2] D 2 3 true w = .ok s ∧
    Synced [exSub 2, exSub 2] D s ∧ s.nFolds ≠ 1 ∧ s.subs.isSome ∧ s.nRep = 3 := by
  have hv : ∀ c ∈ [exSub 2, exSub 2], c.spec.vars = none := by simp [exSub]
  have hck : ∀ c ∈ [exSub 2, exSub 2], ∀ r, c.check r = .ok () := by simp [exSub]
  obtain ⟨ms, S, h1, h2, h3, h4⟩ := apoCreate_eq hv hck D (k := 2) (r := 3) (by norm_num) (by norm_num) w
  exact ⟨_, h1, apoCreate_synced hv hck D h1, by show 2 ≠ 1; norm_num, rfl, rfl⟩

/-- Non-vacuity of `Ordinary`: the split of the documentation, for four observations. -/
example : Ordinary 4 (.list [.tuple [⟨true, [0, 1]⟩, ⟨true, [2, 3]⟩], .tuple [⟨true, [2, 3]⟩, ⟨true, [0, 1]⟩]]) ∧
    ∃ S, checkSampleSplitting 4 (.list [.tuple [⟨true, [0, 1]⟩, ⟨true, [2, 3]⟩], .tuple [⟨true, [2, 3]⟩, ⟨true, [0, 1]⟩]]) =
      .ok (S, 1, 2) := by
  have h : checkSampleSplitting 4 (.list [.tuple [⟨true, [0, 1]⟩, ⟨true, [2, 3]⟩], .tuple [⟨true, [2, 3]⟩, ⟨true, [0, 1]⟩]]) =
      .ok ([[([0, 1], [2, 3]), ([2, 3], [0, 1])]], 1, 2) := by
    simp [checkSampleSplitting, allTuples, checkFlat, pairOf, checkTpl, checkIsPartition, isort, recheck, bind, Except.bind, pure, Except.pure, List.mergeSort, List.range, List.range.loop]
  refine ⟨?_, _, h⟩
  intro S r k hc rep hrep ⟨p, hp, _⟩
  rw [h] at hc
  cases hc
  rw [List.mem_singleton] at hrep
  subst hrep
  cases hp

/-! ## C50 -/

theorem castTo_ok {r : ℕ} {A : DynFW n} {B : FW n r} (h : A.castTo r = .ok B) : A = ⟨r, B⟩ := by
  unfold DynFW.castTo at h
  split_ifs at h with h1
  subst h1
  cases h
  rfl

theorem castTo_self {r : ℕ} (B : FW n r) : (DynFW.mk r B).castTo r = .ok B := by
  unfold DynFW.castTo; rw [dif_pos rfl]

theorem dynSub_ok {A B C : DynFW n} (h : A.sub B = .ok C) :
    ∃ B' R, B = ⟨A.r, B'⟩ ∧ FW.sub A.fw B' = .ok R ∧ C = ⟨A.r, R⟩ := by
  unfold DynFW.sub at h
  obtain ⟨B', hB, h⟩ := bind_ok h
  obtain ⟨R, hR, h⟩ := bind_ok h
  exact ⟨B', R, castTo_ok hB, hR, (Except.ok.inj h).symm⟩

theorem castTo_list {r : ℕ} {x : List (DynFW n)} {fs : List (FW n r)}
    (h : List.Forall₂ (fun a b => DynFW.castTo r a = .ok b) x fs) : x = fs.map (DynFW.mk r) := by
  induction h with
  | nil => rfl
  | cons hab _ ih => rw [castTo_ok hab, ih]; rfl

theorem dynConcat_ok {l : List (DynFW n)} {A : DynFW n} (h : DynFW.concat l = .ok A) :
    ∃ fs : List (FW n A.r), l = fs.map (DynFW.mk A.r) ∧ FW.concat fs = .ok A.fw := by
  cases l with
  | nil => cases h
  | cons B l =>
    unfold DynFW.concat at h
    obtain ⟨fs, hf, h⟩ := bind_ok h
    obtain ⟨R, hR, h⟩ := bind_ok h
    obtain rfl := Except.ok.inj h
    refine ⟨fs, ?_, hR⟩
    rw [mapM_ok_iff] at hf
    show B :: l = fs.map (DynFW.mk B.r)
    exact castTo_list hf


theorem qteDiffs_ok {Q : ℕ} {fs ds : List (DynFW n)} (h : qteDiffs fs = .ok ds) (hl : fs.length = 2 * Q) :
    ds.length = Q ∧ ∀ q < Q, ∃ A0 A1 d, fs[2 * q]? = some A0 ∧ fs[2 * q + 1]? = some A1 ∧ ds[q]? = some d ∧
      A1.sub A0 = .ok d := by
  induction Q generalizing fs ds with
  | zero =>
    have : fs = [] := List.length_eq_zero_iff.1 hl
    subst this
    cases h
    exact ⟨rfl, fun q hq => by omega⟩
  | succ Q ih =>
    match fs, hl with
    | A0 :: A1 :: fs, hl =>
      unfold qteDiffs at h
      obtain ⟨d, hd, h⟩ := bind_ok h
      obtain ⟨ds', hds, h⟩ := bind_ok h
      obtain rfl := Except.ok.inj h
      obtain ⟨h1, h2⟩ := ih hds (by simp at hl; omega)
      refine ⟨by simp [h1], ?_⟩
      intro q hq
      cases q with
      | zero => exact ⟨A0, A1, d, rfl, rfl, rfl, hd⟩
      | succ q =>
        obtain ⟨B0, B1, d', e1, e2, e3, e4⟩ := h2 q (by omega)
        refine ⟨B0, B1, d', ?_, ?_, e3, e4⟩
        · rw [show 2 * (q + 1) = 2 * q + 1 + 1 by ring, List.getElem?_cons_succ, List.getElem?_cons_succ]; exact e1
        · rw [show 2 * (q + 1) + 1 = 2 * q + 1 + 1 + 1 by ring, List.getElem?_cons_succ, List.getElem?_cons_succ]; exact e2
    | [_], hl => simp at hl; omega
    | [], hl => simp at hl

theorem mapM_getElem? {α β : Type} {f : α → Except Exc β} {l : List α} {r : List β} (h : l.mapM f = .ok r) {i : ℕ} {b : β}
    (hb : r[i]? = some b) : ∃ a, l[i]? = some a ∧ f a = .ok b := by
  rw [mapM_ok_iff] at h
  induction h generalizing i with
  | nil => simp at hb
  | cons hab _ ih =>
    cases i with
    | zero => simp only [List.getElem?_cons_zero, Option.some.injEq] at hb ⊢; exact ⟨_, rfl, by rw [← hb]; exact hab⟩
    | succ i => simp only [List.getElem?_cons_succ] at hb ⊢; exact ih hb

theorem mapM_length {α β : Type} {f : α → Except Exc β} {l : List α} {r : List β} (h : l.mapM f = .ok r) :
    r.length = l.length := ((mapM_ok_iff _ _ _).1 h).length_eq.symm

theorem getFw_ok {m : MState n P M} {A : DynFW n} (h : getFw m = .ok A) : m.fw? = some A := by
  unfold getFw at h
  cases hm : m.fw? with
  | none => rw [hm] at h; cases h
  | some B => rw [hm] at h; cases h; rfl

/-- Flattening lists with one element each. -/
theorem flatten_singletons {α : Type} {l : List (List α)} (h : ∀ x ∈ l, x.length = 1) :
    l.flatten.length = l.length ∧ ∀ (i : ℕ) (b : α), l[i]? = some [b] → l.flatten[i]? = some b := by
  induction l with
  | nil => exact ⟨rfl, fun i b hb => by simp at hb⟩
  | cons x l ih =>
    obtain ⟨h1, h2⟩ := ih fun y hy => h y (by simp [hy])
    obtain ⟨a, rfl⟩ := List.length_eq_one_iff.1 (h x (by simp))
    refine ⟨by simp [h1], ?_⟩
    intro i b hb
    cases i with
    | zero => simpa using hb
    | succ i => simp only [List.flatten_cons, List.singleton_append, List.getElem?_cons_succ] at hb ⊢; exact h2 i b hb

theorem fit_nblocks {F : Frame n} {sp : Spec n P M} {s : MState n P M} {a : FitArgs} (h : (fit F sp s a).2 = .ok ()) :
    ∃ o, (fit F sp s a).1.framework = some o ∧ o.addr = s.arr ∧ o.r = (s.heap s.arr).nR ∧
      o.st.fw.blocks.length = (s.heap s.arr).nT := by
  obtain ⟨p, m, fw, h1, h2, h3, h4⟩ := fit_ok h
  refine ⟨⟨(s.heap s.arr).nR, s.arr, { fw := fw }⟩, by rw [h4], rfl, rfl, ?_⟩
  unfold FW.construct at h3
  split_ifs at h3
  cases h3
  have hf := (initFit_frame sp s p m).trans
    (fitLoop_frame F sp a.ext p m (cellOrder s.nRep s.data.d.length) (initFit sp s p m))
  show ((List.range _).map _).length = _
  rw [List.length_map, List.length_range]
  exact hf.settings.nT

/-- The framework of a freshly fitted model with one treatment. -/
theorem fitted_fw {F : Frame n} {sp : Spec n P M} {s : MState n P M} {a : FitArgs} (hs : Shaped s)
    (h1 : s.data.d.length = 1) (h : (fit F sp s a).2 = .ok ()) {A : DynFW n} (hA : (fit F sp s a).1.fw? = some A) :
    A.r = s.nRep ∧ ∃ b, A.fw.blocks = [b] ∧
      ∀ k : Fin A.r, b.allTheta k = (((fit F sp s a).1.heap (fit F sp s a).1.arr).coef 0 k).getD 0 := by
  obtain ⟨o, ho, ho1, ho2, ho3⟩ := fit_nblocks h
  have harr := (fit_frame F sp s a).2.1
  unfold MState.fw? at hA
  rw [ho] at hA
  obtain rfl := Option.some.inj hA
  rw [hs.nT, h1] at ho3
  obtain ⟨b, hb⟩ := List.length_eq_one_iff.1 ho3
  refine ⟨by show o.r = _; rw [ho2, hs.nR], ?_⟩
  refine ⟨{ b with
      allTheta := fun k => (((fit F sp s a).1.heap o.addr).coef 0 k).getD 0
      allSe := fun k => (((fit F sp s a).1.heap o.addr).se 0 k).getD 0
      vsf := (((fit F sp s a).1.heap o.addr).vsf 0).getD 0 }, ?_, ?_⟩
  · unfold FwObj.view
    dsimp only
    rw [hb]
    rfl
  · intro k
    show (((fit F sp s a).1.heap o.addr).coef 0 k).getD 0 = _
    rw [ho1, harr]

/-- **C50.** After a successful `fit` of a `DoubleMLQTE` object with `Q` quantiles (sub-models for control and treatment
in turn), the framework has exactly one parameter per quantile, in the given order: in every repetition its estimate
is the estimate of the treated potential quantile minus that of the control potential quantile, its influence
function is the difference of their influence functions, and all standard errors and the aggregated estimate are the
direct inference on this difference. -/
theorem C50_qte_effects {cs : List (SubClass n P M)} {D : DataState n} {F : Frame n} {a : FitArgs} {s : Multi n P M}
    (hS : Synced cs D s) (hD : D.d.length = 1) {Q : ℕ} (hQ : cs.length = 2 * Q) (h : (qteFit F cs s a).2 = .ok ()) :
    ∃ ms r R, (qteFit F cs s a).1.subs = some ms ∧ (qteFit F cs s a).1.framework = some ⟨r, { fw := R }⟩ ∧ r = s.nRep ∧
      R.blocks.length = Q ∧ ∀ q < Q, ∃ m0 m1 A0 A1 b0 b1 b, ms[2 * q]? = some m0 ∧ ms[2 * q + 1]? = some m1 ∧
        m0.fw? = some ⟨r, A0⟩ ∧ m1.fw? = some ⟨r, A1⟩ ∧ A0.blocks = [b0] ∧ A1.blocks = [b1] ∧ R.blocks[q]? = some b ∧
        (∀ k : Fin r, b0.allTheta k = ((m0.heap m0.arr).coef 0 k).getD 0) ∧
        (∀ k : Fin r, b1.allTheta k = ((m1.heap m1.arr).coef 0 k).getD 0) ∧
        (∀ k, b.allTheta k = b1.allTheta k - b0.allTheta k) ∧ (∀ i k, b.psi i k = b1.psi i k - b0.psi i k) ∧
        b = (Influence.mk b.allTheta b.psi).direct b1.vsf := by
  unfold qteFit at h ⊢
  split_ifs at h ⊢ with hext
  obtain ⟨ms, ms', fs, ds, A, h1, h2, h3, h4, h5, h6⟩ := multiFit_ok h
  obtain ⟨hlen, S, hs, hon⟩ := hS ms h1
  obtain ⟨h7, h8⟩ := fitSubs_ok h2 (by simp [hlen])
  have hfl : fs.length = 2 * Q := by rw [mapM_length h3, h7, hlen, hQ]
  obtain ⟨h9, h10⟩ := qteDiffs_ok h4 hfl
  obtain ⟨gs, h11, h12⟩ := dynConcat_ok h5
  obtain ⟨hne, hbl, _⟩ := FW.concat_ok h12
  -- every fitted sub-model
  have hfit : ∀ (i : ℕ) (A : DynFW n), fs[i]? = some A → ∃ m : MState n P M, ms'[i]? = some m ∧ m.fw? = some A ∧ A.r = s.nRep ∧ ∃ b, A.fw.blocks = [b] ∧
      ∀ k : Fin A.r, b.allTheta k = ((m.heap m.arr).coef 0 k).getD 0 := by
    intro i A hA
    obtain ⟨m, hm, hg⟩ := mapM_getElem? h3 hA
    have hi : i < ms.length := by rw [← h7]; exact (List.getElem?_eq_some_iff.1 hm).1
    obtain ⟨m0, hm0⟩ : ∃ x, ms[i]? = some x := ⟨ms[i], by simp⟩
    obtain ⟨c, hc⟩ : ∃ x, cs[i]? = some x := ⟨cs[i]'(by omega), by simp⟩
    obtain ⟨e1, e2⟩ := h8 i (c, a) m0 (by simp [hc]) hm0
    rw [hm] at e2
    obtain rfl := Option.some.inj e2
    have hon0 := hon m0 (List.mem_of_getElem? hm0)
    obtain ⟨g1, g2⟩ := fitted_fw hon0.shaped (by rw [hon0.data.d]; exact hD) e1 (getFw_ok hg)
    exact ⟨_, hm, getFw_ok hg, by rw [g1, hon0.nRep], g2⟩
  -- every difference
  have hdiff : ∀ q < Q, ∃ (m0 m1 : MState n P M) (A0 A1 : FW n A.r) (b0 b1 : Block n A.r) (g : FW n A.r), ms'[2 * q]? = some m0 ∧ ms'[2 * q + 1]? = some m1 ∧
      m0.fw? = some ⟨A.r, A0⟩ ∧ m1.fw? = some ⟨A.r, A1⟩ ∧ A0.blocks = [b0] ∧ A1.blocks = [b1] ∧ gs[q]? = some g ∧
      A.r = s.nRep ∧
      (∀ k : Fin A.r, b0.allTheta k = ((m0.heap m0.arr).coef 0 k).getD 0) ∧
      (∀ k : Fin A.r, b1.allTheta k = ((m1.heap m1.arr).coef 0 k).getD 0) ∧ g.blocks = [b1.sub b0] := by
    intro q hq
    obtain ⟨A0, A1, d, e1, e2, e3, e4⟩ := h10 q hq
    obtain ⟨B', R, e5, e6, e7⟩ := dynSub_ok e4
    obtain ⟨m0, f1, f2, f3, b0, f4, f5⟩ := hfit _ _ e1
    obtain ⟨m1, g1, g2, g3, b1, g4, g5⟩ := hfit _ _ e2
    rw [h11, List.getElem?_map, Option.map_eq_some_iff] at e3
    obtain ⟨g, e8, e9⟩ := e3
    subst e5
    rw [e7] at e9
    obtain ⟨r1, F1⟩ := A1
    dsimp only at e9 e6 e7 f3 f4 f5 g3 g4 g5
    obtain ⟨hr, hg⟩ := DynFW.mk.inj e9
    subst hr
    have hg := eq_of_heq hg
    subst hg
    obtain ⟨k1, _⟩ := FW.bin_ok e6
    exact ⟨m0, m1, B', F1, b0, b1, g, f1, g1, f2, g2, f4, g4, e8, f3, f5, g5, by rw [k1, f4, g4]; rfl⟩
  have hgl : gs.length = Q := by rw [← h9, h11, List.length_map]
  have hsing : ∀ x ∈ gs.map FW.blocks, x.length = 1 := by
    intro x hx
    obtain ⟨g, hg, rfl⟩ := List.mem_map.1 hx
    obtain ⟨q, hq⟩ := List.getElem?_of_mem hg
    obtain ⟨_, _, _, _, _, _, g', _, _, _, _, _, _, hg', _, _, _, e⟩ := hdiff q (by
      rw [← hgl]; exact (List.getElem?_eq_some_iff.1 hq).1)
    rw [hq] at hg'
    obtain rfl := Option.some.inj hg'
    rw [e]; rfl
  obtain ⟨l1, l2⟩ := flatten_singletons hsing
  have hpos : 0 < Q := by rw [← hgl]; exact List.length_pos_of_ne_nil hne
  obtain ⟨_, _, _, _, _, _, _, _, _, _, _, _, _, _, hr, _⟩ := hdiff 0 hpos
  rw [h6]
  refine ⟨ms', A.r, A.fw, rfl, rfl, hr, ?_, ?_⟩
  · rw [hbl, l1, List.length_map, hgl]
  · intro q hq
    obtain ⟨m0, m1, A0, A1, b0, b1, g, e1, e2, e3, e4, e5, e6, e7, _, e8, e9, e10⟩ := hdiff q hq
    refine ⟨m0, m1, A0, A1, b0, b1, b1.sub b0, e1, e2, e3, e4, e5, e6, ?_, e8, e9, fun _ => rfl, fun _ _ => rfl,
      Block.sub_consistent b1 b0⟩
    rw [hbl]
    refine l2 q _ ?_
    rw [List.getElem?_map, e7, Option.map_some, e10]

end DML
