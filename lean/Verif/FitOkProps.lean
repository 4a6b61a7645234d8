import Verif.ClassesFitProps
import Verif.PlrFitProps
import Verif.DrawSplitProps
import Verif.FitTotal

/-!
# C63: valid inputs can be fitted

A model object keeps a valid split and parameters of the right shape through every history of draws, explicitly
set splits, parameter assignments, tuning, fits and inference calls.  Whenever a split is present, `fit` with accepted
arguments succeeds, provided that the training sets contain what the learners need.
-/

namespace DML

open Finset

variable {n : ℕ} {P M : Type}

/-! ## From cells to the fit -/

/-- After successful loops the framework can always be built. -/
theorem fit_ok_of_loop' {F : Frame n} {sp : Spec n P M} {s : MState n P M}
    (hsig : sp.sensImpl = true → ∀ c o, sp.est c = .ok o → 0 ≤ o.sens.sigma2)
    (hs : Shaped s) {a : FitArgs} {p m : Bool} (hc : checkFit sp s a = .ok (p, m))
    (hl : (fitLoop F sp a.ext p m (initFit sp s p m) (cellOrder s.nRep s.data.d.length)).2 = .ok ()) :
    (fit F sp s a).2 = .ok () := by
  cases hse : sp.sensImpl with
  | true => exact fit_ok_of_loop hse (hsig hse) hs hc hl
  | false =>
    rw [fit_eq hc hl]
    have hf := (initFit_frame sp s p m).trans
      (fitLoop_frame F sp a.ext p m (cellOrder s.nRep s.data.d.length) (initFit sp s p m))
    generalize (fitLoop F sp a.ext p m (initFit sp s p m) (cellOrder s.nRep s.data.d.length)).1 = t at *
    have hd : t.data.d.length = s.data.d.length := by rw [hf.settings.data.d]
    have hnT : (t.heap t.arr).nT = t.data.d.length := hf.settings.nT.trans (hs.nT.trans hd.symm)
    have hnR : (s.heap s.arr).nR = s.nRep := hs.nR
    rw [hnR]
    have hblocks : (frameworkOf s.nRep sp (aggregate sp t)).blocks.length = t.data.d.length := by
      show ((List.range (t.heap t.arr).nT).map _).length = _
      rw [List.length_map, List.length_range, hnT]
    have hnames : (frameworkOf s.nRep sp (aggregate sp t)).names = some t.data.d := rfl
    unfold finishAt
    suffices hcon : ∃ fw, (frameworkOf s.nRep sp (aggregate sp t)).construct = .ok fw by
      obtain ⟨fw, hfw⟩ := hcon
      rw [hfw]
    have h1 : (frameworkOf s.nRep sp (aggregate sp t)).sens = none := by
      show (if sp.sensImpl = true then _ else none) = _
      rw [hse]; rfl
    generalize frameworkOf s.nRep sp (aggregate sp t) = A at *
    refine ⟨A.normBench, ?_⟩
    have hnb : A.normBench.bench = none := by simp [FW.normBench, h1]
    have hns : A.normBench.sens = none := h1
    unfold FW.construct
    rw [if_neg, if_neg, if_neg]
    · rintro ⟨ns, hns, hne⟩
      have : A.normBench.names = A.names := rfl
      rw [this, hnames] at hns
      obtain rfl := Option.some.inj hns
      exact hne hblocks.symm
    · rw [not_not]
      exact ⟨fun x hx => (by rw [hns] at hx; cases hx), fun _ x hx => (by rw [hnb] at hx; cases hx)⟩
    · rintro ⟨bs, hbs, -⟩
      rw [hnb] at hbs; cases hbs

/-- The losses can be computed if every learner has exactly one key and its predictions and targets are stored. -/
theorem calcLoss_total {sp : Spec n P M} {preds : List (String × NV n)} {targets : List (String × Option (NV n))}
    (h : ∀ l ∈ sp.learners, ((sp.keys.filter fun q => decide (q.1.toList <:+: l.toList)).length = 1) ∧
      (lookupKey l preds).isSome ∧ (lookupKey l targets).isSome) : ∃ r, calcLoss sp preds targets = .ok r := by
  unfold calcLoss
  suffices hk : ∀ L : List String, (∀ l ∈ L, ∃ r, learnerLoss sp.keys preds targets l = .ok r) →
      ∃ r, L.mapM (learnerLoss sp.keys preds targets) = .ok r by
    refine hk _ fun l hl => ?_
    obtain ⟨h1, h2, h3⟩ := h l hl
    obtain ⟨q, hq⟩ := List.length_eq_one_iff.1 h1
    obtain ⟨p, hp⟩ := Option.isSome_iff_exists.1 h2
    obtain ⟨t, ht⟩ := Option.isSome_iff_exists.1 h3
    unfold learnerLoss
    rw [hq, ht, hp]
    cases t <;> exact ⟨_, rfl⟩
  intro L hL
  induction L with
  | nil => exact ⟨[], rfl⟩
  | cons l L ih =>
    obtain ⟨r, hr⟩ := hL l (List.mem_cons_self ..)
    obtain ⟨rs, hrs⟩ := ih fun l' hl' => hL l' (List.mem_cons_of_mem _ hl')
    refine ⟨r :: rs, ?_⟩
    simp only [List.mapM_cons, hr, hrs, bind, Except.bind, pure, Except.pure]

/-! ## What the object keeps through its history -/

/-- The split and the parameters of a model object fit together: whatever split is stored has the announced number
of repetitions and folds and is a valid cross-fitting partition, and every learner has parameters for every
treatment, repetition and fold. -/
structure FitReady (sp : Spec n P M) (s : MState n P M) : Prop where
  shaped : Shaped s
  split : ∀ L, s.smpls = some L → L.length = s.nRep ∧ ∀ S ∈ L, FoldsOk S ∧ S.length = s.nFolds
  params : ∀ l ∈ sp.learners, ∀ tv ∈ s.data.d, ∃ v, s.params l tv = some v ∧ v.length = s.nRep ∧
    ∀ ps, some ps ∈ v → ps.length = s.nFolds

/-- A call that does not change the data object; stratified draws assign every observation to one of the folds. -/
def PlainOp (s : MState n P M) : MOp n P → Prop
  | .draw w => ∀ r i, w.assign r i < s.nFolds
  | .data _ => False
  | _ => True

/-- All calls of a history are of this kind. -/
def PlainHistory (E : Ext) (F : Frame n) (sp : Spec n P M) : MState n P M → List (MOp n P) → Prop
  | _, [] => True
  | s, o :: os => PlainOp s o ∧ PlainHistory E F sp (mstep E F sp s o).1 os

theorem FitReady.of_same {sp : Spec n P M} {s t : MState n P M} (h : FitReady sp s) (hf : SameSettings s t)
    (hn : t.nFolds = s.nFolds) : FitReady sp t where
  shaped := ⟨by rw [hf.nRep]; exact h.shaped.pos, by rw [hf.nT, hf.data.d]; exact h.shaped.nT,
    by rw [hf.nR, hf.nRep]; exact h.shaped.nR⟩
  split := by
    rw [hf.smpls, hf.nRep, hn]
    exact h.split
  params := by
    rw [hf.params, hf.nRep, hn, hf.data.d]
    exact h.params

theorem initParams_ready {learners treats : List String} {r f : ℕ} {l tv : String} (hl : l ∈ learners) (ht : tv ∈ treats) :
    ∃ v, (initParams learners treats r l tv : Option (List (Option (List P)))) = some v ∧ v.length = r ∧
      ∀ ps, some ps ∈ v → ps.length = f := by
  refine ⟨List.replicate r none, by unfold initParams; rw [if_pos ⟨hl, ht⟩], by simp, ?_⟩
  intro ps hp
  cases (List.mem_replicate.1 hp).2

theorem foldsOk_of_perm {S : List (Fold n)} (h : (S.flatMap Fold.test).Perm (List.finRange n))
    (ht : ∀ f ∈ S, f.train.Nodup) : FoldsOk S :=
  ⟨(isPartition_iff S).2 (by rwa [← List.flatMap_def]), ht⟩

/-- A drawn split is valid. -/
theorem drawnSplit_ready {sp : Spec n P M} (hv : sp.vars = none) {s : MState n P M} {w : Draws n}
    (hw : ∀ r i, w.assign r i < s.nFolds) {L : List (List (Fold n))} {c : Option (List (List ClusterFold))}
    (h : drawnSplit sp s w = .ok (L, c)) : L.length = s.nRep ∧ ∀ S ∈ L, FoldsOk S ∧ S.length = s.nFolds := by
  unfold drawnSplit at h
  rw [hv] at h
  dsimp only at h
  by_cases hs : sp.stratified = true
  · rw [if_pos hs] at h
    split_ifs at h with h2
    cases h
    refine ⟨by simp, fun S hS => ?_⟩
    obtain ⟨r, -, rfl⟩ := List.mem_map.1 hS
    obtain ⟨h3, h4, h5⟩ := C23_stratified_partition s.nFolds (w.assign r) (hw r)
    exact ⟨foldsOk_of_perm h4 fun f hf => (h5 f hf).1, h3⟩
  · rw [if_neg hs] at h
    obtain ⟨l, hl, h⟩ := bind_ok h
    cases h
    have hb : 2 ≤ s.nFolds ∧ s.nFolds ≤ n := by
      by_contra hc
      have := (C23_rejects s.nFolds s.nRep w.shuffle).1 (by omega)
      rw [hl] at this; cases this
    obtain ⟨l', hl', h3, h4, -⟩ := C23_drawn_splits_balanced s.nFolds s.nRep w.shuffle hb.1 hb.2
    obtain rfl := Except.ok.inj (hl'.symm.trans hl)
    exact ⟨h3, fun S hS => ⟨foldsOk_of_perm (h4 S hS).partition fun f hf => ((h4 S hS).train f hf).1, (h4 S hS).length⟩⟩

/-- An accepted split is valid after its conversion to observations. -/
theorem toFold_ready {rep : List IdxPair} (h : ValidSplit n rep ∨ NoSplit n rep) :
    FoldsOk (rep.map (toFold : IdxPair → Fold n)) := by
  have hpart : (rep.flatMap Prod.snd).Perm (allIdx n) := by
    rcases h with h | ⟨p, rfl, -, h⟩
    · exact h.partition
    · simpa using h
  have htrain : ∀ p ∈ rep, p.1.Nodup := by
    intro p hp
    rcases h with h | ⟨q, rfl, h, -⟩
    · exact (h.train p hp).1
    · obtain rfl := List.mem_singleton.1 hp
      exact h.nodup_iff.2 (List.nodup_range.map fun a b h => by simpa using h)
  have hinj : ∀ (a b : ℤ) (c : Fin n), (if h : 0 ≤ a ∧ a < n then some (⟨a.toNat, by omega⟩ : Fin n) else none) = some c →
      (if h : 0 ≤ b ∧ b < n then some (⟨b.toNat, by omega⟩ : Fin n) else none) = some c → a = b := by
    intro a b c h1 h2
    split_ifs at h1 with h3
    split_ifs at h2 with h4
    have e1 := congrArg Fin.val (Option.some.inj h1)
    have e2 := congrArg Fin.val (Option.some.inj h2)
    dsimp only at e1 e2
    omega
  refine foldsOk_of_perm ?_ ?_
  · have e : (rep.map (toFold : IdxPair → Fold n)).flatMap Fold.test = (rep.flatMap Prod.snd).filterMap
        fun (z : ℤ) => if h : 0 ≤ z ∧ z < n then some (⟨z.toNat, by omega⟩ : Fin n) else none := by
      rw [List.flatMap_map]
      have key : ∀ rep : List IdxPair, (rep.flatMap fun a => (toFold a : Fold n).test) =
          (rep.flatMap Prod.snd).filterMap fun (z : ℤ) => if h : 0 ≤ z ∧ z < n then some (⟨z.toNat, by omega⟩ : Fin n) else none := by
        intro rep
        induction rep with
        | nil => rfl
        | cons p rep ih => rw [List.flatMap_cons, List.flatMap_cons, List.filterMap_append, ih]; rfl
      exact key rep
    rw [e]
    have hall : (allIdx n).Nodup := List.nodup_range.map fun a b h => by simpa using h
    refine (List.perm_ext_iff_of_nodup ((hpart.nodup_iff.2 hall).filterMap fun a b c h1 h2 => hinj a b c h1 h2)
      (List.nodup_finRange n)).2 fun i => ?_
    refine ⟨fun _ => List.mem_finRange i, fun _ => List.mem_filterMap.2 ⟨(i : ℕ), hpart.mem_iff.2 ?_, ?_⟩⟩
    · exact List.mem_map.2 ⟨i, List.mem_range.2 i.2, rfl⟩
    · rw [dif_pos ⟨by omega, by exact_mod_cast i.2⟩]
      simp
  · intro f hf
    obtain ⟨p, hp, rfl⟩ := List.mem_map.1 hf
    exact (htrain p hp).filterMap fun a b c h1 h2 => hinj a b c h1 h2

theorem paramValue_shape {nRep nFolds : ℕ} {a : ParamArg P} {v : List (Option (List P))}
    (h : paramValue nRep nFolds a = .ok v) : v.length = nRep ∧ ∀ ps, some ps ∈ v → ps.length = nFolds := by
  cases a with
  | none =>
    obtain rfl := Except.ok.inj h
    exact ⟨by simp, fun ps hp => by cases (List.mem_replicate.1 hp).2⟩
  | dict p =>
    obtain rfl := Except.ok.inj h
    refine ⟨by simp, fun ps hp => ?_⟩
    rw [Option.some.inj (List.mem_replicate.1 hp).2]
    simp
  | list l =>
    unfold paramValue at h
    dsimp only at h
    by_cases h1 : l.length ≠ nRep
    · rw [if_pos h1] at h; cases h
    · rw [if_neg h1] at h
      by_cases h2 : (l.all fun x => decide (x.length = nFolds)) = true
      · rw [if_pos h2] at h
        obtain rfl := Except.ok.inj h
        refine ⟨by simpa using h1, fun ps hp => ?_⟩
        obtain ⟨q, hq, e⟩ := List.mem_map.1 hp
        obtain rfl := Option.some.inj e
        simpa using List.all_eq_true.1 h2 q hq
      · rw [if_neg h2] at h; cases h

theorem drawSampleSplitting_ready {sp : Spec n P M} (hv : sp.vars = none) {s t : MState n P M} {w : Draws n}
    (hw : ∀ r i, w.assign r i < s.nFolds) (h : drawSampleSplitting sp s w = (t, .ok ())) :
    ∃ L c, t = { s with smpls := some L, smplsCluster := c } ∧ L.length = s.nRep ∧ ∀ S ∈ L, FoldsOk S ∧ S.length = s.nFolds := by
  unfold drawSampleSplitting at h
  cases hd : drawnSplit sp s w with
  | error e => rw [hd] at h; cases h
  | ok q =>
    obtain ⟨L, c⟩ := q
    rw [hd] at h
    cases h
    exact ⟨L, c, rfl, drawnSplit_ready hv hw hd⟩

/-- The constructor creates a ready object. -/
theorem initModel_ready {sp : Spec n P M} (hv : sp.vars = none) {D : DataState n} {start : ℝ} {nf nr dr : PyVal} {w : Draws n}
    {s : MState n P M} (h : initModel sp D start nf nr dr w = .ok s)
    (hw : ∀ K, nf.asInt = some K → ∀ r i, (w.assign r i : ℤ) < K) : FitReady sp s ∧ s.data = D := by
  unfold initModel at h
  obtain ⟨_, _, h⟩ := bind_ok h
  obtain ⟨k, hk, h⟩ := bind_ok h
  obtain ⟨r, hr, h⟩ := bind_ok h
  obtain ⟨b, hb, h⟩ := bind_ok h
  have hr1 := checkInteger_lower hr
  have hk0 : nf.asInt = some k := by
    unfold checkInteger at hk
    cases hv : nf.asInt with
    | none => simp only [hv] at hk; cases hk
    | some w =>
      simp only [hv] at hk
      split_ifs at hk
      rw [Except.ok.inj hk]
  cases b with
  | false =>
    obtain rfl := Except.ok.inj h
    refine ⟨⟨initArrays_shaped ?_, fun L hL => (by cases hL), ?_⟩, rfl⟩
    · dsimp only; omega
    · intro l hl tv ht
      exact initParams_ready hl ht
  | true =>
    rw [if_pos rfl] at h
    split at h
    · cases h
    · rename_i t hd
      obtain rfl := Except.ok.inj h
      obtain ⟨L, c, rfl, h1, h2⟩ := drawSampleSplitting_ready hv (by
        intro r i
        have := hw k hk0 r i
        show w.assign r i < if sp.vars.isSome then _ else k.toNat
        rw [hv, if_neg (by simp)]
        omega) hd
      refine ⟨⟨initArrays_shaped ?_, ?_, ?_⟩, rfl⟩
      · dsimp only; omega
      · intro L' hL'
        obtain rfl : L = L' := Option.some.inj hL'
        exact ⟨h1, h2⟩
      · intro l hl tv ht
        exact initParams_ready hl ht

/-- Assigned parameters have the right shape, whatever the argument. -/
theorem setNuisanceParams_ready {sp : Spec n P M} {s : MState n P M} (h : FitReady sp s) (l tv : String) (p : ParamArg P) :
    FitReady sp (setNuisanceParams sp s l tv p).1 ∧ (setNuisanceParams sp s l tv p).1.data = s.data := by
  unfold setNuisanceParams
  by_cases h1 : l ∉ sp.learners
  · rw [if_pos h1]
    exact ⟨h, rfl⟩
  rw [if_neg h1]
  by_cases h2 : tv ∉ s.data.d
  · rw [if_pos h2]
    exact ⟨h, rfl⟩
  · rw [if_neg h2]
    cases hp : paramValue s.nRep s.nFolds p with
    | error e => exact ⟨h, rfl⟩
    | ok v =>
      refine ⟨⟨⟨h.shaped.pos, h.shaped.nT, h.shaped.nR⟩, h.split, ?_⟩, rfl⟩
      intro l' hl' tv' ht'
      show ∃ v', (if l' = l ∧ tv' = tv then some v else s.params l' tv') = some v' ∧ _
      by_cases hc : l' = l ∧ tv' = tv
      · rw [if_pos hc]
        exact ⟨v, rfl, paramValue_shape hp⟩
      · rw [if_neg hc]
        exact h.params l' hl' tv' ht'

theorem setAll_ready {sp : Spec n P M} {tv : String} {arg : String → Except Exc (ParamArg P)} {s : MState n P M}
    (h : FitReady sp s) (ls : List String) : FitReady sp (setAll sp tv arg s ls).1 := by
  induction ls generalizing s with
  | nil => exact h
  | cons l ls ih =>
    unfold setAll
    cases arg l with
    | error e => exact h
    | ok a =>
      dsimp only
      have h1 := (setNuisanceParams_ready h l tv a).1
      rcases hq : setNuisanceParams sp s l tv a with ⟨t, (e | u)⟩
      · rw [hq] at h1
        exact h1
      · rw [hq] at h1
        exact ih h1

theorem activate_ready {F : Frame n} {sp : Spec n P M} {s : MState n P M} (h : FitReady sp s) {j : ℕ} {D : DataState n}
    (ha : activate F s.data j = .ok D) : FitReady sp { s with data := D } := by
  have hd : D.d = s.data.d := (activate_frame (s := s) ha).data.d
  refine ⟨⟨h.shaped.pos, ?_, h.shaped.nR⟩, h.split, ?_⟩
  · show (s.heap s.arr).nT = D.d.length
    rw [hd]
    exact h.shaped.nT
  · show ∀ l ∈ sp.learners, ∀ tv ∈ D.d, _
    rw [hd]
    exact h.params

theorem tuneFolds_ready {F : Frame n} {sp : Spec n P M} {f : Search n P} {b : Bool} {js : List ℕ} {s : MState n P M}
    (h : FitReady sp s) (t : TuneTable P) : FitReady sp (tuneFolds F sp f b s js t).1 := by
  induction js generalizing s t with
  | nil => exact h
  | cons j js ih =>
    unfold tuneFolds
    cases ha : activate F s.data j with
    | error e => exact h
    | ok D =>
      dsimp only
      have h1 : FitReady sp (tuneTreatFolds sp f b { s with data := D } j t).1 := by
        have h0 := activate_ready h ha
        unfold tuneTreatFolds
        generalize ({ s with data := D } : MState n P M) = u at h0
        rcases tuneReps (fun k => f j k u.data) u j (List.range u.nRep) t with e | ⟨t', _ | ⟨r, rs⟩⟩
        · exact h0
        · dsimp only
          split_ifs <;> exact h0
        · dsimp only
          split_ifs
          · have h2 := setAll_ready (tv := u.data.d.getD j "") (arg := foldArg (r :: rs)) h0 (tuneKeys r)
            rcases hq : setAll sp (u.data.d.getD j "") (foldArg (r :: rs)) u (tuneKeys r) with ⟨v, (e | x)⟩ <;>
            · rw [hq] at h2
              exact h2
          · exact h0
      rcases hq : tuneTreatFolds sp f b { s with data := D } j t with ⟨u, (e | t')⟩
      · rw [hq] at h1
        exact h1
      · rw [hq] at h1
        exact ih h1 _

theorem tuneGlobal_ready {F : Frame n} {sp : Spec n P M} {f : Search n P} {b : Bool} {js : List ℕ} {s : MState n P M}
    (h : FitReady sp s) (acc : List (TuneRes P)) : FitReady sp (tuneGlobal F sp f b s js acc).1 := by
  induction js generalizing s acc with
  | nil => exact h
  | cons j js ih =>
    unfold tuneGlobal
    cases ha : activate F s.data j with
    | error e => exact h
    | ok D =>
      dsimp only
      have h1 : FitReady sp (tuneTreatGlobal sp f b { s with data := D } j).1 := by
        have h0 := activate_ready h ha
        unfold tuneTreatGlobal
        generalize ({ s with data := D } : MState n P M) = u at h0
        rcases f j 0 u.data [⟨List.finRange n, List.finRange n⟩] with e | r
        · exact h0
        · dsimp only
          split_ifs
          · have h2 := setAll_ready (tv := u.data.d.getD j "") (arg := globalArg r) h0 (tuneKeys r)
            rcases hq : setAll sp (u.data.d.getD j "") (globalArg r) u (tuneKeys r) with ⟨v, (e | x)⟩ <;>
            · rw [hq] at h2
              exact h2
          · exact h0
      rcases hq : tuneTreatGlobal sp f b { s with data := D } j with ⟨u, (e | t')⟩
      · rw [hq] at h1
        exact h1
      · rw [hq] at h1
        exact ih h1 _

/-- Tuning with any search leaves the object ready, also when it fails half-way. -/
theorem tune_ready {F : Frame n} {sp : Spec n P M} {f : Search n P} {a b : Bool} {s : MState n P M} (h : FitReady sp s) :
    FitReady sp (tune F sp f a b s).1 := by
  unfold tune
  cases a with
  | true =>
    rw [if_pos rfl]
    have h1 := tuneFolds_ready (F := F) (f := f) (b := b) (js := List.range s.data.d.length) h
      ⟨s.data.d.length, List.replicate s.nRep none⟩
    rcases hq : tuneFolds F sp f b s (List.range s.data.d.length) ⟨s.data.d.length, List.replicate s.nRep none⟩ with
      ⟨u, (e | t)⟩ <;>
    · rw [hq] at h1
      exact h1
  | false =>
    rw [if_neg (by simp)]
    have h1 := tuneGlobal_ready (F := F) (f := f) (b := b) (js := List.range s.data.d.length) h []
    rcases hq : tuneGlobal F sp f b s (List.range s.data.d.length) [] with ⟨u, (e | t)⟩ <;>
    · rw [hq] at h1
      exact h1

/-- Every call keeps it ready. -/
theorem mstep_ready (E : Ext) (F : Frame n) {sp : Spec n P M} (hv : sp.vars = none) {s : MState n P M} (h : FitReady sp s)
    {o : MOp n P} (ho : PlainOp s o) :
    FitReady sp (mstep E F sp s o).1 ∧ SameData s.data (mstep E F sp s o).1.data := by
  cases o with
  | fit a =>
    obtain ⟨h1, -, -, h2, -, -⟩ := fit_frame F sp s a
    exact ⟨h.of_same h1 h2, h1.data⟩
  | draw w =>
    show FitReady sp (drawSampleSplitting sp s w).1 ∧ SameData s.data (drawSampleSplitting sp s w).1.data
    rcases hq : drawSampleSplitting sp s w with ⟨t, (e | u)⟩
    · have : t = s := by
        unfold drawSampleSplitting at hq
        cases hd : drawnSplit sp s w with
        | error e => rw [hd] at hq; cases hq; rfl
        | ok q => rw [hd] at hq; cases hq
      rw [this]
      exact ⟨h, .refl _⟩
    · obtain ⟨L, c, rfl, h1, h2⟩ := drawSampleSplitting_ready hv ho hq
      refine ⟨⟨⟨h.shaped.pos, h.shaped.nT, h.shaped.nR⟩, ?_, h.params⟩, .refl _⟩
      intro L' hL'
      obtain rfl : L = L' := Option.some.inj hL'
      exact ⟨h1, h2⟩
  | setSplit a cl =>
    show FitReady sp (setSampleSplitting sp s a cl).1 ∧ SameData s.data (setSampleSplitting sp s a cl).1.data
    cases hq : (setSampleSplitting sp s a cl).2 with
    | error e =>
      rw [setSampleSplitting_error hq]
      exact ⟨h, .refl _⟩
    | ok u =>
      obtain ⟨l, nr, nf, c, h1, h2, h3⟩ := setSampleSplitting_ok hq
      obtain ⟨g1, g2, -, g4⟩ := C22_accepted_splits_valid n a l nr nf h1
      rw [h3]
      refine ⟨⟨initArrays_shaped ?_, ?_, ?_⟩, .refl _⟩
      · dsimp only; omega
      · intro L hL
        obtain rfl : l.map (fun r => r.map toFold) = L := Option.some.inj hL
        refine ⟨by rw [List.length_map]; exact g1, fun S hS => ?_⟩
        obtain ⟨rep, hrep, rfl⟩ := List.mem_map.1 hS
        obtain ⟨e1, e2⟩ := g4 rep hrep
        exact ⟨toFold_ready (e2.imp_right fun q => q.2.2), by rw [List.length_map]; exact e1⟩
      · intro l hl tv ht
        exact initParams_ready hl ht
  | setParams l tv p =>
    obtain ⟨h1, h2⟩ := setNuisanceParams_ready h l tv p
    exact ⟨h1, h2 ▸ .refl _⟩
  | tune f a b => exact ⟨tune_ready h, (tune_frame F sp f a b s).data⟩
  | infer o =>
    obtain ⟨h1, -⟩ := infer_frame E s o
    show FitReady sp (infer E s o).1 ∧ SameData s.data (infer E s o).1.data
    rw [h1]
    exact ⟨⟨⟨h.shaped.pos, h.shaped.nT, h.shaped.nR⟩, h.split, h.params⟩, .refl _⟩
  | data o => exact ho.elim

theorem mrun_ready (E : Ext) (F : Frame n) {sp : Spec n P M} (hv : sp.vars = none) {s : MState n P M} (h : FitReady sp s)
    {os : List (MOp n P)} (ho : PlainHistory E F sp s os) :
    FitReady sp (mrun E F sp s os) ∧ SameData s.data (mrun E F sp s os).data := by
  induction os generalizing s with
  | nil => exact ⟨h, .refl _⟩
  | cons o os ih =>
    obtain ⟨h1, h2⟩ := mstep_ready E F hv h ho.1
    obtain ⟨h3, h4⟩ := ih h1 ho.2
    exact ⟨h3, h2.trans h4⟩

/-! ## The fit succeeds -/

/-- What a cell of repetition `q` and treatment `tv` looks like in a fit of a ready model; `D` is the data object with
`tv` as active treatment. -/
structure CellOf (D : DataState n) (tv : String) (q : ℕ) (S : List (Fold n)) (c : CellIn n P) : Prop where
  data : c.data = D
  treat : c.treat = tv
  smpls : c.smpls = S
  cluster : c.cluster = none
  rep : c.rep = q
  params : ∀ l, (c.paramsOf l).Fits S.length

theorem toParams_fits {q : Option (List P)} {k : ℕ} (h : ∀ ps, q = some ps → ps.length = k) : (toParams q).Fits k := by
  intro l hl
  cases q with
  | none => cases hl
  | some l' =>
    cases hl
    exact h _ rfl

/-- The loops succeed or end with the exception of a cell. -/
theorem fitLoop_or {F : Frame n} {sp : Spec n P M} {ext : ExtArg} {p m : Bool} {e : Exc} {s₀ : MState n P M}
    (L : List (ℕ × ℕ)) (h : ∀ c ∈ L, ∀ t, FitFrame s₀ t → (fitCell F sp ext p m t c).2 = .ok () ∨
      (fitCell F sp ext p m t c).2 = .error e) {s : MState n P M} (hs : FitFrame s₀ s) :
    (fitLoop F sp ext p m s L).2 = .ok () ∨ (fitLoop F sp ext p m s L).2 = .error e := by
  induction L generalizing s with
  | nil => exact .inl rfl
  | cons c L ih =>
    have h1 := h c (List.mem_cons_self ..) s hs
    have h2 := fitCell_frame F sp ext p m s c
    unfold fitLoop
    rcases hq : fitCell F sp ext p m s c with ⟨t, (e' | u)⟩
    · rw [hq] at h1
      rcases h1 with h1 | h1
      · cases h1
      · exact .inr h1
    · rw [hq] at h2
      exact ih (fun c' hc' => h c' (List.mem_cons_of_mem _ hc')) (hs.trans h2)

/-- A fit of a ready model succeeds, or ends with the exception of a cell, if every treatment can be activated and every
cell can be estimated or raises this exception. -/
theorem ready_fit_or {F : Frame n} {sp : Spec n P M} (e₀ : Exc) (hv : sp.vars = none)
    (hsig : sp.sensImpl = true → ∀ c o, sp.est c = .ok o → 0 ≤ o.sens.sigma2) {s : MState n P M} (h : FitReady sp s)
    {L : List (List (Fold n))} (hL : s.smpls = some L) {a : FitArgs} {p m : Bool}
    (hc : checkFit sp s a = .ok (p, m)) (hx : ∀ tv ∈ s.data.d, a.ext.Covers tv)
    (hact : 1 < s.data.d.length → ∀ tv ∈ s.data.d, ∃ D', setXD F s.data tv = .ok D')
    (hcell : ∀ tv ∈ s.data.d, ∀ q S c, L[q]? = some S → FoldsOk S → CellOf (activeData F s.data tv) tv q S c →
      setExt n a.ext sp.learners tv q = .ok c.ext → c.wantModels = m →
      (∃ o r, sp.est c = .ok o ∧ calcLoss sp o.preds o.targets = .ok r) ∨ sp.est c = .error e₀) :
    (fit F sp s a).2 = .ok () ∨ (fit F sp s a).2 = .error e₀ := by
  suffices hl : (fitLoop F sp a.ext p m (initFit sp s p m) (cellOrder s.nRep s.data.d.length)).2 = .ok () ∨
      (fitLoop F sp a.ext p m (initFit sp s p m) (cellOrder s.nRep s.data.d.length)).2 = .error e₀ by
    rcases hl with hl | hl
    · exact .inl (fit_ok_of_loop' hsig h.shaped hc hl)
    · right
      unfold fit
      rw [hc]
      dsimp only
      rcases hq : fitLoop F sp a.ext p m (initFit sp s p m) (cellOrder s.nRep s.data.d.length) with ⟨t, (e | u)⟩
      · rw [hq] at hl
        exact hl
      · rw [hq] at hl
        cases hl
  refine fitLoop_or (s₀ := s) _ ?_ (initFit_frame _ s p m)
  rintro ⟨q, j⟩ hq t ht
  obtain ⟨hqr, hj1⟩ := mem_cellOrder.1 hq
  obtain ⟨tv, htv, hjt⟩ : ∃ tv ∈ s.data.d, s.data.d[j]? = some tv :=
    ⟨_, List.getElem_mem hj1, List.getElem?_eq_getElem hj1⟩
  set D := activeData F s.data tv with hD
  have hDd : D.d = s.data.d := (activeData_same F s.data tv).d
  obtain ⟨hLl, hLS⟩ := h.split L hL
  have hLq : L[q]? = some (L[q]'(by omega)) := List.getElem?_eq_getElem (by omega)
  obtain ⟨hS, hSl⟩ := hLS _ (List.getElem_mem (n := q) (by omega))
  generalize L[q]'(by omega) = S at *
  have hact : activate F t.data j = .ok D := by
    rw [activate_congr F ht.settings.data]
    unfold activate
    rw [hjt]
    dsimp only
    split_ifs with hl
    · obtain ⟨D', hD'⟩ := hact hl tv htv
      rw [hD', hD, (setXD_ok hD').2]
      unfold activeData
      rw [if_pos hl]
    · rw [hD]
      unfold activeData
      rw [if_neg hl]
  obtain ⟨e, he⟩ : ∃ e, setExt n a.ext sp.learners tv q = .ok e := by
    have hce : checkFitExt sp s a.ext = .ok () := by
      unfold checkFit at hc
      obtain ⟨_, _, hc⟩ := bind_ok hc
      obtain ⟨_, _, hc⟩ := bind_ok hc
      obtain ⟨_, _, hc⟩ := bind_ok hc
      obtain ⟨_, hc, _⟩ := bind_ok hc
      exact hc
    unfold checkFitExt at hce
    split_ifs at hce with h1 h2
    · obtain ⟨l, hl, -⟩ := C28_addressed_partial hce tv (hx tv htv) q
      exact ⟨l, hl⟩
    · have : a.ext = .none := by
        cases hae : a.ext with
        | none => rfl
        | notDict => rw [hae] at h2; simp [ExtArg.given] at h2
        | dict i => rw [hae] at h2; simp [ExtArg.given] at h2
      rw [this]
      obtain ⟨l, hl, -⟩ := C28_addressed_partial (n := n) (treats := []) (learners := sp.learners) (nRep := s.nRep) (e := .none)
        rfl tv trivial q
      exact ⟨l, hl⟩
  have e1 : repSmpls { t with data := D } q = .ok S := by
    unfold repSmpls
    have : t.smpls = some L := ht.settings.smpls.trans hL
    simp only [this, hLq]
  have e2 : repCluster sp { t with data := D } S q = .ok none := by
    unfold repCluster
    rw [hv]
  have hpar : ∀ Ls : List String, (∀ l ∈ Ls, l ∈ sp.learners) → ∃ ps, Ls.mapM (getParams { t with data := D } tv q) = .ok ps ∧
      ∀ l, (toParams (lookupKey l ps).join).Fits S.length := by
    intro Ls hLs
    induction Ls with
    | nil => exact ⟨[], rfl, fun l => toParams_fits fun ps hps => by cases hps⟩
    | cons l Ls ih =>
      obtain ⟨ps, hps, hfit⟩ := ih fun l' hl' => hLs l' (List.mem_cons_of_mem _ hl')
      obtain ⟨v, hv1, hv2, hv3⟩ := h.params l (hLs l (List.mem_cons_self ..)) tv htv
      have hq1 : v[q]? = some (v[q]'(by omega)) := List.getElem?_eq_getElem (by omega)
      have hg : getParams { t with data := D } tv q l = .ok (l, v[q]'(by omega)) := by
        unfold getParams
        have : t.params l tv = some v := by rw [ht.settings.params]; exact hv1
        simp only [this, hq1]
      refine ⟨(l, v[q]'(by omega)) :: ps, ?_, fun l' => ?_⟩
      · simp only [List.mapM_cons, hg, hps, bind, Except.bind, pure, Except.pure]
      · by_cases hll : l = l'
        · subst hll
          refine toParams_fits fun ps hps => ?_
          have : some ps = v[q]'(by omega) := by
            rw [← hps]
            simp [lookupKey]
          rw [hSl]
          exact hv3 ps (this ▸ List.getElem_mem _)
        · have : lookupKey l' ((l, v[q]'(by omega)) :: ps) = lookupKey l' ps := by
            simp [lookupKey, hll]
          rw [this]
          exact hfit l'
  obtain ⟨ps, hps, hfit⟩ := hpar sp.learners fun _ hl => hl
  have hin : cellIn sp { t with data := D } a.ext m tv q = .ok ⟨D, tv, S, none, ps, e, t.start, m, q⟩ := by
    unfold cellIn
    rw [he, e1]
    simp only [bind, Except.bind]
    rw [e2, hps]
    rfl
  have hd0 : D.d.getD j "" = tv := by rw [hDd, List.getD_eq_getElem?_getD, hjt]; rfl
  unfold fitCell
  simp only [hact]
  rw [hd0, hin]
  rcases hcell tv htv q S ⟨D, tv, S, none, ps, e, t.start, m, q⟩ hLq hS ⟨rfl, rfl, rfl, rfl, rfl, hfit⟩ he rfl with
    ⟨o, r, ho, hr⟩ | ho
  · left
    simp only [Except.bind, ho]
    unfold storeCell
    rw [if_pos, hr]
    refine ⟨?_, ?_⟩
    · show j < (t.heap t.arr).nT
      rw [ht.settings.nT, h.shaped.nT]; exact hj1
    · show q < (t.heap t.arr).nR
      rw [ht.settings.nR, h.shaped.nR]; exact hqr
  · right
    simp only [Except.bind, ho]

/-- A fit of a ready model succeeds if every treatment can be activated and every cell can be estimated. -/
theorem ready_fit_many {F : Frame n} {sp : Spec n P M} (hv : sp.vars = none)
    (hsig : sp.sensImpl = true → ∀ c o, sp.est c = .ok o → 0 ≤ o.sens.sigma2) {s : MState n P M} (h : FitReady sp s)
    {L : List (List (Fold n))} (hL : s.smpls = some L) {a : FitArgs} {p m : Bool}
    (hc : checkFit sp s a = .ok (p, m)) (hx : ∀ tv ∈ s.data.d, a.ext.Covers tv)
    (hact : 1 < s.data.d.length → ∀ tv ∈ s.data.d, ∃ D', setXD F s.data tv = .ok D')
    (hcell : ∀ tv ∈ s.data.d, ∀ q S c, L[q]? = some S → FoldsOk S → CellOf (activeData F s.data tv) tv q S c →
      setExt n a.ext sp.learners tv q = .ok c.ext → c.wantModels = m →
      ∃ o r, sp.est c = .ok o ∧ calcLoss sp o.preds o.targets = .ok r) :
    (fit F sp s a).2 = .ok () := by
  have key : ∀ e, (fit F sp s a).2 = .ok () ∨ (fit F sp s a).2 = .error e := fun e =>
    ready_fit_or e hv hsig h hL hc hx hact fun tv ht q S c h1 h2 h3 h4 h5 => .inl (hcell tv ht q S c h1 h2 h3 h4 h5)
  rcases key .valueError with h1 | h1
  · exact h1
  · rcases key .typeError with h2 | h2
    · exact h2
    · rw [h1] at h2
      cases h2

theorem ready_fit_args {F : Frame n} {sp : Spec n P M} (hv : sp.vars = none)
    (hsig : sp.sensImpl = true → ∀ c o, sp.est c = .ok o → 0 ≤ o.sens.sigma2) {s : MState n P M} (h : FitReady sp s)
    {tv : String} (hd : s.data.d = [tv]) {L : List (List (Fold n))} (hL : s.smpls = some L) {a : FitArgs} {p m : Bool}
    (hc : checkFit sp s a = .ok (p, m)) (hx : a.ext.Covers tv)
    (hcell : ∀ q S c, L[q]? = some S → FoldsOk S → CellOf s.data tv q S c → setExt n a.ext sp.learners tv q = .ok c.ext →
      c.wantModels = m → ∃ o r, sp.est c = .ok o ∧ calcLoss sp o.preds o.targets = .ok r) :
    (fit F sp s a).2 = .ok () := by
  have hD : activeData F s.data tv = s.data := by
    unfold activeData
    rw [if_neg (by rw [hd]; simp)]
  have hm : ∀ tv' ∈ s.data.d, tv' = tv := by
    rw [hd]
    simp
  refine ready_fit_many hv hsig h hL hc (fun tv' ht => hm tv' ht ▸ hx) (fun hl => ?_) fun tv' ht => ?_
  · rw [hd] at hl
    simp at hl
  · rw [hm tv' ht, hD]
    exact hcell

/-! ## C63 -/

/-- Arguments of `fit` of the documented types: `n_jobs_cv` is `None` or an integer, the two switches are booleans,
external predictions are absent or a well-formed dictionary with an entry for the treatment. -/
structure ValidArgs (sp : Spec n P M) (tv : String) (nRep : ℕ) (a : FitArgs) : Prop where
  jobs : a.nJobs = .none ∨ ∃ k, a.nJobs.asInt = some k
  preds : ∃ b, a.storePredictions = .bool b
  models : ∃ b, a.storeModels = .bool b
  ext : a.ext = .none ∨ (sp.extImpl = true ∧ a.ext.WellFormed [tv] sp.learners n nRep ∧ a.ext.Covers tv)

theorem ValidArgs.check {sp : Spec n P M} {s : MState n P M} {tv : String} {a : FitArgs} (h : ValidArgs sp tv s.nRep a)
    (hd : s.data.d = [tv]) : (∃ p m, checkFit sp s a = .ok (p, m)) ∧ a.ext.Covers tv := by
  have h1 : checkJobs a.nJobs = .ok () := by
    rcases h.jobs with h | ⟨k, h⟩
    · rw [h]; rfl
    · unfold checkJobs
      split
      · rfl
      · rw [h]
  obtain ⟨p, hp⟩ := h.preds
  obtain ⟨m, hm⟩ := h.models
  have h2 : checkFitExt sp s a.ext = .ok () := by
    unfold checkFitExt
    rw [hd]
    rcases h.ext with h | ⟨h, h', -⟩
    · rw [h]
      split_ifs with h3 h4
      · rfl
      · cases h4
      · rfl
    · rw [if_pos h]
      exact (C28_accepted_iff _ _ _ _ _).2 h'
  refine ⟨⟨p, m, ?_⟩, ?_⟩
  · simp only [checkFit, h1, hp, hm, checkBool, h2, bind, Except.bind, pure, Except.pure]
  · rcases h.ext with h | ⟨-, -, h⟩
    · rw [h]; trivial
    · exact h

/-- The object `s` was created from the data `D` with the single treatment `tv` and then went through any history of
fits, inference calls, draws, explicitly set splits and parameter assignments, some of which may have raised.
Stratified draws assign every observation to one of the folds. -/
def Reached (E : Ext) (F : Frame n) (sp : Spec n P M) (D : DataState n) (tv : String) (s : MState n P M) : Prop :=
  D.d = [tv] ∧ ∃ start nf nr dr w s₀ os, initModel sp D start nf nr dr w = .ok s₀ ∧
    (∀ K, nf.asInt = some K → ∀ r i, (w.assign r i : ℤ) < K) ∧ PlainHistory E F sp s₀ os ∧ s = mrun E F sp s₀ os

theorem Reached.ready {E : Ext} {F : Frame n} {sp : Spec n P M} (hv : sp.vars = none) {D : DataState n} {tv : String}
    {s : MState n P M} (h : Reached E F sp D tv s) : FitReady sp s ∧ s.data = D := by
  obtain ⟨hd, start, nf, nr, dr, w, s₀, os, h1, h2, h3, rfl⟩ := h
  obtain ⟨g1, g2⟩ := initModel_ready hv h1 h2
  obtain ⟨g3, g4⟩ := mrun_ready E F hv g1 h3
  refine ⟨g3, (g4.active ?_).trans g2⟩
  rw [g2, hd]
  exact le_rfl

/-- Every learner contains exactly one of the keys in its name. -/
def OneKey (keys : List (String × Bool)) (learners : List String) : Prop :=
  ∀ l ∈ learners, (keys.filter fun q => decide (q.1.toList <:+: l.toList)).length = 1

instance (keys : List (String × Bool)) (learners : List String) : Decidable (OneKey keys learners) :=
  inferInstanceAs (Decidable (∀ l ∈ learners, _))

/-- The general statement: if every cell can be estimated, the fit succeeds.  The external predictions of a cell and the
request for fitted models are those of the call. -/
theorem C63_of_cells_args {E : Ext} {F : Frame n} {sp : Spec n P M} (hv : sp.vars = none)
    (hsig : sp.sensImpl = true → ∀ c o, sp.est c = .ok o → 0 ≤ o.sens.sigma2) {D : DataState n} {tv : String}
    {s : MState n P M} (h : Reached E F sp D tv s) {L : List (List (Fold n))} (hL : s.smpls = some L) {a : FitArgs}
    (ha : ValidArgs sp tv s.nRep a)
    (hcell : ∀ q S c, L[q]? = some S → FoldsOk S → CellOf D tv q S c → setExt n a.ext sp.learners tv q = .ok c.ext →
      a.storeModels = .bool c.wantModels → ∃ o, sp.est c = .ok o)
    (hkeys : OneKey sp.keys sp.learners)
    (hloss : ∀ c o, sp.est c = .ok o → ∀ l ∈ sp.learners, (lookupKey l o.preds).isSome ∧ (lookupKey l o.targets).isSome) :
    (fit F sp s a).2 = .ok () := by
  obtain ⟨h1, h2⟩ := h.ready hv
  have hd : s.data.d = [tv] := by rw [h2]; exact h.1
  obtain ⟨⟨p, m, hc⟩, hx⟩ := ha.check hd
  have hm : a.storeModels = .bool m := by
    obtain ⟨b, hb⟩ := ha.models
    obtain ⟨p', hp'⟩ := ha.preds
    unfold checkFit at hc
    rw [hb, hp'] at hc
    obtain ⟨_, _, hc⟩ := bind_ok hc
    obtain ⟨_, h3, hc⟩ := bind_ok hc
    obtain ⟨m', h4, hc⟩ := bind_ok hc
    obtain ⟨_, _, hc⟩ := bind_ok hc
    obtain rfl : b = m' := Except.ok.inj h4
    rw [hb, (Prod.mk.inj (Except.ok.inj hc)).2]
  refine ready_fit_args hv hsig h1 hd hL hc hx fun q S c hq hS hcl he hw => ?_
  obtain ⟨o, ho⟩ := hcell q S c hq hS (h2 ▸ hcl) he (by rw [hw]; exact hm)
  obtain ⟨r, hr⟩ := calcLoss_total fun l hl => ⟨hkeys l hl, hloss c o ho l hl⟩
  exact ⟨o, r, ho, hr⟩

/-- The same if the estimation of a cell succeeds for any external predictions. -/
theorem C63_of_cells {E : Ext} {F : Frame n} {sp : Spec n P M} (hv : sp.vars = none)
    (hsig : sp.sensImpl = true → ∀ c o, sp.est c = .ok o → 0 ≤ o.sens.sigma2) {D : DataState n} {tv : String}
    {s : MState n P M} (h : Reached E F sp D tv s) {L : List (List (Fold n))} (hL : s.smpls = some L) {a : FitArgs}
    (ha : ValidArgs sp tv s.nRep a)
    (hcell : ∀ q S c, L[q]? = some S → FoldsOk S → CellOf D tv q S c → ∃ o, sp.est c = .ok o)
    (hkeys : OneKey sp.keys sp.learners)
    (hloss : ∀ c o, sp.est c = .ok o → ∀ l ∈ sp.learners, (lookupKey l o.preds).isSome ∧ (lookupKey l o.targets).isSome) :
    (fit F sp s a).2 = .ok () :=
  C63_of_cells_args hv hsig h hL ha (fun q S c hq hS hcl _ _ => hcell q S c hq hS hcl) hkeys hloss

theorem CellOf.plain {D : DataState n} (hy : D.binOut = false) {tv : String} {q : ℕ} {S : List (Fold n)} {c : CellIn n P}
    (h : CellOf D tv q S c) (hS : FoldsOk S) : PlainCell c where
  split := by rw [h.smpls]; exact hS
  params := by rw [h.smpls]; exact h.params
  out := by rw [h.data]; exact hy

/-- The values of the treatment, the instrument, … as numbers. -/
def nums (v : Fin n → Cell) (i : Fin n) : ℝ := (v i).val

theorem CellOf.d {D : DataState n} {tv : String} {q : ℕ} {S : List (Fold n)} {c : CellIn n P} (h : CellOf D tv q S c) :
    c.d = nums D.dv := by
  unfold CellIn.d nums
  rw [h.data]

theorem sensOf_sigma {r : Fin n → ℝ} (a b : Fin n → ℝ) : 0 ≤ (sensOf (fun i => r i ^ 2) a b).sigma2 := mean_sq_nonneg r

theorem irm_keys : ∀ b : Bool, OneKey [("ml_g", b), ("ml_m", true)] ["ml_g0", "ml_g1", "ml_m"] := by decide

theorem apo_keys : ∀ b : Bool, OneKey [("ml_g", b), ("ml_m", true)] ["ml_g_d_lvl0", "ml_g_d_lvl1", "ml_m"] := by decide

theorem iivm_keys : ∀ b : Bool,
    OneKey [("ml_g", b), ("ml_m", true), ("ml_r", true)] ["ml_g0", "ml_g1", "ml_m", "ml_r0", "ml_r1"] := by decide

theorem didE_keys : ∀ b : Bool, OneKey [("ml_g", b)] ["ml_g0", "ml_g1"] := by decide

theorem cs_keys : ∀ b : Bool,
    OneKey [("ml_g", b), ("ml_m", true)] ["ml_g_d0_t0", "ml_g_d0_t1", "ml_g_d1_t0", "ml_g_d1_t1", "ml_m"] := by decide

theorem csE_keys : ∀ b : Bool, OneKey [("ml_g", b)] ["ml_g_d0_t0", "ml_g_d0_t1", "ml_g_d1_t0", "ml_g_d1_t1"] := by decide

theorem ssm_keys : ∀ b : Bool,
    OneKey [("ml_g", b), ("ml_pi", true), ("ml_m", true)] ["ml_g_d0", "ml_g_d1", "ml_pi", "ml_m"] := by decide

theorem pliv_keys : OneKey [("ml_l", false), ("ml_m", false), ("ml_r", false)] ["ml_l", "ml_m", "ml_r"] := by decide

theorem plivI_keys : OneKey [("ml_l", false), ("ml_m", false), ("ml_r", false), ("ml_g", false)]
    ["ml_l", "ml_m", "ml_r", "ml_g"] := by decide

theorem plr_keys : ∀ b : Bool, OneKey [("ml_l", false), ("ml_m", b)] ["ml_l", "ml_m"] := by decide

theorem plrI_keys : ∀ b : Bool, OneKey [("ml_l", false), ("ml_m", b), ("ml_g", false)] ["ml_l", "ml_m", "ml_g"] := by decide

/-- The results of one cell of a model object without trained models. -/
abbrev LinState (n : ℕ) (P : Type) := MState n P (Option (List (FittedModel P (List Cell))))

/-- IRM: a continuous outcome, a binary treatment both of whose values occur in every training set, and weights for
every repetition. -/
theorem C63_irm {E : Ext} {F : Frame n} {k : IrmClass n P} (hv : k.vars = none) (hg : k.gClassifier = false)
    (hm : k.ml_m.Compliant) {D : DataState n} (hy : D.binOut = false) (hb : BinaryTarget (nums D.dv)) {tv : String}
    {s : LinState n P} (h : Reached E F (irmSpec k) D tv s)
    {L : List (List (Fold n))} (hL : s.smpls = some L) (hf : ∀ S ∈ L, EveryFold S (fun _ => True) (nums D.dv))
    (hw : ∀ q < L.length, ∃ w : (Fin n → ℝ) × (Fin n → ℝ), k.weights.at q = .ok w) {a : FitArgs}
    (ha : ValidArgs (irmSpec k) tv s.nRep a) : (fit F (irmSpec k) s a).2 = .ok () := by
  refine C63_of_cells hv ?_ h hL ha ?_ (irm_keys k.gClassifier) ?_
  · intro _ c o ho
    obtain ⟨g0, -, ho⟩ := bind_ok ho
    obtain ⟨g1, -, ho⟩ := bind_ok ho
    obtain ⟨_, -, ho⟩ := bind_ok ho
    obtain ⟨m, -, ho⟩ := bind_ok ho
    obtain ⟨w, -, ho⟩ := bind_ok ho
    rw [← Except.ok.inj ho]
    exact sensOf_sigma _ _
  · intro q S c hq hS hc
    obtain ⟨w, hw⟩ := hw q (List.getElem?_eq_some_iff.1 hq).1
    refine irm_total (hc.plain hy hS) hg hm ?_ ?_ (w := w) (by rw [hc.rep]; exact hw)
    · rw [hc.d]; exact hb
    · rw [hc.d, hc.smpls]; exact hf S (List.mem_of_getElem? hq)
  · intro c o ho
    obtain ⟨g0, -, ho⟩ := bind_ok ho
    obtain ⟨g1, -, ho⟩ := bind_ok ho
    obtain ⟨_, -, ho⟩ := bind_ok ho
    obtain ⟨m, -, ho⟩ := bind_ok ho
    obtain ⟨w, -, ho⟩ := bind_ok ho
    rw [← Except.ok.inj ho]
    intro l hl
    simp only [irmSpec, List.mem_cons, List.not_mem_nil, or_false] at hl
    rcases hl with rfl | rfl | rfl <;> exact ⟨rfl, rfl⟩

open Classical in
/-- The indicator of a treatment level. -/
noncomputable def isLevel (v : ℝ) (d : Fin n → ℝ) (i : Fin n) : ℝ := if d i = v then 1 else 0

/-- APO: every training set has observations at the level and at other levels. -/
theorem C63_apo {E : Ext} {F : Frame n} {k : ApoClass n P} (hv : k.vars = none) (hg : k.gClassifier = false)
    (hm : k.ml_m.Compliant) {D : DataState n} (hy : D.binOut = false) (hb : BinaryTarget (isLevel k.level (nums D.dv)))
    {tv : String} {s : LinState n P} (h : Reached E F (apoSpec k) D tv s)
    {L : List (List (Fold n))} (hL : s.smpls = some L)
    (hf : ∀ S ∈ L, EveryFold S (fun _ => True) (isLevel k.level (nums D.dv)))
    (hw : ∀ q < L.length, ∃ w : (Fin n → ℝ) × (Fin n → ℝ), k.weights.at q = .ok w) {a : FitArgs}
    (ha : ValidArgs (apoSpec k) tv s.nRep a) : (fit F (apoSpec k) s a).2 = .ok () := by
  refine C63_of_cells hv ?_ h hL ha ?_ (apo_keys k.gClassifier) ?_
  · intro _ c o ho
    obtain ⟨g1, -, ho⟩ := bind_ok ho
    obtain ⟨_, -, ho⟩ := bind_ok ho
    obtain ⟨g0, -, ho⟩ := bind_ok ho
    obtain ⟨_, -, ho⟩ := bind_ok ho
    obtain ⟨m, -, ho⟩ := bind_ok ho
    obtain ⟨w, -, ho⟩ := bind_ok ho
    rw [← Except.ok.inj ho]
    exact sensOf_sigma _ _
  · intro q S c hq hS hc
    obtain ⟨w, hw⟩ := hw q (List.getElem?_eq_some_iff.1 hq).1
    have ht : k.treated c = isLevel k.level (nums D.dv) := by
      unfold ApoClass.treated isLevel
      rw [hc.d]
    refine apo_total (hc.plain hy hS) hg hm ?_ ?_ (w := w) (by rw [hc.rep]; exact hw)
    · rw [ht]; exact hb
    · rw [ht, hc.smpls]; exact hf S (List.mem_of_getElem? hq)
  · intro c o ho
    obtain ⟨g1, -, ho⟩ := bind_ok ho
    obtain ⟨_, -, ho⟩ := bind_ok ho
    obtain ⟨g0, -, ho⟩ := bind_ok ho
    obtain ⟨_, -, ho⟩ := bind_ok ho
    obtain ⟨m, -, ho⟩ := bind_ok ho
    obtain ⟨w, -, ho⟩ := bind_ok ho
    rw [← Except.ok.inj ho]
    intro l hl
    simp only [apoSpec, List.mem_cons, List.not_mem_nil, or_false] at hl
    rcases hl with rfl | rfl | rfl <;> exact ⟨rfl, rfl⟩

/-- IIVM: a binary instrument both of whose values occur in every training set; for included subgroups also both
treatment values among the training observations with the corresponding instrument. -/
theorem C63_iivm {E : Ext} {F : Frame n} {k : IivmClass n P} (hv : k.vars = none) (hg : k.gClassifier = false)
    (hm : k.ml_m.Compliant) (hr : k.ml_r.Compliant) {D : DataState n} (hy : D.binOut = false) (hb : BinaryTarget (nums D.dv))
    {z : Fin n → Cell} (hz : D.zv = some [z]) (hbz : BinaryTarget (nums z))
    {tv : String} {s : LinState n P} (h : Reached E F (iivmSpec k) D tv s)
    {L : List (List (Fold n))} (hL : s.smpls = some L) (hf : ∀ S ∈ L, EveryFold S (fun _ => True) (nums z))
    (h0 : k.alwaysTakers = true → ∀ S ∈ L, EveryFold S (fun i => nums z i = 0) (nums D.dv))
    (h1 : k.neverTakers = true → ∀ S ∈ L, EveryFold S (fun i => nums z i = 1) (nums D.dv)) {a : FitArgs}
    (ha : ValidArgs (iivmSpec k) tv s.nRep a) : (fit F (iivmSpec k) s a).2 = .ok () := by
  refine C63_of_cells hv ?_ h hL ha ?_ (iivm_keys k.gClassifier) ?_
  · intro hs
    cases hs
  · intro q S c hq hS hc
    have hi : c.instr = .ok (nums z) := by
      unfold CellIn.instr
      rw [hc.data, hz]
      rfl
    have hmem := List.mem_of_getElem? hq
    refine iivm_total (hc.plain hy hS) hg hm hr hi ?_ hbz ?_ ?_ ?_
    · rw [hc.d]; exact hb
    · rw [hc.smpls]; exact hf S hmem
    · intro ht; rw [hc.d, hc.smpls]; exact h0 ht S hmem
    · intro ht; rw [hc.d, hc.smpls]; exact h1 ht S hmem
  · intro c o ho
    obtain ⟨z, -, ho⟩ := bind_ok ho
    obtain ⟨g0, -, ho⟩ := bind_ok ho
    obtain ⟨_, -, ho⟩ := bind_ok ho
    obtain ⟨g1, -, ho⟩ := bind_ok ho
    obtain ⟨_, -, ho⟩ := bind_ok ho
    obtain ⟨m, -, ho⟩ := bind_ok ho
    obtain ⟨r0, -, ho⟩ := bind_ok ho
    obtain ⟨r1, -, ho⟩ := bind_ok ho
    rw [← Except.ok.inj ho]
    intro l hl
    simp only [iivmSpec, List.mem_cons, List.not_mem_nil, or_false] at hl
    rcases hl with rfl | rfl | rfl | rfl | rfl <;> exact ⟨rfl, rfl⟩

/-- Difference in differences. -/
theorem C63_did {E : Ext} {F : Frame n} {k : DidClass n P} (hv : k.vars = none) (hg : k.gClassifier = false)
    (hm : k.ml_m.Compliant) {D : DataState n} (hy : D.binOut = false) (hb : BinaryTarget (nums D.dv)) {tv : String}
    {s : LinState n P} (h : Reached E F (didSpec k) D tv s)
    {L : List (List (Fold n))} (hL : s.smpls = some L) (hf : ∀ S ∈ L, EveryFold S (fun _ => True) (nums D.dv)) {a : FitArgs}
    (ha : ValidArgs (didSpec k) tv s.nRep a) : (fit F (didSpec k) s a).2 = .ok () := by
  refine C63_of_cells hv ?_ h hL ha ?_ ?_ ?_
  · intro _ c o ho
    obtain ⟨g0, -, ho⟩ := bind_ok ho
    obtain ⟨g1, -, ho⟩ := bind_ok ho
    obtain ⟨m, -, ho⟩ := bind_ok ho
    rw [← Except.ok.inj ho]
    exact sensOf_sigma _ _
  · intro q S c hq hS hc
    refine (did_total (hc.plain hy hS) hg hm ?_ ?_).1
    · rw [hc.d]; exact hb
    · rw [hc.d, hc.smpls]; exact hf S (List.mem_of_getElem? hq)
  · unfold didSpec DidClass.keys
    dsimp only
    cases k.score
    · exact irm_keys k.gClassifier
    · exact didE_keys k.gClassifier
  · intro c o ho
    obtain ⟨g0, -, ho⟩ := bind_ok ho
    obtain ⟨g1, -, ho⟩ := bind_ok ho
    obtain ⟨m, -, ho⟩ := bind_ok ho
    rw [← Except.ok.inj ho]
    intro l hl
    have hl' : l ∈ ["ml_g0", "ml_g1", "ml_m"] := by
      unfold didSpec at hl
      cases hs : k.score with
      | observational => simpa [hs] using hl
      | experimental =>
        have : l = "ml_g0" ∨ l = "ml_g1" := by simpa [hs] using hl
        rcases this with rfl | rfl <;> simp
    simp only [List.mem_cons, List.not_mem_nil, or_false] at hl'
    rcases hl' with rfl | rfl | rfl <;> exact ⟨rfl, rfl⟩

/-- Difference in differences with repeated cross-sections. -/
theorem C63_didcs {E : Ext} {F : Frame n} {k : DidClass n P} (hv : k.vars = none) (hg : k.gClassifier = false)
    (hm : k.ml_m.Compliant) {D : DataState n} (hy : D.binOut = false) (hb : BinaryTarget (nums D.dv))
    {t : Fin n → Cell} (ht : D.tv = some t) {tv : String}
    {s : LinState n P} (h : Reached E F (csSpec k) D tv s)
    {L : List (List (Fold n))} (hL : s.smpls = some L) (hf : ∀ S ∈ L, EveryFold S (fun _ => True) (nums D.dv)) {a : FitArgs}
    (ha : ValidArgs (csSpec k) tv s.nRep a) : (fit F (csSpec k) s a).2 = .ok () := by
  refine C63_of_cells hv ?_ h hL ha ?_ ?_ ?_
  · intro _ c o ho
    obtain ⟨t, -, ho⟩ := bind_ok ho
    obtain ⟨g00, -, ho⟩ := bind_ok ho
    obtain ⟨g01, -, ho⟩ := bind_ok ho
    obtain ⟨g10, -, ho⟩ := bind_ok ho
    obtain ⟨g11, -, ho⟩ := bind_ok ho
    obtain ⟨m, -, ho⟩ := bind_ok ho
    rw [← Except.ok.inj ho]
    exact sensOf_sigma _ _
  · intro q S c hq hS hc
    have hi : c.time = .ok (nums t) := by
      unfold CellIn.time
      rw [hc.data, ht]
      rfl
    refine (did_total (hc.plain hy hS) hg hm ?_ ?_).2 _ hi
    · rw [hc.d]; exact hb
    · rw [hc.d, hc.smpls]; exact hf S (List.mem_of_getElem? hq)
  · unfold csSpec DidClass.keys
    dsimp only
    cases k.score
    · exact cs_keys k.gClassifier
    · exact csE_keys k.gClassifier
  · intro c o ho
    obtain ⟨t, -, ho⟩ := bind_ok ho
    obtain ⟨g00, -, ho⟩ := bind_ok ho
    obtain ⟨g01, -, ho⟩ := bind_ok ho
    obtain ⟨g10, -, ho⟩ := bind_ok ho
    obtain ⟨g11, -, ho⟩ := bind_ok ho
    obtain ⟨m, -, ho⟩ := bind_ok ho
    rw [← Except.ok.inj ho]
    intro l hl
    have hl' : l ∈ ["ml_g_d0_t0", "ml_g_d0_t1", "ml_g_d1_t0", "ml_g_d1_t1", "ml_m"] := by
      unfold csSpec at hl
      cases hs : k.score with
      | observational => simpa [hs] using hl
      | experimental =>
        have : l = "ml_g_d0_t0" ∨ l = "ml_g_d0_t1" ∨ l = "ml_g_d1_t0" ∨ l = "ml_g_d1_t1" := by simpa [hs] using hl
        rcases this with rfl | rfl | rfl | rfl <;> simp
    simp only [List.mem_cons, List.not_mem_nil, or_false] at hl'
    rcases hl' with rfl | rfl | rfl | rfl | rfl <;> exact ⟨rfl, rfl⟩

/-- SSM (missing at random): both values of treatment and selection indicator in every training set. -/
theorem C63_ssm {E : Ext} {F : Frame n} {k : SsmClass n P} (hv : k.vars = none) (hg : k.gClassifier = false)
    (hm : k.ml_m.Compliant) (hp : k.ml_pi.Compliant) {D : DataState n} (hy : D.binOut = false) (hb : BinaryTarget (nums D.dv))
    {sel : Fin n → Cell} (hs : D.sv = some sel) (hbs : BinaryTarget (nums sel)) {tv : String}
    {s : LinState n P} (h : Reached E F (ssmSpec k) D tv s)
    {L : List (List (Fold n))} (hL : s.smpls = some L) (hf : ∀ S ∈ L, EveryFold S (fun _ => True) (nums D.dv))
    (hfs : ∀ S ∈ L, EveryFold S (fun _ => True) (nums sel)) {a : FitArgs}
    (ha : ValidArgs (ssmSpec k) tv s.nRep a) : (fit F (ssmSpec k) s a).2 = .ok () := by
  refine C63_of_cells hv ?_ h hL ha ?_ (ssm_keys k.gClassifier) ?_
  · intro hs
    cases hs
  · intro q S c hq hS hc
    have hi : c.sel = .ok (nums sel) := by
      unfold CellIn.sel
      rw [hc.data, hs]
      rfl
    have hmem := List.mem_of_getElem? hq
    refine ssm_total (hc.plain hy hS) hg hm hp hi ?_ ?_ hbs ?_ hc.cluster
    · rw [hc.d]; exact hb
    · rw [hc.d, hc.smpls]; exact hf S hmem
    · rw [hc.smpls]; exact hfs S hmem
  · intro c o ho
    obtain ⟨t, -, ho⟩ := bind_ok ho
    obtain ⟨g00, -, ho⟩ := bind_ok ho
    obtain ⟨g01, -, ho⟩ := bind_ok ho
    obtain ⟨g10, -, ho⟩ := bind_ok ho
    obtain ⟨g11, -, ho⟩ := bind_ok ho
    obtain ⟨m, -, ho⟩ := bind_ok ho
    rw [← Except.ok.inj ho]
    intro l hl
    simp only [ssmSpec, List.mem_cons, List.not_mem_nil, or_false] at hl
    rcases hl with rfl | rfl | rfl | rfl <;> exact ⟨rfl, rfl⟩

/-- PLIV with one instrument: no condition beyond a split. -/
theorem C63_pliv {E : Ext} {F : Frame n} {k : PlivClass n P} (hv : k.vars = none) {D : DataState n} (hy : D.binOut = false)
    {z : Fin n → Cell} (hz : D.zv = some [z]) {tv : String} {s : LinState n P} (h : Reached E F (plivSpec k) D tv s)
    {L : List (List (Fold n))} (hL : s.smpls = some L) {a : FitArgs}
    (ha : ValidArgs (plivSpec k) tv s.nRep a) : (fit F (plivSpec k) s a).2 = .ok () := by
  refine C63_of_cells hv ?_ h hL ha ?_ ?_ ?_
  · intro hs
    cases hs
  · intro q S c hq hS hc
    have hi : c.instr = .ok (nums z) := by
      unfold CellIn.instr
      rw [hc.data, hz]
      rfl
    exact pliv_total (hc.plain hy hS) hi
  · unfold plivSpec
    dsimp only
    cases k.iv
    · exact pliv_keys
    · exact plivI_keys
  · intro c o ho
    obtain ⟨_, -, ho⟩ := bind_ok ho
    obtain ⟨_, -, ho⟩ := bind_ok ho
    obtain ⟨_, -, ho⟩ := bind_ok ho
    obtain ⟨_, -, ho⟩ := bind_ok ho
    obtain ⟨_, -, ho⟩ := bind_ok ho
    rw [← Except.ok.inj ho]
    intro l hl
    have hl' : l ∈ ["ml_l", "ml_m", "ml_r", "ml_g"] := by
      unfold plivSpec at hl
      dsimp only at hl
      split at hl
      · exact hl
      · have : l = "ml_l" ∨ l = "ml_m" ∨ l = "ml_r" := by simpa using hl
        rcases this with rfl | rfl | rfl <;> simp
    simp only [List.mem_cons, List.not_mem_nil, or_false] at hl'
    rcases hl' with rfl | rfl | rfl | rfl <;> exact ⟨rfl, rfl⟩

/-- PLR with a treatment that is not binary. -/
theorem C63_plr {E : Ext} {F : Frame n} {k : PlrClass n P} (hv : k.vars = none) (hg : k.mClassifier = false)
    {D : DataState n} {tv : String} (hb : lookupKey tv D.binTreats = some false) {s : LinState n P}
    (h : Reached E F (plrSpec k) D tv s) {L : List (List (Fold n))} (hL : s.smpls = some L) {a : FitArgs}
    (ha : ValidArgs (plrSpec k) tv s.nRep a) : (fit F (plrSpec k) s a).2 = .ok () := by
  refine C63_of_cells hv ?_ h hL ha ?_ ?_ ?_
  · intro _ c o ho
    obtain ⟨l, -, ho⟩ := bind_ok ho
    obtain ⟨m, -, ho⟩ := bind_ok ho
    obtain ⟨g, -, ho⟩ := bind_ok ho
    rw [← Except.ok.inj ho]
    show 0 ≤ mean (plrResid2 _ _ _ _ _ _ _)
    unfold plrResid2
    split_ifs
    · exact mean_sq_nonneg _
    · exact mean_sq_nonneg _
  · intro q S c hq hS hc
    have hlearn : ∀ (Le : Learner P (List Cell)) (l : String) (y : Fin n → ℝ), ∃ r, learn Le .predict c l y = .ok r := by
      intro Le l y
      exact learn_total' y (by rw [hc.smpls]; exact hS) (by rw [hc.smpls]; exact hc.params l) (fun q => by cases q)
    obtain ⟨l, el⟩ : ∃ r, plrL k c = .ok r := by
      unfold plrL
      split
      · exact ⟨_, rfl⟩
      · split_ifs
        · exact ⟨_, rfl⟩
        · exact hlearn _ _ _
    obtain ⟨m, em⟩ : ∃ r, plrM k c = .ok r := by
      have hchk : ∀ p, checkTreatPreds c p = .ok () := by
        intro p
        unfold checkTreatPreds
        rw [hc.treat, hc.data, hb]
      unfold plrM
      rw [hg]
      cases c.extOf "ml_m" with
      | some e =>
        simp only [bind, Except.bind, hchk]
        exact ⟨_, rfl⟩
      | none =>
        obtain ⟨r, hr⟩ := hlearn k.ml_m "ml_m" fun i => (c.data.dv i).val
        simp only [Bool.false_eq_true, if_false, hr, bind, Except.bind, hchk]
        exact ⟨_, rfl⟩
    obtain ⟨g, eg⟩ : ∃ r, plrG k c l m = .ok r := by
      unfold plrG
      split_ifs
      · split
        · exact ⟨_, rfl⟩
        · exact hlearn _ _ _
      · exact ⟨_, rfl⟩
    show ∃ o, plrEst k c = .ok o
    unfold plrEst
    simp only [el, em, eg, bind, Except.bind, pure, Except.pure]
    exact ⟨_, rfl⟩
  · unfold plrSpec
    dsimp only
    cases k.iv
    · exact plr_keys _
    · exact plrI_keys _
  · intro c o ho
    obtain ⟨_, -, ho⟩ := bind_ok ho
    obtain ⟨_, -, ho⟩ := bind_ok ho
    obtain ⟨_, -, ho⟩ := bind_ok ho
    rw [← Except.ok.inj ho]
    intro l hl
    have hl' : l ∈ ["ml_l", "ml_m", "ml_g"] := by
      unfold plrSpec at hl
      dsimp only at hl
      split at hl
      · exact hl
      · have : l = "ml_l" ∨ l = "ml_m" := by simpa using hl
        rcases this with rfl | rfl <;> simp
    simp only [List.mem_cons, List.not_mem_nil, or_false] at hl'
    rcases hl' with rfl | rfl | rfl <;> exact ⟨rfl, rfl⟩

/-- A stratified draw gives training sets with both classes if each class is spread over at least two folds. -/
theorem C63_stratified {K : ℕ} {a : Fin n → ℕ} {y : Fin n → ℝ}
    (h : ∀ v : ℝ, v = 0 ∨ v = 1 → ∃ i j, y i = v ∧ y j = v ∧ a i ≠ a j) :
    EveryFold (assignFolds K a) (fun _ => True) y := by
  have key : ∀ v : ℝ, v = 0 ∨ v = 1 → ∀ f ∈ assignFolds K a, ∃ j ∈ f.train, True ∧ y j = v := by
    intro v hv f hf
    obtain ⟨k, hk, rfl⟩ := List.mem_map.1 hf
    obtain ⟨i, j, hi, hj, hij⟩ := h v hv
    by_cases hik : a i = k
    · refine ⟨j, ?_, trivial, hj⟩
      have : a j ≠ k := fun h => hij (hik.trans h.symm)
      simpa using this
    · refine ⟨i, ?_, trivial, hi⟩
      simpa using hik
  exact fun f hf => ⟨key 0 (.inl rfl) f hf, key 1 (.inr rfl) f hf⟩

/-- Without a split, `fit` with valid arguments raises. -/
theorem C63_no_split {F : Frame n} {sp : Spec n P M} {s : MState n P M} {tv : String} (hd : s.data.d = [tv])
    (hr : 1 ≤ s.nRep) (hs : s.smpls = none) {a : FitArgs} (ha : ValidArgs sp tv s.nRep a) :
    ∃ e, (fit F sp s a).2 = .error e := by
  cases hq : (fit F sp s a).2 with
  | error e => exact ⟨e, rfl⟩
  | ok u =>
    obtain ⟨p, hp⟩ := ha.preds
    obtain ⟨m, hm⟩ := ha.models
    obtain ⟨c, o, ls, hc, -⟩ := fit_cells hq hp hm (j := 0) (k := 0) (by rw [hd]; exact one_pos) hr
    have := hc.smpls
    rw [hs] at this
    obtain ⟨L, hL, -⟩ := this
    cases hL

/-! ### A concrete history -/

/-- The draw that puts observations 0, 1 into the first and 2, 3 into the second fold. -/
def exDraw4 : Draws 4 := ⟨fun _ => 1, fun _ i => if (i : ℕ) < 2 then 0 else 1, fun _ _ _ => 1⟩

theorem exDraw4_folds : assignFolds 2 (exDraw4.assign 0) = exFolds4 := rfl

/-- The object right after its creation with two folds, one repetition and without a split. -/
theorem exInit4 (sp : LinSpec 4 ℕ) (hv : sp.vars = none) (y : Fin 4 → ℝ) :
    ∃ s₀, initModel sp (exData4 y) 0 (.int 2) (.int 1) (.bool false) exDraw4 = .ok s₀ ∧ s₀.nFolds = 2 ∧ s₀.nRep = 1 ∧
      s₀.smpls = none := by
  have h : checkClusterVars sp (exData4 y) = .ok () := by
    unfold checkClusterVars
    rw [hv]
    rfl
  refine ⟨_, by unfold initModel; rw [h]; rfl, ?_, rfl, rfl⟩
  show (if sp.vars.isSome = true then _ else (2 : ℕ)) = 2
  rw [hv]
  rfl

theorem setNuisanceParams_keeps (sp : Spec n P M) (s : MState n P M) (l tv : String) (p : ParamArg P) :
    (setNuisanceParams sp s l tv p).1.nFolds = s.nFolds ∧ (setNuisanceParams sp s l tv p).1.nRep = s.nRep := by
  unfold setNuisanceParams
  by_cases h1 : l ∉ sp.learners
  · rw [if_pos h1]
    exact ⟨rfl, rfl⟩
  rw [if_neg h1]
  by_cases h2 : tv ∉ s.data.d
  · rw [if_pos h2]
    exact ⟨rfl, rfl⟩
  · rw [if_neg h2]
    cases paramValue s.nRep s.nFolds p <;> exact ⟨rfl, rfl⟩

/-- A history: an unsuccessful fit, parameters for one learner, a draw. -/
theorem exReached4 (E : Ext) (F : Frame 4) {sp : LinSpec 4 ℕ} (hv : sp.vars = none) (hst : sp.stratified = true)
    (y : Fin 4 → ℝ) (l : String) : ∃ s, Reached E F sp (exData4 y) "d" s ∧ s.smpls = some [exFolds4] ∧ s.nRep = 1 := by
  obtain ⟨s₀, h0, h1, h2, h3⟩ := exInit4 sp hv y
  have hw : ∀ r i, exDraw4.assign r i < 2 := by
    intro r i
    show (if (i : ℕ) < 2 then 0 else 1) < 2
    split_ifs <;> decide
  obtain ⟨f1, -, -, f2, -, -⟩ := fit_frame F sp s₀ {}
  obtain ⟨g1, g2⟩ := setNuisanceParams_keeps sp (fit F sp s₀ {}).1 l "d" (.dict 5)
  rw [f2, h1] at g1
  rw [f1.nRep, h2] at g2
  have hd : drawSampleSplitting sp (setNuisanceParams sp (fit F sp s₀ {}).1 l "d" (.dict 5)).1 exDraw4 =
      ({ (setNuisanceParams sp (fit F sp s₀ {}).1 l "d" (.dict 5)).1 with smpls := some [exFolds4] }, .ok ()) := by
    unfold drawSampleSplitting drawnSplit
    simp only [hv, hst, if_true, g1, g2]
    rfl
  refine ⟨_, ⟨rfl, 0, .int 2, .int 1, .bool false, exDraw4, s₀, [.fit {}, .setParams l "d" (.dict 5), .draw exDraw4], h0, ?_,
    ⟨trivial, trivial, ?_, trivial⟩, rfl⟩, ?_, ?_⟩
  · intro K hK r i
    obtain rfl : 2 = K := Option.some.inj hK
    exact_mod_cast hw r i
  · intro r i
    show _ < (setNuisanceParams sp (fit F sp s₀ {}).1 l "d" (.dict 5)).1.nFolds
    rw [g1]
    exact hw r i
  · show (drawSampleSplitting sp (setNuisanceParams sp (fit F sp s₀ {}).1 l "d" (.dict 5)).1 exDraw4).1.smpls = _
    rw [hd]
  · show (drawSampleSplitting sp (setNuisanceParams sp (fit F sp s₀ {}).1 l "d" (.dict 5)).1 exDraw4).1.nRep = _
    rw [hd]
    exact g2

/-- External predictions for one learner. -/
def exExt4 (l : String) : ExtArg := .dict [("d", .dict [(l, .arr2 4 1 fun i _ => i)])]

theorem exArgs4 {sp : LinSpec 4 ℕ} (hx : sp.extImpl = true) {l : String} (hl : l ∈ sp.learners) :
    ValidArgs sp "d" 1 {} ∧ ValidArgs sp "d" 1 { ext := exExt4 l } := by
  refine ⟨⟨.inl rfl, ⟨true, rfl⟩, ⟨false, rfl⟩, .inl rfl⟩, ⟨.inl rfl, ⟨true, rfl⟩, ⟨false, rfl⟩, .inr ⟨hx, ?_, ?_⟩⟩⟩
  · intro t v htv
    obtain ⟨rfl, rfl⟩ : t = "d" ∧ v = .dict [(l, .arr2 4 1 fun i _ => i)] := by simpa using htv
    refine ⟨by simp, _, rfl, fun l' w hw => ?_⟩
    obtain ⟨rfl, rfl⟩ : l' = l ∧ w = .arr2 4 1 fun i _ => i := by simpa using hw
    exact ⟨hl, _, rfl⟩
  · exact ⟨_, rfl⟩

theorem ex_irm_weights : ∀ q < [exFolds4].length, ∃ w : (Fin 4 → ℝ) × (Fin 4 → ℝ), exIrm4.weights.at q = .ok w :=
  fun _ _ => ⟨_, rfl⟩

theorem ex_every {v : Fin 4 → ℝ} (h : EveryFold exFolds4 (fun _ => True) v) :
    ∀ S ∈ [exFolds4], EveryFold S (fun _ => True) v := by
  intro S hS
  rw [List.mem_singleton.1 hS]
  exact h

/-- The hypotheses of `C63_irm` are met after this history, with and without external predictions, and the stored
predictions are then the supplied ones (C28). -/
example (E : Ext) (F : Frame 4) (y : Fin 4 → ℝ) : ∃ s : LinState 4 ℕ, Reached E F (irmSpec exIrm4) (exData4 y) "d" s ∧
    (fit F (irmSpec exIrm4) s {}).2 = .ok () ∧ (fit F (irmSpec exIrm4) s { ext := exExt4 "ml_g0" }).2 = .ok () ∧
    ∀ i, predAt (fit F (irmSpec exIrm4) s { ext := exExt4 "ml_g0" }).1 0 0 "ml_g0" i = some ((i : ℕ) : ℝ) := by
  obtain ⟨s, h1, h2, h3⟩ := exReached4 E F (sp := irmSpec exIrm4) rfl rfl y "ml_g1"
  have hd : nums (exData4 y).dv = ![(0 : ℝ), 1, 0, 1] := rfl
  obtain ⟨a1, a2⟩ := exArgs4 (sp := irmSpec exIrm4) rfl (l := "ml_g0") (by simp [irmSpec])
  have hfit : ∀ a, ValidArgs (irmSpec exIrm4) "d" 1 a → (fit F (irmSpec exIrm4) s a).2 = .ok () := by
    intro a ha
    exact C63_irm rfl rfl exMeanL_compliant rfl (by rw [hd]; exact ex_d4.1) h1 h2 (by rw [hd]; exact ex_every ex_d4.2)
      ex_irm_weights (by rw [h3]; exact ha)
  have hsd : s.data = exData4 y := (h1.ready rfl).2
  refine ⟨s, h1, hfit _ a1, hfit _ a2, fun i => ?_⟩
  have := C28_stored (F := F) (s := s) (a := { ext := exExt4 "ml_g0" }) rfl rfl (hfit _ a2) (l := "ml_g0") (by simp [irmSpec])
    (C28_irm exIrm4).1 (j := 0) (k := 0) (by rw [hsd]; exact one_pos) (by rw [h3]; exact one_pos) (r := 4) (q := 1)
    (A := fun i _ => i) (by simp only [hsd]; rfl) i
  exact this

/-- The same for APO, IIVM, DiD, DiD-CS and SSM. -/
example (E : Ext) (F : Frame 4) (y : Fin 4 → ℝ) (score : DidScore) :
    (∃ s : LinState 4 ℕ, Reached E F (apoSpec (exIrm4.apo 1)) (exData4 y) "d" s ∧
      (fit F (apoSpec (exIrm4.apo 1)) s {}).2 = .ok ()) ∧
    (∃ s : LinState 4 ℕ, Reached E F (iivmSpec ⟨exMeanL, exMeanL, exMeanL, false, false, false, true, 1 / 100, none⟩) (exData4 y) "d" s ∧
      (fit F (iivmSpec ⟨exMeanL, exMeanL, exMeanL, false, false, false, true, 1 / 100, none⟩) s {}).2 = .ok ()) ∧
    (∃ s : LinState 4 ℕ, Reached E F (didSpec ⟨exMeanL, exMeanL, false, score, true, 1 / 100, none⟩) (exData4 y) "d" s ∧
      (fit F (didSpec ⟨exMeanL, exMeanL, false, score, true, 1 / 100, none⟩) s {}).2 = .ok ()) ∧
    (∃ s : LinState 4 ℕ, Reached E F (csSpec ⟨exMeanL, exMeanL, false, score, true, 1 / 100, none⟩) (exData4 y) "d" s ∧
      (fit F (csSpec ⟨exMeanL, exMeanL, false, score, true, 1 / 100, none⟩) s {}).2 = .ok ()) ∧
    ∃ s : LinState 4 ℕ, Reached E F (ssmSpec exSsm4) (exData4 y) "d" s ∧
      (fit F (ssmSpec exSsm4) s {}).2 = .ok () := by
  have hd : nums (exData4 y).dv = ![(0 : ℝ), 1, 0, 1] := rfl
  have hd1 : isLevel (n := 4) 1 ![0, 1, 0, 1] = ![(0 : ℝ), 1, 0, 1] := by
    funext i; fin_cases i <;> simp [isLevel]
  have ha : ∀ sp : LinSpec 4 ℕ, ValidArgs sp "d" 1 {} := fun sp => ⟨.inl rfl, ⟨true, rfl⟩, ⟨false, rfl⟩, .inl rfl⟩
  refine ⟨?_, ?_, ?_, ?_, ?_⟩
  · obtain ⟨s, h1, h2, h3⟩ := exReached4 E F (sp := apoSpec (exIrm4.apo 1)) rfl rfl y "ml_m"
    refine ⟨s, h1, C63_apo rfl rfl exMeanL_compliant rfl ?_ h1 h2 ?_ (fun _ _ => ⟨_, rfl⟩) (by rw [h3]; exact ha _)⟩
    · show BinaryTarget (isLevel 1 (nums (exData4 y).dv))
      rw [hd, hd1]; exact ex_d4.1
    · show ∀ S ∈ [exFolds4], EveryFold S (fun _ => True) (isLevel 1 (nums (exData4 y).dv))
      rw [hd, hd1]; exact ex_every ex_d4.2
  · obtain ⟨s, h1, h2, h3⟩ := exReached4 E F
      (sp := iivmSpec ⟨exMeanL, exMeanL, exMeanL, false, false, false, true, 1 / 100, none⟩) rfl rfl y "ml_m"
    exact ⟨s, h1, C63_iivm (D := exData4 y) (z := fun i => .num (![0, 1, 1, 0] i)) rfl rfl exMeanL_compliant
      exMeanL_compliant rfl ex_d4.1 rfl ex_z4.1 h1 h2 (ex_every ex_z4.2)
      (fun h => by cases h) (fun h => by cases h) (by rw [h3]; exact ha _)⟩
  · obtain ⟨s, h1, h2, h3⟩ := exReached4 E F
      (sp := didSpec ⟨exMeanL, exMeanL, false, score, true, 1 / 100, none⟩) rfl rfl y "ml_m"
    exact ⟨s, h1, C63_did (D := exData4 y) rfl rfl exMeanL_compliant rfl ex_d4.1 h1 h2 (ex_every ex_d4.2) (by rw [h3]; exact ha _)⟩
  · obtain ⟨s, h1, h2, h3⟩ := exReached4 E F
      (sp := csSpec ⟨exMeanL, exMeanL, false, score, true, 1 / 100, none⟩) rfl rfl y "ml_m"
    exact ⟨s, h1, C63_didcs (D := exData4 y) rfl rfl exMeanL_compliant rfl ex_d4.1 rfl h1 h2 (ex_every ex_d4.2) (by rw [h3]; exact ha _)⟩
  · obtain ⟨s, h1, h2, h3⟩ := exReached4 E F (sp := ssmSpec exSsm4) rfl rfl y "ml_m"
    exact ⟨s, h1, C63_ssm (D := exData4 y) (sel := fun i => .num (![1, 0, 0, 1] i)) rfl rfl exMeanL_compliant
      exMeanL_compliant rfl ex_d4.1 rfl ex_s4.1 h1 h2 (ex_every ex_d4.2)
      (ex_every ex_s4.2) (by rw [h3]; exact ha _)⟩

/-- An object that draws its split when it is created, without stratification. -/
theorem exReachedDraw (E : Ext) (F : Frame 4) {sp : LinSpec 4 ℕ} (hv : sp.vars = none) (hst : sp.stratified = false)
    {D : DataState 4} (hd : D.d = ["d"]) : ∃ s L, Reached E F sp D "d" s ∧ s.smpls = some L ∧ s.nRep = 1 := by
  have h : checkClusterVars sp D = .ok () := by
    unfold checkClusterVars
    rw [hv]
    rfl
  obtain ⟨L, hL, -⟩ := C23_drawn_splits_balanced 2 1 (exDraw4.shuffle) le_rfl (by decide)
  have hi : ∃ s : LinState 4 ℕ, initModel sp D 0 (.int 2) (.int 1) (.bool true) exDraw4 = .ok s ∧ s.smpls = some L ∧ s.nRep = 1 := by
    have h2 : (drawSplit 2 (1 : ℤ).toNat exDraw4.shuffle : Except Exc (List (List (Fold 4)))) = .ok L := hL
    unfold initModel
    rw [h]
    simp only [bind, Except.bind, checkInteger, checkBool, PyVal.asInt]
    simp only [drawSampleSplitting, drawnSplit, hv, hst, Option.isSome_none, Bool.false_eq_true, if_false]
    have h3 : (2 : ℤ).toNat = 2 := rfl
    simp [h3, hL, bind, Except.bind, pure, Except.pure, initArrays]
  obtain ⟨s, h1, h2, h3⟩ := hi
  refine ⟨s, L, ⟨hd, 0, .int 2, .int 1, .bool true, exDraw4, s, [], h1, ?_, trivial, rfl⟩, h2, h3⟩
  intro K hK r i
  obtain rfl : 2 = K := Option.some.inj hK
  show (((if (i : ℕ) < 2 then 0 else 1 : ℕ)) : ℤ) < 2
  split_ifs <;> decide

/-- PLIV and PLR after a draw without stratification. -/
example (E : Ext) (F : Frame 4) (y : Fin 4 → ℝ) (iv : Bool) :
    (∃ s : LinState 4 ℕ, Reached E F (plivSpec ⟨exMeanL, exMeanL, exMeanL, exMeanL, iv, fun _ v => v, none⟩) (exData4 y) "d" s ∧
      (fit F (plivSpec ⟨exMeanL, exMeanL, exMeanL, exMeanL, iv, fun _ v => v, none⟩) s {}).2 = .ok ()) ∧
    ∃ s : LinState 4 ℕ, Reached E F (plrSpec ⟨exMeanL, exMeanL, exMeanL, false, iv, none⟩)
      { exData4 y with binTreats := [("d", false)] } "d" s ∧
      (fit F (plrSpec ⟨exMeanL, exMeanL, exMeanL, false, iv, none⟩) s {}).2 = .ok () := by
  have ha : ∀ sp : LinSpec 4 ℕ, ValidArgs sp "d" 1 {} := fun sp => ⟨.inl rfl, ⟨true, rfl⟩, ⟨false, rfl⟩, .inl rfl⟩
  constructor
  · obtain ⟨s, L, h1, h2, h3⟩ := exReachedDraw E F
      (sp := plivSpec ⟨exMeanL, exMeanL, exMeanL, exMeanL, iv, fun _ v => v, none⟩) rfl rfl (D := exData4 y) rfl
    exact ⟨s, h1, C63_pliv rfl rfl rfl h1 h2 (by rw [h3]; exact ha _)⟩
  · obtain ⟨s, L, h1, h2, h3⟩ := exReachedDraw E F (sp := plrSpec ⟨exMeanL, exMeanL, exMeanL, false, iv, none⟩) rfl rfl
      (D := { exData4 y with binTreats := [("d", false)] }) rfl
    exact ⟨s, h1, C63_plr rfl rfl rfl h1 h2 (by rw [h3]; exact ha _)⟩

/-! ## Clustered data: the number of folds and the split can disagree -/

theorem cvPredict_perFold {X : Type} {L : Learner P X} {x : Fin n → X} {y : Target n} {smpls : List (Fold n)} {l : List P}
    {m : Method} {rt rm : Bool} {r : CvRes n P X} (h : cvPredict L ⟨x, y, smpls, .perFold l, m, rt, rm⟩ = .ok r) :
    l.length = smpls.length := by
  unfold cvPredict at h
  rw [if_pos (by simp [CvArgs.manual, Params.isPerFold])] at h
  unfold manualPredict at h
  dsimp only at h
  by_contra hne
  have hf : foldParams (.perFold l) smpls.length = .error .assertion := by
    unfold foldParams
    dsimp only
    rw [if_pos hne]
  simp only [hf] at h
  cases hfd : foldData x y m smpls with
  | error e =>
    rw [hfd] at h
    split at h
    · cases h
    · split at h <;> cases h
  | ok q =>
    rw [hfd] at h
    split at h
    · cases h
    · split at h <;> cases h

/-- **C63, violated for clustered data.** `set_sample_splitting` records the number of folds of the new split, but
`draw_sample_splitting` goes back to the number of folds per cluster variable of the constructor and does not record it.
If the two numbers differ, a hyper-parameter dictionary that `set_ml_nuisance_params` accepts for `ml_l` makes every
following `fit` raise. -/
theorem C63_cluster_violated {F : Frame n} {k : PlrClass n P} {v : List (Fin n → Cell) → ClusterVars n}
    (hv : k.vars = some v) (hiv : k.iv = false) {s : LinState n P} {tv : String} (hd : s.data.d = [tv])
    {a : SplitArg} {cl : Option (List (List ClusterPair))} {w : Draws n} {s₁ s₂ : LinState n P}
    (hset : setSampleSplitting (plrSpec k) s a cl = (s₁, .ok ())) (hdraw : drawSampleSplitting (plrSpec k) s₁ w = (s₂, .ok ()))
    (hne : s₁.nFolds ≠ s.nFoldsPer ^ (v s.data.cv).cols.length) (p : P) :
    (setNuisanceParams (plrSpec k) s₂ "ml_l" tv (.dict p)).2 = .ok () ∧ ∀ args : FitArgs, args.ext = .none →
      ∃ e, (fit F (plrSpec k) (setNuisanceParams (plrSpec k) s₂ "ml_l" tv (.dict p)).1 args).2 = .error e := by
  obtain ⟨l, nr, nf, c, h1, h2, h3⟩ := setSampleSplitting_ok (s := s) (sp := plrSpec k) (by rw [hset])
  obtain ⟨g1, g2, -, -⟩ := C22_accepted_splits_valid n a l nr nf h1
  rw [hset] at h3
  have h3 : s₁ = _ := h3
  have hd1 : s₁.data = s.data := by rw [h3]; rfl
  have hp1 : s₁.nFoldsPer = s.nFoldsPer := by rw [h3]; rfl
  have hr1 : 1 ≤ s₁.nRep := by rw [h3]; exact g2
  clear h3
  unfold drawSampleSplitting drawnSplit at hdraw
  have hvv : (plrSpec k).vars = some v := hv
  rw [hvv] at hdraw
  dsimp only at hdraw
  cases hq : drawCluster s₁.nFoldsPer s₁.nRep (v s₁.data.cv).cols w.clusters with
  | error e => rw [hq] at hdraw; cases hdraw
  | ok R =>
    rw [hq] at hdraw
    simp only [bind, Except.bind, pure, Except.pure] at hdraw
    obtain ⟨hs2, -⟩ := Prod.mk.inj hdraw
    obtain ⟨hRl, hR⟩ := C24_all_repetitions _ _ _ _ _ hq
    have hset2 : setNuisanceParams (plrSpec k) s₂ "ml_l" tv (.dict p) =
        ({ s₂ with params := setNuisanceParams.set2' s₂.params "ml_l" tv (List.replicate s₂.nRep (some (List.replicate s₂.nFolds p))) }, .ok ()) := by
      unfold setNuisanceParams
      rw [if_neg, if_neg]
      · rfl
      · rw [not_not, ← hs2]
        show tv ∈ s₁.data.d
        rw [hd1, hd]; simp
      · rw [not_not]
        simp [plrSpec, hiv]
    rw [hset2]
    refine ⟨rfl, fun args hx => ?_⟩
    generalize ht : ({ s₂ with params := setNuisanceParams.set2' s₂.params "ml_l" tv (List.replicate s₂.nRep (some (List.replicate s₂.nFolds p))) } : LinState n P) = t
    have htd : t.data.d = [tv] := by rw [← ht, ← hs2]; show s₁.data.d = _; rw [hd1, hd]
    have htr : t.nRep = s₁.nRep := by rw [← ht, ← hs2]
    have hts : t.smpls = some (R.map fun r => r.map Prod.fst) := by rw [← ht, ← hs2]
    have htp : t.params "ml_l" tv = some (List.replicate s₁.nRep (some (List.replicate s₁.nFolds p))) := by
      rw [← ht, ← hs2]
      show (if "ml_l" = "ml_l" ∧ tv = tv then _ else _) = _
      rw [if_pos ⟨rfl, rfl⟩]
    cases hfit : (fit F (plrSpec k) t args).2 with
    | error e => exact ⟨e, rfl⟩
    | ok u =>
      exfalso
      obtain ⟨p', m', fw, k1, -⟩ := fit_ok hfit
      obtain ⟨hp', hm'⟩ := checkFit_ok k1
      obtain ⟨c, o, ls, hc, -, ho, -⟩ := fit_cells hfit hp' hm' (j := 0) (k := 0) (by rw [htd]; exact one_pos)
        (by rw [htr]; exact hr1)
      have hct : c.treat = tv := by
        have := hc.treat
        rw [htd] at this
        exact (Option.some.inj this).symm
      obtain ⟨L, hL, hLq⟩ := hc.smpls
      rw [hts] at hL
      obtain rfl := Option.some.inj hL
      have hlen : c.smpls.length = s.nFoldsPer ^ (v s.data.cv).cols.length := by
        obtain ⟨rep, hrep, he⟩ := List.mem_map.1 (List.mem_of_getElem? hLq)
        rw [← he, List.length_map, (hR rep hrep).length, hp1, hd1]
      have hpar : c.paramsOf "ml_l" = .perFold (List.replicate s₁.nFolds p) := by
        obtain ⟨e1, e2⟩ := hc.params
        obtain ⟨q, hq⟩ := lookupKey_of_mem (l := "ml_l") (by rw [e1]; simp [plrSpec, hiv] : "ml_l" ∈ c.params.map Prod.fst)
        obtain ⟨ps, hps, hk⟩ := e2 _ (lookupKey_mem hq)
        rw [hct, htp] at hps
        obtain rfl := Option.some.inj hps
        rw [List.getElem?_replicate, if_pos (show 0 < s₁.nRep from hr1)] at hk
        unfold CellIn.paramsOf
        have hk : some (List.replicate s₁.nFolds p) = q := Option.some.inj hk
        rw [hq, ← hk]
        rfl
      have hext : c.extOf "ml_l" = none := by
        have := hc.ext
        rw [hx] at this
        have hl : (plrSpec k).learners = ["ml_l", "ml_m"] := by simp [plrSpec, hiv]
        rw [hl] at this
        have := Except.ok.inj (show Except.ok [("ml_l", none), ("ml_m", none)] = _ from this)
        unfold CellIn.extOf
        rw [← this]
        rfl
      obtain ⟨rl, hrl, -⟩ := bind_ok (show (plrL k c >>= _) = _ from ho)
      unfold plrL at hrl
      rw [hext, hiv] at hrl
      simp only [Bool.false_and, Bool.false_eq_true, if_false] at hrl
      obtain ⟨r, hr, -⟩ := bind_ok hrl
      rw [hpar] at hr
      have := cvPredict_perFold hr
      rw [List.length_replicate, hlen] at this
      exact hne this

/-- A clustered PLR class: every observation is its own cluster. -/
noncomputable def exCluPlr : PlrClass 4 ℕ :=
  ⟨exMeanL, exMeanL, exMeanL, false, false, some fun _ => .one fun i => (i : ℕ)⟩

/-- The data with a cluster variable. -/
noncomputable def exCluData (y : Fin 4 → ℝ) : DataState 4 :=
  { exData4 y with cluster := some ["c"], cv := [fun i => .num i.val] }

/-- Four folds. -/
def exLoo : SplitArg :=
  nestedArg [[([1, 2, 3], [0]), ([0, 2, 3], [1]), ([0, 1, 3], [2]), ([0, 1, 2], [3])]]

/-- Their clusters. -/
def exLooClu : Option (List (List ClusterPair)) :=
  some [[([[1, 2, 3]], [[0]]), ([[0, 2, 3]], [[1]]), ([[0, 1, 3]], [[2]]), ([[0, 1, 2]], [[3]])]]

/-- The hypotheses of `C63_cluster_violated` are met: created with two folds, a split with four folds, a draw. -/
example (y : Fin 4 → ℝ) (w : Draws 4) : ∃ s s₁ s₂ : LinState 4 ℕ,
    initModel (plrSpec exCluPlr) (exCluData y) 0 (.int 2) (.int 1) (.bool false) w = .ok s ∧ s.data.d = ["d"] ∧
    setSampleSplitting (plrSpec exCluPlr) s exLoo exLooClu = (s₁, .ok ()) ∧
    drawSampleSplitting (plrSpec exCluPlr) s₁ w = (s₂, .ok ()) ∧ s₁.nFolds = 4 ∧ s.nFoldsPer = 2 := by
  have hi : ∃ s : LinState 4 ℕ, initModel (plrSpec exCluPlr) (exCluData y) 0 (.int 2) (.int 1) (.bool false) w = .ok s ∧
      s.data = exCluData y ∧ s.nFoldsPer = 2 := by
    refine ⟨_, rfl, rfl, rfl⟩
  obtain ⟨s, h1, h2, h3⟩ := hi
  have hval : ValidSplit 4 [([1, 2, 3], [0]), ([0, 2, 3], [1]), ([0, 1, 3], [2]), ([0, 1, 2], [3])] := by
    refine ⟨by decide, ?_, ?_⟩ <;> simp [InRange]
  have hsp := (C22_nested_accepted_iff 4 [([1, 2, 3], [0]), ([0, 2, 3], [1]), ([0, 1, 3], [2]), ([0, 1, 2], [3])] [] _).2
    ⟨by simp, by simp, by simpa using hval, rfl⟩
  have hcl : checkedCluster (plrSpec exCluPlr) s exLooClu 1 4 =
      .ok (some [[⟨[0], []⟩, ⟨[1], []⟩, ⟨[2], []⟩, ⟨[3], []⟩]]) := by
    have hu : uniqueSorted (fun i : Fin 4 => ((i : ℕ) : ℤ)) = [0, 1, 2, 3] := by
      have h1 : (univ.image fun i : Fin 4 => ((i : ℕ) : ℤ)) = [0, 1, 2, 3].toFinset := by decide
      unfold uniqueSorted
      rw [h1]
      exact (List.toFinset_sort (r := (· ≤ ·)) (by decide)).2 (by decide)
    have hp : checkClusterPartitions [[1, 2, 3], [0]] [0, 1, 2, 3] = true := by
      have : isort [1, 2, 3, 0] = isort [0, 1, 2, 3] := (isort_eq_iff _ _).2 (by decide)
      simp [checkClusterPartitions, this]
    have hv : (plrSpec exCluPlr).vars = some fun _ => .one fun i => ((i : ℕ) : ℤ) := rfl
    unfold checkedCluster
    rw [hv]
    simp only [checkClusterSplitting, exLooClu, ClusterVars.cols, List.zipIdx_cons, List.zipIdx_nil, List.mapM_cons, List.mapM_nil,
      checkClusterVar, hu, List.length_cons, List.length_nil]
    simp [hp, bind, Except.bind, pure, Except.pure, toClusterFold]
  have hset : ∃ s₁, setSampleSplitting (plrSpec exCluPlr) s exLoo exLooClu = (s₁, .ok ()) ∧ s₁.nFolds = 4 ∧ s₁.nRep = 1 ∧
      s₁.nFoldsPer = 2 := by
    unfold setSampleSplitting exLoo
    rw [hsp]
    simp only [List.length_cons, List.length_nil]
    rw [hcl]
    exact ⟨_, rfl, rfl, rfl, h3⟩
  obtain ⟨s₁, e1, e2, e3, e4⟩ := hset
  obtain ⟨rep, hrep⟩ := (C24_draw_succeeds_iff (n := 4) 2 [fun i : Fin 4 => ((i : ℕ) : ℤ)] (w.clusters 0)).2 (by
    intro c hc
    rw [List.mem_singleton.1 hc]
    exact ⟨le_rfl, by decide⟩)
  have hdr : drawCluster 2 1 [fun i : Fin 4 => ((i : ℕ) : ℤ)] w.clusters = .ok [rep] := by
    unfold drawCluster
    have : List.range 1 = [0] := rfl
    rw [this]
    simp only [List.mapM_cons, List.mapM_nil, hrep, bind, Except.bind, pure, Except.pure]
  have hd : ∃ s₂, drawSampleSplitting (plrSpec exCluPlr) s₁ w = (s₂, .ok ()) := by
    unfold drawSampleSplitting drawnSplit
    have : (plrSpec exCluPlr).vars = some fun _ => .one fun i => ((i : ℕ) : ℤ) := rfl
    rw [this, e3, e4]
    dsimp only
    have hcols : (ClusterVars.one fun i : Fin 4 => ((i : ℕ) : ℤ)).cols = [fun i : Fin 4 => ((i : ℕ) : ℤ)] := rfl
    rw [hcols, hdr]
    exact ⟨_, rfl⟩
  obtain ⟨s₂, e5⟩ := hd
  exact ⟨s, s₁, s₂, h1, by rw [h2]; rfl, e1, e5, e2, h3⟩

end DML
