import Verif.ModelProps

/-!
# When `fit` succeeds

Lemmas about successful fits of arbitrary model classes, and the simplest model class: it ignores everything and
returns the same estimate in every cell.  It is used to show that hypotheses about fitted objects can be met.
-/

namespace DML

variable {n : ℕ} {P M : Type}

theorem validated_nonneg {r : ℕ} {e : Fin r → SensElems n} (hs : ∀ k, 0 ≤ (e k).sigma2) (k : Fin r) :
    0 ≤ (validateSens e k).sigma2 ∧ 0 ≤ (validateSens e k).nu2 := by
  unfold validateSens
  split_ifs with h
  · exact ⟨hs k, mean_sq_nonneg _⟩
  · push Not at h
    exact ⟨hs k, (h k).le⟩

/-- After successful loops a model class with sensitivity analysis and non-negative `sigma2` can always build its
framework. -/
theorem fit_ok_of_loop {F : Frame n} {sp : Spec n P M} (hsi : sp.sensImpl = true)
    (hnn : ∀ c o, sp.est c = .ok o → 0 ≤ o.sens.sigma2) {s : MState n P M} (hs : Shaped s) {a : FitArgs} {p m : Bool} (hc : checkFit sp s a = .ok (p, m))
    (hl : (fitLoop F sp a.ext p m (initFit sp s p m) (cellOrder s.nRep s.data.d.length)).2 = .ok ()) :
    (fit F sp s a).2 = .ok () := by
  rw [fit_eq hc hl]
  have hf := (initFit_frame sp s p m).trans
    (fitLoop_frame F sp a.ext p m (cellOrder s.nRep s.data.d.length) (initFit sp s p m))
  have hT := fitLoop_tables (F := F) (ext := a.ext) (cellOrder s.nRep s.data.d.length)
    (initFit_tables sp s p m) hl
  have hcell : ∀ j < s.data.d.length, ∀ q < s.nRep, ∀ f,
      (fitLoop F sp a.ext p m (initFit sp s p m) (cellOrder s.nRep s.data.d.length)).1.sens = some f →
      ∃ e, f j q = some e ∧ 0 ≤ e.sigma2 := by
    intro j hj q hq f hff
    obtain ⟨o, ho, hst, _⟩ := fitLoop_stored _ _ hl (mem_cellOrder.2 ⟨hq, hj⟩)
    obtain ⟨_, _, _, _, _, _, _, _, _, _, _, he⟩ := ho
    exact ⟨o.sens, hst.sens hsi f hff, hnn _ _ he⟩
  generalize (fitLoop F sp a.ext p m (initFit sp s p m) (cellOrder s.nRep s.data.d.length)).1 = t at *
  obtain ⟨S, hS⟩ := Option.isSome_iff_exists.1 (hT.sens hsi)
  have hd : t.data.d.length = s.data.d.length := by rw [hf.settings.data.d]
  have hnT : (t.heap t.arr).nT = t.data.d.length := hf.settings.nT.trans (hs.nT.trans hd.symm)
  have hnR : (s.heap s.arr).nR = s.nRep := hs.nR
  have hnr : t.nRep = s.nRep := hf.settings.nRep
  rw [hnR]
  have hag : (aggregate sp t).sens = some (validAt S t.nRep) := by
    show (if sp.sensImpl = true then t.sens.map fun S => validAt S t.nRep else t.sens) = _
    rw [if_pos hsi, hS]; rfl
  have hsens : (frameworkOf s.nRep sp (aggregate sp t)).sens =
      some ((List.range t.data.d.length).map fun j => (sensBlock (validAt S t.nRep) s.nRep j).1) := by
    show (if sp.sensImpl = true then (aggregate sp t).sens.map _ else none) = _
    rw [if_pos hsi, hag]; rfl
  have hbench : (frameworkOf s.nRep sp (aggregate sp t)).bench =
      some ((List.range t.data.d.length).map fun j => (sensBlock (validAt S t.nRep) s.nRep j).2) := by
    show (if sp.sensImpl = true then (aggregate sp t).sens.map _ else none) = _
    rw [if_pos hsi, hag]; rfl
  have hblocks : (frameworkOf s.nRep sp (aggregate sp t)).blocks.length = t.data.d.length := by
    show ((List.range (t.heap t.arr).nT).map _).length = _
    rw [List.length_map, List.length_range, hnT]
  have hnames : (frameworkOf s.nRep sp (aggregate sp t)).names = some t.data.d := rfl
  unfold finishAt
  have hcon : ∃ fw, (frameworkOf s.nRep sp (aggregate sp t)).construct = .ok fw := by
    generalize frameworkOf s.nRep sp (aggregate sp t) = A at *
    refine ⟨A.normBench, ?_⟩
    have hnb : A.normBench.bench = A.bench := by simp [FW.normBench, hsens]
    unfold FW.construct
    rw [if_neg, if_neg, if_neg]
    · rintro ⟨ns, hns, hne⟩
      have : A.normBench.names = A.names := rfl
      rw [this, hnames] at hns
      obtain rfl := Option.some.inj hns
      exact hne hblocks.symm
    · rw [not_not]
      refine ⟨?_, ?_⟩
      · intro x hx
        have : A.normBench.sens = A.sens := rfl
        rw [this, hsens] at hx
        obtain rfl := Option.some.inj hx
        show _ = A.blocks.length
        rw [hblocks]; simp
      · intro _ x hx
        rw [hnb, hbench] at hx
        obtain rfl := Option.some.inj hx
        show _ = A.blocks.length
        rw [hblocks]; simp
    · rintro ⟨bs, hbs, b, hb, hbad⟩
      rw [hnb, hbench] at hbs
      obtain rfl := Option.some.inj hbs
      obtain ⟨j, hj, rfl⟩ := List.mem_map.1 hb
      have hj := List.mem_range.1 hj
      rw [hd] at hj
      apply hbad
      have key : ∀ q : Fin s.nRep, 0 ≤ ((validAt S t.nRep j q).getD .zero).sigma2 ∧
          0 ≤ ((validAt S t.nRep j q).getD .zero).nu2 := by
        intro q
        unfold validAt
        have hq : (q : ℕ) < t.nRep := by rw [hnr]; exact q.2
        rw [dif_pos hq]
        simp only [Option.getD_some]
        apply validated_nonneg
        intro i
        obtain ⟨e, he, h1⟩ := hcell j hj i (by rw [← hnr]; exact i.2) S hS
        rw [he]; exact h1
      exact ⟨fun q => (key q).1, fun q => (key q).2⟩
  obtain ⟨fw, hfw⟩ := hcon
  rw [hfw]

/-- The model class that returns `o` in every cell. -/
def constSpec (o : CellOut n M) : Spec n P M :=
  ⟨[], [], false, true, true, none, fun _ => .ok o⟩

theorem const_cell {F : Frame n} {o : CellOut n M} (ho : o.preds = []) (ht : o.targets = []) {p m : Bool}
    {s : MState n P M} {l : List (List (Fold n))} (hl : s.smpls = some l) (hd : s.data.d.length = 1) (hs : Shaped s)
    {k : ℕ} (hk : k < l.length) (hk' : k < s.nRep) : (fitCell F (constSpec o) .none p m s (k, 0)).2 = .ok () := by
  obtain ⟨tv, htv⟩ := List.length_eq_one_iff.1 hd
  have hact : activate F s.data 0 = .ok s.data := by simp [activate, htv]
  have hrep : repSmpls s k = .ok l[k] := by simp [repSmpls, hl, hk]
  have hin : ∀ tv, cellIn (constSpec (P := P) o) { s with data := s.data } .none m tv k =
      .ok ⟨s.data, tv, l[k], none, [], [], s.start, m, k⟩ := by
    intro tv
    unfold cellIn
    have h1 : setExt n .none (constSpec (n := n) (P := P) o).learners tv k = .ok [] := rfl
    have h2 : ∀ f, repCluster (constSpec o) s f k = .ok none := fun f => rfl
    have h3 : (constSpec (P := P) o).learners.mapM (getParams s tv k) = .ok [] := rfl
    simp only [h1, hrep, h2, h3, bind, Except.bind]
    rfl
  unfold fitCell
  rw [hact]
  dsimp only
  rw [hin]
  show (storeCell (constSpec o) p m { s with data := s.data, start := o.start } k 0 o).2 = _
  unfold storeCell
  rw [if_pos ⟨by show 0 < (s.heap s.arr).nT; rw [hs.nT, hd]; exact one_pos, by show k < (s.heap s.arr).nR; rw [hs.nR]; exact hk'⟩]
  rw [ho, ht]
  rfl

theorem const_loop {F : Frame n} {o : CellOut n M} (ho : o.preds = []) (ht : o.targets = []) {p m : Bool}
    {s : MState n P M} {l : List (List (Fold n))} (hl : s.smpls = some l) (hd : s.data.d.length = 1) (hs : Shaped s)
    (hk : s.nRep ≤ l.length) (cells : List (ℕ × ℕ)) (hc : ∀ c ∈ cells, c.1 < s.nRep ∧ c.2 = 0) :
    (fitLoop F (constSpec o) .none p m s cells).2 = .ok () := by
  induction cells generalizing s with
  | nil => rfl
  | cons c cs ih =>
    obtain ⟨k, j⟩ := c
    obtain ⟨h1, h2⟩ := hc (k, j) (by simp)
    dsimp only at h1 h2
    subst h2
    have hcell := const_cell (F := F) ho ht (p := p) (m := m) hl hd hs (k := k) (by omega) h1
    have hf := fitCell_frame F (constSpec o) .none p m s (k, 0)
    unfold fitLoop
    rcases hq : fitCell F (constSpec o) .none p m s (k, 0) with ⟨t, (e | u)⟩
    · rw [hq] at hcell; cases hcell
    · rw [hq] at hf
      dsimp only at hf ⊢
      refine ih (by rw [hf.settings.smpls, hl]) (by rw [hf.settings.data.d, hd]) (hs.frame hf)
        (by rw [hf.settings.nRep]; exact hk) ?_
      intro c hcc
      rw [hf.settings.nRep]
      exact hc c (by simp [hcc])

/-- The constant class can always be fitted. -/
theorem const_fit {F : Frame n} {o : CellOut n M} (ho : o.preds = []) (ht : o.targets = []) (hsg : 0 ≤ o.sens.sigma2)
    {s : MState n P M} {l : List (List (Fold n))} (hl : s.smpls = some l) (hd : s.data.d.length = 1) (hs : Shaped s)
    (hk : s.nRep ≤ l.length) : (fit F (constSpec o) s {}).2 = .ok () := by
  have hc : checkFit (constSpec o) s {} = .ok (true, false) := rfl
  refine fit_ok_of_loop rfl (fun c o' h => by cases h; exact hsg) hs hc ?_
  refine const_loop (s := initFit (constSpec o) s true false) ho ht hl hd ⟨hs.pos, hs.nT, hs.nR⟩ hk _ ?_
  intro c hcc
  obtain ⟨k, j⟩ := c
  have := mem_cellOrder.1 hcc
  rw [hd] at this
  exact ⟨this.1, by show j = 0; omega⟩

end DML
