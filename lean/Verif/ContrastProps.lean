import Verif.MultiProps
import Verif.FitTotal
import Verif.DataProps

/-!
# C48: causal contrasts of `DoubleMLAPOS`
-/

namespace DML

variable {n : ℕ} {P M : Type} {L : Type}

/-! ## Which pairs are compared -/

theorem mem_notSkipped {p : ℕ} {skip : List ℕ} {i : ℕ} : i ∈ notSkipped p skip ↔ i < p ∧ i ∉ skip := by
  simp [notSkipped]

variable [DecidableEq L]

theorem idxOf_of_getElem? {levels : List L} (h : levels.Nodup) {r : ℕ} {l : L} (hl : levels[r]? = some l) :
    levels.idxOf l = r := by
  obtain ⟨hr, rfl⟩ := List.getElem?_eq_some_iff.1 hl
  exact h.idxOf_getElem r hr

theorem getElem?_idxOf {levels : List L} {l : L} (h : l ∈ levels) : levels[levels.idxOf l]? = some l := by
  rw [List.getElem?_eq_getElem (List.idxOf_lt_length_of_mem h), List.getElem_idxOf]

theorem mem_contrastPairs_aux {levels : List L} (hl : levels.Nodup) {refs : List L} (hs : refs ⊆ levels) (skip : List ℕ)
    (i r : ℕ) : (i, r) ∈ contrastPairs levels refs skip ↔
      ∃ t ref, refs[t]? = some ref ∧ levels[r]? = some ref ∧ i < levels.length ∧ i ≠ r ∧ i ∉ skip ∧
        ∀ l, levels[i]? = some l → l ∉ refs.take t := by
  induction refs generalizing skip with
  | nil => simp [contrastPairs]
  | cons ref refs ih =>
    have hmem : ref ∈ levels := hs (by simp)
    have hgi := getElem?_idxOf hmem
    rw [contrastPairs]
    rw [List.mem_append, ih (fun x hx => hs (by simp [hx]))]
    constructor
    · rintro (h | ⟨t, r', h1, h2, h3, h4, h5, h6⟩)
      · obtain ⟨j, hj, he⟩ := List.mem_map.1 h
        obtain ⟨rfl, rfl⟩ := Prod.mk.inj he
        obtain ⟨hj1, hj2⟩ := mem_notSkipped.1 hj
        simp only [List.mem_cons, not_or] at hj2
        exact ⟨0, ref, rfl, hgi, hj1, hj2.1, hj2.2, fun l _ => by simp⟩
      · refine ⟨t + 1, r', by simpa using h1, h2, h3, h4, ?_, ?_⟩
        · intro hh; exact h5 (by simp [hh])
        · intro l hli
          simp only [List.take_succ_cons, List.mem_cons, not_or]
          refine ⟨?_, h6 l hli⟩
          rintro rfl
          exact h5 (by simp [idxOf_of_getElem? hl hli])
    · rintro ⟨t, r', h1, h2, h3, h4, h5, h6⟩
      cases t with
      | zero =>
        simp only [List.getElem?_cons_zero, Option.some.injEq] at h1
        subst h1
        left
        rw [idxOf_of_getElem? hl h2]
        refine List.mem_map.2 ⟨i, mem_notSkipped.2 ⟨h3, ?_⟩, rfl⟩
        simp [h4, h5]
      | succ t =>
        right
        refine ⟨t, r', by simpa using h1, h2, h3, h4, ?_, ?_⟩
        · simp only [List.mem_cons, not_or]
          refine ⟨?_, h5⟩
          rintro rfl
          exact h6 ref hgi (by simp)
        · intro l hli hlt
          exact h6 l hli (by simp [List.take_succ_cons, hlt])

/-- The place of a contrast in the result: first the position of its reference among the given references, then the
position of its level. -/
def contrastKey (levels refs : List L) (p : ℕ × ℕ) : ℕ ×ₗ ℕ :=
  toLex ((levels[p.2]?).elim 0 refs.idxOf, p.1)

theorem contrastPairs_order {levels : List L} (hl : levels.Nodup) {refs : List L} (hn : refs.Nodup) (hs : refs ⊆ levels)
    (pre : List L) (hp : (pre ++ refs).Nodup) (skip : List ℕ) :
    (contrastPairs levels refs skip).Pairwise fun p q => contrastKey levels (pre ++ refs) p < contrastKey levels (pre ++ refs) q := by
  induction refs generalizing pre skip with
  | nil => exact List.Pairwise.nil
  | cons ref refs ih =>
    have hmem : ref ∈ levels := hs (by simp)
    have hgi := getElem?_idxOf hmem
    have hs' : refs ⊆ levels := fun x hx => hs (by simp [hx])
    have hpre : ref ∉ pre := by
      intro h
      have := List.nodup_append.1 hp
      exact this.2.2 ref h ref (by simp) rfl
    have hk : (pre ++ ref :: refs).idxOf ref = pre.length := by
      rw [List.idxOf_append_of_notMem hpre, List.idxOf_cons_self, Nat.add_zero]
    rw [contrastPairs]
    refine List.pairwise_append.2 ⟨?_, ?_, ?_⟩
    · rw [List.pairwise_map]
      have hsort : (notSkipped levels.length (levels.idxOf ref :: skip)).Pairwise (· < ·) :=
        List.Pairwise.filter _ List.pairwise_lt_range
      refine hsort.imp ?_
      intro a b hab
      unfold contrastKey
      rw [Prod.Lex.toLex_lt_toLex]
      right
      exact ⟨rfl, hab⟩
    · have := ih (List.nodup_cons.1 hn).2 hs' (pre ++ [ref]) (by simpa using hp) (levels.idxOf ref :: skip)
      simpa using this
    · intro p hpm q hqm
      obtain ⟨j, _, rfl⟩ := List.mem_map.1 hpm
      obtain ⟨i, r⟩ := q
      obtain ⟨t, r', h1, h2, _⟩ := (mem_contrastPairs_aux hl hs' _ i r).1 hqm
      unfold contrastKey
      rw [Prod.Lex.toLex_lt_toLex]
      left
      dsimp only
      rw [hgi, h2]
      simp only [Option.elim_some]
      rw [hk]
      have hr' : r' ∈ refs := List.mem_of_getElem? h1
      have hr1 : r' ∉ pre := by
        intro h
        exact (List.nodup_append.1 hp).2.2 r' h r' (by simp [hr']) rfl
      have hr2 : ref ≠ r' := by
        rintro rfl
        exact (List.nodup_cons.1 hn).1 hr'
      rw [List.idxOf_append_of_notMem hr1, List.idxOf_cons_ne _ hr2]
      omega

/-- **C48.** For distinct treatment levels and distinct references among them: `(i, r)` is compared exactly when the level
`r` is a reference, `i` is another level and the level `i` is not an earlier reference; for two different levels
exactly one of the two directions is computed if one of them is a reference, and none otherwise; the comparisons
appear in the order of the given references and, for the same reference, in the order of the levels. -/
theorem C48_pairs {levels : List L} (hl : levels.Nodup) {refs : List L} (hn : refs.Nodup) (hs : refs ⊆ levels) :
    (∀ i r : Fin levels.length, (i.val, r.val) ∈ contrastPairs levels refs [] ↔
      i ≠ r ∧ levels[r] ∈ refs ∧ (levels[i] ∈ refs → refs.idxOf levels[r] < refs.idxOf levels[i])) ∧
    (∀ p ∈ contrastPairs levels refs [], p.1 < levels.length ∧ p.2 < levels.length) ∧
    (∀ i r : Fin levels.length, i ≠ r →
      ((levels[i] ∈ refs ∨ levels[r] ∈ refs) →
        (((i.val, r.val) ∈ contrastPairs levels refs [] ∧ (r.val, i.val) ∉ contrastPairs levels refs []) ∨
          ((r.val, i.val) ∈ contrastPairs levels refs [] ∧ (i.val, r.val) ∉ contrastPairs levels refs []))) ∧
      (levels[i] ∉ refs → levels[r] ∉ refs →
        (i.val, r.val) ∉ contrastPairs levels refs [] ∧ (r.val, i.val) ∉ contrastPairs levels refs [])) ∧
    (contrastPairs levels refs []).Nodup ∧
    (contrastPairs levels refs []).Pairwise fun p q => contrastKey levels refs p < contrastKey levels refs q := by
  have key : ∀ i r : Fin levels.length, (i.val, r.val) ∈ contrastPairs levels refs [] ↔
      i ≠ r ∧ levels[r] ∈ refs ∧ (levels[i] ∈ refs → refs.idxOf levels[r] < refs.idxOf levels[i]) := by
    intro i r
    rw [mem_contrastPairs_aux hl hs]
    constructor
    · rintro ⟨t, ref, h1, h2, _, h4, _, h6⟩
      have hr : levels[r] = ref := by
        have := List.getElem?_eq_some_iff.1 h2
        exact this.2
      have hmem : levels[r] ∈ refs := by rw [hr]; exact List.mem_of_getElem? h1
      refine ⟨fun h => h4 (congrArg _ h), hmem, ?_⟩
      intro hi
      have ht : refs.idxOf levels[r] = t := by rw [hr]; exact idxOf_of_getElem? hn h1
      rw [ht]
      by_contra hlt
      have h6' := h6 levels[i] (by simp)
      apply h6'
      have hne : refs.idxOf levels[i] ≠ t := by
        intro h
        have e1 := getElem?_idxOf hi
        rw [h, h1, ← hr] at e1
        have := (List.Nodup.getElem_inj_iff hl).1 (Option.some.inj e1)
        exact h4 this.symm
      rw [List.mem_take_iff_getElem]
      refine ⟨refs.idxOf levels[i], ?_, ?_⟩
      · have := List.idxOf_lt_length_of_mem hi
        omega
      · exact List.getElem_idxOf _
    · rintro ⟨h1, h2, h3⟩
      refine ⟨refs.idxOf levels[r], levels[r], getElem?_idxOf h2, by simp, i.2, fun h => h1 (Fin.ext h), by simp, ?_⟩
      intro l hl' hmem
      have : levels[i] = l := by
        have := List.getElem?_eq_some_iff.1 hl'
        exact this.2
      rw [← this] at hmem
      have hi := List.mem_of_mem_take hmem
      have h4 := h3 hi
      obtain ⟨t, ht, he⟩ := List.mem_take_iff_getElem.1 hmem
      have e := hn.idxOf_getElem t (by omega)
      rw [he] at e
      omega
  have hpw := contrastPairs_order hl hn hs [] (by simpa using hn) []
  rw [List.nil_append] at hpw
  refine ⟨key, ?_, ?_, ?_, hpw⟩
  · rintro ⟨i, r⟩ hp
    obtain ⟨t, ref, h1, h2, h3, _⟩ := (mem_contrastPairs_aux hl hs [] i r).1 hp
    exact ⟨h3, (List.getElem?_eq_some_iff.1 h2).1⟩
  · intro i r hir
    rw [key, key]
    have hinj : levels[i] ∈ refs → levels[r] ∈ refs → refs.idxOf levels[i] ≠ refs.idxOf levels[r] := by
      intro h1 h2 h
      have e1 := getElem?_idxOf h1
      rw [h, getElem?_idxOf h2] at e1
      exact hir (Fin.ext ((List.Nodup.getElem_inj_iff hl).1 (Option.some.inj e1)).symm)
    constructor
    · intro hor
      by_cases h1 : levels[i] ∈ refs <;> by_cases h2 : levels[r] ∈ refs
      · have := hinj h1 h2
        rcases Nat.lt_or_gt_of_ne this with h | h
        · right
          exact ⟨⟨fun e => hir e.symm, h1, fun _ => h⟩, fun hh => by have := hh.2.2 h1; omega⟩
        · left
          exact ⟨⟨hir, h2, fun _ => h⟩, fun hh => by have := hh.2.2 h2; omega⟩
      · right
        exact ⟨⟨fun e => hir e.symm, h1, fun h => absurd h h2⟩, fun hh => h2 hh.2.1⟩
      · left
        exact ⟨⟨hir, h2, fun h => absurd h h1⟩, fun hh => h1 hh.2.1⟩
      · exact absurd hor (not_or.2 ⟨h1, h2⟩)
    · intro h1 h2
      exact ⟨fun hh => h2 hh.2.1, fun hh => h1 hh.2.1⟩
  · exact hpw.imp fun h e => by subst e; exact absurd h (lt_irrefl _)

/-- Four levels, two references: the contrasts in their order. -/
example : contrastPairs [10, 20, 30, 40] [30, 10] [] = [(0, 2), (1, 2), (3, 2), (1, 0), (3, 0)] ∧
    [10, 20, 30, 40].Nodup ∧ [30, 10].Nodup ∧ [30, 10] ⊆ [10, 20, 30, 40] := by decide

/-- A reference given twice leads to its contrasts being returned twice. -/
example : contrastPairs [10, 20, 30] [10, 10] [] = [(1, 0), (2, 0), (1, 0), (2, 0)] := by decide

/-! ## Frameworks of fitted models -/

omit [DecidableEq L] in
/-- Joining any number of compatible frameworks succeeds. -/
theorem FW.concat_plain {r : ℕ} {v : ℝ} {As : List (FW n r)} (h0 : As ≠ []) (h : ∀ A ∈ As, A.Plain v) :
    ∃ R, FW.concat As = .ok R ∧ R.Plain v := by
  have hlen : ∀ {α : Type} (f : FW n r → List α), (∀ A ∈ As, (f A).length = A.blocks.length) →
      (As.map f).flatten.length = (As.map FW.blocks).flatten.length := by
    intro α f hf
    rw [List.length_flatten, List.length_flatten, List.map_map, List.map_map]
    congr 1
    exact List.map_congr_left hf
  cases As with
  | nil => exact absurd rfl h0
  | cons A As =>
    unfold FW.concat
    dsimp only
    rw [if_neg, if_neg, if_neg]
    rotate_left
    · rintro ⟨B, hB, hc⟩
      rw [(h B hB).2.1] at hc
      cases hc
    · rintro ⟨B, hB, hc⟩
      refine hc ⟨fun hh => (by cases hh), ?_⟩
      rw [(h B (by simp [hB])).2.1, (h A (by simp)).2.1]
    · rintro ⟨B, hB, hc⟩
      exact hc (h B hB).1
    generalize hR : ({ blocks := ((A :: As).map FW.blocks).flatten
                       cluster := none
                       sens := if ∀ B ∈ A :: As, B.sens.isSome then
                           some ((A :: As).map fun B => B.sens.getD []).flatten else none
                       bench := if ∀ B ∈ A :: As, B.sens.isSome ∧ B.bench.isSome then
                           some ((A :: As).map fun B => B.bench.getD []).flatten else none
                       names := none } : FW n r) = R
    have hshape : R.shapesOk := by
      subst hR
      refine ⟨?_, ?_⟩
      · intro s hs
        dsimp only at hs ⊢
        split_ifs at hs with hall
        · obtain rfl := Option.some.inj hs
          refine hlen _ ?_
          intro B hB
          obtain ⟨sb, hsb⟩ := Option.isSome_iff_exists.1 (hall B hB)
          rw [hsb]
          exact (h B hB).1.1 sb hsb
        · cases hs
      · intro _ s hs
        dsimp only at hs ⊢
        split_ifs at hs with hall
        · obtain rfl := Option.some.inj hs
          refine hlen _ ?_
          intro B hB
          obtain ⟨sb, hsb⟩ := Option.isSome_iff_exists.1 (hall B hB).2
          rw [hsb]
          exact (h B hB).1.2 (hall B hB).1 sb hsb
        · cases hs
    have hbench : ∀ bs ∈ R.normBench.bench, ∀ b ∈ bs, b.ok := by
      intro bs hbs b hb
      have hbs' : bs ∈ R.bench := by
        simp only [FW.normBench] at hbs
        split_ifs at hbs with h
        · exact hbs
        · cases hbs
      subst hR
      dsimp only at hbs'
      split_ifs at hbs' with hall
      · obtain rfl := Option.some.inj hbs'
        obtain ⟨l, hl, hbl⟩ := List.mem_flatten.1 hb
        obtain ⟨B, hB, rfl⟩ := List.mem_map.1 hl
        obtain ⟨sb, hsb⟩ := Option.isSome_iff_exists.1 (hall B hB).2
        rw [hsb] at hbl
        exact (h B hB).2.2.1 sb hsb b hbl
      · cases hbs'
    have hvsf : ∀ b ∈ R.blocks, b.vsf = v := by
      subst hR
      intro b hb
      obtain ⟨l, hl, hbl⟩ := List.mem_flatten.1 hb
      obtain ⟨B, hB, rfl⟩ := List.mem_map.1 hl
      exact (h B hB).2.2.2 b hbl
    have hcl : R.cluster = none := by subst hR; rfl
    have hnm : R.names = none := by subst hR; rfl
    rw [FW.construct_eq_ok (FW.shapesOk_normBench hshape) hbench (by intro ns hns; rw [hnm] at hns; cases hns)]
    exact ⟨_, rfl, FW.shapesOk_normBench hshape, hcl, hbench, hvsf⟩

/-- What a successfully fitted model with one treatment and `r` repetitions holds: a framework with a single parameter
whose estimates are the stored ones and whose variance scaling factor is `v`. -/
structure FittedOne (m : MState n P M) (r : ℕ) (v : ℝ) (A : FW n r) (b : Block n r) : Prop where
  fw : m.fw? = some ⟨r, A⟩
  plain : A.Plain v
  blocks : A.blocks = [b]
  theta : ∀ k : Fin r, b.allTheta k = ((m.heap m.arr).coef 0 k).getD 0
  one : m.data.d.length = 1

omit [DecidableEq L] in
/-- Every class without clusters whose scaling factor without clusters is `v` leaves such a model behind. -/
theorem fitted_one {F : Frame n} {sp : Spec n P M} (hv : sp.vars = none) {v : ℝ}
    (hvs : ∀ c o, c.cluster = none → sp.est c = .ok o → o.fit.vsf = v) {s : MState n P M} {a : FitArgs} (hs : Shaped s)
    (h1 : s.data.d.length = 1) (h : (fit F sp s a).2 = .ok ()) {r : ℕ} (hr : s.nRep = r) :
    ∃ A b, FittedOne (fit F sp s a).1 r v A b ∧
      (sp.sensImpl = true → ∃ S, (fit F sp s a).1.sens = some S ∧
        ∀ k : Fin r, 0 ≤ ((S 0 k).getD .zero).sigma2 ∧ 0 ≤ ((S 0 k).getD .zero).nu2) := by
  obtain ⟨p, m, fw, hc, hl, hcon, heq⟩ := fit_ok h
  have hf := (initFit_frame sp s p m).trans
    (fitLoop_frame F sp a.ext p m (cellOrder s.nRep s.data.d.length) (initFit sp s p m))
  have hT := fitLoop_tables (F := F) (ext := a.ext) (p := p) (m := m) (cellOrder s.nRep s.data.d.length)
    (initFit_tables sp s p m) hl
  have hvsf : ((fitLoop F sp a.ext p m (initFit sp s p m) (cellOrder s.nRep s.data.d.length)).1.heap
      (fitLoop F sp a.ext p m (initFit sp s p m) (cellOrder s.nRep s.data.d.length)).1.arr).vsf 0 = some v := by
    obtain ⟨L1, L2, hL, hL2⟩ := cellOrder_split (r := s.nRep) (t := s.data.d.length) (j := 0) hs.pos (by omega)
    rw [hL] at hl ⊢
    obtain ⟨o, ho, hvo⟩ := fitLoop_vsf L1 L2 _ hL2 hl
    obtain ⟨c, hcf, _, hce⟩ := ho.from
    rw [hvo, hvs c o (hcf.noCluster hv) hce]
  rw [heq]
  generalize (fitLoop F sp a.ext p m (initFit sp s p m) (cellOrder s.nRep s.data.d.length)).1 = t at *
  have hnr : (s.heap s.arr).nR = r := by rw [hs.nR, hr]
  generalize (s.heap s.arr).nR = q at *
  subst hnr
  obtain ⟨rfl, hsh, hbn, _⟩ := FW.construct_ok hcon
  have hnT : (t.heap t.arr).nT = 1 := by rw [hf.settings.nT, hs.nT, h1]
  have hd : t.data.d.length = 1 := by rw [hf.settings.data.d, h1]
  have hbl : (frameworkOf q sp (aggregate sp t)).normBench.blocks = [blockOf q (aggregate sp t) 0] := by
    show (List.range ((aggregate sp t).heap (aggregate sp t).arr).nT).map _ = _
    rw [show ((aggregate sp t).heap (aggregate sp t).arr).nT = 1 from hnT]
    rfl
  refine ⟨{ (frameworkOf q sp (aggregate sp t)).normBench with
      blocks := [{ blockOf q (aggregate sp t) 0 with
        allTheta := fun k => ((t.heap s.arr).coef 0 k).getD 0
        allSe := fun k => ((t.heap s.arr).se 0 k).getD 0
        vsf := ((t.heap s.arr).vsf 0).getD 0 }] }, _, ⟨?_, ⟨?_, ?_, hbn, ?_⟩, rfl, ?_, hd⟩, ?_⟩
  · unfold MState.fw? FwObj.view
    dsimp only [Option.map]
    rw [hbl]
    rfl
  · obtain ⟨g1, g2⟩ := hsh
    rw [hbl] at g1 g2
    exact ⟨g1, g2⟩
  · show sp.vars.map _ = none
    rw [hv]; rfl
  · intro b hb
    rw [List.mem_singleton] at hb
    subst hb
    dsimp only
    rw [← hf.arr, hvsf]
    rfl
  · intro k
    show ((t.heap s.arr).coef 0 k).getD 0 = ((t.heap t.arr).coef 0 k).getD 0
    rw [hf.arr]
  · intro hsi
    obtain ⟨S, hS⟩ := Option.isSome_iff_exists.1 (hT.sens hsi)
    have hag : (aggregate sp t).sens = some (validAt S t.nRep) := by
      show (if sp.sensImpl = true then t.sens.map fun S => validAt S t.nRep else t.sens) = _
      rw [if_pos hsi, hS]; rfl
    refine ⟨_, hag, ?_⟩
    have hsens : (frameworkOf q sp (aggregate sp t)).sens.isSome := by
      show (if sp.sensImpl = true then (aggregate sp t).sens.map _ else none).isSome = true
      rw [if_pos hsi, hag]; rfl
    have hbench : (frameworkOf q sp (aggregate sp t)).normBench.bench =
        some ((List.range t.data.d.length).map fun j => (sensBlock (validAt S t.nRep) q j).2) := by
      unfold FW.normBench
      dsimp only
      rw [if_pos hsens]
      show (if sp.sensImpl = true then (aggregate sp t).sens.map _ else none) = _
      rw [if_pos hsi, hag]; rfl
    have := hbn _ hbench (sensBlock (validAt S t.nRep) q 0).2 (List.mem_map.2 ⟨0, by simp [hd], rfl⟩)
    intro k
    exact ⟨this.1 k, this.2 k⟩

omit [DecidableEq L] in
theorem dynSub_plain {r : ℕ} {v : ℝ} {A B : FW n r} (hA : A.Plain v) (hB : B.Plain v) (hl : A.blocks.length = B.blocks.length) :
    ∃ R, (DynFW.mk r A).sub ⟨r, B⟩ = .ok ⟨r, R⟩ ∧ R.Plain v ∧ R.blocks = List.zipWith Block.sub A.blocks B.blocks := by
  obtain ⟨R, h1, h2, h3⟩ := (FW.bin_plain (op := Block.sub) (fun _ _ => rfl) hA hB).1 hl
  refine ⟨R, ?_, h2, (FW.bin_ok h1).1⟩
  unfold DynFW.sub
  dsimp only
  rw [castTo_self]
  show (do let R ← FW.sub A B; return DynFW.mk r R : Except Exc (DynFW n)) = _
  rw [show FW.sub A B = .ok R from h1]
  rfl

omit [DecidableEq L] in
theorem castTo_map {r : ℕ} (fs : List (FW n r)) : (fs.map (DynFW.mk r)).mapM (DynFW.castTo r) = .ok fs := by
  rw [mapM_ok_iff]
  induction fs with
  | nil => exact .nil
  | cons f fs ih => exact .cons (castTo_self f) ih

omit [DecidableEq L] in
theorem dynConcat_plain {r : ℕ} {v : ℝ} {fs : List (FW n r)} (h0 : fs ≠ []) (h : ∀ A ∈ fs, A.Plain v) :
    ∃ R, DynFW.concat (fs.map (DynFW.mk r)) = .ok ⟨r, R⟩ ∧ FW.concat fs = .ok R ∧ R.Plain v := by
  obtain ⟨R, h1, h2⟩ := FW.concat_plain h0 h
  refine ⟨R, ?_, h1, h2⟩
  cases fs with
  | nil => exact absurd rfl h0
  | cons f fs =>
    rw [List.map_cons]
    unfold DynFW.concat
    dsimp only
    have := castTo_map (f :: fs)
    rw [List.map_cons] at this
    rw [this]
    show (do let R ← FW.concat (f :: fs); return DynFW.mk r R : Except Exc (DynFW n)) = _
    rw [h1]
    rfl

omit [DecidableEq L] in
theorem getFw_fitted {m : MState n P M} {r : ℕ} {v : ℝ} {A : FW n r} {b : Block n r} (h : FittedOne m r v A b) :
    getFw m = .ok ⟨r, A⟩ := by
  unfold getFw; rw [h.fw]

/-! ## Specification of a contrast -/

/-- The sensitivity elements stored by a fitted model, repetition `k`. -/
def MState.sensAt (m : MState n P M) (k : ℕ) : SensElems n := ((m.sens.bind fun S => S 0 k)).getD .zero

/-- `b` and `e` are the contrast of the fitted models `m` (level) and `ref` (reference): the estimates are the differences
of the stored estimates, the influence functions the differences of theirs, all standard errors and the aggregated
estimate are the direct inference on this difference, and the bound on the omitted variable bias combines the average
residual variance with the sum of the squared norms of the representers. -/
structure IsContrast (m ref : MState n P M) {r : ℕ} (b : Block n r) (e : Sens n r) : Prop where
  theta : ∀ k : Fin r, b.allTheta k = ((m.heap m.arr).coef 0 k).getD 0 - ((ref.heap ref.arr).coef 0 k).getD 0
  psi : ∃ A A' bm br, m.fw? = some ⟨r, A⟩ ∧ ref.fw? = some ⟨r, A'⟩ ∧ A.blocks = [bm] ∧ A'.blocks = [br] ∧
    (∀ i k, b.psi i k = bm.psi i k - br.psi i k) ∧ b = (Influence.mk b.allTheta b.psi).direct bm.vsf
  bias : ∀ k : Fin r, e.maxBias k =
    √((((m.sensAt k).sigma2 + (ref.sensAt k).sigma2) / 2) * ((m.sensAt k).nu2 + (ref.sensAt k).nu2))

omit [DecidableEq L] in
theorem contrast_fitted {m ref : MState n P M} {r : ℕ} {v : ℝ} {A A' : FW n r} {b b' : Block n r}
    (hm : FittedOne m r v A b) (hr : FittedOne ref r v A' b')
    (hms : ∃ S, m.sens = some S ∧ ∀ k : Fin r, 0 ≤ ((S 0 k).getD .zero).sigma2 ∧ 0 ≤ ((S 0 k).getD .zero).nu2)
    (hrs : ∃ S, ref.sens = some S ∧ ∀ k : Fin r, 0 ≤ ((S 0 k).getD .zero).sigma2 ∧ 0 ≤ ((S 0 k).getD .zero).nu2) :
    ∃ C e, contrast m ref = .ok ⟨r, C⟩ ∧ C.Plain v ∧ C.blocks = [b.sub b'] ∧ C.sens = some [e] ∧
      IsContrast m ref (b.sub b') e := by
  obtain ⟨S, hS, hS0⟩ := hms
  obtain ⟨T, hT, hT0⟩ := hrs
  obtain ⟨R, h1, h2, h3⟩ := dynSub_plain hm.plain hr.plain (by rw [hm.blocks, hr.blocks]; rfl)
  rw [hm.blocks, hr.blocks] at h3
  let C : ℕ → ℕ → Option (SensElems n) := fun j k => some (contrastSens ((S j k).getD .zero) ((T j k).getD .zero))
  have hok : ∀ x ∈ (List.range m.data.d.length).map fun j => (sensBlock C r j).2, x.ok := by
    rw [hm.one]
    intro x hx
    simp only [List.range_one, List.map_cons, List.map_nil, List.mem_singleton] at hx
    subst hx
    constructor
    · intro k
      show 0 ≤ (_ + _) / 2
      have := (hS0 k).1
      have := (hT0 k).1
      positivity
    · intro k
      show 0 ≤ _ + _
      have := (hS0 k).2
      have := (hT0 k).2
      positivity
  have hset : setContrastSens R m.data.d.length m.sens ref.sens = .ok
      { R with sens := some [(sensBlock C r 0).1], bench := some [(sensBlock C r 0).2] } := by
    rw [hS, hT]
    unfold setContrastSens
    dsimp only
    rw [if_neg]
    · rw [hm.one]; rfl
    · rintro ⟨x, hx, hbad⟩
      exact hbad (hok x hx)
  refine ⟨{ R with sens := some [(sensBlock C r 0).1], bench := some [(sensBlock C r 0).2] }, (sensBlock C r 0).1, ?_,
    ⟨?_, h2.2.1, ?_, h2.2.2.2⟩, h3, rfl, ?_⟩
  · unfold contrast
    rw [getFw_fitted hm, getFw_fitted hr]
    show (do let R ← (DynFW.mk r A).sub ⟨r, A'⟩; let C ← setContrastSens R.fw m.data.d.length m.sens ref.sens
             return DynFW.mk R.r C : Except Exc (DynFW n)) = _
    rw [h1]
    show (do let C ← setContrastSens R m.data.d.length m.sens ref.sens; return DynFW.mk r C : Except Exc (DynFW n)) = _
    rw [hset]
    rfl
  · refine ⟨?_, ?_⟩
    · intro x hx
      obtain rfl := Option.some.inj hx
      show 1 = R.blocks.length
      rw [h3]; rfl
    · intro _ x hx
      obtain rfl := Option.some.inj hx
      show 1 = R.blocks.length
      rw [h3]; rfl
  · intro bs hbs x hx
    obtain rfl := Option.some.inj hbs
    apply hok
    rw [hm.one]
    simpa using hx
  · refine ⟨?_, ⟨A, A', b, b', hm.fw, hr.fw, hm.blocks, hr.blocks, fun _ _ => rfl, Block.sub_consistent b b'⟩, ?_⟩
    · intro k
      show b.allTheta k - b'.allTheta k = _
      rw [hm.theta, hr.theta]
    · intro k
      unfold MState.sensAt
      rw [hS, hT]
      rfl

/-- A sub-model as `causal_contrast` needs it. -/
def Ready (r : ℕ) (v : ℝ) (m : MState n P M) : Prop :=
  ∃ A b, FittedOne m r v A b ∧
    ∃ S, m.sens = some S ∧ ∀ k : Fin r, 0 ≤ ((S 0 k).getD .zero).sigma2 ∧ 0 ≤ ((S 0 k).getD .zero).nu2

theorem contrastPairs_ne_nil {levels : List L} (hl : levels.Nodup) {refs : List L} (hr : refs ≠ []) (hs : refs ⊆ levels)
    (h1 : levels.length ≠ 1) : contrastPairs levels refs [] ≠ [] := by
  cases refs with
  | nil => exact absurd rfl hr
  | cons ref refs =>
    have hmem := hs (show ref ∈ ref :: refs by simp)
    have hlt := List.idxOf_lt_length_of_mem hmem
    obtain ⟨i, hi, hne⟩ : ∃ i, i < levels.length ∧ i ≠ levels.idxOf ref := by
      by_cases h : levels.idxOf ref = 0
      · exact ⟨1, by omega, by omega⟩
      · exact ⟨0, by omega, by omega⟩
    intro h
    have : (i, levels.idxOf ref) ∈ contrastPairs levels (ref :: refs) [] := by
      rw [mem_contrastPairs_aux hl hs]
      exact ⟨0, ref, rfl, getElem?_idxOf hmem, hi, hne, by simp, by simp⟩
    rw [h] at this
    cases this

/-- The contrasts of sub-models that are ready. -/
theorem causalContrast_ready {levels : List L} (hl : levels.Nodup) (str : L → String) {s : Multi n P M} {refs : RefArg L}
    (hr : refs.list ≠ []) (hs : refs.list ⊆ levels) (h1 : levels.length ≠ 1) (hf : s.framework.isSome)
    {ms : List (MState n P M)} (hms : s.subs = some ms) (hlen : ms.length = levels.length) {r : ℕ} {v : ℝ}
    (hready : ∀ m ∈ ms, Ready r v m) :
    ∃ R es, causalContrast levels str s refs = .ok ⟨r, R⟩ ∧
      R.names = some ((contrastPairs levels refs.list []).map (contrastName str levels)) ∧ R.sens = some es ∧
      R.blocks.length = (contrastPairs levels refs.list []).length ∧
      es.length = (contrastPairs levels refs.list []).length ∧
      ∀ t i j : ℕ, (contrastPairs levels refs.list [])[t]? = some (i, j) → ∃ m ref b e, ms[i]? = some m ∧ ms[j]? = some ref ∧
        R.blocks[t]? = some b ∧ es[t]? = some e ∧ IsContrast m ref b e := by
  have hbd : ∀ p ∈ contrastPairs levels refs.list [], p.1 < ms.length ∧ p.2 < ms.length := by
    rintro ⟨i, q⟩ hp
    obtain ⟨t, ref, g1, g2, g3, _⟩ := (mem_contrastPairs_aux hl hs [] i q).1 hp
    rw [hlen]
    exact ⟨g3, (List.getElem?_eq_some_iff.1 g2).1⟩
  have hne := contrastPairs_ne_nil hl hr hs h1
  generalize hps : contrastPairs levels refs.list [] = ps at *
  obtain ⟨ds, hds, hall⟩ := mapM_exists (f := contrastAt ms) (l := ps)
    (Q := fun p (d : DynFW n) => ∃ (m ref : MState n P M) (C : FW n r) (b : Block n r) (e : Sens n r), d = ⟨r, C⟩ ∧ ms[p.1]? = some m ∧ ms[p.2]? = some ref ∧
      C.Plain v ∧ C.blocks = [b] ∧ C.sens = some [e] ∧ IsContrast m ref b e) (by
    intro p hp
    obtain ⟨hi, hj⟩ := hbd p hp
    obtain ⟨A, b, f1, f2⟩ := hready ms[p.1] (List.getElem_mem hi)
    obtain ⟨A', b', g1, g2⟩ := hready ms[p.2] (List.getElem_mem hj)
    obtain ⟨C, e, c1, c2, c3, c4, c5⟩ := contrast_fitted f1 g1 f2 g2
    refine ⟨⟨r, C⟩, ?_, ms[p.1], ms[p.2], C, b.sub b', e, rfl, by simp, by simp, c2, c3, c4, c5⟩
    unfold contrastAt
    rw [List.getElem?_eq_getElem hi, List.getElem?_eq_getElem hj]
    exact c1)
  obtain ⟨cs, hcs, hcs'⟩ : ∃ cs : List (FW n r), ds = cs.map (DynFW.mk r) ∧
      List.Forall₂ (fun p C => ∃ (m ref : MState n P M) (b : Block n r) (e : Sens n r), ms[p.1]? = some m ∧ ms[p.2]? = some ref ∧
      C.Plain v ∧ C.blocks = [b] ∧ C.sens = some [e] ∧ IsContrast m ref b e) ps cs := by
    clear hne hbd hds hps
    induction hall with
    | nil => exact ⟨[], rfl, .nil⟩
    | cons hab _ ih =>
      obtain ⟨m, ref, C, b, e, rfl, h2, h3, h4, h5, h6, h7⟩ := hab
      obtain ⟨cs, rfl, hcs⟩ := ih
      exact ⟨C :: cs, rfl, .cons ⟨m, ref, b, e, h2, h3, h4, h5, h6, h7⟩ hcs⟩
  have hcl : cs.length = ps.length := hcs'.length_eq.symm
  have hget : ∀ (t : ℕ) (C : FW n r), cs[t]? = some C → ∃ p, ps[t]? = some p ∧ ∃ (m ref : MState n P M) (b : Block n r) (e : Sens n r), ms[p.1]? = some m ∧ ms[p.2]? = some ref ∧
      C.Plain v ∧ C.blocks = [b] ∧ C.sens = some [e] ∧ IsContrast m ref b e := by
    intro t C hC
    obtain ⟨ht, rfl⟩ := List.getElem?_eq_some_iff.1 hC
    exact ⟨ps[t], by simp, (List.forall₂_iff_get.1 hcs').2 t (by omega) ht⟩
  have hplain : ∀ C ∈ cs, C.Plain v ∧ C.blocks.length = 1 ∧ ∃ e, C.sens = some [e] := by
    intro C hC
    obtain ⟨t, ht⟩ := List.getElem?_of_mem hC
    obtain ⟨p, _, m, ref, b, e, _, _, g1, g2, g3, _⟩ := hget t C ht
    exact ⟨g1, by rw [g2]; rfl, e, g3⟩
  have hcne : cs ≠ [] := by
    intro h
    rw [h] at hcl
    exact hne (List.length_eq_zero_iff.1 hcl.symm)
  obtain ⟨R, hR1, hR2, hR3⟩ := dynConcat_plain hcne fun C hC => (hplain C hC).1
  obtain ⟨_, hbl, _, _, _, hsn, _⟩ := FW.concat_ok hR2
  have hsn := hsn (by
    intro C hC
    obtain ⟨_, _, e, he⟩ := hplain C hC
    rw [he]; rfl)
  obtain ⟨l1, l2⟩ := flatten_singletons (l := cs.map FW.blocks) (by
    intro x hx
    obtain ⟨C, hC, rfl⟩ := List.mem_map.1 hx
    exact (hplain C hC).2.1)
  obtain ⟨k1, k2⟩ := flatten_singletons (l := cs.map fun B => B.sens.getD []) (by
    intro x hx
    obtain ⟨C, hC, rfl⟩ := List.mem_map.1 hx
    obtain ⟨_, _, e, he⟩ := hplain C hC
    rw [he]; rfl)
  have hRl : R.blocks.length = ps.length := by rw [hbl, l1, List.length_map, hcl]
  refine ⟨{ R with names := some (ps.map (contrastName str levels)) }, _, ?_, rfl, hsn, hRl,
    by rw [k1, List.length_map, hcl], ?_⟩
  · unfold causalContrast
    rw [if_neg (by rw [Option.isNone_iff_eq_none]; intro h; rw [h] at hf; cases hf), if_neg h1, if_neg (not_not.2 hs)]
    rw [hps, hms]
    show (do let fws ← ps.mapM (contrastAt ms); let acc ← DynFW.concat fws
             setNames acc (ps.map (contrastName str levels)) : Except Exc (DynFW n)) = _
    rw [hds, hcs]
    show (do let acc ← DynFW.concat (cs.map (DynFW.mk r)); setNames acc (ps.map (contrastName str levels)) : Except Exc (DynFW n)) = _
    rw [hR1]
    show setNames (⟨r, R⟩ : DynFW n) _ = _
    unfold setNames
    rw [if_pos (by rw [List.length_map, hRl])]
  · intro t i j ht
    have htl : t < cs.length := by rw [hcl]; exact (List.getElem?_eq_some_iff.1 ht).1
    obtain ⟨p, hp, m, ref, b, e, g1, g2, _, g4, g5, g6⟩ := hget t cs[t] (by simp)
    rw [ht] at hp
    obtain rfl := Option.some.inj hp
    refine ⟨m, ref, b, e, g1, g2, ?_, ?_, g6⟩
    · show R.blocks[t]? = some b
      rw [hbl]
      refine l2 t b ?_
      rw [List.getElem?_map, List.getElem?_eq_getElem htl, Option.map_some, g4]
    · refine k2 t e ?_
      rw [List.getElem?_map, List.getElem?_eq_getElem htl, Option.map_some, g5]
      rfl

/-- What is assumed about the classes of the sub-models: no clusters, sensitivity analysis, and a common variance scaling
factor (the number of observations). -/
structure PlainClass (v : ℝ) (c : SubClass n P M) : Prop where
  vars : c.spec.vars = none
  sens : c.spec.sensImpl = true
  vsf : ∀ x o, x.cluster = none → c.spec.est x = .ok o → o.fit.vsf = v

theorem apoExtArgs_length {levels : List L} {dCol : String} {e : ApoExt L} {es : List ExtArg}
    (h : apoExtArgs levels dCol e = .ok es) : es.length = levels.length := by
  unfold apoExtArgs at h
  cases e with
  | none => cases h; simp
  | notDict => cases h
  | dict items =>
    dsimp only at h
    obtain ⟨_, _, h⟩ := bind_ok h
    exact mapM_length h

/-- **C48.** After a successful `fit` of a `DoubleMLAPOS` object (distinct treatment levels, at least two, one sub-model per
level), `causal_contrast` succeeds for every non-empty selection of references among the levels: the result has one
parameter per pair described by `C48_pairs`, in this order, named "level vs reference"; the estimates of each are the
differences of the fitted average potential outcomes of the level and of the reference, with the corresponding
inference. -/
theorem C48_contrasts {F : Frame n} {levels : List L} (hl : levels.Nodup) (h1 : levels.length ≠ 1) (str : L → String)
    {dCol : String} {cs : List (SubClass n P M)} (hcs : cs.length = levels.length) {v : ℝ} (hc : ∀ c ∈ cs, PlainClass v c)
    {D : DataState n} (hD : D.d.length = 1) {s : Multi n P M} (hS : Synced cs D s) {a : FitArgs} {e : ApoExt L}
    (h : (apoFit F levels dCol cs s a e).2 = .ok ()) {refs : RefArg L} (hr : refs.list ≠ []) (hs : refs.list ⊆ levels) :
    ∃ ms R es, (apoFit F levels dCol cs s a e).1.subs = some ms ∧
      causalContrast levels str (apoFit F levels dCol cs s a e).1 refs = .ok ⟨s.nRep, R⟩ ∧
      R.names = some ((contrastPairs levels refs.list []).map (contrastName str levels)) ∧ R.sens = some es ∧
      R.blocks.length = (contrastPairs levels refs.list []).length ∧
      es.length = (contrastPairs levels refs.list []).length ∧
      ∀ t i j : ℕ, (contrastPairs levels refs.list [])[t]? = some (i, j) → ∃ m ref b e, ms[i]? = some m ∧ ms[j]? = some ref ∧
        R.blocks[t]? = some b ∧ es[t]? = some e ∧ IsContrast m ref b e := by
  unfold apoFit at h ⊢
  cases hx : apoExtArgs levels dCol e with
  | error e => rw [hx] at h; cases h
  | ok xs =>
    rw [hx] at h
    dsimp only at h ⊢
    have hxl := apoExtArgs_length hx
    obtain ⟨ms, ms', fs, ds, A, e1, e2, e3, e4, e5, e6⟩ := multiFit_ok h
    obtain ⟨hlen, S, hsm, hon⟩ := hS ms e1
    obtain ⟨g1, g2⟩ := fitSubs_ok e2 (by simp [hlen, hxl, hcs])
    rw [e6]
    have hready : ∀ m ∈ ms', Ready s.nRep v m := by
      intro m hm
      obtain ⟨i, hi⟩ := List.getElem?_of_mem hm
      have hil : i < ms.length := by rw [← g1]; exact (List.getElem?_eq_some_iff.1 hi).1
      have hic : i < cs.length := by omega
      have hix : i < xs.length := by omega
      obtain ⟨k1, k2⟩ := g2 i (cs[i], { a with ext := xs[i] }) ms[i] (by
        rw [List.getElem?_zipWith, List.getElem?_eq_getElem hic, List.getElem?_eq_getElem hix]) (by simp)
      rw [hi] at k2
      obtain rfl := Option.some.inj k2
      have hon0 := hon ms[i] (List.getElem_mem hil)
      have hcc := hc cs[i] (List.getElem_mem hic)
      obtain ⟨A, b, q1, q2⟩ := fitted_one hcc.vars hcc.vsf hon0.shaped (by rw [hon0.data.d]; exact hD) k1 hon0.nRep
      exact ⟨A, b, q1, q2 hcc.sens⟩
    obtain ⟨R, es, r1, r2, r3, r4, r5, r6⟩ := causalContrast_ready (s := { s with subs := some ms', framework := some ⟨A.r, { fw := A.fw }⟩ })
      hl str hr hs h1 rfl rfl (by rw [g1, hlen, hcs]) hready
    exact ⟨ms', R, es, rfl, r1, r2, r3, r4, r5, r6⟩

omit [DecidableEq L] in
/-- **C48.** The name of the comparison of the level `i` with the reference level `j` is "level vs reference". -/
theorem C48_names (str : L → String) (levels : List L) (i j : Fin levels.length) :
    contrastName str levels (i, j) = str levels[i] ++ " vs " ++ str levels[j] := by
  simp [contrastName]

example : contrastName toString [10, 20, 30] (2, 0) = "30 vs 10" := by decide

/-- **C48.** Invalid requests are rejected: before `fit`, with a single treatment level, or with references that are not
treatment levels. -/
theorem C48_rejects {levels : List L} (str : L → String) {s : Multi n P M} {refs : RefArg L}
    (h : s.framework = none ∨ levels.length = 1 ∨ ∃ l ∈ refs.list, l ∉ levels) :
    causalContrast levels str s refs = .error .valueError := by
  unfold causalContrast
  by_cases h1 : s.framework.isNone
  · rw [if_pos h1]
  rw [if_neg h1]
  by_cases h2 : levels.length = 1
  · rw [if_pos h2]
  rw [if_neg h2, if_pos]
  rcases h with h | h | ⟨l, hl, hn⟩
  · rw [h] at h1; exact absurd rfl h1
  · exact absurd h h2
  · exact fun hs => hn (hs hl)

omit [DecidableEq L] in
/-- For equal residual variances the bound of a contrast is at most the sum of the bounds of the two levels. -/
theorem C48_bias_sharper {σ ν ν' : ℝ} (h1 : 0 ≤ σ) (h2 : 0 ≤ ν) (h3 : 0 ≤ ν') :
    √(((σ + σ) / 2) * (ν + ν')) ≤ √(σ * ν) + √(σ * ν') := by
  rw [show (σ + σ) / 2 = σ by ring, Real.sqrt_mul h1, Real.sqrt_mul h1, Real.sqrt_mul h1, ← mul_add]
  refine mul_le_mul_of_nonneg_left (Real.sqrt_le_iff.2 ⟨by positivity, ?_⟩) (Real.sqrt_nonneg _)
  nlinarith [Real.sq_sqrt h2, Real.sq_sqrt h3, mul_nonneg (Real.sqrt_nonneg ν) (Real.sqrt_nonneg ν')]

/-! ## The objects can be fitted if their sub-models can -/

omit [DecidableEq L]

theorem fitSubs_total {F : Frame n} {cas : List (SubClass n P M × FitArgs)} {ms : List (MState n P M)}
    (h : ∀ (i : ℕ) ca m, cas[i]? = some ca → ms[i]? = some m → (DML.fit F ca.1.spec m ca.2).2 = .ok ()) :
    ∃ ms', fitSubs F cas ms = (ms', .ok ()) := by
  induction cas generalizing ms with
  | nil => exact ⟨ms, by unfold fitSubs; rfl⟩
  | cons ca cas ih =>
    cases ms with
    | nil => exact ⟨[], by unfold fitSubs; rfl⟩
    | cons m ms =>
      have h0 := h 0 ca m rfl rfl
      obtain ⟨ms', hms⟩ := ih (ms := ms) fun i ca m h1 h2 => h (i + 1) ca m (by simpa using h1) (by simpa using h2)
      unfold fitSubs
      rcases hq : DML.fit F ca.1.spec m ca.2 with ⟨m', (e | u)⟩
      · rw [hq] at h0; cases h0
      · dsimp only
        rw [hms]
        exact ⟨_, rfl⟩

/-- The frameworks of sub-models that have all been fitted successfully. -/
theorem fitSubs_frameworks {F : Frame n} {cas : List (SubClass n P M × FitArgs)} {v : ℝ}
    (hc : ∀ ca ∈ cas, ca.1.spec.vars = none ∧ ∀ x o, x.cluster = none → ca.1.spec.est x = .ok o → o.fit.vsf = v) {D : DataState n}
    (hD : D.d.length = 1) {S : List (List IdxPair)} {r k : ℕ} {ms : List (MState n P M)} (hlen : cas.length = ms.length)
    (hon : ∀ m ∈ ms, SubOn D S r k m) {ms' : List (MState n P M)} (h : fitSubs F cas ms = (ms', .ok ())) :
    ∃ fs : List (FW n r), ms'.mapM getFw = .ok (fs.map (DynFW.mk r)) ∧ fs.length = ms.length ∧
      ∀ A ∈ fs, A.Plain v ∧ A.blocks.length = 1 := by
  obtain ⟨g1, g2⟩ := fitSubs_ok h hlen
  have hready : ∀ m ∈ ms', ∃ A : DynFW n, getFw m = .ok A ∧ ∃ B : FW n r, A = ⟨r, B⟩ ∧ B.Plain v ∧ B.blocks.length = 1 := by
    intro m hm
    obtain ⟨i, hi⟩ := List.getElem?_of_mem hm
    have hil : i < ms.length := by rw [← g1]; exact (List.getElem?_eq_some_iff.1 hi).1
    have hic : i < cas.length := by omega
    obtain ⟨k1, k2⟩ := g2 i cas[i] ms[i] (by simp) (by simp)
    rw [hi] at k2
    obtain rfl := Option.some.inj k2
    have hon0 := hon ms[i] (List.getElem_mem hil)
    have hcc := hc cas[i] (List.getElem_mem hic)
    obtain ⟨A, b, q1, q2⟩ := fitted_one hcc.1 hcc.2 hon0.shaped (by rw [hon0.data.d]; exact hD) k1 hon0.nRep
    exact ⟨_, getFw_fitted q1, A, rfl, q1.plain, by rw [q1.blocks]; rfl⟩
  obtain ⟨ds, e1, e2⟩ := mapM_exists hready
  obtain ⟨fs, rfl, hfs⟩ : ∃ fs : List (FW n r), ds = fs.map (DynFW.mk r) ∧ ∀ A ∈ fs, A.Plain v ∧ A.blocks.length = 1 := by
    clear e1 hready g2 g1 h
    induction e2 with
    | nil => exact ⟨[], rfl, by simp⟩
    | cons hab _ ih =>
      obtain ⟨B, rfl, hB⟩ := hab
      obtain ⟨fs, rfl, hfs⟩ := ih
      exact ⟨B :: fs, rfl, by simpa using ⟨hB, hfs⟩⟩
  refine ⟨fs, e1, ?_, hfs⟩
  have := mapM_length e1
  rw [List.length_map] at this
  rw [this, g1]

theorem qteDiffs_total {r : ℕ} {v : ℝ} {Q : ℕ} {fs : List (FW n r)} (hl : fs.length = 2 * Q)
    (h : ∀ A ∈ fs, A.Plain v ∧ A.blocks.length = 1) :
    ∃ ds : List (FW n r), qteDiffs (fs.map (DynFW.mk r)) = .ok (ds.map (DynFW.mk r)) ∧ ds.length = Q ∧ ∀ A ∈ ds, A.Plain v := by
  induction Q generalizing fs with
  | zero =>
    have : fs = [] := List.length_eq_zero_iff.1 hl
    subst this
    exact ⟨[], rfl, rfl, by simp⟩
  | succ Q ih =>
    match fs, hl with
    | A0 :: A1 :: fs, hl =>
      obtain ⟨ds, h1, h2, h3⟩ := ih (fs := fs) (by simp at hl; omega) fun A hA => h A (by simp [hA])
      obtain ⟨p0, l0⟩ := h A0 (by simp)
      obtain ⟨p1, l1⟩ := h A1 (by simp)
      obtain ⟨R, hR, hp, _⟩ := dynSub_plain p1 p0 (by rw [l0, l1])
      refine ⟨R :: ds, ?_, by simp [h2], by simpa using ⟨hp, h3⟩⟩
      show (do let d ← (DynFW.mk r A1).sub ⟨r, A0⟩; let ds ← qteDiffs (fs.map (DynFW.mk r)); return d :: ds :
        Except Exc (List (DynFW n))) = _
      rw [hR, h1]
      rfl
    | [_], hl => simp at hl; omega
    | [], hl => simp at hl

/-- **C50.** `fit` of a `DoubleMLQTE` object cannot fail after all its sub-models have been fitted. -/
theorem C50_qte_total {F : Frame n} {cs : List (SubClass n P M)} {v : ℝ}
    (hc : ∀ c ∈ cs, c.spec.vars = none ∧ ∀ x o, x.cluster = none → c.spec.est x = .ok o → o.fit.vsf = v) {D : DataState n}
    (hD : D.d.length = 1) {s : Multi n P M} (hS : Synced cs D s) {ms : List (MState n P M)} (hms : s.subs = some ms) {Q : ℕ}
    (h0 : 0 < Q) (hQ : cs.length = 2 * Q) {a : FitArgs} (hext : a.ext.given = false)
    (hfit : ∀ (i : ℕ) c m, cs[i]? = some c → ms[i]? = some m → (DML.fit F c.spec m a).2 = .ok ()) :
    (qteFit F cs s a).2 = .ok () := by
  obtain ⟨hlen, S, hsm, hon⟩ := hS ms hms
  unfold qteFit
  rw [hext, if_neg (by simp)]
  obtain ⟨ms', hf⟩ := fitSubs_total (F := F) (cas := cs.map fun c => (c, a)) (ms := ms) (by
    intro i ca m h1 h2
    rw [List.getElem?_map, Option.map_eq_some_iff] at h1
    obtain ⟨c, hc, rfl⟩ := h1
    exact hfit i c m hc h2)
  obtain ⟨fs, e1, e2, e3⟩ := fitSubs_frameworks (v := v) (by
    intro ca hca
    obtain ⟨c, hcm, rfl⟩ := List.mem_map.1 hca
    exact hc c hcm) hD (by simp [hlen]) hon hf
  obtain ⟨ds, d1, d2, d3⟩ := qteDiffs_total (Q := Q) (by rw [e2, hlen, hQ]) e3
  obtain ⟨R, r1, _, _⟩ := dynConcat_plain (fs := ds) (by intro h; rw [h] at d2; simp at d2; omega) d3
  unfold multiFit
  rw [hms]
  dsimp only
  rw [hf]
  dsimp only
  unfold setFw
  have : ((ms'.mapM getFw).bind qteDiffs).bind DynFW.concat = .ok ⟨s.nRep, R⟩ := by
    rw [e1]
    show (qteDiffs (fs.map (DynFW.mk s.nRep))).bind DynFW.concat = _
    rw [d1]
    exact r1
  rw [this]

/-- `fit` of a `DoubleMLAPOS` object without external predictions cannot fail after all its sub-models have been
fitted. -/
theorem C48_apos_total [DecidableEq L] {F : Frame n} {levels : List L} {dCol : String} {cs : List (SubClass n P M)}
    (hcs : cs.length = levels.length) (h0 : levels ≠ []) {v : ℝ}
    (hc : ∀ c ∈ cs, c.spec.vars = none ∧ ∀ x o, x.cluster = none → c.spec.est x = .ok o → o.fit.vsf = v) {D : DataState n}
    (hD : D.d.length = 1) {s : Multi n P M} (hS : Synced cs D s) {ms : List (MState n P M)} (hms : s.subs = some ms)
    {a : FitArgs} (hext : a.ext = .none)
    (hfit : ∀ (i : ℕ) c m, cs[i]? = some c → ms[i]? = some m → (DML.fit F c.spec m a).2 = .ok ()) :
    (apoFit F levels dCol cs s a .none).2 = .ok () := by
  obtain ⟨hlen, S, hsm, hon⟩ := hS ms hms
  unfold apoFit
  rw [show apoExtArgs levels dCol .none = .ok (levels.map fun _ => ExtArg.none) from rfl]
  dsimp only
  have hcas : List.zipWith (fun c x => (c, { a with ext := x })) cs (levels.map fun _ => ExtArg.none) = cs.map fun c => (c, a) := by
    have ha : ({ a with ext := ExtArg.none } : FitArgs) = a := by rw [← hext]
    clear hfit hon hms hc hS hlen
    induction cs generalizing levels with
    | nil => rfl
    | cons c cs ih =>
      cases levels with
      | nil => cases hcs
      | cons l levels =>
        simp only [List.map_cons, List.zipWith_cons_cons, ha]
        by_cases hl : levels = []
        · subst hl
          have : cs = [] := List.length_eq_zero_iff.1 (by simpa using hcs)
          subst this
          rfl
        · have := ih (levels := levels) (by simpa using hcs) hl
          rw [this]
  rw [hcas]
  obtain ⟨ms', hf⟩ := fitSubs_total (F := F) (cas := cs.map fun c => (c, a)) (ms := ms) (by
    intro i ca m h1 h2
    rw [List.getElem?_map, Option.map_eq_some_iff] at h1
    obtain ⟨c, hc, rfl⟩ := h1
    exact hfit i c m hc h2)
  obtain ⟨fs, e1, e2, e3⟩ := fitSubs_frameworks (v := v) (by
    intro ca hca
    obtain ⟨c, hcm, rfl⟩ := List.mem_map.1 hca
    exact hc c hcm) hD (by simp [hlen]) hon hf
  obtain ⟨R, r1, _, _⟩ := dynConcat_plain (fs := fs) (by
    intro h
    rw [h, hlen, hcs] at e2
    exact h0 (List.length_eq_zero_iff.1 e2.symm)) fun A hA => (e3 A hA).1
  unfold multiFit
  rw [hms]
  dsimp only
  rw [hf]
  dsimp only
  unfold setFw
  have : ((ms'.mapM getFw).bind .ok).bind DynFW.concat = .ok ⟨s.nRep, R⟩ := by
    rw [e1]
    exact r1
  rw [this]

/-! ## Non-vacuity -/

/-- The output of the example class with estimate `c`. -/
noncomputable def exOut (c : ℝ) : CellOut n Unit :=
  { fit := ⟨c, 1, n, fun _ => 0, fun _ => -1⟩
    preds := []
    targets := []
    models := []
    sens := ⟨1, 1, fun _ => 0, fun _ => 0, fun _ => 0⟩
    start := 0 }

/-- A sub-model class that always reports the estimate `c`. -/
noncomputable def exConst (c : ℝ) : SubClass n Unit Unit := ⟨constSpec (exOut c), 0, fun _ => .ok ()⟩

theorem exConst_plain (c : ℝ) : PlainClass (n : ℝ) (exConst c : SubClass n Unit Unit) :=
  ⟨rfl, rfl, fun x o _ h => by cases h; rfl⟩

theorem exConst_fit {F : Frame n} {D : DataState n} (hD : D.d.length = 1) {S : List (List IdxPair)} {r k : ℕ} (hS : S.length = r)
    {m : MState n Unit Unit} (h : SubOn D S r k m) (c : ℝ) : (fit F (exConst c).spec m {}).2 = .ok () := by
  refine const_fit rfl rfl (by show (0 : ℝ) ≤ 1; norm_num) h.smpls (by rw [h.data.d]; exact hD) h.shaped ?_
  rw [h.nRep, List.length_map, hS]

/-- A `DoubleMLAPOS` object with three levels, two folds and two repetitions can be created and fitted, and all
hypotheses of `C48_contrasts` hold for it. -/
example (w : Draws 2) : ∃ s, apoCreate [exConst 1, exConst 3, exConst 7] exState 2 2 true w = .ok s ∧
    (∀ c ∈ [exConst 1, exConst 3, exConst 7], PlainClass (2 : ℝ) (c : SubClass 2 Unit Unit)) ∧
    Synced [exConst 1, exConst 3, exConst 7] exState s ∧ exState.d.length = 1 ∧
    (apoFit exFrame [0, 1, 2] "d" [exConst 1, exConst 3, exConst 7] s {} .none).2 = .ok () := by
  have hc : ∀ c ∈ [exConst 1, exConst 3, exConst 7], PlainClass (2 : ℝ) (c : SubClass 2 Unit Unit) := by
    intro c hc
    simp only [List.mem_cons, List.not_mem_nil, or_false] at hc
    rcases hc with rfl | rfl | rfl <;> exact_mod_cast exConst_plain _
  have hck : ∀ c ∈ [exConst 1, exConst 3, exConst 7], ∀ r, (c : SubClass 2 Unit Unit).check r = .ok () := by simp [exConst]
  obtain ⟨ms, S, h1, h2, h3, h4⟩ := apoCreate_eq (fun c h => (hc c h).vars) hck exState (k := 2) (r := 2) (by norm_num) (by norm_num) w
  have hsy := apoCreate_synced (fun c h => (hc c h).vars) hck exState h1
  refine ⟨_, h1, hc, hsy, rfl, ?_⟩
  refine C48_apos_total (L := ℕ) (levels := [0, 1, 2]) rfl (by simp) (v := 2) (fun c h => ⟨(hc c h).vars, (hc c h).vsf⟩) (D := exState) rfl hsy rfl rfl ?_
  intro i c m hci hmi
  have hcm := List.mem_of_getElem? hci
  have hmm := h4 m (List.mem_of_getElem? hmi)
  obtain ⟨_, _, _, hl, _⟩ := multiDraw_ok h2
  simp only [List.mem_cons, List.not_mem_nil, or_false] at hcm
  rcases hcm with rfl | rfl | rfl <;> exact exConst_fit rfl hl hmm _

/-- A `DoubleMLQTE` object with two quantiles can be created and fitted. -/
example (w : Draws 2) : ∃ s, qteCreate [exConst 1, exConst 3, exConst 5, exConst 8] exState 2 2 true w = .ok s ∧
    Synced [exConst 1, exConst 3, exConst 5, exConst 8] exState s ∧
    (qteFit exFrame [exConst 1, exConst 3, exConst 5, exConst 8] s {}).2 = .ok () := by
  have hc : ∀ c ∈ [exConst 1, exConst 3, exConst 5, exConst 8], PlainClass (2 : ℝ) (c : SubClass 2 Unit Unit) := by
    intro c hc
    simp only [List.mem_cons, List.not_mem_nil, or_false] at hc
    rcases hc with rfl | rfl | rfl | rfl <;> exact_mod_cast exConst_plain _
  have hck : ∀ c ∈ [exConst 1, exConst 3, exConst 5, exConst 8], ∀ r, (c : SubClass 2 Unit Unit).check r = .ok () := by simp [exConst]
  obtain ⟨S, hd⟩ : ∃ S, multiDraw 2 2 w = .ok S := ⟨_, rfl⟩
  obtain ⟨g1, g2, _, g3, g4, g5, g6⟩ := multiDraw_ok hd
  have h0 : S ≠ [] := fun h => by rw [h] at g3; simp at g3
  obtain ⟨ms, e1, e2, e3⟩ := reinit_eq (fun c h => (hc c h).vars) hck exState w
    { (multiEmpty (n := 2) (P := Unit) (M := Unit) 2 2) with smpls := some S } rfl h0 g3
    (by show 1 ≤ 2; norm_num) (nested_accepted h0 (by show 1 ≤ 2; norm_num) g4 g5 g6)
  obtain ⟨ms', f1, f2, f3⟩ := reinit_eq (fun c h => (hc c h).vars) hck exState w
    { (multiEmpty (n := 2) (P := Unit) (M := Unit) 2 2) with smpls := some S, subs := some ms } rfl h0 g3
    (by show 1 ≤ 2; norm_num) (nested_accepted h0 (by show 1 ≤ 2; norm_num) g4 g5 g6)
  have hcr : qteCreate [exConst 1, exConst 3, exConst 5, exConst 8] exState 2 2 true w =
      .ok { (multiEmpty (n := 2) (P := Unit) (M := Unit) 2 2) with smpls := some S, subs := some ms' } := by
    unfold qteCreate qteDraw setDrawn
    rw [if_pos (show true = true from rfl)]
    rw [show multiDraw (multiEmpty (n := 2) (P := Unit) (M := Unit) 2 2).nFolds (multiEmpty (n := 2) (P := Unit) (M := Unit) 2 2).nRep w = .ok S from hd]
    dsimp only
    rw [e1]
    dsimp only
    rw [f1]
  have hsy : Synced [exConst 1, exConst 3, exConst 5, exConst 8] exState
      { (multiEmpty (n := 2) (P := Unit) (M := Unit) 2 2) with smpls := some S, subs := some ms' } :=
    qteCreate_synced (fun c h => (hc c h).vars) hck exState hcr
  refine ⟨_, hcr, hsy, ?_⟩
  refine C50_qte_total (v := 2) (fun c h => ⟨(hc c h).vars, (hc c h).vsf⟩) (D := exState) rfl hsy rfl (Q := 2) (by norm_num) rfl rfl ?_
  intro i c m hci hmi
  have hcm := List.mem_of_getElem? hci
  have hmm := f3 m (List.mem_of_getElem? hmi)
  simp only [List.mem_cons, List.not_mem_nil, or_false] at hcm
  rcases hcm with rfl | rfl | rfl | rfl <;> exact exConst_fit rfl g3 hmm _

/-! ## C28 for `DoubleMLAPOS` -/

section
variable [DecidableEq L]

theorem lookupLevel_mem {α : Type} {l : L} {items : List (L × α)} {x : α} (h : lookupLevel l items = some x) : (l, x) ∈ items := by
  induction items with
  | nil => cases h
  | cons p ps ih =>
    unfold lookupLevel at h
    split_ifs at h with hp
    · subst hp
      obtain rfl := Option.some.inj h
      simp
    · exact List.mem_cons_of_mem _ (ih h)

theorem lookupLevel_none {α : Type} {l : L} {items : List (L × α)} : lookupLevel l items = none ↔ l ∉ items.map Prod.fst := by
  induction items with
  | nil => simp [lookupLevel]
  | cons p ps ih =>
    unfold lookupLevel
    split_ifs with hp
    · simp [hp]
    · rw [ih]
      simp only [List.map_cons, List.mem_cons, not_or]
      exact ⟨fun h => ⟨fun e => hp e.symm, h⟩, fun h => h.2⟩

/-- The renamed dictionary holds exactly the entries of the three learners. -/
theorem lookup_renamed {α : Type} (inner : List (String × α)) {k : String} (hk : k ∈ apoLearners) :
    lookupKey k (["ml_g_d_lvl1", "ml_m", "ml_g_d_lvl0"].filterMap fun k => (lookupKey k inner).map fun v => (k, v)) =
      lookupKey k inner := by
  simp only [apoLearners, List.mem_cons, List.not_mem_nil, or_false] at hk
  rcases hk with rfl | rfl | rfl <;>
    cases h1 : lookupKey "ml_g_d_lvl1" inner <;> cases h2 : lookupKey "ml_m" inner <;> cases h3 : lookupKey "ml_g_d_lvl0" inner <;>
    simp [lookupKey, List.filterMap, h1, h2, h3]

/-- **C28.** External predictions of a `DoubleMLAPOS` object that cover all treatment levels reach the sub-model of their
level unchanged: what sub-model `i` receives for its treatment and each learner is what was given for level `i`.
(Partial: a dictionary that leaves out a level is accepted, but see `C28_apos_violated`.) -/
theorem C28_apos_partial {levels : List L} {dCol : String} {items : List (L × ExtInner)} {es : List ExtArg}
    (h : apoExtArgs levels dCol (.dict items) = .ok es) :
    es.length = levels.length ∧ ∀ (i : ℕ) (l : L), levels[i]? = some l → ∃ inner inner', lookupLevel l items = some (.dict inner) ∧
      es[i]? = some (.dict [(dCol, .dict inner')]) ∧ ∀ k ∈ apoLearners, lookupKey k inner' = lookupKey k inner := by
  refine ⟨apoExtArgs_length h, ?_⟩
  unfold apoExtArgs at h
  dsimp only at h
  obtain ⟨_, _, h⟩ := bind_ok h
  intro i l hl
  have hil : i < es.length := by rw [mapM_length h]; exact (List.getElem?_eq_some_iff.1 hl).1
  obtain ⟨l', hl', hr⟩ := mapM_getElem? h (i := i) (b := es[i]) (by simp)
  rw [hl] at hl'
  obtain rfl := Option.some.inj hl'
  unfold renameApoExt at hr
  cases hk : lookupLevel l items with
  | none => rw [hk] at hr; cases hr
  | some x =>
    cases x with
    | notDict => rw [hk] at hr; cases hr
    | dict inner =>
      rw [hk] at hr
      dsimp only at hr
      refine ⟨inner, _, rfl, ?_, fun k hkm => lookup_renamed inner hkm⟩
      rw [List.getElem?_eq_getElem hil, ← Except.ok.inj hr]

/-- **C28, violated.** External predictions for only some of the treatment levels pass the check, but `fit` raises a
`KeyError` instead of estimating the others. -/
theorem C28_apos_violated {F : Frame n} {levels : List L} {dCol : String} {cs : List (SubClass n P M)} {s : Multi n P M}
    {a : FitArgs} {items : List (L × ExtInner)} (hok : checkApoExt levels (.dict items) = .ok ()) {i : ℕ} {l : L}
    (hl : levels[i]? = some l) (hbefore : ∀ j < i, ∀ l', levels[j]? = some l' → l' ∈ items.map Prod.fst)
    (hmiss : l ∉ items.map Prod.fst) : apoFit F levels dCol cs s a (.dict items) = (s, .error .keyError) := by
  have hinner : ∀ l' x, lookupLevel l' items = some x → ∃ inner, x = .dict inner := by
    intro l' x hx
    unfold checkApoExt at hok
    dsimp only at hok
    split_ifs at hok
    obtain ⟨r, hr, _⟩ := bind_ok hok
    rw [mapM_ok_iff] at hr
    have hmem := lookupLevel_mem hx
    obtain ⟨t, ht⟩ := List.getElem?_of_mem hmem
    obtain ⟨ht', he⟩ := List.getElem?_eq_some_iff.1 ht
    have := (List.forall₂_iff_get.1 hr).2 t ht' (by rw [← hr.length_eq]; exact ht')
    simp only [List.get_eq_getElem, he] at this
    cases x with
    | notDict => cases this
    | dict inner => exact ⟨inner, rfl⟩
  have hmap : levels.mapM (renameApoExt dCol items) = .error .keyError := by
    clear hok
    induction levels generalizing i with
    | nil => simp at hl
    | cons l0 levels ih =>
      rw [List.mapM_cons]
      cases i with
      | zero =>
        simp only [List.getElem?_cons_zero, Option.some.injEq] at hl
        subst hl
        have : renameApoExt dCol items l0 = .error .keyError := by
          unfold renameApoExt
          rw [lookupLevel_none.2 hmiss]
        rw [this]; rfl
      | succ i =>
        have hl0 := hbefore 0 (by omega) l0 rfl
        cases hx : lookupLevel l0 items with
        | none => exact absurd hl0 (lookupLevel_none.1 hx)
        | some x =>
          obtain ⟨inner, rfl⟩ := hinner l0 x hx
          have hih := ih (i := i) (by simpa using hl) (fun j hj l' hl' => hbefore (j + 1) (by omega) l' (by simpa using hl'))
          have : ∃ y, renameApoExt dCol items l0 = .ok y := by
            unfold renameApoExt
            rw [hx]
            exact ⟨_, rfl⟩
          obtain ⟨y, hy⟩ := this
          rw [hy, hih]; rfl
  unfold apoFit
  have : apoExtArgs levels dCol (.dict items) = .error .keyError := by
    show (do let _ ← checkApoExt levels (.dict items); levels.mapM (renameApoExt dCol items) : Except Exc (List ExtArg)) = _
    rw [hok, hmap]; rfl
  rw [this]

end

/-- Two levels, predictions for the first one only. -/
example : checkApoExt [0, 1] (.dict [(0, .dict [])]) = .ok () ∧ 1 ∉ [((0 : ℕ), ExtInner.dict [])].map Prod.fst ∧
    apoExtArgs [0, 1] "d" (.dict [(0, .dict []), (1, .dict [])]) = .ok [.dict [("d", .dict [])], .dict [("d", .dict [])]] := by
  refine ⟨?_, by decide, ?_⟩ <;> rfl

end DML
