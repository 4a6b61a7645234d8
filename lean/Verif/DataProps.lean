import Verif.Data

/-!
# Data backend (C33–C36)
-/

namespace DML

variable {n : ℕ}

/-! ## Specification -/

/-- All columns that have a role, in one list. -/
def roleList (S : DataState n) : List String :=
  [S.y] ++ S.d ++ S.x ++ S.z.getD [] ++ S.t.toList ++ S.s.toList ++ S.cluster.getD []

/-- No column has two roles or occurs twice in one role, and every role is a column of the data. -/
def RolesValid (F : Frame n) (S : DataState n) : Prop := (roleList S).Nodup ∧ roleList S ⊆ F.cols

/-- The cached arrays are those of the current roles, for the currently selected treatment `tv`. -/
def Fresh (F : Frame n) (S : DataState n) : Prop :=
  S.yv = F.col S.y ∧ S.zv = S.z.map (List.map F.col) ∧ S.tv = S.t.map F.col ∧ S.sv = S.s.map F.col ∧
  S.cv = (S.cluster.getD []).map F.col ∧
  ∃ tv ∈ S.d, S.dv = F.col tv ∧ S.xv = (S.x ++ if S.useOther then S.d.erase tv else []).map F.col

/-! ## Lemmas -/

theorem disj_iff (a b : List String) : disj a b = true ↔ ∀ x ∈ a, x ∉ b := by
  simp [disj]

/-- Every single role is without repetition and consists of data columns. -/
structure RolesOk (F : Frame n) (S : DataState n) : Prop where
  y : S.y ∈ F.cols
  d : S.d.Nodup ∧ S.d ⊆ F.cols
  x : S.x.Nodup ∧ S.x ⊆ F.cols
  z : (S.z.getD []).Nodup ∧ S.z.getD [] ⊆ F.cols
  t : S.t.toList ⊆ F.cols
  s : S.s.toList ⊆ F.cols
  cl : (S.cluster.getD []).Nodup ∧ S.cluster.getD [] ⊆ F.cols

theorem optionAll_iff {α : Type} (o : Option α) (p : α → Bool) : o.all p = true ↔ ∀ a ∈ o, p a = true := by
  cases o <;> simp

theorem mem_toList_iff {α : Type} (o : Option α) (a : α) : a ∈ o.toList ↔ o = some a := by
  cases o <;> simp [eq_comm]

theorem nodup_toList {α : Type} (o : Option α) : o.toList.Nodup := by cases o <;> simp

theorem mem_getD_nil {α : Type} (o : Option (List α)) (a : α) : a ∈ o.getD [] ↔ ∃ l ∈ o, a ∈ l := by
  cases o <;> simp

/-- The checks of the code are complete. -/
theorem disjointAll_iff (S : DataState n) : disjointAll S = true ↔
    (∀ a ∈ [S.y], a ∉ S.d) ∧ (∀ a ∈ [S.y] ++ S.d, a ∉ S.x) ∧ (∀ a ∈ [S.y] ++ S.d ++ S.x, a ∉ S.z.getD []) ∧
    (∀ a ∈ [S.y] ++ S.d ++ S.x ++ S.z.getD [], a ∉ S.t.toList) ∧
    (∀ a ∈ [S.y] ++ S.d ++ S.x ++ S.z.getD [] ++ S.t.toList, a ∉ S.s.toList) ∧
    (∀ a ∈ [S.y] ++ S.d ++ S.x ++ S.z.getD [] ++ S.t.toList ++ S.s.toList, a ∉ S.cluster.getD []) := by
  unfold disjointAll disjointBase disjointCluster disjointTS
  rcases S with ⟨y, d, x, z, t, s, c⟩
  cases z <;> cases t <;> cases s <;> cases c <;>
    simp only [Option.all_none, Option.all_some, Bool.and_eq_true, disj_iff, Option.getD_none, Option.getD_some,
      Option.toList_none, Option.toList_some, List.mem_append, List.mem_singleton, List.not_mem_nil,
      not_false_eq_true, implies_true, or_false, and_true, true_and, forall_eq, or_imp, forall_and] <;>
    grind

theorem rolesValid_of_disjoint (F : Frame n) (S : DataState n) (h : RolesOk F S) (hd : disjointAll S = true) :
    RolesValid F S := by
  rw [disjointAll_iff] at hd
  obtain ⟨h1, h2, h3, h4, h5, h6⟩ := hd
  have app : ∀ {a b : List String}, a.Nodup → b.Nodup → (∀ x ∈ a, x ∉ b) → (a ++ b).Nodup := by
    intro a b ha hb hab
    rw [List.nodup_append]
    exact ⟨ha, hb, fun x hx y hy e => hab x hx (e ▸ hy)⟩
  refine ⟨?_, ?_⟩
  · exact app (app (app (app (app (app (List.nodup_singleton _) h.d.1 h1) h.x.1 h2) h.z.1 h3) (nodup_toList _) h4)
      (nodup_toList _) h5) h.cl.1 h6
  · unfold roleList
    intro a ha
    simp only [List.mem_append, List.mem_singleton] at ha
    rcases ha with ((((((rfl | ha) | ha) | ha) | ha) | ha) | ha)
    · exact h.y
    · exact h.d.2 ha
    · exact h.x.2 ha
    · exact h.z.2 ha
    · exact h.t ha
    · exact h.s ha
    · exact h.cl.2 ha

theorem disjoint_of_rolesValid (F : Frame n) (S : DataState n) (h : RolesValid F S) : disjointAll S = true := by
  rw [disjointAll_iff]
  have hn := h.1
  unfold roleList at hn
  have key : ∀ {a b : List String}, (a ++ b).Nodup → a.Nodup ∧ ∀ x ∈ a, x ∉ b := by
    intro a b hab
    rw [List.nodup_append] at hab
    exact ⟨hab.1, fun x hx hx' => hab.2.2 x hx x hx' rfl⟩
  obtain ⟨hn, k6⟩ := key hn
  obtain ⟨hn, k5⟩ := key hn
  obtain ⟨hn, k4⟩ := key hn
  obtain ⟨hn, k3⟩ := key hn
  obtain ⟨hn, k2⟩ := key hn
  obtain ⟨hn, k1⟩ := key hn
  exact ⟨k1, k2, k3, k4, k5, k6⟩

theorem colList_ok {F : Frame n} {a : ColArg} {l : List String} (h : colList F a = .ok l) :
    l.Nodup ∧ l ⊆ F.cols := by
  cases a with
  | str s =>
    simp only [colList] at h
    split_ifs at h with hs
    cases h
    exact ⟨List.nodup_singleton _, hs⟩
  | list l' =>
    simp only [colList] at h
    by_cases hn : l'.Nodup
    · rw [if_neg (not_not.2 hn)] at h
      split_ifs at h with hs
      cases h
      exact ⟨hn, hs⟩
    · rw [if_pos hn] at h; cases h
  | none => simp [colList] at h
  | other => simp [colList] at h

theorem colStr_ok {F : Frame n} {a : ColArg} {s : String} (h : colStr F a = .ok s) : s ∈ F.cols := by
  cases a with
  | str s' =>
    simp only [colStr] at h
    split_ifs at h with hs
    cases h; exact hs
  | _ => simp [colStr] at h

theorem zArg_ok {F : Frame n} {a : ColArg} {z : Option (List String)} (h : zArg F a = .ok z) :
    (z.getD []).Nodup ∧ z.getD [] ⊆ F.cols := by
  have gen : ∀ a : ColArg, (colList F a).map some = .ok z → (z.getD []).Nodup ∧ z.getD [] ⊆ F.cols := by
    intro a h
    cases hc : colList F a with
    | error e => rw [hc] at h; cases h
    | ok l => rw [hc] at h; cases h; exact colList_ok hc
  cases a with
  | none => cases h; simp
  | str s => exact gen _ h
  | list l => exact gen _ h
  | other => exact gen .other (by simpa [zArg] using h)

theorem optArg_ok {F : Frame n} {a : ColArg} {z : Option String} (h : optArg F a = .ok z) :
    z.toList ⊆ F.cols := by
  have gen : ∀ a : ColArg, (colStr F a).map some = .ok z → z.toList ⊆ F.cols := by
    intro a h
    cases hc : colStr F a with
    | error e => rw [hc] at h; cases h
    | ok l => rw [hc] at h; cases h; simpa using colStr_ok hc
  cases a with
  | none => cases h; simp
  | str s => exact gen _ h
  | list l => simp [optArg, colStr, Except.map] at h
  | other => simp [optArg, colStr, Except.map] at h

theorem xArg_ok {F : Frame n} (hF : F.cols.Nodup) {S : DataState n} {a : ColArg} {l : List String}
    (h : xArg F S a = .ok l) : l.Nodup ∧ l ⊆ F.cols := by
  cases a with
  | none =>
    cases h
    exact ⟨hF.filter _, List.filter_subset_self _⟩
  | str s => simp only [xArg] at h; exact colList_ok h
  | list l => simp only [xArg] at h; exact colList_ok h
  | other => simp only [xArg] at h; exact colList_ok h

theorem clusterArg_ok {F : Frame n} {a : Option ColArg} {z : Option (List String)} (h : clusterArg F a = .ok z) :
    (z.getD []).Nodup ∧ z.getD [] ⊆ F.cols := by
  cases a with
  | none => cases h; simp
  | some a =>
    simp only [clusterArg] at h
    cases hc : colList F a with
    | error e => rw [hc] at h; cases h
    | ok l => rw [hc] at h; cases h; exact colList_ok hc

/-- The roles of two states agree. -/
def SameRoles (S T : DataState n) : Prop :=
  T.y = S.y ∧ T.d = S.d ∧ T.x = S.x ∧ T.z = S.z ∧ T.t = S.t ∧ T.s = S.s ∧ T.cluster = S.cluster

theorem SameRoles.ok {F : Frame n} {S T : DataState n} (h : SameRoles S T) (hS : RolesOk F S) : RolesOk F T := by
  obtain ⟨h1, h2, h3, h4, h5, h6, h7⟩ := h
  exact ⟨h1 ▸ hS.y, h2 ▸ hS.d, h3 ▸ hS.x, h4 ▸ hS.z, h5 ▸ hS.t, h6 ▸ hS.s, h7 ▸ hS.cl⟩

theorem SameRoles.valid {F : Frame n} {S T : DataState n} (h : SameRoles S T) (hS : RolesValid F S) :
    RolesValid F T := by
  obtain ⟨h1, h2, h3, h4, h5, h6, h7⟩ := h
  unfold RolesValid roleList at *
  rw [h1, h2, h3, h4, h5, h6, h7]
  exact hS

theorem SameRoles.refl (S : DataState n) : SameRoles S S := ⟨rfl, rfl, rfl, rfl, rfl, rfl, rfl⟩

theorem setXD_ok {F : Frame n} {S T : DataState n} {tv : String} (h : setXD F S tv = .ok T) :
    tv ∈ S.d ∧ T = { S with dv := F.col tv, xv := (xdList S tv).map F.col } := by
  unfold setXD at h
  by_cases h1 : tv ∈ S.d
  swap
  · rw [if_pos h1] at h; cases h
  rw [if_neg (not_not.2 h1)] at h
  split_ifs at h
  cases h
  exact ⟨h1, rfl⟩

theorem setXDFirst_ok {F : Frame n} {S T : DataState n} (h : setXDFirst F S = .ok T) :
    ∃ tv ∈ S.d, T = { S with dv := F.col tv, xv := (xdList S tv).map F.col } := by
  unfold setXDFirst at h
  cases hd : S.d with
  | nil => rw [hd] at h; cases h
  | cons tv l =>
    rw [hd] at h
    obtain ⟨h1, h2⟩ := setXD_ok h
    rw [hd] at h1
    exact ⟨tv, by simp, by rw [h2]; cases S; simp_all⟩

theorem setXDFirst_head {F : Frame n} {S T : DataState n} (h : setXDFirst F S = .ok T) :
    ∃ tv l, S.d = tv :: l ∧ T = { S with dv := F.col tv, xv := (xdList S tv).map F.col } := by
  cases hd : S.d with
  | nil => unfold setXDFirst at h; rw [hd] at h; cases h
  | cons tv l =>
    have h1 : setXDFirst F S = setXD F S tv := by unfold setXDFirst; rw [hd]
    rw [h1] at h
    obtain ⟨_, h2⟩ := setXD_ok h
    exact ⟨tv, l, rfl, by rw [h2]; cases S; simp_all⟩

theorem setYZTS_roles (F : Frame n) (S : DataState n) : SameRoles S (setYZTS F S).1 := by
  unfold setYZTS
  dsimp only
  split_ifs <;> exact ⟨rfl, rfl, rfl, rfl, rfl, rfl, rfl⟩

theorem setYZTS_ok {F : Frame n} {S : DataState n} (h : (setYZTS F S).2 = .ok ()) :
    (setYZTS F S).1 = { S with
      yv := F.col S.y
      zv := S.z.map (List.map F.col)
      tv := S.t.map F.col
      sv := S.s.map F.col } := by
  unfold setYZTS at *
  dsimp only at *
  split_ifs at * with h1 h2 h3 h4
  all_goals first | (cases h; done) | rfl

theorem finishXD_roles (F : Frame n) (S : DataState n) : SameRoles S (finishXD F S).1 := by
  unfold finishXD
  split_ifs
  · cases hs : setXDFirst F S with
    | ok T =>
      obtain ⟨tv, _, rfl⟩ := setXDFirst_ok hs
      exact ⟨rfl, rfl, rfl, rfl, rfl, rfl, rfl⟩
    | error e => exact SameRoles.refl S
  · exact SameRoles.refl S

theorem finishYZTS_roles (F : Frame n) (S : DataState n) : SameRoles S (finishYZTS F S).1 := by
  unfold finishYZTS
  split_ifs
  · exact setYZTS_roles F S
  · exact SameRoles.refl S

theorem finishCluster_roles (F : Frame n) (S : DataState n) : SameRoles S (finishCluster F S).1 := by
  unfold finishCluster
  split_ifs <;> exact ⟨rfl, rfl, rfl, rfl, rfl, rfl, rfl⟩

theorem finishXD_ok {F : Frame n} {S : DataState n} (h : (finishXD F S).2 = .ok ()) :
    disjointAll S = true ∧ ∃ tv ∈ S.d,
      (finishXD F S).1 = { S with dv := F.col tv, xv := (xdList S tv).map F.col } := by
  unfold finishXD at *
  by_cases hd : disjointAll S = true
  · rw [if_pos hd] at h ⊢
    cases hs : setXDFirst F S with
    | ok T =>
      rw [hs] at h
      obtain ⟨tv, ht, rfl⟩ := setXDFirst_ok hs
      exact ⟨hd, tv, ht, rfl⟩
    | error e => rw [hs] at h; cases h
  · rw [if_neg hd] at h; cases h

theorem finishYZTS_ok {F : Frame n} {S : DataState n} (h : (finishYZTS F S).2 = .ok ()) :
    disjointAll S = true ∧ (finishYZTS F S).1 = { S with
      yv := F.col S.y
      zv := S.z.map (List.map F.col)
      tv := S.t.map F.col
      sv := S.s.map F.col } := by
  unfold finishYZTS at *
  by_cases hd : disjointAll S = true
  · rw [if_pos hd] at h ⊢
    exact ⟨hd, setYZTS_ok h⟩
  · rw [if_neg hd] at h; cases h

theorem finishCluster_ok {F : Frame n} {S : DataState n} (h : (finishCluster F S).2 = .ok ()) :
    disjointAll S = true ∧ (finishCluster F S).1 = { S with cv := (S.cluster.getD []).map F.col } := by
  unfold finishCluster at *
  by_cases hd : disjointAll S = true
  · rw [if_pos hd] at h ⊢
    split_ifs at h with hc
    rw [if_pos hc]
    exact ⟨hd, rfl⟩
  · rw [if_neg hd] at h; cases h

/-- Setter calls that assign a role. -/
def DataOp.isRole : DataOp → Bool
  | .setUseOther _ => false
  | .setForce _ => false
  | .setTreat _ => false
  | _ => true

/-- Every call, successful or not, keeps each single role well-formed. -/
theorem dataStep_rolesOk {F : Frame n} (hF : F.cols.Nodup) {S : DataState n} (hS : RolesOk F S) (o : DataOp) :
    RolesOk F (dataStep F S o).1 := by
  cases o with
  | setX a =>
    simp only [dataStep]
    cases ha : xArg F S a with
    | error e => exact hS
    | ok v => exact (finishXD_roles F _).ok ⟨hS.y, hS.d, xArg_ok hF ha, hS.z, hS.t, hS.s, hS.cl⟩
  | setD a =>
    simp only [dataStep]
    cases ha : colList F a with
    | error e => exact hS
    | ok v => exact (finishXD_roles F _).ok ⟨hS.y, colList_ok ha, hS.x, hS.z, hS.t, hS.s, hS.cl⟩
  | setY a =>
    simp only [dataStep]
    cases ha : colStr F a with
    | error e => exact hS
    | ok v => exact (finishYZTS_roles F _).ok ⟨colStr_ok ha, hS.d, hS.x, hS.z, hS.t, hS.s, hS.cl⟩
  | setZ a =>
    simp only [dataStep]
    cases ha : zArg F a with
    | error e => exact hS
    | ok v => exact (finishYZTS_roles F _).ok ⟨hS.y, hS.d, hS.x, zArg_ok ha, hS.t, hS.s, hS.cl⟩
  | setT a =>
    simp only [dataStep]
    cases ha : optArg F a with
    | error e => exact hS
    | ok v => exact (finishYZTS_roles F _).ok ⟨hS.y, hS.d, hS.x, hS.z, optArg_ok ha, hS.s, hS.cl⟩
  | setS a =>
    simp only [dataStep]
    cases ha : optArg F a with
    | error e => exact hS
    | ok v => exact (finishYZTS_roles F _).ok ⟨hS.y, hS.d, hS.x, hS.z, hS.t, optArg_ok ha, hS.cl⟩
  | setCluster a =>
    simp only [dataStep]
    cases hc : S.cluster with
    | none => exact hS
    | some c =>
      cases ha : colList F a with
      | error e => exact hS
      | ok v => exact (finishCluster_roles F _).ok ⟨hS.y, hS.d, hS.x, hS.z, hS.t, hS.s, colList_ok ha⟩
  | setUseOther v =>
    simp only [dataStep]
    cases hb : checkBool v with
    | error e => exact hS
    | ok b =>
      have hS' : RolesOk F { S with useOther := b } := ⟨hS.y, hS.d, hS.x, hS.z, hS.t, hS.s, hS.cl⟩
      dsimp only
      cases hs : setXDFirst F { S with useOther := b } with
      | error e => exact hS'
      | ok T =>
        obtain ⟨tv, _, rfl⟩ := setXDFirst_ok hs
        exact ⟨hS.y, hS.d, hS.x, hS.z, hS.t, hS.s, hS.cl⟩
  | setForce v =>
    simp only [dataStep]
    cases hb : forceArg v with
    | error e => exact hS
    | ok b =>
      have hS' : RolesOk F { S with force := b } := ⟨hS.y, hS.d, hS.x, hS.z, hS.t, hS.s, hS.cl⟩
      dsimp only
      cases hs : setXDFirst F { S with force := b } with
      | error e => exact hS'
      | ok T =>
        obtain ⟨tv, _, rfl⟩ := setXDFirst_ok hs
        exact ⟨hS.y, hS.d, hS.x, hS.z, hS.t, hS.s, hS.cl⟩
  | setTreat a =>
    cases a with
    | str tv =>
      simp only [dataStep]
      cases hs : setXD F S tv with
      | error e => exact hS
      | ok T =>
        obtain ⟨_, rfl⟩ := setXD_ok hs
        exact ⟨hS.y, hS.d, hS.x, hS.z, hS.t, hS.s, hS.cl⟩
    | _ => exact hS

theorem dataRun_rolesOk {F : Frame n} (hF : F.cols.Nodup) {S : DataState n} (hS : RolesOk F S) (os : List DataOp) :
    RolesOk F (dataRun F S os) := by
  induction os generalizing S with
  | nil => exact hS
  | cons o os ih => exact ih (dataStep_rolesOk hF hS o)

/-- A successful assignment of a role leaves disjoint roles. -/
theorem dataStep_valid {F : Frame n} (hF : F.cols.Nodup) {S : DataState n} (hS : RolesOk F S) (o : DataOp)
    (hr : o.isRole = true) (h : (dataStep F S o).2 = .ok ()) : RolesValid F (dataStep F S o).1 := by
  have fin : ∀ T : DataState n, SameRoles T (dataStep F S o).1 → disjointAll T = true →
      RolesValid F (dataStep F S o).1 := by
    intro T hT hd
    have hok := dataStep_rolesOk hF hS o
    refine rolesValid_of_disjoint F _ hok ?_
    rw [disjointAll_iff] at hd ⊢
    obtain ⟨h1, h2, h3, h4, h5, h6, h7⟩ := hT
    rw [h1, h2, h3, h4, h5, h6, h7]
    exact hd
  cases o with
  | setX a =>
    simp only [dataStep] at h fin ⊢
    cases ha : xArg F S a with
    | error e => rw [ha] at h; cases h
    | ok v => rw [ha] at h fin; exact fin _ (finishXD_roles F _) (finishXD_ok h).1
  | setD a =>
    simp only [dataStep] at h fin ⊢
    cases ha : colList F a with
    | error e => rw [ha] at h; cases h
    | ok v => rw [ha] at h fin; exact fin _ (finishXD_roles F _) (finishXD_ok h).1
  | setY a =>
    simp only [dataStep] at h fin ⊢
    cases ha : colStr F a with
    | error e => rw [ha] at h; cases h
    | ok v => rw [ha] at h fin; exact fin _ (finishYZTS_roles F _) (finishYZTS_ok h).1
  | setZ a =>
    simp only [dataStep] at h fin ⊢
    cases ha : zArg F a with
    | error e => rw [ha] at h; cases h
    | ok v => rw [ha] at h fin; exact fin _ (finishYZTS_roles F _) (finishYZTS_ok h).1
  | setT a =>
    simp only [dataStep] at h fin ⊢
    cases ha : optArg F a with
    | error e => rw [ha] at h; cases h
    | ok v => rw [ha] at h fin; exact fin _ (finishYZTS_roles F _) (finishYZTS_ok h).1
  | setS a =>
    simp only [dataStep] at h fin ⊢
    cases ha : optArg F a with
    | error e => rw [ha] at h; cases h
    | ok v => rw [ha] at h fin; exact fin _ (finishYZTS_roles F _) (finishYZTS_ok h).1
  | setCluster a =>
    simp only [dataStep] at h fin ⊢
    cases hc : S.cluster with
    | none => rw [hc] at h; cases h
    | some c =>
      rw [hc] at h fin
      cases ha : colList F a with
      | error e => rw [ha] at h; cases h
      | ok v => rw [ha] at h fin; exact fin _ (finishCluster_roles F _) (finishCluster_ok h).1
  | setUseOther v => cases hr
  | setForce v => cases hr
  | setTreat a => cases hr

/-- Calls that assign no role keep the roles. -/
theorem dataStep_sameRoles {F : Frame n} {S : DataState n} (o : DataOp) (hr : o.isRole = false) :
    SameRoles S (dataStep F S o).1 := by
  cases o with
  | setUseOther v =>
    simp only [dataStep]
    cases hb : checkBool v with
    | error e => exact SameRoles.refl S
    | ok b =>
      dsimp only
      cases hs : setXDFirst F { S with useOther := b } with
      | error e => exact ⟨rfl, rfl, rfl, rfl, rfl, rfl, rfl⟩
      | ok T => obtain ⟨tv, _, rfl⟩ := setXDFirst_ok hs; exact ⟨rfl, rfl, rfl, rfl, rfl, rfl, rfl⟩
  | setForce v =>
    simp only [dataStep]
    cases hb : forceArg v with
    | error e => exact SameRoles.refl S
    | ok b =>
      dsimp only
      cases hs : setXDFirst F { S with force := b } with
      | error e => exact ⟨rfl, rfl, rfl, rfl, rfl, rfl, rfl⟩
      | ok T => obtain ⟨tv, _, rfl⟩ := setXDFirst_ok hs; exact ⟨rfl, rfl, rfl, rfl, rfl, rfl, rfl⟩
  | setTreat a =>
    cases a with
    | str tv =>
      simp only [dataStep]
      cases hs : setXD F S tv with
      | error e => exact SameRoles.refl S
      | ok T => obtain ⟨_, rfl⟩ := setXD_ok hs; exact ⟨rfl, rfl, rfl, rfl, rfl, rfl, rfl⟩
    | _ => exact SameRoles.refl S
  | _ => cases hr

theorem xdList_eq {F : Frame n} {S : DataState n} (hv : RolesValid F S) {tv : String} (ht : tv ∈ S.d) :
    xdList S tv = S.x ++ if S.useOther then S.d.erase tv else [] := by
  unfold xdList
  have hd := disjoint_of_rolesValid F S hv
  rw [disjointAll_iff] at hd
  have hx : tv ∉ S.x := hd.2.1 tv (by simp [ht])
  split_ifs
  · rw [List.erase_append_right _ hx]
  · simp

/-- What the constructor establishes. -/
theorem dataInit_ok {F : Frame n} (hF : F.cols.Nodup) {cl : Option ColArg} {a : DataArgs} {S : DataState n}
    (h : dataInit F cl a = .ok S) :
    RolesOk F S ∧ RolesValid F S ∧ Fresh F S ∧
    S.binTreats = S.d.map (fun c => (c, isBinaryCol (F.col c))) ∧ S.binOut = isBinaryCol (F.col S.y) ∧
    colStr F a.y = .ok S.y ∧ colList F a.d = .ok S.d ∧ zArg F a.z = .ok S.z ∧ optArg F a.t = .ok S.t ∧
    optArg F a.s = .ok S.s ∧ clusterArg F cl = .ok S.cluster ∧ xArg F S a.x = .ok S.x ∧
    checkBool a.useOther = .ok S.useOther ∧
    ∃ tv l, S.d = tv :: l ∧ S.dv = F.col tv ∧ S.xv = (S.x ++ if S.useOther then l else []).map F.col := by
  unfold dataInit at h
  obtain ⟨c, hc, h⟩ := bind_ok h
  by_cases hcf : ∀ cs ∈ c, ∀ c ∈ cs, finiteCol (F.col c)
  swap
  · rw [if_pos hcf] at h; cases h
  rw [if_neg (not_not.2 hcf)] at h
  obtain ⟨y, hy, h⟩ := bind_ok h
  obtain ⟨d, hd, h⟩ := bind_ok h
  obtain ⟨z, hz, h⟩ := bind_ok h
  obtain ⟨t, ht, h⟩ := bind_ok h
  obtain ⟨s, hs, h⟩ := bind_ok h
  obtain ⟨x, hx, h⟩ := bind_ok h
  dsimp only at h
  split at h
  · cases h
  obtain ⟨u, hu, h⟩ := bind_ok h
  obtain ⟨f, hf, h⟩ := bind_ok h
  by_cases hdf : ∀ c ∈ d, finiteCol (F.col c)
  swap
  · rw [if_pos hdf] at h; cases h
  rw [if_neg (not_not.2 hdf)] at h
  by_cases hyf : finiteCol (F.col y)
  swap
  · rw [if_pos hyf] at h; cases h
  rw [if_neg (not_not.2 hyf)] at h
  obtain ⟨_, hr, h⟩ := bind_ok h
  obtain ⟨S3, hS3, h⟩ := bind_ok h
  split_ifs at h with hda
  obtain rfl : S3 = S := by cases h; rfl
  have hr' := setYZTS_ok hr
  rw [hr'] at hS3
  obtain ⟨tv, l, htl, he⟩ := setXDFirst_head hS3
  dsimp only at htl
  have htv : tv ∈ d := by rw [htl]; simp
  have hok : RolesOk F S3 := by
    rw [he]
    exact ⟨colStr_ok hy, colList_ok hd, xArg_ok hF hx, zArg_ok hz, optArg_ok ht, optArg_ok hs, clusterArg_ok hc⟩
  have hv := rolesValid_of_disjoint F S3 hok hda
  refine ⟨hok, hv, ?_⟩
  have htv' : tv ∈ S3.d := by rw [he]; exact htv
  have hxd := xdList_eq hv htv'
  clear hok hv hda hS3 hr hr'
  subst he
  refine ⟨⟨rfl, rfl, rfl, rfl, rfl, tv, htv, rfl, ?_⟩, rfl, rfl, hy, hd, hz, ht, hs, hc, ?_, hu, tv, l, htl, rfl, ?_⟩
  · rw [← hxd]
    rfl
  · cases hax : a.x with
    | none => rw [hax] at hx; exact hx
    | str _ => rw [hax] at hx; simpa only [xArg] using hx
    | list _ => rw [hax] at hx; simpa only [xArg] using hx
    | other => rw [hax] at hx; simpa only [xArg] using hx
  · have he : d.erase tv = l := by rw [htl]; simp
    simp only [he] at hxd
    rw [← hxd]
    rfl

theorem notInf_of_finite {f : Fin n → Cell} (h : finiteCol f) : notInfCol f := by
  intro i
  obtain ⟨r, hr⟩ := h i
  rw [hr]
  simp

theorem setYZTS_finite' (F : Frame n) {S : DataState n}
    (hf : ∀ x ∈ [S.y] ++ S.z.getD [] ++ S.t.toList ++ S.s.toList, finiteCol (F.col x)) :
    setYZTS F S = ({ S with
      yv := F.col S.y
      zv := S.z.map (List.map F.col)
      tv := S.t.map F.col
      sv := S.s.map F.col }, .ok ()) := by
  unfold setYZTS
  dsimp only
  rw [if_neg (not_not.2 (hf _ (by simp))), if_neg (not_not.2 fun z hz c hc => hf c ?_),
    if_neg (not_not.2 fun t ht => hf t ?_), if_neg (not_not.2 fun t ht => hf t ?_)]
  · rw [Option.mem_def] at ht; simp [ht]
  · rw [Option.mem_def] at ht; simp [ht]
  · rw [Option.mem_def] at hz; simp [hz, hc]

theorem setXDFirst_finite' (F : Frame n) {S : DataState n} {tv : String} {l : List String}
    (hf : ∀ x ∈ S.x ++ S.d, finiteCol (F.col x)) (h : S.d = tv :: l) :
    setXDFirst F S = .ok { S with dv := F.col tv, xv := (xdList S tv).map F.col } := by
  have h1 : setXDFirst F S = setXD F S tv := by unfold setXDFirst; rw [h]
  have htv : tv ∈ S.d := by rw [h]; simp
  have hx : ∀ c ∈ xdList S tv, finiteCol (F.col c) := by
    intro c hc
    unfold xdList at hc
    split_ifs at hc
    · exact hf c (List.mem_of_mem_erase hc)
    · exact hf c (by simp [hc])
  rw [h1]
  unfold setXD
  rw [if_neg (not_not.2 htv), if_neg (not_not.2 (hf tv (by simp [htv]))), if_neg (fun h => h.2 hx),
    if_neg (fun h => h.2 fun c hc => notInf_of_finite (hx c hc))]

theorem setXD_finite {F : Frame n} (hf : ∀ c, finiteCol (F.col c)) {S : DataState n} {tv : String} (h : tv ∈ S.d) :
    setXD F S tv = .ok { S with dv := F.col tv, xv := (xdList S tv).map F.col } := by
  unfold setXD
  rw [if_neg (not_not.2 h), if_neg (not_not.2 (hf tv)), if_neg (fun h => h.2 fun c _ => hf c),
    if_neg (fun h => h.2 fun c _ => notInf_of_finite (hf c))]

theorem setXDFirst_finite {F : Frame n} (hf : ∀ c, finiteCol (F.col c)) {S : DataState n} {tv : String}
    {l : List String} (h : S.d = tv :: l) :
    setXDFirst F S = .ok { S with dv := F.col tv, xv := (xdList S tv).map F.col } := by
  have h1 : setXDFirst F S = setXD F S tv := by unfold setXDFirst; rw [h]
  rw [h1]
  exact setXD_finite hf (show tv ∈ S.d by rw [h]; simp)

theorem setYZTS_finite {F : Frame n} (hf : ∀ c, finiteCol (F.col c)) (S : DataState n) :
    setYZTS F S = ({ S with
      yv := F.col S.y
      zv := S.z.map (List.map F.col)
      tv := S.t.map F.col
      sv := S.s.map F.col }, .ok ()) := by
  unfold setYZTS
  dsimp only
  rw [if_neg (not_not.2 (hf _)), if_neg (not_not.2 fun z _ c _ => hf c), if_neg (not_not.2 fun t _ => hf t),
    if_neg (not_not.2 fun t _ => hf t)]

theorem finishXD_finite {F : Frame n} (hf : ∀ c, finiteCol (F.col c)) {S : DataState n} {tv : String}
    {l : List String} (h : S.d = tv :: l) (hd : disjointAll S = true) :
    finishXD F S = ({ S with dv := F.col tv, xv := (xdList S tv).map F.col }, .ok ()) := by
  unfold finishXD
  rw [if_pos hd, setXDFirst_finite hf h]

/-! ## C33 -/

/-- **C33.** After construction and any history of successful calls the roles are valid. -/
theorem C33_roles_disjoint {F : Frame n} (hF : F.cols.Nodup) (cl : Option ColArg) (a : DataArgs) (S : DataState n)
    (h : dataInit F cl a = .ok S) (os : List DataOp) (hs : allSucceed F S os) : RolesValid F (dataRun F S os) := by
  obtain ⟨hok, hv, h'⟩ := dataInit_ok hF h
  clear h h'
  induction os generalizing S with
  | nil => exact hv
  | cons o os ih =>
    refine ih _ hs.2 (dataStep_rolesOk hF hok o) ?_
    cases hr : o.isRole with
    | true => exact dataStep_valid hF hok o hr hs.1
    | false => exact (dataStep_sameRoles o hr).valid hv

/-- **C33 (with failures).** Whatever calls, successful or not, came before: the moment an assignment of a
role succeeds the roles are valid (again). -/
theorem C33_after_successful_assignment {F : Frame n} (hF : F.cols.Nodup) (cl : Option ColArg) (a : DataArgs)
    (S : DataState n) (h : dataInit F cl a = .ok S) (os : List DataOp) (o : DataOp) (hr : o.isRole = true)
    (hs : (dataStep F (dataRun F S os) o).2 = .ok ()) : RolesValid F (dataStep F (dataRun F S os) o).1 :=
  dataStep_valid hF (dataRun_rolesOk hF (dataInit_ok hF h).1 os) o hr hs

theorem mem_defaultX (F : Frame n) (S : DataState n) (c : String) :
    c ∈ defaultX F S ↔ c ∈ F.cols ∧ c ∉ [S.y] ++ S.d ++ S.z.getD [] ++ S.t.toList ++ S.s.toList ++ S.cluster.getD [] := by
  simp [defaultX, excludedCols]

/-- **C33.** Without explicit covariates, the covariates are all columns without another role, in the order
of the data: at construction. -/
theorem C33_default_covariates_init {F : Frame n} (hF : F.cols.Nodup) (cl : Option ColArg) (a : DataArgs)
    (S : DataState n) (h : dataInit F cl a = .ok S) (hx : a.x = .none) :
    S.x.Sublist F.cols ∧ ∀ c, c ∈ S.x ↔ c ∈ F.cols ∧
      c ∉ [S.y] ++ S.d ++ S.z.getD [] ++ S.t.toList ++ S.s.toList ++ S.cluster.getD [] := by
  have := (dataInit_ok hF h).2.2.2.2.2.2.2.2.2.2.2.1
  rw [hx] at this
  have he : S.x = defaultX F S := by
    have h2 : xArg F S .none = .ok (defaultX F S) := rfl
    rw [h2] at this; exact (Except.ok.inj this).symm
  rw [he]
  exact ⟨List.filter_sublist, mem_defaultX F _⟩

/-- **C33.** The same when `x_cols = None` is assigned later. -/
theorem C33_default_covariates_set {F : Frame n} (S : DataState n)
    (h : (dataStep F S (.setX .none)).2 = .ok ()) :
    (dataStep F S (.setX .none)).1.x.Sublist F.cols ∧ ∀ c, c ∈ (dataStep F S (.setX .none)).1.x ↔ c ∈ F.cols ∧
      c ∉ [S.y] ++ S.d ++ S.z.getD [] ++ S.t.toList ++ S.s.toList ++ S.cluster.getD [] := by
  have hd : dataStep F S (.setX .none) = finishXD F { S with x := defaultX F S } := rfl
  rw [hd] at h ⊢
  obtain ⟨_, tv, _, he⟩ := finishXD_ok h
  rw [he]
  exact ⟨List.filter_sublist, mem_defaultX F _⟩

/-! ## A concrete data object -/

/-- Three numeric columns of two rows. -/
noncomputable def exFrame : Frame 2 :=
  { cols := ["y", "d", "x", "e"]
    col := fun c i => .num (if c = "d" then (i.val : ℝ) else if c = "e" then 2 * (i.val : ℝ) + 5 else (i.val : ℝ) + 3) }

/-- Its default construction. -/
def exArgs : DataArgs := ⟨.str "y", .str "d", .list ["x"], .none, .none, .none, .bool true, .bool true⟩

/-- The constructed object. -/
noncomputable def exState : DataState 2 :=
  { y := "y", d := ["d"], x := ["x"], z := none, t := none, s := none, cluster := none, useOther := true,
    force := .yes, yv := exFrame.col "y", zv := none, tv := none, sv := none, dv := exFrame.col "d",
    xv := [exFrame.col "x"], cv := [], binTreats := [("d", true)], binOut := false }

theorem exFrame_finite (c : String) : finiteCol (exFrame.col c) := fun _ => ⟨_, rfl⟩

theorem ex_d_binary : isBinaryCol (exFrame.col "d") = true := by
  simp only [isBinaryCol, decide_eq_true_eq, exFrame, Cell.num.injEq]
  intro i
  match i with
  | 0 => simp
  | 1 => simp

theorem ex_y_not_binary : isBinaryCol (exFrame.col "y") = false := by
  simp only [isBinaryCol, decide_eq_false_iff_not, exFrame, Cell.num.injEq]
  intro h
  have := h 0
  simp at this

theorem ex_e_not_binary : isBinaryCol (exFrame.col "e") = false := by
  simp only [isBinaryCol, decide_eq_false_iff_not, exFrame, Cell.num.injEq]
  intro h
  have := h 0
  simp at this

theorem exInit : dataInit exFrame none exArgs = .ok exState := by
  have h1 : ¬ ¬ (∀ cs ∈ (none : Option (List String)), ∀ c ∈ cs, finiteCol (exFrame.col c)) := by simp
  have h2 : ¬ ¬ (∀ c ∈ ["d"], finiteCol (exFrame.col c)) := not_not.2 fun c _ => exFrame_finite c
  have h3 : ¬ ¬ finiteCol (exFrame.col "y") := not_not.2 (exFrame_finite _)
  have hc1 : colStr exFrame (.str "y") = .ok "y" := by simp [colStr, exFrame]
  have hc2 : colList exFrame (.str "d") = .ok ["d"] := by simp [colList, exFrame]
  have hc3 : colList exFrame (.list ["x"]) = .ok ["x"] := by simp [colList, exFrame]
  unfold dataInit
  simp only [clusterArg, bind, Except.bind]
  rw [if_neg h1]
  simp only [exArgs, hc1, hc2, zArg, optArg, xArg, hc3]
  rw [if_neg (by simp [disjointBase, disjointTS, disj])]
  simp only [checkBool, forceArg, if_true]
  rw [if_neg h2, if_neg h3]
  rw [setYZTS_finite exFrame_finite]
  simp only
  rw [setXDFirst_finite exFrame_finite (tv := "d") (l := []) rfl]
  simp only
  rw [if_pos (by simp [disjointAll, disjointBase, disjointTS, disjointCluster, disj])]
  simp [exState, ex_d_binary, ex_y_not_binary, xdList]

/-- Non-vacuity of C33: the object can be built and its covariates can be reassigned. -/
example : ∃ S, dataInit exFrame none exArgs = .ok S ∧ allSucceed exFrame S [.setX .none, .setTreat (.str "d")] := by
  have hd : dataStep exFrame exState (.setX .none) =
      finishXD exFrame { exState with x := defaultX exFrame exState } := rfl
  have hx : defaultX exFrame exState = ["x", "e"] := by simp [defaultX, excludedCols, exState, exFrame]
  have h1 := finishXD_finite exFrame_finite (S := { exState with x := defaultX exFrame exState }) (tv := "d") (l := [])
    rfl (by rw [hx]; simp [disjointAll, disjointBase, disjointTS, disjointCluster, disj, exState])
  refine ⟨_, exInit, ?_, ?_, trivial⟩
  · rw [hd, h1]
  · rw [hd, h1]
    simp only [dataStep]
    rw [setXD_finite exFrame_finite (by simp [exState])]

/-! ## C34 -/

/-- **C34 (violated).** Assigning the outcome column as covariate raises, yet the object keeps the
assignment: afterwards the outcome is also a covariate.  The next (successful) selection of the treatment,
which every fit performs, puts the outcome values into the covariate matrix. -/
theorem C34_violated : ∃ (F : Frame 2) (a : DataArgs) (S : DataState 2), F.cols.Nodup ∧ dataInit F none a = .ok S ∧
    (dataStep F S (.setX (.str "y"))).2 = .error .valueError ∧
    (dataStep F S (.setX (.str "y"))).1.x = [S.y] ∧
    (dataStep F (dataStep F S (.setX (.str "y"))).1 (.setTreat (.str "d"))).2 = .ok () ∧
    (dataStep F (dataStep F S (.setX (.str "y"))).1 (.setTreat (.str "d"))).1.xv = [S.yv] := by
  have h1 : dataStep exFrame exState (.setX (.str "y")) = ({ exState with x := ["y"] }, .error .valueError) := by
    have : xArg exFrame exState (.str "y") = .ok ["y"] := by simp [xArg, colList, exFrame]
    simp only [dataStep, this, finishXD]
    rw [if_neg (by simp [disjointAll, disjointBase, disj, exState])]
  have h2 : setXD exFrame { exState with x := ["y"] } "d" = .ok _ := setXD_finite exFrame_finite (by simp [exState])
  refine ⟨exFrame, exArgs, exState, by simp [exFrame], exInit, ?_, ?_, ?_, ?_⟩
  · rw [h1]
  · rw [h1]; rfl
  · rw [h1]
    simp only [dataStep]
    rw [h2]
  · rw [h1]
    simp only [dataStep]
    rw [h2]
    simp [xdList, exState]

theorem setXDFirst_error {F : Frame n} {S : DataState n} (h : setXDFirst F S = .error .typeError) : False := by
  unfold setXDFirst at h
  cases hd : S.d with
  | nil => rw [hd] at h; cases h
  | cons tv l =>
    rw [hd] at h
    simp only [setXD] at h
    split_ifs at h <;> cases h

theorem finishXD_error {F : Frame n} {S : DataState n} (h : (finishXD F S).2 = .error .typeError) : False := by
  unfold finishXD at h
  split_ifs at h
  · cases hs : setXDFirst F S with
    | ok T => rw [hs] at h; cases h
    | error e => rw [hs] at h; cases h; exact setXDFirst_error hs
  · cases h

theorem finishYZTS_error {F : Frame n} {S : DataState n} (h : (finishYZTS F S).2 = .error .typeError) : False := by
  unfold finishYZTS setYZTS at h
  dsimp only at h
  split_ifs at h <;> cases h

theorem finishCluster_error {F : Frame n} {S : DataState n} (h : (finishCluster F S).2 = .error .typeError) :
    False := by
  unfold finishCluster at h
  split_ifs at h <;> cases h

/-- **C34 (partial).** Assignments of a wrong type are rejected without any effect, for every setter and
every state.  Missing from the full property: assignments rejected for overlapping roles or non-finite
data, see `C34_violated`. -/
theorem C34_type_errors_no_effect_partial (F : Frame n) (S : DataState n) (o : DataOp)
    (h : (dataStep F S o).2 = .error .typeError) : (dataStep F S o).1 = S := by
  cases o with
  | setX a =>
    simp only [dataStep] at h ⊢
    cases ha : xArg F S a with
    | error e => rfl
    | ok v => rw [ha] at h; exact (finishXD_error h).elim
  | setD a =>
    simp only [dataStep] at h ⊢
    cases ha : colList F a with
    | error e => rfl
    | ok v => rw [ha] at h; exact (finishXD_error h).elim
  | setY a =>
    simp only [dataStep] at h ⊢
    cases ha : colStr F a with
    | error e => rfl
    | ok v => rw [ha] at h; exact (finishYZTS_error h).elim
  | setZ a =>
    simp only [dataStep] at h ⊢
    cases ha : zArg F a with
    | error e => rfl
    | ok v => rw [ha] at h; exact (finishYZTS_error h).elim
  | setT a =>
    simp only [dataStep] at h ⊢
    cases ha : optArg F a with
    | error e => rfl
    | ok v => rw [ha] at h; exact (finishYZTS_error h).elim
  | setS a =>
    simp only [dataStep] at h ⊢
    cases ha : optArg F a with
    | error e => rfl
    | ok v => rw [ha] at h; exact (finishYZTS_error h).elim
  | setCluster a =>
    simp only [dataStep] at h ⊢
    cases hc : S.cluster with
    | none => rfl
    | some c =>
      rw [hc] at h
      cases ha : colList F a with
      | error e => rfl
      | ok v => rw [ha] at h; exact (finishCluster_error h).elim
  | setUseOther v =>
    simp only [dataStep] at h ⊢
    cases hb : checkBool v with
    | error e => rfl
    | ok b =>
      rw [hb] at h
      dsimp only at h ⊢
      cases hs : setXDFirst F { S with useOther := b } with
      | error e => rw [hs] at h; cases h; exact (setXDFirst_error hs).elim
      | ok T => rw [hs] at h; cases h
  | setForce v =>
    simp only [dataStep] at h ⊢
    cases hb : forceArg v with
    | error e => rfl
    | ok b =>
      rw [hb] at h
      dsimp only at h ⊢
      cases hs : setXDFirst F { S with force := b } with
      | error e => rw [hs] at h; cases h; exact (setXDFirst_error hs).elim
      | ok T => rw [hs] at h; cases h
  | setTreat a =>
    cases a with
    | str tv =>
      simp only [dataStep] at h ⊢
      cases hs : setXD F S tv with
      | error e => rfl
      | ok T => rw [hs] at h; cases h
    | _ => rfl

/-- **C34 (partial).** Lists with repetitions and unknown columns are rejected without any effect. -/
theorem C34_unknown_columns_no_effect_partial (F : Frame n) (S : DataState n) (l : List String)
    (hl : ¬ l.Nodup ∨ ¬ l ⊆ F.cols) :
    ∀ o ∈ [DataOp.setX (.list l), .setD (.list l), .setZ (.list l)],
      dataStep F S o = (S, .error .valueError) := by
  have hc : colList F (.list l) = .error .valueError := by
    simp only [colList]
    by_cases hn : l.Nodup
    · rw [if_neg (not_not.2 hn), if_neg (by tauto)]
    · rw [if_pos hn]
  intro o ho
  simp only [List.mem_cons, List.not_mem_nil, or_false] at ho
  rcases ho with rfl | rfl | rfl
  · simp only [dataStep, xArg, hc]
  · simp only [dataStep, hc]
  · simp only [dataStep, zArg, hc, Except.map]

/-! ## C35 -/

/-- **C35 (partial).** After construction and any history of successful calls all cached arrays are those of
the current roles: `y`, `z`, `t`, `s`, the cluster variables, the selected treatment and the covariates
(with the other treatments appended iff `use_other_treat_as_covariate`).  Missing from the full property:
the binary indicators, see `C35_violated_binary_treatment`. -/
theorem C35_cached_arrays_fresh_partial {F : Frame n} (hF : F.cols.Nodup) (cl : Option ColArg) (a : DataArgs)
    (S : DataState n) (h : dataInit F cl a = .ok S) (os : List DataOp) (hs : allSucceed F S os) :
    Fresh F (dataRun F S os) := by
  obtain ⟨hok, hv, hf, h'⟩ := dataInit_ok hF h
  clear h h'
  induction os generalizing S with
  | nil => exact hf
  | cons o os ih =>
    have hok' := dataStep_rolesOk hF hok o
    have hv' : RolesValid F (dataStep F S o).1 := by
      cases hr : o.isRole with
      | true => exact dataStep_valid hF hok o hr hs.1
      | false => exact (dataStep_sameRoles o hr).valid hv
    refine ih _ hs.2 hok' hv' ?_
    have h1 := hs.1
    obtain ⟨f1, f2, f3, f4, f5, tv0, ht0, f6, f7⟩ := hf
    -- the two ways a call ends
    have endXD : ∀ T : DataState n, T.yv = F.col T.y → T.zv = T.z.map (List.map F.col) → T.tv = T.t.map F.col →
        T.sv = T.s.map F.col → T.cv = (T.cluster.getD []).map F.col →
        ∀ tv ∈ T.d, (dataStep F S o).1 = { T with dv := F.col tv, xv := (xdList T tv).map F.col } →
        Fresh F (dataStep F S o).1 := by
      intro T t1 t2 t3 t4 t5 tv htv he
      rw [he] at hv' ⊢
      refine ⟨t1, t2, t3, t4, t5, tv, htv, rfl, ?_⟩
      rw [← xdList_eq hv' htv]
      rfl
    have hxd : xdList S tv0 = S.x ++ if S.useOther then S.d.erase tv0 else [] := xdList_eq hv ht0
    cases o with
    | setX a =>
      simp only [dataStep] at h1 hv' endXD ⊢
      cases ha : xArg F S a with
      | error e => rw [ha] at h1; cases h1
      | ok v =>
        rw [ha] at h1 hv' endXD
        obtain ⟨_, tv, htv, he⟩ := finishXD_ok h1
        refine endXD _ ?_ ?_ ?_ ?_ ?_ tv htv he
        exacts [f1, f2, f3, f4, f5]
    | setD a =>
      simp only [dataStep] at h1 hv' endXD ⊢
      cases ha : colList F a with
      | error e => rw [ha] at h1; cases h1
      | ok v =>
        rw [ha] at h1 hv' endXD
        obtain ⟨_, tv, htv, he⟩ := finishXD_ok h1
        refine endXD _ ?_ ?_ ?_ ?_ ?_ tv htv he
        exacts [f1, f2, f3, f4, f5]
    | setY a =>
      simp only [dataStep] at h1 ⊢
      cases ha : colStr F a with
      | error e => rw [ha] at h1; cases h1
      | ok v =>
        rw [ha] at h1
        obtain ⟨_, he⟩ := finishYZTS_ok h1
        dsimp only
        rw [he]
        exact ⟨rfl, rfl, rfl, rfl, f5, tv0, ht0, f6, f7⟩
    | setZ a =>
      simp only [dataStep] at h1 ⊢
      cases ha : zArg F a with
      | error e => rw [ha] at h1; cases h1
      | ok v =>
        rw [ha] at h1
        obtain ⟨_, he⟩ := finishYZTS_ok h1
        dsimp only
        rw [he]
        exact ⟨rfl, rfl, rfl, rfl, f5, tv0, ht0, f6, f7⟩
    | setT a =>
      simp only [dataStep] at h1 ⊢
      cases ha : optArg F a with
      | error e => rw [ha] at h1; cases h1
      | ok v =>
        rw [ha] at h1
        obtain ⟨_, he⟩ := finishYZTS_ok h1
        dsimp only
        rw [he]
        exact ⟨rfl, rfl, rfl, rfl, f5, tv0, ht0, f6, f7⟩
    | setS a =>
      simp only [dataStep] at h1 ⊢
      cases ha : optArg F a with
      | error e => rw [ha] at h1; cases h1
      | ok v =>
        rw [ha] at h1
        obtain ⟨_, he⟩ := finishYZTS_ok h1
        dsimp only
        rw [he]
        exact ⟨rfl, rfl, rfl, rfl, f5, tv0, ht0, f6, f7⟩
    | setCluster a =>
      simp only [dataStep] at h1 ⊢
      cases hc : S.cluster with
      | none => rw [hc] at h1; cases h1
      | some c =>
        rw [hc] at h1
        cases ha : colList F a with
        | error e => rw [ha] at h1; cases h1
        | ok v =>
          rw [ha] at h1
          obtain ⟨_, he⟩ := finishCluster_ok h1
          dsimp only
          rw [he]
          exact ⟨f1, f2, f3, f4, rfl, tv0, ht0, f6, f7⟩
    | setUseOther v =>
      simp only [dataStep] at h1 hv' endXD ⊢
      cases hb : checkBool v with
      | error e => rw [hb] at h1; cases h1
      | ok b =>
        rw [hb] at h1 hv' endXD
        dsimp only at h1 hv' endXD ⊢
        cases hx : setXDFirst F { S with useOther := b } with
        | error e => rw [hx] at h1; cases h1
        | ok T =>
          rw [hx] at hv' endXD
          obtain ⟨tv, htv, rfl⟩ := setXDFirst_ok hx
          refine endXD { S with useOther := b } f1 f2 f3 f4 f5 tv htv rfl
    | setForce v =>
      simp only [dataStep] at h1 hv' endXD ⊢
      cases hb : forceArg v with
      | error e => rw [hb] at h1; cases h1
      | ok b =>
        rw [hb] at h1 hv' endXD
        dsimp only at h1 hv' endXD ⊢
        cases hx : setXDFirst F { S with force := b } with
        | error e => rw [hx] at h1; cases h1
        | ok T =>
          rw [hx] at hv' endXD
          obtain ⟨tv, htv, rfl⟩ := setXDFirst_ok hx
          refine endXD { S with force := b } f1 f2 f3 f4 f5 tv htv rfl
    | setTreat a =>
      cases a with
      | str tv =>
        simp only [dataStep] at h1 hv' endXD ⊢
        cases hx : setXD F S tv with
        | error e => rw [hx] at h1; cases h1
        | ok T =>
          rw [hx] at hv' endXD
          obtain ⟨htv, rfl⟩ := setXD_ok hx
          refine endXD S f1 f2 f3 f4 f5 tv htv rfl
      | none => cases h1
      | list l => cases h1
      | other => cases h1

/-- **C35 (violated).** After successfully assigning a non-binary treatment column the indicator still
says that the (only) treatment is binary; it is even recorded under the old name. -/
theorem C35_violated_binary_treatment : ∃ (F : Frame 2) (a : DataArgs) (S : DataState 2), F.cols.Nodup ∧
    dataInit F none a = .ok S ∧ (dataStep F S (.setD (.str "e"))).2 = .ok () ∧
    (dataStep F S (.setD (.str "e"))).1.d = ["e"] ∧ isBinaryCol (F.col "e") = false ∧
    (dataStep F S (.setD (.str "e"))).1.binTreats = [("d", true)] := by
  have h1 : dataStep exFrame exState (.setD (.str "e")) =
      ({ exState with d := ["e"], dv := exFrame.col "e" }, .ok ()) := by
    have : colList exFrame (.str "e") = .ok ["e"] := by simp [colList, exFrame]
    simp only [dataStep, this]
    rw [finishXD_finite exFrame_finite (tv := "e") (l := []) rfl
      (by simp [disjointAll, disjointBase, disjointTS, disjointCluster, disj, exState])]
    simp [xdList, exState]
  refine ⟨exFrame, exArgs, exState, by simp [exFrame], exInit, by rw [h1], by rw [h1], ex_e_not_binary,
    by rw [h1]; rfl⟩

/-- **C35 (violated).** The outcome indicator is not refreshed either: after switching the outcome to a
zero-one column it still says "not binary". -/
theorem C35_violated_binary_outcome : ∃ (F : Frame 2) (a : DataArgs) (S : DataState 2), F.cols.Nodup ∧
    dataInit F none a = .ok S ∧ allSucceed F S [.setD (.str "e"), .setY (.str "d")] ∧
    isBinaryCol (F.col (dataRun F S [.setD (.str "e"), .setY (.str "d")]).y) = true ∧
    (dataRun F S [.setD (.str "e"), .setY (.str "d")]).binOut = false := by
  have h1 : dataStep exFrame exState (.setD (.str "e")) =
      ({ exState with d := ["e"], dv := exFrame.col "e" }, .ok ()) := by
    have : colList exFrame (.str "e") = .ok ["e"] := by simp [colList, exFrame]
    simp only [dataStep, this]
    rw [finishXD_finite exFrame_finite (tv := "e") (l := []) rfl
      (by simp [disjointAll, disjointBase, disjointTS, disjointCluster, disj, exState])]
    simp [xdList, exState]
  have h2 : dataStep exFrame { exState with d := ["e"], dv := exFrame.col "e" } (.setY (.str "d")) =
      ({ exState with d := ["e"], dv := exFrame.col "e", y := "d", yv := exFrame.col "d" }, .ok ()) := by
    have : colStr exFrame (.str "d") = .ok "d" := by simp [colStr, exFrame]
    simp only [dataStep, this, finishYZTS]
    rw [if_pos (by simp [disjointAll, disjointBase, disjointTS, disjointCluster, disj, exState])]
    rw [setYZTS_finite exFrame_finite]
    simp [exState]
  refine ⟨exFrame, exArgs, exState, by simp [exFrame], exInit, ⟨by rw [h1], by rw [h1]; simp only; rw [h2], trivial⟩, ?_, ?_⟩
  · simp only [dataRun, h1, h2]
    exact ex_d_binary
  · simp only [dataRun, h1, h2]; rfl

/-! ## C36 -/

theorem decimal_injective {i j : ℕ} (h : toString i = toString j) : i = j := by
  have h1 := congrArg String.toList h
  simp only [Nat.toString_eq_repr, Nat.toList_repr] at h1
  have h2 := congrArg (fun l => Nat.ofDigitChars 10 l 0) h1
  simpa [Nat.ofDigitChars_ten_toDigits] using h2

theorem numbered_injective (p : String) {i j : ℕ} (h : p ++ toString (i + 1) = p ++ toString (j + 1)) : i = j := by
  have h1 := congrArg String.toList h
  simp only [String.toList_append, List.append_cancel_left_eq] at h1
  have := decimal_injective (String.toList_inj.1 h1)
  omega

theorem numbered_nodup (p : String) (k : ℕ) : ((List.range k).map fun (i : ℕ) => p ++ toString (i + 1)).Nodup :=
  List.Nodup.map_on (fun _ _ _ _ h => numbered_injective p h) List.nodup_range

theorem genNames_nodup (p : String) (k : ℕ) : (genNames p k).Nodup := by
  unfold genNames
  split_ifs
  · simp
  · exact numbered_nodup p k

@[simp] theorem genNames_length (p : String) (k : ℕ) : (genNames p k).length = k := by
  unfold genNames
  split_ifs with h
  · simp [h]
  · simp

@[simp] theorem xNames_length (k : ℕ) : (xNames k).length = k := by simp [xNames]

/-- The first character of a name. -/
def firstChar (s : String) : Option Char := s.toList.head?

theorem firstChar_append (p q : String) (hp : p.toList ≠ []) : firstChar (p ++ q) = firstChar p := by
  unfold firstChar
  rw [String.toList_append, List.head?_append_of_ne_nil _ hp]

theorem firstChar_genNames {p : String} (hp : p.toList ≠ []) {k : ℕ} {c : String} (h : c ∈ genNames p k) :
    firstChar c = firstChar p := by
  unfold genNames at h
  split_ifs at h
  · simp only [List.mem_singleton] at h; rw [h]
  · obtain ⟨i, _, rfl⟩ := List.mem_map.1 h
    exact firstChar_append _ _ hp

theorem firstChar_xNames {k : ℕ} {c : String} (h : c ∈ xNames k) : firstChar c = some 'X' := by
  obtain ⟨i, _, rfl⟩ := List.mem_map.1 h
  rw [firstChar_append _ _ (by decide)]
  decide

theorem map_fst_zip {α β : Type} {a : List α} {b : List β} (h : a.length = b.length) :
    (a.zip b).map Prod.fst = a := List.map_fst_zip (le_of_eq h)

/-- The names used for an optional list of arrays. -/
def optNames (p : String) (o : Option (List (Fin n → Cell))) : List String :=
  o.elim [] fun c => genNames p c.length

/-- The name used for an optional array. -/
def optName (p : String) (o : Option (Fin n → Cell)) : List String := o.elim [] fun _ => [p]

theorem optCols_names (p : String) (o : Option (List (Fin n → Cell))) :
    (optCols p o).map Prod.fst = optNames p o := by
  cases o with
  | none => rfl
  | some c => exact map_fst_zip (by simp)

theorem optCol_names (p : String) (o : Option (Fin n → Cell)) : (optCol p o).map Prod.fst = optName p o := by
  cases o <;> rfl

theorem arrayCols_names (a : Arrays n) : (arrayCols a).map Prod.fst =
    optNames "cluster_var" a.cluster ++ xNames a.x.length ++ ["y"] ++ genNames "d" a.d.length ++ optNames "z" a.z ++
    optName "t" a.t ++ optName "s" a.s := by
  simp only [arrayCols, List.map_append, optCols_names, optCol_names, map_fst_zip (xNames_length _),
    map_fst_zip (genNames_length _ _), List.map_cons, List.map_nil]

theorem firstChar_optNames {p : String} (hp : p.toList ≠ []) {o : Option (List (Fin n → Cell))} {c : String}
    (h : c ∈ optNames p o) : firstChar c = firstChar p := by
  cases o with
  | none => cases h
  | some l => exact firstChar_genNames hp h

theorem firstChar_optName {p : String} {o : Option (Fin n → Cell)} {c : String}
    (h : c ∈ optName p o) : firstChar c = firstChar p := by
  cases o with
  | none => cases h
  | some l => rw [List.mem_singleton.1 h]

theorem optNames_nodup (p : String) (o : Option (List (Fin n → Cell))) : (optNames p o).Nodup := by
  cases o with
  | none => exact List.nodup_nil
  | some l => exact genNames_nodup _ _

theorem optName_nodup (p : String) (o : Option (Fin n → Cell)) : (optName p o).Nodup := by
  cases o with
  | none => exact List.nodup_nil
  | some l => exact List.nodup_singleton _

/-- **C36.** The generated column names are pairwise different, whatever the numbers of columns. -/
theorem C36_names_distinct (a : Arrays n) : ((arrayCols a).map Prod.fst).Nodup := by
  rw [arrayCols_names]
  have app : ∀ {l m : List String}, l.Nodup → m.Nodup → (∀ x ∈ l, ∀ y ∈ m, firstChar x ≠ firstChar y) →
      (l ++ m).Nodup := by
    intro l m hl hm h
    rw [List.nodup_append]
    exact ⟨hl, hm, fun x hx y hy e => h x hx y hy (by rw [e])⟩
  have e1 : ∀ x ∈ optNames "cluster_var" a.cluster, firstChar x = some 'c' :=
    fun x h => (firstChar_optNames (by decide) h).trans (by decide)
  have e2 : ∀ x ∈ xNames a.x.length, firstChar x = some 'X' := fun x h => firstChar_xNames h
  have e3 : ∀ x ∈ ["y"], firstChar x = some 'y' := fun x h => by rw [List.mem_singleton.1 h]; decide
  have e4 : ∀ x ∈ genNames "d" a.d.length, firstChar x = some 'd' :=
    fun x h => (firstChar_genNames (by decide) h).trans (by decide)
  have e5 : ∀ x ∈ optNames "z" a.z, firstChar x = some 'z' :=
    fun x h => (firstChar_optNames (by decide) h).trans (by decide)
  have e6 : ∀ x ∈ optName "t" a.t, firstChar x = some 't' :=
    fun x h => (firstChar_optName h).trans (by decide)
  have e7 : ∀ x ∈ optName "s" a.s, firstChar x = some 's' :=
    fun x h => (firstChar_optName h).trans (by decide)
  have k1 := app (optNames_nodup "cluster_var" a.cluster) (numbered_nodup "X" a.x.length)
    (fun x hx y hy => by rw [e1 x hx, e2 y hy]; decide)
  have k2 := app k1 (List.nodup_singleton "y") (fun x hx y hy => by
    rw [e3 y hy]
    rcases List.mem_append.1 hx with hx | hx
    · rw [e1 x hx]; decide
    · rw [e2 x hx]; decide)
  have k3 := app k2 (genNames_nodup "d" a.d.length) (fun x hx y hy => by
    rw [e4 y hy]
    simp only [List.mem_append] at hx
    rcases hx with (hx | hx) | hx
    · rw [e1 x hx]; decide
    · rw [e2 x hx]; decide
    · rw [e3 x hx]; decide)
  have k4 := app k3 (optNames_nodup "z" a.z) (fun x hx y hy => by
    rw [e5 y hy]
    simp only [List.mem_append] at hx
    rcases hx with ((hx | hx) | hx) | hx
    · rw [e1 x hx]; decide
    · rw [e2 x hx]; decide
    · rw [e3 x hx]; decide
    · rw [e4 x hx]; decide)
  have k5 := app k4 (optName_nodup "t" a.t) (fun x hx y hy => by
    rw [e6 y hy]
    simp only [List.mem_append] at hx
    rcases hx with (((hx | hx) | hx) | hx) | hx
    · rw [e1 x hx]; decide
    · rw [e2 x hx]; decide
    · rw [e3 x hx]; decide
    · rw [e4 x hx]; decide
    · rw [e5 x hx]; decide)
  exact app k5 (optName_nodup "s" a.s) (fun x hx y hy => by
    rw [e7 y hy]
    simp only [List.mem_append] at hx
    rcases hx with ((((hx | hx) | hx) | hx) | hx) | hx
    · rw [e1 x hx]; decide
    · rw [e2 x hx]; decide
    · rw [e3 x hx]; decide
    · rw [e4 x hx]; decide
    · rw [e5 x hx]; decide
    · rw [e6 x hx]; decide)

theorem find_of_nodup {l : List (String × (Fin n → Cell))} (hl : (l.map Prod.fst).Nodup)
    {p : String × (Fin n → Cell)} (hp : p ∈ l) : l.find? (fun q => q.1 == p.1) = some p := by
  induction l with
  | nil => cases hp
  | cons q l ih =>
    simp only [List.map_cons, List.nodup_cons] at hl
    rcases List.mem_cons.1 hp with rfl | hp
    · simp
    · have hne : q.1 ≠ p.1 := fun e => hl.1 (e ▸ List.mem_map_of_mem hp)
      rw [List.find?_cons_of_neg (by simpa using hne)]
      exact ih hl.2 hp

theorem frameOf_col {l : List (String × (Fin n → Cell))} (hl : (l.map Prod.fst).Nodup)
    {p : String × (Fin n → Cell)} (hp : p ∈ l) : (frameOf l).col p.1 = p.2 := by
  simp only [frameOf, find_of_nodup hl hp]
  rfl

theorem map_col_zip (F : Frame n) (names : List String) (cols : List (Fin n → Cell))
    (hl : names.length = cols.length) (h : ∀ p ∈ names.zip cols, F.col p.1 = p.2) : names.map F.col = cols := by
  induction names generalizing cols with
  | nil =>
    cases cols with
    | nil => rfl
    | cons => simp at hl
  | cons a l ih =>
    cases cols with
    | nil => simp at hl
    | cons c m =>
      simp only [List.map_cons, List.cons.injEq]
      refine ⟨h (a, c) (by simp), ih m (by simpa using hl) fun p hp => h p ?_⟩
      rw [List.zip_cons_cons]
      exact List.mem_cons_of_mem _ hp

theorem colList_list {F : Frame n} {l m : List String} (h : colList F (.list l) = .ok m) : m = l := by
  simp only [colList] at h
  by_cases hn : l.Nodup
  · rw [if_neg (not_not.2 hn)] at h
    split_ifs at h
    exact (Except.ok.inj h).symm
  · rw [if_pos hn] at h; cases h

/-- **C36.** The object built from arrays holds exactly the passed arrays: the outcome, the treatments, the
covariates, the instruments, time, score/selection and cluster variables all read back column by column
(no column is lost, duplicated or reordered), the first treatment is selected and the other treatments are
appended to the covariates iff requested. -/
theorem C36_from_arrays_round_trip (a : Arrays n) (useOther force : PyVal) (F : Frame n) (S : DataState n)
    (h : fromArrays a useOther force = .ok (F, S)) :
    F.cols.length = (a.cluster.getD []).length + a.x.length + 1 + a.d.length + (a.z.getD []).length +
      a.t.toList.length + a.s.toList.length ∧
    S.yv = a.y ∧ S.d.map F.col = a.d ∧ S.x.map F.col = a.x ∧ S.zv = a.z ∧ S.tv = a.t ∧ S.sv = a.s ∧
    S.cv = a.cluster.getD [] ∧ (S.cluster.isSome = a.cluster.isSome) ∧ RolesValid F S ∧
    ∃ d ds, a.d = d :: ds ∧ S.dv = d ∧ S.xv = a.x ++ if S.useOther then ds else [] := by
  unfold fromArrays at h
  obtain ⟨S', hS, h⟩ := bind_ok h
  have hn := C36_names_distinct a
  obtain ⟨rfl, rfl⟩ : F = frameOf (arrayCols a) ∧ S = S' := by cases h; exact ⟨rfl, rfl⟩
  obtain ⟨hok, hv, ⟨f1, f2, f3, f4, f5, -⟩, -, -, hy, hd, hz, ht, hs, hc, hx, -, tv, l, htl, hdv, hxv⟩ :=
    dataInit_ok (F := frameOf (arrayCols a)) hn hS
  have look : ∀ p ∈ arrayCols a, (frameOf (arrayCols a)).col p.1 = p.2 := fun p hp => frameOf_col hn hp
  have hy' : S.y = "y" := by
    simp only [arrayArgs, colStr] at hy
    split_ifs at hy
    exact (Except.ok.inj hy).symm
  have hd' : S.d = genNames "d" a.d.length := colList_list hd
  have hx' : S.x = xNames a.x.length := by
    simp only [arrayArgs, xArg] at hx
    exact colList_list hx
  have hdm : S.d.map (frameOf (arrayCols a)).col = a.d := by
    rw [hd']
    exact map_col_zip _ _ _ (by simp) fun p hp => look p (by simp only [arrayCols, List.mem_append]; tauto)
  have hxm : S.x.map (frameOf (arrayCols a)).col = a.x := by
    rw [hx']
    exact map_col_zip _ _ _ (by simp) fun p hp => look p (by simp only [arrayCols, List.mem_append]; tauto)
  refine ⟨?_, ?_, hdm, hxm, ?_, ?_, ?_, ?_, ?_, hv, ?_⟩
  · show ((arrayCols a).map Prod.fst).length = _
    rw [arrayCols_names]
    simp only [List.length_append, xNames_length, genNames_length, List.length_singleton]
    have o1 : ∀ (p : String) (o : Option (List (Fin n → Cell))), (optNames p o).length = (o.getD []).length := by
      intro p o; cases o <;> simp [optNames]
    have o2 : ∀ (p : String) (o : Option (Fin n → Cell)), (optName p o).length = o.toList.length := by
      intro p o; cases o <;> simp [optName]
    rw [o1, o1, o2, o2]
  · rw [f1, hy']
    exact look ("y", a.y) (by simp [arrayCols])
  · rw [f2]
    cases haz : a.z with
    | none =>
      simp only [arrayArgs, haz, optListArg, zArg] at hz
      rw [← Except.ok.inj hz]; rfl
    | some c =>
      simp only [arrayArgs, haz, optListArg, zArg] at hz
      cases hcl : colList (frameOf (arrayCols a)) (.list (genNames "z" c.length)) with
      | error e => rw [hcl] at hz; cases hz
      | ok m =>
        rw [hcl] at hz
        have hm := colList_list hcl
        rw [← Except.ok.inj hz, Option.map_some, hm]
        congr 1
        exact map_col_zip _ _ _ (by simp) fun p hp => look p (by
          simp only [arrayCols, haz, optCols, List.mem_append]; tauto)
  · rw [f3]
    cases hat : a.t with
    | none =>
      simp only [arrayArgs, hat, optStrArg, optArg] at ht
      rw [← Except.ok.inj ht]; rfl
    | some c =>
      simp only [arrayArgs, hat, optStrArg, optArg, colStr] at ht
      split_ifs at ht
      · rw [← Except.ok.inj ht, Option.map_some]
        congr 1
        exact look ("t", c) (by simp [arrayCols, hat, optCol])
      · cases ht
  · rw [f4]
    cases hat : a.s with
    | none =>
      simp only [arrayArgs, hat, optStrArg, optArg] at hs
      rw [← Except.ok.inj hs]; rfl
    | some c =>
      simp only [arrayArgs, hat, optStrArg, optArg, colStr] at hs
      split_ifs at hs
      · rw [← Except.ok.inj hs, Option.map_some]
        congr 1
        exact look ("s", c) (by simp [arrayCols, hat, optCol])
      · cases hs
  · rw [f5]
    cases hac : a.cluster with
    | none =>
      simp only [hac, Option.map_none, clusterArg] at hc
      rw [← Except.ok.inj hc]; rfl
    | some c =>
      simp only [hac, Option.map_some, clusterArg] at hc
      cases hcl : colList (frameOf (arrayCols a)) (.list (genNames "cluster_var" c.length)) with
      | error e => rw [hcl] at hc; cases hc
      | ok m =>
        rw [hcl] at hc
        have hm := colList_list hcl
        rw [← Except.ok.inj hc, Option.getD_some, Option.getD_some, hm]
        exact map_col_zip _ _ _ (by simp) fun p hp => look p (by
          simp only [arrayCols, hac, optCols, List.mem_append]; tauto)
  · cases hac : a.cluster with
    | none =>
      simp only [hac, Option.map_none, clusterArg] at hc
      rw [← Except.ok.inj hc]; rfl
    | some c =>
      simp only [hac, Option.map_some, clusterArg] at hc
      cases hcl : colList (frameOf (arrayCols a)) (.list (genNames "cluster_var" c.length)) with
      | error e => rw [hcl] at hc; cases hc
      | ok m => rw [hcl] at hc; rw [← Except.ok.inj hc]; rfl
  · refine ⟨(frameOf (arrayCols a)).col tv, l.map (frameOf (arrayCols a)).col, ?_, hdv, ?_⟩
    · rw [← hdm, htl]; rfl
    · rw [hxv, List.map_append, hxm]
      split_ifs <;> rfl

/-- **C36.** Arrays without missing or infinite values are accepted, for any number of columns. -/
theorem C36_from_arrays_accepts (a : Arrays n) (b c : Bool) (hd : a.d ≠ [])
    (hf : ∀ p ∈ arrayCols a, finiteCol p.2) :
    ∃ F S, fromArrays a (.bool b) (.bool c) = .ok (F, S) := by
  have hn := C36_names_distinct a
  have hfin : ∀ x ∈ (frameOf (arrayCols a)).cols, finiteCol ((frameOf (arrayCols a)).col x) := by
    intro x hx
    obtain ⟨p, hp, rfl⟩ := List.mem_map.1 hx
    rw [frameOf_col hn hp]
    exact hf p hp
  have hcols : (frameOf (arrayCols a)).cols = _ := arrayCols_names a
  have hl : ∀ l : List String, l.Nodup → l ⊆ (frameOf (arrayCols a)).cols →
      colList (frameOf (arrayCols a)) (.list l) = .ok l := by
    intro l h1 h2
    simp only [colList]
    rw [if_neg (not_not.2 h1), if_pos h2]
  have sub : ∀ x, (x ∈ optNames "cluster_var" a.cluster ∨ x ∈ xNames a.x.length ∨ x = "y" ∨
      x ∈ genNames "d" a.d.length ∨ x ∈ optNames "z" a.z ∨ x ∈ optName "t" a.t ∨ x ∈ optName "s" a.s) →
      x ∈ (frameOf (arrayCols a)).cols := by
    intro x hx
    rw [hcols]
    simp only [List.mem_append, List.mem_singleton]
    tauto
  have hcl : clusterArg (frameOf (arrayCols a)) (a.cluster.map fun c => .list (genNames "cluster_var" c.length)) =
      .ok (a.cluster.map fun c => genNames "cluster_var" c.length) := by
    cases hac : a.cluster with
    | none => rfl
    | some c =>
      simp only [Option.map_some, clusterArg]
      rw [hl _ (genNames_nodup _ _) fun x hx => sub x (by rw [hac]; exact Or.inl hx)]
      rfl
  have hy : colStr (frameOf (arrayCols a)) (.str "y") = .ok "y" := by
    simp only [colStr]
    rw [if_pos (sub "y" (by tauto))]
  have hd' := hl (genNames "d" a.d.length) (genNames_nodup _ _) fun x hx => sub x (by tauto)
  have hx' := hl (xNames a.x.length) (numbered_nodup _ _) fun x hx => sub x (by tauto)
  have hz : zArg (frameOf (arrayCols a)) (optListArg "z" a.z) = .ok (a.z.map fun c => genNames "z" c.length) := by
    cases hac : a.z with
    | none => rfl
    | some c =>
      simp only [optListArg, Option.map_some, zArg]
      rw [hl _ (genNames_nodup _ _) fun x hx => sub x (by rw [hac]; exact Or.inr (Or.inr (Or.inr (Or.inr (Or.inl hx)))))]
      rfl
  have ho : ∀ (p : String) (o : Option (Fin n → Cell)), (∀ x ∈ optName p o, x ∈ (frameOf (arrayCols a)).cols) →
      optArg (frameOf (arrayCols a)) (optStrArg p o) = .ok (o.map fun _ => p) := by
    intro p o h
    cases o with
    | none => rfl
    | some c =>
      simp only [optStrArg, optArg, colStr]
      rw [if_pos (h p (by simp [optName]))]
      rfl
  have ht := ho "t" a.t fun x hx => sub x (by tauto)
  have hs := ho "s" a.s fun x hx => sub x (by tauto)
  have rn : ∀ p : String, ∀ o : Option (List (Fin n → Cell)),
      (o.map fun c => genNames p c.length).getD [] = optNames p o := by intro p o; cases o <;> rfl
  have rn' : ∀ p : String, ∀ o : Option (Fin n → Cell), (o.map fun _ => p).toList = optName p o := by
    intro p o; cases o <;> rfl
  have hdisj : ∀ T : DataState n, T.y = "y" → T.d = genNames "d" a.d.length → T.x = xNames a.x.length →
      T.z = (a.z.map fun c => genNames "z" c.length) → T.t = (a.t.map fun _ => "t") → T.s = (a.s.map fun _ => "s") →
      T.cluster = (a.cluster.map fun c => genNames "cluster_var" c.length) → disjointAll T = true := by
    intro T h1 h2 h3 h4 h5 h6 h7
    apply disjoint_of_rolesValid (frameOf (arrayCols a))
    have hr : roleList T = ["y"] ++ genNames "d" a.d.length ++ xNames a.x.length ++ optNames "z" a.z ++
        optName "t" a.t ++ optName "s" a.s ++ optNames "cluster_var" a.cluster := by
      unfold roleList
      rw [h1, h2, h3, h4, h5, h6, h7, rn, rn, rn', rn']
    refine ⟨?_, ?_⟩
    · rw [hr]
      refine List.Perm.nodup ?_ hn
      rw [arrayCols_names, List.perm_iff_count]
      intro x
      simp only [List.count_append]
      omega
    · rw [hr]
      intro x hx
      apply sub
      simp only [List.mem_append, List.mem_singleton] at hx
      tauto
  have hc : ∀ c : Bool, forceArg (.bool c) = .ok (if c then .yes else .no) := fun _ => rfl
  have inner : ∃ S, dataInit (frameOf (arrayCols a)) (a.cluster.map fun c => .list (genNames "cluster_var" c.length))
      (arrayArgs a (.bool b) (.bool c)) = .ok S := by
    unfold dataInit
    simp only [hcl, bind, Except.bind]
    rw [if_neg]
    swap
    · rw [not_not]
      intro cs hcs x hx
      apply hfin
      apply sub
      left
      rw [Option.mem_def] at hcs
      rw [← rn, hcs]
      exact hx
    simp only [arrayArgs, hy, hd', hz, ht, hs, xArg, hx']
    rw [if_neg]
    swap
    · have := hdisj { y := "y", d := genNames "d" a.d.length, x := xNames a.x.length,
                      z := a.z.map fun c => genNames "z" c.length, t := a.t.map fun _ => "t",
                      s := a.s.map fun _ => "s", cluster := a.cluster.map fun c => genNames "cluster_var" c.length,
                      useOther := true, force := .yes, yv := fun _ => .nan, zv := none, tv := none, sv := none,
                      dv := fun _ => .nan, xv := [],
                      cv := ((a.cluster.map fun c => genNames "cluster_var" c.length).getD []).map
                        (frameOf (arrayCols a)).col, binTreats := [], binOut := false } rfl rfl rfl rfl rfl rfl rfl
      unfold disjointAll at this
      rw [Bool.and_eq_true] at this
      rw [this.1]
      simp
    simp only [checkBool, hc]
    rw [if_neg (not_not.2 fun x hx => hfin x (sub x (by tauto))), if_neg (not_not.2 (hfin "y" (sub "y" (by tauto))))]
    rw [setYZTS_finite' (frameOf (arrayCols a))]
    · simp only
      obtain ⟨dv, ds, hdd⟩ : ∃ v l, genNames "d" a.d.length = v :: l := by
        cases hg : genNames "d" a.d.length with
        | nil =>
          have := genNames_length "d" a.d.length
          rw [hg] at this
          exact absurd (List.length_eq_zero_iff.1 this.symm) hd
        | cons v l => exact ⟨v, l, rfl⟩
      rw [setXDFirst_finite' (frameOf (arrayCols a)) (tv := dv) (l := ds) _ hdd]
      · simp only
        rw [if_pos (hdisj _ rfl rfl rfl rfl rfl rfl rfl)]
        exact ⟨_, rfl⟩
      · intro x hx
        apply hfin
        rcases List.mem_append.1 hx with hx | hx
        · exact sub x (Or.inr (Or.inl hx))
        · exact sub x (Or.inr (Or.inr (Or.inr (Or.inl hx))))
    · intro x hx
      apply hfin
      simp only [rn, rn', List.mem_append, List.mem_singleton] at hx
      rcases hx with ((hx | hx) | hx) | hx
      · exact sub x (Or.inr (Or.inr (Or.inl hx)))
      · exact sub x (Or.inr (Or.inr (Or.inr (Or.inr (Or.inl hx)))))
      · exact sub x (Or.inr (Or.inr (Or.inr (Or.inr (Or.inr (Or.inl hx))))))
      · exact sub x (Or.inr (Or.inr (Or.inr (Or.inr (Or.inr (Or.inr hx))))))
  obtain ⟨S, hS⟩ := inner
  refine ⟨frameOf (arrayCols a), S, ?_⟩
  unfold fromArrays
  simp only [hS, bind, Except.bind]
  rfl

/-- Non-vacuity of C36: two treatments, two instruments, two cluster variables. -/
example : ∃ F S, fromArrays (n := 3) ⟨[fun i => .num i.val, fun _ => .num 1], fun _ => .num 2,
    [fun _ => .num 3, fun _ => .num 4], some [fun _ => .num 5, fun _ => .num 6], none, some fun _ => .num 7,
    some [fun _ => .num 8, fun i => .num (2 * i.val)]⟩ (.bool true) (.bool true) = .ok (F, S) := by
  apply C36_from_arrays_accepts
  · simp
  · intro p hp
    simp [arrayCols, optCols, optCol, genNames, xNames, List.range_succ] at hp
    rcases hp with rfl | rfl | rfl | rfl | rfl | rfl | rfl | rfl | rfl | rfl <;> exact fun i => ⟨_, rfl⟩

end DML
