import Verif.Covariates
import Verif.ClassesFitProps
import Verif.UnitsFitProps
import Verif.ConstructProps

/-!
# C69: covariates matter only through the learners

A model fitted to other covariates from which the learners make the same predictions — recoded, reordered, rescaled covariates,
or fewer covariates if the learners ignore the others — gives the same results.
-/

namespace DML

open Finset

variable {n : ℕ} {P M : Type}

/-! ## Specification -/

/-- Two data objects that differ at most in the covariates. -/
def DataState.SameButX (D D' : DataState n) : Prop := D' = { D with x := D'.x, xv := D'.xv }

/-- Two model objects that differ at most in the covariates and the stored fitted models: data, split, settings, estimates,
standard errors, scores, predictions, losses, sensitivity elements and framework are the same. -/
def MState.SameButX (s s' : MState n P M) : Prop :=
  s' = { s with data := { s.data with x := s'.data.x, xv := s'.data.xv }, models := s'.models }

/-- `set_x_d` works for every treatment. -/
def Selectable (F : Frame n) (D : DataState n) : Prop := ∀ tv ∈ D.d, ∃ E, setXD F D tv = .ok E

/-- The data with some treatment active, in the old and in the new data object. -/
def ActivePair (F F' : Frame n) (D D' : DataState n) (A A' : DataState n) : Prop :=
  ∃ tv ∈ D.d, A = activeData F D tv ∧ A' = activeData F' D' tv

/-- Covariates and treatment, treatment first. -/
def dxRow (D : DataState n) (i : Fin n) : List Cell := D.dv i :: rowX D i

/-- Covariates and treatment, treatment last. -/
def xdRow (D : DataState n) (i : Fin n) : List Cell := rowX D i ++ [D.dv i]

/-- Covariates and instruments. -/
def xzRow (D : DataState n) (i : Fin n) : List Cell := rowX D i ++ (D.zv.getD []).map fun z => z i

/-- The learner makes the same predictions from the new covariates as from the old ones, for every treatment; `f` is the
feature matrix the learner is given. -/
def Learner.SameOn (L : Learner P (List Cell)) (R : DataState n → DataState n → Prop) (f : DataState n → Fin n → List Cell) :
    Prop := ∀ D D', R D D' → L.Alike (f D) (f D')

/-- The model classes with linear scores, with learners that make the same predictions from two sets of covariates. -/
inductive AlikeClass (R : DataState n → DataState n → Prop) : LinSpec n P → Prop
  | plr (k : PlrClass n P) (hl : k.ml_l.SameOn R rowX) (hm : k.ml_m.SameOn R rowX) (hg : k.ml_g.SameOn R rowX) :
      AlikeClass R (plrSpec k)
  | irm (k : IrmClass n P) (hg : k.ml_g.SameOn R rowX) (hm : k.ml_m.SameOn R rowX) : AlikeClass R (irmSpec k)
  | apo (k : ApoClass n P) (hg : k.ml_g.SameOn R rowX) (hg0 : k.ml_g.SameOn R dxRow) (hm : k.ml_m.SameOn R rowX) :
      AlikeClass R (apoSpec k)
  | iivm (k : IivmClass n P) (hg : k.ml_g.SameOn R rowX) (hm : k.ml_m.SameOn R rowX) (hr : k.ml_r.SameOn R rowX) :
      AlikeClass R (iivmSpec k)
  | did (k : DidClass n P) (hg : k.ml_g.SameOn R rowX) (hm : k.ml_m.SameOn R rowX) : AlikeClass R (didSpec k)
  | didCs (k : DidClass n P) (hg : k.ml_g.SameOn R rowX) (hm : k.ml_m.SameOn R rowX) : AlikeClass R (csSpec k)
  | ssm (k : SsmClass n P) (hg : k.ml_g.SameOn R rowX) (hm : k.ml_m.SameOn R rowX) (hp : k.ml_pi.SameOn R xdRow) :
      AlikeClass R (ssmSpec k)
  | pliv (k : PlivClass n P) (hl : k.ml_l.SameOn R rowX) (hm : k.ml_m.SameOn R rowX) (hr : k.ml_r.SameOn R rowX)
      (hg : k.ml_g.SameOn R rowX) : AlikeClass R (plivSpec k)
  | plivMulti (k : PlivClass n P) (zs : List String) (hl : k.ml_l.SameOn R rowX) (hm : k.ml_m.SameOn R rowX)
      (hr : k.ml_r.SameOn R rowX) : AlikeClass R (plivMultiSpec k zs)
  | plivZ (k : PlivClass n P) (hr : k.ml_r.SameOn R xzRow) : AlikeClass R (plivZSpec k)
  | plivXZ (k : PlivClass n P) (hl : k.ml_l.SameOn R rowX) (hm : k.ml_m.SameOn R xzRow) (hr : k.ml_r.SameOn R rowX) :
      AlikeClass R (plivXZSpec k)

/-- The model classes with linear scores whose learners all have property `Q`. -/
inductive LearnersAll (Q : Learner P (List Cell) → Prop) : LinSpec n P → Prop
  | plr (k : PlrClass n P) (hl : Q k.ml_l) (hm : Q k.ml_m) (hg : Q k.ml_g) : LearnersAll Q (plrSpec k)
  | irm (k : IrmClass n P) (hg : Q k.ml_g) (hm : Q k.ml_m) : LearnersAll Q (irmSpec k)
  | apo (k : ApoClass n P) (hg : Q k.ml_g) (hm : Q k.ml_m) : LearnersAll Q (apoSpec k)
  | iivm (k : IivmClass n P) (hg : Q k.ml_g) (hm : Q k.ml_m) (hr : Q k.ml_r) : LearnersAll Q (iivmSpec k)
  | did (k : DidClass n P) (hg : Q k.ml_g) (hm : Q k.ml_m) : LearnersAll Q (didSpec k)
  | didCs (k : DidClass n P) (hg : Q k.ml_g) (hm : Q k.ml_m) : LearnersAll Q (csSpec k)
  | ssm (k : SsmClass n P) (hg : Q k.ml_g) (hm : Q k.ml_m) (hp : Q k.ml_pi) : LearnersAll Q (ssmSpec k)
  | pliv (k : PlivClass n P) (hl : Q k.ml_l) (hm : Q k.ml_m) (hr : Q k.ml_r) (hg : Q k.ml_g) : LearnersAll Q (plivSpec k)
  | plivMulti (k : PlivClass n P) (zs : List String) (hl : Q k.ml_l) (hm : Q k.ml_m) (hr : Q k.ml_r) :
      LearnersAll Q (plivMultiSpec k zs)
  | plivZ (k : PlivClass n P) (hr : Q k.ml_r) : LearnersAll Q (plivZSpec k)
  | plivXZ (k : PlivClass n P) (hl : Q k.ml_l) (hm : Q k.ml_m) (hr : Q k.ml_r) : LearnersAll Q (plivXZSpec k)

/-- The predictions do not depend on the order of the columns of the feature matrix. -/
def Learner.ColumnFree (L : Learner P (List Cell)) : Prop :=
  ∀ {N : ℕ} (C C' : List (Fin N → Cell)), C'.Perm C → L.Alike (fun i => C.map fun c => c i) fun i => C'.map fun c => c i

/-- The rows of the feature matrix with these columns of the data frame. -/
def rowsOf (F : Frame n) (cols : List String) (i : Fin n) : List Cell := cols.map fun c => F.col c i

/-- The predictions do not change if the columns `B` are left out of the feature matrix. -/
def Learner.Ignores (L : Learner P (List Cell)) (F : Frame n) (B : List String) : Prop :=
  ∀ cols, L.Alike (rowsOf F cols) (rowsOf F (cols.filter fun c => c ∉ B))

/-- The predictions do not change if the covariates `x` are replaced by `x'` in the feature matrix. -/
def Learner.Replaces (L : Learner P (List Cell)) (F : Frame n) (x x' : List String) : Prop :=
  ∀ pre post, L.Alike (rowsOf F (pre ++ x ++ post)) (rowsOf F (pre ++ x' ++ post))

/-! ## Lemmas -/

theorem Learner.Alike.symm {X : Type} {L : Learner P X} {x y : Fin n → X} (h : L.Alike x y) : L.Alike y x :=
  ⟨fun p t i => (h.1 p t i).symm, fun p t i => (h.2 p t i).symm⟩

theorem Learner.Alike.trans {X : Type} {L : Learner P X} {x y z : Fin n → X} (h : L.Alike x y) (h' : L.Alike y z) : L.Alike x z :=
  ⟨fun p t i => (h'.1 p t i).trans (h.1 p t i), fun p t i => (h'.2 p t i).trans (h.2 p t i)⟩

theorem Learner.Ignores.replaces {L : Learner P (List Cell)} {F : Frame n} {B : List String} (h : L.Ignores F B) (x : List String) :
    L.Replaces F x (x.filter fun c => c ∉ B) := by
  intro pre post
  refine (h _).trans ?_
  have e : (pre ++ x ++ post).filter (fun c => c ∉ B) = (pre ++ x.filter (fun c => c ∉ B) ++ post).filter (fun c => c ∉ B) := by
    simp only [List.filter_append, List.filter_filter, Bool.and_self]
  rw [e]
  exact (h _).symm

theorem Learner.ColumnFree.replaces {L : Learner P (List Cell)} (h : L.ColumnFree) (F : Frame n) {x x' : List String}
    (hx : x'.Perm x) : L.Replaces F x x' := by
  intro pre post
  have := h ((pre ++ x ++ post).map F.col) ((pre ++ x' ++ post).map F.col)
    (((hx.append_left pre).append_right post).map F.col)
  unfold rowsOf
  simpa only [List.map_map, Function.comp_def] using this

/-- The columns of the data with treatment `tv` active. -/
theorem activeData_cols {F : Frame n} {D : DataState n} (hF : Fresh F D) (hR : RolesValid F D) {tv : String} (htv : tv ∈ D.d) :
    (activeData F D tv).dv = F.col tv ∧
      (activeData F D tv).xv = (D.x ++ if D.useOther then D.d.erase tv else []).map F.col ∧
      (activeData F D tv).zv = D.z.map (List.map F.col) := by
  unfold activeData
  split_ifs with hl hu hu
  · refine ⟨rfl, ?_, hF.2.1⟩
    show (xdList D tv).map F.col = _
    unfold xdList
    rw [if_pos hu, List.erase_append_right _ (by
      intro hx
      have := hR.1
      unfold roleList at this
      simp only [List.nodup_append, List.mem_append] at this
      grind)]
  · refine ⟨rfl, ?_, hF.2.1⟩
    show (xdList D tv).map F.col = _
    unfold xdList
    rw [if_neg hu, List.append_nil]
  all_goals
    obtain ⟨-, h2, -, -, -, tv', htv', h3, h4⟩ := hF
    have e : tv' = tv := by
      match hd : D.d with
      | [] => rw [hd] at htv; cases htv
      | [a] => rw [hd] at htv htv'; rw [List.mem_singleton.1 htv, List.mem_singleton.1 htv']
      | a :: b :: l => rw [hd] at hl; simp at hl
    subst e
    simp only [hu] at h4
    exact ⟨h3, h4, h2⟩

theorem DataState.SameButX.d {D D' : DataState n} (h : D.SameButX D') : D'.d = D.d := by rw [h]

theorem LearnersAll.alike {F : Frame n} {D D' : DataState n} (h : D.SameButX D') (hF : Fresh F D) (hR : RolesValid F D)
    (hF' : Fresh F D') (hR' : RolesValid F D') {sp : LinSpec n P} (hsp : LearnersAll (fun L => L.Replaces F D.x D'.x) sp) :
    AlikeClass (ActivePair F F D D') sp := by
  have hd : D'.d = D.d := h.d
  have hu : D'.useOther = D.useOther := by rw [h]
  have hz : D'.z = D.z := by rw [h]
  have h1 : ∀ L : Learner P (List Cell), L.Replaces F D.x D'.x → L.SameOn (ActivePair F F D D') rowX := by
    rintro L hL A A' ⟨tv, htv, rfl, rfl⟩
    obtain ⟨-, h2, -⟩ := activeData_cols hF hR htv
    obtain ⟨-, h2', -⟩ := activeData_cols hF' hR' (hd ▸ htv)
    have := hL [] (if D.useOther then D.d.erase tv else [])
    unfold rowX
    rw [h2, h2', hu, hd]
    unfold rowsOf at this
    simpa only [List.map_map, List.nil_append, Function.comp_def] using this
  have h2 : ∀ L : Learner P (List Cell), L.Replaces F D.x D'.x → L.SameOn (ActivePair F F D D') dxRow := by
    rintro L hL A A' ⟨tv, htv, rfl, rfl⟩
    obtain ⟨h1, h2, -⟩ := activeData_cols hF hR htv
    obtain ⟨h1', h2', -⟩ := activeData_cols hF' hR' (hd ▸ htv)
    have := hL [tv] (if D.useOther then D.d.erase tv else [])
    unfold dxRow rowX
    rw [h2, h2', h1, h1', hu, hd]
    unfold rowsOf at this
    simpa only [List.map_map, Function.comp_def, List.cons_append, List.nil_append, List.map_cons] using this
  have h3 : ∀ L : Learner P (List Cell), L.Replaces F D.x D'.x → L.SameOn (ActivePair F F D D') xdRow := by
    rintro L hL A A' ⟨tv, htv, rfl, rfl⟩
    obtain ⟨h1, h2, -⟩ := activeData_cols hF hR htv
    obtain ⟨h1', h2', -⟩ := activeData_cols hF' hR' (hd ▸ htv)
    have := hL [] ((if D.useOther then D.d.erase tv else []) ++ [tv])
    unfold xdRow rowX
    rw [h2, h2', h1, h1', hu, hd]
    unfold rowsOf at this
    simpa only [List.map_map, Function.comp_def, List.nil_append, List.map_append, List.map_cons, List.map_nil, List.append_assoc] using this
  have h4 : ∀ L : Learner P (List Cell), L.Replaces F D.x D'.x → L.SameOn (ActivePair F F D D') xzRow := by
    rintro L hL A A' ⟨tv, htv, rfl, rfl⟩
    obtain ⟨-, h2, h3⟩ := activeData_cols hF hR htv
    obtain ⟨-, h2', h3'⟩ := activeData_cols hF' hR' (hd ▸ htv)
    have := hL [] ((if D.useOther then D.d.erase tv else []) ++ D.z.getD [])
    unfold xzRow rowX
    rw [h2, h2', h3, h3', hu, hd, hz]
    unfold rowsOf at this
    cases hz' : D.z with
    | none =>
      rw [hz'] at this
      simpa [List.map_map, Function.comp_def] using this
    | some z =>
      rw [hz'] at this
      simpa [List.map_map, Function.comp_def] using this
  cases hsp with
  | plr k a b c => exact .plr k (h1 _ a) (h1 _ b) (h1 _ c)
  | irm k a b => exact .irm k (h1 _ a) (h1 _ b)
  | apo k a b => exact .apo k (h1 _ a) (h2 _ a) (h1 _ b)
  | iivm k a b c => exact .iivm k (h1 _ a) (h1 _ b) (h1 _ c)
  | did k a b => exact .did k (h1 _ a) (h1 _ b)
  | didCs k a b => exact .didCs k (h1 _ a) (h1 _ b)
  | ssm k a b c => exact .ssm k (h1 _ a) (h1 _ b) (h3 _ c)
  | pliv k a b c d => exact .pliv k (h1 _ a) (h1 _ b) (h1 _ c) (h1 _ d)
  | plivMulti k zs a b c => exact .plivMulti k zs (h1 _ a) (h1 _ b) (h1 _ c)
  | plivZ k a => exact .plivZ k (h4 _ a)
  | plivXZ k a b c => exact .plivXZ k (h1 _ a) (h4 _ b) (h1 _ c)

theorem LearnersAll.mono {Q Q' : Learner P (List Cell) → Prop} (hQ : ∀ L, Q L → Q' L) {sp : LinSpec n P} (h : LearnersAll Q sp) :
    LearnersAll Q' sp := by
  cases h with
  | plr k a b c => exact .plr k (hQ _ a) (hQ _ b) (hQ _ c)
  | irm k a b => exact .irm k (hQ _ a) (hQ _ b)
  | apo k a b => exact .apo k (hQ _ a) (hQ _ b)
  | iivm k a b c => exact .iivm k (hQ _ a) (hQ _ b) (hQ _ c)
  | did k a b => exact .did k (hQ _ a) (hQ _ b)
  | didCs k a b => exact .didCs k (hQ _ a) (hQ _ b)
  | ssm k a b c => exact .ssm k (hQ _ a) (hQ _ b) (hQ _ c)
  | pliv k a b c d => exact .pliv k (hQ _ a) (hQ _ b) (hQ _ c) (hQ _ d)
  | plivMulti k zs a b c => exact .plivMulti k zs (hQ _ a) (hQ _ b) (hQ _ c)
  | plivZ k a => exact .plivZ k (hQ _ a)
  | plivXZ k a b c => exact .plivXZ k (hQ _ a) (hQ _ b) (hQ _ c)

/-- The cells give the same results, including exceptions. -/
def CellsAlike (R : DataState n → DataState n → Prop) (sp : Spec n P M) : Prop :=
  ∀ c c' : CellIn n P, c.SameButX c' → R c.data c'.data →
    (sp.est c').map CellOut.noModels = (sp.est c).map CellOut.noModels

theorem AlikeClass.cells {R : DataState n → DataState n → Prop} {sp : LinSpec n P} (h : AlikeClass R sp) : CellsAlike R sp := by
  intro c c' hc hR
  cases h with
  | plr k hl hm hg => exact plr_alike hc k (hl _ _ hR) (hm _ _ hR) (hg _ _ hR)
  | irm k hg hm => exact irm_alike hc k (hg _ _ hR) (hm _ _ hR)
  | apo k hg hg0 hm => exact apo_alike hc k (hg _ _ hR) (hg0 _ _ hR) (hm _ _ hR)
  | iivm k hg hm hr => exact iivm_alike hc k (hg _ _ hR) (hm _ _ hR) (hr _ _ hR)
  | did k hg hm => exact did_alike hc k (hg _ _ hR) (hm _ _ hR)
  | didCs k hg hm => exact cs_alike hc k (hg _ _ hR) (hm _ _ hR)
  | ssm k hg hm hp => exact ssm_alike hc k (hg _ _ hR) (hm _ _ hR) (hp _ _ hR)
  | pliv k hl hm hr hg => exact pliv_alike hc k (hl _ _ hR) (hm _ _ hR) (hr _ _ hR) (hg _ _ hR)
  | plivMulti k zs hl hm hr => exact plivMulti_alike hc k (hl _ _ hR) (hm _ _ hR) (hr _ _ hR)
  | plivZ k hr => exact plivZ_alike hc k (hr _ _ hR)
  | plivXZ k hl hm hr => exact plivXZ_alike hc k (hl _ _ hR) (hm _ _ hR) (hr _ _ hR)

theorem Selectable.activate {F : Frame n} {D : DataState n} (h : Selectable F D) {j : ℕ} {tv : String} (hj : D.d[j]? = some tv) :
    DML.activate F D j = .ok (activeData F D tv) := by
  obtain ⟨E, hE⟩ := h tv (List.mem_of_getElem? hj)
  unfold DML.activate activeData
  rw [hj]
  dsimp only
  split_ifs with hl
  · rw [hE, (setXD_ok hE).2]
  · rfl

theorem activeData_sameButX {F F' : Frame n} {D D' : DataState n} (h : D.SameButX D') (hcol : ∀ tv ∈ D.d, F'.col tv = F.col tv)
    {tv : String} (htv : tv ∈ D.d) : (activeData F D tv).SameButX (activeData F' D' tv) := by
  unfold activeData
  rw [h.d]
  split_ifs with hl
  · unfold DataState.SameButX at h ⊢
    rw [hcol tv htv]
    rw [h]
  · exact h

/-- The invariant of the loops. -/
structure SimX (D D' : DataState n) (s s' : MState n P M) : Prop where
  eq : s.SameButX s'
  data : SameData D s.data
  data' : SameData D' s'.data

theorem cellIn_withX (sp : Spec n P M) (s : MState n P M) (E E' : DataState n) (hE : E.SameButX E')
    (md : Option (ℕ → ℕ → Option (List (String × M)))) (ext : ExtArg) (m : Bool) (tv : String) (k : ℕ) :
    cellIn sp { s with data := E', models := md } ext m tv k =
      (cellIn sp { s with data := E } ext m tv k).map fun c => { c with data := E' } := by
  have hcv : E'.cv = E.cv := by rw [hE]
  unfold cellIn
  cases setExt n ext sp.learners tv k with
  | error e => rfl
  | ok e =>
    show (repSmpls s k >>= _) = Except.map _ (repSmpls s k >>= _)
    cases repSmpls s k with
    | error e => rfl
    | ok f =>
      have hcl : repCluster sp { s with data := E', models := md } f k = repCluster sp { s with data := E } f k := by
        unfold repCluster
        dsimp only
        rw [hcv]
      show (repCluster sp _ f k >>= _) = Except.map _ (repCluster sp _ f k >>= _)
      rw [hcl]
      cases repCluster sp { s with data := E } f k with
      | error e => rfl
      | ok cl =>
        show (sp.learners.mapM (getParams s tv k) >>= _) = Except.map _ (sp.learners.mapM (getParams s tv k) >>= _)
        cases sp.learners.mapM (getParams s tv k) with
        | error e => rfl
        | ok p => rfl

theorem storeCell_sameButX {sp : Spec n P M} {p m : Bool} {s s' : MState n P M} (h : s.SameButX s') (k j : ℕ) {o o' : CellOut n M}
    (ho : o'.noModels = o.noModels) :
    (storeCell sp p m s k j o).1.SameButX (storeCell sp p m s' k j o').1 ∧
      (storeCell sp p m s' k j o').2 = (storeCell sp p m s k j o).2 := by
  have h1 : o'.fit = o.fit := show o'.noModels.fit = o.noModels.fit by rw [ho]
  have h2 : o'.preds = o.preds := show o'.noModels.preds = o.noModels.preds by rw [ho]
  have h3 : o'.targets = o.targets := show o'.noModels.targets = o.noModels.targets by rw [ho]
  have h4 : o'.sens = o.sens := show o'.noModels.sens = o.noModels.sens by rw [ho]
  unfold MState.SameButX at h
  generalize s'.data.x = x' at h
  generalize s'.data.xv = xv' at h
  generalize s'.models = md at h
  subst h
  unfold storeCell
  dsimp only
  rw [h2, h3]
  split_ifs with hb
  · cases calcLoss sp o.preds o.targets with
    | error e => exact ⟨rfl, rfl⟩
    | ok l =>
      refine ⟨?_, rfl⟩
      unfold MState.SameButX writeCell
      dsimp only
      rw [h1, h2, h3, h4]
  · exact ⟨rfl, rfl⟩

section loop

variable {F F' : Frame n} {D D' : DataState n} (hD : D.SameButX D') (hcol : ∀ tv ∈ D.d, F'.col tv = F.col tv)
  (hsel : Selectable F D) (hsel' : Selectable F' D') {sp : Spec n P M} (hest : CellsAlike (ActivePair F F' D D') sp)

include hD hcol hsel hsel' hest

theorem fitCell_alike {ext : ExtArg} {p m : Bool} {s s' : MState n P M} (h : SimX D D' s s') (kj : ℕ × ℕ) :
    SimX D D' (fitCell F sp ext p m s kj).1 (fitCell F' sp ext p m s' kj).1 ∧
      (fitCell F' sp ext p m s' kj).2 = (fitCell F sp ext p m s kj).2 := by
  obtain ⟨k, j⟩ := kj
  have hf := fitCell_frame F sp ext p m s (k, j)
  have hf' := fitCell_frame F' sp ext p m s' (k, j)
  suffices H : (fitCell F sp ext p m s (k, j)).1.SameButX (fitCell F' sp ext p m s' (k, j)).1 ∧
      (fitCell F' sp ext p m s' (k, j)).2 = (fitCell F sp ext p m s (k, j)).2 from
    ⟨⟨H.1, h.data.trans hf.settings.data, h.data'.trans hf'.settings.data⟩, H.2⟩
  unfold fitCell
  dsimp only
  rw [activate_congr F h.data, activate_congr F' h.data']
  cases hj : D.d[j]? with
  | none =>
    have e1 : activate F D j = .error .indexError := by unfold activate; rw [hj]
    have e2 : activate F' D' j = .error .indexError := by unfold activate; rw [hD.d, hj]
    rw [e1, e2]
    exact ⟨h.eq, rfl⟩
  | some tv =>
    have htv : tv ∈ D.d := List.mem_of_getElem? hj
    rw [hsel.activate hj, hsel'.activate (by rw [hD.d]; exact hj)]
    have hE := activeData_sameButX hD hcol htv
    have hR : ActivePair F F' D D' (activeData F D tv) (activeData F' D' tv) := ⟨tv, htv, rfl, rfl⟩
    have heq := h.eq
    unfold MState.SameButX at heq
    generalize s'.data.x = x' at heq
    generalize s'.data.xv = xv' at heq
    generalize s'.models = md at heq
    subst heq
    generalize activeData F D tv = E at hE hR ⊢
    generalize activeData F' D' tv = E' at hE hR ⊢
    dsimp only
    have hc := cellIn_withX sp s E E' hE md ext m (E.d.getD j "") k
    rw [hE.d]
    rw [hc]
    cases hci : cellIn sp { s with data := E } ext m (E.d.getD j "") k with
    | error e =>
      refine ⟨?_, rfl⟩
      show MState.SameButX { s with data := E } { s with data := E', models := md }
      unfold MState.SameButX
      dsimp only
      rw [hE]
    | ok c =>
      obtain ⟨f, cl, ps, e, _, _, _, _, hcc⟩ := cellIn_ok hci
      have hcd : c.data = E := by rw [hcc]
      have hx : c.SameButX { c with data := E' } := by
        unfold CellIn.SameButX
        dsimp only
        rw [hcd, ← hE]
      have he := hest c { c with data := E' } hx (by rw [hcd]; exact hR)
      show MState.SameButX (match sp.est c with
          | .error e => ({ s with data := E }, .error e)
          | .ok o => storeCell sp p m { s with data := E, start := o.start } k j o : MState n P M × Except Exc Unit).1
        (match sp.est { c with data := E' } with
          | .error e => ({ s with data := E', models := md }, .error e)
          | .ok o => storeCell sp p m { s with data := E', models := md, start := o.start } k j o :
            MState n P M × Except Exc Unit).1 ∧ (match sp.est { c with data := E' } with
          | .error e => ({ s with data := E', models := md }, .error e)
          | .ok o => storeCell sp p m { s with data := E', models := md, start := o.start } k j o :
            MState n P M × Except Exc Unit).2 = (match sp.est c with
          | .error e => ({ s with data := E }, .error e)
          | .ok o => storeCell sp p m { s with data := E, start := o.start } k j o : MState n P M × Except Exc Unit).2
      cases h1 : sp.est c with
      | error e1 =>
        rw [h1] at he
        cases h2 : sp.est { c with data := E' } with
        | error e2 =>
          rw [h2] at he
          have := Except.error.inj (show (Except.error e2 : Except Exc (CellOut n M)) = .error e1 from he)
          subst this
          refine ⟨?_, rfl⟩
          unfold MState.SameButX
          dsimp only
          rw [hE]
        | ok o2 => rw [h2] at he; cases he
      | ok o1 =>
        rw [h1] at he
        cases h2 : sp.est { c with data := E' } with
        | error e2 => rw [h2] at he; cases he
        | ok o2 =>
          rw [h2] at he
          have ho := Except.ok.inj (show (Except.ok o2.noModels : Except Exc (CellOut n M)) = .ok o1.noModels from he)
          have hst : o2.start = o1.start := show o2.noModels.start = o1.noModels.start by rw [ho]
          refine storeCell_sameButX ?_ k j ho
          unfold MState.SameButX
          dsimp only
          rw [hst, hE]

theorem fitLoop_alike {ext : ExtArg} {p m : Bool} (L : List (ℕ × ℕ)) {s s' : MState n P M} (h : SimX D D' s s') :
    SimX D D' (fitLoop F sp ext p m s L).1 (fitLoop F' sp ext p m s' L).1 ∧
      (fitLoop F' sp ext p m s' L).2 = (fitLoop F sp ext p m s L).2 := by
  induction L generalizing s s' with
  | nil => exact ⟨h, rfl⟩
  | cons kj L ih =>
    obtain ⟨h1, h2⟩ := fitCell_alike hD hcol hsel hsel' hest (ext := ext) (p := p) (m := m) h kj
    unfold fitLoop
    generalize fitCell F sp ext p m s kj = q at h1 h2
    generalize fitCell F' sp ext p m s' kj = q' at h1 h2
    obtain ⟨t, x⟩ := q
    obtain ⟨t', x'⟩ := q'
    dsimp only at h1 h2
    subst h2
    cases x' with
    | error e => exact ⟨h1, rfl⟩
    | ok u => exact ih h1

end loop

theorem SameButX_finish {sp : Spec n P M} {s s' : MState n P M} (h : s.SameButX s') (r : ℕ) :
    (finishAt r sp (aggregate sp s)).1.SameButX (finishAt r sp (aggregate sp s')).1 ∧
      (finishAt r sp (aggregate sp s')).2 = (finishAt r sp (aggregate sp s)).2 := by
  unfold MState.SameButX at h
  generalize s'.data.x = x' at h
  generalize s'.data.xv = xv' at h
  generalize s'.models = md at h
  subst h
  unfold finishAt
  have e : frameworkOf r sp (aggregate sp { s with data := { s.data with x := x', xv := xv' }, models := md }) =
      frameworkOf r sp (aggregate sp s) := rfl
  rw [e]
  cases (frameworkOf r sp (aggregate sp s)).construct with
  | error e => exact ⟨rfl, rfl⟩
  | ok fw => exact ⟨rfl, rfl⟩

/-! ## The theorems -/

/-- **C69.** Two models with the same settings on data objects that differ in the covariates only, from which the learners make
the same predictions: `fit` raises the same exception or succeeds for both, and afterwards everything but the stored fitted
models is the same (estimates, standard errors, scores, predictions, losses, sensitivity elements, framework). -/
theorem C69_fit {F F' : Frame n} {sp : LinSpec n P} {s s' : MState n P (Option (List (FittedModel P (List Cell))))}
    (h : s.SameButX s') (hcol : ∀ tv ∈ s.data.d, F'.col tv = F.col tv) (hsel : Selectable F s.data)
    (hsel' : Selectable F' s'.data) (hsp : AlikeClass (ActivePair F F' s.data s'.data) sp) (a : FitArgs) :
    (fit F' sp s' a).2 = (fit F sp s a).2 ∧ (fit F sp s a).1.SameButX (fit F' sp s' a).1 := by
  have hD : s.data.SameButX s'.data := by unfold DataState.SameButX; rw [h]
  have hck : checkFit sp s' a = checkFit sp s a := by
    unfold checkFit checkFitExt; rw [hD.d, show s'.nRep = s.nRep by rw [h]]
  unfold fit
  rw [hck]
  cases checkFit sp s a with
  | error e => exact ⟨rfl, h⟩
  | ok pm =>
    obtain ⟨p, m⟩ := pm
    dsimp only
    have hi : SimX s.data s'.data (initFit sp s p m) (initFit sp s' p m) := by
      refine ⟨?_, .refl _, .refl _⟩
      unfold MState.SameButX at h ⊢
      generalize s'.data.x = x' at h
      generalize s'.data.xv = xv' at h
      generalize s'.models = md at h
      subst h
      rfl
    have hL := fitLoop_alike hD hcol hsel hsel' hsp.cells (ext := a.ext) (p := p) (m := m) (cellOrder s.nRep s.data.d.length) hi
    rw [hD.d, show s'.nRep = s.nRep by rw [h]]
    generalize fitLoop F sp a.ext p m (initFit sp s p m) (cellOrder s.nRep s.data.d.length) = q at hL
    generalize fitLoop F' sp a.ext p m (initFit sp s' p m) (cellOrder s.nRep s.data.d.length) = q' at hL
    obtain ⟨t, u⟩ := q
    obtain ⟨t', u'⟩ := q'
    obtain ⟨h1, h2⟩ := hL
    dsimp only at h1 h2
    subst h2
    cases u' with
    | error e => exact ⟨rfl, h1.eq⟩
    | ok _ =>
      have hr : (t'.heap t'.arr).nR = (t.heap t.arr).nR := by rw [h1.eq]
      dsimp only
      rw [hr]
      exact (SameButX_finish h1.eq _).symm

/-- **C69.** After such fits all inference methods give the same answers. -/
theorem C69_inference (E : Ext) {s s' : MState n P M} (h : s.SameButX s') (q : ∀ r, Op n r) :
    (infer E s' q).2 = (infer E s q).2 := by
  unfold MState.SameButX at h
  generalize s'.data.x = x' at h
  generalize s'.data.xv = xv' at h
  generalize s'.models = md at h
  subst h
  unfold infer
  dsimp only
  cases s.framework with
  | none => rfl
  | some o => rfl

theorem draw_sameButX (sp : Spec n P M) {s s' : MState n P M} (h : s.SameButX s') (w : Draws n) :
    (drawSampleSplitting sp s' w).2 = (drawSampleSplitting sp s w).2 ∧
      (drawSampleSplitting sp s w).1.SameButX (drawSampleSplitting sp s' w).1 ∧
      (drawSampleSplitting sp s w).1.data = s.data ∧ (drawSampleSplitting sp s' w).1.data = s'.data := by
  unfold MState.SameButX at h
  generalize s'.data.x = x' at h
  generalize s'.data.xv = xv' at h
  generalize s'.models = md at h
  subst h
  unfold drawSampleSplitting
  have e : drawnSplit sp { s with data := { s.data with x := x', xv := xv' }, models := md } w = drawnSplit sp s w := rfl
  rw [e]
  cases drawnSplit sp s w with
  | error e => exact ⟨rfl, rfl, rfl, rfl⟩
  | ok lc => exact ⟨rfl, rfl, rfl, rfl⟩

theorem initArrays_sameButX {s s' : MState n P M} (h : s.SameButX s') : (initArrays s).SameButX (initArrays s') := by
  unfold MState.SameButX at h ⊢
  generalize s'.data.x = x' at h
  generalize s'.data.xv = xv' at h
  generalize s'.models = md at h
  subst h
  rfl

/-- **C69.** Models created with the same arguments on data objects that differ in the covariates only have the same settings
and, with the same random draws, the same sample split. -/
theorem C69_init (sp : Spec n P M) {D D' : DataState n} (h : D.SameButX D') (x : ℝ) (nF nR dr : PyVal) (w : Draws n) :
    (∃ e, initModel sp D x nF nR dr w = .error e ∧ initModel sp D' x nF nR dr w = .error e) ∨
      ∃ s s', initModel sp D x nF nR dr w = .ok s ∧ initModel sp D' x nF nR dr w = .ok s' ∧ s.SameButX s' ∧
        s.data = D ∧ s'.data = D' := by
  unfold DataState.SameButX at h
  generalize D'.x = x' at h
  generalize D'.xv = xv' at h
  subst h
  unfold initModel
  show (∃ e, (checkClusterVars sp D >>= _) = _ ∧ (checkClusterVars sp D >>= _) = _) ∨
    ∃ s s', (checkClusterVars sp D >>= _) = _ ∧ (checkClusterVars sp D >>= _) = _ ∧ _
  cases checkClusterVars sp D with
  | error e => exact .inl ⟨e, rfl, rfl⟩
  | ok _ =>
  cases checkInteger nF (some 1) none with
  | error e => exact .inl ⟨e, rfl, rfl⟩
  | ok k =>
  cases checkInteger nR (some 1) none with
  | error e => exact .inl ⟨e, rfl, rfl⟩
  | ok r =>
  cases checkBool dr with
  | error e => exact .inl ⟨e, rfl, rfl⟩
  | ok b =>
  simp only [bind, Except.bind]
  cases b with
  | false => exact .inr ⟨_, _, rfl, rfl, rfl, rfl, rfl⟩
  | true =>
    have key := draw_sameButX sp (w := w) (s := (MState.mk (P := P) (M := M) D (fun _ => Arr.fresh 0 0) 0 0 (fun _ _ => none) (fun _ => none)
      (fun _ => none) r.toNat (if sp.vars.isSome then k.toNat ^ D.cv.length else k.toNat) k.toNat none none
      (initParams sp.learners D.d r.toNat) none none none none none x)) (s' := (MState.mk (P := P) (M := M) { D with x := x', xv := xv' }
      (fun _ => Arr.fresh 0 0) 0 0 (fun _ _ => none) (fun _ => none)
      (fun _ => none) r.toNat (if sp.vars.isSome then k.toNat ^ D.cv.length else k.toNat) k.toNat none none
      (initParams sp.learners D.d r.toNat) none none none none none x)) rfl
    generalize drawSampleSplitting sp (MState.mk (P := P) (M := M) D _ _ _ _ _ _ _ _ _ _ _ _ _ _ _ _ _ _) w = q at key ⊢
    generalize drawSampleSplitting sp (MState.mk (P := P) (M := M) { D with x := x', xv := xv' } _ _ _ _ _ _ _ _ _ _ _ _ _ _ _ _ _ _) w
      = q' at key ⊢
    obtain ⟨t, u⟩ := q
    obtain ⟨t', u'⟩ := q'
    obtain ⟨h1, h2, h3, h4⟩ := key
    dsimp only at h1 h2 h3 h4
    subst h1
    cases u' with
    | error e => exact .inl ⟨e, rfl, rfl⟩
    | ok _ => exact .inr ⟨_, _, rfl, rfl, initArrays_sameButX h2, h3, h4⟩

theorem dataInit_more {F : Frame n} {cl : Option ColArg} {a : DataArgs} {S : DataState n} (h : dataInit F cl a = .ok S) :
    forceArg a.force = .ok S.force ∧ (∀ c ∈ S.d, finiteCol (F.col c)) ∧ (S.force = .yes → ∀ c ∈ S.x, finiteCol (F.col c)) ∧
      (S.force = .allowNan → ∀ c ∈ S.x, notInfCol (F.col c)) := by
  unfold dataInit at h
  obtain ⟨c, hc, h⟩ := bind_ok h
  by_cases hcf : ∀ cs ∈ c, ∀ c ∈ cs, finiteCol (F.col c)
  swap
  · rw [if_pos hcf] at h; cases h
  rw [if_neg (not_not.2 hcf)] at h
  obtain ⟨y, hy, h⟩ := bind_ok h
  obtain ⟨d, hd, h⟩ := bind_ok h
  obtain ⟨z, hz, h⟩ := bind_ok h
  obtain ⟨t, ht, h⟩ := bind_ok h
  obtain ⟨s, hs, h⟩ := bind_ok h
  obtain ⟨x, hx, h⟩ := bind_ok h
  dsimp only at h
  split at h
  · cases h
  rename_i hdis
  obtain ⟨u, hu, h⟩ := bind_ok h
  obtain ⟨f, hf, h⟩ := bind_ok h
  by_cases hdf : ∀ c ∈ d, finiteCol (F.col c)
  swap
  · rw [if_pos hdf] at h; cases h
  rw [if_neg (not_not.2 hdf)] at h
  by_cases hyf : finiteCol (F.col y)
  swap
  · rw [if_pos hyf] at h; cases h
  rw [if_neg (not_not.2 hyf)] at h
  obtain ⟨_, hr, h⟩ := bind_ok h
  obtain ⟨S3, hS3, h⟩ := bind_ok h
  split_ifs at h with hda
  obtain rfl : S3 = S := by cases h; rfl
  have hr' := setYZTS_ok hr
  rw [hr'] at hS3
  obtain ⟨tv, l, htl, he⟩ := setXDFirst_head hS3
  dsimp only at htl
  have hdj : ∀ c ∈ x, c ≠ tv := by
    intro c hc e
    subst e
    have : disj d x = true := by
      have h0 := hdis
      simp only [Bool.not_eq_false] at h0
      unfold disjointBase at h0
      simp only [Bool.and_eq_true] at h0
      grind
    exact (disj_iff _ _).1 this c (by rw [htl]; simp) hc
  have hxd : ∀ c ∈ x, c ∈ (if u = true then (x ++ d).erase tv else x) := by
    intro c hc
    split_ifs
    · exact (List.mem_erase_of_ne (hdj c hc)).2 (by simp [hc])
    · exact hc
  unfold setXDFirst at hS3
  dsimp only at hS3
  rw [htl] at hS3
  dsimp only at hS3
  unfold setXD at hS3
  dsimp only at hS3
  rw [if_neg (by simp), if_neg (not_not.2 (hdf tv (by rw [htl]; simp)))] at hS3
  unfold xdList at hS3
  dsimp only at hS3
  rw [← htl] at hS3
  by_cases h1 : f = .yes ∧ ¬ ∀ c ∈ (if u = true then (x ++ d).erase tv else x), finiteCol (F.col c)
  · rw [if_pos h1] at hS3; cases hS3
  rw [if_neg h1] at hS3
  by_cases h2 : f = .allowNan ∧ ¬ ∀ c ∈ (if u = true then (x ++ d).erase tv else x), notInfCol (F.col c)
  · rw [if_pos h2] at hS3; cases hS3
  subst he
  refine ⟨hf, hdf, fun e c hc => ?_, fun e c hc => ?_⟩
  · by_contra hn
    exact h1 ⟨e, fun H => hn (H c (hxd c hc))⟩
  · by_contra hn
    exact h2 ⟨e, fun H => hn (H c (hxd c hc))⟩

/-- Every treatment of a data object that was created can be selected. -/
theorem dataInit_selectable {F : Frame n} {cl : Option ColArg} {a : DataArgs} {S : DataState n} (h : dataInit F cl a = .ok S) :
    Selectable F S := by
  obtain ⟨-, h1, h2, h3⟩ := dataInit_more h
  intro tv htv
  unfold setXD
  have hx : ∀ c ∈ xdList S tv, c ∈ S.x ∨ c ∈ S.d := by
    intro c hc
    unfold xdList at hc
    split_ifs at hc
    · exact List.mem_append.1 (List.mem_of_mem_erase hc)
    · exact .inl hc
  rw [if_neg (not_not.2 htv), if_neg (not_not.2 (h1 tv htv)), if_neg, if_neg]
  · exact ⟨_, rfl⟩
  · rintro ⟨e, H⟩
    exact H fun c hc => (hx c hc).elim (h3 e c) fun hd => notInf_of_finite (h1 c hd)
  · rintro ⟨e, H⟩
    exact H fun c hc => (hx c hc).elim (h2 e c) (h1 c)

/-- **C69.** Data objects created with the same arguments except `x_cols` differ in the covariates only. -/
theorem C69_data {F : Frame n} (hF : F.cols.Nodup) {cl : Option ColArg} {a : DataArgs} {x' : ColArg} {D D' : DataState n}
    (h : dataInit F cl a = .ok D) (h' : dataInit F cl { a with x := x' } = .ok D') : D.SameButX D' := by
  obtain ⟨-, -, g, b1, b2, e1, e2, e3, e4, e5, e6, -, e8, tv, l, e9, e10, -⟩ := dataInit_ok hF h
  obtain ⟨-, -, g', b1', b2', e1', e2', e3', e4', e5', e6', -, e8', tv', l', e9', e10', -⟩ := dataInit_ok hF h'
  obtain ⟨e11, -⟩ := dataInit_more h
  obtain ⟨e11', -⟩ := dataInit_more h'
  obtain ⟨g1, g2, g3, g4, g5, -⟩ := g
  obtain ⟨g1', g2', g3', g4', g5', -⟩ := g'
  have i1 : D'.y = D.y := Except.ok.inj (e1'.symm.trans e1)
  have i2 : D'.d = D.d := Except.ok.inj (e2'.symm.trans e2)
  have i3 : D'.z = D.z := Except.ok.inj (e3'.symm.trans e3)
  have i4 : D'.t = D.t := Except.ok.inj (e4'.symm.trans e4)
  have i5 : D'.s = D.s := Except.ok.inj (e5'.symm.trans e5)
  have i6 : D'.cluster = D.cluster := Except.ok.inj (e6'.symm.trans e6)
  have i8 : D'.useOther = D.useOther := Except.ok.inj (e8'.symm.trans e8)
  have i11 : D'.force = D.force := Except.ok.inj (e11'.symm.trans e11)
  have i12 : D'.yv = D.yv := by rw [g1, g1', i1]
  have i13 : D'.zv = D.zv := by rw [g2, g2', i3]
  have i14 : D'.tv = D.tv := by rw [g3, g3', i4]
  have i15 : D'.sv = D.sv := by rw [g4, g4', i5]
  have i16 : D'.cv = D.cv := by rw [g5, g5', i6]
  have i17 : D'.binTreats = D.binTreats := by rw [b1, b1', i2]
  have i18 : D'.binOut = D.binOut := by rw [b2, b2', i1]
  have i19 : D'.dv = D.dv := by
    rw [e9, e9'] at i2
    rw [e10, e10', (List.cons.inj i2).1]
  unfold DataState.SameButX
  cases D with
  | mk => cases D' with
    | mk =>
      dsimp only at *
      subst i1 i2 i3 i4 i5 i6 i8 i11 i12 i13 i14 i15 i16 i17 i18 i19
      rfl

/-- **C69.** Two data objects are created from one data frame with the same arguments except `x_cols`, two models are created
on them with the same arguments and the same sample split, and the learners make the same predictions from both sets of
covariates.  Then `fit` raises the same exception or succeeds for both, with the same results. -/
theorem C69_replaced {F : Frame n} (hF : F.cols.Nodup) {cl : Option ColArg} {da : DataArgs} {x' : ColArg} {D D' : DataState n}
    (hD : dataInit F cl da = .ok D) (hD' : dataInit F cl { da with x := x' } = .ok D') {sp : LinSpec n P}
    (hsp : LearnersAll (fun L => L.Replaces F D.x D'.x) sp) {x : ℝ} {nF nR dr : PyVal} {w : Draws n}
    {s s' : MState n P (Option (List (FittedModel P (List Cell))))} (hs : initModel sp D x nF nR dr w = .ok s)
    (hs' : initModel sp D' x nF nR dr w = .ok s') (a : FitArgs) :
    (fit F sp s' a).2 = (fit F sp s a).2 ∧ (fit F sp s a).1.SameButX (fit F sp s' a).1 := by
  have hX := C69_data hF hD hD'
  obtain ⟨-, hV, hf, -⟩ := dataInit_ok hF hD
  obtain ⟨-, hV', hf', -⟩ := dataInit_ok hF hD'
  obtain ⟨e, h1, -⟩ | ⟨t, t', h1, h2, h3, h4, h5⟩ := C69_init sp hX x nF nR dr w
  · rw [hs] at h1; cases h1
  · rw [hs] at h1; rw [hs'] at h2
    cases h1; cases h2
    subst h4 h5
    exact C69_fit h3 (fun _ _ => rfl) (dataInit_selectable hD) (dataInit_selectable hD') (hsp.alike hX hf hV hf' hV') a

/-- **C69.** The order in which the covariates are listed does not matter, if the learners do not depend on the order of the
columns. -/
theorem C69_order {F : Frame n} (hF : F.cols.Nodup) {cl : Option ColArg} {da : DataArgs} {x' : ColArg} {D D' : DataState n}
    (hD : dataInit F cl da = .ok D) (hD' : dataInit F cl { da with x := x' } = .ok D') (hx : D'.x.Perm D.x) {sp : LinSpec n P}
    (hsp : LearnersAll (fun L => L.ColumnFree) sp) {x : ℝ} {nF nR dr : PyVal} {w : Draws n}
    {s s' : MState n P (Option (List (FittedModel P (List Cell))))} (hs : initModel sp D x nF nR dr w = .ok s)
    (hs' : initModel sp D' x nF nR dr w = .ok s') (a : FitArgs) :
    (fit F sp s' a).2 = (fit F sp s a).2 ∧ (fit F sp s a).1.SameButX (fit F sp s' a).1 :=
  C69_replaced hF hD hD' (hsp.mono fun _ h => h.replaces F hx) hs hs' a

/-- **C69.** Covariates the learners ignore can be left out. -/
theorem C69_unused {F : Frame n} (hF : F.cols.Nodup) {cl : Option ColArg} {da : DataArgs} {x' : ColArg} {D D' : DataState n}
    (hD : dataInit F cl da = .ok D) (hD' : dataInit F cl { da with x := x' } = .ok D') {B : List String}
    (hx : D'.x = D.x.filter fun c => c ∉ B) {sp : LinSpec n P}
    (hsp : LearnersAll (fun L => L.Ignores F B) sp) {x : ℝ} {nF nR dr : PyVal} {w : Draws n}
    {s s' : MState n P (Option (List (FittedModel P (List Cell))))} (hs : initModel sp D x nF nR dr w = .ok s)
    (hs' : initModel sp D' x nF nR dr w = .ok s') (a : FitArgs) :
    (fit F sp s' a).2 = (fit F sp s a).2 ∧ (fit F sp s a).1.SameButX (fit F sp s' a).1 :=
  C69_replaced hF hD hD' (hsp.mono fun _ h => hx ▸ h.replaces D.x) hs hs' a

/-! ## The hypotheses can be met -/

/-- The sum of the features of a row. -/
def rowSum (r : List Cell) : ℝ := (r.map Cell.val).sum

/-- A learner that uses all features: it predicts the sum of the features times the sum of targets times features. -/
def exSumL : Learner ℕ (List Cell) where
  predict := fun _ D x => (D.map fun q => q.2 * rowSum q.1).sum * rowSum x
  proba := fun _ _ x => [1 - rowSum x, rowSum x]

theorem exSumL_alike {x x' : Fin n → List Cell} (h : ∀ i, rowSum (x' i) = rowSum (x i)) : exSumL.Alike x x' :=
  ⟨fun p t i => by simp only [exSumL, List.map_map, Function.comp_def, h], fun p t i => by simp only [exSumL, h]⟩

/-- It does not depend on the order of the columns … -/
theorem exSumL_columnFree : exSumL.ColumnFree := by
  intro N C C' h
  exact exSumL_alike fun i => List.Perm.sum_eq ((h.map fun c : Fin N → Cell => c i).map Cell.val)

/-- … and ignores columns of zeros, … -/
theorem exSumL_ignores {F : Frame n} {B : List String} (h : ∀ c ∈ B, ∀ i, F.col c i = .num 0) : exSumL.Ignores F B := by
  intro cols
  refine exSumL_alike fun i => ?_
  unfold rowSum rowsOf
  induction cols with
  | nil => rfl
  | cons c l ih =>
    by_cases hc : c ∈ B
    · simp only [List.filter_cons, hc, not_true_eq_false, decide_false, Bool.false_eq_true, if_false, List.map_cons, List.sum_cons,
        h c hc i]
      rw [ih]
      simp [Cell.val]
    · simp only [List.filter_cons, hc, not_false_eq_true, decide_true, if_true, List.map_cons, List.sum_cons]
      rw [ih]

/-- Four observations of an outcome, two treatments and three covariates, the last of which is zero. -/
noncomputable def covFrame : Frame 4 where
  cols := ["y", "d", "e", "a", "b", "c"]
  col := fun c i => .num (if c = "c" then 0 else if c = "a" then (i.val : ℝ) else if c = "b" then 2 - (i.val : ℝ) ^ 2
    else if c = "d" then (i.val : ℝ) ^ 3 + 5 else if c = "e" then 7 else (i.val : ℝ) + 3)

/-- The arguments with covariates `xs`. -/
def covArgs (xs : List String) : DataArgs :=
  ⟨.str "y", .list ["d", "e"], .list xs, .none, .none, .none, .bool true, .bool true⟩

theorem covInit {xs : List String} (h : xs = ["a", "b", "c"] ∨ xs = ["c", "a", "b"] ∨ xs = ["a", "b"]) :
    ∃ S, dataInit covFrame none (covArgs xs) = .ok S ∧ S.x = xs ∧ S.d = ["d", "e"] := by
  have hfin : ∀ c, finiteCol (covFrame.col c) := fun _ _ => ⟨_, rfl⟩
  have h1 : ¬ ¬ (∀ cs ∈ (none : Option (List String)), ∀ c ∈ cs, finiteCol (covFrame.col c)) := by simp
  have h2 : ¬ ¬ (∀ c ∈ ["d", "e"], finiteCol (covFrame.col c)) := not_not.2 fun c _ => hfin c
  have h3 : ¬ ¬ finiteCol (covFrame.col "y") := not_not.2 (hfin _)
  have hc1 : colStr covFrame (.str "y") = .ok "y" := by simp [colStr, covFrame]
  have hc2 : colList covFrame (.list ["d", "e"]) = .ok ["d", "e"] := by simp [colList, covFrame]
  have hc3 : colList covFrame (.list xs) = .ok xs := by
    obtain rfl | rfl | rfl := h <;> simp [colList, covFrame]
  have hdj : ∀ c ∈ ["d", "e"], c ∉ xs := by obtain rfl | rfl | rfl := h <;> simp
  have hyj : "y" ∉ xs := by obtain rfl | rfl | rfl := h <;> simp
  unfold dataInit
  simp only [clusterArg, bind, Except.bind]
  rw [if_neg h1]
  simp only [covArgs, hc1, hc2, zArg, optArg, xArg, hc3]
  rw [if_neg (by simp [disjointBase, disjointTS, disj]; exact ⟨hyj, hdj _ (by simp), hdj _ (by simp)⟩)]
  simp only [checkBool, forceArg, if_true]
  rw [if_neg h2, if_neg h3]
  rw [setYZTS_finite hfin]
  simp only
  rw [setXDFirst_finite hfin (tv := "d") (l := ["e"]) rfl]
  simp only
  rw [if_pos (by simp [disjointAll, disjointBase, disjointTS, disjointCluster, disj]; exact ⟨hyj, hdj _ (by simp), hdj _ (by simp)⟩)]
  exact ⟨_, rfl, rfl, rfl⟩

/-- A partially linear regression with the learner above. -/
def covPlr : PlrClass 4 ℕ where
  mClassifier := false
  iv := false
  ml_l := exSumL
  ml_m := exSumL
  ml_g := exSumL

/-- Non-vacuity of `C69_order`: covariates listed in another order, two treatments, two folds. -/
example (a : FitArgs) : ∃ D D' s s', dataInit covFrame none (covArgs ["a", "b", "c"]) = .ok D ∧
    dataInit covFrame none (covArgs ["c", "a", "b"]) = .ok D' ∧ D.x ≠ D'.x ∧
    initModel (plrSpec covPlr) D 0 (.int 2) (.int 1) (.bool true) exDraw4 = .ok s ∧
    initModel (plrSpec covPlr) D' 0 (.int 2) (.int 1) (.bool true) exDraw4 = .ok s' ∧
    (fit covFrame (plrSpec covPlr) s' a).2 = (fit covFrame (plrSpec covPlr) s a).2 ∧
    (fit covFrame (plrSpec covPlr) s a).1.SameButX (fit covFrame (plrSpec covPlr) s' a).1 := by
  obtain ⟨D, hD, hx, -⟩ := covInit (xs := ["a", "b", "c"]) (.inl rfl)
  obtain ⟨D', hD', hx', -⟩ := covInit (xs := ["c", "a", "b"]) (.inr (.inl rfl))
  obtain ⟨s, hs⟩ := (initModel_ok_iff (plrSpec covPlr) D 0 (.int 2) (.int 1) (.bool true) exDraw4).2
    ⟨fun h => (by cases h), 2, 1, true, rfl, by decide, rfl, by decide, rfl, fun _ => ⟨by decide, fun _ => (by decide)⟩⟩
  obtain ⟨s', hs'⟩ := (initModel_ok_iff (plrSpec covPlr) D' 0 (.int 2) (.int 1) (.bool true) exDraw4).2
    ⟨fun h => (by cases h), 2, 1, true, rfl, by decide, rfl, by decide, rfl, fun _ => ⟨by decide, fun _ => (by decide)⟩⟩
  refine ⟨D, D', s, s', hD, hD', by rw [hx, hx']; decide, hs, hs', ?_⟩
  exact C69_order (by decide) hD hD' (by rw [hx, hx']; decide)
    (.plr _ exSumL_columnFree exSumL_columnFree exSumL_columnFree) hs hs' a

/-- Non-vacuity of `C69_unused`: the third covariate, which is constantly zero, is left out. -/
example (a : FitArgs) : ∃ D D' s s', dataInit covFrame none (covArgs ["a", "b", "c"]) = .ok D ∧
    dataInit covFrame none (covArgs ["a", "b"]) = .ok D' ∧
    initModel (plrSpec covPlr) D 0 (.int 2) (.int 1) (.bool true) exDraw4 = .ok s ∧
    initModel (plrSpec covPlr) D' 0 (.int 2) (.int 1) (.bool true) exDraw4 = .ok s' ∧
    (fit covFrame (plrSpec covPlr) s' a).2 = (fit covFrame (plrSpec covPlr) s a).2 ∧
    (fit covFrame (plrSpec covPlr) s a).1.SameButX (fit covFrame (plrSpec covPlr) s' a).1 := by
  obtain ⟨D, hD, hx, -⟩ := covInit (xs := ["a", "b", "c"]) (.inl rfl)
  obtain ⟨D', hD', hx', -⟩ := covInit (xs := ["a", "b"]) (.inr (.inr rfl))
  obtain ⟨s, hs⟩ := (initModel_ok_iff (plrSpec covPlr) D 0 (.int 2) (.int 1) (.bool true) exDraw4).2
    ⟨fun h => (by cases h), 2, 1, true, rfl, by decide, rfl, by decide, rfl, fun _ => ⟨by decide, fun _ => (by decide)⟩⟩
  obtain ⟨s', hs'⟩ := (initModel_ok_iff (plrSpec covPlr) D' 0 (.int 2) (.int 1) (.bool true) exDraw4).2
    ⟨fun h => (by cases h), 2, 1, true, rfl, by decide, rfl, by decide, rfl, fun _ => ⟨by decide, fun _ => (by decide)⟩⟩
  refine ⟨D, D', s, s', hD, hD', hs, hs', ?_⟩
  have hi : exSumL.Ignores covFrame ["c"] := exSumL_ignores (by simp [covFrame])
  exact C69_unused (B := ["c"]) (by decide) hD hD' (by rw [hx, hx']; decide) (.plr _ hi hi hi) hs hs' a

end DML
