import Verif.FitView
import Verif.Classes
import Verif.Covariates

/-!
# One treatment of several (C85)

A model with several treatments and the model with one of them alone, the others being covariates.
-/

namespace DML

open Finset

variable {n r : ℕ} {P M : Type}

/-- The two data objects have the same active columns: outcome, instruments, active treatment and covariates; and they agree
on whether the treatment `tv` is binary. -/
structure DataState.SameCols (tv : String) (D D' : DataState n) : Prop where
  y : D'.yv = D.yv
  z : D'.z = D.z
  zv : D'.zv = D.zv
  d : D'.dv = D.dv
  x : D'.xv = D.xv
  bin : lookupKey tv D'.binTreats = lookupKey tv D.binTreats

/-- `s'` is the model `s` with the treatment `tv` alone: the covariates of `s'` are those that `s` uses for `tv`, i.e. together
with the other treatments unless `use_other_treat_as_covariate` is false (/repo/doubleml/double_ml_data.py:651-657); the splits
and the parameters are the same. -/
structure Alone (F : Frame n) (s s' : MState n P M) (tv : String) : Prop where
  only : s'.data.d = [tv]
  cols : (activeData F s.data tv).SameCols tv s'.data
  cv : s'.data.cv = s.data.cv
  smpls : s'.smpls = s.smpls
  smplsCluster : s'.smplsCluster = s.smplsCluster
  nFolds : s'.nFoldsPer = s.nFoldsPer
  nRep : s'.nRep = s.nRep
  params : ∀ l, s'.params l tv = s.params l tv

/-- The estimation of a cell looks at the active columns of the data object only. -/
def ColsOnly (sp : Spec n P M) : Prop :=
  ∀ (c : CellIn n P) (D' : DataState n), c.data.SameCols c.treat D' → sp.est { c with data := D' } = sp.est c

section classes

variable {c : CellIn n P} {D' : DataState n} (h : c.data.SameCols c.treat D')
include h

theorem learn_cols (L : Learner P (List Cell)) (m : Method) (l : String) (y : Fin n → ℝ) :
    learn L m { c with data := D' } l y = learn L m c l y := by
  have hx : rowX D' = rowX c.data := by
    unfold rowX
    rw [h.x]
  unfold learn
  dsimp only
  rw [hx]
  rfl

theorem plr_cols (k : PlrClass n P) : plrEst k { c with data := D' } = plrEst k c := by
  unfold plrEst plrL plrM plrG checkTreatPreds
  simp only [learn_cols h, h.y, h.d, h.bin]
  rfl

theorem plivPart_cols (L : Learner P (List Cell)) (l : String) (y : Fin n → ℝ) :
    plivPart L { c with data := D' } l y = plivPart L c l y := by
  unfold plivPart
  simp only [learn_cols h]
  rfl

theorem cols_y : CellIn.y { c with data := D' } = c.y := by
  unfold CellIn.y
  dsimp only
  rw [h.y]

theorem cols_d : CellIn.d { c with data := D' } = c.d := by
  unfold CellIn.d
  dsimp only
  rw [h.d]

theorem cols_xz : CellIn.xz { c with data := D' } = c.xz := by
  unfold CellIn.xz rowX
  dsimp only
  rw [h.x, h.zv]

theorem cols_instrs : CellIn.instrs { c with data := D' } = c.instrs := by
  unfold CellIn.instrs
  dsimp only
  rw [h.z, h.zv]

theorem cols_instr : CellIn.instr { c with data := D' } = c.instr := by
  unfold CellIn.instr
  dsimp only
  rw [h.zv]

theorem pliv_cols (k : PlivClass n P) : plivEst k { c with data := D' } = plivEst k c := by
  unfold plivEst plivG
  simp only [plivPart_cols h, cols_y h, cols_d h, cols_instr h]

theorem plivMulti_cols (k : PlivClass n P) : plivMultiEst k { c with data := D' } = plivMultiEst k c := by
  have h1 : plivInstr k { c with data := D' } = plivInstr k c := by
    funext zc
    unfold plivInstr
    rw [plivPart_cols h]
  have h2 : ∀ {k : ℕ}, (instrCol { c with data := D' } : Fin n → Fin k → ℝ) = instrCol c := by
    intro k
    unfold instrCol
    rw [cols_instrs h]
  unfold plivMultiEst
  rw [h1]
  simp only [plivPart_cols h, cols_y h, cols_d h, cols_instrs h, h2]

omit h in
theorem ssmPart_cols (L : Learner P (List Cell)) (m : Method) (l : String) (x : Fin n → List Cell) (y : Fin n → ℝ) (S : List (Fold n)) :
    ssmPart L m { c with data := D' } l x y S = ssmPart L m c l x y S := rfl

theorem plivZ_cols (k : PlivClass n P) : plivZEst k { c with data := D' } = plivZEst k c := by
  unfold plivZEst
  simp only [ssmPart_cols, cols_y h, cols_d h, cols_xz h]

theorem plivXZ_cols (k : PlivClass n P) : plivXZEst k { c with data := D' } = plivXZEst k c := by
  have hx : rowX D' = rowX c.data := by
    unfold rowX
    rw [h.x]
  have h1 : plivXZM k { c with data := D' } = plivXZM k c := by
    unfold plivXZM
    rw [cols_xz h, cols_d h]
    rfl
  have h2 : plivXZR k { c with data := D' } = plivXZR k c := by
    funext ts
    unfold plivXZR
    dsimp only
    rw [hx]
    rfl
  unfold plivXZEst
  simp only [ssmPart_cols, cols_y h, cols_d h, h1, h2, hx]

end classes

/-- The partially linear classes (/repo/doubleml/plm/plr.py, /repo/doubleml/plm/pliv.py), which are made for several treatments. -/
inductive SeveralClass : LinSpec n P → Prop
  | plr (k : PlrClass n P) : SeveralClass (plrSpec k)
  | pliv (k : PlivClass n P) : SeveralClass (plivSpec k)
  | plivMulti (k : PlivClass n P) (zs : List String) : SeveralClass (plivMultiSpec k zs)
  | plivZ (k : PlivClass n P) : SeveralClass (plivZSpec k)
  | plivXZ (k : PlivClass n P) : SeveralClass (plivXZSpec k)

theorem SeveralClass.cols {sp : LinSpec n P} (h : SeveralClass sp) : ColsOnly sp := by
  intro c D' hc
  cases h with
  | plr k => exact plr_cols hc k
  | pliv k => exact pliv_cols hc k
  | plivMulti k zs => exact plivMulti_cols hc k
  | plivZ k => exact plivZ_cols hc k
  | plivXZ k => exact plivXZ_cols hc k

/-! ## The cells -/

theorem params_unique {Q : Type} {f : String → Q → Prop} (hf : ∀ l a b, f l a → f l b → a = b) {p p' : List (String × Q)}
    (h : p'.map Prod.fst = p.map Prod.fst) (hp : ∀ q ∈ p, f q.1 q.2) (hp' : ∀ q ∈ p', f q.1 q.2) : p' = p := by
  induction p generalizing p' with
  | nil => simpa using h
  | cons a p ih =>
    cases p' with
    | nil => simp at h
    | cons b p' =>
      simp only [List.map_cons, List.cons.injEq] at h
      have e1 : b = a := Prod.ext h.1 (hf a.1 _ _ (h.1 ▸ hp' b (by simp)) (hp a (by simp)))
      rw [e1, ih h.2 (fun q hq => hp q (by simp [hq])) fun q hq => hp' q (by simp [hq])]

theorem Alone.cell {F : Frame n} {sp : Spec n P M} {s s' : MState n P M} {tv : String} (h : Alone F s s' tv) {j : ℕ}
    (hj : s.data.d[j]? = some tv) {ext : ExtArg} {k : ℕ} {c c' : CellIn n P} (hc : CellFrom F sp s ext k j c)
    (hc' : CellFrom F sp s' ext k 0 c') (hw : c'.wantModels = c.wantModels) :
    c' = { c with data := s'.data, start := c'.start } ∧ c.data.SameCols c.treat s'.data := by
  have ht : c.treat = tv := by
    have := hc.treat
    rw [hj] at this
    exact (Option.some.inj this).symm
  have ht' : c'.treat = tv := by
    have := hc'.treat
    rw [h.only] at this
    exact (Option.some.inj this).symm
  have hd' : c'.data = s'.data := by
    rw [hc'.data]
    unfold activeData
    rw [if_neg (by rw [h.only]; simp)]
  have hsm : c'.smpls = c.smpls := by
    obtain ⟨l, e1, e2⟩ := hc.smpls
    obtain ⟨l', e3, e4⟩ := hc'.smpls
    rw [h.smpls, e1] at e3
    obtain rfl := Option.some.inj e3
    rw [e2] at e4
    exact (Option.some.inj e4).symm
  have hcl : c'.cluster = c.cluster := by
    cases hv : sp.vars with
    | none => rw [hc.noCluster hv, hc'.noCluster hv]
    | some v =>
      obtain ⟨l, q, e1, e2, e3⟩ := hc.cluster v hv
      obtain ⟨l', q', e4, e5, e6⟩ := hc'.cluster v hv
      rw [h.smplsCluster, e1] at e4
      obtain rfl := Option.some.inj e4
      rw [e2] at e5
      obtain rfl := Option.some.inj e5
      rw [e3, e6, h.cv, h.nFolds, hsm]
  have hp : c'.params = c.params := by
    refine params_unique (f := fun l a => ∃ ps, s.params l tv = some ps ∧ ps[k]? = some a) ?_ ?_ ?_ ?_
    · rintro l a b ⟨ps, e1, e2⟩ ⟨ps', e3, e4⟩
      rw [e1] at e3
      obtain rfl := Option.some.inj e3
      rw [e2] at e4
      exact Option.some.inj e4
    · rw [hc.params.1, hc'.params.1]
    · intro q hq
      have := hc.params.2 q hq
      rwa [ht] at this
    · intro q hq
      have := hc'.params.2 q hq
      rwa [ht', h.params] at this
  have hx : c'.ext = c.ext := by
    have e1 := hc.ext
    have e2 := hc'.ext
    rw [ht] at e1
    rw [ht', e1] at e2
    exact (Except.ok.inj e2).symm
  have hr : c'.rep = c.rep := by rw [hc.rep, hc'.rep]
  refine ⟨?_, ?_⟩
  · obtain ⟨a1, a2, a3, a4, a5, a6, a7, a8, a9⟩ := c
    obtain ⟨b1, b2, b3, b4, b5, b6, b7, b8, b9⟩ := c'
    simp only at ht ht' hd' hsm hcl hp hx hr hw
    subst ht hd' hsm hcl hp hx hr hw
    rw [ht']
  · rw [hc.data, ht]
    exact h.cols

/-- The two estimations give the same result. -/
theorem Alone.out {F : Frame n} {sp : Spec n P M} (hcols : ColsOnly sp) (hst : StartFree sp) {s s' : MState n P M} {tv : String}
    (h : Alone F s s' tv) {j : ℕ} (hj : s.data.d[j]? = some tv) {ext : ExtArg} {k : ℕ} {c c' : CellIn n P}
    (hc : CellFrom F sp s ext k j c) (hc' : CellFrom F sp s' ext k 0 c') (hw : c'.wantModels = c.wantModels) {o o' : CellOut n M}
    (ho : sp.est c = .ok o) (ho' : sp.est c' = .ok o') : o'.forget = o.forget := by
  obtain ⟨h1, h2⟩ := h.cell hj hc hc' hw
  have e1 := hcols c s'.data h2
  have e2 := hst { c with data := s'.data } c'.start
  rw [e1] at e2
  have e3 : sp.est { { c with data := s'.data } with start := c'.start } = .ok o' := by
    rw [← ho']
    exact congrArg sp.est h1.symm
  rw [e3, ho] at e2
  exact Except.ok.inj e2

end DML
