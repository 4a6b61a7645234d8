import Verif.CallScore
import Verif.PublishedScoreProps

/-!
# C75: callable scores

A score may be given as a function.  Estimate and scores are then those of this function at the data, the stored
predictions and the folds; a function that computes a built-in score reproduces the fit with the built-in score; an
exception of the function reaches the caller.
-/

namespace DML

variable {n : ℕ} {P : Type}

/-! ## Specification -/

/-- Estimate and scores stored for treatment number `j` in repetition `k` are those of the linear score with the elements
`e`: the score at `θ` is `e.a θ + e.b`, and, unless the data are clustered, the estimate is its root
`- mean e.b / mean e.a`. -/
def ElemsAre (t : LinState n P) (clustered : Bool) (j k : ℕ) (e : PsiElems n) : Prop :=
  ScoreIs t clustered j k (fun θ i => e.a i * θ + e.b i) ∧
    (clustered = false → (t.heap t.arr).coef j k = some (-(mean e.b) / mean e.a))

/-- The propensities `m'` after normalisation of the weights of the groups `d = 1` and `d = 0`, if requested: the weights
`1 / m'` of the first and `1 / (1 - m')` of the second group are the original ones divided by their averages. -/
def NormProp (normalize : Bool) (d m m' : Fin n → ℝ) : Prop :=
  if normalize then
    ∀ i, (d i = 1 → m' i = m i * mean fun q => d q / m q) ∧
      (d i = 0 → 1 - m' i = (1 - m i) * mean fun q => (1 - d q) / (1 - m q))
  else m' = m

/-- `t'` reports what `t` reports, except for sensitivity elements: estimates, standard errors, scores, losses,
predictions, models, settings and the framework, which is that of `t` without its sensitivity elements. -/
def SameFit (t t' : LinState n P) : Prop :=
  ∃ (r addr : ℕ) (fw : FW n r), t.framework = some ⟨r, addr, { fw := fw }⟩ ∧
    t'.framework = some ⟨r, addr, { fw := { fw with
      sens := none
      bench := none } }⟩ ∧
    t' = { t with
      sens := t'.sens
      framework := t'.framework }

/-! ## Scores -/

theorem elemsAre_of {sp : LinSpec n P} {t : LinState n P} {j k : ℕ} {o : LinOut n P} {e : PsiElems n}
    {cl : Option (ClusterRep n)} (hf : o.fit = e.fit cl) (hcl : sp.vars = none → cl = none)
    (h1 : (t.heap t.arr).coef j k = some o.fit.coef) (h3 : t.scores j k = some (o.fit.psi, o.fit.deriv)) :
    ElemsAre t sp.vars.isSome j k e := by
  refine ⟨scoreIs_of hf hcl h1 h3 fun _ _ => rfl, fun hv => ?_⟩
  have hv' : sp.vars = none := by
    cases hsp : sp.vars with
    | none => rfl
    | some v => rw [hsp] at hv; cases hv
  rw [h1, hf, hcl hv']
  rfl

theorem normProp_adjust (nrm : Bool) (d m : Fin n → ℝ) : NormProp nrm d m (adjust nrm m d) := by
  unfold NormProp adjust
  cases nrm
  · rfl
  · rw [if_pos rfl, if_pos rfl]
    intro i
    unfold normalizeIpw
    refine ⟨fun h => ?_, fun h => ?_⟩
    · rw [h]; ring
    · rw [h]; ring

/-- **C75, PLR.** -/
theorem C75_plr {F : Frame n} {c : PlrCall n P} {s t : LinState n P} {a : FitArgs} {j k : ℕ} {D : DataState n}
    {S : List (Fold n)} (h : FitAt F (plrCallSpec c) s a t j k D S) :
    ∃ e, c.score D.yNum D.dNum (t.predVec j k "ml_l") (t.predVec j k "ml_m") (c.ml_g.map fun _ => t.predVec j k "ml_g") S =
      .ok e ∧ ElemsAre t c.vars.isSome j k e := by
  obtain ⟨ci, o, ho, rfl, rfl, -, hcl, h1, h3, hp⟩ := h.cell
  obtain ⟨l, -, ho⟩ := bind_ok ho
  obtain ⟨m, -, ho⟩ := bind_ok ho
  obtain ⟨g, -, ho⟩ := bind_ok ho
  obtain ⟨e, he, ho⟩ := bind_ok ho
  obtain rfl := Except.ok.inj ho
  refine ⟨e, ?_, elemsAre_of (sp := plrCallSpec c) rfl hcl h1 h3⟩
  rw [hp "ml_l" l (by simp [lookupKey]), hp "ml_m" m (by simp [lookupKey]), hp "ml_g" g (by simp [lookupKey])]
  exact he

/-- **C75, IRM**: the function receives the trimmed, and if requested normalised, propensities. -/
theorem C75_irm {F : Frame n} {c : IrmClass n P} {score : IrmScore n} {s t : LinState n P} {a : FitArgs} {j k : ℕ}
    {D : DataState n} {S : List (Fold n)} (h : FitAt F (irmCallSpec c score) s a t j k D S) :
    ∃ m e, NormProp c.normalize D.dNum (t.predVec j k "ml_m") m ∧
      score D.yNum D.dNum (t.predVec j k "ml_g0") (t.predVec j k "ml_g1") m S = .ok e ∧
      ElemsAre t c.vars.isSome j k e := by
  obtain ⟨ci, o, ho, rfl, rfl, -, hcl, h1, h3, hp⟩ := h.cell
  obtain ⟨g0, -, ho⟩ := bind_ok ho
  obtain ⟨g1, -, ho⟩ := bind_ok ho
  obtain ⟨_, -, ho⟩ := bind_ok ho
  obtain ⟨m, -, ho⟩ := bind_ok ho
  obtain ⟨e, he, ho⟩ := bind_ok ho
  obtain rfl := Except.ok.inj ho
  refine ⟨_, e, normProp_adjust _ _ _, ?_, elemsAre_of (sp := irmCallSpec c score) rfl hcl h1 h3⟩
  rw [hp "ml_g0" g0 (by simp [lookupKey]), hp "ml_g1" g1 (by simp [lookupKey]),
    hp "ml_m" (trimRes c.trimT m) (by simp [lookupKey])]
  exact he

/-- **C75, IIVM**: the function receives the trimmed propensities of the instrument; if requested they are normalised
with the groups of the *treatment*, as for the built-in score. -/
theorem C75_iivm {F : Frame n} {c : IivmClass n P} {score : IivmScore n} {s t : LinState n P} {a : FitArgs} {j k : ℕ}
    {D : DataState n} {S : List (Fold n)} (h : FitAt F (iivmCallSpec c score) s a t j k D S) {z : Fin n → Cell}
    (hz : D.zv = some [z]) :
    ∃ m e, NormProp c.normalize D.dNum (t.predVec j k "ml_m") m ∧
      score D.yNum (fun i => (z i).val) D.dNum (t.predVec j k "ml_g0") (t.predVec j k "ml_g1") m (t.predVec j k "ml_r0")
        (t.predVec j k "ml_r1") S = .ok e ∧ ElemsAre t c.vars.isSome j k e := by
  obtain ⟨ci, o, ho, rfl, rfl, -, hcl, h1, h3, hp⟩ := h.cell
  obtain ⟨w, hw, ho⟩ := bind_ok ho
  obtain ⟨g0, -, ho⟩ := bind_ok ho
  obtain ⟨_, -, ho⟩ := bind_ok ho
  obtain ⟨g1, -, ho⟩ := bind_ok ho
  obtain ⟨_, -, ho⟩ := bind_ok ho
  obtain ⟨m, -, ho⟩ := bind_ok ho
  obtain ⟨r0, -, ho⟩ := bind_ok ho
  obtain ⟨r1, -, ho⟩ := bind_ok ho
  obtain ⟨e, he, ho⟩ := bind_ok ho
  obtain rfl := Except.ok.inj ho
  obtain rfl := instr_of hz hw
  refine ⟨_, e, normProp_adjust _ _ _, ?_, elemsAre_of (sp := iivmCallSpec c score) rfl hcl h1 h3⟩
  rw [hp "ml_g0" g0 (by simp [lookupKey]), hp "ml_g1" g1 (by simp [lookupKey]),
    hp "ml_m" (trimRes c.trimT m) (by simp [lookupKey]), hp "ml_r0" r0 (by simp [lookupKey]),
    hp "ml_r1" r1 (by simp [lookupKey])]
  exact he

/-- **C75, PLIV with one instrument.** -/
theorem C75_pliv {F : Frame n} {c : PlivClass n P} {score : PlivScore n} {s t : LinState n P} {a : FitArgs} {j k : ℕ}
    {D : DataState n} {S : List (Fold n)} (h : FitAt F (plivCallSpec c score) s a t j k D S) {z : Fin n → Cell}
    (hz : D.zv = some [z]) :
    ∃ e, score D.yNum (fun i => (z i).val) D.dNum (t.predVec j k "ml_l") (t.predVec j k "ml_m") (t.predVec j k "ml_r")
        (if c.iv then some (t.predVec j k "ml_g") else none) S = .ok e ∧ ElemsAre t c.vars.isSome j k e := by
  obtain ⟨ci, o, ho, rfl, rfl, -, hcl, h1, h3, hp⟩ := h.cell
  obtain ⟨l, -, ho⟩ := bind_ok ho
  obtain ⟨w, hw, ho⟩ := bind_ok ho
  obtain ⟨m, -, ho⟩ := bind_ok ho
  obtain ⟨r, -, ho⟩ := bind_ok ho
  obtain ⟨g, -, ho⟩ := bind_ok ho
  obtain ⟨e, he, ho⟩ := bind_ok ho
  obtain rfl := Except.ok.inj ho
  obtain rfl := instr_of hz hw
  refine ⟨e, ?_, elemsAre_of (sp := plivCallSpec c score) rfl hcl h1 h3⟩
  rw [hp "ml_l" l (by simp [lookupKey]), hp "ml_m" m (by simp [lookupKey]), hp "ml_r" r (by simp [lookupKey]),
    hp "ml_g" g (by simp [lookupKey])]
  exact he

/-! ## Exceptions -/

theorem fit_fails {F : Frame n} {sp : LinSpec n P} (h : ∀ c o, sp.est c ≠ .ok o) {s : LinState n P} (hr : 0 < s.nRep)
    (hd : s.data.d ≠ []) (a : FitArgs) : (fit F sp s a).2 ≠ .ok () := by
  intro hf
  obtain ⟨p, m, _, hc, _⟩ := fit_ok hf
  obtain ⟨hp, hm⟩ := checkFit_ok hc
  obtain ⟨c, o, l, _, _, ho, _⟩ := fit_cells hf hp hm (List.length_pos_of_ne_nil hd) hr
  exact h c o ho

/-- **C75, exceptions.**  A function that always raises makes every fit fail; with several instruments, `partialZ` and
`partialXZ` every fit with a callable score fails. -/
theorem C75_raises {F : Frame n} {s : LinState n P} (hr : 0 < s.nRep) (hd : s.data.d ≠ []) (a : FitArgs) :
    (∀ c : PlrCall n P, (∀ y d l m g S, ∃ e, c.score y d l m g S = .error e) → (fit F (plrCallSpec c) s a).2 ≠ .ok ()) ∧
    (∀ (c : IrmClass n P) (sc : IrmScore n), (∀ y d g0 g1 m S, ∃ e, sc y d g0 g1 m S = .error e) →
      (fit F (irmCallSpec c sc) s a).2 ≠ .ok ()) ∧
    (∀ (c : IivmClass n P) (sc : IivmScore n), (∀ y z d g0 g1 m r0 r1 S, ∃ e, sc y z d g0 g1 m r0 r1 S = .error e) →
      (fit F (iivmCallSpec c sc) s a).2 ≠ .ok ()) ∧
    (∀ (c : PlivClass n P) (sc : PlivScore n), (∀ y z d l m r g S, ∃ e, sc y z d l m r g S = .error e) →
      (fit F (plivCallSpec c sc) s a).2 ≠ .ok ()) ∧
    (∀ (c : PlivClass n P) (zs : List String), (fit F (plivCallMultiSpec c zs) s a).2 ≠ .ok ()) ∧
    (∀ c : PlivClass n P, (fit F (plivCallZSpec c) s a).2 ≠ .ok () ∧ (fit F (plivCallXZSpec c) s a).2 ≠ .ok ()) := by
  refine ⟨fun c h => fit_fails (fun ci o ho => ?_) hr hd a, fun c sc h => fit_fails (fun ci o ho => ?_) hr hd a,
    fun c sc h => fit_fails (fun ci o ho => ?_) hr hd a, fun c sc h => fit_fails (fun ci o ho => ?_) hr hd a,
    fun c zs => fit_fails (fun ci o ho => ?_) hr hd a,
    fun c => ⟨fit_fails (fun ci o ho => ?_) hr hd a, fit_fails (fun ci o ho => ?_) hr hd a⟩⟩
  · obtain ⟨l, -, ho⟩ := bind_ok ho
    obtain ⟨m, -, ho⟩ := bind_ok ho
    obtain ⟨g, -, ho⟩ := bind_ok ho
    obtain ⟨e, he, ho⟩ := bind_ok ho
    obtain ⟨x, hx⟩ := h _ _ _ _ _ _
    rw [hx] at he
    cases he
  · obtain ⟨g0, -, ho⟩ := bind_ok ho
    obtain ⟨g1, -, ho⟩ := bind_ok ho
    obtain ⟨_, -, ho⟩ := bind_ok ho
    obtain ⟨m, -, ho⟩ := bind_ok ho
    obtain ⟨e, he, ho⟩ := bind_ok ho
    obtain ⟨x, hx⟩ := h _ _ _ _ _ _
    rw [hx] at he
    cases he
  · obtain ⟨w, hw, ho⟩ := bind_ok ho
    obtain ⟨g0, -, ho⟩ := bind_ok ho
    obtain ⟨_, -, ho⟩ := bind_ok ho
    obtain ⟨g1, -, ho⟩ := bind_ok ho
    obtain ⟨_, -, ho⟩ := bind_ok ho
    obtain ⟨m, -, ho⟩ := bind_ok ho
    obtain ⟨r0, -, ho⟩ := bind_ok ho
    obtain ⟨r1, -, ho⟩ := bind_ok ho
    obtain ⟨e, he, ho⟩ := bind_ok ho
    obtain ⟨x, hx⟩ := h _ _ _ _ _ _ _ _ _
    rw [hx] at he
    cases he
  · obtain ⟨l, -, ho⟩ := bind_ok ho
    obtain ⟨w, hw, ho⟩ := bind_ok ho
    obtain ⟨m, -, ho⟩ := bind_ok ho
    obtain ⟨r, -, ho⟩ := bind_ok ho
    obtain ⟨g, -, ho⟩ := bind_ok ho
    obtain ⟨e, he, ho⟩ := bind_ok ho
    obtain ⟨x, hx⟩ := h _ _ _ _ _ _ _ _
    rw [hx] at he
    cases he
  · obtain ⟨_, -, ho⟩ := bind_ok ho
    cases ho
  · obtain ⟨_, -, ho⟩ := bind_ok ho
    cases ho
  · obtain ⟨_, -, ho⟩ := bind_ok ho
    cases ho

/-! ## Built-in scores as functions -/

/-- The class with another estimation and without sensitivity analysis. -/
def Spec.call (sp : LinSpec n P) (est : CellIn n P → Except Exc (LinOut n P)) : LinSpec n P :=
  { sp with
    sensImpl := false
    est := est }

/-- The output of a cell without sensitivity elements. -/
def dropSens (o : LinOut n P) : LinOut n P := { o with sens := .zero }

/-- The states differ at most in sensitivity elements and framework. -/
def SameButSens (s s' : LinState n P) : Prop :=
  ∃ x f, s' = { s with
    sens := x
    framework := f }

/-- The external predictions of the cell are taken from `ext`. -/
def CellExt (ext : ExtArg) (c : CellIn n P) : Prop := ∃ ls tv k, setExt n ext ls tv k = .ok c.ext

theorem cellIn_ext {sp : LinSpec n P} {s : LinState n P} {ext : ExtArg} {m : Bool} {tv : String} {k : ℕ} {c : CellIn n P}
    (h : cellIn sp s ext m tv k = .ok c) : CellExt ext c := by
  obtain ⟨e, he, h⟩ := bind_ok h
  obtain ⟨_, -, h⟩ := bind_ok h
  obtain ⟨_, -, h⟩ := bind_ok h
  obtain ⟨_, -, h⟩ := bind_ok h
  obtain rfl := Except.ok.inj h
  exact ⟨_, _, _, he⟩

theorem fitCell_call {F : Frame n} {sp : LinSpec n P} {est : CellIn n P → Except Exc (LinOut n P)} {ext : ExtArg}
    (he : ∀ c o, CellExt ext c → sp.est c = .ok o → est c = .ok (dropSens o)) {p m : Bool} {s s' : LinState n P}
    (h : SameButSens s s') {kj : ℕ × ℕ} (hok : (fitCell F sp ext p m s kj).2 = .ok ()) :
    (fitCell F (sp.call est) ext p m s' kj).2 = .ok () ∧
      SameButSens (fitCell F sp ext p m s kj).1 (fitCell F (sp.call est) ext p m s' kj).1 := by
  obtain ⟨x, f, rfl⟩ := h
  unfold fitCell at hok ⊢
  dsimp only at hok ⊢
  cases hD : activate F s.data kj.2 with
  | error e => rw [hD] at hok; cases hok
  | ok D =>
    rw [hD] at hok
    dsimp only at hok ⊢
    have hc' : cellIn (sp.call est) { ({ s with
        sens := x
        framework := f } : LinState n P) with data := D } ext m (D.d.getD kj.2 "") kj.1 =
        cellIn sp { s with data := D } ext m (D.d.getD kj.2 "") kj.1 := rfl
    cases hc : cellIn sp { s with data := D } ext m (D.d.getD kj.2 "") kj.1 with
    | error e => rw [hc] at hok; cases hok
    | ok c =>
      rw [hc] at hok hc'
      rw [hc']
      dsimp only [Except.bind] at hok ⊢
      cases ho : sp.est c with
      | error e => rw [ho] at hok; cases hok
      | ok o =>
        rw [ho] at hok
        have ho' : (sp.call est).est c = .ok (dropSens o) := he c o (cellIn_ext hc) ho
        rw [ho']
        dsimp only at hok ⊢
        unfold storeCell at hok ⊢
        have hl : calcLoss (sp.call est) (dropSens o).preds (dropSens o).targets = calcLoss sp o.preds o.targets := rfl
        rw [hl]
        dsimp only at hok ⊢
        split_ifs at hok with hif
        · rw [if_pos hif, if_pos hif]
          cases hcl : calcLoss sp o.preds o.targets with
          | error e => rw [hcl] at hok; cases hok
          | ok l => exact ⟨rfl, _, _, rfl⟩

theorem fitLoop_call {F : Frame n} {sp : LinSpec n P} {est : CellIn n P → Except Exc (LinOut n P)} {ext : ExtArg}
    (he : ∀ c o, CellExt ext c → sp.est c = .ok o → est c = .ok (dropSens o)) {p m : Bool} (L : List (ℕ × ℕ))
    {s s' : LinState n P} (h : SameButSens s s') (hok : (fitLoop F sp ext p m s L).2 = .ok ()) :
    (fitLoop F (sp.call est) ext p m s' L).2 = .ok () ∧
      SameButSens (fitLoop F sp ext p m s L).1 (fitLoop F (sp.call est) ext p m s' L).1 := by
  induction L generalizing s s' with
  | nil => exact ⟨rfl, h⟩
  | cons c cs ih =>
    cases hc : (fitCell F sp ext p m s c).2 with
    | error e => rw [fitLoop_error hc] at hok; cases hok
    | ok u =>
      obtain ⟨h1, h2⟩ := fitCell_call he h hc
      rw [fitLoop_step hc] at hok ⊢
      rw [fitLoop_step h1]
      exact ih h2 hok

/-- A class whose cells agree with those of another class up to sensitivity elements has the same fits. -/
theorem fit_call {F : Frame n} {sp : LinSpec n P} {est : CellIn n P → Except Exc (LinOut n P)} {s : LinState n P} {a : FitArgs}
    (he : ∀ c o, CellExt a.ext c → sp.est c = .ok o → est c = .ok (dropSens o)) (h : (fit F sp s a).2 = .ok ()) :
    (fit F (sp.call est) s a).2 = .ok () ∧ SameFit (fit F sp s a).1 (fit F (sp.call est) s a).1 := by
  obtain ⟨p, m, fw, hc, hl, hfw, hst⟩ := fit_ok h
  have hc' : checkFit (sp.call est) s a = .ok (p, m) := hc
  have hi : SameButSens (initFit sp s p m) (initFit (sp.call est) s p m) := ⟨_, _, rfl⟩
  obtain ⟨h1, h2⟩ := fitLoop_call he _ hi hl
  have hfr := (initFit_frame sp s p m).trans (fitLoop_frame F sp a.ext p m _ _ :
    FitFrame _ (fitLoop F sp a.ext p m (initFit sp s p m) (cellOrder s.nRep s.data.d.length)).1)
  have hnr := hfr.settings.nR
  have ha := hfr.arr
  generalize fitLoop F sp a.ext p m (initFit sp s p m) (cellOrder s.nRep s.data.d.length) = q at hl hfw hst h2 hnr ha
  obtain ⟨x, f, h2⟩ := h2
  have key : fit F (sp.call est) s a =
      finishAt (q.1.heap q.1.arr).nR (sp.call est) (aggregate (sp.call est) { q.1 with
        sens := x
        framework := f }) := by
    unfold fit
    rw [hc']
    dsimp only
    rcases hq' : fitLoop F (sp.call est) a.ext p m (initFit (sp.call est) s p m) (cellOrder s.nRep s.data.d.length) with
      ⟨t', r'⟩
    rw [hq'] at h1 h2
    dsimp only at h1 h2
    subst h1 h2
    rfl
  rw [hnr] at key
  have hcon : (frameworkOf (s.heap s.arr).nR (sp.call est) (aggregate (sp.call est) { q.1 with
        sens := x
        framework := f })).construct = .ok { fw with
      sens := none
      bench := none } := by
    unfold FW.construct at hfw ⊢
    split_ifs at hfw with g1 g2 g3
    rw [if_neg, if_neg, if_neg]
    · rw [← Except.ok.inj hfw]
      rfl
    · exact g3
    · intro hh
      exact hh ⟨fun _ hx => (by cases hx), fun hx => (by cases hx)⟩
    · rintro ⟨_, hx, _⟩
      cases hx
  unfold finishAt at key
  rw [hcon] at key
  rw [key, hst]
  refine ⟨rfl, _, _, fw, rfl, ?_, ?_⟩
  · show some _ = some _
    rw [show (aggregate (sp.call est) { q.1 with
        sens := x
        framework := f }).arr = s.arr from ha]
  · rfl

theorem extOf_none_of {c : CellIn n P} (h : CellExt .none c) (l : String) : c.extOf l = none := by
  obtain ⟨ls, tv, k, he⟩ := h
  unfold setExt at he
  unfold CellIn.extOf
  revert he
  generalize c.ext = v
  induction ls generalizing v with
  | nil =>
    intro hv
    obtain rfl := Except.ok.inj hv
    rfl
  | cons x ls ih =>
    intro hv
    rw [List.mapM_cons] at hv
    obtain ⟨b, hb, hv⟩ := bind_ok hv
    obtain ⟨w, hw, hv⟩ := bind_ok hv
    obtain rfl := Except.ok.inj hv
    obtain rfl := Except.ok.inj hb
    unfold lookupKey
    split
    · rfl
    · exact ih w hw

/-- **C75, PLR, partialling out as a function.** -/
theorem C75_plr_builtin {F : Frame n} {c : PlrClass n P} (hiv : c.iv = false) {score : PlrScore n}
    (hs : ∀ y d l m g S, score y d l m g S =
      .ok ⟨fun i => -((d i - m i) * (d i - m i)), fun i => (d i - m i) * (y i - l i)⟩)
    {s : LinState n P} {a : FitArgs} (h : (fit F (plrSpec c) s a).2 = .ok ()) :
    (fit F (plrCallSpec ⟨c.ml_l, c.ml_m, none, c.mClassifier, score, c.vars⟩) s a).2 = .ok () ∧
      SameFit (fit F (plrSpec c) s a).1
        (fit F (plrCallSpec ⟨c.ml_l, c.ml_m, none, c.mClassifier, score, c.vars⟩) s a).1 := by
  obtain ⟨L, M, G, mc, iv, vars⟩ := c
  obtain rfl : iv = false := hiv
  refine fit_call (sp := plrSpec ⟨L, M, G, mc, false, vars⟩) (fun ci o _ ho => ?_) h
  obtain ⟨l, hl, ho⟩ := bind_ok ho
  obtain ⟨m, hm, ho⟩ := bind_ok ho
  obtain ⟨g, hg, ho⟩ := bind_ok ho
  obtain rfl := Except.ok.inj ho
  have e1 : plrCallL (⟨L, M, none, mc, score, vars⟩ : PlrCall n P) ci = .ok l := by
    rw [← hl]
    unfold plrCallL plrL
    cases ci.extOf "ml_l" <;> rfl
  have e2 : plrCallM (⟨L, M, none, mc, score, vars⟩ : PlrCall n P) ci = .ok m := hm
  have e3 : plrCallG (⟨L, M, none, mc, score, vars⟩ : PlrCall n P) ci l m = .ok g := hg
  show plrCallEst _ ci = _
  unfold plrCallEst
  rw [e1]
  dsimp only [bind, Except.bind]
  rw [e2]
  dsimp only
  rw [e3]
  dsimp only
  rw [hs]
  rfl

/-- **C75, PLR, IV-type as a function.**  With external predictions for `ml_g` the built-in score skips `ml_l`, a callable
score does not; so external predictions are excluded. -/
theorem C75_plr_builtin_iv {F : Frame n} {c : PlrClass n P} (hiv : c.iv = true) {score : PlrScore n}
    (hs : ∀ y d l m g S, score y d l m (some g) S = .ok ⟨fun i => -((d i - m i) * d i), fun i => (d i - m i) * (y i - g i)⟩)
    {s : LinState n P} {a : FitArgs} (ha : a.ext = .none) (h : (fit F (plrSpec c) s a).2 = .ok ()) :
    (fit F (plrCallSpec ⟨c.ml_l, c.ml_m, some c.ml_g, c.mClassifier, score, c.vars⟩) s a).2 = .ok () ∧
      SameFit (fit F (plrSpec c) s a).1
        (fit F (plrCallSpec ⟨c.ml_l, c.ml_m, some c.ml_g, c.mClassifier, score, c.vars⟩) s a).1 := by
  obtain ⟨L, M, G, mc, iv, vars⟩ := c
  obtain rfl : iv = true := hiv
  refine fit_call (sp := plrSpec ⟨L, M, G, mc, true, vars⟩) (fun ci o hx ho => ?_) h
  rw [ha] at hx
  obtain ⟨l, hl, ho⟩ := bind_ok ho
  obtain ⟨m, hm, ho⟩ := bind_ok ho
  obtain ⟨g, hg, ho⟩ := bind_ok ho
  obtain rfl := Except.ok.inj ho
  have e1 : plrCallL (⟨L, M, some G, mc, score, vars⟩ : PlrCall n P) ci = .ok l := by
    rw [← hl]
    unfold plrCallL plrL
    rw [extOf_none_of hx "ml_l", extOf_none_of hx "ml_g"]
    rfl
  have e2 : plrCallM (⟨L, M, some G, mc, score, vars⟩ : PlrCall n P) ci = .ok m := hm
  have e3 : plrCallG (⟨L, M, some G, mc, score, vars⟩ : PlrCall n P) ci l m = .ok g := hg
  show plrCallEst _ ci = _
  unfold plrCallEst
  rw [e1]
  dsimp only [bind, Except.bind]
  rw [e2]
  dsimp only
  rw [e3]
  dsimp only [Option.map_some]
  rw [hs]
  rfl

/-- **C75, IRM, weighted average treatment effect as a function.** -/
theorem C75_irm_builtin {F : Frame n} {c : IrmClass n P} (hsc : c.atte = false) {w wb : Fin n → ℝ}
    (hw : ∀ k, c.weights.at k = .ok (w, wb)) {score : IrmScore n}
    (hs : ∀ y d g0 g1 m S, score y d g0 g1 m S =
      .ok ⟨fun i => -(w i / mean w),
        fun i => w i * (g1 i - g0 i) + wb i * (d i * (y i - g1 i) / m i - (1 - d i) * (y i - g0 i) / (1 - m i))⟩)
    {s : LinState n P} {a : FitArgs} (h : (fit F (irmSpec c) s a).2 = .ok ()) :
    (fit F (irmCallSpec c score) s a).2 = .ok () ∧ SameFit (fit F (irmSpec c) s a).1 (fit F (irmCallSpec c score) s a).1 := by
  refine fit_call (sp := irmSpec c) (fun ci o _ ho => ?_) h
  obtain ⟨g0, h0, ho⟩ := bind_ok ho
  obtain ⟨g1, h1, ho⟩ := bind_ok ho
  obtain ⟨_, h2, ho⟩ := bind_ok ho
  obtain ⟨m, h3, ho⟩ := bind_ok ho
  obtain ⟨w', h4, ho⟩ := bind_ok ho
  obtain rfl := Except.ok.inj ho
  unfold irmWeights at h4
  rw [hsc, hw] at h4
  obtain rfl := Except.ok.inj h4
  unfold irmCheck1 at h2
  rw [hsc] at h2
  show irmCallEst c score ci = _
  unfold irmCallEst
  rw [h0]
  dsimp only [bind, Except.bind]
  rw [h1]
  dsimp only
  rw [show checkOut ci g1.preds = .ok _ from h2]
  dsimp only
  rw [h3]
  dsimp only
  rw [hs]
  have e : irmElems ci.y ci.d g0.vec g1.vec (adjust c.normalize (trimRes c.trimT m).vec ci.d) w wb =
      ⟨fun i => -(w i / mean w), fun i => w i * (g1.vec i - g0.vec i) + wb i * (ci.d i * (ci.y i - g1.vec i) /
        adjust c.normalize (trimRes c.trimT m).vec ci.d i - (1 - ci.d i) * (ci.y i - g0.vec i) /
        (1 - adjust c.normalize (trimRes c.trimT m).vec ci.d i))⟩ := by
    unfold irmElems
    congr 1
    funext i
    ring
  dsimp only [dropSens]
  rw [e]
  rfl

/-- **C75, IIVM, the local average treatment effect as a function**: the fits are the same. -/
theorem C75_iivm_builtin (F : Frame n) (c : IivmClass n P) {score : IivmScore n}
    (hs : ∀ y z d g0 g1 m r0 r1 S, score y z d g0 g1 m r0 r1 S =
      .ok ⟨fun i => -(r1 i - r0 i + z i * (d i - r1 i) / m i - (1 - z i) * (d i - r0 i) / (1 - m i)),
        fun i => g1 i - g0 i + z i * (y i - g1 i) / m i - (1 - z i) * (y i - g0 i) / (1 - m i)⟩)
    (s : LinState n P) (a : FitArgs) : fit F (iivmCallSpec c score) s a = fit F (iivmSpec c) s a := by
  have e : iivmCallEst c score = iivmEst c := by
    funext ci
    unfold iivmCallEst iivmEst
    simp only [hs]
    refine bind_congr fun z => bind_congr fun g0 => bind_congr fun _ => bind_congr fun g1 => bind_congr fun _ =>
      bind_congr fun m => bind_congr fun r0 => bind_congr fun r1 => ?_
    show Except.ok _ = Except.ok _
    congr 3
    unfold iivmElems
    congr 1
    funext i
    ring
  have e' : iivmCallSpec c score = iivmSpec c := by
    unfold iivmCallSpec iivmSpec
    rw [e]
  rw [e']

/-- **C75, PLIV, the built-in scores as functions**: the fits are the same. -/
theorem C75_pliv_builtin (F : Frame n) (c : PlivClass n P) {score : PlivScore n}
    (hs : ∀ y z d l m r S, c.iv = false → score y z d l m r none S =
      .ok ⟨fun i => -((d i - r i) * (z i - m i)), fun i => (z i - m i) * (y i - l i)⟩)
    (hs' : ∀ y z d l m r g S, c.iv = true → score y z d l m r (some g) S =
      .ok ⟨fun i => -((z i - m i) * d i), fun i => (z i - m i) * (y i - g i)⟩)
    (s : LinState n P) (a : FitArgs) : fit F (plivCallSpec c score) s a = fit F (plivSpec c) s a := by
  have e : plivCallEst c score = plivEst c := by
    funext ci
    unfold plivCallEst plivEst
    cases hiv : c.iv with
    | false =>
      simp only [hs _ _ _ _ _ _ _ hiv, Bool.false_eq_true, if_false]
      rfl
    | true =>
      simp only [hs' _ _ _ _ _ _ _ _ hiv, if_true]
      rfl
  unfold plivCallSpec
  rw [e]
  rfl

/-- **C75, IRM, weights**: with a callable score weights have no effect. -/
theorem C75_irm_weights (F : Frame n) (c : IrmClass n P) (score : IrmScore n) (w : StoredWeights) (s : LinState n P)
    (a : FitArgs) : fit F (irmCallSpec { c with weights := w } score) s a = fit F (irmCallSpec c score) s a := rfl

/-! ## Examples -/

theorem FitAt.call {F : Frame n} {sp sp' : LinSpec n P} {s t : LinState n P} {a : FitArgs} {j k : ℕ} {D : DataState n}
    {S : List (Fold n)} (h : FitAt F sp s a t j k D S) (h' : (fit F sp' s a).2 = .ok ()) :
    FitAt F sp' s a (fit F sp' s a).1 j k D S := ⟨h', rfl, h.store, h.rep, h.treat, h.split⟩

/-- PLR: functions that compute the two built-in scores, and the fits of the class with the built-in score. -/
example (E : Ext) (F : Frame 4) (y : Fin 4 → ℝ) :
    (∃ (s t : LinState 4 ℕ) (S : List (Fold 4)) (score : PlrScore 4),
      (∀ y d l m g S, score y d l m g S = .ok ⟨fun i => -((d i - m i) * (d i - m i)), fun i => (d i - m i) * (y i - l i)⟩) ∧
      FitAt F (plrCallSpec ⟨exMeanL, exMeanL, none, false, score, none⟩) s {} t 0 0
        { exData4 y with binTreats := [("d", false)] } S ∧ 0 < s.nRep) ∧
    ∃ (s t : LinState 4 ℕ) (S : List (Fold 4)) (score : PlrScore 4),
      (∀ y d l m g S, score y d l m (some g) S = .ok ⟨fun i => -((d i - m i) * d i), fun i => (d i - m i) * (y i - g i)⟩) ∧
      FitAt F (plrCallSpec ⟨exMeanL, exMeanL, some exMeanL, false, score, none⟩) s {} t 0 0
        { exData4 y with binTreats := [("d", false)] } S := by
  have ha : ∀ sp : LinSpec 4 ℕ, ValidArgs sp "d" 1 {} := fun sp => ⟨.inl rfl, ⟨true, rfl⟩, ⟨false, rfl⟩, .inl rfl⟩
  have H : ∀ iv : Bool, ∃ (s t : LinState 4 ℕ) (S : List (Fold 4)),
      FitAt F (plrSpec ⟨exMeanL, exMeanL, exMeanL, false, iv, none⟩) s {} t 0 0
        { exData4 y with binTreats := [("d", false)] } S := by
    intro iv
    obtain ⟨s, L, h1, h2, h3⟩ := exReachedDraw E F (sp := plrSpec ⟨exMeanL, exMeanL, exMeanL, false, iv, none⟩) rfl rfl
      (D := { exData4 y with binTreats := [("d", false)] }) rfl
    obtain ⟨S, rfl⟩ := List.length_eq_one_iff.1 ((((h1.ready rfl).1.split L h2).1).trans h3)
    exact ⟨s, _, S, .single rfl h1 h2 h3 rfl (C63_plr rfl rfl rfl h1 h2 (by rw [h3]; exact ha _))⟩
  constructor
  · obtain ⟨s, t, S, h⟩ := H false
    refine ⟨s, _, S, fun y d l m _ _ => .ok (plrPo y d l m), fun _ _ _ _ _ _ => rfl, h.call (C75_plr_builtin rfl
      (fun _ _ _ _ _ _ => rfl) h.fitted).1, h.rep⟩
  · obtain ⟨s, t, S, h⟩ := H true
    refine ⟨s, _, S, fun y d _ m g _ => .ok (plrIv y d m (g.getD 0)), fun _ _ _ _ _ _ => rfl, h.call (C75_plr_builtin_iv rfl
      (fun _ _ _ _ _ _ => rfl) rfl h.fitted).1⟩

/-- IRM, IIVM and PLIV: functions that compute the built-in scores. -/
example (E : Ext) (F : Frame 4) (y : Fin 4 → ℝ) (iv : Bool) :
    (∃ (s t : LinState 4 ℕ) (score : IrmScore 4), FitAt F (irmCallSpec exIrm4 score) s {} t 0 0 (exData4 y) exFolds4) ∧
    (∃ (s t : LinState 4 ℕ) (score : IivmScore 4),
      FitAt F (iivmCallSpec ⟨exMeanL, exMeanL, exMeanL, false, false, false, true, 1 / 100, none⟩ score) s {} t 0 0
        (exData4 y) exFolds4 ∧ ∃ z, (exData4 y).zv = some [z]) ∧
    ∃ (s t : LinState 4 ℕ) (S : List (Fold 4)) (score : PlivScore 4),
      FitAt F (plivCallSpec ⟨exMeanL, exMeanL, exMeanL, exMeanL, iv, fun _ v => v, none⟩ score) s {} t 0 0 (exData4 y) S := by
  have hd : nums (exData4 y).dv = ![(0 : ℝ), 1, 0, 1] := rfl
  have ha : ∀ sp : LinSpec 4 ℕ, ValidArgs sp "d" 1 {} := fun sp => ⟨.inl rfl, ⟨true, rfl⟩, ⟨false, rfl⟩, .inl rfl⟩
  refine ⟨?_, ?_, ?_⟩
  · obtain ⟨s, h1, h2, h3⟩ := exReached4 E F (sp := irmSpec exIrm4) rfl rfl y "ml_g1"
    have h4 : (fit F (irmSpec exIrm4) s {}).2 = .ok () :=
      C63_irm rfl rfl exMeanL_compliant rfl (by rw [hd]; exact ex_d4.1) h1 h2 (by rw [hd]; exact ex_every ex_d4.2)
        ex_irm_weights (by rw [h3]; exact ha _)
    exact ⟨s, _, _, (FitAt.single rfl h1 h2 h3 rfl h4).call (C75_irm_builtin (c := exIrm4) rfl (fun _ => rfl)
      (fun _ _ _ _ _ _ => rfl) h4).1⟩
  · obtain ⟨s, h1, h2, h3⟩ := exReached4 E F
      (sp := iivmSpec ⟨exMeanL, exMeanL, exMeanL, false, false, false, true, 1 / 100, none⟩) rfl rfl y "ml_m"
    have h4 := C63_iivm (F := F) (D := exData4 y) (z := fun i => .num (![0, 1, 1, 0] i)) rfl rfl
      exMeanL_compliant exMeanL_compliant rfl ex_d4.1 rfl ex_z4.1 h1 h2 (ex_every ex_z4.2)
      (fun h => by cases h) (fun h => by cases h) (by rw [h3]; exact ha _)
    exact ⟨s, _, _, (FitAt.single rfl h1 h2 h3 rfl h4).call ((congrArg Prod.snd (C75_iivm_builtin F _
      (fun _ _ _ _ _ _ _ _ _ => rfl) s {})).trans h4), _, rfl⟩
  · obtain ⟨s, L, h1, h2, h3⟩ := exReachedDraw E F
      (sp := plivSpec ⟨exMeanL, exMeanL, exMeanL, exMeanL, iv, fun _ v => v, none⟩) rfl rfl (D := exData4 y) rfl
    obtain ⟨S, rfl⟩ := List.length_eq_one_iff.1 ((((h1.ready rfl).1.split L h2).1).trans h3)
    have h4 := C63_pliv (F := F) rfl rfl rfl h1 h2 (by rw [h3]; exact ha _)
    exact ⟨s, _, S, fun y z d l m r g _ => .ok (match g with
        | none => plivPo y z d l m r
        | some g => plivIv y z d m g),
      (FitAt.single rfl h1 h2 h3 rfl h4).call ((congrArg Prod.snd (C75_pliv_builtin F _
        (fun _ _ _ _ _ _ _ _ => rfl) (fun _ _ _ _ _ _ _ _ _ => rfl) s {})).trans h4)⟩

end DML
