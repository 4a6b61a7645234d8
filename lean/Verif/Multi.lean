import Verif.Model

/-!
# Models made of sub-models: `DoubleMLAPOS` and `DoubleMLQTE`

/repo/doubleml/irm/apos.py and /repo/doubleml/irm/qte.py.  Both hold a split of their own and a list of sub-models
(`DoubleMLAPO`, one per treatment level; `DoubleMLPQ`/`DoubleMLLPQ`/`DoubleMLCVAR`, one for control and one for
treatment per quantile), to which the split is copied when they are created.  The sub-models are the model objects of
`Verif.Model`.

Simplifications: the data object is not changed after construction, sub-models are not accessed by the user,
`n_jobs_models=None` (the sub-models are fitted one after the other and changed in place), `n_folds` and `n_rep` are
natural numbers.
-/

namespace DML

variable {n : ℕ} {P M : Type}

/-- What is fixed about one sub-model: its class (with treatment level or quantile), the start value of its constructor
and the checks of its constructor beyond those of `DoubleML`, which may depend on `n_rep` (the check of
`weights_bar`, /repo/doubleml/irm/apo.py:131). -/
structure SubClass (n : ℕ) (P M : Type) where
  spec : Spec n P M
  start : ℝ
  check : ℕ → Except Exc Unit

/-- A framework with its mutable attributes, of any number of repetitions. -/
structure AnyFw (n : ℕ) where
  r : ℕ
  st : RState n r

/-- The attributes `_n_folds`, `_n_rep`, `_smpls`, `_modellist` (`none`: the attribute does not exist) and
`_framework`.  For `DoubleMLQTE` the list of sub-models is `modellist_0[0], modellist_1[0], modellist_0[1], …`. -/
structure Multi (n : ℕ) (P M : Type) where
  nFolds : ℕ
  nRep : ℕ
  smpls : Option (List (List IdxPair))
  subs : Option (List (MState n P M))
  framework : Option (AnyFw n)

/-- A split handed on as list of lists of pairs of integer arrays. -/
def nestedSplit (S : List (List IdxPair)) : SplitArg :=
  .list (S.map fun rep => .list (rep.map fun p => .tuple [⟨true, p.1⟩, ⟨true, p.2⟩]))

/-- A fold as a pair of index arrays. -/
def Fold.idx (f : Fold n) : IdxPair :=
  (f.train.map fun (i : Fin n) => (i.val : ℤ), f.test.map fun (i : Fin n) => (i.val : ℤ))

/-- The call `model.set_sample_splitting(all_smpls=self.smpls)`; an exception ends the construction. -/
def syncSplit (c : SubClass n P M) (S : List (List IdxPair)) (s : MState n P M) : Except Exc (MState n P M) :=
  match setSampleSplitting c.spec s (nestedSplit S) none with
  | (_, .error e) => .error e
  | (s, .ok ()) => .ok s

/-- One pass of the loop of `_initialize_models` (/repo/doubleml/irm/apos.py:900-907,
/repo/doubleml/irm/qte.py:621-642).  The draws `w` are not used, because `draw_sample_splitting=False`. -/
def initSub (D : DataState n) (w : Draws n) (nFolds nRep : ℕ) (S : List (List IdxPair)) (c : SubClass n P M) :
    Except Exc (MState n P M) := do
  let s ← initModel c.spec D c.start (.int nFolds) (.int nRep) (.bool false) w
  let _ ← c.check nRep
  syncSplit c S s

/-- `_initialize_models` (/repo/doubleml/irm/apos.py:882-909, /repo/doubleml/irm/qte.py:607-644). -/
def initSubs (cs : List (SubClass n P M)) (D : DataState n) (w : Draws n) (s : Multi n P M) : Except Exc (List (MState n P M)) :=
  match s.smpls with
  | none => .error .valueError
  | some S => cs.mapM (initSub D w s.nFolds s.nRep S)

/-- `self._modellist = self._initialize_models()`: after an exception the attribute keeps its value. -/
def reinit (cs : List (SubClass n P M)) (D : DataState n) (w : Draws n) (s : Multi n P M) : Multi n P M × Except Exc Unit :=
  match initSubs cs D w s with
  | .error e => (s, .error e)
  | .ok l => ({ s with subs := some l }, .ok ())

/-- The stratified draw (/repo/doubleml/irm/apos.py:639-642, /repo/doubleml/irm/qte.py:456-459): every observation gets
an arbitrary fold number below `n_folds`.  scikit-learn's further refusals (fewer than `n_folds` observations in every
stratum) are not modelled. -/
def multiDraw (nFolds nRep : ℕ) (w : Draws n) : Except Exc (List (List IdxPair)) :=
  if nFolds < 2 ∨ nRep = 0 then .error .valueError
  else .ok ((List.range nRep).map fun r => (assignFolds nFolds fun i => w.assign r i % nFolds).map Fold.idx)

/-- The common part of `draw_sample_splitting`. -/
def setDrawn (s : Multi n P M) (w : Draws n) : Multi n P M × Except Exc Unit :=
  match multiDraw s.nFolds s.nRep w with
  | .error e => (s, .error e)
  | .ok S => ({ s with smpls := some S }, .ok ())

/-- `draw_sample_splitting` of `DoubleMLAPOS` (/repo/doubleml/irm/apos.py:628-644): the sub-models are not touched. -/
def apoDraw (s : Multi n P M) (w : Draws n) : Multi n P M × Except Exc Unit := setDrawn s w

/-- `draw_sample_splitting` of `DoubleMLQTE` (/repo/doubleml/irm/qte.py:445-463). -/
def qteDraw (cs : List (SubClass n P M)) (D : DataState n) (s : Multi n P M) (w : Draws n) : Multi n P M × Except Exc Unit :=
  match setDrawn s w with
  | (s, .error e) => (s, .error e)
  | (s, .ok ()) => reinit cs D w s

/-- `set_sample_splitting` of both classes (/repo/doubleml/irm/apos.py:646-702, /repo/doubleml/irm/qte.py:465-530) for
data without clusters: the own attributes are replaced first. -/
def multiSet (cs : List (SubClass n P M)) (D : DataState n) (w : Draws n) (s : Multi n P M) (a : SplitArg) :
    Multi n P M × Except Exc Unit :=
  match checkSampleSplitting n a with
  | .error e => (s, .error e)
  | .ok (S, nr, nf) => reinit cs D w { s with smpls := some S, nRep := nr, nFolds := nf }

/-- The state before the split is drawn. -/
def multiEmpty (nFolds nRep : ℕ) : Multi n P M := ⟨nFolds, nRep, none, none, none⟩

/-- The end of `__init__` of `DoubleMLAPOS` (/repo/doubleml/irm/apos.py:89-95). -/
def apoCreate (cs : List (SubClass n P M)) (D : DataState n) (nFolds nRep : ℕ) (draw : Bool) (w : Draws n) :
    Except Exc (Multi n P M) :=
  if draw then
    match apoDraw (multiEmpty nFolds nRep) w with
    | (_, .error e) => .error e
    | (s, .ok ()) =>
      match reinit cs D w s with
      | (_, .error e) => .error e
      | (s, .ok ()) => .ok s
  else .ok (multiEmpty nFolds nRep)

/-- The end of `__init__` of `DoubleMLQTE` (/repo/doubleml/irm/qte.py:148-153): the models are created twice. -/
def qteCreate (cs : List (SubClass n P M)) (D : DataState n) (nFolds nRep : ℕ) (draw : Bool) (w : Draws n) :
    Except Exc (Multi n P M) :=
  if draw then
    match qteDraw cs D (multiEmpty nFolds nRep) w with
    | (_, .error e) => .error e
    | (s, .ok ()) =>
      match reinit cs D w s with
      | (_, .error e) => .error e
      | (s, .ok ()) => .ok s
  else .ok (multiEmpty nFolds nRep)

/-! ## fit -/

/-- The sub-models are fitted one after the other; an exception ends the loop and keeps what has been done. -/
noncomputable def fitSubs (F : Frame n) : List (SubClass n P M × FitArgs) → List (MState n P M) →
    List (MState n P M) × Except Exc Unit
  | ca :: cas, m :: ms =>
    match fit F ca.1.spec m ca.2 with
    | (m, .error e) => (m :: ms, .error e)
    | (m, .ok ()) => let q := fitSubs F cas ms; (m :: q.1, q.2)
  | _, ms => (ms, .ok ())

/-- A framework of any number of repetitions. -/
structure DynFW (n : ℕ) where
  r : ℕ
  fw : FW n r

/-- `model.framework`, as its methods see it. -/
noncomputable def MState.fw? (m : MState n P M) : Option (DynFW n) :=
  m.framework.map fun o => ⟨o.r, (o.view m.heap).fw⟩

/-- The check of the number of repetitions (/repo/doubleml/utils/_checks.py:364-369). -/
def DynFW.castTo (r : ℕ) (A : DynFW n) : Except Exc (FW n r) :=
  if h : A.r = r then .ok (h ▸ A.fw) else .error .valueError

/-- `A - B` (/repo/doubleml/double_ml_framework.py:344-389). -/
noncomputable def DynFW.sub (A B : DynFW n) : Except Exc (DynFW n) := do
  let C ← B.castTo A.r
  let R ← FW.sub A.fw C
  return ⟨A.r, R⟩

/-- `concat` (/repo/doubleml/double_ml_framework.py:1069-1125). -/
noncomputable def DynFW.concat : List (DynFW n) → Except Exc (DynFW n)
  | [] => .error .typeError
  | A :: As => do
    let l ← (A :: As).mapM (DynFW.castTo A.r)
    let R ← FW.concat l
    return ⟨A.r, R⟩

/-- `model.framework` where a framework is needed; `None` is a `TypeError`. -/
noncomputable def getFw (m : MState n P M) : Except Exc (DynFW n) :=
  match m.fw? with
  | none => .error .typeError
  | some A => .ok A

/-- `modellist_1[i].framework - modellist_0[i].framework` for all quantiles (/repo/doubleml/irm/qte.py:409-415). -/
noncomputable def qteDiffs : List (DynFW n) → Except Exc (List (DynFW n))
  | A0 :: A1 :: l => do
    let d ← A1.sub A0
    let ds ← qteDiffs l
    return d :: ds
  | _ => .ok []

/-- `self._framework = concat(framework_list)`. -/
noncomputable def setFw (s : Multi n P M) (l : Except Exc (List (DynFW n))) : Multi n P M × Except Exc Unit :=
  match l.bind DynFW.concat with
  | .error e => (s, .error e)
  | .ok A => ({ s with framework := some ⟨A.r, { fw := A.fw }⟩ }, .ok ())

/-- The loop over the sub-models and the construction of the framework. -/
noncomputable def multiFit (F : Frame n) (cas : List (SubClass n P M × FitArgs))
    (frameworks : List (DynFW n) → Except Exc (List (DynFW n))) (s : Multi n P M) : Multi n P M × Except Exc Unit :=
  match s.subs with
  | none => (s, .error .attributeError)
  | some ms =>
    match fitSubs F cas ms with
    | (ms, .error e) => ({ s with subs := some ms }, .error e)
    | (ms, .ok ()) => setFw { s with subs := some ms } ((ms.mapM getFw).bind frameworks)

/-- `fit` of `DoubleMLQTE` (/repo/doubleml/irm/qte.py:367-420) without external predictions. -/
noncomputable def qteFit (F : Frame n) (cs : List (SubClass n P M)) (s : Multi n P M) (a : FitArgs) :
    Multi n P M × Except Exc Unit :=
  if a.ext.given then (s, .error .notImplemented)
  else multiFit F (cs.map fun c => (c, a)) qteDiffs s

/-! ### External predictions of `DoubleMLAPOS` -/

/-- `external_predictions` of `DoubleMLAPOS.fit`: a dictionary over treatment levels or something else. -/
inductive ApoExt (L : Type)
  | none
  | dict (items : List (L × ExtInner))
  | notDict

variable {L : Type} [DecidableEq L]

/-- The names of the learners of `DoubleMLAPO`. -/
def apoLearners : List String := ["ml_g_d_lvl0", "ml_g_d_lvl1", "ml_m"]

/-- One value of the dictionary (/repo/doubleml/irm/apos.py:846-857). -/
def checkApoInner : ExtInner → Except Exc Unit
  | .notDict => .error .typeError
  | .dict items => if items.map Prod.fst ⊆ apoLearners then .ok () else .error .valueError

/-- `_check_external_predictions` (/repo/doubleml/irm/apos.py:832-858). -/
def checkApoExt (levels : List L) : ApoExt L → Except Exc Unit
  | .none => .ok ()
  | .notDict => .error .typeError
  | .dict items =>
    if items.map Prod.fst ⊆ levels then do
      let _ ← items.mapM fun kv => checkApoInner kv.2
      return ()
    else .error .valueError

/-- `external_predictions[treatment_level]`. -/
def lookupLevel {α : Type} (l : L) : List (L × α) → Option α
  | [] => .none
  | p :: ps => if p.1 = l then some p.2 else lookupLevel l ps

/-- `_rename_external_predictions` (/repo/doubleml/irm/apos.py:860-871) for one treatment level. -/
def renameApoExt (dCol : String) (items : List (L × ExtInner)) (l : L) : Except Exc ExtArg :=
  match lookupLevel l items with
  | .none => .error .keyError
  | some .notDict => .error .typeError
  | some (.dict inner) =>
    .ok (.dict [(dCol, .dict (["ml_g_d_lvl1", "ml_m", "ml_g_d_lvl0"].filterMap fun k =>
      (lookupKey k inner).map fun v => (k, v)))])

/-- The external predictions of every sub-model (/repo/doubleml/irm/apos.py:385-391). -/
def apoExtArgs (levels : List L) (dCol : String) (e : ApoExt L) : Except Exc (List ExtArg) :=
  match e with
  | .none => .ok (levels.map fun _ => .none)
  | .notDict => .error .typeError
  | .dict items => do
    let _ ← checkApoExt levels (.dict items)
    levels.mapM (renameApoExt dCol items)

/-- `fit` of `DoubleMLAPOS` (/repo/doubleml/irm/apos.py:351-409). -/
noncomputable def apoFit (F : Frame n) (levels : List L) (dCol : String) (cs : List (SubClass n P M)) (s : Multi n P M)
    (a : FitArgs) (e : ApoExt L) : Multi n P M × Except Exc Unit :=
  match apoExtArgs levels dCol e with
  | .error x => (s, .error x)
  | .ok es => multiFit F (List.zipWith (fun c x => (c, { a with ext := x })) cs es) .ok s

/-! ## Histories -/

/-- Method calls; `infer` stands for the methods delegated to the framework. -/
inductive MultiOp (n : ℕ) (L : Type)
  | fit (a : FitArgs) (e : ApoExt L)
  | draw (w : Draws n)
  | setSplit (a : SplitArg)
  | infer (o : ∀ r, Op n r)

/-- Methods delegated to the framework: `bootstrap`, `confint`, `p_adjust`, `sensitivity_analysis`. -/
noncomputable def multiInfer (E : Ext) (s : Multi n P M) (o : ∀ r, Op n r) : Multi n P M × Except Exc Out :=
  match s.framework with
  | none => (s, .error .valueError)
  | some f =>
    let q := f.st.step E (o f.r)
    ({ s with framework := some ⟨f.r, q.1⟩ }, q.2)

/-- One call on a `DoubleMLAPOS` object. -/
noncomputable def apoStep (E : Ext) (F : Frame n) (levels : List L) (dCol : String) (cs : List (SubClass n P M)) (D : DataState n)
    (w0 : Draws n) (s : Multi n P M) : MultiOp n L → Multi n P M
  | .fit a e => (apoFit F levels dCol cs s a e).1
  | .draw w => (apoDraw s w).1
  | .setSplit a => (multiSet cs D w0 s a).1
  | .infer o => (multiInfer E s o).1

/-- One call on a `DoubleMLQTE` object. -/
noncomputable def qteStep (E : Ext) (F : Frame n) (cs : List (SubClass n P M)) (D : DataState n) (w0 : Draws n) (s : Multi n P M) :
    MultiOp n L → Multi n P M
  | .fit a _ => (qteFit F cs s a).1
  | .draw w => (qteDraw cs D s w).1
  | .setSplit a => (multiSet cs D w0 s a).1
  | .infer o => (multiInfer E s o).1

/-- A history of calls on a `DoubleMLAPOS` object. -/
noncomputable def apoRun (E : Ext) (F : Frame n) (levels : List L) (dCol : String) (cs : List (SubClass n P M)) (D : DataState n)
    (w0 : Draws n) (s : Multi n P M) : List (MultiOp n L) → Multi n P M
  | [] => s
  | o :: os => apoRun E F levels dCol cs D w0 (apoStep E F levels dCol cs D w0 s o) os

/-- A history of calls on a `DoubleMLQTE` object. -/
noncomputable def qteRun (E : Ext) (F : Frame n) (cs : List (SubClass n P M)) (D : DataState n) (w0 : Draws n) (s : Multi n P M) :
    List (MultiOp n L) → Multi n P M
  | [] => s
  | o :: os => qteRun E F cs D w0 (qteStep E F cs D w0 s o) os

/-! ## Causal contrasts -/

/-- `reference_levels`: a single level or an iterable of levels. -/
inductive RefArg (L : Type)
  | single (l : L)
  | many (l : List L)

/-- `reference_levels` as a list (/repo/doubleml/irm/apos.py:727-729). -/
def RefArg.list : RefArg L → List L
  | .single l => [l]
  | .many l => l

/-- The inner loop of `causal_contrast` (/repo/doubleml/irm/apos.py:744-747): the indices that are compared with the
reference, given `skip_index`. -/
def notSkipped (p : ℕ) (skip : List ℕ) : List ℕ := (List.range p).filter fun i => ! skip.contains i

/-- The pairs (index of the level, index of the reference) in the order in which they are computed
(/repo/doubleml/irm/apos.py:737-747); `skip` is `skip_index`. -/
def contrastPairs (levels : List L) : List L → List ℕ → List (ℕ × ℕ)
  | [], _ => []
  | ref :: refs, skip =>
    let i := levels.idxOf ref
    (notSkipped levels.length (i :: skip)).map (fun j => (j, i)) ++ contrastPairs levels refs (i :: skip)

/-- `combined_sensitivity_dict` (/repo/doubleml/irm/apos.py:791-796) for one repetition. -/
noncomputable def contrastSens (a b : SensElems n) : SensElems n :=
  { sigma2 := (a.sigma2 + b.sigma2) / 2
    nu2 := a.nu2 + b.nu2
    psiSigma2 := fun i => (a.psiSigma2 i + b.psiSigma2 i) / 2
    psiNu2 := fun i => a.psiNu2 i + b.psiNu2 i
    rr := fun _ => 0 }

open Classical in
/-- `_check_and_set_sensitivity_elements` with the combined elements (/repo/doubleml/irm/apos.py:755-756,
/repo/doubleml/double_ml_framework.py:948-982). -/
noncomputable def setContrastSens {r : ℕ} (A : FW n r) (nT : ℕ) (S T : Option (ℕ → ℕ → Option (SensElems n))) :
    Except Exc (FW n r) :=
  match S, T with
  | some S, some T =>
    let C := fun j k => some (contrastSens ((S j k).getD .zero) ((T j k).getD .zero))
    let bs := (List.range nT).map fun j => (sensBlock C r j).2
    if ∃ b ∈ bs, ¬ b.ok then .error .valueError
    else .ok { A with sens := some ((List.range nT).map fun j => (sensBlock C r j).1), bench := some bs }
  | _, _ => .error .typeError

/-- One contrast (/repo/doubleml/irm/apos.py:751-756). -/
noncomputable def contrast (m ref : MState n P M) : Except Exc (DynFW n) := do
  let A ← getFw m
  let B ← getFw ref
  let R ← A.sub B
  let C ← setContrastSens R.fw m.data.d.length m.sens ref.sens
  return ⟨R.r, C⟩

/-- The contrast of the sub-models with the given indices. -/
noncomputable def contrastAt (ms : List (MState n P M)) (ij : ℕ × ℕ) : Except Exc (DynFW n) :=
  match ms[ij.1]?, ms[ij.2]? with
  | some m, some ref => contrast m ref
  | _, _ => .error .indexError

/-- `acc.treatment_names = all_treatment_names` (/repo/doubleml/double_ml_framework.py:221-224,1051-1066). -/
def setNames (A : DynFW n) (names : List String) : Except Exc (DynFW n) :=
  if names.length = A.fw.blocks.length then .ok ⟨A.r, { A.fw with names := some names }⟩ else .error .valueError

/-- `f"{self.treatment_levels[i]} vs {self.treatment_levels[i_ref_lvl]}"`. -/
def contrastName (str : L → String) (levels : List L) (ij : ℕ × ℕ) : String :=
  ((levels[ij.1]?).map str).getD "" ++ " vs " ++ ((levels[ij.2]?).map str).getD ""

/-- `causal_contrast` (/repo/doubleml/irm/apos.py:704-763). -/
noncomputable def causalContrast (levels : List L) (str : L → String) (s : Multi n P M) (refs : RefArg L) :
    Except Exc (DynFW n) :=
  if s.framework.isNone then .error .valueError
  else if levels.length = 1 then .error .valueError
  else if ¬ refs.list ⊆ levels then .error .valueError
  else do
    let pairs := contrastPairs levels refs.list []
    let fws ← pairs.mapM (contrastAt (s.subs.getD []))
    let acc ← DynFW.concat fws
    setNames acc (pairs.map (contrastName str levels))

end DML
