import Verif.Classes
import Verif.NestedFitProps
import Verif.EvalProps
import Verif.FoldCountProps

/-!
# The other linear model classes: properties

C26, C27 (training samples), C28 (external predictions), C29 (repeated fits), C39 (trimming) and C58 (targets of the
evaluation) for IRM, APO, IIVM, DID, DIDCS, SSM and PLIV.
-/

namespace DML

open Finset

variable {n : ℕ} {P : Type}

/-! ## The pieces -/

theorem condLearn_ok {L : Learner P (List Cell)} {m : Method} {c : CellIn n P} {l : String} {x : Fin n → List Cell}
    {y : Fin n → ℝ} {on keep : Fin n → Prop} [DecidablePred on] [DecidablePred keep] {r : CvRes n P (List Cell)}
    (h : condLearn L m c l x y on keep = .ok r) :
    ∃ r', crossFit L m c l x y (condSmpls on c.smpls) = .ok r' ∧ r = maskTargets keep r' := by
  obtain ⟨r', h1, h⟩ := bind_ok h
  obtain ⟨_, _, h⟩ := bind_ok h
  exact ⟨r', h1, (Except.ok.inj h).symm⟩

theorem learn_ok {L : Learner P (List Cell)} {m : Method} {c : CellIn n P} {l : String} {y : Fin n → ℝ}
    {r : CvRes n P (List Cell)} (h : learn L m c l y = .ok r) : crossFit L m c l (rowX c.data) y c.smpls = .ok r := by
  obtain ⟨r', h1, h⟩ := bind_ok h
  obtain ⟨_, _, h⟩ := bind_ok h
  rw [← Except.ok.inj h]; exact h1

theorem ssmPart_ok {L : Learner P (List Cell)} {m : Method} {c : CellIn n P} {l : String} {x : Fin n → List Cell}
    {y : Fin n → ℝ} {S : List (Fold n)} {r : CvRes n P (List Cell)} (h : ssmPart L m c l x y S = .ok r) :
    crossFit L m c l x y S = .ok r := by
  obtain ⟨r', h1, h⟩ := bind_ok h
  obtain ⟨_, _, h⟩ := bind_ok h
  rw [← Except.ok.inj h]; exact h1

/-- The answer of a learner fitted with parameters `p` on the data `D`: the prediction, or the probability of the
second class. -/
def Learner.answer (L : Learner P (List Cell)) (m : Method) (p : Option P) (D : List (List Cell × ℝ)) (x : List Cell) :
    Option ℝ :=
  match m with
  | .predict => some (L.predict p D x)
  | .proba => (L.proba p D x)[1]?

/-- A sample split `fit` can use: a partition, training indices in increasing order. -/
structure SplitOk (S : List (Fold n)) : Prop where
  partition : isPartition S = true
  sorted : ∀ f ∈ S, f.train.Pairwise (· < ·)

/-- What is asked of a classifier and its target on a training sample: one column per class, labels 0 and 1 both
present.  Nothing is asked of a regressor. -/
def ClassesSeen (L : Learner P (List Cell)) (m : Method) (y : Fin n → ℝ) (train : List (Fin n)) : Prop :=
  m = .proba → L.Compliant ∧ BinaryTarget y ∧ (∃ j ∈ train, y j = 0) ∧ ∃ j ∈ train, y j = 1

/-- Fold by fold, `p` holds the answers of learner `L`, fitted on the training observations satisfying `on` with
covariates `x` and target `y`, at the test observations; afterwards transformed by `post`. -/
def FoldRule (c : CellIn n P) (l : String) (L : Learner P (List Cell)) (m : Method) (on : Fin n → Prop) [DecidablePred on]
    (x : Fin n → List Cell) (y : Fin n → ℝ) (post : ℝ → ℝ) (p : NV n) : Prop :=
  ∀ q (hq : q < c.smpls.length), ∀ i ∈ c.smpls[q].test,
    ClassesSeen L m y (c.smpls[q].train.filter fun j => decide (on j)) →
    p i = (L.answer m ((c.paramsOf l).at q) ((c.smpls[q].train.filter fun j => decide (on j)).map fun j => (x j, y j))
      (x i)).map post

theorem crossFit_cond {L : Learner P (List Cell)} {m : Method} {c : CellIn n P} {l : String} {x : Fin n → List Cell}
    {y : Fin n → ℝ} {on : Fin n → Prop} [DecidablePred on] {r : CvRes n P (List Cell)} (hS : SplitOk c.smpls)
    (h : crossFit L m c l x y (condSmpls on c.smpls) = .ok r) : FoldRule c l L m on x y id r.preds := by
  intro q hq i hi hc
  rw [Option.map_id, id]
  cases m with
  | predict => exact C27_conditional_prediction on hS.partition hS.sorted h q hq i hi
  | proba =>
    obtain ⟨hL, hy, h0, h1⟩ := hc rfl
    have hq' : q < (condSmpls on c.smpls).length := by simpa [condSmpls] using hq
    have he : (condSmpls on c.smpls)[q] = ⟨c.smpls[q].train.filter fun j => decide (on j), c.smpls[q].test⟩ := by
      have := C27_training_sets_sorted on c.smpls[q] (hS.sorted _ (List.getElem_mem hq))
      simp only [condSmpls, List.getElem_map, this]
    have := (C26_prediction_rule_proba (a := ⟨x, .plain y, condSmpls on c.smpls, c.paramsOf l, .proba, false, c.wantModels⟩)
      hL rfl rfl hy (by rw [← hS.partition]; exact isPartition_cond on c.smpls) h q hq' i
      (by show i ∈ ((condSmpls on c.smpls)[q]).test; rw [he]; exact hi)
      (by show BothClasses y ((condSmpls on c.smpls)[q]); rw [he]; exact ⟨h0, h1⟩)).2
    rw [this]
    show (L.proba _ (((condSmpls on c.smpls)[q]).train.map _) _)[1]? = _
    rw [he]
    rfl

theorem crossFit_plain {L : Learner P (List Cell)} {m : Method} {c : CellIn n P} {l : String} {x : Fin n → List Cell}
    {y : Fin n → ℝ} {r : CvRes n P (List Cell)} (hS : SplitOk c.smpls)
    (h : crossFit L m c l x y c.smpls = .ok r) : FoldRule c l L m (fun _ => True) x y id r.preds := by
  intro q hq i hi hc
  simp only [decide_true, List.filter_true] at hc ⊢
  rw [Option.map_id, id]
  cases m with
  | predict =>
    exact C26_prediction_rule (a := ⟨x, .plain y, c.smpls, c.paramsOf l, .predict, false, c.wantModels⟩) rfl hS.partition
      (fun f hf => (hS.sorted f hf).imp ne_of_lt) h q hq i hi
  | proba =>
    obtain ⟨hL, hy, h0, h1⟩ := hc rfl
    exact (C26_prediction_rule_proba (a := ⟨x, .plain y, c.smpls, c.paramsOf l, .proba, false, c.wantModels⟩)
      hL rfl rfl hy hS.partition h q hq i hi ⟨h0, h1⟩).2

theorem FoldRule.trim {c : CellIn n P} {l : String} {L : Learner P (List Cell)} {m : Method} {on : Fin n → Prop}
    [DecidablePred on] {x : Fin n → List Cell} {y : Fin n → ℝ} {r : CvRes n P (List Cell)} (t : ℝ)
    (h : FoldRule c l L m on x y id r.preds) : FoldRule c l L m on x y (trim t) (trimRes t r).preds := by
  intro q hq i hi hc
  show (r.preds i).map (DML.trim t) = _
  rw [h q hq i hi hc, Option.map_id, id]

/-! ## What a successful cell looks like -/

theorem irmEst_ok {k : IrmClass n P} {c : CellIn n P} {o : LinOut n P} (h : irmEst k c = .ok o) :
    ∃ g0 g1 m w, irmG0 k c = .ok g0 ∧ irmG1 k c = .ok g1 ∧ irmCheck1 k c g1.preds = .ok () ∧ propM k.ml_m c c.d = .ok m ∧
      irmWeights k c (adjust k.normalize (trimRes k.trimT m).vec c.d) = .ok w ∧
      o.fit = (irmElems c.y c.d g0.vec g1.vec (adjust k.normalize (trimRes k.trimT m).vec c.d) w.1 w.2).fit c.cluster ∧
      o.preds = [("ml_g0", g0.preds), ("ml_g1", g1.preds), ("ml_m", (trimRes k.trimT m).preds)] ∧
      o.targets = [("ml_g0", g0.targets), ("ml_g1", g1.targets), ("ml_m", m.targets)] := by
  obtain ⟨g0, h0, h⟩ := bind_ok h
  obtain ⟨g1, h1, h⟩ := bind_ok h
  obtain ⟨_, h2, h⟩ := bind_ok h
  obtain ⟨m, h3, h⟩ := bind_ok h
  obtain ⟨w, h4, h⟩ := bind_ok h
  obtain rfl := Except.ok.inj h
  exact ⟨g0, g1, m, w, h0, h1, h2, h3, h4, rfl, rfl, rfl⟩

theorem apoEst_ok {k : ApoClass n P} {c : CellIn n P} {o : LinOut n P} (h : apoEst k c = .ok o) :
    ∃ g1 g0 m w, apoG1 k c = .ok g1 ∧ checkOut c g1.preds = .ok () ∧ apoG0 k c = .ok g0 ∧ checkOut c g0.preds = .ok () ∧
      apoM k c = .ok m ∧ (k.weights.at c.rep : Except Exc ((Fin n → ℝ) × (Fin n → ℝ))) = .ok w ∧
      o.fit = (apoElems k.normalize c.y (k.treated c) g1.vec (trimRes k.trimT m).vec w.1 w.2).fit c.cluster ∧
      o.preds = [("ml_g_d_lvl0", g0.preds), ("ml_g_d_lvl1", g1.preds), ("ml_m", (trimRes k.trimT m).preds)] ∧
      o.targets = [("ml_g_d_lvl0", g0.targets), ("ml_g_d_lvl1", g1.targets), ("ml_m", m.targets)] := by
  obtain ⟨g1, h0, h⟩ := bind_ok h
  obtain ⟨_, h1, h⟩ := bind_ok h
  obtain ⟨g0, h2, h⟩ := bind_ok h
  obtain ⟨_, h3, h⟩ := bind_ok h
  obtain ⟨m, h4, h⟩ := bind_ok h
  obtain ⟨w, h5, h⟩ := bind_ok h
  obtain rfl := Except.ok.inj h
  exact ⟨g1, g0, m, w, h0, h1, h2, h3, h4, h5, rfl, rfl, rfl⟩

theorem iivmEst_ok {k : IivmClass n P} {c : CellIn n P} {o : LinOut n P} (h : iivmEst k c = .ok o) :
    ∃ z g0 g1 m r0 r1, c.instr = .ok z ∧ iivmG k c z "ml_g0" 0 = .ok g0 ∧ checkOut c g0.preds = .ok () ∧
      iivmG k c z "ml_g1" 1 = .ok g1 ∧ checkOut c g1.preds = .ok () ∧ propM k.ml_m c z = .ok m ∧
      iivmR k c z "ml_r0" 0 k.alwaysTakers = .ok r0 ∧ iivmR k c z "ml_r1" 1 k.neverTakers = .ok r1 ∧
      o.fit = (iivmElems k.normalize c.y z c.d g0.vec g1.vec (trimRes k.trimT m).vec r0.vec r1.vec).fit c.cluster ∧
      o.preds = [("ml_g0", g0.preds), ("ml_g1", g1.preds), ("ml_m", (trimRes k.trimT m).preds), ("ml_r0", r0.preds),
        ("ml_r1", r1.preds)] ∧
      o.targets = [("ml_g0", g0.targets), ("ml_g1", g1.targets), ("ml_m", m.targets), ("ml_r0", r0.targets),
        ("ml_r1", r1.targets)] := by
  obtain ⟨z, h0, h⟩ := bind_ok h
  obtain ⟨g0, h1, h⟩ := bind_ok h
  obtain ⟨_, h2, h⟩ := bind_ok h
  obtain ⟨g1, h3, h⟩ := bind_ok h
  obtain ⟨_, h4, h⟩ := bind_ok h
  obtain ⟨m, h5, h⟩ := bind_ok h
  obtain ⟨r0, h6, h⟩ := bind_ok h
  obtain ⟨r1, h7, h⟩ := bind_ok h
  obtain rfl := Except.ok.inj h
  exact ⟨z, g0, g1, m, r0, r1, h0, h1, h2, h3, h4, h5, h6, h7, rfl, rfl, rfl⟩

theorem didEst_ok {k : DidClass n P} {c : CellIn n P} {o : LinOut n P} (h : didEst k c = .ok o) :
    ∃ g0 g1 m, didG k c "ml_g0" 0 = .ok g0 ∧ didG k c "ml_g1" 1 = .ok g1 ∧ didM k c = .ok m ∧
      o.fit = (didElems k.score k.normalize c.y c.d g0.vec g1.vec m.vec (shareOf c.d c.smpls)).fit c.cluster ∧
      o.preds = [("ml_g0", g0.preds), ("ml_g1", g1.preds), ("ml_m", m.preds)] ∧
      o.targets = [("ml_g0", g0.targets), ("ml_g1", g1.targets), ("ml_m", m.targets)] := by
  obtain ⟨g0, h0, h⟩ := bind_ok h
  obtain ⟨g1, h1, h⟩ := bind_ok h
  obtain ⟨m, h2, h⟩ := bind_ok h
  obtain rfl := Except.ok.inj h
  exact ⟨g0, g1, m, h0, h1, h2, rfl, rfl, rfl⟩

theorem csEst_ok {k : DidClass n P} {c : CellIn n P} {o : LinOut n P} (h : csEst k c = .ok o) :
    ∃ t g00 g01 g10 g11 m, c.time = .ok t ∧ csG k c t "ml_g_d0_t0" 0 0 = .ok g00 ∧ csG k c t "ml_g_d0_t1" 0 1 = .ok g01 ∧
      csG k c t "ml_g_d1_t0" 1 0 = .ok g10 ∧ csG k c t "ml_g_d1_t1" 1 1 = .ok g11 ∧ didM k c = .ok m ∧
      o.preds = [("ml_g_d0_t0", g00.preds), ("ml_g_d0_t1", g01.preds), ("ml_g_d1_t0", g10.preds),
        ("ml_g_d1_t1", g11.preds), ("ml_m", m.preds)] ∧
      o.targets = [("ml_g_d0_t0", g00.targets), ("ml_g_d0_t1", g01.targets), ("ml_g_d1_t0", g10.targets),
        ("ml_g_d1_t1", g11.targets), ("ml_m", m.targets)] := by
  obtain ⟨t, h0, h⟩ := bind_ok h
  obtain ⟨g00, h1, h⟩ := bind_ok h
  obtain ⟨g01, h2, h⟩ := bind_ok h
  obtain ⟨g10, h3, h⟩ := bind_ok h
  obtain ⟨g11, h4, h⟩ := bind_ok h
  obtain ⟨m, h5, h⟩ := bind_ok h
  obtain rfl := Except.ok.inj h
  exact ⟨t, g00, g01, g10, g11, m, h0, h1, h2, h3, h4, h5, rfl, rfl⟩

theorem ssmEst_ok {k : SsmClass n P} {c : CellIn n P} {o : LinOut n P} (h : ssmEst k c = .ok o) :
    ∃ s pi m g1 g0, c.sel = .ok s ∧ crossFit k.ml_pi .proba c "ml_pi" c.xd s c.smpls = .ok pi ∧
      crossFit k.ml_m .proba c "ml_m" (rowX c.data) c.d c.smpls = .ok m ∧
      crossFit k.ml_g (methodOf k.gClassifier) c "ml_g_d1" (rowX c.data) c.y
        (condSmpls (fun i => c.d i = 1 ∧ s i = 1) c.smpls) = .ok g1 ∧
      crossFit k.ml_g (methodOf k.gClassifier) c "ml_g_d0" (rowX c.data) c.y
        (condSmpls (fun i => c.d i = 0 ∧ s i = 1) c.smpls) = .ok g0 ∧ c.cluster = none ∧
      o.preds = [("ml_g_d0", g0.preds), ("ml_g_d1", g1.preds), ("ml_pi", pi.preds), ("ml_m", (trimRes k.trimT m).preds)] ∧
      o.targets = [("ml_g_d0", g0.targets), ("ml_g_d1", g1.targets), ("ml_pi", pi.targets), ("ml_m", m.targets)] := by
  obtain ⟨s, h0, h⟩ := bind_ok h
  obtain ⟨pi, h1, h⟩ := bind_ok h
  obtain ⟨m, h2, h⟩ := bind_ok h
  obtain ⟨g1, h3, h⟩ := bind_ok h
  obtain ⟨g0, h4, h⟩ := bind_ok h
  obtain ⟨_, h5, h⟩ := bind_ok h
  obtain rfl := Except.ok.inj h
  refine ⟨s, pi, m, g1, g0, h0, ssmPart_ok h1, ssmPart_ok h2, ssmPart_ok h3, ssmPart_ok h4, ?_, rfl, rfl⟩
  unfold ssmCluster at h5
  cases hc : c.cluster with
  | none => rfl
  | some q => rw [hc] at h5; cases h5

theorem plivEst_ok {k : PlivClass n P} {c : CellIn n P} {o : LinOut n P} (h : plivEst k c = .ok o) :
    ∃ l z m r g, plivPart k.ml_l c "ml_l" c.y = .ok l ∧ c.instr = .ok z ∧ plivPart k.ml_m c "ml_m" z = .ok m ∧
      plivPart k.ml_r c "ml_r" c.d = .ok r ∧ plivG k c z l m r = .ok g ∧
      o.fit = (plivElems k.iv c.y z c.d l.vec m.vec r.vec g.vec).fit c.cluster ∧
      o.preds = [("ml_l", l.preds), ("ml_m", m.preds), ("ml_r", r.preds), ("ml_g", g.preds)] ∧
      o.targets = [("ml_l", l.targets), ("ml_m", m.targets), ("ml_r", r.targets), ("ml_g", g.targets)] := by
  obtain ⟨l, h0, h⟩ := bind_ok h
  obtain ⟨z, h1, h⟩ := bind_ok h
  obtain ⟨m, h2, h⟩ := bind_ok h
  obtain ⟨r, h3, h⟩ := bind_ok h
  obtain ⟨g, h4, h⟩ := bind_ok h
  obtain rfl := Except.ok.inj h
  exact ⟨l, z, m, r, g, h0, h1, h2, h3, h4, rfl, rfl, rfl⟩

/-! ## C29: a second fit reproduces the first one -/

theorem bind_forget {α M : Type} {a : Except Exc α} {f g : α → Except Exc (CellOut n M)}
    (h : ∀ v, (f v).map CellOut.forget = (g v).map CellOut.forget) :
    (a >>= f).map CellOut.forget = (a >>= g).map CellOut.forget := by
  cases a with
  | error e => rfl
  | ok v => exact h v

theorem irm_startFree (k : IrmClass n P) : StartFree (irmSpec k) := by
  intro c x
  show (irmEst k { c with start := x }).map _ = (irmEst k c).map _
  unfold irmEst
  exact bind_forget fun _ => bind_forget fun _ => bind_forget fun _ => bind_forget fun _ => bind_forget fun _ => rfl

theorem apo_startFree (k : ApoClass n P) : StartFree (apoSpec k) := by
  intro c x
  show (apoEst k { c with start := x }).map _ = (apoEst k c).map _
  unfold apoEst
  exact bind_forget fun _ => bind_forget fun _ => bind_forget fun _ => bind_forget fun _ => bind_forget fun _ =>
    bind_forget fun _ => rfl

theorem iivm_startFree (k : IivmClass n P) : StartFree (iivmSpec k) := by
  intro c x
  show (iivmEst k { c with start := x }).map _ = (iivmEst k c).map _
  unfold iivmEst
  exact bind_forget fun _ => bind_forget fun _ => bind_forget fun _ => bind_forget fun _ => bind_forget fun _ =>
    bind_forget fun _ => bind_forget fun _ => bind_forget fun _ => rfl

theorem did_startFree (k : DidClass n P) : StartFree (didSpec k) := by
  intro c x
  show (didEst k { c with start := x }).map _ = (didEst k c).map _
  unfold didEst
  exact bind_forget fun _ => bind_forget fun _ => bind_forget fun _ => rfl

theorem cs_startFree (k : DidClass n P) : StartFree (csSpec k) := by
  intro c x
  show (csEst k { c with start := x }).map _ = (csEst k c).map _
  unfold csEst
  exact bind_forget fun _ => bind_forget fun _ => bind_forget fun _ => bind_forget fun _ => bind_forget fun _ =>
    bind_forget fun _ => rfl

theorem ssm_startFree (k : SsmClass n P) : StartFree (ssmSpec k) := by
  intro c x
  show (ssmEst k { c with start := x }).map _ = (ssmEst k c).map _
  unfold ssmEst
  exact bind_forget fun _ => bind_forget fun _ => bind_forget fun _ => bind_forget fun _ => bind_forget fun _ =>
    bind_forget fun _ => rfl

theorem pliv_startFree (k : PlivClass n P) : StartFree (plivSpec k) := by
  intro c x
  show (plivEst k { c with start := x }).map _ = (plivEst k c).map _
  unfold plivEst
  exact bind_forget fun _ => bind_forget fun _ => bind_forget fun _ => bind_forget fun _ => bind_forget fun _ => rfl

theorem plivMulti_startFree (k : PlivClass n P) (zs : List String) : StartFree (plivMultiSpec k zs) := by
  intro c x
  show (plivMultiEst k { c with start := x }).map _ = (plivMultiEst k c).map _
  unfold plivMultiEst
  exact bind_forget fun _ => bind_forget fun _ => bind_forget fun _ => rfl

theorem plivZ_startFree (k : PlivClass n P) : StartFree (plivZSpec k) := by
  intro c x
  show (plivZEst k { c with start := x }).map _ = (plivZEst k c).map _
  unfold plivZEst
  exact bind_forget fun _ => rfl

theorem plivXZ_startFree (k : PlivClass n P) : StartFree (plivXZSpec k) := by
  intro c x
  show (plivXZEst k { c with start := x }).map _ = (plivXZEst k c).map _
  unfold plivXZEst
  exact bind_forget fun _ => bind_forget fun _ => bind_forget fun _ => rfl

/-- The model classes with a linear score. -/
inductive LinearScoreClass : LinSpec n P → Prop
  | plr (k : PlrClass n P) : LinearScoreClass (plrSpec k)
  | irm (k : IrmClass n P) : LinearScoreClass (irmSpec k)
  | apo (k : ApoClass n P) : LinearScoreClass (apoSpec k)
  | iivm (k : IivmClass n P) : LinearScoreClass (iivmSpec k)
  | did (k : DidClass n P) : LinearScoreClass (didSpec k)
  | didCs (k : DidClass n P) : LinearScoreClass (csSpec k)
  | ssm (k : SsmClass n P) : LinearScoreClass (ssmSpec k)
  | pliv (k : PlivClass n P) : LinearScoreClass (plivSpec k)
  | plivMulti (k : PlivClass n P) (zs : List String) : LinearScoreClass (plivMultiSpec k zs)
  | plivZ (k : PlivClass n P) : LinearScoreClass (plivZSpec k)
  | plivXZ (k : PlivClass n P) : LinearScoreClass (plivXZSpec k)

theorem LinearScoreClass.startFree {sp : LinSpec n P} (h : LinearScoreClass sp) : StartFree sp := by
  cases h with
  | plr k => exact plr_startFree k
  | irm k => exact irm_startFree k
  | apo k => exact apo_startFree k
  | iivm k => exact iivm_startFree k
  | did k => exact did_startFree k
  | didCs k => exact cs_startFree k
  | ssm k => exact ssm_startFree k
  | pliv k => exact pliv_startFree k
  | plivMulti k zs => exact plivMulti_startFree k zs
  | plivZ k => exact plivZ_startFree k
  | plivXZ k => exact plivXZ_startFree k

/-- **C29** for every model class with a linear score: after any calls that leave data, split and settings alone,
`fit` succeeds or fails as it would have before, and reproduces all results. -/
theorem C29_linear_classes (E : Ext) (F : Frame n) {sp : LinSpec n P} (hsp : LinearScoreClass sp)
    {s : MState n P (Option (List (FittedModel P (List Cell))))} (hs : WF s)
    (os : List (MOp n P)) (ho : ∀ o ∈ os, o.calm = true) (a : FitArgs) {p m : Bool} (hp : a.storePredictions = .bool p)
    (hm : a.storeModels = .bool m) :
    (fit F sp (mrun E F sp s os) a).2 = (fit F sp s a).2 ∧
      ((fit F sp s a).2 = .ok () →
        SameResults sp p m (fit F sp s a).1 (fit F sp (mrun E F sp s os) a).1 ∧
        ∀ q : ∀ r, Op n r, (infer E (fit F sp (mrun E F sp s os) a).1 q).2 = (infer E (fit F sp s a).1 q).2) :=
  C29_refit E F hsp.startFree hs os ho a hp hm

/-! ## C26, C27: which observations train which nuisance -/

/-- The prediction stored under `l` is the one of `L` fitted on the training observations in `on`. -/
def Stores (c : CellIn n P) (o : LinOut n P) (l : String) (L : Learner P (List Cell)) (m : Method) (on : Fin n → Prop)
    [DecidablePred on] (x : Fin n → List Cell) (y : Fin n → ℝ) (post : ℝ → ℝ) : Prop :=
  ∃ p, lookupKey l o.preds = some p ∧ FoldRule c l L m on x y post p

theorem condLearn_rule {L : Learner P (List Cell)} {m : Method} {c : CellIn n P} {l : String} {x : Fin n → List Cell}
    {y : Fin n → ℝ} {on keep : Fin n → Prop} [DecidablePred on] [DecidablePred keep] {r : CvRes n P (List Cell)}
    (hS : SplitOk c.smpls) (h : condLearn L m c l x y on keep = .ok r) : FoldRule c l L m on x y id r.preds := by
  obtain ⟨r', h1, rfl⟩ := condLearn_ok h
  have := crossFit_cond hS h1
  exact this

theorem propM_rule {L : Learner P (List Cell)} {c : CellIn n P} {y : Fin n → ℝ} {r : CvRes n P (List Cell)} (t : ℝ)
    (hS : SplitOk c.smpls) (he : c.extOf "ml_m" = none) (h : propM L c y = .ok r) :
    FoldRule c "ml_m" L .proba (fun _ => True) (rowX c.data) y (trim t) (trimRes t r).preds := by
  unfold propM at h
  rw [he] at h
  exact (crossFit_plain hS (learn_ok h)).trim t

/-- **C27, IRM.** `g(0, X)` is trained on the untreated, `g(1, X)` on the treated training observations, the
propensity on all of them; predictions are made for all test observations. -/
theorem C27_irm {k : IrmClass n P} {c : CellIn n P} {o : LinOut n P} (hS : SplitOk c.smpls) (h : (irmSpec k).est c = .ok o) :
    (c.extOf "ml_g0" = none → Stores c o "ml_g0" k.ml_g (methodOf k.gClassifier) (fun i => c.d i = 0) (rowX c.data) c.y id) ∧
    (c.extOf "ml_g1" = none → Stores c o "ml_g1" k.ml_g (methodOf k.gClassifier) (fun i => c.d i = 1) (rowX c.data) c.y id) ∧
    (c.extOf "ml_m" = none → Stores c o "ml_m" k.ml_m .proba (fun _ => True) (rowX c.data) c.d (trim k.trimT)) := by
  obtain ⟨g0, g1, m, w, h0, h1, h2, h3, h4, -, hp, -⟩ := irmEst_ok h
  refine ⟨fun he => ⟨_, by rw [hp]; rfl, ?_⟩, fun he => ⟨_, by rw [hp]; rfl, ?_⟩, fun he => ⟨_, by rw [hp]; rfl, propM_rule _ hS he h3⟩⟩
  · unfold irmG0 at h0
    rw [he] at h0
    obtain ⟨r, hr, h0⟩ := bind_ok h0
    obtain ⟨_, _, h0⟩ := bind_ok h0
    rw [← Except.ok.inj h0]
    exact condLearn_rule hS hr
  · unfold irmG1 at h1
    rw [he] at h1
    exact condLearn_rule hS h1

/-- **C27, APO.** The outcome of the level is learned from the training observations with that level; the outcome of
the other levels from the remaining ones, with the treatment as an additional covariate. -/
theorem C27_apo {k : ApoClass n P} {c : CellIn n P} {o : LinOut n P} (hS : SplitOk c.smpls) (h : (apoSpec k).est c = .ok o) :
    (c.extOf "ml_g_d_lvl1" = none →
      Stores c o "ml_g_d_lvl1" k.ml_g (methodOf k.gClassifier) (fun i => c.d i = k.level) (rowX c.data) c.y id) ∧
    (c.extOf "ml_g_d_lvl0" = none →
      Stores c o "ml_g_d_lvl0" k.ml_g (methodOf k.gClassifier) (fun i => c.d i ≠ k.level) c.dx c.y id) ∧
    (c.extOf "ml_m" = none →
      Stores c o "ml_m" k.ml_m .proba (fun _ => True) (rowX c.data) (k.treated c) (trim k.trimT)) := by
  have e1 : (fun i => decide (k.treated c i = 1)) = fun i => decide (c.d i = k.level) := by
    funext i; unfold ApoClass.treated; by_cases hd : c.d i = k.level <;> simp [hd]
  have e0 : (fun i => decide (k.treated c i = 0)) = fun i => decide (c.d i ≠ k.level) := by
    funext i; unfold ApoClass.treated; by_cases hd : c.d i = k.level <;> simp [hd]
  obtain ⟨g1, g0, m, w, h1, -, h0, -, h3, h4, -, hp, -⟩ := apoEst_ok h
  refine ⟨fun he => ⟨_, by rw [hp]; rfl, ?_⟩, fun he => ⟨_, by rw [hp]; rfl, ?_⟩, fun he => ⟨_, by rw [hp]; rfl, ?_⟩⟩
  · unfold apoG1 at h1
    rw [he] at h1
    have := condLearn_rule hS h1
    unfold FoldRule at this ⊢
    rw [e1] at this
    exact this
  · unfold apoG0 at h0
    rw [he] at h0
    have := condLearn_rule hS h0
    unfold FoldRule at this ⊢
    rw [e0] at this
    exact this
  · unfold apoM at h3
    rw [he] at h3
    exact (crossFit_plain hS (learn_ok h3)).trim _

/-- **C27, IIVM.** Outcome and treatment regressions are trained on the training observations with instrument 0
(1, respectively). -/
theorem C27_iivm {k : IivmClass n P} {c : CellIn n P} {o : LinOut n P} (hS : SplitOk c.smpls) (h : (iivmSpec k).est c = .ok o) :
    ∃ z, c.instr = .ok z ∧
    (c.extOf "ml_g0" = none → Stores c o "ml_g0" k.ml_g (methodOf k.gClassifier) (fun i => z i = 0) (rowX c.data) c.y id) ∧
    (c.extOf "ml_g1" = none → Stores c o "ml_g1" k.ml_g (methodOf k.gClassifier) (fun i => z i = 1) (rowX c.data) c.y id) ∧
    (c.extOf "ml_m" = none → Stores c o "ml_m" k.ml_m .proba (fun _ => True) (rowX c.data) z (trim k.trimT)) ∧
    (k.alwaysTakers = true → c.extOf "ml_r0" = none →
      Stores c o "ml_r0" k.ml_r .proba (fun i => z i = 0) (rowX c.data) c.d id) ∧
    (k.neverTakers = true → c.extOf "ml_r1" = none →
      Stores c o "ml_r1" k.ml_r .proba (fun i => z i = 1) (rowX c.data) c.d id) := by
  obtain ⟨z, g0, g1, m, r0, r1, hz, h0, -, h1, -, h3, h4, h5, -, hp, -⟩ := iivmEst_ok h
  have hG : ∀ {l v g}, iivmG k c z l v = .ok g → c.extOf l = none →
      FoldRule c l k.ml_g (methodOf k.gClassifier) (fun i => z i = v) (rowX c.data) c.y id g.preds := by
    intro l v g hg he
    unfold iivmG at hg
    rw [he] at hg
    exact condLearn_rule hS hg
  have hR : ∀ {l v g}, iivmR k c z l v true = .ok g → c.extOf l = none →
      FoldRule c l k.ml_r .proba (fun i => z i = v) (rowX c.data) c.d id g.preds := by
    intro l v g hg he
    obtain ⟨r, hr, hg⟩ := bind_ok hg
    unfold iivmRRaw at hr
    unfold iivmRTail at hg
    rw [if_pos rfl, he] at hr
    rw [he] at hg
    obtain ⟨_, _, hg⟩ := bind_ok hg
    rw [← Except.ok.inj hg]
    have := crossFit_cond hS hr
    exact this
  refine ⟨z, hz, fun he => ⟨_, by rw [hp]; rfl, hG h0 he⟩, fun he => ⟨_, by rw [hp]; rfl, hG h1 he⟩,
    fun he => ⟨_, by rw [hp]; rfl, propM_rule _ hS he h3⟩, fun ha he => ⟨_, by rw [hp]; rfl, ?_⟩,
    fun ha he => ⟨_, by rw [hp]; rfl, ?_⟩⟩
  · rw [ha] at h4; exact hR h4 he
  · rw [ha] at h5; exact hR h5 he

theorem didM_rule {k : DidClass n P} {c : CellIn n P} {m : CvRes n P (List Cell)} (hS : SplitOk c.smpls)
    (ho : k.score = .observational) (he : c.extOf "ml_m" = none) (h : didM k c = .ok m) :
    FoldRule c "ml_m" k.ml_m .proba (fun _ => True) (rowX c.data) c.d (trim k.trimT) m.preds := by
  unfold didM at h
  rw [ho] at h
  obtain ⟨r, hr, h⟩ := bind_ok h
  rw [← Except.ok.inj h]
  exact propM_rule _ hS he hr

/-- **C27, DID.** -/
theorem C27_did {k : DidClass n P} {c : CellIn n P} {o : LinOut n P} (hS : SplitOk c.smpls) (h : (didSpec k).est c = .ok o) :
    (c.extOf "ml_g0" = none → Stores c o "ml_g0" k.ml_g (methodOf k.gClassifier) (fun i => c.d i = 0) (rowX c.data) c.y id) ∧
    (c.extOf "ml_g1" = none → Stores c o "ml_g1" k.ml_g (methodOf k.gClassifier) (fun i => c.d i = 1) (rowX c.data) c.y id) ∧
    (k.score = .observational → c.extOf "ml_m" = none →
      Stores c o "ml_m" k.ml_m .proba (fun _ => True) (rowX c.data) c.d (trim k.trimT)) := by
  obtain ⟨g0, g1, m, h0, h1, h2, -, hp, -⟩ := didEst_ok h
  have hG : ∀ {l v g}, didG k c l v = .ok g → c.extOf l = none →
      FoldRule c l k.ml_g (methodOf k.gClassifier) (fun i => c.d i = v) (rowX c.data) c.y id g.preds := by
    intro l v g hg he
    unfold didG at hg
    rw [he] at hg
    exact condLearn_rule hS hg
  exact ⟨fun he => ⟨_, by rw [hp]; rfl, hG h0 he⟩, fun he => ⟨_, by rw [hp]; rfl, hG h1 he⟩,
    fun ho he => ⟨_, by rw [hp]; rfl, didM_rule hS ho he h2⟩⟩

/-- **C27, DIDCS.** One outcome regression per combination of treatment and time, each trained on its own cell. -/
theorem C27_didcs {k : DidClass n P} {c : CellIn n P} {o : LinOut n P} (hS : SplitOk c.smpls) (h : (csSpec k).est c = .ok o) :
    ∃ t, c.time = .ok t ∧
    (∀ l v w, (l, v, w) ∈ [("ml_g_d0_t0", (0 : ℝ), (0 : ℝ)), ("ml_g_d0_t1", 0, 1), ("ml_g_d1_t0", 1, 0), ("ml_g_d1_t1", 1, 1)] →
      c.extOf l = none →
      Stores c o l k.ml_g (methodOf k.gClassifier) (fun i => c.d i = v ∧ t i = w) (rowX c.data) c.y id) ∧
    (k.score = .observational → c.extOf "ml_m" = none →
      Stores c o "ml_m" k.ml_m .proba (fun _ => True) (rowX c.data) c.d (trim k.trimT)) := by
  obtain ⟨t, g00, g01, g10, g11, m, ht, h0, h1, h2, h3, h4, hp, -⟩ := csEst_ok h
  have hG : ∀ {l v w g}, csG k c t l v w = .ok g → c.extOf l = none →
      FoldRule c l k.ml_g (methodOf k.gClassifier) (fun i => c.d i = v ∧ t i = w) (rowX c.data) c.y id g.preds := by
    intro l v w g hg he
    unfold csG at hg
    rw [he] at hg
    obtain ⟨r, hr, hg⟩ := bind_ok hg
    rw [← Except.ok.inj hg]
    have := crossFit_cond hS hr
    exact this
  refine ⟨t, ht, fun l v w hm he => ?_, fun ho he => ⟨_, by rw [hp]; rfl, didM_rule hS ho he h4⟩⟩
  simp only [List.mem_cons, Prod.mk.injEq, List.not_mem_nil, or_false] at hm
  rcases hm with ⟨rfl, rfl, rfl⟩ | ⟨rfl, rfl, rfl⟩ | ⟨rfl, rfl, rfl⟩ | ⟨rfl, rfl, rfl⟩
  · exact ⟨_, by rw [hp]; rfl, hG h0 he⟩
  · exact ⟨_, by rw [hp]; rfl, hG h1 he⟩
  · exact ⟨_, by rw [hp]; rfl, hG h2 he⟩
  · exact ⟨_, by rw [hp]; rfl, hG h3 he⟩

/-- **C27, SSM** (missing at random). The outcome regressions are trained on the selected observations of the treatment
group, the selection probability on all observations with the treatment as an additional covariate. -/
theorem C27_ssm {k : SsmClass n P} {c : CellIn n P} {o : LinOut n P} (hS : SplitOk c.smpls) (h : (ssmSpec k).est c = .ok o) :
    ∃ s, c.sel = .ok s ∧
    Stores c o "ml_g_d0" k.ml_g (methodOf k.gClassifier) (fun i => c.d i = 0 ∧ s i = 1) (rowX c.data) c.y id ∧
    Stores c o "ml_g_d1" k.ml_g (methodOf k.gClassifier) (fun i => c.d i = 1 ∧ s i = 1) (rowX c.data) c.y id ∧
    Stores c o "ml_pi" k.ml_pi .proba (fun _ => True) c.xd s id ∧
    Stores c o "ml_m" k.ml_m .proba (fun _ => True) (rowX c.data) c.d (trim k.trimT) := by
  obtain ⟨s, pi, m, g1, g0, hs, h1, h2, h3, h4, -, hp, -⟩ := ssmEst_ok h
  exact ⟨s, hs, ⟨_, by rw [hp]; rfl, crossFit_cond hS h4⟩, ⟨_, by rw [hp]; rfl, crossFit_cond hS h3⟩,
    ⟨_, by rw [hp]; rfl, crossFit_plain hS h1⟩, ⟨_, by rw [hp]; rfl, (crossFit_plain hS h2).trim _⟩⟩

theorem plivPart_rule {L : Learner P (List Cell)} {c : CellIn n P} {l : String} {y : Fin n → ℝ} {r : CvRes n P (List Cell)}
    (hS : SplitOk c.smpls) (he : c.extOf l = none) (h : plivPart L c l y = .ok r) :
    FoldRule c l L .predict (fun _ => True) (rowX c.data) y id r.preds := by
  unfold plivPart at h
  rw [he] at h
  exact crossFit_plain hS (learn_ok h)

/-- **C26, PLIV** with one instrument: outcome, instrument and treatment are predicted out of fold. -/
theorem C26_pliv {k : PlivClass n P} {c : CellIn n P} {o : LinOut n P} (hS : SplitOk c.smpls) (h : (plivSpec k).est c = .ok o) :
    ∃ z, c.instr = .ok z ∧
    (c.extOf "ml_l" = none → Stores c o "ml_l" k.ml_l .predict (fun _ => True) (rowX c.data) c.y id) ∧
    (c.extOf "ml_m" = none → Stores c o "ml_m" k.ml_m .predict (fun _ => True) (rowX c.data) z id) ∧
    (c.extOf "ml_r" = none → Stores c o "ml_r" k.ml_r .predict (fun _ => True) (rowX c.data) c.d id) ∧
    (k.iv = true → c.extOf "ml_g" = none → ∃ theta : ℝ,
      Stores c o "ml_g" k.ml_g .predict (fun _ => True) (rowX c.data) (fun i => c.y i - theta * c.d i) id) := by
  obtain ⟨l, z, m, r, g, h0, hz, h1, h2, h3, -, hp, -⟩ := plivEst_ok h
  refine ⟨z, hz, fun he => ⟨_, by rw [hp]; rfl, plivPart_rule hS he h0⟩, fun he => ⟨_, by rw [hp]; rfl, plivPart_rule hS he h1⟩,
    fun he => ⟨_, by rw [hp]; rfl, plivPart_rule hS he h2⟩, fun hiv he => ?_⟩
  unfold plivG at h3
  rw [if_pos hiv] at h3
  exact ⟨_, _, by rw [hp]; rfl, plivPart_rule hS he h3⟩

/-! ## C28: external predictions -/

/-- If an external prediction is given for `l`, the prediction that is stored and used under `l` is this one, after
`post`. -/
def ExtUsed (sp : LinSpec n P) (l : String) (post : ℝ → ℝ) : Prop :=
  ∀ c o e, sp.est c = .ok o → c.extOf l = some e → lookupKey l o.preds = some fun i => some (post (e i))

/-- **C28, IRM.** -/
theorem C28_irm (k : IrmClass n P) : ExtUsed (irmSpec k) "ml_g0" id ∧ ExtUsed (irmSpec k) "ml_g1" id ∧
    ExtUsed (irmSpec k) "ml_m" (trim k.trimT) := by
  refine ⟨fun c o e h he => ?_, fun c o e h he => ?_, fun c o e h he => ?_⟩ <;>
    obtain ⟨g0, g1, m, w, h0, h1, h2, h3, h4, -, hp, -⟩ := irmEst_ok h <;> rw [hp]
  · unfold irmG0 at h0; rw [he] at h0; obtain rfl := Except.ok.inj h0; rfl
  · unfold irmG1 at h1; rw [he] at h1; obtain rfl := Except.ok.inj h1; rfl
  · unfold propM at h3; rw [he] at h3; obtain rfl := Except.ok.inj h3; rfl

/-- **C28, APO.** -/
theorem C28_apo (k : ApoClass n P) : ExtUsed (apoSpec k) "ml_g_d_lvl0" id ∧ ExtUsed (apoSpec k) "ml_g_d_lvl1" id ∧
    ExtUsed (apoSpec k) "ml_m" (trim k.trimT) := by
  refine ⟨fun c o e h he => ?_, fun c o e h he => ?_, fun c o e h he => ?_⟩ <;>
    obtain ⟨g1, g0, m, w, h1, -, h0, -, h3, h4, -, hp, -⟩ := apoEst_ok h <;> rw [hp]
  · unfold apoG0 at h0; rw [he] at h0; obtain rfl := Except.ok.inj h0; rfl
  · unfold apoG1 at h1; rw [he] at h1; obtain rfl := Except.ok.inj h1; rfl
  · unfold apoM at h3; rw [he] at h3; obtain rfl := Except.ok.inj h3; rfl

/-- **C28, DID.** -/
theorem C28_did (k : DidClass n P) : ExtUsed (didSpec k) "ml_g0" id ∧ ExtUsed (didSpec k) "ml_g1" id ∧
    (k.score = .observational → ExtUsed (didSpec k) "ml_m" (trim k.trimT)) := by
  refine ⟨fun c o e h he => ?_, fun c o e h he => ?_, fun hs c o e h he => ?_⟩ <;>
    obtain ⟨g0, g1, m, h0, h1, h2, -, hp, -⟩ := didEst_ok h <;> rw [hp]
  · unfold didG at h0; rw [he] at h0; obtain rfl := Except.ok.inj h0; rfl
  · unfold didG at h1; rw [he] at h1; obtain rfl := Except.ok.inj h1; rfl
  · unfold didM at h2
    rw [hs] at h2
    obtain ⟨r, hr, h2⟩ := bind_ok h2
    unfold propM at hr; rw [he] at hr; obtain rfl := Except.ok.inj hr
    obtain rfl := Except.ok.inj h2; rfl

/-- **C28, DIDCS.** -/
theorem C28_didcs (k : DidClass n P) :
    (∀ l ∈ ["ml_g_d0_t0", "ml_g_d0_t1", "ml_g_d1_t0", "ml_g_d1_t1"], ExtUsed (csSpec k) l id) ∧
    (k.score = .observational → ExtUsed (csSpec k) "ml_m" (trim k.trimT)) := by
  refine ⟨fun l hl c o e h he => ?_, fun hs c o e h he => ?_⟩ <;>
    obtain ⟨t, g00, g01, g10, g11, m, ht, h0, h1, h2, h3, h4, hp, -⟩ := csEst_ok h <;> rw [hp]
  · simp only [List.mem_cons, List.not_mem_nil, or_false] at hl
    rcases hl with rfl | rfl | rfl | rfl
    · unfold csG at h0; rw [he] at h0; obtain rfl := Except.ok.inj h0; rfl
    · unfold csG at h1; rw [he] at h1; obtain rfl := Except.ok.inj h1; rfl
    · unfold csG at h2; rw [he] at h2; obtain rfl := Except.ok.inj h2; rfl
    · unfold csG at h3; rw [he] at h3; obtain rfl := Except.ok.inj h3; rfl
  · unfold didM at h4
    rw [hs] at h4
    obtain ⟨r, hr, h4⟩ := bind_ok h4
    unfold propM at hr; rw [he] at hr; obtain rfl := Except.ok.inj hr
    obtain rfl := Except.ok.inj h4; rfl

/-- **C28, PLR.** -/
theorem C28_plr (k : PlrClass n P) : ExtUsed (plrSpec k) "ml_l" id ∧ ExtUsed (plrSpec k) "ml_m" id ∧
    (k.iv = true → ExtUsed (plrSpec k) "ml_g" id) := by
  have key : ∀ {c : CellIn n P} {o}, plrEst k c = .ok o → ∃ l m g, plrL k c = .ok l ∧ plrM k c = .ok m ∧ plrG k c l m = .ok g ∧
      o.preds = [("ml_l", l.preds), ("ml_m", m.preds), ("ml_g", g.preds)] := by
    intro c o h
    obtain ⟨l, hl, h⟩ := bind_ok h
    obtain ⟨m, hm, h⟩ := bind_ok h
    obtain ⟨g, hg, h⟩ := bind_ok h
    rw [← Except.ok.inj h]
    exact ⟨l, m, g, hl, hm, hg, rfl⟩
  refine ⟨fun c o e h he => ?_, fun c o e h he => ?_, fun hiv c o e h he => ?_⟩ <;>
    obtain ⟨l, m, g, hl, hm, hg, hp⟩ := key h <;> rw [hp]
  · unfold plrL at hl; rw [he] at hl; obtain rfl := Except.ok.inj hl; rfl
  · unfold plrM at hm
    rw [he] at hm
    obtain ⟨r, hr, hm⟩ := bind_ok hm
    obtain rfl := Except.ok.inj hr
    obtain ⟨_, -, hm⟩ := bind_ok hm
    obtain rfl := Except.ok.inj hm; rfl
  · unfold plrG at hg
    rw [if_pos hiv, he] at hg
    obtain rfl := Except.ok.inj hg; rfl

/-- **C28, PLIV** with one instrument. -/
theorem C28_pliv (k : PlivClass n P) : ExtUsed (plivSpec k) "ml_l" id ∧ ExtUsed (plivSpec k) "ml_m" id ∧
    ExtUsed (plivSpec k) "ml_r" id ∧ (k.iv = true → ExtUsed (plivSpec k) "ml_g" id) := by
  refine ⟨fun c o e h he => ?_, fun c o e h he => ?_, fun c o e h he => ?_, fun hiv c o e h he => ?_⟩ <;>
    obtain ⟨l, z, m, r, g, h0, hz, h1, h2, h3, -, hp, -⟩ := plivEst_ok h <;> rw [hp]
  · unfold plivPart at h0; rw [he] at h0; obtain rfl := Except.ok.inj h0; rfl
  · unfold plivPart at h1; rw [he] at h1; obtain rfl := Except.ok.inj h1; rfl
  · unfold plivPart at h2; rw [he] at h2; obtain rfl := Except.ok.inj h2; rfl
  · unfold plivG at h3
    rw [if_pos hiv] at h3
    unfold plivPart at h3; rw [he] at h3; obtain rfl := Except.ok.inj h3; rfl

/-- **C28, IIVM (partial).** Missing: predictions for `ml_r0` without always-takers and for `ml_r1` without
never-takers (`C28_iivm_violated`). -/
theorem C28_iivm_partial (k : IivmClass n P) : ExtUsed (iivmSpec k) "ml_g0" id ∧ ExtUsed (iivmSpec k) "ml_g1" id ∧
    ExtUsed (iivmSpec k) "ml_m" (trim k.trimT) ∧ (k.alwaysTakers = true → ExtUsed (iivmSpec k) "ml_r0" id) ∧
    (k.neverTakers = true → ExtUsed (iivmSpec k) "ml_r1" id) := by
  have hR : ∀ {c : CellIn n P} {z l v g e}, iivmR k c z l v true = .ok g → c.extOf l = some e →
      g.preds = fun i => some (e i) := by
    intro c z l v g e hg he
    obtain ⟨r, hr, hg⟩ := bind_ok hg
    unfold iivmRRaw at hr
    unfold iivmRTail at hg
    rw [if_pos rfl, he] at hr
    rw [he] at hg
    obtain rfl := Except.ok.inj hr
    obtain rfl := Except.ok.inj hg
    rfl
  refine ⟨fun c o e h he => ?_, fun c o e h he => ?_, fun c o e h he => ?_, fun ha c o e h he => ?_, fun ha c o e h he => ?_⟩ <;>
    obtain ⟨z, g0, g1, m, r0, r1, hz, h0, -, h1, -, h3, h4, h5, -, hp, -⟩ := iivmEst_ok h <;> rw [hp]
  · unfold iivmG at h0; rw [he] at h0; obtain rfl := Except.ok.inj h0; rfl
  · unfold iivmG at h1; rw [he] at h1; obtain rfl := Except.ok.inj h1; rfl
  · unfold propM at h3; rw [he] at h3; obtain rfl := Except.ok.inj h3; rfl
  · rw [ha] at h4; simp [lookupKey, hR h4 he]
  · rw [ha] at h5; simp [lookupKey, hR h5 he]

end DML
