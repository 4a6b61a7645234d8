import Verif.PlrModel
import Verif.ModelProps

/-!
# The partially linear regression model: properties of the whole object
-/

namespace DML

open Finset

variable {n : ℕ} {P : Type}

/-- The results of PLR do not depend on a start value. -/
theorem plr_startFree (k : PlrClass n P) : StartFree (plrSpec k) := by
  intro c x
  show (plrEst k { c with start := x }).map _ = (plrEst k c).map _
  unfold plrEst
  have hl : plrL k { c with start := x } = plrL k c := rfl
  have hm : plrM k { c with start := x } = plrM k c := rfl
  have hg : ∀ l m, plrG k { c with start := x } l m = plrG k c l m := fun _ _ => rfl
  rw [hl, hm]
  cases plrL k c with
  | error e => rfl
  | ok l =>
    cases plrM k c with
    | error e => rfl
    | ok m =>
      simp only [bind, Except.bind, hg]
      cases plrG k c l m with
      | error e => rfl
      | ok g => rfl

/-- The sensitivity elements of a PLR cell have non-negative `sigma2` and `nu2`. -/
theorem plr_sens_nonneg {k : PlrClass n P} {c : CellIn n P} {o : CellOut n (Option (List (FittedModel P (List Cell))))}
    (h : plrEst k c = .ok o) : 0 ≤ o.sens.sigma2 ∧ 0 ≤ o.sens.nu2 := by
  unfold plrEst at h
  obtain ⟨l, _, h⟩ := bind_ok h
  obtain ⟨m, _, h⟩ := bind_ok h
  obtain ⟨g, _, h⟩ := bind_ok h
  obtain rfl := Except.ok.inj h
  refine ⟨?_, ?_⟩
  · dsimp only [plrSens]
    apply mean_nonneg
    intro i
    unfold plrResid2
    split_ifs
    · exact sq_nonneg _
    · exact sq_nonneg _
  · dsimp only [plrSens]
    exact div_nonneg zero_le_one (mean_sq_nonneg _)

theorem validateSens_nonneg {r : ℕ} {e : Fin r → SensElems n} (hs : ∀ k, 0 ≤ (e k).sigma2) (k : Fin r) :
    0 ≤ (validateSens e k).sigma2 ∧ 0 ≤ (validateSens e k).nu2 := by
  unfold validateSens
  split_ifs with h
  · exact ⟨hs k, mean_sq_nonneg _⟩
  · push Not at h
    exact ⟨hs k, (h k).le⟩

/-- After successful loops a PLR model can always build its framework. -/
theorem plr_fit_ok {F : Frame n} {k : PlrClass n P} {s : MState n P (Option (List (FittedModel P (List Cell))))}
    (hs : Shaped s) {a : FitArgs} {p m : Bool} (hc : checkFit (plrSpec k) s a = .ok (p, m))
    (hl : (fitLoop F (plrSpec k) a.ext p m (initFit (plrSpec k) s p m) (cellOrder s.nRep s.data.d.length)).2 = .ok ()) :
    (fit F (plrSpec k) s a).2 = .ok () := by
  rw [fit_eq hc hl]
  have hf := (initFit_frame (plrSpec k) s p m).trans
    (fitLoop_frame F (plrSpec k) a.ext p m (cellOrder s.nRep s.data.d.length) (initFit (plrSpec k) s p m))
  have hT := fitLoop_tables (F := F) (ext := a.ext) (cellOrder s.nRep s.data.d.length)
    (initFit_tables (plrSpec k) s p m) hl
  have hcell : ∀ j < s.data.d.length, ∀ q < s.nRep, ∀ f,
      (fitLoop F (plrSpec k) a.ext p m (initFit (plrSpec k) s p m) (cellOrder s.nRep s.data.d.length)).1.sens = some f →
      ∃ e, f j q = some e ∧ 0 ≤ e.sigma2 ∧ 0 ≤ e.nu2 := by
    intro j hj q hq f hff
    obtain ⟨o, ho, hst, _⟩ := fitLoop_stored _ _ hl (mem_cellOrder.2 ⟨hq, hj⟩)
    obtain ⟨_, _, _, _, _, _, _, _, _, _, _, he⟩ := ho
    exact ⟨o.sens, hst.sens rfl f hff, plr_sens_nonneg he⟩
  generalize (fitLoop F (plrSpec k) a.ext p m (initFit (plrSpec k) s p m) (cellOrder s.nRep s.data.d.length)).1 = t at *
  obtain ⟨S, hS⟩ := Option.isSome_iff_exists.1 (hT.sens rfl)
  have hd : t.data.d.length = s.data.d.length := by rw [hf.settings.data.d]
  have hnT : (t.heap t.arr).nT = t.data.d.length := hf.settings.nT.trans (hs.nT.trans hd.symm)
  have hnR : (s.heap s.arr).nR = s.nRep := hs.nR
  have hnr : t.nRep = s.nRep := hf.settings.nRep
  rw [hnR]
  have hag : (aggregate (plrSpec k) t).sens = some (validAt S t.nRep) := by
    show (if true = true then t.sens.map fun S => validAt S t.nRep else t.sens) = _
    rw [if_pos rfl, hS]; rfl
  have hsens : (frameworkOf s.nRep (plrSpec k) (aggregate (plrSpec k) t)).sens =
      some ((List.range t.data.d.length).map fun j => (sensBlock (validAt S t.nRep) s.nRep j).1) := by
    show (if true = true then (aggregate (plrSpec k) t).sens.map _ else none) = _
    rw [if_pos rfl, hag]; rfl
  have hbench : (frameworkOf s.nRep (plrSpec k) (aggregate (plrSpec k) t)).bench =
      some ((List.range t.data.d.length).map fun j => (sensBlock (validAt S t.nRep) s.nRep j).2) := by
    show (if true = true then (aggregate (plrSpec k) t).sens.map _ else none) = _
    rw [if_pos rfl, hag]; rfl
  have hblocks : (frameworkOf s.nRep (plrSpec k) (aggregate (plrSpec k) t)).blocks.length = t.data.d.length := by
    show ((List.range (t.heap t.arr).nT).map _).length = _
    rw [List.length_map, List.length_range, hnT]
  have hnames : (frameworkOf s.nRep (plrSpec k) (aggregate (plrSpec k) t)).names = some t.data.d := rfl
  unfold finishAt
  have hcon : ∃ fw, (frameworkOf s.nRep (plrSpec k) (aggregate (plrSpec k) t)).construct = .ok fw := by
    generalize frameworkOf s.nRep (plrSpec k) (aggregate (plrSpec k) t) = A at *
    refine ⟨A.normBench, ?_⟩
    have hnb : A.normBench.bench = A.bench := by simp [FW.normBench, hsens]
    unfold FW.construct
    rw [if_neg, if_neg, if_neg]
    · rintro ⟨ns, hns, hne⟩
      have : A.normBench.names = A.names := rfl
      rw [this, hnames] at hns
      obtain rfl := Option.some.inj hns
      exact hne hblocks.symm
    · rw [not_not]
      refine ⟨?_, ?_⟩
      · intro x hx
        have : A.normBench.sens = A.sens := rfl
        rw [this, hsens] at hx
        obtain rfl := Option.some.inj hx
        show _ = A.blocks.length
        rw [hblocks]; simp
      · intro _ x hx
        rw [hnb, hbench] at hx
        obtain rfl := Option.some.inj hx
        show _ = A.blocks.length
        rw [hblocks]; simp
    · rintro ⟨bs, hbs, b, hb, hbad⟩
      rw [hnb, hbench] at hbs
      obtain rfl := Option.some.inj hbs
      obtain ⟨j, hj, rfl⟩ := List.mem_map.1 hb
      have hj := List.mem_range.1 hj
      rw [hd] at hj
      apply hbad
      have key : ∀ q : Fin s.nRep, 0 ≤ ((validAt S t.nRep j q).getD .zero).sigma2 ∧
          0 ≤ ((validAt S t.nRep j q).getD .zero).nu2 := by
        intro q
        unfold validAt
        have hq : (q : ℕ) < t.nRep := by rw [hnr]; exact q.2
        rw [dif_pos hq]
        simp only [Option.getD_some]
        apply validateSens_nonneg
        intro i
        obtain ⟨e, he, h1, _⟩ := hcell j hj i (by rw [← hnr]; exact i.2) S hS
        rw [he]; exact h1
      exact ⟨fun q => (key q).1, fun q => (key q).2⟩
  obtain ⟨fw, hfw⟩ := hcon
  rw [hfw]

/-! ## External predictions -/

/-- With external predictions for both learners the partialling-out estimate of a cell is the score estimate at
exactly these predictions: neither the learners nor their parameters nor the folds enter. -/
theorem plrEst_ext {k : PlrClass n P} (hiv : k.iv = false) {c : CellIn n P} {l m : Fin n → ℝ}
    (hl : c.extOf "ml_l" = some l) (hm : c.extOf "ml_m" = some m)
    (hb : checkTreatPreds c (fun i => some (m i)) = .ok ()) :
    plrEst k c = .ok
      { fit := (plrPo (fun i => (c.data.yv i).val) (fun i => (c.data.dv i).val) l m).fit c.cluster
        preds := [("ml_l", fun i => some (l i)), ("ml_m", fun i => some (m i)), ("ml_g", fun _ => none)]
        targets := [("ml_l", none), ("ml_m", none), ("ml_g", none)]
        models := [("ml_l", none), ("ml_m", none), ("ml_g", none)]
        sens := plrSens (plrPoResid2 (fun i => (c.data.yv i).val) (fun i => (c.data.dv i).val) l m
          ((plrPo (fun i => (c.data.yv i).val) (fun i => (c.data.dv i).val) l m).fit c.cluster).coef)
          (fun i => (c.data.dv i).val) m
        start := c.start } := by
  have h1 : plrL k c = .ok (extRes l) := by simp only [plrL, hl]
  have h2 : plrM k c = .ok (extRes m) := by
    simp only [plrM, hm, bind, Except.bind]
    have : (extRes m : CvRes n P (List Cell)).preds = fun i => some (m i) := rfl
    rw [this, hb]; rfl
  have h3 : ∀ a b, plrG k c a b = .ok noRes := by intro a b; simp [plrG, hiv]
  unfold plrEst
  rw [h1, h2]
  simp only [bind, Except.bind, h3, plrElems, plrResid2, hiv]
  rfl

/-! ## A concrete model -/

/-- External predictions `m = 1/2`, `l = (a, -a)` for the two observations of `exFrame`. -/
noncomputable def exExt (a : ℝ) : ExtArg :=
  .dict [("d", .dict [("ml_l", .arr2 2 1 fun i _ => if i = 0 then a else -a), ("ml_m", .arr2 2 1 fun _ _ => 1 / 2)])]

/-- The settings of the example: the data `exState`, one repetition. -/
structure ExSettings (s : MState 2 P (Option (List (FittedModel P (List Cell))))) : Prop where
  shaped : Shaped s
  data : s.data = exState
  nRep : s.nRep = 1
  smpls : ∃ f, s.smpls = some [f]
  params : ∀ l ∈ ["ml_l", "ml_m"], ∃ q, s.params l "d" = some [q]

theorem exExt_check (a : ℝ) : checkExt ["d"] ["ml_l", "ml_m"] 2 1 (exExt a) = .ok () := by
  simp [checkExt, exExt, checkExtInner, checkExtVal]
  rfl

theorem exExt_set (a : ℝ) : setExt 2 (exExt a) ["ml_l", "ml_m"] "d" 0 =
    .ok [("ml_l", some fun i : Fin 2 => if (i : ℕ) = 0 then a else -a), ("ml_m", some fun _ => 1 / 2)] := by
  simp [setExt, exExt, lookupKey, extColumn]
  rfl

/-- The class of the example: partialling out, no clusters. -/
structure ExClass (k : PlrClass 2 P) : Prop where
  iv : k.iv = false
  vars : k.vars = none

theorem exClass_learners {k : PlrClass 2 P} (hk : ExClass k) : (plrSpec k).learners = ["ml_l", "ml_m"] := by
  simp [plrSpec, hk.iv]

/-- The output of the single cell. -/
theorem exCell {k : PlrClass 2 P} (hk : ExClass k) {c : CellIn 2 P} (a : ℝ) (ht : c.treat = "d")
    (hd : c.data = exState) (hc : c.cluster = none)
    (he : c.ext = [("ml_l", some fun i : Fin 2 => if (i : ℕ) = 0 then a else -a), ("ml_m", some fun _ => 1 / 2)]) :
    ∃ o, plrEst k c = .ok o ∧ o.fit.coef = 1 + 2 * a ∧ o.fit.se = Real.sqrt (49 / 2) ∧
      o.preds = [("ml_l", fun i : Fin 2 => some (if (i : ℕ) = 0 then a else -a)), ("ml_m", fun _ => some (1 / 2)),
        ("ml_g", fun _ => none)] ∧ o.targets = [("ml_l", none), ("ml_m", none), ("ml_g", none)] := by
  have hb : checkTreatPreds c (fun _ => some (1 / 2)) = .ok () := by
    unfold checkTreatPreds
    rw [ht, hd]
    simp only [exState, lookupKey, if_true]
    unfold checkBinaryPreds
    rw [if_neg]
    intro h
    have := h 0
    norm_num at this
  have hl : c.extOf "ml_l" = some fun i : Fin 2 => if (i : ℕ) = 0 then a else -a := by
    simp [CellIn.extOf, he, lookupKey]
  have hm : c.extOf "ml_m" = some fun _ => 1 / 2 := by simp [CellIn.extOf, he, lookupKey]
  have hcoef : ((plrPo (fun i => (c.data.yv i).val) (fun i => (c.data.dv i).val)
      (fun i : Fin 2 => if (i : ℕ) = 0 then a else -a) fun _ => 1 / 2).coef none) = 1 + 2 * a := by
    simp only [PsiElems.coef, aggObs, plrPo, mean, Fin.sum_univ_two, hd, exState, exFrame, Cell.val]
    simp
    ring
  refine ⟨_, plrEst_ext hk.iv hl hm hb, ?_, ?_, rfl, rfl⟩
  · rw [hc]
    exact hcoef
  · rw [hc]
    simp only [PsiElems.fit, hcoef]
    congr 1
    simp only [varEst, varEstParts, PsiElems.score, plrPo, mean, Fin.sum_univ_two, hd, exState, exFrame, Cell.val]
    simp
    ring

theorem exLoss {k : PlrClass 2 P} (hk : ExClass k) {preds : List (String × NV 2)} :
    calcLoss (plrSpec k) preds [("ml_l", none), ("ml_m", none), ("ml_g", none)] =
      .ok [("ml_l", none), ("ml_m", none)] := by
  unfold calcLoss
  rw [exClass_learners hk]
  have h1 : ([("ml_l", false), ("ml_m", k.mClassifier)] : List (String × Bool)).filter
      (fun q => decide (q.1.toList <:+: "ml_l".toList)) = [("ml_l", false)] := by
    cases k.mClassifier <;> decide
  have h2 : ([("ml_l", false), ("ml_m", k.mClassifier)] : List (String × Bool)).filter
      (fun q => decide (q.1.toList <:+: "ml_m".toList)) = [("ml_m", k.mClassifier)] := by
    cases k.mClassifier <;> decide
  have hk' : (plrSpec k).keys = [("ml_l", false), ("ml_m", k.mClassifier)] := by simp [plrSpec, hk.iv]
  rw [hk']
  simp only [List.mapM_cons, List.mapM_nil, learnerLoss, h1, h2, lookupKey, bind, Except.bind, pure, Except.pure]
  simp

/-- The example can be fitted: the estimate is `1 + 2 a`, the standard error is `sqrt (49 / 2)`. -/
theorem exFit {k : PlrClass 2 P} (hk : ExClass k) {s : MState 2 P (Option (List (FittedModel P (List Cell))))}
    (hs : ExSettings s) (a : ℝ) :
    (fit exFrame (plrSpec k) s { ext := exExt a }).2 = .ok () ∧
    ((fit exFrame (plrSpec k) s { ext := exExt a }).1.heap s.arr).coef 0 0 = some (1 + 2 * a) ∧
    ((fit exFrame (plrSpec k) s { ext := exExt a }).1.heap s.arr).se 0 0 = some (Real.sqrt (49 / 2)) ∧
    ExSettings (fit exFrame (plrSpec k) s { ext := exExt a }).1 := by
  obtain ⟨f, hf⟩ := hs.smpls
  obtain ⟨q1, hq1⟩ := hs.params "ml_l" (by simp)
  obtain ⟨q2, hq2⟩ := hs.params "ml_m" (by simp)
  have hlen : s.data.d.length = 1 := by rw [hs.data]; rfl
  have hc : checkFit (plrSpec k) s { ext := exExt a } = .ok (true, false) := by
    have : checkFitExt (plrSpec k) s (exExt a) = .ok () := by
      unfold checkFitExt
      rw [exClass_learners hk, hs.data, hs.nRep]
      exact exExt_check a
    simp only [checkFit, checkJobs, checkBool, this, bind, Except.bind, pure, Except.pure]
  have hl : (fitLoop exFrame (plrSpec k) (exExt a) true false (initFit (plrSpec k) s true false)
      (cellOrder s.nRep s.data.d.length)).2 = .ok () := by
    have hco : cellOrder s.nRep s.data.d.length = [(0, 0)] := by rw [hs.nRep, hlen]; rfl
    rw [hco]
    have hdat : (initFit (plrSpec k) s true false).data = exState := hs.data
    have hact : activate exFrame (initFit (plrSpec k) s true false).data 0 = .ok exState := by
      rw [hdat]; simp [activate, exState]
    have hin : cellIn (plrSpec k) { initFit (plrSpec k) s true false with data := exState } (exExt a) false "d" 0 =
        .ok ⟨exState, "d", f, none, [("ml_l", q1), ("ml_m", q2)],
          [("ml_l", some fun i : Fin 2 => if (i : ℕ) = 0 then a else -a), ("ml_m", some fun _ => 1 / 2)], s.start, false, 0⟩ := by
      have e1 : repSmpls { initFit (plrSpec k) s true false with data := exState } 0 = .ok f := by
        simp [repSmpls, initFit, hf]
      have e2 : ∀ f, repCluster (plrSpec k) { initFit (plrSpec k) s true false with data := exState } f 0 = .ok none := by
        intro f
        have : (plrSpec k).vars = none := hk.vars
        unfold repCluster; rw [this]
      have e3 : ["ml_l", "ml_m"].mapM (getParams { initFit (plrSpec k) s true false with data := exState } "d" 0) =
          .ok [("ml_l", q1), ("ml_m", q2)] := by
        simp only [List.mapM_cons, List.mapM_nil, getParams, initFit, hq1, hq2, bind, Except.bind, pure, Except.pure]
        simp
      unfold cellIn
      rw [exClass_learners hk, exExt_set, e1]
      simp only [bind, Except.bind]
      rw [e2, e3]
      rfl
    obtain ⟨o, ho, _, _, hp, ht⟩ := exCell hk (c := ⟨exState, "d", f, none, [("ml_l", q1), ("ml_m", q2)],
          [("ml_l", some fun i : Fin 2 => if (i : ℕ) = 0 then a else -a), ("ml_m", some fun _ => 1 / 2)], s.start, false, 0⟩)
          a rfl rfl rfl rfl
    have hst : fitCell exFrame (plrSpec k) (exExt a) true false (initFit (plrSpec k) s true false) (0, 0) =
        (writeCell (plrSpec k) true false { initFit (plrSpec k) s true false with data := exState, start := o.start } 0 0 o
          [("ml_l", none), ("ml_m", none)], .ok ()) := by
      unfold fitCell
      rw [hact]
      have hd0 : exState.d.getD 0 "" = "d" := rfl
      simp only [hd0, hin, Except.bind]
      have : (plrSpec k).est = plrEst k := rfl
      rw [this, ho]
      simp only
      unfold storeCell
      rw [if_pos, ht, exLoss hk]
      refine ⟨?_, ?_⟩
      · show 0 < (s.heap s.arr).nT
        rw [hs.shaped.nT, hlen]; exact one_pos
      · show 0 < (s.heap s.arr).nR
        rw [hs.shaped.nR, hs.nRep]; exact one_pos
    simp only [fitLoop, hst]
  have hok := plr_fit_ok hs.shaped hc hl
  obtain ⟨fr1, fr2, fr3, fr4, fr5, fr6⟩ := fit_frame exFrame (plrSpec k) s { ext := exExt a }
  obtain ⟨c, o, l, hcf, hcm, hest, _, h1, h2, _⟩ := fit_cells hok (p := true) (m := false) rfl rfl (j := 0) (k := 0)
    (by rw [hlen]; exact one_pos) (by rw [hs.nRep]; exact one_pos)
  have ht : c.treat = "d" := by
    have := hcf.treat
    rw [hs.data] at this
    simpa [exState] using this.symm
  have hd : c.data = exState := by
    rw [hcf.data, hs.data]
    simp [activeData, exState]
  have he := hcf.ext
  rw [exClass_learners hk, ht] at he
  have he : c.ext = _ := (Except.ok.inj (he.symm.trans (exExt_set a)))
  obtain ⟨o', ho', g1, g2, _⟩ := exCell hk a ht hd (hcf.noCluster hk.vars) he
  have : o = o' := Except.ok.inj (hest.symm.trans ho')
  subst this
  rw [fr2] at h1 h2
  refine ⟨hok, by rw [h1, g1], by rw [h2, g2], ?_⟩
  refine ⟨⟨by rw [fr1.nRep]; exact hs.shaped.pos, by rw [fr1.nT, fr1.data.d]; exact hs.shaped.nT,
    by rw [fr1.nR, fr1.nRep]; exact hs.shaped.nR⟩, ?_, by rw [fr1.nRep]; exact hs.nRep, by rw [fr1.smpls]; exact hs.smpls,
    by rw [fr1.params]; exact hs.params⟩
  rw [fr1.data.active hlen.le]
  exact hs.data

/-- The constructor call of the example succeeds. -/
theorem exModel {k : PlrClass 2 P} (hk : ExClass k) (w : Draws 2) :
    ∃ s, initModel (plrSpec k) exState 0 (.int 2) (.int 1) (.bool true) w = .ok s ∧ ExSettings s ∧ s.nFolds = 2 := by
  have h1 : checkClusterVars (plrSpec k) exState = .ok () := by
    have : (plrSpec k).vars = none := hk.vars
    simp [checkClusterVars, this]
  have h2 : checkInteger (.int 2) (some 1) none = .ok 2 := by simp [checkInteger, PyVal.asInt]
  have h3 : checkInteger (.int 1) (some 1) none = .ok 1 := by simp [checkInteger, PyVal.asInt]
  unfold initModel
  rw [h1]
  simp only [bind, Except.bind, h2, h3, checkBool, if_true]
  have hv : (plrSpec k).vars = none := hk.vars
  have hst : (plrSpec k).stratified = false := rfl
  simp only [drawSampleSplitting, drawnSplit, hv, hst, drawSplit]
  refine ⟨_, rfl, ⟨initArrays_shaped one_pos, rfl, rfl, ⟨_, rfl⟩, ?_⟩, rfl⟩
  intro l hl
  refine ⟨none, ?_⟩
  show initParams (plrSpec k).learners exState.d 1 l "d" = _
  rw [exClass_learners hk]
  unfold initParams
  rw [if_pos ⟨hl, by simp [exState]⟩]
  rfl

theorem fit_framework {F : Frame n} {M : Type} {sp : Spec n P M} {s : MState n P M} {a : FitArgs}
    (h : (fit F sp s a).2 = .ok ()) :
    ∃ o, (fit F sp s a).1.framework = some o ∧ o.addr = s.arr ∧ o.r = (s.heap s.arr).nR ∧
      o.st.fw.blocks.length = (s.heap s.arr).nT := by
  obtain ⟨p, m, fw, h1, h2, h3, h4⟩ := fit_ok h
  refine ⟨⟨(s.heap s.arr).nR, s.arr, { fw := fw }⟩, by rw [h4], rfl, rfl, ?_⟩
  unfold FW.construct at h3
  split_ifs at h3
  cases h3
  have hf := (initFit_frame sp s p m).trans
    (fitLoop_frame F sp a.ext p m (cellOrder s.nRep s.data.d.length) (initFit sp s p m))
  show ((List.range _).map _).length = _
  rw [List.length_map, List.length_range]
  exact hf.settings.nT

/-- The pointwise interval of the example for shared arrays with values `c` and `e`. -/
theorem exInterval (E : Ext) {o : FwObj 2} (hr : o.r = 1) (hb : o.st.fw.blocks.length = 1) {h : ℕ → Arr} {c e : ℝ}
    (hc : (h o.addr).coef 0 0 = some c) (he : (h o.addr).se 0 0 = some e) :
    ((o.view h).step E (.confint (.bool false) (.float 0.95))).2 =
      .ok (.cis [(c - e * pointCrit 0.95, c + e * pointCrit 0.95)]) := by
  obtain ⟨r, addr, st⟩ := o
  obtain rfl : r = 1 := hr
  obtain ⟨b, hb⟩ := List.length_eq_one_iff.1 hb
  simp only [RState.step, FW.confint, FwObj.view]
  rw [if_neg (by norm_num), if_neg (by simp)]
  have hb' : st.fw.blocks = [b] := hb
  rw [hb']
  simp only [List.zipIdx_cons, List.zipIdx_nil, List.map_cons, List.map_nil, Block.ci, median_one]
  have hc' : (h addr).coef 0 0 = some c := hc
  have he' : (h addr).se 0 0 = some e := he
  simp [hc', he', Except.map]

/-! ## C31 -/

/-- **C31 (violated).** A framework taken from a model changes when the model is fitted again on the same split: for a
PLR model with two observations and any learners, the held framework reports the interval around the new estimate
after the second fit, although nothing was done to it. -/
theorem C31_violated (E : Ext) {k : PlrClass 2 P} (hk : ExClass k) (w : Draws 2) :
    ∃ (s : MState 2 P (Option (List (FittedModel P (List Cell))))) (a a' : FitArgs) (o : FwObj 2),
      initModel (plrSpec k) exState 0 (.int 2) (.int 1) (.bool true) w = .ok s ∧
      (fit exFrame (plrSpec k) s a).2 = .ok () ∧ (fit exFrame (plrSpec k) s a).1.framework = some o ∧
      (fit exFrame (plrSpec k) (fit exFrame (plrSpec k) s a).1 a').2 = .ok () ∧
      ((o.view (fit exFrame (plrSpec k) (fit exFrame (plrSpec k) s a).1 a').1.heap).step E
        (.confint (.bool false) (.float 0.95))).2 ≠
      ((o.view (fit exFrame (plrSpec k) s a).1.heap).step E (.confint (.bool false) (.float 0.95))).2 := by
  obtain ⟨s, hi, hs, _⟩ := exModel hk w
  obtain ⟨f1, f2, f3, f4⟩ := exFit hk hs 0
  obtain ⟨g1, g2, g3, g4⟩ := exFit hk f4 1
  have harr : (fit exFrame (plrSpec k) s { ext := exExt 0 }).1.arr = s.arr :=
    (fit_frame exFrame (plrSpec k) s { ext := exExt 0 }).2.1
  rw [harr] at g2 g3
  obtain ⟨o, ho, ha, hr, hb⟩ := fit_framework f1
  rw [hs.shaped.nR, hs.nRep] at hr
  have hb : o.st.fw.blocks.length = 1 := by rw [hb, hs.shaped.nT, hs.data]; rfl
  refine ⟨s, _, _, o, hi, f1, ho, g1, ?_⟩
  rw [← ha] at f2 f3 g2 g3
  rw [exInterval E hr hb f2 f3, exInterval E hr hb g2 g3]
  intro h
  simp only [Except.ok.injEq, Out.cis.injEq, List.cons.injEq, Prod.mk.injEq, and_true] at h
  linarith [h.1]


/-! ## C30 -/

/-- A new split for the example. -/
def exSplit : SplitArg := nestedArg [[([0], [1]), ([1], [0])]]

theorem exSplit_ok {sp : Spec 2 P (Option (List (FittedModel P (List Cell))))} (hv : sp.vars = none)
    (s : MState 2 P (Option (List (FittedModel P (List Cell))))) : (setSampleSplitting sp s exSplit none).2 = .ok () := by
  have hval : ValidSplit 2 [([0], [1]), ([1], [0])] := by
    refine ⟨by decide, ?_, ?_⟩ <;> simp [InRange]
  have := (C22_nested_accepted_iff 2 [([0], [1]), ([1], [0])] [] _).2 ⟨by simp, by simp, by simpa using hval, rfl⟩
  unfold setSampleSplitting exSplit
  rw [this]
  simp only [checkedCluster, hv]

/-- **C30 (violated).** A fitted PLR model is given a new sample split: its estimates are reset to `NaN`, yet `confint`
still answers with the interval of the old split. -/
theorem C30_violated (E : Ext) {k : PlrClass 2 P} (hk : ExClass k) (w : Draws 2) :
    ∃ (s : MState 2 P (Option (List (FittedModel P (List Cell))))) (a : FitArgs) (S : SplitArg) (c e : ℝ),
      initModel (plrSpec k) exState 0 (.int 2) (.int 1) (.bool true) w = .ok s ∧
      (fit exFrame (plrSpec k) s a).2 = .ok () ∧
      (setSampleSplitting (plrSpec k) (fit exFrame (plrSpec k) s a).1 S none).2 = .ok () ∧
      (setSampleSplitting (plrSpec k) (fit exFrame (plrSpec k) s a).1 S none).1.coef 0 = none ∧
      (infer E (setSampleSplitting (plrSpec k) (fit exFrame (plrSpec k) s a).1 S none).1
        fun _ => .confint (.bool false) (.float 0.95)).2 = .ok (.cis [(c, e)]) := by
  obtain ⟨s, hi, hs, _⟩ := exModel hk w
  obtain ⟨f1, f2, f3, f4⟩ := exFit hk hs 0
  obtain ⟨o, ho, ha, hr, hb⟩ := fit_framework f1
  rw [hs.shaped.nR, hs.nRep] at hr
  have hb : o.st.fw.blocks.length = 1 := by rw [hb, hs.shaped.nT, hs.data]; rfl
  have hset := exSplit_ok (sp := plrSpec k) hk.vars (fit exFrame (plrSpec k) s { ext := exExt 0 }).1
  have hwf : WF (fit exFrame (plrSpec k) s { ext := exExt 0 }).1 := by
    have := mstep_wf E exFrame (plrSpec k) (initModel_wf hi).1 (.fit { ext := exExt 0 }) rfl
    exact this
  refine ⟨s, _, exSplit, 1 + 2 * 0 - Real.sqrt (49 / 2) * pointCrit 0.95, 1 + 2 * 0 + Real.sqrt (49 / 2) * pointCrit 0.95,
    hi, f1, hset, (C30_estimates_reset_partial hset 0 0).1, ?_⟩
  rw [(C30_violated_inference E hwf hset).2]
  unfold infer
  rw [ho]
  rw [← ha] at f2 f3
  exact exInterval E hr hb f2 f3

/-! ## Non-vacuity -/


/-- A class of the example with trivial learners. -/
def exClassOf (L : Learner ℕ (List Cell)) : PlrClass 2 ℕ := ⟨L, L, L, false, false, none⟩

theorem exClassOf_ok (L : Learner ℕ (List Cell)) : ExClass (exClassOf L) := ⟨rfl, rfl⟩

/-- C29, C31, C32: for arbitrary learners there is a start-free class, a constructed model that meets `WF` (and
`Shaped`), with valid roles and fresh arrays, and a fit that succeeds and yields a framework. -/
example (L : Learner ℕ (List Cell)) (w : Draws 2) : ∃ s, StartFree (plrSpec (exClassOf L)) ∧
    initModel (plrSpec (exClassOf L)) exState 0 (.int 2) (.int 1) (.bool true) w = .ok s ∧ WF s ∧
    (fit exFrame (plrSpec (exClassOf L)) s { ext := exExt 1 }).2 = .ok () ∧
    (fit exFrame (plrSpec (exClassOf L)) s { ext := exExt 1 }).1.framework.isSome ∧
    (fit exFrame (plrSpec (exClassOf L)) s { ext := exExt 1 }).1.coef 0 = some 3 := by
  obtain ⟨s, hi, hs, _⟩ := exModel (exClassOf_ok L) w
  obtain ⟨f1, f2, f3, f4⟩ := exFit (exClassOf_ok L) hs 1
  obtain ⟨o, ho, _⟩ := fit_framework f1
  refine ⟨s, plr_startFree _, hi, (initModel_wf hi).1, f1, by rw [ho]; rfl, ?_⟩
  obtain ⟨_, _, _, _, hc⟩ := C29_results_of_current_split hs.shaped f1 (p := true) (m := false) rfl rfl
  obtain ⟨est, h1, h2⟩ := hc 0 (by rw [hs.data]; exact one_pos)
  rw [h1]
  have hn := hs.nRep
  have harr : (fit exFrame (plrSpec (exClassOf L)) s { ext := exExt 1 }).1.arr = s.arr :=
    (fit_frame exFrame (plrSpec (exClassOf L)) s { ext := exExt 1 }).2.1
  generalize s.nRep = q at *
  subst hn
  rw [median_one]
  obtain ⟨c, l, _, _, _, h3, _⟩ := h2 0
  rw [harr] at h3
  rw [← h3]
  exact f2.trans (by norm_num)

end DML
