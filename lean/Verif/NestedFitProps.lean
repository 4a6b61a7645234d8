import Verif.NestedProps
import Verif.PlrModelProps

/-!
# Fitting a PQ model twice (C29)

The start value of the search for the estimate is an attribute of the model that every fit overwrites
(/repo/doubleml/irm/pq.py:378-380) and every fit reads (/repo/doubleml/irm/pq.py:339-340).
-/

namespace DML

open Finset

variable {n : ℕ} {P M : Type}

/-- `fit` with one treatment and one repetition, for classes without sensitivity analysis. -/
theorem single_fit {F : Frame n} {sp : Spec n P M} (hsi : sp.sensImpl = false) {s : MState n P M} (hs : Shaped s) {a : FitArgs}
    {p m : Bool} (hc : checkFit sp s a = .ok (p, m)) {tv : String} (hd : s.data.d = [tv]) (hr : s.nRep = 1)
    {c : CellIn n P} (hin : cellIn sp (initFit sp s p m) a.ext m tv 0 = .ok c) {o : CellOut n M} (he : sp.est c = .ok o)
    {l : List (String × Option ℝ)} (hl : calcLoss sp o.preds o.targets = .ok l) :
    (fit F sp s a).2 = .ok () ∧ (fit F sp s a).1.start = o.start ∧ (fit F sp s a).1.data = s.data ∧
      (p = true → (fit F sp s a).1.preds.map (fun f => f 0 0) = some (some (o.preds, o.targets))) := by
  have hlen : s.data.d.length = 1 := by rw [hd]; rfl
  have hco : cellOrder s.nRep s.data.d.length = [(0, 0)] := by rw [hr, hlen]; rfl
  have hact : activate F (initFit sp s p m).data 0 = .ok s.data := by
    show activate F s.data 0 = _
    unfold activate
    rw [hd]
    show (if [tv].length > 1 then setXD F s.data tv else .ok s.data) = _
    rw [if_neg (by simp)]
  have hst : fitCell F sp a.ext p m (initFit sp s p m) (0, 0) =
      (writeCell sp p m { initFit sp s p m with start := o.start } 0 0 o l, .ok ()) := by
    unfold fitCell
    dsimp only
    rw [hact]
    dsimp only
    have h0 : s.data.d.getD 0 "" = tv := by rw [hd]; rfl
    rw [h0]
    have h1 : cellIn sp { initFit sp s p m with data := s.data } a.ext m tv 0 = .ok c := hin
    rw [h1]
    show (match sp.est c with
      | .error e => ({ initFit sp s p m with data := s.data }, Except.error e)
      | .ok o => storeCell sp p m { initFit sp s p m with data := s.data, start := o.start } 0 0 o) = _
    rw [he]
    dsimp only
    unfold storeCell
    rw [if_pos, hl]
    · rfl
    · refine ⟨?_, ?_⟩
      · show 0 < (s.heap s.arr).nT
        rw [hs.nT, hlen]; exact one_pos
      · show 0 < (s.heap s.arr).nR
        rw [hs.nR, hr]; exact one_pos
  have hloop : fitLoop F sp a.ext p m (initFit sp s p m) (cellOrder s.nRep s.data.d.length) =
      (writeCell sp p m { initFit sp s p m with start := o.start } 0 0 o l, .ok ()) := by
    rw [hco]
    simp only [fitLoop, hst]
  have hfit := fit_eq (F := F) (a := a) hc (by rw [hloop])
  rw [hloop] at hfit
  have hcon : ∃ fw, (frameworkOf (s.heap s.arr).nR sp
      (aggregate sp (writeCell sp p m { initFit sp s p m with start := o.start } 0 0 o l))).construct = .ok fw := by
    have hsens : (frameworkOf (s.heap s.arr).nR sp
        (aggregate sp (writeCell sp p m { initFit sp s p m with start := o.start } 0 0 o l))).sens = none := by
      show (if sp.sensImpl = true then _ else none) = _
      rw [if_neg (by rw [hsi]; exact Bool.false_ne_true)]
    have hblocks : (frameworkOf (s.heap s.arr).nR sp
        (aggregate sp (writeCell sp p m { initFit sp s p m with start := o.start } 0 0 o l))).blocks.length = 1 := by
      show ((List.range _).map _).length = _
      rw [List.length_map, List.length_range]
      show (Function.update s.heap s.arr _ s.arr).nT = 1
      rw [Function.update_self]
      exact hs.nT.trans hlen
    have hnames : (frameworkOf (s.heap s.arr).nR sp
        (aggregate sp (writeCell sp p m { initFit sp s p m with start := o.start } 0 0 o l))).names = some s.data.d := rfl
    generalize frameworkOf (s.heap s.arr).nR sp
        (aggregate sp (writeCell sp p m { initFit sp s p m with start := o.start } 0 0 o l)) = A at *
    have hb : A.normBench.bench = none := by
      unfold FW.normBench
      rw [hsens]
      rfl
    refine ⟨A.normBench, ?_⟩
    unfold FW.construct
    rw [if_neg, if_neg, if_neg]
    · rintro ⟨ns, hns, hne⟩
      have : A.normBench.names = A.names := rfl
      rw [this, hnames] at hns
      obtain rfl := Option.some.inj hns
      exact hne (hlen.trans hblocks.symm)
    · rw [not_not]
      refine ⟨?_, ?_⟩
      · intro x hx
        have : A.normBench.sens = A.sens := rfl
        rw [this, hsens] at hx
        cases hx
      · intro _ x hx
        rw [hb] at hx
        cases hx
    · rintro ⟨bs, hbs, -⟩
      rw [hb] at hbs
      cases hbs
  obtain ⟨fw, hfw⟩ := hcon
  rw [hfit]
  unfold finishAt
  rw [hfw]
  refine ⟨rfl, rfl, rfl, ?_⟩
  rintro rfl
  rfl

/-! ## The example -/

/-- The data frame: outcome, treatment, one covariate. -/
noncomputable def pqFrame : Frame 12 :=
  ⟨["y", "d", "x"], fun c i => if c = "y" then .num (exY 5 i) else if c = "d" then .num (exD i) else .num 0⟩

/-- The data object of the example. -/
noncomputable def pqData : DataState 12 :=
  { y := "y", d := ["d"], x := ["x"], z := none, t := none, s := none, cluster := none, useOther := true, force := .yes
    yv := fun i => .num (exY 5 i)
    zv := none
    tv := none
    sv := none
    dv := fun i => .num (exD i)
    xv := [fun _ => .num 0]
    cv := []
    binTreats := [("d", true)]
    binOut := false }

/-- The class of the example: quantile 5/6 for treatment 1; any root finder, any density estimate. -/
noncomputable def pqClass (R : RootExt) (kde : (Fin 12 → ℝ) → (Fin 12 → ℝ) → ℝ) : PqClass 12 Unit :=
  { ml_g := exLearner (List Cell)
    ml_m := exLearner (List Cell)
    treatment := 1
    q := 5 / 6
    trimT := 1 / 100
    normalize := false
    lo := (coefBounds (exY 5)).1
    hi := (coefBounds (exY 5)).2
    nested := exNested 12
    root := R
    kde := kde }

/-- `set_sample_splitting` with two folds. -/
def pqSplit : SplitArg :=
  .list [.tuple [⟨true, [6, 7, 8, 9, 10, 11]⟩, ⟨true, [0, 1, 2, 3, 4, 5]⟩],
         .tuple [⟨true, [0, 1, 2, 3, 4, 5]⟩, ⟨true, [6, 7, 8, 9, 10, 11]⟩]]

/-- External predictions of the propensity. -/
noncomputable def pqExt : ExtArg := .dict [("d", .dict [("ml_m", .arr2 12 1 fun _ _ => 1 / 10)])]

theorem pqExt_check : checkExt ["d"] ["ml_g", "ml_m"] 12 1 pqExt = .ok () := by
  simp [checkExt, pqExt, checkExtInner, checkExtVal]

theorem pqExt_set : setExt 12 pqExt ["ml_g", "ml_m"] "d" 0 = .ok [("ml_g", none), ("ml_m", some exM)] := by
  have hm : exM = fun _ => 10⁻¹ := by
    funext i
    norm_num [exM]
  rw [hm]
  simp [setExt, pqExt, lookupKey, extColumn]
  rfl

theorem pqSplit_check : checkSampleSplitting 12 pqSplit =
    .ok ([[([6, 7, 8, 9, 10, 11], [0, 1, 2, 3, 4, 5]), ([0, 1, 2, 3, 4, 5], [6, 7, 8, 9, 10, 11])]], 1, 2) := by
  have h1 : isort [6, 7, 8, 9, 10, 11] = [6, 7, 8, 9, 10, 11] := by
    unfold isort
    exact List.mergeSort_of_pairwise (by decide)
  have h2 : isort [0, 1, 2, 3, 4, 5] = [0, 1, 2, 3, 4, 5] := by
    unfold isort
    exact List.mergeSort_of_pairwise (by decide)
  have t1 : ∀ b, checkTpl 12 b ⟨true, [6, 7, 8, 9, 10, 11]⟩ ⟨true, [0, 1, 2, 3, 4, 5]⟩ =
      .ok ([6, 7, 8, 9, 10, 11], [0, 1, 2, 3, 4, 5]) := by
    intro b
    unfold checkTpl
    dsimp only
    rw [h1, h2]
    cases b <;> decide
  have t2 : ∀ b, checkTpl 12 b ⟨true, [0, 1, 2, 3, 4, 5]⟩ ⟨true, [6, 7, 8, 9, 10, 11]⟩ =
      .ok ([0, 1, 2, 3, 4, 5], [6, 7, 8, 9, 10, 11]) := by
    intro b
    unfold checkTpl
    dsimp only
    rw [h1, h2]
    cases b <;> decide
  unfold checkSampleSplitting pqSplit
  simp only [allTuples, List.mapM_cons, List.mapM_nil, bind, Option.bind, pure]
  unfold checkFlat
  simp only [pairOf, List.mapM_cons, List.mapM_nil, bind, Option.bind, pure, Except.bind, Except.pure, t1, t2, recheck]
  rfl

/-- The settings of the example: one repetition, two folds, no parameters. -/
structure PqSettings (s : MState 12 Unit (Option (List (FittedModel Unit (List Cell))))) : Prop where
  shaped : Shaped s
  data : s.data = pqData
  nRep : s.nRep = 1
  smpls : s.smpls = some [[exF0, exF1]]
  params : ∀ l ∈ ["ml_g", "ml_m"], s.params l "d" = some [none]

/-- The prediction reported for learner `l`, treatment `j`, repetition `k`, observation `i`. -/
def predAt (s : MState n P M) (j k : ℕ) (l : String) (i : Fin n) : Option ℝ := do
  let f ← s.preds
  let r ← f j k
  let v ← lookupKey l r.1
  v i

variable (R : RootExt) (kde : (Fin 12 → ℝ) → (Fin 12 → ℝ) → ℝ)

/-- The input of the only cell. -/
noncomputable def pqCell (start : ℝ) : CellIn 12 Unit :=
  ⟨pqData, "d", [exF0, exF1], none, [("ml_g", none), ("ml_m", none)], [("ml_g", none), ("ml_m", some exM)], start, false, 0⟩

theorem pqBounds : coefBounds (exY 5) = (-5, 5) := exBounds 5 (by norm_num)

theorem pqEst_ex (start : ℝ) : ∃ o g m t u, pqEst (pqClass R kde) (pqCell start) = .ok o ∧
    o.preds = [("ml_g", g), ("ml_m", m)] ∧ o.targets = [("ml_g", some t), ("ml_m", some u)] ∧
    g 4 = some (indLe (-1) (exIpw 0 start (-5) 5)) ∧
    o.start = (exIpw 0 start (-5) 5 + exIpw (-1) start (-5) 5) / 2 := by
  obtain ⟨q, h1, h2, h3⟩ := exRun (rowX pqData) 5 start (-5) 5
  have hrun : quantNuisance (pqClass R kde).nested (pqClass R kde).ml_m (zeroOne (pqClass R kde).ml_g)
      ((pqClass R kde).set (pqCell start).start) (fun ipw y => indLe y ipw) (pqCell start).obs (pqCell start).smpls
      (lookupKey "ml_g" (pqCell start).params).join (lookupKey "ml_m" (pqCell start).params).join
      ((pqCell start).extOf "ml_g") ((pqCell start).extOf "ml_m") (pqCell start).wantModels = .ok q := by
    have hset : (pqClass R kde).set (pqCell start).start = exSet start (-5) 5 := by
      show (⟨1, 5 / 6, 1 / 100, false, start, (coefBounds (exY 5)).1, (coefBounds (exY 5)).2⟩ : QuantSet) = _
      rw [pqBounds]
      rfl
    have hpar : (lookupKey "ml_g" (pqCell start).params).join = none ∧ (lookupKey "ml_m" (pqCell start).params).join = none ∧
        (pqCell start).extOf "ml_g" = none ∧ (pqCell start).extOf "ml_m" = some exM := by
      simp [pqCell, CellIn.extOf, lookupKey]
    rw [hset, hpar.1, hpar.2.1, hpar.2.2.1, hpar.2.2.2]
    exact h1
  have hext : newStart (pqCell start).start ((pqCell start).extOf "ml_g") ((pqCell start).extOf "ml_m") q.folds =
      (exIpw 0 start (-5) 5 + exIpw (-1) start (-5) 5) / 2 := by
    have hlen : (q.folds.map fun r => r.2.ipw).length = 2 := by rw [h3]; rfl
    rw [List.length_map] at hlen
    unfold newStart
    rw [if_neg (by simp [pqCell, CellIn.extOf, lookupKey])]
    unfold meanIpw
    rw [h3, hlen]
    simp
  unfold pqEst
  rw [hrun]
  exact ⟨_, q.g, q.m, _, _, rfl, rfl, rfl, h2, hext⟩

theorem pqLoss {g m t u : NV 12} : ∃ l, calcLoss (pqSpec (pqClass R kde)) [("ml_g", g), ("ml_m", m)]
    [("ml_g", some t), ("ml_m", some u)] = .ok l := by
  have f1 : ([("ml_g", true), ("ml_m", true)] : List (String × Bool)).filter
      (fun q => decide (q.1.toList <:+: "ml_g".toList)) = [("ml_g", true)] := by decide
  have f2 : ([("ml_g", true), ("ml_m", true)] : List (String × Bool)).filter
      (fun q => decide (q.1.toList <:+: "ml_m".toList)) = [("ml_m", true)] := by decide
  unfold calcLoss
  show ∃ l, ["ml_g", "ml_m"].mapM (learnerLoss [("ml_g", true), ("ml_m", true)] _ _) = .ok l
  simp only [List.mapM_cons, List.mapM_nil, learnerLoss, f1, f2, lookupKey, bind, Except.bind, pure, Except.pure]
  simp

theorem pqFit_ex {s : MState 12 Unit (Option (List (FittedModel Unit (List Cell))))} (hs : PqSettings s) :
    (fit pqFrame (pqSpec (pqClass R kde)) s { ext := pqExt }).2 = .ok () ∧
    predAt (fit pqFrame (pqSpec (pqClass R kde)) s { ext := pqExt }).1 0 0 "ml_g" 4 =
      some (indLe (-1) (exIpw 0 s.start (-5) 5)) ∧
    (fit pqFrame (pqSpec (pqClass R kde)) s { ext := pqExt }).1.start =
      (exIpw 0 s.start (-5) 5 + exIpw (-1) s.start (-5) 5) / 2 ∧
    PqSettings (fit pqFrame (pqSpec (pqClass R kde)) s { ext := pqExt }).1 := by
  have hc : checkFit (pqSpec (pqClass R kde)) s { ext := pqExt } = .ok (true, false) := by
    have : checkFitExt (pqSpec (pqClass R kde)) s pqExt = .ok () := by
      unfold checkFitExt
      rw [if_pos (show (pqSpec (pqClass R kde)).extImpl = true from rfl), hs.data, hs.nRep]
      exact pqExt_check
    simp only [checkFit, checkJobs, checkBool, this, bind, Except.bind, pure, Except.pure]
  have hin : cellIn (pqSpec (pqClass R kde)) (initFit (pqSpec (pqClass R kde)) s true false) pqExt false "d" 0 =
      .ok (pqCell s.start) := by
    have e1 : repSmpls (initFit (pqSpec (pqClass R kde)) s true false) 0 = .ok [exF0, exF1] := by
      simp [repSmpls, initFit, hs.smpls]
    have e2 : repCluster (pqSpec (pqClass R kde)) (initFit (pqSpec (pqClass R kde)) s true false) [exF0, exF1] 0 = .ok none :=
      rfl
    have e3 : ["ml_g", "ml_m"].mapM (getParams (initFit (pqSpec (pqClass R kde)) s true false) "d" 0) =
        .ok [("ml_g", none), ("ml_m", none)] := by
      simp only [List.mapM_cons, List.mapM_nil, getParams, initFit, hs.params "ml_g" (by simp), hs.params "ml_m" (by simp),
        bind, Except.bind, pure, Except.pure]
      simp
    have e4 : setExt 12 pqExt (pqSpec (pqClass R kde)).learners "d" 0 = .ok [("ml_g", none), ("ml_m", some exM)] := pqExt_set
    have e5 : (initFit (pqSpec (pqClass R kde)) s true false).data = pqData := hs.data
    unfold cellIn
    rw [e4, e1]
    simp only [bind, Except.bind]
    rw [e2, show (pqSpec (pqClass R kde)).learners = ["ml_g", "ml_m"] from rfl, e3, e5]
    rfl
  obtain ⟨o, g, m, t, u, ho, hp, ht, hg, hst⟩ := pqEst_ex R kde s.start
  obtain ⟨l, hl⟩ := pqLoss R kde (g := g) (m := m) (t := t) (u := u)
  rw [← hp, ← ht] at hl
  obtain ⟨r1, r2, r3, r4⟩ := single_fit (F := pqFrame) (a := { ext := pqExt }) rfl hs.shaped hc
    (by rw [hs.data]; rfl) hs.nRep hin ho hl
  obtain ⟨fr1, fr2, fr3, fr4, fr5, fr6⟩ := fit_frame pqFrame (pqSpec (pqClass R kde)) s { ext := pqExt }
  refine ⟨r1, ?_, r2.trans hst, ?_⟩
  · have := r4 rfl
    obtain ⟨f, hf1, hf2⟩ := Option.map_eq_some_iff.1 this
    unfold predAt
    rw [hf1]
    show (f 0 0 >>= fun r => lookupKey "ml_g" r.1 >>= fun v => v 4) = _
    rw [hf2]
    show (lookupKey "ml_g" o.preds >>= fun v => v 4) = _
    rw [hp, ← hg]
    rfl
  · refine ⟨⟨by rw [fr1.nRep]; exact hs.shaped.pos, by rw [fr1.nT, fr1.data.d]; exact hs.shaped.nT,
      by rw [fr1.nR, fr1.nRep]; exact hs.shaped.nR⟩, r3.trans hs.data, by rw [fr1.nRep]; exact hs.nRep,
      by rw [fr1.smpls]; exact hs.smpls, by rw [fr1.params]; exact hs.params⟩

theorem exIpw_m1 : exIpw (-1) (-(1 / 2)) (-5) 5 = -(3 / 2) := by
  unfold exIpw
  rw [exSolve 2 (by norm_num) (by norm_num) (by unfold bracketAt; norm_num) (by unfold bracketAt; norm_num)]
  · unfold bracketAt
    norm_num
  · intro l h1 h2
    obtain rfl : l = 1 := by omega
    unfold bracketAt
    norm_num

theorem exIpw_second : exIpw 0 (-(5 / 4)) (-5) 5 = -(11 / 4) := by
  unfold exIpw
  rw [exSolve 3 (by norm_num) (by norm_num) (by unfold bracketAt; norm_num) (by unfold bracketAt; norm_num)]
  · unfold bracketAt
    norm_num
  · intro l h1 h2
    obtain rfl | rfl : l = 1 ∨ l = 2 := by omega
    · unfold bracketAt
      norm_num
    · unfold bracketAt
      norm_num

/-- The model of the example: the constructor without drawing, then `set_sample_splitting`. -/
theorem pqModel (w : Draws 12) : ∃ s0 s,
    initModel (pqSpec (pqClass R kde)) pqData (pqStart (exY 5) exD 1 (5 / 6)) (.int 2) (.int 1) (.bool false) w = .ok s0 ∧
    setSampleSplitting (pqSpec (pqClass R kde)) s0 pqSplit none = (s, .ok ()) ∧
    PqSettings s ∧ s.start = -(1 / 2) := by
  have h2 : checkInteger (.int 2) (some 1) none = .ok 2 := by simp [checkInteger, PyVal.asInt]
  have h3 : checkInteger (.int 1) (some 1) none = .ok 1 := by simp [checkInteger, PyVal.asInt]
  have hst : pqStart (exY 5) exD 1 (5 / 6) = -(1 / 2) := by
    unfold pqStart
    rw [exTreated, exQuantile]
  rw [hst]
  obtain ⟨s0, h0, hd, hs0⟩ : ∃ s0, initModel (pqSpec (pqClass R kde)) pqData (-(1 / 2)) (.int 2) (.int 1) (.bool false) w =
      .ok s0 ∧ s0.data = pqData ∧ s0.start = -(1 / 2) := by
    unfold initModel
    rw [h2, h3]
    exact ⟨_, rfl, rfl, rfl⟩
  have hss : setSampleSplitting (pqSpec (pqClass R kde)) s0 pqSplit none = (initArrays { s0 with
      smpls := some [[exF0, exF1]]
      smplsCluster := none
      nRep := 1
      nFolds := 2
      params := initParams ["ml_g", "ml_m"] s0.data.d 1 }, .ok ()) := by
    unfold setSampleSplitting
    rw [pqSplit_check]
    rfl
  refine ⟨s0, _, h0, hss, ⟨initArrays_shaped one_pos, hd, rfl, rfl, ?_⟩, hs0⟩
  intro l hl
  show initParams ["ml_g", "ml_m"] s0.data.d 1 l "d" = _
  unfold initParams
  rw [if_pos ⟨hl, by rw [hd]; simp [pqData]⟩]
  rfl

/-- **C29 (PQ, violated).** Fitting a PQ model twice in a row, without changing anything in between, does not give the
same results: for a data set with twelve observations the first fit predicts 1 and the second fit 0 for observation 4.
Everything is deterministic here (learners, split, halves, minimiser), start value and bounds are those of the
constructor; the second fit starts its searches at the average of the preliminary estimates of the first fit. -/
theorem C29_pq_violated (w : Draws 12) : (pqClass R kde).nested.Ok ∧ ∃ s0 s,
    initModel (pqSpec (pqClass R kde)) pqData (pqStart (exY 5) exD 1 (5 / 6)) (.int 2) (.int 1) (.bool false) w = .ok s0 ∧
    setSampleSplitting (pqSpec (pqClass R kde)) s0 pqSplit none = (s, .ok ()) ∧
    ∃ s1 s2, fit pqFrame (pqSpec (pqClass R kde)) s { ext := pqExt } = (s1, .ok ()) ∧
      fit pqFrame (pqSpec (pqClass R kde)) s1 { ext := pqExt } = (s2, .ok ()) ∧
      predAt s1 0 0 "ml_g" 4 = some 1 ∧ predAt s2 0 0 "ml_g" 4 = some 0 := by
  obtain ⟨s0, s, h1, h2, h3, h4⟩ := pqModel R kde w
  refine ⟨exNested_ok 12, s0, s, h1, h2, ?_⟩
  obtain ⟨a1, a2, a3, a4⟩ := pqFit_ex R kde h3
  obtain ⟨b1, b2, b3, b4⟩ := pqFit_ex R kde a4
  refine ⟨_, _, Prod.ext rfl a1, Prod.ext rfl b1, ?_, ?_⟩
  · rw [a2, h4, exIpw5]
    norm_num [indLe]
  · rw [b2, a3, h4, exIpw5, exIpw_m1, show ((-1 : ℝ) + -(3 / 2)) / 2 = -(5 / 4) by norm_num, exIpw_second]
    norm_num [indLe]

/-! ## Classes that read the start value but keep it

CVaR reads the start value and never changes it. -/

/-- The estimation of a cell leaves the start value as it is. -/
def StartKept (sp : Spec n P M) : Prop := ∀ c o, sp.est c = .ok o → o.start = c.start

/-- The class with the start value fixed to `x`. -/
def frozen (sp : Spec n P M) (x : ℝ) : Spec n P M := { sp with est := fun c => sp.est { c with start := x } }

theorem frozen_startFree (sp : Spec n P M) (x : ℝ) : StartFree (frozen sp x) := fun _ _ => rfl

theorem cellIn_start {sp : Spec n P M} {s : MState n P M} {ext : ExtArg} {m : Bool} {tv : String} {k : ℕ} {c : CellIn n P}
    (h : cellIn sp s ext m tv k = .ok c) : c.start = s.start := by
  unfold cellIn at h
  obtain ⟨_, _, h⟩ := bind_ok h
  obtain ⟨_, _, h⟩ := bind_ok h
  obtain ⟨_, _, h⟩ := bind_ok h
  obtain ⟨_, _, h⟩ := bind_ok h
  rw [← Except.ok.inj h]

theorem frozen_cell {sp : Spec n P M} {s : MState n P M} (ext : ExtArg) (m : Bool) (tv : String) (k : ℕ) :
    (cellIn (frozen sp s.start) s ext m tv k).bind (frozen sp s.start).est = (cellIn sp s ext m tv k).bind sp.est := by
  show (cellIn sp s ext m tv k).bind (frozen sp s.start).est = _
  cases h : cellIn sp s ext m tv k with
  | error e => rfl
  | ok c =>
    show sp.est { c with start := s.start } = sp.est c
    rw [← cellIn_start h]

theorem fitCell_frozen {F : Frame n} {sp : Spec n P M} (hk : StartKept sp) {ext : ExtArg} {p m : Bool} {x : ℝ}
    {s : MState n P M} (hx : s.start = x) (kj : ℕ × ℕ) :
    fitCell F (frozen sp x) ext p m s kj = fitCell F sp ext p m s kj ∧ (fitCell F sp ext p m s kj).1.start = x := by
  subst hx
  unfold fitCell
  cases activate F s.data kj.2 with
  | error e => exact ⟨rfl, rfl⟩
  | ok D =>
    dsimp only
    have hc := frozen_cell (sp := sp) (s := { s with data := D }) ext m (D.d.getD kj.2 "") kj.1
    rw [show (cellIn (frozen sp s.start) { s with data := D } ext m (D.d.getD kj.2 "") kj.1).bind (frozen sp s.start).est =
      (cellIn sp { s with data := D } ext m (D.d.getD kj.2 "") kj.1).bind sp.est from hc]
    cases ho : (cellIn sp { s with data := D } ext m (D.d.getD kj.2 "") kj.1).bind sp.est with
    | error e => exact ⟨rfl, rfl⟩
    | ok o =>
      dsimp only
      have hos : o.start = s.start := by
        obtain ⟨c, hc1, hc2⟩ := bind_ok ho
        rw [hk c o hc2, cellIn_start hc1]
      refine ⟨rfl, ?_⟩
      unfold storeCell
      split_ifs
      · cases calcLoss sp o.preds o.targets with
        | error e => exact hos
        | ok l => exact hos
      · exact hos

theorem fitLoop_frozen {F : Frame n} {sp : Spec n P M} (hk : StartKept sp) {ext : ExtArg} {p m : Bool} {x : ℝ}
    (L : List (ℕ × ℕ)) {s : MState n P M} (hx : s.start = x) :
    fitLoop F (frozen sp x) ext p m s L = fitLoop F sp ext p m s L ∧ (fitLoop F sp ext p m s L).1.start = x := by
  induction L generalizing s with
  | nil => exact ⟨rfl, hx⟩
  | cons c cs ih =>
    obtain ⟨h1, h2⟩ := fitCell_frozen (F := F) hk (ext := ext) (p := p) (m := m) hx c
    unfold fitLoop
    rw [h1]
    rcases hq : fitCell F sp ext p m s c with ⟨t, (e | u)⟩
    · rw [hq] at h2
      exact ⟨rfl, h2⟩
    · rw [hq] at h2
      exact ih h2

theorem fit_frozen {F : Frame n} {sp : Spec n P M} (hk : StartKept sp) {x : ℝ} {s : MState n P M} (hx : s.start = x)
    (a : FitArgs) : fit F (frozen sp x) s a = fit F sp s a ∧ (fit F sp s a).1.start = x := by
  unfold fit
  have hc : checkFit (frozen sp x) s a = checkFit sp s a := rfl
  rw [hc]
  cases checkFit sp s a with
  | error e => exact ⟨rfl, hx⟩
  | ok pm =>
    obtain ⟨p, m⟩ := pm
    dsimp only
    have hi : initFit (frozen sp x) s p m = initFit sp s p m := rfl
    rw [hi]
    obtain ⟨h1, h2⟩ := fitLoop_frozen (F := F) hk (ext := a.ext) (p := p) (m := m)
      (cellOrder s.nRep s.data.d.length) (s := initFit sp s p m) hx
    rw [h1]
    rcases hq : fitLoop F sp a.ext p m (initFit sp s p m) (cellOrder s.nRep s.data.d.length) with ⟨t, (e | u)⟩
    · rw [hq] at h2
      exact ⟨rfl, h2⟩
    · rw [hq] at h2
      refine ⟨rfl, ?_⟩
      dsimp only
      unfold finishAt
      cases (frameworkOf (t.heap t.arr).nR sp (aggregate sp t)).construct with
      | error e => exact h2
      | ok fw => exact h2

theorem mrun_kept (E : Ext) (F : Frame n) {sp : Spec n P M} (hk : StartKept sp) {x : ℝ} (os : List (MOp n P))
    (ho : ∀ o ∈ os, o.calm = true) {s : MState n P M} (hx : s.start = x) :
    mrun E F (frozen sp x) s os = mrun E F sp s os ∧ (mrun E F sp s os).start = x := by
  induction os generalizing s with
  | nil => exact ⟨rfl, hx⟩
  | cons o os ih =>
    have hstep : mstep E F (frozen sp x) s o = mstep E F sp s o ∧ (mstep E F sp s o).1.start = x := by
      have hc := ho o (List.mem_cons_self ..)
      cases o with
      | fit a =>
        obtain ⟨h1, h2⟩ := fit_frozen (F := F) hk hx a
        refine ⟨?_, h2⟩
        show ((fit F (frozen sp x) s a).1, _) = ((fit F sp s a).1, _)
        rw [h1]
      | infer q =>
        refine ⟨rfl, ?_⟩
        show (infer E s q).1.start = x
        rw [(infer_frame E s q).1]
        exact hx
      | draw w => cases hc
      | setSplit a c => cases hc
      | setParams a b c => cases hc
      | tune f a b => cases hc
      | data d => cases hc
    show mrun E F (frozen sp x) (mstep E F (frozen sp x) s o).1 os = mrun E F sp (mstep E F sp s o).1 os ∧ _
    rw [hstep.1]
    exact ih (fun o' h' => ho o' (List.mem_cons_of_mem _ h')) hstep.2

/-- **C29.** Fitting again after any history of fits and inference calls gives the same results as fitting right away,
also for classes that read the start value, as long as they do not change it. -/
theorem C29_refit_kept (E : Ext) (F : Frame n) {sp : Spec n P M} (hk : StartKept sp) {s : MState n P M} (hs : WF s)
    (os : List (MOp n P)) (ho : ∀ o ∈ os, o.calm = true) (a : FitArgs) {p m : Bool} (hp : a.storePredictions = .bool p)
    (hm : a.storeModels = .bool m) :
    (fit F sp (mrun E F sp s os) a).2 = (fit F sp s a).2 ∧
      ((fit F sp s a).2 = .ok () →
        SameResults sp p m (fit F sp s a).1 (fit F sp (mrun E F sp s os) a).1 ∧
        ∀ q : ∀ r, Op n r, (infer E (fit F sp (mrun E F sp s os) a).1 q).2 = (infer E (fit F sp s a).1 q).2) := by
  obtain ⟨h1, h2⟩ := mrun_kept E F hk os ho (s := s) rfl
  have key := C29_refit E F (frozen_startFree sp s.start) hs os ho a hp hm
  rw [h1, (fit_frozen (F := F) hk h2 a).1, (fit_frozen (F := F) hk (s := s) rfl a).1] at key
  refine ⟨key.1, fun hok => ?_⟩
  obtain ⟨k1, k2⟩ := key.2 hok
  exact ⟨⟨k1.1, k1.2, k1.3, k1.4, k1.5, k1.6, k1.7, k1.8, k1.9, k1.10⟩, k2⟩

theorem cvar_startKept (k : PqClass n P) : StartKept (cvarSpec k) := by
  intro c o h
  obtain ⟨q, _, h⟩ := bind_ok (show (quantNuisance k.nested k.ml_m (fun m x => k.ml_g.predict m.params m.data x) (k.set c.start)
    (fun ipw y => cvarTarget k.q ipw y) c.obs c.smpls
    (lookupKey "ml_g" c.params).join (lookupKey "ml_m" c.params).join none none c.wantModels >>= _) = .ok o from h)
  rw [← Except.ok.inj h]

/-- **C29 (CVaR).** The results of a fit do not depend on earlier fits and inference calls. -/
theorem C29_cvar (E : Ext) (F : Frame n) (k : PqClass n P) {s : MState n P (Option (List (FittedModel P (List Cell))))} (hs : WF s)
    (os : List (MOp n P)) (ho : ∀ o ∈ os, o.calm = true) (a : FitArgs) {p m : Bool} (hp : a.storePredictions = .bool p)
    (hm : a.storeModels = .bool m) :
    (fit F (cvarSpec k) (mrun E F (cvarSpec k) s os) a).2 = (fit F (cvarSpec k) s a).2 ∧
      ((fit F (cvarSpec k) s a).2 = .ok () →
        SameResults (cvarSpec k) p m (fit F (cvarSpec k) s a).1 (fit F (cvarSpec k) (mrun E F (cvarSpec k) s os) a).1 ∧
        ∀ q : ∀ r, Op n r, (infer E (fit F (cvarSpec k) (mrun E F (cvarSpec k) s os) a).1 q).2 =
          (infer E (fit F (cvarSpec k) s a).1 q).2) :=
  C29_refit_kept E F (cvar_startKept k) hs os ho a hp hm

end DML
