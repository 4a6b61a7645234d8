import Verif.ParamProps

/-!
# A PLR fit with valid inputs succeeds
-/

namespace DML

open Finset

variable {n : ℕ} {P M : Type}

theorem fitLoop_succeeds {F : Frame n} {sp : Spec n P M} {ext : ExtArg} {p m : Bool} {s₀ : MState n P M}
    (L : List (ℕ × ℕ)) (h : ∀ c ∈ L, ∀ t, FitFrame s₀ t → (fitCell F sp ext p m t c).2 = .ok ()) {s : MState n P M}
    (hs : FitFrame s₀ s) : (fitLoop F sp ext p m s L).2 = .ok () := by
  induction L generalizing s with
  | nil => rfl
  | cons c L ih =>
    have h1 := h c (List.mem_cons_self ..) s hs
    have h2 := fitCell_frame F sp ext p m s c
    unfold fitLoop
    rcases hq : fitCell F sp ext p m s c with ⟨t, (e | u)⟩
    · rw [hq] at h1; cases h1
    · rw [hq] at h2
      exact ih (fun c' hc' => h c' (List.mem_cons_of_mem _ hc')) (hs.trans h2)

/-- The losses of a partialling-out PLR model can always be computed. -/
theorem plr_loss_total {k : PlrClass n P} (hiv : k.iv = false) {preds : List (String × NV n)}
    {targets : List (String × Option (NV n))} (hp : ∀ l ∈ ["ml_l", "ml_m"], (lookupKey l preds).isSome)
    (ht : ∀ l ∈ ["ml_l", "ml_m"], (lookupKey l targets).isSome) : ∃ r, calcLoss (plrSpec k) preds targets = .ok r := by
  have hl : (plrSpec k).learners = ["ml_l", "ml_m"] := by simp [plrSpec, hiv]
  have hk : (plrSpec k).keys = [("ml_l", false), ("ml_m", k.mClassifier)] := by simp [plrSpec, hiv]
  have h1 : ([("ml_l", false), ("ml_m", k.mClassifier)] : List (String × Bool)).filter
      (fun q => decide (q.1.toList <:+: "ml_l".toList)) = [("ml_l", false)] := by
    cases k.mClassifier <;> decide
  have h2 : ([("ml_l", false), ("ml_m", k.mClassifier)] : List (String × Bool)).filter
      (fun q => decide (q.1.toList <:+: "ml_m".toList)) = [("ml_m", k.mClassifier)] := by
    cases k.mClassifier <;> decide
  obtain ⟨p1, hp1⟩ := Option.isSome_iff_exists.1 (hp "ml_l" (by simp))
  obtain ⟨p2, hp2⟩ := Option.isSome_iff_exists.1 (hp "ml_m" (by simp))
  obtain ⟨t1, ht1⟩ := Option.isSome_iff_exists.1 (ht "ml_l" (by simp))
  obtain ⟨t2, ht2⟩ := Option.isSome_iff_exists.1 (ht "ml_m" (by simp))
  have e1 : ∃ r, learnerLoss (plrSpec k).keys preds targets "ml_l" = .ok r := by
    unfold learnerLoss
    rw [hk, h1, ht1, hp1]
    cases t1 <;> exact ⟨_, rfl⟩
  have e2 : ∃ r, learnerLoss (plrSpec k).keys preds targets "ml_m" = .ok r := by
    unfold learnerLoss
    rw [hk, h2, ht2, hp2]
    cases t2 <;> exact ⟨_, rfl⟩
  obtain ⟨r1, e1⟩ := e1
  obtain ⟨r2, e2⟩ := e2
  refine ⟨[r1, r2], ?_⟩
  unfold calcLoss
  rw [hl]
  simp only [List.mapM_cons, List.mapM_nil, e1, e2, bind, Except.bind, pure, Except.pure]

/-- What a partialling-out PLR model with regressors needs for a fit without external predictions: one
treatment, valid splits, parameters for the right number of folds, and predictions of a binary treatment that are not all 0 or 1. -/
structure PlrReady (k : PlrClass n P) (s : MState n P (Option (List (FittedModel P (List Cell))))) (tv : String) : Prop where
  iv : k.iv = false
  cluster : k.vars = none ∨ ∃ lc, s.smplsCluster = some lc ∧ lc.length = s.nRep
  regressor : k.mClassifier = false
  shaped : Shaped s
  treat : s.data.d = [tv]
  split : ∃ L, s.smpls = some L ∧ L.length = s.nRep ∧ ∀ S ∈ L, isPartition S = true ∧ ∀ f ∈ S, f.train.Nodup
  params : ∀ l ∈ ["ml_l", "ml_m"], ∃ v, s.params l tv = some v ∧ v.length = s.nRep ∧
    ∀ (k : ℕ) (q : List P), v[k]? = some (some q) → ∀ (L : List (List (Fold n))) (S : List (Fold n)),
      s.smpls = some L → L[k]? = some S → q.length = S.length
  binary : ∃ b, lookupKey tv s.data.binTreats = some b
  proper : 0 < n ∧ ∀ p D x, k.ml_m.predict p D x ≠ 0 ∧ k.ml_m.predict p D x ≠ 1

/-- Under these conditions `fit()` succeeds. -/
theorem plr_fit_succeeds {F : Frame n} {k : PlrClass n P} {s : MState n P (Option (List (FittedModel P (List Cell))))}
    {tv : String} (h : PlrReady k s tv) {a : FitArgs} {p m : Bool} (hp : a.storePredictions = .bool p)
    (hm : a.storeModels = .bool m) (hj : a.nJobs = .none) (he : a.ext = .none) :
    (fit F (plrSpec k) s a).2 = .ok () := by
  have hl : (plrSpec k).learners = ["ml_l", "ml_m"] := by simp [plrSpec, h.iv]
  have hc : checkFit (plrSpec k) s a = .ok (p, m) := by
    have : checkFitExt (plrSpec k) s a.ext = .ok () := by rw [he]; rfl
    simp only [checkFit, hj, hp, hm, checkJobs, checkBool, this, bind, Except.bind, pure, Except.pure]
  refine plr_fit_ok h.shaped hc ?_
  have hlen : s.data.d.length = 1 := by rw [h.treat]; rfl
  refine fitLoop_succeeds (s₀ := s) _ ?_ (initFit_frame _ s p m)
  rintro ⟨q, j⟩ hq t ht
  obtain ⟨hqr, hj1⟩ := mem_cellOrder.1 hq
  rw [hlen] at hj1
  obtain rfl : j = 0 := by omega
  have hd : t.data = s.data := ht.settings.data.active hlen.le
  obtain ⟨L, hL, hLl, hLS⟩ := h.split
  have hLq : L[q]? = some (L[q]'(by omega)) := List.getElem?_eq_getElem (by omega)
  obtain ⟨hpart, hnd⟩ := hLS _ (List.getElem_mem (n := q) (by omega))
  generalize L[q]'(by omega) = S at *
  have hact : activate F t.data 0 = .ok s.data := by
    rw [hd]
    unfold activate
    rw [h.treat]
    simp
  obtain ⟨v1, hv1, hv1l, hv1f⟩ := h.params "ml_l" (by simp)
  obtain ⟨v2, hv2, hv2l, hv2f⟩ := h.params "ml_m" (by simp)
  have hq1 : v1[q]? = some (v1[q]'(by omega)) := List.getElem?_eq_getElem (by omega)
  have hq2 : v2[q]? = some (v2[q]'(by omega)) := List.getElem?_eq_getElem (by omega)
  generalize v1[q]'(by omega) = p1 at hq1
  generalize v2[q]'(by omega) = p2 at hq2
  obtain ⟨cl, e2⟩ : ∃ cl, repCluster (plrSpec k) { t with data := s.data } S q = .ok cl := by
    have hv : (plrSpec k).vars = k.vars := rfl
    unfold repCluster
    rcases h.cluster with h0 | ⟨lc, h0, h1⟩
    · rw [hv, h0]; exact ⟨_, rfl⟩
    · rw [hv]
      cases k.vars with
      | none => exact ⟨_, rfl⟩
      | some v =>
        have h2 : t.smplsCluster = some lc := ht.settings.smplsCluster.trans h0
        have h3 : lc[q]? = some (lc[q]'(by omega)) := List.getElem?_eq_getElem (by omega)
        simp only [h2, h3]
        exact ⟨_, rfl⟩
  have hin : cellIn (plrSpec k) { t with data := s.data } a.ext m tv q =
      .ok ⟨s.data, tv, S, cl, [("ml_l", p1), ("ml_m", p2)], [("ml_l", none), ("ml_m", none)], t.start, m, q⟩ := by
    have e0 : setExt n a.ext (plrSpec k).learners tv q = .ok [("ml_l", none), ("ml_m", none)] := by
      rw [he, hl]; rfl
    have e1 : repSmpls { t with data := s.data } q = .ok S := by
      unfold repSmpls
      have : t.smpls = some L := ht.settings.smpls.trans hL
      simp only [this, hLq]
    have e3 : (plrSpec k).learners.mapM (getParams { t with data := s.data } tv q) =
        .ok [("ml_l", p1), ("ml_m", p2)] := by
      have g1 : getParams { t with data := s.data } tv q "ml_l" = .ok ("ml_l", p1) := by
        unfold getParams
        have : t.params "ml_l" tv = some v1 := by rw [ht.settings.params]; exact hv1
        simp only [this, hq1]
      have g2 : getParams { t with data := s.data } tv q "ml_m" = .ok ("ml_m", p2) := by
        unfold getParams
        have : t.params "ml_m" tv = some v2 := by rw [ht.settings.params]; exact hv2
        simp only [this, hq2]
      rw [hl]
      simp only [List.mapM_cons, List.mapM_nil, g1, g2, bind, Except.bind, pure, Except.pure]
    unfold cellIn
    rw [e0, e1]
    simp only [bind, Except.bind]
    rw [e2, e3]
    rfl
  generalize hcin : (⟨s.data, tv, S, cl, [("ml_l", p1), ("ml_m", p2)], [("ml_l", none), ("ml_m", none)], t.start,
    m, q⟩ : CellIn n P) = c at hin
  have hx1 : c.extOf "ml_l" = none := by subst hcin; simp [CellIn.extOf, lookupKey]
  have hx2 : c.extOf "ml_m" = none := by subst hcin; simp [CellIn.extOf, lookupKey]
  have hfit : ∀ (v : List (Option (List P))) (p : Option (List P)), v[q]? = some p →
      (∀ (k : ℕ) (q : List P), v[k]? = some (some q) → ∀ (L : List (List (Fold n))) (S : List (Fold n)),
      s.smpls = some L → L[k]? = some S → q.length = S.length) →
      (toParams p).Fits S.length := by
    intro v p hvp hv l hl
    cases p with
    | none => cases hl
    | some l' =>
      cases hl
      exact hv q l hvp L S hL hLq
  have hq1 : (c.paramsOf "ml_l").Fits c.smpls.length := by
    subst hcin
    simpa [CellIn.paramsOf, lookupKey] using hfit v1 p1 hq1 hv1f
  have hq2 : (c.paramsOf "ml_m").Fits c.smpls.length := by
    subst hcin
    simpa [CellIn.paramsOf, lookupKey] using hfit v2 p2 hq2 hv2f
  have hcs : c.smpls = S := by subst hcin; rfl
  obtain ⟨rl, hrl, _⟩ := learn_total k.ml_l hq1 (by rw [hcs]; exact hpart) (by rw [hcs]; exact hnd)
    fun i => (c.data.yv i).val
  obtain ⟨rm, hrm, hrmv⟩ := learn_total k.ml_m hq2 (by rw [hcs]; exact hpart) (by rw [hcs]; exact hnd)
    fun i => (c.data.dv i).val
  have e1 : plrL k c = .ok rl := by
    unfold plrL
    rw [hx1, h.iv]
    simpa using hrl
  have e2 : plrM k c = .ok rm := by
    unfold plrM
    rw [hx2, h.regressor]
    simp only [Bool.false_eq_true, if_false]
    rw [hrm]
    have : checkTreatPreds c rm.preds = .ok () := by
      obtain ⟨b, hb⟩ := h.binary
      unfold checkTreatPreds
      have hb' : lookupKey c.treat c.data.binTreats = some b := by subst hcin; exact hb
      rw [hb']
      cases b with
      | false => rfl
      | true =>
        simp only
        unfold checkBinaryPreds
        rw [if_neg]
        intro hall
        obtain ⟨f, hf, _⟩ := C26_complete hpart (⟨0, h.proper.1⟩ : Fin n)
        have hv := hrmv f.val (by rw [hcs]; exact f.2) ⟨0, h.proper.1⟩ (by simp only [hcs]; exact hf)
        rcases hall ⟨0, h.proper.1⟩ with h0 | h0
        · rw [hv] at h0; exact (h.proper.2 _ _ _).1 (Option.some.inj h0)
        · rw [hv] at h0; exact (h.proper.2 _ _ _).2 (Option.some.inj h0)
    simp only [bind, Except.bind, this, pure, Except.pure]
  have e3 : plrG k c rl rm = .ok noRes := by unfold plrG; rw [h.iv]; rfl
  obtain ⟨o, ho, ho1, ho2⟩ : ∃ o, plrEst k c = .ok o ∧
      o.preds = [("ml_l", rl.preds), ("ml_m", rm.preds), ("ml_g", (noRes : CvRes n P (List Cell)).preds)] ∧
      o.targets = [("ml_l", rl.targets), ("ml_m", rm.targets), ("ml_g", (noRes : CvRes n P (List Cell)).targets)] := by
    unfold plrEst
    simp only [e1, e2, e3, bind, Except.bind, pure, Except.pure]
    exact ⟨_, rfl, rfl, rfl⟩
  obtain ⟨r, hr⟩ := plr_loss_total (preds := o.preds) (targets := o.targets) h.iv
    (by rw [ho1]; simp [lookupKey]) (by rw [ho2]; simp [lookupKey])
  unfold fitCell
  simp only [hact]
  have hd0 : s.data.d.getD 0 "" = tv := by rw [h.treat]; rfl
  rw [hd0, hin]
  have hest : (plrSpec k).est = plrEst k := rfl
  simp only [Except.bind, hest, ho]
  unfold storeCell
  rw [if_pos, hr]
  refine ⟨?_, ?_⟩
  · show 0 < (t.heap t.arr).nT
    rw [ht.settings.nT, h.shaped.nT, hlen]; exact one_pos
  · show q < (t.heap t.arr).nR
    rw [ht.settings.nR, h.shaped.nR]; exact hqr

/-- The constructed example model is ready, with the split that `exSplit` sets. -/
theorem exReady (w : Draws 2) : ∃ s, initModel (plrSpec exHalf) exState 0 (.int 2) (.int 1) (.bool true) w = .ok s ∧
    PlrReady exHalf (setSampleSplitting (plrSpec exHalf) s exSplit none).1 "d" ∧
    (setSampleSplitting (plrSpec exHalf) s exSplit none).1.smpls = some [[⟨[0], [1]⟩, ⟨[1], [0]⟩]] ∧
    (setSampleSplitting (plrSpec exHalf) s exSplit none).1.nRep = 1 ∧
    (setSampleSplitting (plrSpec exHalf) s exSplit none).1.nFolds = 2 ∧
    (setSampleSplitting (plrSpec exHalf) s exSplit none).1.data = exState := by
  obtain ⟨s, hi, hs, hf⟩ := exModel (k := exHalf) ⟨rfl, rfl⟩ w
  refine ⟨s, hi, ?_⟩
  have hval : ValidSplit 2 [([0], [1]), ([1], [0])] := by
    refine ⟨by decide, ?_, ?_⟩ <;> simp [InRange]
  have hsp := (C22_nested_accepted_iff 2 [([0], [1]), ([1], [0])] [] _).2 ⟨by simp, by simp, by simpa using hval, rfl⟩
  obtain ⟨l, nr, nf, c, h1, h2, h3⟩ := setSampleSplitting_ok (exSplit_ok (sp := plrSpec exHalf) rfl s)
  have h1 : checkSampleSplitting 2 (nestedArg [[([0], [1]), ([1], [0])]]) = .ok (l, nr, nf) := h1
  rw [hsp] at h1
  simp only [Except.ok.injEq, Prod.mk.injEq] at h1
  obtain ⟨rfl, rfl, rfl⟩ := h1
  rw [h3]
  have hsm : ([[([0], [1]), ([1], [0])]].map (List.map fun p : IdxPair => (isort p.1, isort p.2))).map
      (fun r => r.map toFold) = [[(⟨[0], [1]⟩ : Fold 2), ⟨[1], [0]⟩]] := by
    simp [toFold, isort]
  refine ⟨⟨rfl, .inl rfl, rfl, initArrays_shaped (by simp), ?_, ⟨_, congrArg some hsm, rfl, ?_⟩, ?_, ?_, ?_⟩, congrArg some hsm, rfl, rfl, hs.data⟩
  · exact congrArg DataState.d hs.data
  · intro S hS
    simp only [List.mem_cons, List.not_mem_nil, or_false] at hS
    subst hS
    exact ⟨by decide, by simp⟩
  · intro l hl
    refine ⟨[none], ?_, rfl, ?_⟩
    swap
    · intro k q hq
      rcases k with _ | k <;> simp at hq
    show initParams (plrSpec exHalf).learners s.data.d _ l "d" = _
    rw [hs.data]
    unfold initParams
    rw [if_pos ⟨by simpa [plrSpec, exHalf] using hl, by simp [exState]⟩]
    rfl
  · refine ⟨true, ?_⟩
    show lookupKey "d" s.data.binTreats = _
    rw [hs.data]
    simp [exState, lookupKey]
  · refine ⟨by norm_num, fun p D x => ?_⟩
    simp only [exHalf]
    norm_num

/-- Non-vacuity of `C45_plr_prediction`: a fit without external predictions that succeeds. -/
example (w : Draws 2) : ∃ s, initModel (plrSpec exHalf) exState 0 (.int 2) (.int 1) (.bool true) w = .ok s ∧
    (fit exFrame (plrSpec exHalf) (setSampleSplitting (plrSpec exHalf) s exSplit none).1 {}).2 = .ok () := by
  obtain ⟨s, hi, hr, _⟩ := exReady w
  exact ⟨s, hi, plr_fit_succeeds hr (p := true) (m := false) rfl rfl rfl rfl⟩

end DML
