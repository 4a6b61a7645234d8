import Verif.EvalProps

/-!
# C60: clustered standard errors and the number of folds given first
-/

namespace DML

open Finset

variable {n : ℕ} {P M : Type}

/-! ## Specification -/

/-- The factor between the standard error computed with `K'` and the one computed with `K` folds per cluster variable. -/
noncomputable def foldsFactor (v : Option (ClusterVars n)) (K K' : ℕ) : ℝ :=
  match v with
  | none => 1
  | some (.one _) => Real.sqrt (K' / K)
  | some (.two _ _) => K' / K

/-- Two models with the same data, splits and parameters; the number of folds they were created with may differ. -/
structure SameSplit (s s' : MState n P M) : Prop where
  data : s'.data = s.data
  smpls : s'.smpls = s.smpls
  smplsCluster : s'.smplsCluster = s.smplsCluster
  params : s'.params = s.params
  nRep : s'.nRep = s.nRep

/-- Classes with linear scores: the estimate is the one of score elements that depend neither on the clusters nor on the
start value. -/
def LinearClass (sp : Spec n P M) : Prop :=
  ∀ c o, sp.est c = .ok o → ∃ e : PsiElems n, ∀ cr x,
    ∃ o', sp.est { c with cluster := cr, start := x } = .ok o' ∧ o'.fit = e.fit cr

/-! ## Scaling of the variance estimator -/

theorem scale_parts {v j g a b : ℝ} (ha : a ≠ 0) (hb : b ≠ 0) :
    1 / (v * (j / b) ^ 2) * (g / b) = b / a * (1 / (v * (j / a) ^ 2) * (g / a)) := by
  by_cases hj : j = 0
  · simp [hj]
  by_cases hv : v = 0
  · simp [hv]
  field_simp

theorem varEst_one (psi deriv : Fin n → ℝ) (c : Fin n → ℤ) (fs : List (Fold n)) (cf : List ClusterFold) {K K' : ℕ}
    (hK : 0 < K) (hK' : 0 < K') : (varEst psi deriv (some ⟨.one c, fs, cf, K'⟩)).1 =
      K' / K * (varEst psi deriv (some ⟨.one c, fs, cf, K⟩)).1 := by
  simp only [varEst, varEstParts]
  exact scale_parts (by exact_mod_cast hK.ne') (by exact_mod_cast hK'.ne')

theorem varEst_two (psi deriv : Fin n → ℝ) (c d : Fin n → ℤ) (fs : List (Fold n)) (cf : List ClusterFold) {K K' : ℕ}
    (hK : 0 < K) (hK' : 0 < K') : (varEst psi deriv (some ⟨.two c d, fs, cf, K'⟩)).1 =
      ((K' : ℝ) / K) ^ 2 * (varEst psi deriv (some ⟨.two c d, fs, cf, K⟩)).1 := by
  simp only [varEst, varEstParts]
  have h1 : (K : ℝ) ≠ 0 := by exact_mod_cast hK.ne'
  have h2 : (K' : ℝ) ≠ 0 := by exact_mod_cast hK'.ne'
  rw [div_pow (K' : ℝ)]
  exact scale_parts (pow_ne_zero 2 h1) (pow_ne_zero 2 h2)

theorem fit_scale (e : PsiElems n) (v : Option (ClusterVars n)) (fs : List (Fold n)) (cf : List ClusterFold) {K K' : ℕ}
    (hK : 0 < K) (hK' : 0 < K') :
    (e.fit (v.map fun v => ⟨v, fs, cf, K'⟩)).coef = (e.fit (v.map fun v => ⟨v, fs, cf, K⟩)).coef ∧
    (e.fit (v.map fun v => ⟨v, fs, cf, K'⟩)).se = foldsFactor v K K' * (e.fit (v.map fun v => ⟨v, fs, cf, K⟩)).se := by
  rcases v with _ | (c | ⟨c, d⟩)
  · exact ⟨rfl, (one_mul _).symm⟩
  · refine ⟨rfl, ?_⟩
    simp only [PsiElems.fit, Option.map_some, foldsFactor]
    rw [varEst_one _ _ _ _ _ hK hK', Real.sqrt_mul (by positivity)]
    rfl
  · refine ⟨rfl, ?_⟩
    simp only [PsiElems.fit, Option.map_some, foldsFactor]
    rw [varEst_two _ _ _ _ _ _ hK hK', Real.sqrt_mul (by positivity), Real.sqrt_sq (by positivity)]
    rfl

/-! ## The cells of two fits -/

theorem params_det {α : Type} {ps ps' : List (String × α)} {R : String → α → Prop} (hR : ∀ l a b, R l a → R l b → a = b)
    (h : ps.map Prod.fst = ps'.map Prod.fst) (h1 : ∀ q ∈ ps, R q.1 q.2) (h2 : ∀ q ∈ ps', R q.1 q.2) : ps = ps' := by
  induction ps generalizing ps' with
  | nil => cases ps' with
    | nil => rfl
    | cons b bs => simp at h
  | cons a as ih =>
    cases ps' with
    | nil => simp at h
    | cons b bs =>
      simp only [List.map_cons, List.cons.injEq] at h
      have e1 : a.2 = b.2 := hR a.1 _ _ (h1 a (by simp)) (by rw [h.1]; exact h2 b (by simp))
      rw [Prod.ext h.1 e1, ih h.2 (fun q hq => h1 q (by simp [hq])) fun q hq => h2 q (by simp [hq])]

theorem CellFrom.det {F : Frame n} {sp : Spec n P M} {s s' : MState n P M} {ext : ExtArg} {k j : ℕ} {c c' : CellIn n P}
    (hs : SameSplit s s') (h : CellFrom F sp s ext k j c) (h' : CellFrom F sp s' ext k j c') (hm : c'.wantModels = c.wantModels) :
    c' = { c with cluster := c'.cluster, start := c'.start } := by
  have ht : c'.treat = c.treat := by
    have := h'.treat
    rw [hs.data, h.treat] at this
    exact (Option.some.inj this).symm
  have hd : c'.data = c.data := by rw [h'.data, h.data, hs.data, ht]
  have hsm : c'.smpls = c.smpls := by
    obtain ⟨l, h1, h2⟩ := h.smpls
    obtain ⟨l', h3, h4⟩ := h'.smpls
    rw [hs.smpls, h1] at h3
    obtain rfl := Option.some.inj h3
    rw [h2] at h4
    exact (Option.some.inj h4).symm
  have hp : c'.params = c.params := by
    refine params_det (R := fun l a => ∃ ps, s.params l c.treat = some ps ∧ ps[k]? = some a) ?_
      (h'.params.1.trans h.params.1.symm) ?_ h.params.2
    · rintro l a b ⟨ps, h1, h2⟩ ⟨ps', h3, h4⟩
      rw [h1] at h3
      obtain rfl := Option.some.inj h3
      rw [h2] at h4
      exact Option.some.inj h4
    · intro q hq
      have := h'.params.2 q hq
      rwa [hs.params, ht] at this
  have he : c'.ext = c.ext := by
    have := h'.ext
    rw [ht, h.ext] at this
    exact (Except.ok.inj this).symm
  rcases c' with ⟨a1, a2, a3, a4, a5, a6, a7, a8, a9⟩
  have hr : a9 = c.rep := h'.rep.trans h.rep.symm
  simp only at ht hd hsm hp he hm
  subst ht hd hsm hp he hm hr
  rfl

/-- **C60 (partial, exact error).** Two models with the same data, the same splits and parameters, created with `K` and `K'`
folds: a fit gives the same estimates; the standard error of every treatment and repetition is the same for data without
clusters, and differs by the factor `√(K'/K)` for one-way and `K'/K` for two-way clustering.  The full property claims the
factor 1. -/
theorem C60_factor_partial {F : Frame n} {sp : Spec n P M} (hsp : LinearClass sp) {s s' : MState n P M} (hs : SameSplit s s')
    (hK : 0 < s.nFoldsPer) (hK' : 0 < s'.nFoldsPer) {a : FitArgs} (h : (fit F sp s a).2 = .ok ())
    (h' : (fit F sp s' a).2 = .ok ()) {j k : ℕ} (hj : j < s.data.d.length) (hk : k < s.nRep) :
    ∃ coef se, ((fit F sp s a).1.heap (fit F sp s a).1.arr).coef j k = some coef ∧
      ((fit F sp s a).1.heap (fit F sp s a).1.arr).se j k = some se ∧
      ((fit F sp s' a).1.heap (fit F sp s' a).1.arr).coef j k = some coef ∧
      ((fit F sp s' a).1.heap (fit F sp s' a).1.arr).se j k =
        some (foldsFactor (sp.vars.map fun v => v s.data.cv) s.nFoldsPer s'.nFoldsPer * se) := by
  obtain ⟨p, m, _, hc, _⟩ := fit_ok h
  obtain ⟨hp, hm⟩ := checkFit_ok hc
  obtain ⟨c, o, _, H, hw, ho, _, h1, h2, _⟩ := fit_cells h hp hm hj hk
  obtain ⟨c', o', _, H', hw', ho', _, h1', h2', _⟩ := fit_cells h' hp hm (j := j) (k := k) (by rw [hs.data]; exact hj)
    (by rw [hs.nRep]; exact hk)
  have hdet := H.det hs H' (hw'.trans hw.symm)
  obtain ⟨e, he⟩ := hsp c o ho
  obtain ⟨o1, ho1, hf1⟩ := he c.cluster c.start
  have : o1 = o := Except.ok.inj (ho1.symm.trans ho)
  subst this
  obtain ⟨o2, ho2, hf2⟩ := he c'.cluster c'.start
  rw [← hdet] at ho2
  have : o2 = o' := Except.ok.inj (ho2.symm.trans ho')
  subst this
  refine ⟨_, _, h1, h2, ?_, ?_⟩ <;> rw [hf1]
  all_goals
    obtain ⟨cf, hcl, hcl'⟩ : ∃ cf, c.cluster = (sp.vars.map fun v => v s.data.cv).map (fun v => ⟨v, c.smpls, cf, s.nFoldsPer⟩) ∧
        c'.cluster = (sp.vars.map fun v => v s.data.cv).map (fun v => ⟨v, c.smpls, cf, s'.nFoldsPer⟩) := by
      cases hv : sp.vars with
      | none => exact ⟨[], H.noCluster hv, H'.noCluster hv⟩
      | some v =>
        obtain ⟨l, q, g1, g2, g3⟩ := H.cluster v hv
        obtain ⟨l', q', g1', g2', g3'⟩ := H'.cluster v hv
        rw [hs.smplsCluster, g1] at g1'
        obtain rfl := Option.some.inj g1'
        rw [g2] at g2'
        obtain rfl := Option.some.inj g2'
        have hsm : c'.smpls = c.smpls := by rw [hdet]
        exact ⟨q, g3, by rw [g3', hs.data, hsm]; rfl⟩
    have hsc := fit_scale e (sp.vars.map fun v => v s.data.cv) c.smpls cf hK hK'
    rw [← hcl, ← hcl', ← hf2] at hsc
  · rw [h1', hsc.1]
  · rw [h2', hsc.2]

/-! ## From the constructor on -/

/-- The constructor keeps the data and stores the number of folds. -/
theorem initModel_folds {sp : Spec n P M} {D : DataState n} {start : ℝ} {K : ℤ} {nr dr : PyVal} {w : Draws n}
    {s : MState n P M} (h : initModel sp D start (.int K) nr dr w = .ok s) :
    s.data = D ∧ 0 < K ∧ s.nFoldsPer = K.toNat := by
  unfold initModel at h
  obtain ⟨_, _, h⟩ := bind_ok h
  obtain ⟨k, hk, h⟩ := bind_ok h
  obtain ⟨r, hr, h⟩ := bind_ok h
  obtain ⟨b, hb, h⟩ := bind_ok h
  have hk1 := checkInteger_lower hk
  have hkK : k = K := by
    unfold checkInteger at hk
    simp only [PyVal.asInt] at hk
    split_ifs at hk
    exact (Except.ok.inj hk).symm
  subst hkK
  cases b with
  | false =>
    obtain rfl := Except.ok.inj h
    exact ⟨rfl, by omega, rfl⟩
  | true =>
    dsimp only at h
    rw [if_pos rfl] at h
    unfold drawSampleSplitting at h
    split at h
    · cases h
    · rename_i s1 hs1
      obtain rfl := Except.ok.inj h
      split at hs1
      · simp at hs1
      · obtain ⟨rfl, _⟩ := Prod.mk.inj hs1
        exact ⟨rfl, by omega, rfl⟩

/-- After the same split has been set, two models of the same data agree in everything but the number of folds they were
created with, which stays as it was. -/
theorem set_same {sp : Spec n P M} {s s' : MState n P M} {a : SplitArg} {cl : Option (List (List ClusterPair))}
    (hd : s'.data = s.data) (h : (setSampleSplitting sp s a cl).2 = .ok ()) :
    (setSampleSplitting sp s' a cl).2 = .ok () ∧
    SameSplit (setSampleSplitting sp s a cl).1 (setSampleSplitting sp s' a cl).1 ∧
    (setSampleSplitting sp s a cl).1.data = s.data ∧
    (setSampleSplitting sp s a cl).1.nFoldsPer = s.nFoldsPer ∧
    (setSampleSplitting sp s' a cl).1.nFoldsPer = s'.nFoldsPer ∧
    Shaped (setSampleSplitting sp s a cl).1 := by
  obtain ⟨l, nr, nf, c, h1, h2, h3⟩ := setSampleSplitting_ok h
  have h2' : checkedCluster sp s' cl nr nf = .ok c := by
    rw [← h2]
    unfold checkedCluster
    rw [hd]
  have h4 : setSampleSplitting sp s' a cl = (initArrays { s' with
        smpls := some (l.map fun r => r.map toFold)
        smplsCluster := c
        nRep := nr
        nFolds := nf
        params := initParams sp.learners s'.data.d nr }, .ok ()) := by
    unfold setSampleSplitting
    rw [h1]
    simp only
    rw [h2']
  rw [h4, h3]
  refine ⟨rfl, ⟨hd, rfl, rfl, ?_, rfl⟩, rfl, rfl, rfl, initArrays_shaped (C22_accepted_splits_valid n a l nr nf h1).2.1⟩
  show initParams sp.learners s'.data.d nr = initParams sp.learners s.data.d nr
  rw [hd]

/-- **C60 (partial).** Two models of the same data, created with the same number of folds (whatever the number of
repetitions, the drawn splits and the start value), given the same split and fitted: all results agree. -/
theorem C60_same_folds_partial {F : Frame n} {sp : Spec n P M} (hsf : StartFree sp) {D : DataState n} {x x' : ℝ} {K : ℤ}
    {nr nr' dr dr' : PyVal} {w w' : Draws n} {s s' : MState n P M} (hi : initModel sp D x (.int K) nr dr w = .ok s)
    (hi' : initModel sp D x' (.int K) nr' dr' w' = .ok s') {sa : SplitArg} {cl : Option (List (List ClusterPair))}
    (hset : (setSampleSplitting sp s sa cl).2 = .ok ()) (a : FitArgs) {p m : Bool} (hp : a.storePredictions = .bool p)
    (hm : a.storeModels = .bool m) :
    (fit F sp (setSampleSplitting sp s' sa cl).1 a).2 = (fit F sp (setSampleSplitting sp s sa cl).1 a).2 ∧
      ((fit F sp (setSampleSplitting sp s sa cl).1 a).2 = .ok () →
        SameResults sp p m (fit F sp (setSampleSplitting sp s sa cl).1 a).1 (fit F sp (setSampleSplitting sp s' sa cl).1 a).1) := by
  obtain ⟨d1, _, k1⟩ := initModel_folds hi
  obtain ⟨d2, _, k2⟩ := initModel_folds hi'
  obtain ⟨h1, h2, h3, h4, h5, h6⟩ := set_same (s' := s') (by rw [d1, d2]) hset
  obtain ⟨_, _, _, _, _, g6⟩ := set_same (s' := s) (by rw [d1, d2]) h1
  refine C29_fit_from_settings F hsf ⟨?_, h2.smpls, h2.smplsCluster, h2.params, h2.nRep, by rw [h4, h5, k1, k2], ?_, ?_⟩ h6 a hp hm
  · rw [h2.data]; exact .refl _
  · rw [g6.nT, h6.nT, h2.data]
  · rw [g6.nR, h6.nR, h2.nRep]

/-- **C60 (partial, exact error).** The same for models created with different numbers of folds. -/
theorem C60_constructed_partial {F : Frame n} {sp : Spec n P M} (hsp : LinearClass sp) {D : DataState n} {x x' : ℝ} {K K' : ℤ}
    {nr nr' dr dr' : PyVal} {w w' : Draws n} {s s' : MState n P M} (hi : initModel sp D x (.int K) nr dr w = .ok s)
    (hi' : initModel sp D x' (.int K') nr' dr' w' = .ok s') {sa : SplitArg} {cl : Option (List (List ClusterPair))}
    (hset : (setSampleSplitting sp s sa cl).2 = .ok ()) {a : FitArgs} {t t' : MState n P M}
    (h : fit F sp (setSampleSplitting sp s sa cl).1 a = (t, .ok ()))
    (h' : fit F sp (setSampleSplitting sp s' sa cl).1 a = (t', .ok ())) {j k : ℕ} (hj : j < D.d.length)
    (hk : k < (setSampleSplitting sp s sa cl).1.nRep) :
    ∃ coef se, (t.heap t.arr).coef j k = some coef ∧ (t.heap t.arr).se j k = some se ∧
      (t'.heap t'.arr).coef j k = some coef ∧
      (t'.heap t'.arr).se j k = some (foldsFactor (sp.vars.map fun v => v D.cv) K.toNat K'.toNat * se) := by
  obtain ⟨d1, p1, k1⟩ := initModel_folds hi
  obtain ⟨d2, p2, k2⟩ := initModel_folds hi'
  obtain ⟨h1, h2, h3, h4, h5, h6⟩ := set_same (s' := s') (by rw [d1, d2]) hset
  have := C60_factor_partial (F := F) hsp h2 (by rw [h4, k1]; omega) (by rw [h5, k2]; omega) (a := a) (by rw [h]) (by rw [h'])
    (j := j) (k := k) (by rw [h3, d1]; exact hj) hk
  rw [h, h', h3, h4, h5, k1, k2, d1] at this
  exact this

theorem plr_linear (k : PlrClass n P) : LinearClass (plrSpec k) := by
  intro c o ho
  have ho : plrEst k c = .ok o := ho
  unfold plrEst at ho
  obtain ⟨l, hl, ho⟩ := bind_ok ho
  obtain ⟨m, hm, ho⟩ := bind_ok ho
  obtain ⟨g, hg, ho⟩ := bind_ok ho
  refine ⟨plrElems k.iv (fun i => (c.data.yv i).val) (fun i => (c.data.dv i).val) l.vec m.vec g.vec, fun cr x => ?_⟩
  have hl' : plrL k { c with cluster := cr, start := x } = .ok l := hl
  have hm' : plrM k { c with cluster := cr, start := x } = .ok m := hm
  have hg' : plrG k { c with cluster := cr, start := x } l m = .ok g := hg
  have hest : (plrSpec k).est = plrEst k := rfl
  rw [hest]
  unfold plrEst
  simp only [hl', hm', hg', bind, Except.bind, pure, Except.pure]
  exact ⟨_, rfl, rfl⟩

/-! ## The violation -/

/-- The class of `exHalf` for data with one cluster variable. -/
noncomputable def exClu : PlrClass 2 ℕ :=
  { exHalf with vars := some fun cols => .one fun i => ⌊((cols.headD fun _ => .num 0) i).val⌋ }

/-- The example data, the treatment being the cluster variable as well. -/
noncomputable def exCluState : DataState 2 := { exState with cluster := some ["d"], cv := [exFrame.col "d"] }

/-- The clusters of the two folds of `exSplit`. -/
def exCluSplit : Option (List (List ClusterPair)) := some [[([[0]], [[1]]), ([[1]], [[0]])]]

theorem exClu_vars : (plrSpec exClu).vars.map (fun v => v exCluState.cv) = some (.one fun i : Fin 2 => (i.val : ℤ)) := by
  show some (ClusterVars.one fun i => ⌊((exCluState.cv.headD fun _ => .num 0) i).val⌋) = _
  congr 2
  funext i
  simp [exCluState, exFrame, Cell.val]

theorem exClu_set {s : MState 2 ℕ (Option (List (FittedModel ℕ (List Cell))))} (hd : s.data = exCluState) :
    setSampleSplitting (plrSpec exClu) s exSplit exCluSplit = (initArrays { s with
        smpls := some [[⟨[0], [1]⟩, ⟨[1], [0]⟩]]
        smplsCluster := some [[⟨[1], []⟩, ⟨[0], []⟩]]
        nRep := 1
        nFolds := 2
        params := initParams (plrSpec exClu).learners s.data.d 1 }, .ok ()) := by
  have hval : ValidSplit 2 [([0], [1]), ([1], [0])] := by
    refine ⟨by decide, ?_, ?_⟩ <;> simp [InRange]
  have hsp := (C22_nested_accepted_iff 2 [([0], [1]), ([1], [0])] [] _).2 ⟨by simp, by simp, by simpa using hval, rfl⟩
  have hsm : ([[([0], [1]), ([1], [0])]].map (List.map fun p : IdxPair => (isort p.1, isort p.2))).map
      (fun r => r.map toFold) = [[(⟨[0], [1]⟩ : Fold 2), ⟨[1], [0]⟩]] := by
    simp [toFold, isort]
  have hcl : checkedCluster (plrSpec exClu) s exCluSplit 1 2 = .ok (some [[⟨[1], []⟩, ⟨[0], []⟩]]) := by
    have hv := exClu_vars
    unfold checkedCluster
    cases hvv : (plrSpec exClu).vars with
    | none => rw [hvv] at hv; cases hv
    | some v =>
      rw [hvv] at hv
      have hv : v exCluState.cv = _ := Option.some.inj hv
      simp only
      rw [hd, hv]
      have hu : uniqueSorted (fun i : Fin 2 => (i.val : ℤ)) = [0, 1] := by
        have h1 : (univ.image fun i : Fin 2 => (i.val : ℤ)) = [0, 1].toFinset := by decide
        unfold uniqueSorted
        rw [h1]
        exact (List.toFinset_sort (r := (· ≤ ·)) (by decide)).2 (by decide)
      simp only [checkClusterSplitting, exCluSplit, ClusterVars.cols, List.zipIdx_cons, List.zipIdx_nil, List.mapM_cons, List.mapM_nil,
        checkClusterVar, hu, List.length_cons, List.length_nil]
      have hp : checkClusterPartitions [[0], [1]] [0, 1] = true := by simp [checkClusterPartitions, isort]
      simp [hp, bind, Except.bind, pure, Except.pure, toClusterFold]
  unfold setSampleSplitting exSplit
  rw [hsp]
  simp only [List.length_nil, List.length_cons, zero_add, Nat.reduceAdd]
  rw [hcl]
  simp only [hsm]

/-- The standard error of the example when the model was created with `K` folds. -/
theorem exClu_fit {K : ℤ} {s : MState 2 ℕ (Option (List (FittedModel ℕ (List Cell))))} {w : Draws 2}
    (hi : initModel (plrSpec exClu) exCluState 0 (.int K) (.int 1) (.bool false) w = .ok s) :
    ∃ t, fit exFrame (plrSpec exClu) (setSampleSplitting (plrSpec exClu) s exSplit exCluSplit).1 {} = (t, .ok ()) ∧
      (t.heap t.arr).coef 0 0 = some 1 ∧ (t.heap t.arr).se 0 0 = some (Real.sqrt (49 * K.toNat / 4)) := by
  obtain ⟨hd, hK, hfp⟩ := initModel_folds hi
  have hset := exClu_set hd
  obtain ⟨_, _, hdat, hfp', _, hshape⟩ := set_same (sp := plrSpec exClu) (s := s) (s' := s) rfl (a := exSplit)
    (cl := exCluSplit) (by rw [hset])
  have hpar : ∀ l ∈ ["ml_l", "ml_m"], (setSampleSplitting (plrSpec exClu) s exSplit exCluSplit).1.params l "d" = some [none] := by
    intro l hl
    rw [hset]
    show initParams (plrSpec exClu).learners s.data.d 1 l "d" = _
    unfold initParams
    rw [if_pos ⟨by simpa [plrSpec, exClu, exHalf] using hl, by rw [hd]; simp [exCluState, exState]⟩]
    rfl
  have hsm : (setSampleSplitting (plrSpec exClu) s exSplit exCluSplit).1.smpls = some [[⟨[0], [1]⟩, ⟨[1], [0]⟩]] := by
    rw [hset]; rfl
  have hcl : (setSampleSplitting (plrSpec exClu) s exSplit exCluSplit).1.smplsCluster = some [[⟨[1], []⟩, ⟨[0], []⟩]] := by
    rw [hset]; rfl
  have hnr : (setSampleSplitting (plrSpec exClu) s exSplit exCluSplit).1.nRep = 1 := by rw [hset]; rfl
  rw [hd] at hdat
  rw [hfp] at hfp'
  generalize (setSampleSplitting (plrSpec exClu) s exSplit exCluSplit).1 = s0 at *
  have hr : PlrReady exClu s0 "d" := by
    refine ⟨rfl, .inr ⟨_, hcl, by rw [hnr]; rfl⟩, rfl, hshape, by rw [hdat]; rfl, ⟨_, hsm, by rw [hnr]; rfl, ?_⟩, ?_, ?_, ?_⟩
    · intro S hS
      simp only [List.mem_cons, List.not_mem_nil, or_false] at hS
      subst hS
      exact ⟨by decide, by simp⟩
    · intro l hl
      refine ⟨[none], hpar l hl, by rw [hnr]; rfl, ?_⟩
      intro k q hq
      rcases k with _ | k <;> simp at hq
    · exact ⟨true, by rw [hdat]; simp [exCluState, exState, lookupKey]⟩
    · refine ⟨by norm_num, fun p D x => ?_⟩
      simp only [exClu, exHalf]
      norm_num
  have hok := plr_fit_succeeds (F := exFrame) hr (a := {}) (p := true) (m := false) rfl rfl rfl rfl
  refine ⟨_, by rw [← hok], ?_⟩
  obtain ⟨c, o, _, H, _, ho, _, h1, h2, _⟩ := fit_cells hok (p := true) (m := false) rfl rfl (j := 0) (k := 0)
    (by rw [hdat]; exact one_pos) (by rw [hnr]; exact one_pos)
  rw [h1, h2]
  have ht : c.treat = "d" := by
    have := H.treat
    rw [hdat] at this
    exact (Option.some.inj this).symm
  have hcd : c.data = exCluState := by
    rw [H.data, hdat]
    simp [activeData, exCluState, exState]
  have hcs : c.smpls = [⟨[0], [1]⟩, ⟨[1], [0]⟩] := by
    obtain ⟨l, g1, g2⟩ := H.smpls
    rw [hsm] at g1
    obtain rfl := Option.some.inj g1
    exact (Option.some.inj g2).symm
  have hcc : c.cluster = some ⟨.one fun i => (i.val : ℤ), [⟨[0], [1]⟩, ⟨[1], [0]⟩], [⟨[1], []⟩, ⟨[0], []⟩], K.toNat⟩ := by
    have hv := exClu_vars
    cases hvv : (plrSpec exClu).vars with
    | none => rw [hvv] at hv; cases hv
    | some v =>
      rw [hvv] at hv
      have hv : v exCluState.cv = _ := Option.some.inj hv
      obtain ⟨l, q, g1, g2, g3⟩ := H.cluster v hvv
      rw [hcl] at g1
      obtain rfl := Option.some.inj g1
      obtain rfl := Option.some.inj g2
      rw [g3, hdat, hv, hcs, hfp']
  have hext : ∀ l ∈ ["ml_l", "ml_m"], c.extOf l = none := by
    have := H.ext
    have hl : (plrSpec exClu).learners = ["ml_l", "ml_m"] := by simp [plrSpec, exClu, exHalf]
    rw [hl] at this
    have := Except.ok.inj this
    intro l hl
    unfold CellIn.extOf
    rw [← this]
    simp only [List.mem_cons, List.not_mem_nil, or_false] at hl
    rcases hl with rfl | rfl <;> simp [lookupKey]
  have hparam : ∀ f, (c.paramsOf "ml_l").at f = none := by
    intro f
    have := H.paramsOf (l := "ml_l") (by simp [plrSpec, exClu, exHalf]) f
    rw [this, ht]
    unfold MState.paramAt
    rw [hpar "ml_l" (by simp)]
    rfl
  have ho : plrEst exClu c = .ok o := ho
  unfold plrEst at ho
  obtain ⟨rl, hrl, ho⟩ := bind_ok ho
  obtain ⟨rm, hrm, ho⟩ := bind_ok ho
  obtain ⟨rg, hrg, ho⟩ := bind_ok ho
  obtain rfl := Except.ok.inj ho
  have hcv : ∀ {L : Learner ℕ (List Cell)} {l : String} {y : Fin 2 → ℝ} {r : CvRes 2 ℕ (List Cell)} {v : ℝ},
      learn L .predict c l y = .ok r → (∀ f D x, L.predict ((c.paramsOf l).at f) D x = v) → r.vec = fun _ => v := by
    intro L l y r v h hv
    unfold learn at h
    obtain ⟨r', hr', h⟩ := bind_ok h
    obtain ⟨_, _, h⟩ := bind_ok h
    obtain rfl := Except.ok.inj h
    have hpart : isPartition c.smpls = true := by rw [hcs]; decide
    funext i
    obtain ⟨f, hf, _⟩ := C26_complete hpart i
    have := C26_prediction_rule (L := L) rfl hpart (by rw [hcs]; simp) hr' f.val f.2 i hf
    unfold CvRes.vec
    rw [this, hv]
    rfl
  have el : rl.vec = fun _ => 0 := by
    unfold plrL at hrl
    rw [hext "ml_l" (by simp)] at hrl
    refine hcv (L := exClu.ml_l) hrl fun f D x => ?_
    rw [hparam]
    simp [exClu, exHalf]
  have em : rm.vec = fun _ => 1 / 2 := by
    unfold plrM at hrm
    rw [hext "ml_m" (by simp)] at hrm
    obtain ⟨r', hr', hrm⟩ := bind_ok hrm
    obtain ⟨_, _, hrm⟩ := bind_ok hrm
    obtain rfl := Except.ok.inj hrm
    exact hcv (L := exClu.ml_m) hr' fun f D x => rfl
  have ey0 : (exCluState.yv 0).val = 3 := by simp [exCluState, exState, exFrame, Cell.val]
  have ey1 : (exCluState.yv 1).val = 4 := by simp [exCluState, exState, exFrame, Cell.val]; norm_num
  have ed0 : (exCluState.dv 0).val = 0 := by simp [exCluState, exState, exFrame, Cell.val]
  have ed1 : (exCluState.dv 1).val = 1 := by simp [exCluState, exState, exFrame, Cell.val]
  have hiv : exClu.iv = false := rfl
  rw [el, em, hcc, hcd, hiv]
  have hcoef : (plrElems false (fun i => (exCluState.yv i).val) (fun i => (exCluState.dv i).val) (fun _ => 0) (fun _ => 1 / 2)
      rg.vec).coef (some ⟨.one fun i => (i.val : ℤ), [⟨[0], [1]⟩, ⟨[1], [0]⟩], [⟨[1], []⟩, ⟨[0], []⟩], K.toNat⟩) = 1 := by
    simp only [plrElems, PsiElems.coef, aggObs, plrPo, List.zip_cons_cons, List.zip_nil_right, List.map_cons, List.map_nil,
      List.sum_cons, List.sum_nil, clusterWeight, List.length_cons, List.length_nil, Bool.false_eq_true, if_false]
    norm_num [ey0, ey1, ed0, ed1]
  refine ⟨congrArg some hcoef, ?_⟩
  simp only [PsiElems.fit, hcoef]
  congr 2
  have hKr : ((K.toNat : ℕ) : ℝ) ≠ 0 := by
    have : K.toNat ≠ 0 := by omega
    exact_mod_cast this
  have hs0 : (univ.filter fun i : Fin 2 => (i.val : ℤ) = 0) = {0} := by decide
  have hs1 : (univ.filter fun i : Fin 2 => (i.val : ℤ) = 1) = {1} := by decide
  have hnu : nUnique (fun i : Fin 2 => (i.val : ℤ)) = 2 := by decide
  simp only [varEst, varEstParts, gammaOne, jOne, outerSum, List.zip_cons_cons, List.zip_nil_right, List.map_cons, List.map_nil,
      List.sum_cons, List.sum_nil, List.length_cons, List.length_nil, hs0, hs1, hnu, sum_singleton, PsiElems.score,
      plrElems, plrPo, Bool.false_eq_true, if_false, ey0, ey1, ed0, ed1]
  field_simp
  norm_num

/-- **C60, violated.** Two models of the same clustered data are created with 2 and with 8 folds, then the same split with
two folds is set for both and both are fitted: the estimates agree, but the standard errors are `√(49/2)` and twice this. -/
theorem C60_violated (w : Draws 2) : ∃ s s' t t' : MState 2 ℕ (Option (List (FittedModel ℕ (List Cell)))),
    initModel (plrSpec exClu) exCluState 0 (.int 2) (.int 1) (.bool false) w = .ok s ∧
    initModel (plrSpec exClu) exCluState 0 (.int 8) (.int 1) (.bool false) w = .ok s' ∧
    (setSampleSplitting (plrSpec exClu) s exSplit exCluSplit).2 = .ok () ∧
    (setSampleSplitting (plrSpec exClu) s' exSplit exCluSplit).2 = .ok () ∧
    fit exFrame (plrSpec exClu) (setSampleSplitting (plrSpec exClu) s exSplit exCluSplit).1 {} = (t, .ok ()) ∧
    fit exFrame (plrSpec exClu) (setSampleSplitting (plrSpec exClu) s' exSplit exCluSplit).1 {} = (t', .ok ()) ∧
    (t.heap t.arr).coef 0 0 = some 1 ∧ (t'.heap t'.arr).coef 0 0 = some 1 ∧
    (t.heap t.arr).se 0 0 = some (Real.sqrt (49 / 2)) ∧ (t'.heap t'.arr).se 0 0 = some (2 * Real.sqrt (49 / 2)) := by
  have hinit : ∀ K : ℤ, 0 < K → ∃ s, initModel (plrSpec exClu) exCluState 0 (.int K) (.int 1) (.bool false) w = .ok s := by
    intro K hK
    unfold initModel
    have h1 : checkClusterVars (plrSpec exClu) exCluState = .ok () := by
      unfold checkClusterVars
      rw [if_neg (by simp [exCluState])]
    have h2 : checkInteger (.int K) (some 1) none = .ok K := by
      simp [checkInteger, PyVal.asInt]; omega
    have h3 : checkInteger (.int 1) (some 1) none = .ok 1 := by
      simp [checkInteger, PyVal.asInt]
    simp only [h1, h2, h3, checkBool, bind, Except.bind]
    exact ⟨_, rfl⟩
  obtain ⟨s, hs⟩ := hinit 2 (by norm_num)
  obtain ⟨s', hs'⟩ := hinit 8 (by norm_num)
  obtain ⟨t, h1, h2, h3⟩ := exClu_fit hs
  obtain ⟨t', h1', h2', h3'⟩ := exClu_fit hs'
  refine ⟨s, s', t, t', hs, hs', by rw [exClu_set (initModel_folds hs).1], by rw [exClu_set (initModel_folds hs').1],
    h1, h1', h2, h2', ?_, ?_⟩
  · rw [h3, show (49 * ((2 : ℤ).toNat : ℝ) / 4) = 49 / 2 by rw [show (2 : ℤ).toNat = 2 from rfl]; norm_num]
  · rw [h3', show (49 * ((8 : ℤ).toNat : ℝ) / 4) = 2 ^ 2 * (49 / 2) by
      rw [show (8 : ℤ).toNat = 8 from rfl]; norm_num, Real.sqrt_mul (by norm_num),
      Real.sqrt_sq (by norm_num)]

end DML
