import Verif.Benchmark
import Verif.CovariatesFitProps
import Verif.SensElemProps

/-!
# C70: `sensitivity_benchmark` of a model object
-/

namespace DML

open Finset

variable {n : ℕ} {P M : Type}

/-! ## Lemmas -/

theorem fw?_congr {s s' : MState n P M} (h : s'.inference = s.inference) : s'.fw? = s.fw? := by
  have e : ∀ t : MState n P M, t.fw? = t.inference.map fun q => ⟨q.1, q.2.fw⟩ := by
    intro t
    unfold MState.fw? MState.inference
    cases t.framework <;> rfl
  rw [e, e, h]

theorem gainInput_congr (B : DynFW n) {H H' : Arr}
    (h : ∀ j < (B.fw.bench.map List.length).getD 0, ∀ k < B.r, H'.coef j k = H.coef j k) : gainInput B H' = gainInput B H := by
  unfold gainInput
  congr 1
  funext j k
  rw [h j j.2 k k.2]

theorem gainModels_congr (s : MState n P M) {t t' : MState n P M} (hf : t'.fw? = t.fw?)
    (hT : (t'.heap t'.arr).nT = (t.heap t.arr).nT) (hR : (t'.heap t'.arr).nR = (t.heap t.arr).nR)
    (hc : ∀ B, t.fw? = some B → ∀ j < (B.fw.bench.map List.length).getD 0, ∀ k < B.r,
      (t'.heap t'.arr).coef j k = (t.heap t.arr).coef j k) : gainModels s t' = gainModels s t := by
  unfold gainModels
  rw [hf, hT, hR]
  cases hs : s.fw? with
  | none => rfl
  | some A =>
    cases ht : t.fw? with
    | none => rfl
    | some B => simp only [gainInput_congr B (hc B ht)]

theorem fit_dims {F : Frame n} {sp : LinSpec n P} (hsp : LinearScoreClass sp) {s : LinState n P} (hs : Shaped s) {a : FitArgs}
    (h : (fit F sp s a).2 = .ok ()) : ∃ A : FW n s.nRep, (fit F sp s a).1.fw? = some ⟨s.nRep, A⟩ ∧
      (A.bench.map List.length).getD 0 ≤ s.data.d.length := by
  obtain ⟨A, c, o, hV⟩ := fit_view hsp.usualVsf hs h rfl
  refine ⟨A, hV.fw, ?_⟩
  cases hi : sp.sensImpl with
  | false => rw [(hV.noSens hi).2]; simp
  | true =>
    obtain ⟨S, B, -, hB, -, hl, -⟩ := hV.sens hi
    rw [hB]; simp [hl]

/-- Models with the same settings: the comparison with the refitted models is the same, exceptions included. -/
theorem compare_congr {F : Frame n} {sp : LinSpec n P} (hsp : LinearScoreClass sp) (s : LinState n P) {t t' : LinState n P}
    (h : SameSettings t t') (ht : Shaped t) (a : FitArgs) :
    (fit F sp t' a).2 = (fit F sp t a).2 ∧
      ((fit F sp t a).2 = .ok () → gainModels s (fit F sp t' a).1 = gainModels s (fit F sp t a).1) := by
  cases hc : checkFit sp t a with
  | error e =>
    have h1 : (fit F sp t a).2 = .error e := by unfold fit; rw [hc]
    have h2 : (fit F sp t' a).2 = .error e := by unfold fit; rw [checkFit_congr (sp := sp) h a, hc]
    rw [h1, h2]
    exact ⟨rfl, fun hh => by cases hh⟩
  | ok pm =>
    obtain ⟨p, m⟩ := pm
    obtain ⟨hp, hm⟩ := checkFit_ok hc
    obtain ⟨h1, h2⟩ := C29_fit_from_settings F hsp.startFree h ht a hp hm
    refine ⟨h1, fun hok => ?_⟩
    have h3 := h2 hok
    have hf := (fit_frame F sp t a).1
    have hf' := (fit_frame F sp t' a).1
    refine gainModels_congr s (fw?_congr h3.inference) (by rw [hf'.nT, hf.nT, h.nT]) (by rw [hf'.nR, hf.nR, h.nR]) ?_
    intro B hB j hj k hk
    obtain ⟨A, hA, hl⟩ := fit_dims hsp ht hok
    rw [hA] at hB
    cases hB
    exact h3.allCoef j (by rw [hf.data.d]; exact lt_of_lt_of_le hj hl) k (by rw [hf.nRep]; exact hk)

theorem dataInit_disjoint {F : Frame n} {cl : Option ColArg} {a : DataArgs} {S : DataState n} (h : dataInit F cl a = .ok S) :
    disjointAll S = true := by
  unfold dataInit at h
  obtain ⟨c, hc, h⟩ := bind_ok h
  by_cases hcf : ∀ cs ∈ c, ∀ c ∈ cs, finiteCol (F.col c)
  swap
  · rw [if_pos hcf] at h; cases h
  rw [if_neg (not_not.2 hcf)] at h
  obtain ⟨y, hy, h⟩ := bind_ok h
  obtain ⟨d, hd, h⟩ := bind_ok h
  obtain ⟨z, hz, h⟩ := bind_ok h
  obtain ⟨t, ht, h⟩ := bind_ok h
  obtain ⟨s, hs, h⟩ := bind_ok h
  obtain ⟨x, hx, h⟩ := bind_ok h
  dsimp only at h
  split at h
  · cases h
  obtain ⟨u, hu, h⟩ := bind_ok h
  obtain ⟨f, hf, h⟩ := bind_ok h
  by_cases hdf : ∀ c ∈ d, finiteCol (F.col c)
  swap
  · rw [if_pos hdf] at h; cases h
  rw [if_neg (not_not.2 hdf)] at h
  by_cases hyf : finiteCol (F.col y)
  swap
  · rw [if_pos hyf] at h; cases h
  rw [if_neg (not_not.2 hyf)] at h
  obtain ⟨_, hr, h⟩ := bind_ok h
  obtain ⟨S3, hS3, h⟩ := bind_ok h
  split_ifs at h with hda
  obtain rfl : S3 = S := by cases h; rfl
  exact hda

theorem setXDFirst_active (F : Frame n) (D : DataState n) (a : Fin n → Cell) (b : List (Fin n → Cell)) :
    setXDFirst F { D with dv := a, xv := b } = setXDFirst F D := by
  have key : ∀ tv, setXD F { D with dv := a, xv := b } tv = setXD F D tv := fun _ => rfl
  unfold setXDFirst
  simp only [key]

/-- Selecting the first treatment of a created object changes nothing. -/
theorem setXDFirst_created {F : Frame n} (hF : F.cols.Nodup) {cl : Option ColArg} {da : DataArgs} {D : DataState n}
    (hD : dataInit F cl da = .ok D) : setXDFirst F D = .ok D := by
  obtain ⟨-, hv, -, -, -, -, -, -, -, -, -, -, -, tv, l, hd, hdv, hxv⟩ := dataInit_ok hF hD
  have htv : tv ∈ D.d := by rw [hd]; simp
  obtain ⟨E, hE⟩ := dataInit_selectable hD tv htv
  have h1 : setXDFirst F D = setXD F D tv := by unfold setXDFirst; rw [hd]
  rw [h1, hE, (setXD_ok hE).2, xdList_eq hv htv]
  have h2 : D.d.erase tv = l := by rw [hd]; simp
  rw [h2, ← hxv, ← hdv]

/-- Assigning the covariates `xs` to a data object, whichever treatment is active, gives the object that is created with these
covariates. -/
theorem setX_created {F : Frame n} (hF : F.cols.Nodup) {cl : Option ColArg} {da : DataArgs} {xs : List String}
    {D D' E : DataState n} (hD : dataInit F cl da = .ok D) (hD' : dataInit F cl { da with x := .list xs } = .ok D')
    (hE : SameData D E) : dataStep F E (.setX (.list xs)) = (D', .ok ()) := by
  have hX := C69_data hF hD hD'
  obtain ⟨-, -, -, -, -, -, -, -, -, -, -, hx, -⟩ := dataInit_ok hF hD'
  have hx' : colList F (.list xs) = .ok D'.x := hx
  have hroles : { E with x := D'.x } = { D' with dv := E.dv, xv := E.xv } := by
    have h1 := hE.roles
    unfold DataState.SameButX at hX
    rw [h1, hX]
  have hdj : disjointAll { E with x := D'.x } = disjointAll D' := by rw [hroles]; rfl
  unfold dataStep
  dsimp only [xArg]
  rw [hx']
  dsimp only
  unfold finishXD
  rw [hdj, dataInit_disjoint hD', if_pos rfl, hroles, setXDFirst_active, setXDFirst_created hF hD']

theorem Shaped.withData {s : MState n P M} (h : Shaped s) {D : DataState n} (hd : D.d = s.data.d) : Shaped { s with data := D } :=
  ⟨h.pos, by rw [hd]; exact h.nT, h.nR⟩

theorem LearnersAll.linear {Q : Learner P (List Cell) → Prop} {sp : LinSpec n P} (h : LearnersAll Q sp) : LinearScoreClass sp := by
  cases h with
  | plr k a b c => exact .plr k
  | irm k a b => exact .irm k
  | apo k a b => exact .apo k
  | iivm k a b c => exact .iivm k
  | did k a b => exact .did k
  | didCs k a b => exact .didCs k
  | ssm k a b c => exact .ssm k
  | pliv k a b c d => exact .pliv k
  | plivMulti k zs a b c => exact .plivMulti k zs
  | plivZ k a => exact .plivZ k
  | plivXZ k a b c => exact .plivXZ k

/-! ## The theorems -/

/-- The comparison of a model with a refitted model: the exception of `fit`, or the benchmark values. -/
noncomputable def compareWith (F : Frame n) (sp : Spec n P M) (s t : MState n P M) (a : FitArgs) : Except Exc (List BenchRow) :=
  match (fit F sp t a).2 with
  | .error e => .error e
  | .ok () => gainModels s (fit F sp t a).1 >>= benchFrame s

theorem benchmark_eq {F : Frame n} {sp : Spec n P M} {s t : MState n P M} {set : List String} (hsens : s.sens ≠ none)
    (h0 : set ≠ []) (h1 : set ⊆ s.data.x) (ht : shortModel F s (s.data.x.filter fun x => x ∉ set) = .ok t) (a : FitArgs) :
    benchmark F sp s true set true a = compareWith F sp s t a := by
  unfold benchmark compareWith
  rw [if_neg (by cases h : s.sens with
    | none => exact absurd h hsens
    | some _ => simp)]
  rw [(C18_benchmark_covariates s.data.x set true true _).2 ⟨rfl, rfl, h0, h1, rfl⟩]
  simp only [bind, Except.bind, ht]
  rcases fit F sp t a with ⟨t', (e | ⟨⟩)⟩ <;> rfl

/-- **C70.** `sensitivity_benchmark` compares the model with a model that is created without the benchmarked covariates, with the
same arguments and the same random draws, and fitted; if that fit raises an exception, so does the benchmark.  The model itself
may have been fitted and used for inference any number of times. -/
theorem C70_is_refit (E : Ext) {F : Frame n} (hF : F.cols.Nodup) {cl : Option ColArg} {da : DataArgs} {set : List String}
    {D D' : DataState n} (hD : dataInit F cl da = .ok D) (h0 : set ≠ []) (h1 : set ⊆ D.x)
    (hD' : dataInit F cl { da with x := .list (D.x.filter fun c => c ∉ set) } = .ok D') {sp : LinSpec n P}
    (hsp : LinearScoreClass sp) {x : ℝ} {nF nR dr : PyVal} {w : Draws n} {s t : LinState n P}
    (hs : initModel sp D x nF nR dr w = .ok s) (ht : initModel sp D' x nF nR dr w = .ok t) {os : List (MOp n P)}
    (ho : ∀ o ∈ os, o.calm = true) (hsens : (mrun E F sp s os).sens ≠ none) (a : FitArgs) :
    benchmark F sp (mrun E F sp s os) true set true a = compareWith F sp (mrun E F sp s os) t a := by
  have hset := mrun_settings E F sp s os ho
  have hwf := (initModel_wf hs).1.shaped
  have hX := C69_data hF hD hD'
  obtain ⟨e, g1, -⟩ | ⟨s1, t1, g1, g2, g3, g4, g5⟩ := C69_init sp hX x nF nR dr w
  · rw [hs] at g1; cases g1
  rw [hs] at g1; rw [ht] at g2
  cases g1; cases g2
  generalize mrun E F sp s os = u at *
  have hsd : SameData D u.data := by rw [← g4]; exact hset.data
  have hx : u.data.x = D.x := by rw [hsd.roles]
  have hshort : shortModel F u (u.data.x.filter fun c => c ∉ set) = .ok { u with data := D' } := by
    unfold shortModel
    rw [hx, setX_created hF hD hD' hsd]
  rw [benchmark_eq hsens h0 (by rw [hx]; exact h1) hshort]
  have hS : SameSettings t { u with data := D' } := by
    have e1 : t.smpls = s.smpls := by rw [g3]
    have e2 : t.smplsCluster = s.smplsCluster := by rw [g3]
    have e3 : t.params = s.params := by rw [g3]
    have e4 : t.nRep = s.nRep := by rw [g3]
    have e5 : t.nFoldsPer = s.nFoldsPer := by rw [g3]
    have e6 : t.heap t.arr = s.heap s.arr := by rw [g3]
    exact ⟨g5 ▸ .refl _, hset.smpls.trans e1.symm, hset.smplsCluster.trans e2.symm, hset.params.trans e3.symm,
      hset.nRep.trans e4.symm, hset.nFoldsPer.trans e5.symm, by rw [e6]; exact hset.nT, by rw [e6]; exact hset.nR⟩
  obtain ⟨c1, c2⟩ := compare_congr (F := F) hsp u hS (initModel_wf ht).1.shaped a
  unfold compareWith
  rw [c1]
  cases hf : (fit F sp t a).2 with
  | error e => rfl
  | ok v => cases v; dsimp only; rw [c2 hf]

/-- Two objects that agree in everything that `draw_sample_splitting`, `set_sample_splitting` and `set_ml_nuisance_params` read and
write. -/
structure SameSetup (s t : MState n P M) : Prop where
  d : t.data.d = s.data.d
  cv : t.data.cv = s.data.cv
  smpls : t.smpls = s.smpls
  smplsCluster : t.smplsCluster = s.smplsCluster
  params : t.params = s.params
  nRep : t.nRep = s.nRep
  nFolds : t.nFolds = s.nFolds
  nFoldsPer : t.nFoldsPer = s.nFoldsPer
  nT : (t.heap t.arr).nT = (s.heap s.arr).nT
  nR : (t.heap t.arr).nR = (s.heap s.arr).nR

theorem SameSetup.of_settings {s s' t t' : MState n P M} (h : SameSetup s t) (hs : SameSettings s s') (ht : SameSettings t t')
    (hs' : s'.nFolds = s.nFolds) (ht' : t'.nFolds = t.nFolds) : SameSetup s' t' := by
  refine ⟨?_, ?_, ?_, ?_, ?_, ?_, ?_, ?_, ?_, ?_⟩
  · rw [hs.data.d, ht.data.d, h.d]
  · rw [hs.data.roles, ht.data.roles]; exact h.cv
  · rw [hs.smpls, ht.smpls, h.smpls]
  · rw [hs.smplsCluster, ht.smplsCluster, h.smplsCluster]
  · rw [hs.params, ht.params, h.params]
  · rw [hs.nRep, ht.nRep, h.nRep]
  · rw [hs', ht', h.nFolds]
  · rw [hs.nFoldsPer, ht.nFoldsPer, h.nFoldsPer]
  · rw [hs.nT, ht.nT, h.nT]
  · rw [hs.nR, ht.nR, h.nR]

/-- All calls but hyper-parameter tuning and assignments to the data object. -/
def MOp.plain : MOp n P → Bool
  | .tune _ _ _ => false
  | .data _ => false
  | _ => true

/-- Such a call leaves the data object alone, except for the active treatment. -/
theorem mstep_data (E : Ext) (F : Frame n) (sp : Spec n P M) (s : MState n P M) {o : MOp n P} (ho : o.plain = true) :
    SameData s.data (mstep E F sp s o).1.data := by
  cases o with
  | fit a => exact (fit_frame F sp s a).1.data
  | infer o =>
    show SameData s.data (infer E s o).1.data
    rw [(infer_frame E s o).1]
    exact .refl _
  | draw w =>
    show SameData s.data (drawSampleSplitting sp s w).1.data
    unfold drawSampleSplitting
    rcases drawnSplit sp s w with e | ⟨l, c⟩ <;> exact .refl _
  | setSplit a cl =>
    show SameData s.data (setSampleSplitting sp s a cl).1.data
    cases hr : (setSampleSplitting sp s a cl).2 with
    | error e => rw [setSampleSplitting_error hr]; exact .refl _
    | ok u =>
      obtain ⟨l, nr, nf, c, h1, h2, h3⟩ := setSampleSplitting_ok hr
      rw [h3]
      exact .refl _
  | setParams l tv p =>
    show SameData s.data (setNuisanceParams sp s l tv p).1.data
    rw [(setNuisanceParams_frame sp s l tv p).rest]
    exact (setNuisanceParams_frame sp s l tv p).data
  | tune f a b => cases ho
  | data o => cases ho

theorem mrun_data (E : Ext) (F : Frame n) (sp : Spec n P M) (s : MState n P M) {os : List (MOp n P)}
    (ho : ∀ o ∈ os, o.plain = true) : SameData s.data (mrun E F sp s os).data := by
  induction os generalizing s with
  | nil => exact .refl _
  | cons o os ih =>
    exact (mstep_data E F sp s (ho o (List.mem_cons_self ..))).trans (ih _ fun o' h' => ho o' (List.mem_cons_of_mem _ h'))

theorem SameSetup.step (E : Ext) (F : Frame n) (sp : Spec n P M) {s t : MState n P M} (h : SameSetup s t) {o : MOp n P}
    (ho : o.plain = true) : SameSetup (mstep E F sp s o).1 (mstep E F sp t o).1 := by
  cases o with
  | fit a =>
    obtain ⟨h1, -, -, h2, -⟩ := fit_frame F sp s a
    obtain ⟨h3, -, -, h4, -⟩ := fit_frame F sp t a
    exact h.of_settings h1 h3 h2 h4
  | infer o =>
    show SameSetup (infer E s o).1 (infer E t o).1
    rw [(infer_frame E s o).1, (infer_frame E t o).1]
    exact ⟨h.d, h.cv, h.smpls, h.smplsCluster, h.params, h.nRep, h.nFolds, h.nFoldsPer, h.nT, h.nR⟩
  | draw w =>
    have e : drawnSplit sp t w = drawnSplit sp s w := by
      unfold drawnSplit
      rw [h.cv, h.nFolds, h.nFoldsPer, h.nRep, h.smplsCluster]
    show SameSetup (drawSampleSplitting sp s w).1 (drawSampleSplitting sp t w).1
    unfold drawSampleSplitting
    rw [e]
    rcases drawnSplit sp s w with e | ⟨l, c⟩
    · exact h
    · exact ⟨h.d, h.cv, rfl, rfl, h.params, h.nRep, h.nFolds, h.nFoldsPer, h.nT, h.nR⟩
  | setSplit a cl =>
    show SameSetup (setSampleSplitting sp s a cl).1 (setSampleSplitting sp t a cl).1
    unfold setSampleSplitting
    cases hc : checkSampleSplitting n a with
    | error e => exact h
    | ok q =>
      obtain ⟨l, nr, nf⟩ := q
      have e : checkedCluster sp t cl nr nf = checkedCluster sp s cl nr nf := by
        unfold checkedCluster
        rw [h.cv]
      dsimp only
      rw [e]
      cases checkedCluster sp s cl nr nf with
      | error e => exact h
      | ok c =>
        refine ⟨h.d, h.cv, rfl, rfl, ?_, rfl, rfl, h.nFoldsPer, ?_, ?_⟩
        · show initParams sp.learners t.data.d nr = _
          rw [h.d]
          rfl
        · simp [initArrays, Arr.fresh, h.d]
        · simp [initArrays, Arr.fresh]
  | setParams l tv p =>
    show SameSetup (setNuisanceParams sp s l tv p).1 (setNuisanceParams sp t l tv p).1
    unfold setNuisanceParams
    rw [h.d, h.nRep, h.nFolds, h.params]
    by_cases h1 : l ∉ sp.learners
    · rw [if_pos h1, if_pos h1]; exact h
    rw [if_neg h1, if_neg h1]
    by_cases h2 : tv ∉ s.data.d
    · rw [if_pos h2, if_pos h2]; exact h
    rw [if_neg h2, if_neg h2]
    cases paramValue s.nRep s.nFolds p with
    | error e => exact h
    | ok v => exact ⟨h.d, h.cv, h.smpls, h.smplsCluster, rfl, rfl, rfl, h.nFoldsPer, h.nT, h.nR⟩
  | tune f a b => cases ho
  | data o => cases ho

theorem SameSetup.run (E : Ext) (F : Frame n) (sp : Spec n P M) {s t : MState n P M} (h : SameSetup s t) {os : List (MOp n P)}
    (ho : ∀ o ∈ os, o.plain = true) : SameSetup (mrun E F sp s os) (mrun E F sp t os) := by
  induction os generalizing s t with
  | nil => exact h
  | cons o os ih => exact ih (h.step E F sp (ho o (List.mem_cons_self ..))) fun o' h' => ho o' (List.mem_cons_of_mem _ h')

/-- **C70.** The benchmark after any history of draws, given splits, parameter assignments, fits and inference calls: the model is
compared with the fit of a model that was created without the benchmarked covariates and went through the same history. -/
theorem C70_history (E : Ext) {F : Frame n} (hF : F.cols.Nodup) {cl : Option ColArg} {da : DataArgs} {set : List String}
    {D D' : DataState n} (hD : dataInit F cl da = .ok D) (h0 : set ≠ []) (h1 : set ⊆ D.x)
    (hD' : dataInit F cl { da with x := .list (D.x.filter fun c => c ∉ set) } = .ok D') {sp : LinSpec n P}
    (hsp : LinearScoreClass sp) {x : ℝ} {nF nR dr : PyVal} {w : Draws n} {s t : LinState n P}
    (hs : initModel sp D x nF nR dr w = .ok s) (ht : initModel sp D' x nF nR dr w = .ok t) {os : List (MOp n P)}
    (ho : ∀ o ∈ os, o.plain = true) (hsens : (mrun E F sp s os).sens ≠ none) (a : FitArgs) :
    benchmark F sp (mrun E F sp s os) true set true a = compareWith F sp (mrun E F sp s os) (mrun E F sp t os) a := by
  have hX := C69_data hF hD hD'
  obtain ⟨e, g1, -⟩ | ⟨s1, t1, g1, g2, g3, g4, g5⟩ := C69_init sp hX x nF nR dr w
  · rw [hs] at g1; cases g1
  rw [hs] at g1; rw [ht] at g2
  cases g1; cases g2
  have h0' : SameSetup s t := by
    have e : t.data.d = s.data.d ∧ t.data.cv = s.data.cv := by rw [g4, g5, hX.d, hX]; exact ⟨rfl, rfl⟩
    exact ⟨e.1, e.2, by rw [g3], by rw [g3], by rw [g3], by rw [g3], by rw [g3], by rw [g3], by rw [g3], by rw [g3]⟩
  have hset := h0'.run E F sp ho
  have hwf : Shaped (mrun E F sp t os) := (mrun_wf E F sp (initModel_wf ht).1 os fun o h => by
    have := ho o h
    cases o <;> first | rfl | cases this).shaped
  have hsd : SameData D (mrun E F sp s os).data := by rw [← g4]; exact mrun_data E F sp s ho
  have htd : SameData D' (mrun E F sp t os).data := by rw [← g5]; exact mrun_data E F sp t ho
  generalize mrun E F sp s os = u at *
  generalize mrun E F sp t os = v at *
  have hx : u.data.x = D.x := by rw [hsd.roles]
  have hshort : shortModel F u (u.data.x.filter fun c => c ∉ set) = .ok { u with data := D' } := by
    unfold shortModel
    rw [hx, setX_created hF hD hD' hsd]
  rw [benchmark_eq hsens h0 (by rw [hx]; exact h1) hshort]
  have hS : SameSettings v { u with data := D' } :=
    ⟨htd.symm, hset.smpls.symm, hset.smplsCluster.symm, hset.params.symm, hset.nRep.symm, hset.nFoldsPer.symm, hset.nT.symm,
      hset.nR.symm⟩
  obtain ⟨c1, c2⟩ := compare_congr (F := F) hsp u hS hwf a
  unfold compareWith
  rw [c1]
  cases hf : (fit F sp v a).2 with
  | error e => rfl
  | ok w => cases w; dsimp only; rw [c2 hf]

theorem gainStatistics_inputs (v : ℝ) {r : ℕ} {A A' : FW n r} {B B' : List (Bench r)} (hB : A.bench = some B)
    (hB' : A'.bench = some B') (hl : B.length = B'.length) (H H' : Arr) :
    ∃ g, gainStatistics v (gainInput ⟨r, A⟩ H) (gainInput ⟨r, A'⟩ H') = .ok g ∧ g.length = B.length ∧
      ∀ (j : ℕ) b b', B[j]? = some b → B'[j]? = some b' → g[j]? = some (gainOne v b.sigma2 b.nu2
        (fun k => (H.coef j k).getD 0) b'.sigma2 b'.nu2 fun k => (H'.coef j k).getD 0) := by
  obtain ⟨a1, a2, a3, bench, a5⟩ := A
  obtain ⟨a1', a2', a3', bench', a5'⟩ := A'
  dsimp only at hB hB'
  subst hB hB'
  have h : B.length = B'.length ∧ r = r := ⟨hl, rfl⟩
  refine ⟨_, dif_pos h, ?_, ?_⟩
  · simp [gainInput]
  · intro j b b' hb hb'
    have hj : j < B.length := (List.getElem?_eq_some_iff.1 hb).1
    rw [List.getElem?_map, List.getElem?_eq_getElem (by simpa [gainInput] using hj)]
    simp only [List.getElem_finRange, Option.map_some]
    congr 1
    show gainOne v (fun k => (Option.map (fun b => b.sigma2 k) B[j]?).getD 0) (fun k => (Option.map (fun b => b.nu2 k) B[j]?).getD 0)
      (fun k => (H.coef j k).getD 0) (fun k => (Option.map (fun b => b.sigma2 k) B'[j]?).getD 0)
      (fun k => (Option.map (fun b => b.nu2 k) B'[j]?).getD 0) (fun k => (H'.coef j k).getD 0) = _
    rw [hb, hb']
    rfl

theorem fit_sens {F : Frame n} {sp : Spec n P M} (hi : sp.sensImpl = true) {s : MState n P M} {a : FitArgs}
    (h : (fit F sp s a).2 = .ok ()) : (fit F sp s a).1.sens ≠ none := by
  obtain ⟨p, m, fw, hc, hl, hcon, heq⟩ := fit_ok h
  have hT := fitLoop_tables (F := F) (ext := a.ext) (p := p) (m := m) (cellOrder s.nRep s.data.d.length)
    (initFit_tables sp s p m) hl
  have h1 := hT.sens hi
  rw [heq]
  show (aggregate sp _).sens ≠ none
  unfold aggregate
  rw [if_pos hi]
  cases hx : (fitLoop F sp a.ext p m (initFit sp s p m) (cellOrder s.nRep s.data.d.length)).1.sens with
  | none => rw [hx] at h1; cases h1
  | some _ => simp

/-- The row of treatment `name`, from the sensitivity elements and estimates of the long and the short model. -/
noncomputable def benchRow (v : ℝ) (name : String) {r : ℕ} (b : Bench r) (th : Fin r → ℝ) (b' : Bench r) (th' : Fin r → ℝ) :
    BenchRow :=
  ⟨name, (gainOne v b.sigma2 b.nu2 th b'.sigma2 b'.nu2 th').cfY, (gainOne v b.sigma2 b.nu2 th b'.sigma2 b'.nu2 th').cfD,
    some (gainOne v b.sigma2 b.nu2 th b'.sigma2 b'.nu2 th').rho, some (gainOne v b.sigma2 b.nu2 th b'.sigma2 b'.nu2 th').deltaTheta⟩

/-- Row `j` of `all_coef`. -/
noncomputable def MState.allCoef (s : MState n P M) (r j : ℕ) (k : Fin r) : ℝ := ((s.heap s.arr).coef j k).getD 0

theorem compare_rows {F : Frame n} {sp : LinSpec n P} (hsp : LinearScoreClass sp) (hi : sp.sensImpl = true) {s t : LinState n P}
    (hs : Shaped s) (ht : Shaped t) (hr : t.nRep = s.nRep) (hd : t.data.d = s.data.d) {a a' : FitArgs}
    (hok : (fit F sp s a).2 = .ok ()) (hok' : (fit F sp t a').2 = .ok ()) :
    ∃ (A A' : FW n s.nRep) (B B' : List (Bench s.nRep)) (rows : List BenchRow),
      (fit F sp s a).1.fw? = some ⟨s.nRep, A⟩ ∧ A.bench = some B ∧ (fit F sp t a').1.fw? = some ⟨s.nRep, A'⟩ ∧ A'.bench = some B' ∧
      compareWith F sp (fit F sp s a).1 t a' = .ok rows ∧ rows.length = s.data.d.length ∧
      ∀ (j : ℕ) (hj : j < s.data.d.length), ∃ b b', B[j]? = some b ∧ B'[j]? = some b' ∧
        rows[j]? = some (benchRow (npVar fun i => ((fit F sp s a).1.data.yv i).val) s.data.d[j] b
          ((fit F sp s a).1.allCoef s.nRep j) b' ((fit F sp t a').1.allCoef s.nRep j)) := by
  obtain ⟨A, c, o, hV⟩ := fit_view hsp.usualVsf hs hok rfl
  obtain ⟨A', c', o', hV'⟩ := fit_view hsp.usualVsf ht hok' hr
  obtain ⟨S, B, -, hB, -, hl, hBj⟩ := hV.sens hi
  obtain ⟨S', B', -, hB', -, hl', hBj'⟩ := hV'.sens hi
  have hf := (fit_frame F sp s a).1
  have hf' := (fit_frame F sp t a').1
  have hlen : t.data.d.length = s.data.d.length := by rw [hd]
  obtain ⟨g, hg, hgl, hgj⟩ := gainStatistics_inputs (npVar fun i => ((fit F sp s a).1.data.yv i).val) hB hB'
    (by rw [hl, hl', hd]) ((fit F sp s a).1.heap (fit F sp s a).1.arr) ((fit F sp t a').1.heap (fit F sp t a').1.arr)
  have hG : gainModels (fit F sp s a).1 (fit F sp t a').1 = .ok g := by
    unfold gainModels
    rw [hV.fw, hV'.fw]
    dsimp only
    rw [hg]
    simp only [bind, Except.bind]
    rw [if_pos]
    have e : (gainInput (⟨s.nRep, A⟩ : DynFW n) ((fit F sp s a).1.heap (fit F sp s a).1.arr)).nCoef = s.data.d.length := by
      show (A.bench.map List.length).getD 0 = _
      rw [hB]; simp [hl]
    rw [e]
    exact ⟨by rw [hf.nT, hs.nT], by rw [hf.nR, hs.nR], by rw [hf'.nT, ht.nT, hd], by rw [hf'.nR, ht.nR, hr]⟩
  have hdd : (fit F sp s a).1.data.d = s.data.d := hf.data.d
  have hnR : ((fit F sp s a).1.heap (fit F sp s a).1.arr).nR = s.nRep := by rw [hf.nR, hs.nR]
  refine ⟨A, A', B, B', benchRows (fit F sp s a).1 g, hV.fw, hB, hV'.fw, hB', ?_, ?_, ?_⟩
  · unfold compareWith
    rw [hok']
    dsimp only
    rw [hG]
    show benchFrame _ g = _
    unfold benchFrame
    rw [if_pos (by rw [hgl, hl, hdd])]
  · simp [benchRows, hgl, hl, hdd]
  · intro j hj
    refine ⟨_, _, (hBj j hj).2, (hBj' j (by rw [hlen]; exact hj)).2, ?_⟩
    have h1 := hgj j _ _ (hBj j hj).2 (hBj' j (by rw [hlen]; exact hj)).2
    have hblank : ∀ x, blankRow ((fit F sp s a).1.heap (fit F sp s a).1.arr) ((fit F sp s a).1.heap (fit F sp s a).1.arr).nR j x =
        some x := by
      intro x
      unfold blankRow
      rw [if_pos]
      intro k hk
      rw [hnR] at hk
      rw [hV.coefs j hj ⟨k, hk⟩]
      rfl
    have h2 : (g.zip (fit F sp s a).1.data.d)[j]? = some (_, s.data.d[j]) :=
      List.getElem?_zip_eq_some.2 ⟨h1, by rw [hdd]; exact List.getElem?_eq_getElem hj⟩
    unfold benchRows
    rw [List.getElem?_map, List.getElem?_zipIdx, h2]
    simp only [Option.map_some, Nat.zero_add, hblank]
    rfl

/-- **C70.** The benchmark of a fitted model: one row per treatment, with the gain statistics of its sensitivity elements and
estimates and those of the separately created and fitted model without the benchmarked covariates (same arguments, same random
draws). -/
theorem C70_rows (E : Ext) {F : Frame n} (hF : F.cols.Nodup) {cl : Option ColArg} {da : DataArgs} {set : List String}
    {D D' : DataState n} (hD : dataInit F cl da = .ok D) (h0 : set ≠ []) (h1 : set ⊆ D.x)
    (hD' : dataInit F cl { da with x := .list (D.x.filter fun c => c ∉ set) } = .ok D') {sp : LinSpec n P}
    (hsp : LinearScoreClass sp) (hi : sp.sensImpl = true) {x : ℝ} {nF nR dr : PyVal} {w : Draws n} {s t : LinState n P}
    (hs : initModel sp D x nF nR dr w = .ok s) (ht : initModel sp D' x nF nR dr w = .ok t) {a a' : FitArgs}
    (hok : (fit F sp s a).2 = .ok ()) (hok' : (fit F sp t a').2 = .ok ()) :
    ∃ (A A' : FW n s.nRep) (B B' : List (Bench s.nRep)) (rows : List BenchRow),
      (fit F sp s a).1.fw? = some ⟨s.nRep, A⟩ ∧ A.bench = some B ∧ (fit F sp t a').1.fw? = some ⟨s.nRep, A'⟩ ∧ A'.bench = some B' ∧
      benchmark F sp (fit F sp s a).1 true set true a' = .ok rows ∧ rows.length = D.d.length ∧
      ∀ (j : ℕ) (hj : j < D.d.length), ∃ b b', B[j]? = some b ∧ B'[j]? = some b' ∧
        rows[j]? = some (benchRow (npVar fun i => (D.yv i).val) D.d[j] b ((fit F sp s a).1.allCoef s.nRep j) b'
          ((fit F sp t a').1.allCoef s.nRep j)) := by
  have hX := C69_data hF hD hD'
  obtain ⟨e, g1, -⟩ | ⟨s1, t1, g1, g2, g3, g4, g5⟩ := C69_init sp hX x nF nR dr w
  · rw [hs] at g1; cases g1
  rw [hs] at g1; rw [ht] at g2
  cases g1; cases g2
  have hb := C70_is_refit E hF hD h0 h1 hD' hsp hs ht (os := [.fit a]) (by simp [MOp.calm])
    (fit_sens hi hok) a'
  have e : mrun E F sp s [.fit a] = (fit F sp s a).1 := rfl
  rw [e] at hb
  rw [hb]
  have hy : (fit F sp s a).1.data.yv = D.yv := by
    rw [(fit_frame F sp s a).1.data.roles, g4]
  have := compare_rows (F := F) hsp hi (initModel_wf hs).1.shaped (initModel_wf ht).1.shaped (by rw [g3]) (by rw [g4, g5, hX.d]) hok hok'
  rw [hy] at this
  subst g4
  exact this

/-- **C70.** If the learners ignore the benchmarked covariates, all benchmark values are zero (outcome not constant, positive
residual variances and Riesz representers). -/
theorem C70_zero (E : Ext) {F : Frame n} (hF : F.cols.Nodup) {cl : Option ColArg} {da : DataArgs} {set : List String}
    {D D' : DataState n} (hD : dataInit F cl da = .ok D) (h0 : set ≠ []) (h1 : set ⊆ D.x)
    (hD' : dataInit F cl { da with x := .list (D.x.filter fun c => c ∉ set) } = .ok D') {sp : LinSpec n P}
    (hL : LearnersAll (fun L => L.Ignores F set) sp) (hi : sp.sensImpl = true) {x : ℝ} {nF nR dr : PyVal} {w : Draws n}
    {s t : LinState n P} (hs : initModel sp D x nF nR dr w = .ok s) (ht : initModel sp D' x nF nR dr w = .ok t) {a : FitArgs}
    (hok : (fit F sp s a).2 = .ok ()) (hvar : 0 < npVar fun i => (D.yv i).val)
    (hpos : ∀ A B, (fit F sp s a).1.fw? = some A → A.fw.bench = some B → ∀ b ∈ B, ∀ k, 0 < b.sigma2 k ∧ 0 < b.nu2 k) :
    ∃ rows, benchmark F sp (fit F sp s a).1 true set true a = .ok rows ∧ rows.length = D.d.length ∧
      ∀ row ∈ rows, row.cfY = 0 ∧ row.cfD = 0 ∧ row.rho = some 0 ∧ row.delta = some 0 := by
  have hx' : D'.x = D.x.filter fun c => c ∉ set := by
    obtain ⟨-, -, -, -, -, -, -, -, -, -, -, hx, -⟩ := dataInit_ok hF hD'
    have hx' : colList F (.list (D.x.filter fun c => c ∉ set)) = .ok D'.x := hx
    unfold colList at hx'
    dsimp only at hx'
    split_ifs at hx'
    exact (Except.ok.inj hx').symm
  obtain ⟨e1, e2⟩ := C69_unused hF hD hD' hx' hL hs ht a
  have hok' := e1.trans hok
  obtain ⟨A, A', B, B', rows, q1, q2, q3, q4, q5, q6, q7⟩ := C70_rows E hF hD h0 h1 hD' hL.linear hi hs ht hok hok'
  have hfw : (fit F sp t a).1.fw? = (fit F sp s a).1.fw? := by
    unfold MState.fw?
    rw [show (fit F sp t a).1.framework = (fit F sp s a).1.framework by rw [e2],
      show (fit F sp t a).1.heap = (fit F sp s a).1.heap by rw [e2]]
  have hcoef : ∀ j, (fit F sp t a).1.allCoef s.nRep j = (fit F sp s a).1.allCoef s.nRep j := by
    intro j
    unfold MState.allCoef
    rw [show (fit F sp t a).1.heap = (fit F sp s a).1.heap by rw [e2], show (fit F sp t a).1.arr = (fit F sp s a).1.arr by rw [e2]]
  rw [hfw, q1] at q3
  obtain rfl : A = A' := by cases q3; rfl
  obtain rfl : B = B' := Option.some.inj (q2.symm.trans q4)
  refine ⟨rows, q5, q6, fun row hrow => ?_⟩
  obtain ⟨j, hj, rfl⟩ := List.getElem_of_mem hrow
  obtain ⟨b, b', hb, hb', hr⟩ := q7 j (by rw [← q6]; exact hj)
  rw [hb] at hb'
  cases hb'
  rw [List.getElem?_eq_getElem hj] at hr
  rw [Option.some.inj hr]
  have hp := hpos _ _ q1 q2 b (List.mem_of_getElem? hb)
  obtain ⟨z1, z2, z3, z4⟩ := C18_zero (initModel_wf hs).1.shaped.pos (npVar fun i => (D.yv i).val) b.sigma2 b.nu2
    ((fit F sp s a).1.allCoef s.nRep j) hvar hp
  unfold benchRow
  rw [hcoef]
  exact ⟨z1, z2, congrArg some z3, congrArg some z4⟩

/-- **C70 (violated).** After `draw_sample_splitting` without a new `fit`, the benchmark does not raise an exception: it compares
the estimates of the old sample split with a short model on the new one. -/
theorem C70_after_draw_violated {F : Frame n} {sp : Spec n P M} {s t : MState n P M} {w : Draws n} {set : List String}
    (hw : (drawSampleSplitting sp s w).2 = .ok ()) (hsens : s.sens ≠ none) (h0 : set ≠ []) (h1 : set ⊆ s.data.x)
    (ht : shortModel F s (s.data.x.filter fun x => x ∉ set) = .ok t) (a : FitArgs) :
    benchmark F sp (drawSampleSplitting sp s w).1 true set true a =
      compareWith F sp s (drawSampleSplitting sp t w).1 a := by
  obtain ⟨D, hD, rfl, hcv⟩ : ∃ D, dataStep F s.data (.setX (.list (s.data.x.filter fun x => x ∉ set))) = (D, .ok ()) ∧
      t = { s with data := D } ∧ D.cv = s.data.cv := by
    unfold shortModel at ht
    rcases hq : dataStep F s.data (.setX (.list (s.data.x.filter fun x => x ∉ set))) with ⟨D, (e | ⟨⟩)⟩
    · rw [hq] at ht; cases ht
    · rw [hq] at ht
      refine ⟨D, rfl, (Except.ok.inj ht).symm, ?_⟩
      unfold dataStep at hq
      dsimp only at hq
      split at hq
      · cases hq
      · unfold finishXD at hq
        split_ifs at hq
        · split at hq
          · rename_i S' hS'
            obtain ⟨tv, l, -, he⟩ := setXDFirst_head hS'
            cases hq
            rw [he]
          · cases hq
        · cases hq
  obtain ⟨l, c, hl⟩ : ∃ l c, drawnSplit sp s w = .ok (l, c) := by
    unfold drawSampleSplitting at hw
    cases h : drawnSplit sp s w with
    | error e => rw [h] at hw; cases hw
    | ok lc => exact ⟨_, _, rfl⟩
  have hl' : drawnSplit sp { s with data := D } w = .ok (l, c) := by
    rw [← hl]
    unfold drawnSplit
    dsimp only
    rw [hcv]
  have e1 : drawSampleSplitting sp s w = ({ s with smpls := some l, smplsCluster := c }, .ok ()) := by
    unfold drawSampleSplitting; rw [hl]
  have e2 : drawSampleSplitting sp { s with data := D } w =
      ({ s with data := D, smpls := some l, smplsCluster := c }, .ok ()) := by
    unfold drawSampleSplitting; rw [hl']
  rw [e1, e2]
  rw [benchmark_eq (s := { s with smpls := some l, smplsCluster := c })
    (t := { s with data := D, smpls := some l, smplsCluster := c }) hsens h0 h1 (by unfold shortModel; dsimp only; rw [hD])]
  unfold compareWith
  cases (fit F sp { s with data := D, smpls := some l, smplsCluster := c } a).2 with
  | error e => rfl
  | ok u => rfl

/-- **C70 (violated).** After `set_sample_splitting` without a new `fit`, the benchmark reports missing values for `rho` and
`delta_theta` next to values of `cf_y` and `cf_d` that mix the two sample splits. -/
theorem C70_after_set_violated {F : Frame n} {sp : Spec n P M} {s : MState n P M} {sa : SplitArg}
    {cl : Option (List (List ClusterPair))} (hw : (setSampleSplitting sp s sa cl).2 = .ok ()) {isList argsOk : Bool}
    {set : List String} {a : FitArgs} {rows : List BenchRow}
    (h : benchmark F sp (setSampleSplitting sp s sa cl).1 isList set argsOk a = .ok rows) :
    ∀ row ∈ rows, row.rho = none ∧ row.delta = none := by
  have hpos : 0 < ((setSampleSplitting sp s sa cl).1.heap (setSampleSplitting sp s sa cl).1.arr).nR := by
    obtain ⟨l, nr, nf, c, h1, -, h3⟩ := setSampleSplitting_ok hw
    rw [h3]
    have := initArrays_shaped (P := P) (M := M) (s := { s with
      smpls := some (l.map fun r => r.map toFold)
      smplsCluster := c
      nRep := nr
      nFolds := nf
      params := initParams sp.learners s.data.d nr }) (C22_accepted_splits_valid n sa l nr nf h1).2.1
    rw [this.nR]
    exact this.pos
  have hnone : ∀ j k, ((setSampleSplitting sp s sa cl).1.heap (setSampleSplitting sp s sa cl).1.arr).coef j k = none :=
    fun j k => (C30_estimates_reset_partial hw j k).2.2.1
  generalize (setSampleSplitting sp s sa cl).1 = u at *
  have hblank : ∀ j x, blankRow (u.heap u.arr) (u.heap u.arr).nR j x = none := by
    intro j x
    unfold blankRow
    rw [if_neg]
    intro H
    have := H 0 hpos
    rw [hnone] at this
    cases this
  have hrows : ∃ g, rows = benchRows u g := by
    unfold benchmark at h
    split_ifs at h
    obtain ⟨xs, -, h⟩ := bind_ok h
    obtain ⟨t, -, h⟩ := bind_ok h
    split at h
    · cases h
    · obtain ⟨g, -, h⟩ := bind_ok h
      unfold benchFrame at h
      split_ifs at h
      exact ⟨g, (Except.ok.inj h).symm⟩
  obtain ⟨g, rfl⟩ := hrows
  intro row hrow
  unfold benchRows at hrow
  obtain ⟨q, -, rfl⟩ := List.mem_map.1 hrow
  exact ⟨hblank _ _, hblank _ _⟩

/-- An object created with `draw_sample_splitting=True` has a split. -/
theorem initModel_drawn {sp : Spec n P M} {D : DataState n} {x : ℝ} {nF nR : PyVal} {w : Draws n} {s : MState n P M}
    (h : initModel sp D x nF nR (.bool true) w = .ok s) : ∃ L, s.smpls = some L := by
  unfold initModel at h
  obtain ⟨_, -, h⟩ := bind_ok h
  obtain ⟨k, -, h⟩ := bind_ok h
  obtain ⟨r, -, h⟩ := bind_ok h
  obtain ⟨b, hb, h⟩ := bind_ok h
  obtain rfl : true = b := Except.ok.inj hb
  dsimp only at h
  rw [if_pos rfl] at h
  split at h
  · cases h
  · rename_i s' hs'
    cases h
    unfold drawSampleSplitting at hs'
    split at hs'
    · cases hs'
    · cases hs'
      exact ⟨_, rfl⟩

/-- A model that still has the framework of an earlier fit gives an answer, whatever happened to its split. -/
theorem compare_answers {F : Frame n} {sp : LinSpec n P} (hsp : LinearScoreClass sp) (hi : sp.sensImpl = true) {s u v : LinState n P}
    (hs : Shaped s) {a a' : FitArgs} (hok : (fit F sp s a).2 = .ok ()) (hu : u.fw? = (fit F sp s a).1.fw?)
    (hu1 : u.data.d = s.data.d) (hu2 : (u.heap u.arr).nT = s.data.d.length) (hu3 : (u.heap u.arr).nR = s.nRep)
    (hv : Shaped v) (hr : v.nRep = s.nRep) (hd : v.data.d = s.data.d) (hok' : (fit F sp v a').2 = .ok ()) :
    ∃ rows, compareWith F sp u v a' = .ok rows ∧ rows.length = s.data.d.length := by
  obtain ⟨A, c, o, hV⟩ := fit_view hsp.usualVsf hs hok rfl
  obtain ⟨A', c', o', hV'⟩ := fit_view hsp.usualVsf hv hok' hr
  obtain ⟨S, B, -, hB, -, hl, -⟩ := hV.sens hi
  obtain ⟨S', B', -, hB', -, hl', -⟩ := hV'.sens hi
  have hf' := (fit_frame F sp v a').1
  obtain ⟨g, hg, hgl, -⟩ := gainStatistics_inputs (npVar fun i => (u.data.yv i).val) hB hB'
    (by rw [hl, hl', hd]) (u.heap u.arr) ((fit F sp v a').1.heap (fit F sp v a').1.arr)
  have hG : gainModels u (fit F sp v a').1 = .ok g := by
    unfold gainModels
    rw [hu, hV.fw, hV'.fw]
    dsimp only
    rw [hg]
    simp only [bind, Except.bind]
    rw [if_pos]
    have e : (gainInput (⟨s.nRep, A⟩ : DynFW n) (u.heap u.arr)).nCoef = s.data.d.length := by
      show (A.bench.map List.length).getD 0 = _
      rw [hB]; simp [hl]
    rw [e]
    exact ⟨hu2, hu3, by rw [hf'.nT, hv.nT, hd], by rw [hf'.nR, hv.nR, hr]⟩
  refine ⟨benchRows u g, ?_, by simp [benchRows, hgl, hl, hu1]⟩
  unfold compareWith
  rw [hok']
  dsimp only
  rw [hG]
  show benchFrame _ g = _
  unfold benchFrame
  rw [if_pos (by rw [hgl, hl, hu1])]

/-! ## An example -/

/-- A learner that predicts zero. -/
def zeroL : Learner ℕ (List Cell) := ⟨fun _ _ _ => 0, fun _ _ _ => [0, 1]⟩

theorem zeroL_ignores (F : Frame n) (B : List String) : zeroL.Ignores F B := by
  intro cols
  refine ⟨fun _ _ _ => rfl, fun _ _ _ => rfl⟩

/-- A partially linear regression with this learner. -/
def zeroPlr : PlrClass 4 ℕ where
  mClassifier := false
  iv := false
  ml_l := zeroL
  ml_m := zeroL
  ml_g := zeroL

theorem zeroL_vec {c : CellIn 4 ℕ} {l : String} {y : Fin 4 → ℝ} {r : CvRes 4 ℕ (List Cell)} (hS : FoldsOk c.smpls)
    (h : learn zeroL .predict c l y = .ok r) (i : Fin 4) : r.vec i = 0 := by
  unfold learn at h
  obtain ⟨r', hr', h⟩ := bind_ok h
  obtain ⟨_, -, h⟩ := bind_ok h
  cases h
  obtain ⟨f, hf, -⟩ := C26_complete hS.1 i
  unfold CvRes.vec
  rw [C26_prediction_rule rfl hS.1 hS.2 hr' f.val f.2 i hf]
  rfl

theorem cov_d (i : Fin 4) : covFrame.col "d" i = .num ((i.val : ℝ) ^ 3 + 5) := by simp [covFrame]

theorem cov_y (i : Fin 4) : covFrame.col "y" i = .num ((i.val : ℝ) + 3) := by simp [covFrame]

/-- The data with treatment `d` only. -/
theorem covInit1 {xs : List String} (h : xs = ["a", "b", "c"] ∨ xs = ["a"]) :
    ∃ S, dataInit covFrame none ⟨.str "y", .str "d", .list xs, .none, .none, .none, .bool true, .bool true⟩ = .ok S ∧ S.x = xs ∧
      S.d = ["d"] ∧ S.yv = covFrame.col "y" ∧ S.dv = covFrame.col "d" ∧ lookupKey "d" S.binTreats = some false := by
  have hfin : ∀ c, finiteCol (covFrame.col c) := fun _ _ => ⟨_, rfl⟩
  have h1 : ¬ ¬ (∀ cs ∈ (none : Option (List String)), ∀ c ∈ cs, finiteCol (covFrame.col c)) := by simp
  have h2 : ¬ ¬ (∀ c ∈ ["d"], finiteCol (covFrame.col c)) := not_not.2 fun c _ => hfin c
  have h3 : ¬ ¬ finiteCol (covFrame.col "y") := not_not.2 (hfin _)
  have hc1 : colStr covFrame (.str "y") = .ok "y" := by simp [colStr, covFrame]
  have hc2 : colList covFrame (.str "d") = .ok ["d"] := by simp [colList, covFrame]
  have hc3 : colList covFrame (.list xs) = .ok xs := by
    obtain rfl | rfl := h <;> simp [colList, covFrame]
  have hdj : "d" ∉ xs := by obtain rfl | rfl := h <;> simp
  have hyj : "y" ∉ xs := by obtain rfl | rfl := h <;> simp
  have hb : isBinaryCol (covFrame.col "d") = false := by
    simp only [isBinaryCol, decide_eq_false_iff_not]
    intro h
    have := h 0
    rw [cov_d] at this
    norm_num at this
  unfold dataInit
  simp only [clusterArg, bind, Except.bind]
  rw [if_neg h1]
  simp only [hc1, hc2, zArg, optArg, xArg, hc3]
  rw [if_neg (by simp [disjointBase, disjointTS, disj]; exact ⟨hyj, hdj⟩)]
  simp only [checkBool, forceArg, if_true]
  rw [if_neg h2, if_neg h3]
  rw [setYZTS_finite hfin]
  simp only
  rw [setXDFirst_finite hfin (tv := "d") (l := []) rfl]
  simp only
  rw [if_pos (by simp [disjointAll, disjointBase, disjointTS, disjointCluster, disj]; exact ⟨hyj, hdj⟩)]
  refine ⟨_, rfl, rfl, rfl, rfl, rfl, ?_⟩
  simp [lookupKey, hb]

/-- A data object, the one without the last two covariates, and models for them. -/
theorem exBench (E : Ext) : ∃ D D' s t, dataInit covFrame none
      ⟨.str "y", .str "d", .list ["a", "b", "c"], .none, .none, .none, .bool true, .bool true⟩ = .ok D ∧
    dataInit covFrame none ⟨.str "y", .str "d", .list (D.x.filter fun c => c ∉ ["b", "c"]), .none, .none, .none, .bool true, .bool true⟩ =
      .ok D' ∧ D.x = ["a", "b", "c"] ∧ D.d = ["d"] ∧ D.yv = covFrame.col "y" ∧ D.dv = covFrame.col "d" ∧
      lookupKey "d" D'.binTreats = some false ∧
    initModel (plrSpec zeroPlr) D 0 (.int 2) (.int 1) (.bool true) exDraw4 = .ok s ∧
    initModel (plrSpec zeroPlr) D' 0 (.int 2) (.int 1) (.bool true) exDraw4 = .ok t ∧
    Reached E covFrame (plrSpec zeroPlr) D "d" s ∧
    (∀ os, PlainHistory E covFrame (plrSpec zeroPlr) t os → Reached E covFrame (plrSpec zeroPlr) D' "d" (mrun E covFrame (plrSpec zeroPlr) t os)) ∧
    (fit covFrame (plrSpec zeroPlr) s {}).2 = .ok () := by
  obtain ⟨D, hD, hx, hd, hy, hdv, hb⟩ := covInit1 (xs := ["a", "b", "c"]) (.inl rfl)
  obtain ⟨D', hD', -, hd', -, -, hb'⟩ := covInit1 (xs := ["a"]) (.inr rfl)
  have hx' : (D.x.filter fun c => c ∉ ["b", "c"]) = ["a"] := by rw [hx]; decide
  obtain ⟨s, hs⟩ := (initModel_ok_iff (plrSpec zeroPlr) D 0 (.int 2) (.int 1) (.bool true) exDraw4).2
    ⟨fun h => (by cases h), 2, 1, true, rfl, by decide, rfl, by decide, rfl, fun _ => ⟨by decide, fun _ => (by decide)⟩⟩
  obtain ⟨t, ht⟩ := (initModel_ok_iff (plrSpec zeroPlr) D' 0 (.int 2) (.int 1) (.bool true) exDraw4).2
    ⟨fun h => (by cases h), 2, 1, true, rfl, by decide, rfl, by decide, rfl, fun _ => ⟨by decide, fun _ => (by decide)⟩⟩
  have hw : ∀ K, (PyVal.int 2).asInt = some K → ∀ r i, (exDraw4.assign r i : ℤ) < K := by
    intro K hK r i
    obtain rfl : 2 = K := Option.some.inj hK
    show (((if (i : ℕ) < 2 then 0 else 1 : ℕ)) : ℤ) < 2
    split_ifs <;> decide
  have hR : Reached E covFrame (plrSpec zeroPlr) D "d" s :=
    ⟨hd, 0, .int 2, .int 1, .bool true, exDraw4, s, [], hs, hw, trivial, rfl⟩
  obtain ⟨L, hL⟩ : ∃ L, s.smpls = some L := initModel_drawn hs
  have hok : (fit covFrame (plrSpec zeroPlr) s {}).2 = .ok () :=
    C63_plr rfl rfl hb hR hL ⟨.inl rfl, ⟨true, rfl⟩, ⟨false, rfl⟩, .inl rfl⟩
  exact ⟨D, D', s, t, hD, by rw [hx']; exact hD', hx, hd, hy, hdv, hb', hs, ht, hR,
    fun os h => ⟨hd', 0, .int 2, .int 1, .bool true, exDraw4, t, os, ht, hw, h, rfl⟩, hok⟩

/-- Non-vacuity of `C70_rows` and `C70_zero`: the benchmark of the last two covariates is answered and zero. -/
example (E : Ext) : ∃ D D' s t, dataInit covFrame none
      ⟨.str "y", .str "d", .list ["a", "b", "c"], .none, .none, .none, .bool true, .bool true⟩ = .ok D ∧
    dataInit covFrame none ⟨.str "y", .str "d", .list (D.x.filter fun c => c ∉ ["b", "c"]), .none, .none, .none, .bool true, .bool true⟩ =
      .ok D' ∧
    initModel (plrSpec zeroPlr) D 0 (.int 2) (.int 1) (.bool true) exDraw4 = .ok s ∧
    initModel (plrSpec zeroPlr) D' 0 (.int 2) (.int 1) (.bool true) exDraw4 = .ok t ∧
    (fit covFrame (plrSpec zeroPlr) s {}).2 = .ok () ∧
    ∃ rows, benchmark covFrame (plrSpec zeroPlr) (fit covFrame (plrSpec zeroPlr) s {}).1 true ["b", "c"] true {} = .ok rows ∧
      rows.length = 1 ∧ ∀ row ∈ rows, row.cfY = 0 ∧ row.cfD = 0 ∧ row.rho = some 0 ∧ row.delta = some 0 := by
  obtain ⟨D, D', s, t, hD, hD', hx, hd, hy, hdv, -, hs, ht, hR, -, hok⟩ := exBench E
  obtain ⟨hready, hsD⟩ := hR.ready rfl
  have hI := zeroL_ignores covFrame ["b", "c"]
  refine ⟨D, D', s, t, hD, hD', hs, ht, hok, ?_⟩
  have := C70_zero E (F := covFrame) (by decide) hD (set := ["b", "c"]) (by simp) (by rw [hx]; simp)
    hD' (sp := plrSpec zeroPlr) (.plr _ hI hI hI) rfl hs ht hok ?_ ?_
  · rw [hd] at this
    exact this
  · rw [hy]
    show 0 < mean _
    simp only [cov_y, Cell.val]
    refine mean_pos_of (fun i => sq_nonneg _) (k := 0) ?_
    have : mean (fun i : Fin 4 => (i.val : ℝ) + 3) = 9 / 2 := by
      unfold mean
      rw [Fin.sum_univ_four]
      norm_num
    rw [this]
    norm_num
  · intro A B hA hB b hbB k
    obtain ⟨A', c, o, hV⟩ := fit_view (F := covFrame) (sp := plrSpec zeroPlr) (LinearScoreClass.usualVsf (.plr _)) hready.shaped hok rfl
    rw [hV.fw] at hA
    cases hA
    obtain ⟨S, B', -, hB', -, hl, hBj⟩ := hV.sens rfl
    obtain rfl : B = B' := Option.some.inj (hB.symm.trans hB')
    have hlen : s.data.d.length = 1 := by rw [hsD, hd]; rfl
    obtain ⟨j, hj, rfl⟩ := List.getElem_of_mem hbB
    obtain rfl : j = 0 := by omega
    have hj' : 0 < s.data.d.length := by omega
    have hb0 := (hBj 0 hj').2
    rw [List.getElem?_eq_getElem hj] at hb0
    rw [Option.some.inj hb0]
    have key : ∀ k, 0 < (o 0 hj' k).sens.sigma2 ∧ 0 < (o 0 hj' k).sens.nu2 := by
      intro k
      obtain ⟨hc, ho⟩ := hV.cell 0 hj' k
      obtain ⟨L', hL', hLk⟩ := hc.smpls
      have hS := ((hready.split L' hL').2 _ (List.mem_of_getElem? hLk)).1
      have hdat : (c 0 hj' k).data = D := by
        rw [hc.data, hsD]
        unfold activeData
        rw [if_neg (by rw [hd]; decide)]
      have hext : (c 0 hj' k).ext = [("ml_l", none), ("ml_m", none)] := (Except.ok.inj hc.ext).symm
      have hxl : (c 0 hj' k).extOf "ml_l" = none := by unfold CellIn.extOf; rw [hext]; rfl
      have hxm : (c 0 hj' k).extOf "ml_m" = none := by unfold CellIn.extOf; rw [hext]; rfl
      have ho : plrEst zeroPlr (c 0 hj' k) = .ok (o 0 hj' k) := ho
      unfold plrEst at ho
      obtain ⟨l, hl1, ho⟩ := bind_ok ho
      obtain ⟨m, hm1, ho⟩ := bind_ok ho
      obtain ⟨g, -, ho⟩ := bind_ok ho
      rw [← Except.ok.inj ho]
      have hl0 : ∀ i, l.vec i = 0 := by
        unfold plrL at hl1
        rw [hxl] at hl1
        exact zeroL_vec hS hl1
      have hm0 : ∀ i, m.vec i = 0 := by
        unfold plrM at hm1
        rw [hxm] at hm1
        obtain ⟨r, hr, hm1⟩ := bind_ok hm1
        obtain ⟨_, -, hm1⟩ := bind_ok hm1
        cases hm1
        exact zeroL_vec hS hr
      generalize plrElems _ _ _ _ _ _ = el
      constructor
      · show 0 < mean (plrResid2 false _ _ _ _ _ _)
        generalize (el.fit _).coef = th
        have e : plrResid2 false (fun i => ((c 0 hj' k).data.yv i).val) (fun i => ((c 0 hj' k).data.dv i).val) l.vec m.vec g.vec th =
            fun i : Fin 4 => ((i.val : ℝ) + 3 - th * ((i.val : ℝ) ^ 3 + 5)) ^ 2 := by
          funext i
          show ((((c 0 hj' k).data.yv i).val) - l.vec i - th * ((((c 0 hj' k).data.dv i).val) - m.vec i)) ^ 2 = _
          rw [hdat, hy, hdv, hl0, hm0, cov_y, cov_d]
          simp [Cell.val]
        rw [e]
        by_cases h0 : (3 : ℝ) - th * 5 = 0
        · refine mean_pos_of (fun i => sq_nonneg _) (k := 1) ?_
          have : th = 3 / 5 := by linarith
          rw [this]
          norm_num
        · refine mean_pos_of (fun i => sq_nonneg _) (k := 0) ?_
          norm_num
          exact lt_of_le_of_ne (sq_nonneg _) (fun h => h0 (pow_eq_zero_iff (two_ne_zero)|>.1 h.symm))
      · show 0 < 1 / mean _
        refine one_div_pos.2 (mean_pos_of (fun i => sq_nonneg _) (k := 0) ?_)
        dsimp only
        rw [hdat, hdv, hm0, cov_d]
        norm_num [Cell.val]
    have hval : validateSens (fun k => (o 0 hj' k).sens) = fun k => (o 0 hj' k).sens := by
      unfold validateSens
      exact if_neg fun ⟨k, hk⟩ => absurd (key k).2 (not_lt.2 hk)
    unfold cellBench
    rw [hval]
    exact key k

theorem stale_step (E : Ext) (F : Frame 4) {u : LinState 4 ℕ} (hw : WF u) (h1 : u.nRep = 1) (h2 : u.nFolds = 2) {o : MOp 4 ℕ}
    (ho : o = .draw exDraw4 ∨ o = .setSplit exLoo none) :
    (mstep E F (plrSpec zeroPlr) u o).2.isOk = true ∧ (mstep E F (plrSpec zeroPlr) u o).1.fw? = u.fw? ∧
    (mstep E F (plrSpec zeroPlr) u o).1.data = u.data ∧
    ((mstep E F (plrSpec zeroPlr) u o).1.heap (mstep E F (plrSpec zeroPlr) u o).1.arr).nT = u.data.d.length ∧
    ((mstep E F (plrSpec zeroPlr) u o).1.heap (mstep E F (plrSpec zeroPlr) u o).1.arr).nR = 1 ∧
    (mstep E F (plrSpec zeroPlr) u o).1.nRep = 1 ∧ (∃ L, (mstep E F (plrSpec zeroPlr) u o).1.smpls = some L) ∧
    (mstep E F (plrSpec zeroPlr) u o).1.sens = u.sens := by
  obtain rfl | rfl := ho
  · obtain ⟨l, hl⟩ : ∃ l, drawSplit u.nFolds u.nRep exDraw4.shuffle = .ok l := by
      rw [h1, h2]
      unfold drawSplit
      exact ⟨_, rfl⟩
    have hd : drawSampleSplitting (plrSpec zeroPlr) u exDraw4 = ({ u with smpls := some l, smplsCluster := u.smplsCluster }, .ok ()) := by
      unfold drawSampleSplitting drawnSplit
      have e1 : (plrSpec zeroPlr).vars = none := rfl
      have e2 : (plrSpec zeroPlr).stratified = false := rfl
      rw [e1, e2, hl]
      rfl
    have hm : mstep E F (plrSpec zeroPlr) u (.draw exDraw4) = ({ u with smpls := some l, smplsCluster := u.smplsCluster }, .ok .self) := by
      show (_, _) = _
      rw [hd]
      rfl
    rw [hm]
    exact ⟨rfl, rfl, rfl, hw.shaped.nT, hw.shaped.nR.trans h1, h1, ⟨l, rfl⟩, rfl⟩
  · have hval : ValidSplit 4 [([1, 2, 3], [0]), ([0, 2, 3], [1]), ([0, 1, 3], [2]), ([0, 1, 2], [3])] := by
      refine ⟨by decide, ?_, ?_⟩ <;> simp [InRange]
    have hsp := (C22_nested_accepted_iff 4 [([1, 2, 3], [0]), ([0, 2, 3], [1]), ([0, 1, 3], [2]), ([0, 1, 2], [3])] [] _).2
      ⟨by simp, by simp, by simpa using hval, rfl⟩
    have hok : (setSampleSplitting (plrSpec zeroPlr) u exLoo none).2 = .ok () := by
      unfold setSampleSplitting exLoo
      rw [hsp]
      rfl
    obtain ⟨l, nr, nf, c, g1, -, g3⟩ := setSampleSplitting_ok hok
    have g1 : checkSampleSplitting 4 exLoo = .ok (l, nr, nf) := g1
    unfold exLoo at g1
    rw [hsp] at g1
    simp only [Except.ok.injEq, Prod.mk.injEq] at g1
    obtain ⟨-, rfl, -⟩ := g1
    have e1 : (mstep E F (plrSpec zeroPlr) u (.setSplit exLoo none)).1 = (setSampleSplitting (plrSpec zeroPlr) u exLoo none).1 := rfl
    refine ⟨?_, ?_⟩
    · show ((setSampleSplitting (plrSpec zeroPlr) u exLoo none).2.map _).isOk = true
      rw [hok]; rfl
    rw [e1, g3]
    refine ⟨?_, rfl, ?_, ?_, rfl, ⟨_, rfl⟩, rfl⟩
    · unfold MState.fw?
      simp only [initArrays]
      cases hf : u.framework with
      | none => rfl
      | some o =>
        have := hw.framework o hf
        simp only [Option.map_some, FwObj.view]
        rw [Function.update_of_ne (by omega)]
    · simp [initArrays, Arr.fresh]
    · simp [initArrays, Arr.fresh]

/-- A new draw or a new split after the fit: the benchmark is answered. -/
theorem exBench_stale (E : Ext) (o : MOp 4 ℕ)
    (ho : o = .draw exDraw4 ∨ o = .setSplit exLoo none) : ∃ s : LinState 4 ℕ, (fit covFrame (plrSpec zeroPlr) s {}).2 = .ok () ∧
    (mstep E covFrame (plrSpec zeroPlr) (fit covFrame (plrSpec zeroPlr) s {}).1 o).2.isOk = true ∧
    ∃ rows, benchmark covFrame (plrSpec zeroPlr) (mstep E covFrame (plrSpec zeroPlr) (fit covFrame (plrSpec zeroPlr) s {}).1 o).1
      true ["b", "c"] true {} = .ok rows ∧ rows.length = 1 := by
  obtain ⟨D, D', s, t, hD, hD', hx, hd, hy, hdv, hb', hs, ht, hR, hR', hok⟩ := exBench E
  obtain ⟨hready, hsD⟩ := hR.ready rfl
  refine ⟨s, hok, ?_⟩
  have hplain : ∀ o' ∈ [MOp.fit {}, o], o'.plain = true := by
    obtain rfl | rfl := ho <;> simp [MOp.plain]
  have hX := C69_data (F := covFrame) (by decide) hD hD'
  obtain ⟨e, g1, -⟩ | ⟨s1, t1, g1, g2, g3, g4, g5⟩ := C69_init (plrSpec zeroPlr) hX 0 (.int 2) (.int 1) (.bool true) exDraw4
  · rw [hs] at g1; cases g1
  rw [hs] at g1; rw [ht] at g2
  cases g1; cases g2
  have hset : SameSetup s t := by
    have e : t.data.d = s.data.d ∧ t.data.cv = s.data.cv := by rw [g4, g5, hX.d, hX]; exact ⟨rfl, rfl⟩
    exact ⟨e.1, e.2, by rw [g3], by rw [g3], by rw [g3], by rw [g3], by rw [g3], by rw [g3], by rw [g3], by rw [g3]⟩
  have hrun := hset.run E covFrame (plrSpec zeroPlr) hplain
  obtain ⟨f1, f2, f3, f4, -⟩ := fit_frame covFrame (plrSpec zeroPlr) s {}
  obtain ⟨e1, e2, -, e4, -⟩ := fit_frame covFrame (plrSpec zeroPlr) t {}
  have hwf := (initModel_wf hs).1
  have hnr : s.nRep = 1 ∧ s.nFolds = 2 := by
    have h := hs
    unfold initModel at h
    obtain ⟨_, -, h⟩ := bind_ok h
    obtain ⟨k, hk, h⟩ := bind_ok h
    obtain ⟨r, hr, h⟩ := bind_ok h
    obtain ⟨b, hb, h⟩ := bind_ok h
    obtain rfl : true = b := Except.ok.inj hb
    obtain rfl : (2 : ℤ) = k := by simpa [checkInteger, PyVal.asInt] using hk
    obtain rfl : (1 : ℤ) = r := by simpa [checkInteger, PyVal.asInt] using hr
    dsimp only at h
    rw [if_pos rfl] at h
    split at h
    · cases h
    · rename_i s' hs'
      cases h
      unfold drawSampleSplitting at hs'
      split at hs'
      · cases hs'
      · cases hs'
        exact ⟨rfl, rfl⟩
  have hpl : PlainHistory E covFrame (plrSpec zeroPlr) t [.fit {}, o] := by
    refine ⟨trivial, ?_, trivial⟩
    obtain rfl | rfl := ho
    · intro r i
      show _ < (fit covFrame (plrSpec zeroPlr) t {}).1.nFolds
      rw [e4, hset.nFolds, hnr.2]
      show (if (i : ℕ) < 2 then 0 else 1) < 2
      split_ifs <;> decide
    · trivial
  have hRv := hR' _ hpl
  obtain ⟨hvready, hvD⟩ := hRv.ready rfl
  obtain ⟨hok2, hu1, hu2, hu3, hu4, hu5, ⟨L, hu6⟩, hu7⟩ :
      (mstep E covFrame (plrSpec zeroPlr) (fit covFrame (plrSpec zeroPlr) s {}).1 o).2.isOk = true ∧
      (mrun E covFrame (plrSpec zeroPlr) s [.fit {}, o]).fw? = (fit covFrame (plrSpec zeroPlr) s {}).1.fw? ∧
      (mrun E covFrame (plrSpec zeroPlr) s [.fit {}, o]).data = (fit covFrame (plrSpec zeroPlr) s {}).1.data ∧
      ((mrun E covFrame (plrSpec zeroPlr) s [.fit {}, o]).heap (mrun E covFrame (plrSpec zeroPlr) s [.fit {}, o]).arr).nT = s.data.d.length ∧
      ((mrun E covFrame (plrSpec zeroPlr) s [.fit {}, o]).heap (mrun E covFrame (plrSpec zeroPlr) s [.fit {}, o]).arr).nR = s.nRep ∧
      (mrun E covFrame (plrSpec zeroPlr) s [.fit {}, o]).nRep = s.nRep ∧
      (∃ L, (mrun E covFrame (plrSpec zeroPlr) s [.fit {}, o]).smpls = some L) ∧
      (mrun E covFrame (plrSpec zeroPlr) s [.fit {}, o]).sens = (fit covFrame (plrSpec zeroPlr) s {}).1.sens := by
    have hw0 : WF (fit covFrame (plrSpec zeroPlr) s {}).1 := mstep_wf E covFrame (plrSpec zeroPlr) hwf (.fit {}) rfl
    have := stale_step E covFrame hw0 (f1.nRep.trans hnr.1) (f4.trans hnr.2) ho
    rw [f1.data.d, ← hnr.1] at this
    exact this
  refine ⟨hok2, ?_⟩
  have hb := C70_history E (F := covFrame) (by decide) hD (set := ["b", "c"]) (by simp) (by rw [hx]; simp) hD'
    (.plr _) hs ht hplain (by rw [hu7]; exact fit_sens rfl hok) {}
  have hv : (fit covFrame (plrSpec zeroPlr) (mrun E covFrame (plrSpec zeroPlr) t [.fit {}, o]) {}).2 = .ok () :=
    C63_plr rfl rfl hb' hRv (hrun.smpls.trans hu6) ⟨.inl rfl, ⟨true, rfl⟩, ⟨false, rfl⟩, .inl rfl⟩
  have := compare_answers (F := covFrame) (sp := plrSpec zeroPlr) (.plr _) rfl hwf.shaped hok hu1 (by rw [hu2, f1.data.d]) hu3 hu4
    hvready.shaped (hrun.nRep.trans hu5) (by rw [hrun.d, hu2, f1.data.d]) hv
  rw [← hb, hsD, hd] at this
  exact this

/-- The hypotheses of `C70_after_set_violated` are met: a fitted model with a new split answers with `NaN`. -/
example (E : Ext) : ∃ (s : LinState 4 ℕ) (rows : List BenchRow), (fit covFrame (plrSpec zeroPlr) s {}).2 = .ok () ∧
    benchmark covFrame (plrSpec zeroPlr) (setSampleSplitting (plrSpec zeroPlr) (fit covFrame (plrSpec zeroPlr) s {}).1 exLoo none).1
      true ["b", "c"] true {} = .ok rows ∧ rows.length = 1 ∧ ∀ row ∈ rows, row.rho = none ∧ row.delta = none := by
  obtain ⟨s, h1, h2, rows, h3, h4⟩ := exBench_stale E (.setSplit exLoo none) (.inr rfl)
  refine ⟨s, rows, h1, h3, h4, C70_after_set_violated ?_ h3⟩
  have h2 : ((setSampleSplitting (plrSpec zeroPlr) (fit covFrame (plrSpec zeroPlr) s {}).1 exLoo none).2.map
    fun _ => (MOut.self : MOut ℕ)).isOk = true := h2
  cases h : (setSampleSplitting (plrSpec zeroPlr) (fit covFrame (plrSpec zeroPlr) s {}).1 exLoo none).2 with
  | ok u => rfl
  | error e => rw [h] at h2; cases h2

end DML
