import Verif.Multi

/-!
# Parallel execution

`n_jobs_models` of `DoubleMLAPOS.fit` and `DoubleMLQTE.fit` and `n_jobs_cv` run tasks with joblib's `Parallel`: tasks are dispatched
in order, run in worker processes on a copy of their arguments, complete in any order, and the results are returned in the
order of the tasks.  The first task that raises makes `Parallel` raise and ends the run.

With joblib's threading backend (chosen by the caller) the tasks work on the objects themselves and their steps interleave.
-/

namespace DML

variable {n : ℕ} {P M α : Type}

/-! ## Worker processes -/

/-- What happens in a run of `Parallel`: the next task is handed to a worker, or a running task completes. -/
inductive PoolEv
  | dispatch
  | finish (i : ℕ)

/-- The state of a run. -/
structure JobPool (α : Type) where
  next : ℕ
  running : List ℕ
  results : ℕ → Option α
  raised : Option Exc

/-- Before the first task. -/
def JobPool.init : JobPool α := ⟨0, [], fun _ => none, none⟩

/-- One event; `none` if it cannot happen.  A task is given by the outcome of its call: workers get a copy of the state at the
time of the dispatch, and the state does not change while `Parallel` runs (simplification: `pre_dispatch="2*n_jobs"` is
not modelled, any number of tasks may be dispatched). -/
def JobPool.step (tasks : List (Except Exc α)) (p : JobPool α) : PoolEv → Option (JobPool α)
  | .dispatch =>
    if p.raised = none ∧ p.next < tasks.length then some { p with next := p.next + 1, running := p.running ++ [p.next] } else none
  | .finish i =>
    if p.raised = none ∧ i ∈ p.running then
      match tasks[i]? with
      | none => none
      | some (.error e) => some { p with running := p.running.erase i, raised := some e }
      | some (.ok a) => some { p with running := p.running.erase i, results := Function.update p.results i (some a) }
    else none

/-- A run along a schedule. -/
def JobPool.run (tasks : List (Except Exc α)) : JobPool α → List PoolEv → Option (JobPool α)
  | p, [] => some p
  | p, e :: es =>
    match p.step tasks e with
    | none => none
    | some p => p.run tasks es

/-- What `Parallel` returns; `none` as long as it waits. -/
def JobPool.outcome (N : ℕ) (p : JobPool α) : Option (Except Exc (List α)) :=
  match p.raised with
  | some e => some (.error e)
  | none => ((List.range N).mapM p.results).map .ok

/-- `Parallel(n_jobs)(tasks)` along a schedule; `none` if the schedule is impossible or not complete. -/
def parallel (tasks : List (Except Exc α)) (sched : List PoolEv) : Option (Except Exc (List α)) :=
  (JobPool.init.run tasks sched).bind (JobPool.outcome tasks.length)

/-! ## `fit` with `n_jobs_models` -/

/-- The list in `N` pieces of length `g`. -/
def chunks (g : ℕ) : ℕ → List α → List (List α)
  | 0, _ => []
  | N + 1, l => l.take g :: chunks g N (l.drop g)

/-- One task: `_fit_model` (/repo/doubleml/irm/apos.py:765-777) for one sub-model, `_fit_quantile`
(/repo/doubleml/irm/qte.py:586-593) for the two sub-models of a quantile.  The fitted copies are returned. -/
noncomputable def fitTask (F : Frame n) (t : List (SubClass n P M × FitArgs) × List (MState n P M)) :
    Except Exc (List (MState n P M)) :=
  match fitSubs F t.1 t.2 with
  | (_, .error e) => .error e
  | (ms, .ok ()) => .ok ms

/-- The loop over the sub-models and the construction of the framework with `n_jobs_models` workers: the fitted copies replace
the sub-models (/repo/doubleml/irm/apos.py:392-407, /repo/doubleml/irm/qte.py:399-418).  `g` is the number of sub-models per
task, `N` the number of tasks. -/
noncomputable def poolFit (F : Frame n) (g N : ℕ) (cas : List (SubClass n P M × FitArgs))
    (frameworks : List (DynFW n) → Except Exc (List (DynFW n))) (s : Multi n P M) (sched : List PoolEv) :
    Option (Multi n P M × Except Exc Unit) :=
  match s.subs with
  | none => some (s, .error .attributeError)
  | some ms =>
    match parallel (((chunks g N cas).zip (chunks g N ms)).map (fitTask F)) sched with
    | none => none
    | some (.error e) => some (s, .error e)
    | some (.ok l) => some (setFw { s with subs := some l.flatten } ((l.flatten.mapM getFw).bind frameworks))

/-- `fit` of `DoubleMLQTE` with `n_jobs_models` (/repo/doubleml/irm/qte.py:367-420): one task per quantile. -/
noncomputable def qteFitPool (F : Frame n) (cs : List (SubClass n P M)) (s : Multi n P M) (a : FitArgs) (sched : List PoolEv) :
    Option (Multi n P M × Except Exc Unit) :=
  if a.ext.given then some (s, .error .notImplemented)
  else poolFit F 2 (cs.length / 2) (cs.map fun c => (c, a)) qteDiffs s sched

/-- `fit` of `DoubleMLAPOS` with `n_jobs_models` (/repo/doubleml/irm/apos.py:351-409): one task per treatment level. -/
noncomputable def apoFitPool {L : Type} [DecidableEq L] (F : Frame n) (levels : List L) (dCol : String) (cs : List (SubClass n P M)) (s : Multi n P M)
    (a : FitArgs) (e : ApoExt L) (sched : List PoolEv) : Option (Multi n P M × Except Exc Unit) :=
  match apoExtArgs levels dCol e with
  | .error x => some (s, .error x)
  | .ok es => poolFit F 1 levels.length (List.zipWith (fun c x => (c, { a with ext := x })) cs es) .ok s sched

/-! ## Threads -/

/-- Where a thread is in `fit` (/repo/doubleml/double_ml.py:473-535) of its sub-model. -/
inductive ThreadPos
  | ready
  | loop (storeP storeM : Bool) (cells : List (ℕ × ℕ))
  | done (r : Except Exc Unit)

/-- A thread: the class and arguments of its sub-model, the sub-model, and the position. -/
structure Thread (n : ℕ) (P M : Type) where
  ca : SubClass n P M × FitArgs
  m : MState n P M
  pos : ThreadPos

/-- One step of a thread: the checks and the initialisation, one pass of the inner loop, or the end of `fit`. -/
noncomputable def Thread.step (F : Frame n) (t : Thread n P M) : Thread n P M :=
  match t.pos with
  | .ready =>
    match checkFit t.ca.1.spec t.m t.ca.2 with
    | .error e => { t with pos := .done (.error e) }
    | .ok (p, q) => { t with m := initFit t.ca.1.spec t.m p q, pos := .loop p q (cellOrder t.m.nRep t.m.data.d.length) }
  | .loop p q (c :: cs) =>
    match fitCell F t.ca.1.spec t.ca.2.ext p q t.m c with
    | (m, .error e) => { t with m := m, pos := .done (.error e) }
    | (m, .ok ()) => { t with m := m, pos := .loop p q cs }
  | .loop _ _ [] =>
    let q := finishAt (t.m.heap t.m.arr).nR t.ca.1.spec (aggregate t.ca.1.spec t.m)
    { t with m := q.1, pos := .done q.2 }
  | .done _ => t

/-- Shared memory: all sub-models refer to the same data object, which `fit` modifies (`set_x_d`) if there are several
treatments. -/
structure Threads (n : ℕ) (P M : Type) where
  data : DataState n
  ts : List (Thread n P M)

/-- A step of thread `i`: it sees the data object as the others left it. -/
noncomputable def Threads.step (F : Frame n) (s : Threads n P M) (i : ℕ) : Threads n P M :=
  match s.ts[i]? with
  | none => s
  | some t =>
    let t' := ({ t with m := { t.m with data := s.data } } : Thread n P M).step F
    ⟨t'.m.data, s.ts.set i t'⟩

/-- A run of the threads: the schedule says whose turn it is. -/
noncomputable def Threads.run (F : Frame n) (s : Threads n P M) (sched : List ℕ) : Threads n P M := sched.foldl (Threads.step F) s

/-- The sub-models before `fit`, all with the data object `D`. -/
def Threads.start (D : DataState n) (cas : List (SubClass n P M × FitArgs)) (ms : List (MState n P M)) : Threads n P M :=
  ⟨D, List.zipWith (fun ca m => ⟨ca, m, .ready⟩) cas ms⟩

/-! ## `_dml_cv_predict` with `n_jobs_cv` -/

variable {X : Type}

/-- `_fit(estimator, x, y, train_index, idx)` (/repo/doubleml/utils/_estimation.py:41-43); learners do not raise. -/
def fitFold (pd : (Option P × List (X × ℝ)) × ℕ) : Except Exc (FittedModel P X × ℕ) := .ok (⟨pd.1.1, pd.1.2⟩, pd.2)

/-- One pass of the prediction loop with the assertion on the index (/repo/doubleml/utils/_estimation.py:117-124). -/
noncomputable def predictFoldIdx (L : Learner P X) (m : Method) (x : Fin n → X) (preds : Fin n → Option ℝ)
    (fm : (Fold n × ℕ) × (FittedModel P X × ℕ)) : Except Exc (Fin n → Option ℝ) :=
  if fm.1.2 = fm.2.2 then predictFold L m x preds (fm.1.1, fm.2.1) else .error .assertion

/-- The manual branch with workers (/repo/doubleml/utils/_estimation.py:73-147). -/
noncomputable def manualPool (L : Learner P X) (a : CvArgs n P X) (sched : List PoolEv) : Option (Except Exc (CvRes n P X)) :=
  if !isPartition a.smpls && (a.y.isPerFold || decide (a.smpls.length ≠ 1)) then some (.error .assertion)
  else if decide (a.method = .proba) && a.y.isPerFold then some (.error .assertion)
  else
    match foldData a.x a.y a.method a.smpls, foldParams a.params a.smpls.length with
    | .error e, _ => some (.error e)
    | .ok _, .error e => some (.error e)
    | .ok data, .ok ps =>
      match parallel ((ps.zip data).zipIdx.map fitFold) sched with
      | none => none
      | some (.error e) => some (.error e)
      | some (.ok models) => some do
        let preds ← (a.smpls.zipIdx.zip models).foldlM (predictFoldIdx L a.method a.x) fun _ => none
        return { preds := preds
                 targets := manualTargets a.y a.method a.smpls
                 trainPreds := if a.returnTrain then
                     some ((a.smpls.zip models).map fun fm => fm.1.train.map fun i => L.predict fm.2.1.params fm.2.1.data (a.x i))
                   else none
                 models := if a.returnModels then some (models.map Prod.fst) else none }

/-- One task of scikit-learn's `cross_val_predict`: fit on the training rows of a fold and predict its test rows. -/
noncomputable def autoTask (L : Learner P X) (x : Fin n → X) (y : Fin n → ℝ) (p : Option P) (m : Method) (f : Fold n) :
    Except Exc (List ℝ) :=
  f.test.mapM fun i => autoEval L m (Finset.univ.image y).card p (trainData x (fitTarget m y) f.train) (x i)

/-- `cross_val_predict` with workers (/repo/doubleml/utils/_estimation.py:58-72). -/
noncomputable def autoPool (L : Learner P X) (x : Fin n → X) (y : Fin n → ℝ) (smpls : List (Fold n)) (p : Option P) (m : Method)
    (sched : List PoolEv) : Option (Except Exc (CvRes n P X)) :=
  (parallel (smpls.map (autoTask L x y p m)) sched).map fun q => do
    let parts ← q
    let idx := (smpls.map Fold.test).flatten
    return { preds := fun i => parts.flatten[idx.idxOf i]?
             targets := some fun i => some (y i)
             trainPreds := none
             models := none }

/-- `_dml_cv_predict` with `n_jobs` workers (/repo/doubleml/utils/_estimation.py:46-147). -/
noncomputable def cvPredictPool (L : Learner P X) (a : CvArgs n P X) (sched : List PoolEv) : Option (Except Exc (CvRes n P X)) :=
  if a.manual then manualPool L a sched
  else
    match a.y, a.params with
    | .plain y, .default => autoPool L a.x y a.smpls none a.method sched
    | .plain y, .same p => autoPool L a.x y a.smpls (some p) a.method sched
    | _, _ => some (.error .assertion)

end DML
