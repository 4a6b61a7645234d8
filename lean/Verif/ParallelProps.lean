import Verif.Parallel
import Verif.MultiProps
import Verif.FitOkProps

/-!
# C77: parallel execution does not change results

For every schedule: the order in which tasks complete, and with threads the interleaving of their steps, has no influence on
what `fit` computes.
-/

namespace DML

variable {n : ℕ} {P M α : Type}

/-! ## The pool -/

/-- Invariant of a run. -/
structure JobPoolInv (tasks : List (Except Exc α)) (p : JobPool α) : Prop where
  next : p.next ≤ tasks.length
  running : ∀ i ∈ p.running, i < p.next
  results : ∀ i a, p.results i = some a → tasks[i]? = some (.ok a)
  raised : ∀ e, p.raised = some e → .error e ∈ tasks
  cover : p.raised = none → ∀ i < p.next, i ∈ p.running ∨ (p.results i).isSome

theorem JobPoolInv.init (tasks : List (Except Exc α)) : JobPoolInv tasks .init :=
  ⟨Nat.zero_le _, fun _ h => by simp [JobPool.init] at h, fun _ _ h => by simp [JobPool.init] at h, fun _ h => by simp [JobPool.init] at h,
    fun _ i h => by simp [JobPool.init] at h⟩

theorem JobPoolInv.step {tasks : List (Except Exc α)} {p q : JobPool α} (h : JobPoolInv tasks p) {e : PoolEv} (hs : p.step tasks e = some q) :
    JobPoolInv tasks q ∧ (tasks.length - q.next) * 2 + q.running.length + 1 = (tasks.length - p.next) * 2 + p.running.length := by
  cases e with
  | dispatch =>
    unfold JobPool.step at hs
    dsimp only at hs
    split_ifs at hs with hc
    cases hs
    refine ⟨⟨hc.2, ?_, h.results, h.raised, ?_⟩, ?_⟩
    · intro i hi
      simp only [List.mem_append, List.mem_singleton] at hi
      show i < p.next + 1
      rcases hi with hi | rfl
      · exact (h.running i hi).trans (Nat.lt_succ_self _)
      · exact Nat.lt_succ_self _
    · intro hr i hi
      rcases Nat.lt_succ_iff_lt_or_eq.1 hi with h1 | rfl
      · rcases h.cover hr i h1 with h2 | h2
        · exact Or.inl (List.mem_append_left _ h2)
        · exact Or.inr h2
      · exact Or.inl (List.mem_append_right _ (List.mem_singleton.2 rfl))
    · simp only [List.length_append, List.length_singleton]
      omega
  | finish i =>
    unfold JobPool.step at hs
    dsimp only at hs
    split_ifs at hs with hc
    have hl : (p.running.erase i).length + 1 = p.running.length := by
      rw [List.length_erase_of_mem hc.2]
      have := List.length_pos_of_mem hc.2
      omega
    cases ht : tasks[i]? with
    | none => rw [ht] at hs; cases hs
    | some t =>
      rw [ht] at hs
      cases t with
      | error e =>
        cases hs
        refine ⟨⟨h.next, fun j hj => h.running j (List.mem_of_mem_erase hj), h.results, ?_, fun hr => (by simp at hr)⟩, ?_⟩
        · intro e' he'
          cases he'
          exact List.mem_of_getElem? ht
        · show _ + (p.running.erase i).length + 1 = _
          dsimp only
          omega
      | ok a =>
        cases hs
        refine ⟨⟨h.next, fun j hj => h.running j (List.mem_of_mem_erase hj), ?_, h.raised, ?_⟩, ?_⟩
        · intro j b hb
          by_cases hj : j = i
          · subst hj
            simp only [Function.update_self] at hb
            cases hb
            exact ht
          · simp only [Function.update_of_ne hj] at hb
            exact h.results j b hb
        · intro hr j hj
          by_cases hji : j = i
          · subst hji
            exact Or.inr (by simp)
          · rcases h.cover hr j hj with h2 | h2
            · exact Or.inl ((List.mem_erase_of_ne hji).2 h2)
            · exact Or.inr (by simpa [Function.update_of_ne hji] using h2)
        · show _ + (p.running.erase i).length + 1 = _
          dsimp only
          omega

theorem JobPoolInv.run {tasks : List (Except Exc α)} {sched : List PoolEv} {p q : JobPool α} (h : JobPoolInv tasks p)
    (hs : p.run tasks sched = some q) :
    JobPoolInv tasks q ∧ (tasks.length - q.next) * 2 + q.running.length + sched.length = (tasks.length - p.next) * 2 + p.running.length := by
  induction sched generalizing p with
  | nil =>
    cases hs
    exact ⟨h, rfl⟩
  | cons e es ih =>
    unfold JobPool.run at hs
    cases h1 : p.step tasks e with
    | none => rw [h1] at hs; cases hs
    | some p' =>
      rw [h1] at hs
      obtain ⟨h2, h3⟩ := h.step h1
      obtain ⟨h4, h5⟩ := ih h2 hs
      refine ⟨h4, ?_⟩
      rw [List.length_cons]
      omega

theorem optMapM_some {β : Type} {f : β → Option α} {l : List β} {r : List α} (h : l.mapM f = some r) :
    l.map f = r.map some := by
  induction l generalizing r with
  | nil =>
    simp at h
    subst h
    rfl
  | cons b t ih =>
    rw [List.mapM_cons] at h
    cases hb : f b with
    | none => rw [hb] at h; cases h
    | some a =>
      rw [hb] at h
      cases ht : t.mapM f with
      | none =>
        rw [ht] at h
        cases h
      | some r' =>
        rw [ht] at h
        cases h
        rw [List.map_cons, hb, ih ht]
        rfl

theorem optMapM_none {β : Type} {f : β → Option α} {l : List β} (h : l.mapM f = none) : ∃ b ∈ l, f b = none := by
  induction l with
  | nil => simp at h
  | cons b t ih =>
    rw [List.mapM_cons] at h
    cases hb : f b with
    | none => exact ⟨b, by simp, hb⟩
    | some a =>
      rw [hb] at h
      cases ht : t.mapM f with
      | none =>
        obtain ⟨c, hc, hfc⟩ := ih ht
        exact ⟨c, by simp [hc], hfc⟩
      | some r' =>
        rw [ht] at h
        cases h

/-- **C77, pool.**  Whatever the schedule: `Parallel` returns the results of the tasks in the order of the tasks if all succeed, and
raises what one of the tasks raised otherwise; as long as it waits, something can happen, and nothing goes on for ever. -/
theorem C77_pool (tasks : List (Except Exc α)) (sched : List PoolEv) {p : JobPool α} (h : JobPool.init.run tasks sched = some p) :
    sched.length ≤ 2 * tasks.length ∧
    (p.outcome tasks.length = none → ∃ e, (p.step tasks e).isSome) ∧
    (∀ l, p.outcome tasks.length = some (.ok l) → tasks = l.map .ok) ∧
    (∀ e, p.outcome tasks.length = some (.error e) → .error e ∈ tasks) := by
  obtain ⟨hi, hl⟩ := (JobPoolInv.init tasks).run h
  refine ⟨?_, ?_, ?_, ?_⟩
  · simp only [JobPool.init, List.length_nil] at hl
    omega
  · intro ho
    unfold JobPool.outcome at ho
    cases hr : p.raised with
    | some e => rw [hr] at ho; cases ho
    | none =>
      rw [hr] at ho
      dsimp only at ho
      rw [Option.map_eq_none_iff] at ho
      obtain ⟨i, hi', hn⟩ := optMapM_none ho
      rw [List.mem_range] at hi'
      by_cases hd : p.next < tasks.length
      · refine ⟨.dispatch, ?_⟩
        unfold JobPool.step
        dsimp only
        rw [if_pos ⟨hr, hd⟩]
        rfl
      · refine ⟨.finish i, ?_⟩
        have hrun : i ∈ p.running := by
          rcases hi.cover hr i (by omega) with h1 | h1
          · exact h1
          · rw [hn] at h1
            cases h1
        unfold JobPool.step
        dsimp only
        rw [if_pos ⟨hr, hrun⟩, List.getElem?_eq_getElem hi']
        cases tasks[i] <;> rfl
  · intro l ho
    unfold JobPool.outcome at ho
    cases hr : p.raised with
    | some e => rw [hr] at ho; cases ho
    | none =>
      rw [hr] at ho
      dsimp only at ho
      rw [Option.map_eq_some_iff] at ho
      obtain ⟨l', h1, h2⟩ := ho
      cases h2
      have h3 := optMapM_some h1
      have hlen : l.length = tasks.length := by
        have := congrArg List.length h3
        simpa using this.symm
      refine List.ext_getElem? fun i => ?_
      by_cases hlt : i < tasks.length
      · have h4 : p.results i = some (l[i]'(hlen ▸ hlt)) := by
          have := congrArg (fun x => x[i]?) h3
          simpa [hlt, hlen] using this
        rw [hi.results i _ h4]
        simp [hlen, hlt]
      · rw [List.getElem?_eq_none (by omega), List.getElem?_eq_none (by simp; omega)]
  · intro e ho
    unfold JobPool.outcome at ho
    cases hr : p.raised with
    | some e' =>
      rw [hr] at ho
      cases ho
      exact hi.raised e hr
    | none =>
      rw [hr] at ho
      dsimp only at ho
      rw [Option.map_eq_some_iff] at ho
      obtain ⟨l', _, h2⟩ := ho
      cases h2

theorem JobPool.run_append (tasks : List (Except Exc α)) (p : JobPool α) (s t : List PoolEv) :
    p.run tasks (s ++ t) = (p.run tasks s).bind fun q => q.run tasks t := by
  induction s generalizing p with
  | nil => rfl
  | cons e s ih =>
    have hc : ∀ l, p.run tasks (e :: l) = (p.step tasks e).bind fun q => q.run tasks l := fun l => by
      rw [JobPool.run]
      cases p.step tasks e <;> rfl
    rw [List.cons_append, hc, hc]
    cases p.step tasks e with
    | none => rfl
    | some q => exact ih q

/-- **C77, pool.**  Every run that has begun can be completed. -/
theorem C77_pool_completes (tasks : List (Except Exc α)) (sched : List PoolEv) {p : JobPool α} (h : JobPool.init.run tasks sched = some p) :
    ∃ more, (parallel tasks (sched ++ more)).isSome := by
  have key : ∀ (k : ℕ) (sched : List PoolEv) (p : JobPool α), JobPool.init.run tasks sched = some p → 2 * tasks.length - sched.length ≤ k →
      ∃ more, (parallel tasks (sched ++ more)).isSome := by
    intro k
    induction k with
    | zero =>
      intro sched p h hk
      obtain ⟨h1, h2, _⟩ := C77_pool tasks sched h
      cases ho : p.outcome tasks.length with
      | some r =>
        refine ⟨[], ?_⟩
        rw [List.append_nil, parallel, h]
        simp [ho]
      | none =>
        obtain ⟨e, he⟩ := h2 ho
        obtain ⟨q, hq⟩ := Option.isSome_iff_exists.1 he
        have hr : JobPool.init.run tasks (sched ++ [e]) = some q := by
          rw [JobPool.run_append, h]
          simp only [Option.bind_some, JobPool.run, hq]
        have := (C77_pool tasks _ hr).1
        rw [List.length_append, List.length_singleton] at this
        omega
    | succ k ih =>
      intro sched p h hk
      obtain ⟨h1, h2, _⟩ := C77_pool tasks sched h
      cases ho : p.outcome tasks.length with
      | some r =>
        refine ⟨[], ?_⟩
        rw [List.append_nil, parallel, h]
        simp [ho]
      | none =>
        obtain ⟨e, he⟩ := h2 ho
        obtain ⟨q, hq⟩ := Option.isSome_iff_exists.1 he
        have hr : JobPool.init.run tasks (sched ++ [e]) = some q := by
          rw [JobPool.run_append, h]
          simp only [Option.bind_some, JobPool.run, hq]
        obtain ⟨more, hm⟩ := ih _ q hr (by rw [List.length_append, List.length_singleton]; omega)
        exact ⟨e :: more, by rwa [List.append_assoc] at hm⟩
  exact key _ sched p h le_rfl

/-- The results are in the order of the tasks although the second task completes first; a failing task ends the run. -/
example : parallel [.ok 1, .ok 2] [.dispatch, .dispatch, .finish 1, .finish 0] = some (.ok [1, 2]) ∧
    parallel [.ok 1, .error .valueError] [.dispatch, .dispatch, .finish 1] = some (.error .valueError) :=
  ⟨rfl, rfl⟩

theorem parallel_some {tasks : List (Except Exc α)} {sched : List PoolEv} {q : Except Exc (List α)}
    (h : parallel tasks sched = some q) : (∀ l, q = .ok l → tasks = l.map .ok) ∧ (∀ e, q = .error e → .error e ∈ tasks) := by
  unfold parallel at h
  rw [Option.bind_eq_some_iff] at h
  obtain ⟨p, hp, ho⟩ := h
  obtain ⟨_, _, h1, h2⟩ := C77_pool tasks sched hp
  exact ⟨fun l hl => h1 l (by rw [ho, hl]), fun e he => h2 e (by rw [ho, he])⟩

theorem parallel_mapM {β : Type} {f : β → Except Exc α} {l : List β} {sched : List PoolEv} {q : Except Exc (List α)}
    (h : parallel (l.map f) sched = some q) :
    (∀ r, q = .ok r ↔ l.mapM f = .ok r) ∧ (∀ e, q = .error e → ∃ b ∈ l, f b = .error e) := by
  obtain ⟨h1, h2⟩ := parallel_some h
  have key : ∀ r, l.map f = r.map .ok ↔ l.mapM f = .ok r := by
    intro r
    rw [mapM_ok_iff, ← List.forall₂_eq_eq_eq (α := Except Exc α), List.forall₂_map_left_iff, List.forall₂_map_right_iff]
  refine ⟨fun r => ⟨fun hr => (key r).1 (h1 r hr), fun hr => ?_⟩, fun e he => by simpa using h2 e he⟩
  cases q with
  | ok r' =>
    have h3 := (key r').1 (h1 r' rfl)
    rw [hr] at h3
    cases h3
    rfl
  | error e =>
    have h3 := h2 e rfl
    rw [(key r).2 hr] at h3
    simp at h3

/-! ## `n_jobs_cv` -/

variable {X : Type}

theorem fitFold_mapM (l : List ((Option P × List (X × ℝ)) × ℕ)) :
    l.mapM fitFold = .ok (l.map fun pd => ((⟨pd.1.1, pd.1.2⟩ : FittedModel P X), pd.2)) := by
  rw [mapM_ok_iff, List.forall₂_map_right_iff]
  exact List.forall₂_same.2 fun _ _ => rfl

theorem foldlM_idx (L : Learner P X) (m : Method) (x : Fin n → X) (fs : List (Fold n)) (ms : List (FittedModel P X)) (k : ℕ)
    (a : Fin n → Option ℝ) :
    ((fs.zipIdx k).zip (ms.zipIdx k)).foldlM (predictFoldIdx L m x) a = (fs.zip ms).foldlM (predictFold L m x) a := by
  induction fs generalizing ms k a with
  | nil => rfl
  | cons f fs ih =>
    cases ms with
    | nil => rfl
    | cons g ms =>
      simp only [List.zipIdx_cons, List.zip_cons_cons, List.foldlM_cons]
      unfold predictFoldIdx
      rw [if_pos rfl]
      congr 1
      funext b
      exact ih ms (k + 1) b

theorem manualPool_eq (L : Learner P X) (a : CvArgs n P X) {sched : List PoolEv} {q : Except Exc (CvRes n P X)}
    (h : manualPool L a sched = some q) : q = manualPredict L a := by
  unfold manualPool at h
  unfold manualPredict
  by_cases h1 : (!isPartition a.smpls && (a.y.isPerFold || decide (a.smpls.length ≠ 1))) = true
  · rw [if_pos h1] at h ⊢
    cases h
    rfl
  rw [if_neg h1] at h ⊢
  by_cases h2 : (decide (a.method = .proba) && a.y.isPerFold) = true
  · rw [if_pos h2] at h ⊢
    cases h
    rfl
  rw [if_neg h2] at h ⊢
  · cases hd : foldData a.x a.y a.method a.smpls with
    | error e =>
      rw [hd] at h
      cases h
      rfl
    | ok data =>
      cases hp : foldParams a.params a.smpls.length with
      | error e =>
        rw [hd, hp] at h
        cases h
        rfl
      | ok ps =>
        rw [hd, hp] at h
        dsimp only at h
        cases hq : parallel ((ps.zip data).zipIdx.map fitFold) sched with
        | none => rw [hq] at h; cases h
        | some r =>
          obtain ⟨k1, _⟩ := parallel_mapM hq
          have hr := (k1 _).2 (fitFold_mapM _)
          subst hr
          rw [hq] at h
          dsimp only at h
          have e1 : (ps.zip data).zipIdx.map (fun pd => ((⟨pd.1.1, pd.1.2⟩ : FittedModel P X), pd.2)) =
              ((ps.zip data).map fun pd => (⟨pd.1, pd.2⟩ : FittedModel P X)).zipIdx := by
            rw [List.zipIdx_map]
            rfl
          have e2 : ∀ l : List (FittedModel P X), l.zipIdx.map Prod.fst = l := fun l => by simp
          have e3 : ∀ l : List (FittedModel P X),
              ((a.smpls.zip l.zipIdx).map fun fm => fm.1.train.map fun i => L.predict fm.2.1.params fm.2.1.data (a.x i)) =
              (a.smpls.zip l).map fun fm => fm.1.train.map fun i => L.predict fm.2.params fm.2.data (a.x i) := by
            intro l
            conv_rhs => rw [← e2 l, List.zip_map_right, List.map_map]
            rfl
          rw [e1, foldlM_idx, e2, e3] at h
          cases h
          rfl

theorem mapM_raises {β : Type} {f : β → Except Exc α} {l : List β} {e : Exc} (h : l.mapM f = .error e) : ∃ b ∈ l, f b = .error e := by
  induction l with
  | nil => cases h
  | cons b t ih =>
    rw [List.mapM_cons] at h
    cases hb : f b with
    | error e' =>
      rw [hb] at h
      cases h
      exact ⟨b, by simp, hb⟩
    | ok a =>
      rw [hb] at h
      cases ht : t.mapM f with
      | error e' =>
        rw [ht] at h
        cases h
        obtain ⟨c, hc, hfc⟩ := ih ht
        exact ⟨c, by simp [hc], hfc⟩
      | ok r =>
        rw [ht] at h
        cases h

theorem autoTask_raises {L : Learner P X} {x : Fin n → X} {y : Fin n → ℝ} {p : Option P} {m : Method} {f : Fold n} {e : Exc}
    (h : autoTask L x y p m f = .error e) : e = .indexError := by
  obtain ⟨i, _, hi⟩ := mapM_raises h
  unfold autoEval autoColumn at hi
  cases m with
  | predict => cases hi
  | proba =>
    dsimp only at hi
    split_ifs at hi
    · split at hi <;> cases hi
      rfl
    · split at hi <;> cases hi
      rfl

theorem autoPool_eq (L : Learner P X) (x : Fin n → X) (y : Fin n → ℝ) (smpls : List (Fold n)) (p : Option P) (m : Method)
    {sched : List PoolEv} {q : Except Exc (CvRes n P X)} (h : autoPool L x y smpls p m sched = some q) :
    q = autoPredict L x y smpls p m := by
  unfold autoPool at h
  rw [Option.map_eq_some_iff] at h
  obtain ⟨r, hr, rfl⟩ := h
  obtain ⟨k1, k2⟩ := parallel_mapM hr
  unfold autoPredict
  cases hm : smpls.mapM (autoTask L x y p m) with
  | ok parts =>
    rw [(k1 _).2 hm]
    show _ = (smpls.mapM (autoTask L x y p m)).bind _
    rw [hm]
    rfl
  | error e =>
    cases r with
    | ok parts =>
      rw [(k1 parts).1 rfl] at hm
      cases hm
    | error e' =>
      obtain ⟨f, _, hf⟩ := k2 e' rfl
      obtain ⟨g, _, hg⟩ := mapM_raises hm
      show _ = (smpls.mapM (autoTask L x y p m)).bind _
      rw [hm, autoTask_raises hf, autoTask_raises hg]
      rfl

/-- **C77, `n_jobs_cv`.**  The predictions, targets and fitted models of a cross-fitted learner, and whether and what it raises, are
those of the run without workers, for every schedule of the workers. -/
theorem C77_cv_predict (L : Learner P X) (a : CvArgs n P X) {sched : List PoolEv} {q : Except Exc (CvRes n P X)}
    (h : cvPredictPool L a sched = some q) : q = cvPredict L a := by
  unfold cvPredictPool at h
  unfold cvPredict
  by_cases hm : a.manual = true
  · rw [if_pos hm] at h ⊢
    exact manualPool_eq L a h
  · rw [if_neg hm] at h ⊢
    split at h <;> split <;> simp_all
    · exact autoPool_eq _ _ _ _ _ _ h
    · exact autoPool_eq _ _ _ _ _ _ h

/-! ## `n_jobs_models`, worker processes -/

theorem fitSubs_cons (F : Frame n) (ca : SubClass n P M × FitArgs) (c : List (SubClass n P M × FitArgs)) (m : MState n P M)
    (ms : List (MState n P M)) :
    fitSubs F (ca :: c) (m :: ms) =
      match DML.fit F ca.1.spec m ca.2 with
      | (m, .error e) => (m :: ms, .error e)
      | (m, .ok ()) => (m :: (fitSubs F c ms).1, (fitSubs F c ms).2) := by
  rw [fitSubs]
  rfl

theorem fitSubs_append (F : Frame n) (c₁ c₂ : List (SubClass n P M × FitArgs)) (m₁ m₂ : List (MState n P M))
    (hl : c₁.length = m₁.length) :
    fitSubs F (c₁ ++ c₂) (m₁ ++ m₂) =
      match fitSubs F c₁ m₁ with
      | (ms, .error e) => (ms ++ m₂, .error e)
      | (ms, .ok ()) => (ms ++ (fitSubs F c₂ m₂).1, (fitSubs F c₂ m₂).2) := by
  induction c₁ generalizing m₁ with
  | nil =>
    cases m₁ with
    | nil => simp [fitSubs]
    | cons m m₁ => simp at hl
  | cons ca c₁ ih =>
    cases m₁ with
    | nil => simp at hl
    | cons m m₁ =>
      rw [List.cons_append, List.cons_append, fitSubs_cons, fitSubs_cons]
      rcases hq : DML.fit F ca.1.spec m ca.2 with ⟨m', (e | u)⟩
      · rfl
      · dsimp only
        rw [ih m₁ (by simpa using hl)]
        rcases fitSubs F c₁ m₁ with ⟨ms, (e | u)⟩ <;> rfl

theorem fitTasks_iff (F : Frame n) (g N : ℕ) (cas : List (SubClass n P M × FitArgs)) (ms : List (MState n P M))
    (hc : cas.length = g * N) (hm : ms.length = g * N) :
    (∀ l, ((chunks g N cas).zip (chunks g N ms)).mapM (fitTask F) = .ok l → fitSubs F cas ms = (l.flatten, .ok ())) ∧
    ((fitSubs F cas ms).2 = .ok () → ∃ l, ((chunks g N cas).zip (chunks g N ms)).mapM (fitTask F) = .ok l) := by
  induction N generalizing cas ms with
  | zero =>
    have h1 : cas = [] := List.length_eq_zero_iff.1 (by simpa using hc)
    have h2 : ms = [] := List.length_eq_zero_iff.1 (by simpa using hm)
    subst h1 h2
    refine ⟨fun l hl => ?_, fun _ => ⟨[], rfl⟩⟩
    cases hl
    rfl
  | succ N ih =>
    have hc' : (cas.drop g).length = g * N := by rw [List.length_drop, hc, Nat.mul_succ]; omega
    have hm' : (ms.drop g).length = g * N := by rw [List.length_drop, hm, Nat.mul_succ]; omega
    obtain ⟨i1, i2⟩ := ih (cas.drop g) (ms.drop g) hc' hm'
    have hl : (cas.take g).length = (ms.take g).length := by
      rw [List.length_take, List.length_take, hc, hm]
    have happ := fitSubs_append F (cas.take g) (cas.drop g) (ms.take g) (ms.drop g) hl
    rw [List.take_append_drop, List.take_append_drop] at happ
    rw [happ]
    unfold chunks
    rw [List.zip_cons_cons, List.mapM_cons]
    unfold fitTask
    rcases hq : fitSubs F (cas.take g) (ms.take g) with ⟨m1, (e | u)⟩
    · refine ⟨fun l hl => ?_, fun h => ?_⟩
      · cases hl
      · cases h
    · dsimp only
      refine ⟨fun l hl => ?_, fun h => ?_⟩
      · obtain ⟨a, ha, hl⟩ := bind_ok hl
        cases ha
        obtain ⟨t, ht, hl⟩ := bind_ok hl
        cases hl
        rw [i1 t ht]
        rfl
      · obtain ⟨t, ht⟩ := i2 h
        refine ⟨m1 :: t, ?_⟩
        show (Except.ok m1 >>= fun _ => _) = _
        have ht' := ht
        unfold fitTask at ht'
        rw [ht']
        rfl

theorem fitTask_raises {F : Frame n} {c : List (SubClass n P M × FitArgs)} {m : List (MState n P M)} {e : Exc}
    (h : fitTask F (c, m) = .error e) : ∃ q ∈ c.zip m, (DML.fit F q.1.1.spec q.2 q.1.2).2 = .error e := by
  unfold fitTask at h
  induction c generalizing m with
  | nil => simp [fitSubs] at h
  | cons ca c ih =>
    cases m with
    | nil => simp [fitSubs] at h
    | cons x m =>
      dsimp only at h
      rw [fitSubs_cons] at h
      rcases hq : DML.fit F ca.1.spec x ca.2 with ⟨x', (e' | u)⟩
      · simp only [hq] at h
        cases h
        exact ⟨(ca, x), by simp, by simp only [hq]⟩
      · simp only [hq] at h
        rcases hq' : fitSubs F c m with ⟨m', (e' | u)⟩
        · simp only [hq'] at h
          cases h
          obtain ⟨q, h1, h2⟩ := ih (m := m) (by simp only [hq'])
          exact ⟨q, by simp [h1], h2⟩
        · simp only [hq'] at h
          cases h

theorem chunks_zip {β : Type} {g N : ℕ} {l : List α} {k : List β} {c : List α × List β}
    (h : c ∈ (chunks g N l).zip (chunks g N k)) {q : α × β} (hq : q ∈ c.1.zip c.2) : q ∈ l.zip k := by
  induction N generalizing l k with
  | zero => simp [chunks] at h
  | succ N ih =>
    unfold chunks at h
    rw [List.zip_cons_cons] at h
    rcases List.mem_cons.1 h with rfl | h
    · rw [List.zip, ← List.take_zipWith] at hq
      exact List.mem_of_mem_take hq
    · have := ih h
      rw [List.zip, ← List.drop_zipWith] at this
      exact List.mem_of_mem_drop this

/-- **C77, `n_jobs_models` with worker processes.**  For every schedule of the workers: `fit` succeeds if and only if it does without
workers, and then the object is the same afterwards, with all its sub-models; a failure of a sub-model raises what the `fit` of
one of the sub-models raises, and leaves the object as it was. -/
theorem C77_models {F : Frame n} {g N : ℕ} {cas : List (SubClass n P M × FitArgs)}
    {fw : List (DynFW n) → Except Exc (List (DynFW n))} {s : Multi n P M} {ms : List (MState n P M)} (hs : s.subs = some ms)
    (hc : cas.length = g * N) (hm : ms.length = g * N) {sched : List PoolEv} {q : Multi n P M × Except Exc Unit}
    (h : poolFit F g N cas fw s sched = some q) :
    ((∀ p ∈ cas.zip ms, (DML.fit F p.1.1.spec p.2 p.1.2).2 = .ok ()) → q = multiFit F cas fw s) ∧
    (q.2 = .ok () ↔ (multiFit F cas fw s).2 = .ok ()) ∧
    ((¬ ∀ p ∈ cas.zip ms, (DML.fit F p.1.1.spec p.2 p.1.2).2 = .ok ()) →
      q.1 = s ∧ ∃ e, q.2 = .error e ∧ ∃ p ∈ cas.zip ms, (DML.fit F p.1.1.spec p.2 p.1.2).2 = .error e) := by
  have hsub : (fitSubs F cas ms).2 = .ok () ↔ ∀ p ∈ cas.zip ms, (DML.fit F p.1.1.spec p.2 p.1.2).2 = .ok () := by
    clear h hs hc hm
    induction cas generalizing ms with
    | nil => simp [fitSubs]
    | cons ca cas ih =>
      cases ms with
      | nil => simp [fitSubs]
      | cons m ms =>
        rw [fitSubs_cons, List.zip_cons_cons, List.forall_mem_cons, ← ih]
        rcases hq : DML.fit F ca.1.spec m ca.2 with ⟨m', (e | u)⟩
        · simp
        · simp
  obtain ⟨k1, k2⟩ := fitTasks_iff F g N cas ms hc hm
  unfold poolFit at h
  rw [hs] at h
  dsimp only at h
  cases hp : parallel (((chunks g N cas).zip (chunks g N ms)).map (fitTask F)) sched with
  | none => rw [hp] at h; cases h
  | some r =>
    obtain ⟨p1, p2⟩ := parallel_mapM hp
    rw [hp] at h
    cases r with
    | ok l =>
      cases h
      have h1 := k1 l ((p1 l).1 rfl)
      have he : setFw { s with subs := some l.flatten } ((l.flatten.mapM getFw).bind fw) = multiFit F cas fw s := by
        unfold multiFit
        rw [hs]
        dsimp only
        rw [h1]
      rw [he]
      refine ⟨fun _ => rfl, Iff.rfl, fun hn => absurd (hsub.1 ?_) hn⟩
      rw [h1]
    | error e =>
      cases h
      obtain ⟨t, ht, hte⟩ := p2 e rfl
      obtain ⟨w, hw, hwe⟩ := fitTask_raises (c := t.1) (m := t.2) hte
      have hmem := chunks_zip ht hw
      have hbad : ¬ ∀ p ∈ cas.zip ms, (DML.fit F p.1.1.spec p.2 p.1.2).2 = .ok () := fun hall => by
        have := hall w hmem
        rw [hwe] at this
        cases this
      refine ⟨fun hall => absurd hall hbad, ⟨fun h0 => (by cases h0), fun h0 => ?_⟩, fun _ => ⟨rfl, e, rfl, w, hmem, hwe⟩⟩
      exfalso
      apply hbad
      rw [← hsub]
      unfold multiFit at h0
      rw [hs] at h0
      dsimp only at h0
      rcases hq : fitSubs F cas ms with ⟨m', (e' | u)⟩
      · rw [hq] at h0
        cases h0
      · rfl

/-- There is always a schedule along which `fit` with workers completes. -/
theorem poolFit_completes (F : Frame n) (g N : ℕ) (cas : List (SubClass n P M × FitArgs))
    (fw : List (DynFW n) → Except Exc (List (DynFW n))) (s : Multi n P M) : ∃ sched, (poolFit F g N cas fw s sched).isSome := by
  unfold poolFit
  cases s.subs with
  | none => exact ⟨[], rfl⟩
  | some ms =>
    obtain ⟨sched, h⟩ := C77_pool_completes (((chunks g N cas).zip (chunks g N ms)).map (fitTask F)) [] rfl
    refine ⟨sched, ?_⟩
    rw [List.nil_append] at h
    obtain ⟨r, hr⟩ := Option.isSome_iff_exists.1 h
    dsimp only
    rw [hr]
    cases r <;> rfl

/-- **C77, `n_jobs_models` of `DoubleMLQTE`.** -/
theorem C77_qte {F : Frame n} {cs : List (SubClass n P M)} {D : DataState n} {s : Multi n P M} (hs : Synced cs D s) {Q : ℕ}
    (hQ : cs.length = 2 * Q) {a : FitArgs} {sched : List PoolEv} {q : Multi n P M × Except Exc Unit}
    (h : qteFitPool F cs s a sched = some q) :
    (q.2 = .ok () ↔ (qteFit F cs s a).2 = .ok ()) ∧ (q.2 = .ok () → q = qteFit F cs s a) := by
  unfold qteFitPool at h
  unfold qteFit
  by_cases he : a.ext.given = true
  · rw [if_pos he] at h ⊢
    cases h
    exact ⟨Iff.rfl, fun _ => rfl⟩
  · rw [if_neg he] at h ⊢
    cases hsub : s.subs with
    | none =>
      unfold poolFit at h
      unfold multiFit
      rw [hsub] at h ⊢
      cases h
      exact ⟨Iff.rfl, fun _ => rfl⟩
    | some ms =>
      have hlen : cs.length / 2 = Q := by omega
      obtain ⟨h1, h2, h3⟩ := C77_models hsub (by rw [List.length_map, hlen, hQ]) (by rw [(hs ms hsub).1, hlen, hQ]) h
      refine ⟨h2, fun hq => ?_⟩
      by_cases hall : ∀ p ∈ (cs.map fun c => (c, a)).zip ms, (DML.fit F p.1.1.spec p.2 p.1.2).2 = .ok ()
      · exact h1 hall
      · obtain ⟨_, e, he', _⟩ := h3 hall
        rw [he'] at hq
        cases hq

/-- **C77, `n_jobs_models` of `DoubleMLAPOS`.** -/
theorem C77_apos {L : Type} [DecidableEq L] {F : Frame n} {levels : List L} {dCol : String} {cs : List (SubClass n P M)} {D : DataState n}
    {s : Multi n P M} (hs : Synced cs D s) (hL : cs.length = levels.length) {a : FitArgs} {x : ApoExt L} {sched : List PoolEv}
    {q : Multi n P M × Except Exc Unit} (h : apoFitPool F levels dCol cs s a x sched = some q) :
    (q.2 = .ok () ↔ (apoFit F levels dCol cs s a x).2 = .ok ()) ∧ (q.2 = .ok () → q = apoFit F levels dCol cs s a x) := by
  unfold apoFitPool at h
  unfold apoFit
  cases hx : apoExtArgs levels dCol x with
  | error e =>
    rw [hx] at h
    cases h
    exact ⟨Iff.rfl, fun _ => rfl⟩
  | ok es =>
    rw [hx] at h
    dsimp only at h ⊢
    cases hsub : s.subs with
    | none =>
      unfold poolFit at h
      unfold multiFit
      rw [hsub] at h ⊢
      cases h
      exact ⟨Iff.rfl, fun _ => rfl⟩
    | some ms =>
      have hes : es.length = levels.length := by
        unfold apoExtArgs at hx
        cases x with
        | none =>
          cases hx
          simp
        | notDict => cases hx
        | dict items =>
          obtain ⟨_, _, hx⟩ := bind_ok hx
          exact mapM_length hx
      obtain ⟨h1, h2, h3⟩ := C77_models hsub (by rw [List.length_zipWith, hes, hL]; omega) (by rw [(hs ms hsub).1, hL]; omega) h
      refine ⟨h2, fun hq => ?_⟩
      by_cases hall : ∀ p ∈ (List.zipWith (fun c y => (c, { a with ext := y })) cs es).zip ms,
          (DML.fit F p.1.1.spec p.2 p.1.2).2 = .ok ()
      · exact h1 hall
      · obtain ⟨_, e, he', _⟩ := h3 hall
        rw [he'] at hq
        cases hq

/-! ## Threads -/

/-- What a thread still has to do. -/
noncomputable def Thread.rest (F : Frame n) (t : Thread n P M) : MState n P M × Except Exc Unit :=
  match t.pos with
  | .ready => DML.fit F t.ca.1.spec t.m t.ca.2
  | .loop p q cells =>
    match fitLoop F t.ca.1.spec t.ca.2.ext p q t.m cells with
    | (s, .error e) => (s, .error e)
    | (s, .ok ()) => finishAt (s.heap s.arr).nR t.ca.1.spec (aggregate t.ca.1.spec s)
  | .done r => (t.m, r)

theorem Thread.rest_step (F : Frame n) (t : Thread n P M) : (t.step F).rest F = t.rest F := by
  unfold Thread.step
  rcases t with ⟨ca, m, pos⟩
  cases pos with
  | ready =>
    dsimp only
    cases hc : checkFit ca.1.spec m ca.2 with
    | error e =>
      simp only [Thread.rest, DML.fit, hc]
    | ok pq =>
      simp only [Thread.rest, DML.fit, hc]
      rfl
  | loop p q cells =>
    cases cells with
    | nil => simp only [Thread.rest, fitLoop]
    | cons c cs =>
      dsimp only
      rcases hf : fitCell F ca.1.spec ca.2.ext p q m c with ⟨m', (e | u)⟩
      · simp only [Thread.rest, fitLoop, hf]
      · simp only [Thread.rest, fitLoop, hf]
  | done r => rfl

/-- With one treatment `fit` does not modify the data object. -/
theorem activate_one (F : Frame n) {D D' : DataState n} (h1 : D.d.length ≤ 1) {j : ℕ} (h : activate F D j = .ok D') : D' = D := by
  unfold activate at h
  cases hj : D.d[j]? with
  | none => rw [hj] at h; cases h
  | some tv =>
    rw [hj] at h
    dsimp only at h
    rw [if_neg (by omega)] at h
    cases h
    rfl

theorem fitCell_data (F : Frame n) (sp : Spec n P M) (ext : ExtArg) (p q : Bool) (m : MState n P M) (h1 : m.data.d.length ≤ 1)
    (c : ℕ × ℕ) : (fitCell F sp ext p q m c).1.data = m.data := by
  unfold fitCell
  cases ha : activate F m.data c.2 with
  | error e => rfl
  | ok D =>
    have hD := activate_one F h1 ha
    subst hD
    dsimp only
    cases (cellIn sp { m with data := m.data } ext q (m.data.d.getD c.2 "") c.1).bind sp.est with
    | error e => rfl
    | ok o =>
      dsimp only
      unfold storeCell
      split_ifs
      · cases calcLoss sp o.preds o.targets <;> rfl
      · rfl

theorem Thread.step_data (F : Frame n) (t : Thread n P M) (h1 : t.m.data.d.length ≤ 1) : (t.step F).m.data = t.m.data := by
  unfold Thread.step
  rcases t with ⟨ca, m, pos⟩
  cases pos with
  | ready =>
    dsimp only
    cases checkFit ca.1.spec m ca.2 with
    | error e => rfl
    | ok pq => rfl
  | loop p q cells =>
    cases cells with
    | nil =>
      dsimp only
      unfold finishAt
      cases (frameworkOf (m.heap m.arr).nR ca.1.spec (aggregate ca.1.spec m)).construct <;> rfl
    | cons c cs =>
      have := fitCell_data F ca.1.spec ca.2.ext p q m h1 c
      dsimp only
      rcases hf : fitCell F ca.1.spec ca.2.ext p q m c with ⟨m', (e | u)⟩
      · rw [hf] at this
        exact this
      · rw [hf] at this
        exact this
  | done r => rfl

/-- Invariant of the threads: everybody sees the data object, and what remains to be done leads to the result of a `fit` that
runs alone. -/
structure ThreadsInv (F : Frame n) (D : DataState n) (cas : List (SubClass n P M × FitArgs)) (ms : List (MState n P M))
    (s : Threads n P M) : Prop where
  data : s.data = D
  own : ∀ t ∈ s.ts, t.m.data = D
  rest : s.ts.map (Thread.rest F) = List.zipWith (fun ca m => DML.fit F ca.1.spec m ca.2) cas ms

theorem ThreadsInv.step {F : Frame n} {D : DataState n} {cas : List (SubClass n P M × FitArgs)} {ms : List (MState n P M)}
    {s : Threads n P M} (hD : D.d.length ≤ 1) (h : ThreadsInv F D cas ms s) (i : ℕ) : ThreadsInv F D cas ms (s.step F i) := by
  unfold Threads.step
  cases hi : s.ts[i]? with
  | none => exact h
  | some t =>
    have ht := h.own t (List.mem_of_getElem? hi)
    have he : ({ t with m := { t.m with data := s.data } } : Thread n P M) = t := by
      rw [h.data, ← ht]
    dsimp only
    rw [he]
    have hd := Thread.step_data F t (by rw [ht]; exact hD)
    refine ⟨hd.trans ht, fun u hu => ?_, ?_⟩
    · rcases List.mem_or_eq_of_mem_set hu with hu | rfl
      · exact h.own u hu
      · exact hd.trans ht
    · rw [List.map_set, Thread.rest_step, h.rest.symm]
      refine List.ext_getElem? fun j => ?_
      rw [List.getElem?_set]
      split_ifs with h1 h2
      · subst h1
        rw [List.getElem?_map, hi]
        rfl
      · subst h1
        rw [List.getElem?_eq_none (by simpa using h2)]
      · rfl

/-- **C77, `n_jobs_models` with threads.**  The sub-models share one data object with one treatment; if all threads have
completed without exception then, whatever the interleaving, the sub-models are those of the sequential `fit` (which
succeeds) and the data object is unchanged. -/
theorem C77_threads {F : Frame n} {D : DataState n} (hD : D.d.length ≤ 1) {cas : List (SubClass n P M × FitArgs)}
    {ms : List (MState n P M)} (hl : cas.length = ms.length) (hms : ∀ m ∈ ms, m.data = D) (sched : List ℕ)
    (hdone : ∀ t ∈ ((Threads.start D cas ms).run F sched).ts, t.pos = .done (.ok ())) :
    fitSubs F cas ms = (((Threads.start D cas ms).run F sched).ts.map Thread.m, .ok ()) ∧
      ((Threads.start D cas ms).run F sched).data = D := by
  have h0 : ThreadsInv F D cas ms (Threads.start D cas ms) := by
    refine ⟨rfl, fun t ht => ?_, ?_⟩
    · unfold Threads.start at ht
      dsimp only at ht
      obtain ⟨i, hi, rfl⟩ := List.mem_iff_getElem.1 ht
      rw [List.getElem_zipWith]
      exact hms _ (List.getElem_mem _)
    · unfold Threads.start
      dsimp only
      rw [List.map_zipWith]
      rfl
  have hrun : ∀ (sched : List ℕ) (s : Threads n P M), ThreadsInv F D cas ms s → ThreadsInv F D cas ms (s.run F sched) := by
    intro sched
    induction sched with
    | nil => exact fun s hs => hs
    | cons i is ih => exact fun s hs => ih _ (hs.step hD i)
  have hfin := hrun sched _ h0
  refine ⟨?_, hfin.data⟩
  generalize (Threads.start D cas ms).run F sched = s at hdone hfin
  have hrest : s.ts.map (Thread.rest F) = s.ts.map fun t => (t.m, Except.ok ()) :=
    List.map_congr_left fun t ht => by
      unfold Thread.rest
      rw [hdone t ht]
  have hz := hrest.symm.trans hfin.rest
  clear hrest hdone hfin h0 hms hrun
  generalize s.ts = ts at hz
  induction cas generalizing ms ts with
  | nil =>
    cases ms with
    | nil =>
      have : ts = [] := by simpa using hz
      subst this
      rfl
    | cons m ms => simp at hl
  | cons ca cas ih =>
    cases ms with
    | nil => simp at hl
    | cons m ms =>
      cases ts with
      | nil => simp at hz
      | cons t ts =>
        rw [List.map_cons, List.zipWith_cons_cons, List.cons.injEq] at hz
        rw [fitSubs_cons, ← hz.1]
        dsimp only
        rw [ih (by simpa using hl) ts hz.2]
        rfl

theorem run_thread {F : Frame n} {D : DataState n} {cas : List (SubClass n P M × FitArgs)} {ms : List (MState n P M)}
    (hD : D.d.length ≤ 1) (sched : List ℕ) {s : Threads n P M} (h : ThreadsInv F D cas ms s) {i : ℕ} {t : Thread n P M}
    (hi : s.ts[i]? = some t) : (s.run F sched).ts[i]? = some ((Thread.step F)^[sched.count i] t) := by
  induction sched generalizing s t with
  | nil => exact hi
  | cons j js ih =>
    have hs := h.step hD j
    have hstep : (s.step F j).ts[i]? = some (if j = i then t.step F else t) := by
      unfold Threads.step
      cases hj : s.ts[j]? with
      | none =>
        rw [if_neg (fun e => by rw [e, hi] at hj; cases hj)]
        exact hi
      | some u =>
        have hu : ({ u with m := { u.m with data := s.data } } : Thread n P M) = u := by
          rw [h.data, ← h.own u (List.mem_of_getElem? hj)]
        dsimp only
        rw [hu, List.getElem?_set]
        split_ifs with h1 h2
        · subst h1
          rw [hi] at hj
          cases hj
          rfl
        · subst h1
          exact absurd (List.getElem?_eq_some_iff.1 hi).1 h2
        · exact hi
    have := ih hs hstep
    rw [Threads.run, List.foldl_cons, ← Threads.run, this, List.count_cons]
    by_cases hji : j = i
    · subst hji
      simp
    · simp [hji]

/-- How many steps a thread still has to take at most. -/
def Thread.left (t : Thread n P M) : ℕ :=
  match t.pos with
  | .ready => t.m.nRep * t.m.data.d.length + 2
  | .loop _ _ cells => cells.length + 1
  | .done _ => 0

theorem Thread.left_step (F : Frame n) (t : Thread n P M) : (t.step F).left ≤ t.left - 1 := by
  unfold Thread.step
  rcases t with ⟨ca, m, pos⟩
  cases pos with
  | ready =>
    dsimp only
    cases checkFit ca.1.spec m ca.2 with
    | error e => simp [Thread.left]
    | ok pq => simp [Thread.left, cellOrder]
  | loop p q cells =>
    cases cells with
    | nil => simp [Thread.left]
    | cons c cs =>
      dsimp only
      rcases hf : fitCell F ca.1.spec ca.2.ext p q m c with ⟨m', (e | u)⟩
      · simp [Thread.left]
      · simp [Thread.left]
  | done r => simp [Thread.left]

theorem Thread.left_iterate (F : Frame n) (k : ℕ) (t : Thread n P M) : ((Thread.step F)^[k] t).left ≤ t.left - k := by
  induction k generalizing t with
  | zero => simp
  | succ k ih =>
    rw [Function.iterate_succ_apply]
    have h1 := ih (t.step F)
    have h2 := t.left_step F
    omega

theorem Thread.done_of_left {t : Thread n P M} (h : t.left = 0) : ∃ r, t.pos = .done r := by
  unfold Thread.left at h
  cases hp : t.pos with
  | ready => rw [hp] at h; simp at h
  | loop p q cells => rw [hp] at h; simp at h
  | done r => exact ⟨r, rfl⟩

/-- **C77, threads complete.**  If every thread gets enough turns then all of them have completed, without exception if every sub-model
can be fitted alone. -/
theorem C77_threads_complete {F : Frame n} {D : DataState n} (hD : D.d.length ≤ 1) {cas : List (SubClass n P M × FitArgs)}
    {ms : List (MState n P M)} (hl : cas.length = ms.length) (hms : ∀ m ∈ ms, m.data = D)
    (hok : ∀ p ∈ cas.zip ms, (DML.fit F p.1.1.spec p.2 p.1.2).2 = .ok ()) (sched : List ℕ)
    (hfair : ∀ (i : ℕ) (m : MState n P M), ms[i]? = some m → m.nRep * D.d.length + 2 ≤ sched.count i) :
    ∀ t ∈ ((Threads.start D cas ms).run F sched).ts, t.pos = .done (.ok ()) := by
  have h0 : ThreadsInv F D cas ms (Threads.start D cas ms) := by
    refine ⟨rfl, fun t ht => ?_, ?_⟩
    · unfold Threads.start at ht
      dsimp only at ht
      obtain ⟨i, hi, rfl⟩ := List.mem_iff_getElem.1 ht
      rw [List.getElem_zipWith]
      exact hms _ (List.getElem_mem _)
    · unfold Threads.start
      dsimp only
      rw [List.map_zipWith]
      rfl
  have hrun : ∀ (sched : List ℕ) (s : Threads n P M), ThreadsInv F D cas ms s → ThreadsInv F D cas ms (s.run F sched) := by
    intro sched
    induction sched with
    | nil => exact fun s hs => hs
    | cons i is ih => exact fun s hs => ih _ (hs.step hD i)
  have hfin := hrun sched _ h0
  have hlen : ((Threads.start D cas ms).run F sched).ts.length = ms.length := by
    have := congrArg List.length hfin.rest
    rw [List.length_map, List.length_zipWith] at this
    omega
  intro t ht
  obtain ⟨i, hi, rfl⟩ := List.mem_iff_getElem.1 ht
  have him : i < ms.length := hlen ▸ hi
  have hic : i < cas.length := hl ▸ him
  have hst : (Threads.start D cas ms).ts[i]? = some ⟨cas[i], ms[i], .ready⟩ := by
    unfold Threads.start
    dsimp only
    rw [List.getElem?_zipWith, List.getElem?_eq_getElem hic, List.getElem?_eq_getElem him]
  have hr := run_thread hD sched h0 hst
  rw [List.getElem?_eq_getElem hi, Option.some.injEq] at hr
  have hleft : (((Threads.start D cas ms).run F sched).ts[i]).left = 0 := by
    rw [hr]
    have h1 := Thread.left_iterate F (sched.count i) ⟨cas[i], ms[i], .ready⟩
    have h2 := hfair i ms[i] (List.getElem?_eq_getElem him)
    have h3 : (⟨cas[i], ms[i], .ready⟩ : Thread n P M).left = ms[i].nRep * D.d.length + 2 := by
      simp only [Thread.left]
      rw [hms ms[i] (List.getElem_mem _)]
    omega
  obtain ⟨r, hpos⟩ := Thread.done_of_left hleft
  have hrest := congrArg (fun l => l[i]?) hfin.rest
  simp only [List.getElem?_map, List.getElem?_zipWith, List.getElem?_eq_getElem hi, List.getElem?_eq_getElem hic,
    List.getElem?_eq_getElem him, Option.map_some] at hrest
  have hrest := Option.some.inj hrest
  unfold Thread.rest at hrest
  rw [hpos] at hrest
  dsimp only at hrest
  have hz : (cas[i], ms[i]) ∈ cas.zip ms := by
    rw [List.mem_iff_getElem]
    exact ⟨i, by rw [List.length_zip]; omega, List.getElem_zip⟩
  have := hok _ hz
  rw [← hrest] at this
  rw [hpos]
  exact congrArg _ this

/-! ## Non-vacuity -/

/-- A class whose cells never fail. -/
def exOk (c : ℝ) : SubClass 2 Unit Unit :=
  ⟨⟨[], [], false, false, true, none, fun _ => .ok ⟨⟨c, 1, 2, fun _ => 0, fun _ => -1⟩, [], [], [], .zero, 0⟩⟩, 0, fun _ => .ok ()⟩

/-- A sub-model with two repetitions, before `fit`. -/
def exSubModel (D : DataState 2) : MState 2 Unit Unit :=
  { data := D
    heap := fun _ => .fresh 1 2
    next := 1
    arr := 0
    scores := fun _ _ => none
    coef := fun _ => none
    se := fun _ => none
    nRep := 2
    nFolds := 1
    nFoldsPer := 1
    smpls := some [[⟨[0], [1]⟩, ⟨[1], [0]⟩], [⟨[1], [0]⟩, ⟨[0], [1]⟩]]
    smplsCluster := none
    params := fun _ _ => none
    preds := none
    loss := none
    models := none
    sens := none
    framework := none
    start := 0 }

theorem exSubModel_fit (F : Frame 2) {D : DataState 2} {tv : String} (hD : D.d = [tv]) (c : ℝ) :
    (DML.fit F (exOk c).spec (exSubModel D) {}).2 = .ok () := by
  refine fit_ok_of_loop' (p := true) (m := false) (fun h => (by cases h)) ⟨?_, ?_, ?_⟩ rfl ?_
  · show 0 < 2
    norm_num
  · show 1 = D.d.length
    rw [hD]
    rfl
  · rfl
  · show (fitLoop F (exOk c).spec .none true false _ (cellOrder 2 D.d.length)).2 = _
    rw [hD]
    simp [cellOrder, List.range, List.range.loop, fitLoop, fitCell, activate, hD, cellIn, setExt, repSmpls, repCluster, exSubModel, exOk,
      initFit, storeCell, calcLoss, writeCell, Arr.fresh, Except.bind, bind, pure, Except.pure]

/-- The hypotheses of the theorems on threads and on worker processes hold for two sub-models with two repetitions: every fair
schedule completes. -/
example (F : Frame 2) {D : DataState 2} {tv : String} (hD : D.d = [tv]) (sched : List ℕ) (h0 : 4 ≤ sched.count 0) (h1 : 4 ≤ sched.count 1) :
    ∀ t ∈ ((Threads.start D [(exOk 1, {}), (exOk 2, {})] [exSubModel D, exSubModel D]).run F sched).ts, t.pos = .done (.ok ()) := by
  refine C77_threads_complete (by rw [hD]; simp) rfl (by simp [exSubModel]) ?_ sched ?_
  · intro p hp
    simp only [List.zip_cons_cons, List.zip_nil_right, List.mem_cons, List.not_mem_nil, or_false] at hp
    rcases hp with rfl | rfl
    · exact exSubModel_fit F hD 1
    · exact exSubModel_fit F hD 2
  · intro i m hi
    have hn : D.d.length = 1 := by rw [hD]; rfl
    match i, hi with
    | 0, hi =>
      cases hi
      rw [hn]
      exact h0
    | 1, hi =>
      cases hi
      rw [hn]
      exact h1
    | i + 2, hi => simp at hi

end DML
