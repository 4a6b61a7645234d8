import Verif.GlobalLearner
import Verif.RddProps

/-!
# C71: global learners make the first stage global
-/

namespace DML

variable {n r : ℕ}

/-- A learner whose predictions do not depend on the sample weights. -/
structure WLearner.IgnoresWeights (L : WLearner) : Prop where
  predict : ∀ D D', dropWeights D = dropWeights D' → ∀ z, L.predict D z = L.predict D' z
  proba : ∀ D D', dropWeights D = dropWeights D' → ∀ z, L.proba D z = L.proba D' z

/-- **C71.** The wrapped learner ignores the weights, whatever the base learner is. -/
theorem C71_ignores (B : BaseLearner) : B.global.IgnoresWeights :=
  ⟨fun _ _ h z => congrArg (fun q => B.predict q z) h, fun _ _ h z => congrArg (fun q => B.proba q z) h⟩

theorem eval_ignores {L : WLearner} (hL : L.IgnoresWeights) (m : Method) {D D' : List (List ℝ × ℝ × ℝ)}
    (h : dropWeights D = dropWeights D') (z : List ℝ) : L.eval m D z = L.eval m D' z := by
  cases m with
  | predict => exact congrArg Except.ok (hL.predict D D' h z)
  | proba => exact congrArg manualColumn (hL.proba D D' h z)

theorem trainRows_drop (R : Rd n r) (outcome w w' : Fin n → ℝ) (train : List (Fin n)) :
    dropWeights (R.trainRows outcome w train) = dropWeights (R.trainRows outcome w' train) := by
  unfold dropWeights Rd.trainRows
  rw [List.map_map, List.map_map]
  rfl

theorem fitNuisance_ignores (R : Rd n r) {L : WLearner} (hL : L.IgnoresWeights) (t : Dtype) (m : Method)
    (outcome w w' : Fin n → ℝ) (smpls : List (Fold n)) :
    R.fitNuisance t L m outcome w smpls = R.fitNuisance t L m outcome w' smpls := by
  have h : R.foldStep t L m outcome w = R.foldStep t L m outcome w' := by
    funext mu f
    unfold Rd.foldStep
    dsimp only
    have hz : ∀ z, L.eval m (R.trainRows outcome w f.train) z = L.eval m (R.trainRows outcome w' f.train) z :=
      fun z => eval_ignores hL m (trainRows_drop R outcome w w' f.train) z
    simp only [hz]
  unfold Rd.fitNuisance
  rw [h]

/-- The learners the fit uses: `ml_m` only in fuzzy designs. -/
def Rd.Global (R : Rd n r) : Prop := R.ml_g.IgnoresWeights ∧ (R.fuzzy = true → R.ml_m.IgnoresWeights)

theorem adjust_ignores {R : Rd n r} (hR : R.Global) (k : Fin r) (w w' : Fin n → ℝ) (st : RdState n r) :
    R.adjust k w st = R.adjust k w' st := by
  unfold Rd.adjust
  rw [fitNuisance_ignores R hR.1 R.data.yType R.gMethod R.data.y w w' (R.smpls k)]
  cases R.fitNuisance R.data.yType R.ml_g R.gMethod R.data.y w' (R.smpls k) with
  | error e => rfl
  | ok etaY =>
    dsimp only
    by_cases hf : R.fuzzy = true
    · rw [if_pos hf, if_pos hf, fitNuisance_ignores R (hR.2 hf) R.data.dType .proba R.data.d w w' (R.smpls k)]
    · rw [if_neg hf, if_neg hf]

theorem adjust_withKernel (R : Rd n r) (K : Kernel) (h : ℝ) (k : Fin r) (w : Fin n → ℝ) (st : RdState n r) :
    (R.withKernel K h).adjust k w st = R.adjust k w st := rfl

theorem iterate_withKernel {R : Rd n r} (hR : R.Global) (K : Kernel) (h : ℝ) (k : Fin r) (m : ℕ) : ∀ (w w' : Fin n → ℝ)
    (hb : Option (ℝ × ℝ)) (st : RdState n r), (R.withKernel K h).iterate k m w hb st = R.iterate k m w' hb st := by
  induction m with
  | zero =>
    intro w w' hb st
    unfold Rd.iterate
    rw [adjust_withKernel, adjust_ignores hR k w w']
    rfl
  | succ m ih =>
    intro w w' hb st
    unfold Rd.iterate
    rw [adjust_withKernel, adjust_ignores hR k w w']
    rcases R.adjust k w' st with ⟨st', (e | u)⟩
    · rfl
    · dsimp only
      show (match R.fitRdd k st' none with
        | .error e => (st', Except.error e)
        | .ok res => (R.withKernel K h).iterate k m ((R.withKernel K h).weights res.h) (some (res.h, res.b)) st') = _
      cases R.fitRdd k st' none with
      | error e => rfl
      | ok res => exact ih _ _ _ _

theorem reps_withKernel {R : Rd n r} (hR : R.Global) (K : Kernel) (h : ℝ) (m : ℕ) : ∀ (ks : List (Fin r)) (st : RdState n r),
    (R.withKernel K h).reps m ks st = R.reps m ks st
  | [], _ => rfl
  | k :: ks, st => by
    unfold Rd.reps
    rw [iterate_withKernel hR K h k m _ (R.weights R.hFs)]
    rcases R.iterate k m (R.weights R.hFs) none st with ⟨st', (e | u)⟩
    · rfl
    · exact reps_withKernel hR K h m ks st'

/-- **C71.** With global learners a fit does not depend on the kernel and on the bandwidth of the first stage: whatever is
chosen, it raises the same exception or leaves the same results behind, for every number of iterations and from every
state of the object. -/
theorem C71_kernel_irrelevant {R : Rd n r} (hR : R.Global) (K : Kernel) (h : ℝ) (nIter : PyVal) (st : RdState n r) :
    (R.withKernel K h).fit nIter st = R.fit nIter st := by
  unfold Rd.fit
  cases checkIterations nIter with
  | error e => rfl
  | ok m =>
    dsimp only
    rw [reps_withKernel hR]

theorem adjust_again {R : Rd n r} (hR : R.Global) {k : Fin r} {w w' : Fin n → ℝ} {st st' : RdState n r} {u : Unit}
    (h : R.adjust k w st = (st', .ok u)) : R.adjust k w' st' = (st', .ok ()) := by
  rw [adjust_ignores hR k w' w st']
  unfold Rd.adjust at h ⊢
  cases hy : R.fitNuisance R.data.yType R.ml_g R.gMethod R.data.y w (R.smpls k) with
  | error e => rw [hy] at h; cases h
  | ok etaY =>
    rw [hy] at h
    dsimp only at h ⊢
    by_cases hf : R.fuzzy = true
    · rw [if_pos hf] at h ⊢
      cases hd : R.fitNuisance R.data.dType R.ml_m .proba R.data.d w (R.smpls k) with
      | error e => rw [hd] at h; cases h
      | ok etaD =>
        rw [hd] at h
        obtain rfl := (Prod.mk.inj h).1
        simp
    · rw [if_neg hf] at h ⊢
      obtain rfl := (Prod.mk.inj h).1
      simp

theorem iterate_more {R : Rd n r} (hR : R.Global) (k : Fin r) (m : ℕ) (w : Fin n → ℝ) (hb : Option (ℝ × ℝ)) (st : RdState n r) :
    R.iterate k (m + 2) w hb st = R.iterate k (m + 1) w hb st := by
  rw [Rd.iterate, Rd.iterate]
  rcases hq : R.adjust k w st with ⟨st', (e | u)⟩
  · rfl
  · dsimp only
    cases hf : R.fitRdd k st' none with
    | error e => rfl
    | ok res =>
      dsimp only
      rw [Rd.iterate, adjust_again hR hq]
      dsimp only
      rw [hf]

theorem iterate_two {R : Rd n r} (hR : R.Global) (k : Fin r) (m : ℕ) (w : Fin n → ℝ) (hb : Option (ℝ × ℝ)) (st : RdState n r) :
    R.iterate k (m + 1) w hb st = R.iterate k 1 w hb st := by
  induction m with
  | zero => rfl
  | succ m ih => rw [iterate_more hR, ih]

theorem reps_two {R : Rd n r} (hR : R.Global) (m : ℕ) : ∀ (ks : List (Fin r)) (st : RdState n r),
    R.reps (m + 1) ks st = R.reps 1 ks st
  | [], _ => rfl
  | k :: ks, st => by
    unfold Rd.reps
    rw [iterate_two hR]
    rcases R.iterate k 1 (R.weights R.hFs) none st with ⟨st', (e | u)⟩
    · rfl
    · exact reps_two hR m ks st'

/-- **C71.** With global learners every number of iterations from two on gives the same result. -/
theorem C71_iterations {R : Rd n r} (hR : R.Global) {a b : ℤ} (ha : 2 ≤ a) (hb : 2 ≤ b) (st : RdState n r) :
    R.fit (.int a) st = R.fit (.int b) st := by
  have key : ∀ c : ℤ, 2 ≤ c → R.fit (.int c) st = R.fit (.int 2) st := by
    intro c hc
    have h1 : checkIterations (.int c) = .ok c.toNat := by
      unfold checkIterations PyVal.asInt
      exact if_neg (by omega)
    have h2 : checkIterations (.int 2) = .ok 2 := rfl
    obtain ⟨m, hm⟩ : ∃ m, c.toNat - 1 = m + 1 := ⟨c.toNat - 2, by omega⟩
    unfold Rd.fit
    rw [h1, h2]
    dsimp only
    rw [hm, reps_two hR]
  rw [key a ha, key b hb]

/-- **C71.** The adjusted outcomes (and in fuzzy designs the adjusted treatments) after a fit do not depend on the number of
iterations at all. -/
theorem C71_adjusted {R : Rd n r} (hR : R.Global) {a b : PyVal} {st st₁ st₂ : RdState n r} (h₁ : R.fit a st = (st₁, .ok ()))
    (h₂ : R.fit b st = (st₂, .ok ())) : st₁.mY = st₂.mY ∧ st₁.mD = st₂.mD := by
  have key : ∀ (k : Fin r) (m : ℕ) (w w' : Fin n → ℝ) (hb : Option (ℝ × ℝ)) (st st' q : RdState n r),
      R.iterate k m w hb st = (st', .ok ()) → R.adjust k w' st = (q, .ok ()) → st'.mY = q.mY ∧ st'.mD = q.mD := by
    intro k m
    induction m with
    | zero =>
      intro w w' hb st st' q h hq
      unfold Rd.iterate at h
      rw [adjust_ignores hR k w w', hq] at h
      dsimp only at h
      cases hf : R.fitRdd k q hb with
      | error e => rw [hf] at h; cases h
      | ok res =>
        rw [hf] at h
        obtain rfl := (Prod.mk.inj h).1
        exact ⟨rfl, rfl⟩
    | succ m ih =>
      intro w w' hb st st' q h hq
      unfold Rd.iterate at h
      rw [adjust_ignores hR k w w', hq] at h
      dsimp only at h
      cases hf : R.fitRdd k q none with
      | error e => rw [hf] at h; cases h
      | ok res =>
        rw [hf] at h
        exact ih _ w' _ _ _ _ h (adjust_again hR hq)
  have hadj : ∀ (k : Fin r) (m : ℕ) (w : Fin n → ℝ) (hb : Option (ℝ × ℝ)) (st st' : RdState n r),
      R.iterate k m w hb st = (st', .ok ()) → ∃ q, R.adjust k w st = (q, .ok ()) := by
    intro k m w hb st st' h
    rcases hq : R.adjust k w st with ⟨q, (e | u)⟩
    · cases m <;> (unfold Rd.iterate at h; rw [hq] at h; cases h)
    · exact ⟨q, rfl⟩
  have hloc : ∀ (k : Fin r) (w : Fin n → ℝ) (s s' q q' : RdState n r), s.mY = s'.mY → s.mD = s'.mD →
      R.adjust k w s = (q, .ok ()) → R.adjust k w s' = (q', .ok ()) → q.mY = q'.mY ∧ q.mD = q'.mD := by
    intro k w s s' q q' hY hD hq hq'
    unfold Rd.adjust at hq hq'
    cases hy : R.fitNuisance R.data.yType R.ml_g R.gMethod R.data.y w (R.smpls k) with
    | error e => rw [hy] at hq; cases hq
    | ok etaY =>
      rw [hy] at hq hq'
      dsimp only at hq hq'
      by_cases hf : R.fuzzy = true
      · rw [if_pos hf] at hq hq'
        cases hd : R.fitNuisance R.data.dType R.ml_m .proba R.data.d w (R.smpls k) with
        | error e => rw [hd] at hq; cases hq
        | ok etaD =>
          rw [hd] at hq hq'
          obtain rfl := (Prod.mk.inj hq).1
          obtain rfl := (Prod.mk.inj hq').1
          exact ⟨by dsimp only; rw [hY], by dsimp only; rw [hD]⟩
      · rw [if_neg hf] at hq hq'
        obtain rfl := (Prod.mk.inj hq).1
        obtain rfl := (Prod.mk.inj hq').1
        exact ⟨by dsimp only; rw [hY], hD⟩
  have hreps : ∀ (m m' : ℕ) (ks : List (Fin r)) (s s' q q' : RdState n r), s.mY = s'.mY → s.mD = s'.mD →
      R.reps m ks s = (q, .ok ()) → R.reps m' ks s' = (q', .ok ()) → q.mY = q'.mY ∧ q.mD = q'.mD := by
    intro m m' ks
    induction ks with
    | nil =>
      intro s s' q q' hY hD hq hq'
      obtain rfl := (Prod.mk.inj hq).1
      obtain rfl := (Prod.mk.inj hq').1
      exact ⟨hY, hD⟩
    | cons k ks ih =>
      intro s s' q q' hY hD hq hq'
      unfold Rd.reps at hq hq'
      rcases hi : R.iterate k m (R.weights R.hFs) none s with ⟨t, (e | ⟨⟩)⟩
      · rw [hi] at hq; cases hq
      · rcases hi' : R.iterate k m' (R.weights R.hFs) none s' with ⟨t', (e | ⟨⟩)⟩
        · rw [hi'] at hq'; cases hq'
        · rw [hi] at hq
          rw [hi'] at hq'
          obtain ⟨x, hx⟩ := hadj _ _ _ _ _ _ hi
          obtain ⟨x', hx'⟩ := hadj _ _ _ _ _ _ hi'
          obtain ⟨a1, a2⟩ := key _ _ _ _ _ _ _ _ hi hx
          obtain ⟨b1, b2⟩ := key _ _ _ _ _ _ _ _ hi' hx'
          obtain ⟨c1, c2⟩ := hloc k _ _ _ _ _ hY hD hx hx'
          exact ih t t' q q' (by rw [a1, b1, c1]) (by rw [a2, b2, c2]) hq hq'
  have hfit : ∀ (v : PyVal) (s' : RdState n r), R.fit v st = (s', .ok ()) →
      ∃ m q, R.reps m (List.finRange r) st = (q, .ok ()) ∧ q.mY = s'.mY ∧ q.mD = s'.mD := by
    intro v s' h
    unfold Rd.fit at h
    cases hv : checkIterations v with
    | error e => rw [hv] at h; cases h
    | ok m =>
      rw [hv] at h
      dsimp only at h
      rcases hq : R.reps (m - 1) (List.finRange r) st with ⟨q, (e | ⟨⟩)⟩
      · rw [hq] at h; cases h
      · rw [hq] at h
        dsimp only at h
        cases ha : allRes q.slots with
        | none => rw [ha] at h; cases h
        | some res =>
          rw [ha] at h
          obtain rfl := (Prod.mk.inj h).1
          exact ⟨m - 1, q, hq, rfl, rfl⟩
  obtain ⟨m, q, g1, g2, g3⟩ := hfit a st₁ h₁
  obtain ⟨m', q', g1', g2', g3'⟩ := hfit b st₂ h₂
  obtain ⟨e1, e2⟩ := hreps m m' _ st st q q' rfl rfl g1 g1'
  exact ⟨by rw [← g2, ← g2', e1], by rw [← g3, ← g3', e2]⟩

/-- A learner with weights that, if all weights are one, predicts what the base learner predicts. -/
structure WLearner.Extends (L : WLearner) (B : BaseLearner) : Prop where
  predict : ∀ D, (∀ q ∈ D, q.2.2 = 1) → ∀ z, L.predict D z = B.predict (dropWeights D) z
  proba : ∀ D, (∀ q ∈ D, q.2.2 = 1) → ∀ z, L.proba D z = B.proba (dropWeights D) z

/-- **C71.** A global learner is the ordinary one with all observations counted equally: with a kernel that gives every
observation weight one the wrapper makes no difference. -/
theorem C71_same_as_equal_weights {R : Rd n r} (hK : ∀ h i, R.kernel (R.score i) h = 1) {g m : BaseLearner}
    (hg : R.ml_g.Extends g) (hm : R.ml_m.Extends m) (nIter : PyVal) (st : RdState n r) :
    (R.withLearners g.global m.global).fit nIter st = R.fit nIter st := by
  have hnu : ∀ (L : WLearner) (B : BaseLearner), L.Extends B → ∀ t q (out : Fin n → ℝ) S,
      (R.withLearners g.global m.global).fitNuisance t B.global q out (fun _ => 1) S = R.fitNuisance t L q out (fun _ => 1) S := by
    intro L B hL t q out S
    have h : (R.withLearners g.global m.global).foldStep t B.global q out (fun _ => 1) = R.foldStep t L q out (fun _ => 1) := by
      funext mu f
      have hrows : ∀ x ∈ R.trainRows out (fun _ => 1) f.train, x.2.2 = 1 := by
        intro x hx
        obtain ⟨i, -, rfl⟩ := List.mem_map.1 hx
        rfl
      have hz : ∀ z, B.global.eval q (R.trainRows out (fun _ => 1) f.train) z = L.eval q (R.trainRows out (fun _ => 1) f.train) z := by
        intro z
        cases q with
        | predict => exact congrArg Except.ok (hL.predict _ hrows z).symm
        | proba => exact congrArg manualColumn (hL.proba _ hrows z).symm
      have ht : (R.withLearners g.global m.global).trainRows out (fun _ => 1) f.train = R.trainRows out (fun _ => 1) f.train := rfl
      unfold Rd.foldStep
      dsimp only
      rw [ht]
      simp only [hz]
      rfl
    unfold Rd.fitNuisance
    rw [h]
  have hw : ∀ h, R.weights h = fun _ => 1 := fun h => funext fun i => hK h i
  have hadj : ∀ k st, (R.withLearners g.global m.global).adjust k (fun _ => 1) st = R.adjust k (fun _ => 1) st := by
    intro k st
    have h1 := hnu R.ml_g g hg R.data.yType R.gMethod R.data.y (R.smpls k)
    have h2 := hnu R.ml_m m hm R.data.dType .proba R.data.d (R.smpls k)
    unfold Rd.adjust
    show (match (R.withLearners g.global m.global).fitNuisance R.data.yType g.global R.gMethod R.data.y (fun _ => 1) (R.smpls k) with
      | .error e => (st, Except.error e)
      | .ok etaY => if R.fuzzy = true then
          match (R.withLearners g.global m.global).fitNuisance R.data.dType m.global .proba R.data.d (fun _ => 1) (R.smpls k) with
          | .error e => _
          | .ok etaD => _
        else _) = _
    rw [h1, h2]
    rfl
  have hit : ∀ k m' hb st, (R.withLearners g.global m.global).iterate k m' (fun _ => 1) hb st = R.iterate k m' (fun _ => 1) hb st := by
    intro k m'
    induction m' with
    | zero =>
      intro hb st
      unfold Rd.iterate
      rw [hadj]
      rfl
    | succ m' ih =>
      intro hb st
      unfold Rd.iterate
      rw [hadj]
      rcases R.adjust k (fun _ => 1) st with ⟨st', (e | u)⟩
      · rfl
      · dsimp only
        show (match R.fitRdd k st' none with
          | .error e => (st', Except.error e)
          | .ok res => (R.withLearners g.global m.global).iterate k m' (R.weights res.h) (some (res.h, res.b)) st') = _
        cases R.fitRdd k st' none with
        | error e => rfl
        | ok res =>
          dsimp only
          rw [hw]
          exact ih _ _
  have hreps : ∀ m' ks st, (R.withLearners g.global m.global).reps m' ks st = R.reps m' ks st := by
    intro m' ks
    induction ks with
    | nil => intro st; rfl
    | cons k ks ih =>
      intro st
      unfold Rd.reps
      rw [show (R.withLearners g.global m.global).weights (R.withLearners g.global m.global).hFs = R.weights R.hFs from rfl, hw, hit]
      rcases R.iterate k m' (fun _ => 1) none st with ⟨st', (e | u)⟩
      · rfl
      · exact ih st'
  unfold Rd.fit
  cases checkIterations nIter with
  | error e => rfl
  | ok m' =>
    dsimp only
    rw [hreps]

/-! ## At the constructor -/

/-- The arguments of a constructor call with other learners, another kernel and another first stage bandwidth. -/
def RdInput.alter (I : RdInput n) (g : WLearner) (m : Option WLearner) (K : KernelArg) (h : PyVal) : RdInput n :=
  { I with
    ml_g := g
    ml_m := m
    fsKernel := K
    hFs := h }

/-- **C71.** Two objects created with global learners and otherwise the same arguments and draws, but with different
kernels (`fs_kernel`), bandwidths (`h_fs`) and values of the bandwidth selector, have the same fits: for every number of
iterations and from every state they raise the same exception or store the same results. -/
theorem C71_created {casefold : String → String} {bw bw' : ℝ} {rdrobust : RdRobust n} {fold : Fin r → Fin n → ℕ} {I : RdInput n}
    {g m : BaseLearner} {K K' : KernelArg} {h h' : PyVal} {R R' : Rd n r} {st st' : RdState n r}
    (hR : rdCreate casefold bw rdrobust fold (I.alter g.global (some m.global) K h) = .ok (R, st))
    (hR' : rdCreate casefold bw' rdrobust fold (I.alter g.global (some m.global) K' h') = .ok (R', st')) :
    st = st' ∧ ∀ nIter s, R.fit nIter s = R'.fit nIter s := by
  unfold rdCreate at hR hR'
  obtain ⟨c, hc, hR⟩ := bind_ok hR
  obtain ⟨lm, hl, hR⟩ := bind_ok hR
  obtain ⟨_, -, hR⟩ := bind_ok hR
  obtain ⟨hb, -, hR⟩ := bind_ok hR
  obtain ⟨spec, hs, hR⟩ := bind_ok hR
  obtain ⟨ker, -, hR⟩ := bind_ok hR
  obtain ⟨_, -, hR⟩ := bind_ok hR
  obtain ⟨c', hc', hR'⟩ := bind_ok hR'
  obtain ⟨lm', hl', hR'⟩ := bind_ok hR'
  obtain ⟨_, -, hR'⟩ := bind_ok hR'
  obtain ⟨hb', -, hR'⟩ := bind_ok hR'
  obtain ⟨spec', hs', hR'⟩ := bind_ok hR'
  obtain ⟨ker', -, hR'⟩ := bind_ok hR'
  obtain ⟨_, -, hR'⟩ := bind_ok hR'
  obtain rfl : c = c' := Except.ok.inj (hc.symm.trans hc')
  obtain rfl : lm = lm' := Except.ok.inj (hl.symm.trans hl')
  obtain rfl : spec = spec' := Except.ok.inj (hs.symm.trans hs')
  obtain ⟨eR, rfl⟩ := Prod.mk.inj (Except.ok.inj hR)
  obtain ⟨eR', rfl⟩ := Prod.mk.inj (Except.ok.inj hR')
  have hG : R.Global := by
    rw [← eR]
    refine ⟨C71_ignores g, fun hf => ?_⟩
    dsimp only at hf ⊢
    unfold rdCheckLearners at hl
    dsimp only at hl
    rw [hf] at hl
    by_cases h1 : (I.alter g.global (some m.global) K h).gClassifier = true ∧ ¬ (I.alter g.global (some m.global) K h).binaryOutcome = true
    · rw [if_pos h1] at hl; cases hl
    · rw [if_neg h1] at hl
      obtain rfl := Except.ok.inj hl
      exact C71_ignores m
  refine ⟨rfl, fun nIter s => ?_⟩
  rw [← C71_kernel_irrelevant hG ker'.1 hb' nIter s, ← eR', ← eR]
  rfl

/-! ## A concrete object -/

/-- The sum of the targets. -/
def exSumB : BaseLearner := ⟨fun D _ => (D.map Prod.snd).sum, fun _ _ => []⟩

/-- The weighted sum of the targets. -/
noncomputable def exSumW : WLearner := ⟨fun D _ => (D.map fun q => q.2.1 * q.2.2).sum, fun _ _ => []⟩

/-- The concrete object of the example for C51 with another learner, kernel and bandwidth. -/
noncomputable def exRdG (L : WLearner) (h : ℝ) : Rd 2 1 :=
  ((exRd .float).withLearners L ⟨fun _ _ => 0, fun _ _ => []⟩).withKernel kernelUniform h

theorem exRdG_fit (L : WLearner) (h : ℝ) (nIter : ℤ) (hi : 1 ≤ nIter) (st : RdState 2 1) :
    ∃ st', (exRdG L h).fit (.int nIter) st = (st', .ok ()) :=
  rdFit_succeeds _ _ nIter.toNat (by
    unfold checkIterations PyVal.asInt
    exact if_neg (by omega)) (fun _ _ => ⟨_, rfl⟩) (fun h => by cases h) (fun _ _ _ _ => ⟨exRes, rfl⟩) _

theorem exRdG_val (L : WLearner) (h : ℝ) (st st' : RdState 2 1) (hf : (exRdG L h).fit (.int 1) st = (st', .ok ())) :
    ∃ D, D = [([1], 1, kernelUniform (1 / 2) h)] ∧ st'.mY 0 0 = some (0 - (L.predict D [0] + L.predict D [1]) / 2) := by
  obtain ⟨b, hb, -, h3⟩ := C51_adjusted_by_type (exRdG L h) (exRd_good .float) _ st st' hf 0
  have hb : b = h := hb rfl
  rw [hb] at h3
  obtain ⟨f, hf', ht, -, left, right, e1, e2, e3⟩ := h3 0
  have hfold : f = ⟨[1], [0]⟩ := by
    have hmem : f ∈ ([⟨[1], [0]⟩, ⟨[0], [1]⟩] : List (Fold 2)) := hf'
    rcases List.mem_cons.1 hmem with rfl | hm
    · rfl
    · rw [List.mem_singleton.1 hm] at ht
      simp at ht
  refine ⟨_, rfl, ?_⟩
  have hD : (exRdG L h).trainRows (exRdG L h).data.y ((exRdG L h).weights h) f.train = [([1], 1, kernelUniform (1 / 2) h)] := by
    rw [hfold]
    have hs : (exRdG L h).score 1 = 1 / 2 := by
      show (1 / 2 : ℝ) - 0 = _
      norm_num
    have hi : (exRdG L h).intended 1 = 1 := by
      unfold Rd.intended
      rw [hs, if_pos (by norm_num)]
    simp only [Rd.trainRows, List.map_cons, List.map_nil, hi, hs, Rd.weights]
    rfl
  rw [hD] at e1 e2
  have h1 : L.predict _ [0] = left := Except.ok.inj e1
  have h2 : L.predict _ [1] = right := Except.ok.inj e2
  rw [e3, h1, h2]
  rfl

/-- The hypotheses are met, and the conclusion is not empty: with the global learner the outcome is adjusted by the same
amount for the bandwidths 1 and 1/4, the weighted learner adjusts it by different amounts. -/
example : (exRdG exSumB.global 1).Global ∧
    (∃ st', (exRdG exSumB.global 1).fit (.int 1) rdInit = (st', .ok ()) ∧ st'.mY 0 0 = some (-1)) ∧
    (∃ st', (exRdG exSumB.global (1 / 4)).fit (.int 1) rdInit = (st', .ok ()) ∧ st'.mY 0 0 = some (-1)) ∧
    (∃ st', (exRdG exSumW 1).fit (.int 1) rdInit = (st', .ok ()) ∧ st'.mY 0 0 = some (-1)) ∧
    (∃ st', (exRdG exSumW (1 / 4)).fit (.int 1) rdInit = (st', .ok ()) ∧ st'.mY 0 0 = some 0) := by
  have hk1 : kernelUniform (1 / 2) 1 = 1 := if_pos (by norm_num [abs_of_pos])
  have hk2 : kernelUniform (1 / 2) (1 / 4) = 0 := if_neg (by norm_num [abs_of_pos])
  refine ⟨⟨C71_ignores exSumB, fun h => by cases h⟩, ?_, ?_, ?_, ?_⟩ <;>
  · obtain ⟨st', h⟩ := exRdG_fit _ _ 1 le_rfl rdInit
    refine ⟨st', h, ?_⟩
    obtain ⟨D, rfl, hv⟩ := exRdG_val _ _ _ _ h
    rw [hv]
    norm_num [BaseLearner.global, dropWeights, exSumB, exSumW, hk1, hk2]

/-- The hypotheses of `C71_iterations` and `C71_adjusted` are met: fits with one, two and five iterations succeed. -/
example (st : RdState 2 1) : (exRdG exSumB.global 1).fit (.int 2) st = (exRdG exSumB.global 1).fit (.int 5) st ∧
    ∃ st₁ st₂, (exRdG exSumB.global 1).fit (.int 1) st = (st₁, .ok ()) ∧
      (exRdG exSumB.global 1).fit (.int 5) st = (st₂, .ok ()) ∧ st₁.mY = st₂.mY := by
  have hG : (exRdG exSumB.global 1).Global := ⟨C71_ignores exSumB, fun h => by cases h⟩
  obtain ⟨st₁, h₁⟩ := exRdG_fit exSumB.global 1 1 le_rfl st
  obtain ⟨st₂, h₂⟩ := exRdG_fit exSumB.global 1 5 (by norm_num) st
  exact ⟨C71_iterations hG le_rfl (by norm_num) st, st₁, st₂, h₁, h₂, (C71_adjusted hG h₁ h₂).1⟩

/-- The hypotheses of `C71_same_as_equal_weights` are met by the weighted sum and the sum. -/
example : exSumW.Extends exSumB := by
  refine ⟨fun D hD z => ?_, fun _ _ _ => rfl⟩
  have : (D.map fun q => q.2.1 * q.2.2) = (dropWeights D).map Prod.snd := by
    rw [dropWeights, List.map_map]
    refine List.map_congr_left fun q hq => ?_
    show q.2.1 * q.2.2 = q.2.1
    rw [hD q hq, mul_one]
  exact congrArg List.sum this

end DML
