import Verif.Rdd
import Verif.CrossFitProps
import Verif.DrawSplitProps
import Verif.InferenceProps

/-!
# C51, C52, C61: regression discontinuity designs
-/

namespace DML

open Finset

variable {n r : ℕ}

/-! ## C51: kernels -/

/-- What a kernel has to satisfy to be a weight function for bandwidth `h`. -/
structure ValidKernel (K : ℝ → ℝ) (h : ℝ) : Prop where
  nonneg : ∀ x, 0 ≤ K x
  symm : ∀ x, K (-x) = K x
  outside : ∀ x, h < |x| → K x = 0
  mono : ∀ x x', |x| ≤ |x'| → K x' ≤ K x
  center : 0 < K 0

/-- **C51 (kernels).** Every kernel that can be chosen by name is, for every positive bandwidth, non-negative,
symmetric, zero outside the bandwidth and non-increasing in the distance from the cutoff. -/
theorem C51_kernels (casefold : String → String) (s : String) (K : Kernel) (name : String)
    (hK : checkKernel casefold (.str s) = .ok (K, name)) (h : ℝ) (hh : 0 < h) : ValidKernel (fun x => K x h) h := by
  unfold checkKernel at hK
  dsimp only at hK
  by_cases h1 : casefold s = "uniform"
  · rw [if_pos h1] at hK
    obtain ⟨rfl, rfl⟩ := Prod.mk.inj (Except.ok.inj hK)
    constructor
    · intro x; unfold kernelUniform; split_ifs <;> norm_num
    · intro x; simp [kernelUniform]
    · intro x hx; simp only [kernelUniform]; rw [if_neg (not_le.2 hx)]
    · intro x x' hx
      simp only [kernelUniform]
      by_cases hx' : |x'| ≤ h
      · rw [if_pos hx', if_pos (hx.trans hx')]
      · rw [if_neg hx']; split_ifs <;> norm_num
    · simp [kernelUniform, hh.le]
  rw [if_neg h1] at hK
  by_cases h2 : casefold s = "triangular"
  · rw [if_pos h2] at hK
    obtain ⟨rfl, rfl⟩ := Prod.mk.inj (Except.ok.inj hK)
    constructor
    · intro x; exact le_max_left _ _
    · intro x; simp [kernelTriangular]
    · intro x hx
      simp only [kernelTriangular]
      exact max_eq_left (div_nonpos_of_nonpos_of_nonneg (by linarith) hh.le)
    · intro x x' hx
      simp only [kernelTriangular]
      exact max_le_max le_rfl (by gcongr)
    · simp [kernelTriangular, hh.ne']
  rw [if_neg h2] at hK
  by_cases h3 : casefold s = "epanechnikov"
  · rw [if_pos h3] at hK
    obtain ⟨rfl, rfl⟩ := Prod.mk.inj (Except.ok.inj hK)
    have key : ∀ x, |x| < h → (x / h) ^ 2 ≤ 1 := by
      intro x hx
      rw [sq_le_one_iff_abs_le_one, abs_div, abs_of_pos hh, div_le_one hh]
      exact hx.le
    constructor
    · intro x
      simp only [kernelEpanechnikov]
      split_ifs with hx
      · have := key x hx
        have : 0 ≤ 1 - (x / h) ^ 2 := by linarith
        positivity
      · exact le_rfl
    · intro x; simp [kernelEpanechnikov, neg_div]
    · intro x hx; simp only [kernelEpanechnikov]; rw [if_neg (not_lt.2 hx.le)]
    · intro x x' hx
      simp only [kernelEpanechnikov]
      by_cases hx' : |x'| < h
      · rw [if_pos hx', if_pos (hx.trans_lt hx')]
        have : (x / h) ^ 2 ≤ (x' / h) ^ 2 := by
          rw [sq_le_sq, abs_div, abs_div]
          gcongr
        linarith
      · rw [if_neg hx']
        split_ifs with hx2
        · have := key x hx2
          have : 0 ≤ 1 - (x / h) ^ 2 := by linarith
          positivity
        · exact le_rfl
    · simp only [kernelEpanechnikov]
      rw [if_pos (by simpa using hh)]
      norm_num
  · rw [if_neg h3] at hK
    cases hK

/-- **C51 (kernels).** Exactly the three names (up to case folding) are accepted. -/
theorem C51_kernel_names (casefold : String → String) (s : String) :
    (∃ K name, checkKernel casefold (.str s) = .ok (K, name)) ↔
      casefold s ∈ ["uniform", "triangular", "epanechnikov"] := by
  unfold checkKernel
  dsimp only
  split_ifs with h1 h2 h3
  · simp [h1]
  · simp [h2]
  · simp [h3]
  · simp [h1, h2, h3]

example : ValidKernel (fun x => kernelTriangular x 2) 2 :=
  C51_kernels id "triangular" _ "triangular" (by simp [checkKernel]) 2 (by norm_num)

/-- The bandwidth is not checked: a negative `h_fs` makes the triangular "weights" grow with the distance. -/
example : kernelTriangular 3 (-1) = 4 ∧ kernelTriangular 0 (-1) = 1 := by
  norm_num [kernelTriangular]

/-! ## The fit of a repetition as a function -/

/-- The adjusted outcome and, in fuzzy designs, the adjusted treatment of a repetition for given weights. -/
noncomputable def Rd.adjusted (R : Rd n r) (k : Fin r) (w : Fin n → ℝ) :
    Except Exc ((Fin n → Option ℝ) × Option (Fin n → Option ℝ)) := do
  let etaY ← R.fitNuisance R.data.yType R.ml_g R.gMethod R.data.y w (R.smpls k)
  if R.fuzzy then
    let etaD ← R.fitNuisance R.data.dType R.ml_m .proba R.data.d w (R.smpls k)
    pure (subEta R.data.y etaY, some (subEta R.data.d etaD))
  else pure (subEta R.data.y etaY, none)

/-- The iterations of a repetition, without any state. -/
noncomputable def Rd.repRun (R : Rd n r) (k : Fin r) :
    ℕ → (Fin n → ℝ) → Option (ℝ × ℝ) → Except Exc ((Fin n → Option ℝ) × Option (Fin n → Option ℝ) × RdSlot)
  | 0, w, hb => do
    let a ← R.adjusted k w
    let res ← R.rdrobust a.1 R.score a.2 hb
    pure (a.1, a.2, ⟨hb.map Prod.fst, res⟩)
  | m + 1, w, _ => do
    let a ← R.adjusted k w
    let res ← R.rdrobust a.1 R.score a.2 none
    R.repRun k m (R.weights res.h) (some (res.h, res.b))

/-- Storing adjusted columns. -/
def RdState.put (st : RdState n r) (k : Fin r) (a : (Fin n → Option ℝ) × Option (Fin n → Option ℝ)) : RdState n r :=
  { st with
    mY := Function.update st.mY k a.1
    mD := (match a.2 with | none => st.mD | some d => Function.update st.mD k d) }

theorem adjust_ok {R : Rd n r} {k : Fin r} {w : Fin n → ℝ} {st st' : RdState n r}
    (h : R.adjust k w st = (st', .ok ())) : ∃ a, R.adjusted k w = .ok a ∧ st' = st.put k a ∧
      (a.2.isSome = R.fuzzy) := by
  unfold Rd.adjust at h
  unfold Rd.adjusted
  cases hY : R.fitNuisance R.data.yType R.ml_g R.gMethod R.data.y w (R.smpls k) with
  | error e => rw [hY] at h; cases (Prod.mk.inj h).2
  | ok etaY =>
    rw [hY] at h
    dsimp only at h
    cases hf : R.fuzzy with
    | false =>
      rw [hf] at h
      simp only [Bool.false_eq_true, if_false] at h
      obtain ⟨rfl, -⟩ := Prod.mk.inj h
      exact ⟨_, rfl, rfl, rfl⟩
    | true =>
      rw [hf] at h
      simp only [if_true] at h
      cases hD : R.fitNuisance R.data.dType R.ml_m .proba R.data.d w (R.smpls k) with
      | error e => rw [hD] at h; cases (Prod.mk.inj h).2
      | ok etaD =>
        rw [hD] at h
        obtain ⟨rfl, -⟩ := Prod.mk.inj h
        exact ⟨_, rfl, rfl, rfl⟩

theorem adjust_of_adjusted {R : Rd n r} {k : Fin r} {w : Fin n → ℝ} (st : RdState n r)
    {a : (Fin n → Option ℝ) × Option (Fin n → Option ℝ)} (h : R.adjusted k w = .ok a) :
    R.adjust k w st = (st.put k a, .ok ()) := by
  unfold Rd.adjusted at h
  obtain ⟨etaY, hY, h⟩ := bind_ok h
  unfold Rd.adjust
  rw [hY]
  dsimp only
  cases hf : R.fuzzy with
  | false =>
    rw [hf] at h
    simp only [Bool.false_eq_true, if_false] at h ⊢
    cases h
    rfl
  | true =>
    rw [hf] at h
    simp only [if_true] at h ⊢
    obtain ⟨etaD, hD, h⟩ := bind_ok h
    rw [hD]
    cases h
    rfl

theorem fitRdd_put {R : Rd n r} {k : Fin r} (st : RdState n r) (a : (Fin n → Option ℝ) × Option (Fin n → Option ℝ))
    (ha : a.2.isSome = R.fuzzy) (hb : Option (ℝ × ℝ)) :
    R.fitRdd k (st.put k a) hb = R.rdrobust a.1 R.score a.2 hb := by
  obtain ⟨a1, a2⟩ := a
  unfold Rd.fitRdd RdState.put
  cases a2 with
  | none => rw [← ha]; simp
  | some d => rw [← ha]; simp

theorem put_put (st : RdState n r) (k : Fin r) {a b : (Fin n → Option ℝ) × Option (Fin n → Option ℝ)}
    (h : a.2.isSome = b.2.isSome) : (st.put k a).put k b = st.put k b := by
  obtain ⟨a1, a2⟩ := a
  obtain ⟨b1, b2⟩ := b
  unfold RdState.put
  cases a2 <;> cases b2 <;> simp_all

/-- Storing the complete result of a repetition. -/
def RdState.store (st : RdState n r) (k : Fin r)
    (x : (Fin n → Option ℝ) × Option (Fin n → Option ℝ) × RdSlot) : RdState n r :=
  { st.put k (x.1, x.2.1) with slots := Function.update st.slots k (some x.2.2) }

theorem repRun_isSome {R : Rd n r} {k : Fin r} {m : ℕ} {w : Fin n → ℝ} {hb : Option (ℝ × ℝ)}
    {x : (Fin n → Option ℝ) × Option (Fin n → Option ℝ) × RdSlot} (h : R.repRun k m w hb = .ok x) :
    x.2.1.isSome = R.fuzzy := by
  induction m generalizing w hb with
  | zero =>
    unfold Rd.repRun at h
    obtain ⟨a, ha, h⟩ := bind_ok h
    obtain ⟨res, -, h⟩ := bind_ok h
    cases h
    obtain ⟨a', ha', -, hs⟩ := adjust_ok (adjust_of_adjusted (rdInit : RdState n r) ha)
    rw [ha] at ha'
    cases ha'
    exact hs
  | succ m ih =>
    unfold Rd.repRun at h
    obtain ⟨a, ha, h⟩ := bind_ok h
    obtain ⟨res, -, h⟩ := bind_ok h
    exact ih h

theorem iterate_ok_iff {R : Rd n r} {k : Fin r} {m : ℕ} {w : Fin n → ℝ} {hb : Option (ℝ × ℝ)} {st st' : RdState n r} :
    R.iterate k m w hb st = (st', .ok ()) ↔ ∃ x, R.repRun k m w hb = .ok x ∧ st' = st.store k x := by
  induction m generalizing w hb st with
  | zero =>
    constructor
    · intro h
      unfold Rd.iterate at h
      split at h
      · cases (Prod.mk.inj h).2
      next st₁ u hadj =>
        obtain ⟨a, ha, rfl, hs⟩ := adjust_ok hadj
        rw [fitRdd_put _ _ hs] at h
        cases hr : R.rdrobust a.1 R.score a.2 hb with
        | error e => rw [hr] at h; cases (Prod.mk.inj h).2
        | ok res =>
          rw [hr] at h
          obtain ⟨rfl, -⟩ := Prod.mk.inj h
          refine ⟨(a.1, a.2, ⟨hb.map Prod.fst, res⟩), ?_, rfl⟩
          unfold Rd.repRun
          rw [ha]
          show (do let res ← R.rdrobust a.1 R.score a.2 hb; _) = _
          rw [hr]
          rfl
    · rintro ⟨x, hx, rfl⟩
      unfold Rd.repRun at hx
      obtain ⟨a, ha, hx⟩ := bind_ok hx
      obtain ⟨res, hr, hx⟩ := bind_ok hx
      cases hx
      have hadj := adjust_of_adjusted st ha
      obtain ⟨a', ha', -, hs⟩ := adjust_ok hadj
      rw [ha] at ha'
      cases ha'
      unfold Rd.iterate
      rw [hadj]
      dsimp only
      rw [fitRdd_put _ _ hs, hr]
      rfl
  | succ m ih =>
    constructor
    · intro h
      unfold Rd.iterate at h
      split at h
      · cases (Prod.mk.inj h).2
      next st₁ u hadj =>
        obtain ⟨a, ha, rfl, hs⟩ := adjust_ok hadj
        rw [fitRdd_put _ _ hs] at h
        cases hr : R.rdrobust a.1 R.score a.2 none with
        | error e => rw [hr] at h; cases (Prod.mk.inj h).2
        | ok res =>
          rw [hr] at h
          dsimp only at h
          obtain ⟨x, hx, rfl⟩ := ih.1 h
          refine ⟨x, ?_, ?_⟩
          · unfold Rd.repRun
            rw [ha]
            show (do let res ← R.rdrobust a.1 R.score a.2 none; _) = _
            rw [hr]
            exact hx
          · have := repRun_isSome hx
            unfold RdState.store
            rw [put_put]
            · rfl
            · rw [hs, this]
    · rintro ⟨x, hx, rfl⟩
      unfold Rd.repRun at hx
      obtain ⟨a, ha, hx⟩ := bind_ok hx
      obtain ⟨res, hr, hx⟩ := bind_ok hx
      have hadj := adjust_of_adjusted st ha
      obtain ⟨a', ha', -, hs⟩ := adjust_ok hadj
      rw [ha] at ha'
      cases ha'
      unfold Rd.iterate
      rw [hadj]
      dsimp only
      rw [fitRdd_put _ _ hs, hr]
      dsimp only
      rw [ih]
      refine ⟨x, hx, ?_⟩
      have := repRun_isSome hx
      unfold RdState.store
      rw [put_put]
      · rfl
      · rw [hs, this]

theorem reps_ok_iff {R : Rd n r} {m : ℕ} {ks : List (Fin r)} {st st' : RdState n r} :
    R.reps m ks st = (st', .ok ()) ↔ ∃ x : Fin r → _, (∀ k ∈ ks, R.repRun k m (R.weights R.hFs) none = .ok (x k)) ∧
      st' = ks.foldl (fun s k => s.store k (x k)) st := by
  induction ks generalizing st with
  | nil =>
    constructor
    · intro h
      obtain ⟨rfl, -⟩ := Prod.mk.inj h
      exact ⟨fun _ => (fun _ => none, none, ⟨none, ⟨0, 0, 0, 0, 0, 0⟩⟩), by simp, rfl⟩
    · rintro ⟨x, -, rfl⟩
      rfl
  | cons k ks ih =>
    constructor
    · intro h
      unfold Rd.reps at h
      split at h
      · cases (Prod.mk.inj h).2
      next st₁ u hit =>
        obtain ⟨y, hy, rfl⟩ := iterate_ok_iff.1 hit
        obtain ⟨x, hx, rfl⟩ := ih.1 h
        by_cases hk : k ∈ ks
        · have := hx k hk
          rw [hy] at this
          refine ⟨x, ?_, ?_⟩
          · intro k' hk'
            rcases List.mem_cons.1 hk' with rfl | hk'
            · exact hx _ hk
            · exact hx k' hk'
          · rw [List.foldl_cons, Except.ok.inj this]
        · refine ⟨Function.update x k y, ?_, ?_⟩
          · intro k' hk'
            rcases List.mem_cons.1 hk' with rfl | hk'
            · rw [Function.update_self]; exact hy
            · have hne : k' ≠ k := fun he => hk (he ▸ hk')
              rw [Function.update_of_ne hne]
              exact hx k' hk'
          · rw [List.foldl_cons, Function.update_self]
            have : ∀ (l : List (Fin r)) (s : RdState n r), k ∉ l →
                l.foldl (fun s k' => s.store k' (x k')) s =
                  l.foldl (fun s k' => s.store k' (Function.update x k y k')) s := by
              intro l
              induction l with
              | nil => intro s _; rfl
              | cons j l ihl =>
                intro s hl
                rw [List.foldl_cons, List.foldl_cons, Function.update_of_ne (by rintro rfl; simp at hl)]
                exact ihl _ (fun hj => hl (List.mem_cons_of_mem _ hj))
            exact this ks _ hk
    · rintro ⟨x, hx, rfl⟩
      unfold Rd.reps
      rw [iterate_ok_iff.2 ⟨x k, hx k (by simp), rfl⟩]
      dsimp only
      exact ih.2 ⟨x, fun k' hk' => hx k' (by simp [hk']), rfl⟩

theorem foldl_store_agg (x : Fin r → (Fin n → Option ℝ) × Option (Fin n → Option ℝ) × RdSlot) (ks : List (Fin r))
    (st : RdState n r) : (ks.foldl (fun s k => s.store k (x k)) st).agg = st.agg := by
  induction ks generalizing st with
  | nil => rfl
  | cons j ks ih => rw [List.foldl_cons, ih]; rfl

theorem foldl_store (x : Fin r → (Fin n → Option ℝ) × Option (Fin n → Option ℝ) × RdSlot) (ks : List (Fin r))
    (st : RdState n r) (k : Fin r) :
    let st' := ks.foldl (fun s k => s.store k (x k)) st
    st'.agg = st.agg ∧ (st'.mY k = if k ∈ ks then (x k).1 else st.mY k) ∧
    (st'.slots k = if k ∈ ks then some (x k).2.2 else st.slots k) ∧
    (st'.mD k = if k ∈ ks then ((x k).2.1).getD (st.mD k) else st.mD k) := by
  induction ks generalizing st with
  | nil => simp
  | cons j ks ih =>
    obtain ⟨h1, h2, h3, h4⟩ := ih (st.store j (x j))
    simp only [List.foldl_cons]
    refine ⟨h1, ?_, ?_, ?_⟩
    · rw [h2]
      by_cases hk : k ∈ ks
      · simp [hk]
      · by_cases hj : k = j
        · subst hj; simp [hk, RdState.store, RdState.put]
        · simp [hk, hj, RdState.store, RdState.put]
    · rw [h3]
      by_cases hk : k ∈ ks
      · simp [hk]
      · by_cases hj : k = j
        · subst hj; simp [hk, RdState.store]
        · simp [hk, hj, RdState.store]
    · rw [h4]
      by_cases hk : k ∈ ks
      · simp only [hk, if_true, List.mem_cons, or_true]
        by_cases hj : k = j
        · subst hj
          rcases hx : (x k).2.1 with _ | d <;> simp [RdState.store, RdState.put, hx]
        · rcases hx : (x j).2.1 with _ | d <;> simp [RdState.store, RdState.put, hx, hj]
      · by_cases hj : k = j
        · subst hj
          simp only [hk, if_false, List.mem_cons, true_or, if_true]
          rcases hx : (x k).2.1 with _ | d <;> simp [RdState.store, RdState.put, hx]
        · simp only [hk, if_false, List.mem_cons, hj, or_self]
          rcases hx : (x j).2.1 with _ | d <;> simp [RdState.store, RdState.put, hx, hj]

/-- A successful fit: what every repetition computed and what is stored. -/
theorem rdFit_ok_iff {R : Rd n r} {v : PyVal} {st st' : RdState n r} :
    R.fit v st = (st', .ok ()) ↔ ∃ (m : ℕ) (x : Fin r → (Fin n → Option ℝ) × Option (Fin n → Option ℝ) × RdSlot), checkIterations v = .ok m ∧
      (∀ k, R.repRun k (m - 1) (R.weights R.hFs) none = .ok (x k)) ∧
      st'.mY = (fun k => (x k).1) ∧ st'.mD = (fun k => ((x k).2.1).getD (st.mD k)) ∧
      st'.slots = (fun k => some (x k).2.2) ∧ st'.agg = some (rdAggregate fun k => (x k).2.2.res) := by
  have key : ∀ (x : Fin r → (Fin n → Option ℝ) × Option (Fin n → Option ℝ) × RdSlot),
      (List.finRange r).foldl (fun s k => s.store k (x k)) st =
        ⟨fun k => (x k).1, fun k => ((x k).2.1).getD (st.mD k), fun k => some (x k).2.2, st.agg⟩ := by
    intro x
    have h := fun k => foldl_store x (List.finRange r) st k
    simp only [List.mem_finRange, if_true] at h
    have ha := foldl_store_agg x (List.finRange r) st
    generalize (List.finRange r).foldl (fun s k => s.store k (x k)) st = s at h ha ⊢
    cases s with
    | mk a b c d =>
      simp only at h
      simp only at ha
      rw [ha, funext fun k => (h k).2.1, funext fun k => (h k).2.2.1, funext fun k => (h k).2.2.2]
  have key2 : ∀ (x : Fin r → RdSlot), allRes (fun k => some (x k)) = some fun k => (x k).res := by
    intro x; simp [allRes]
  constructor
  · intro h
    unfold Rd.fit at h
    cases hm : checkIterations v with
    | error e => rw [hm] at h; cases (Prod.mk.inj h).2
    | ok m =>
      rw [hm] at h
      dsimp only at h
      split at h
      · cases (Prod.mk.inj h).2
      next st₁ u hreps =>
        obtain ⟨x, hx, rfl⟩ := reps_ok_iff.1 hreps
        rw [key, key2] at h
        obtain ⟨rfl, -⟩ := Prod.mk.inj h
        exact ⟨m, x, rfl, fun k => hx k (List.mem_finRange k), rfl, rfl, rfl, rfl⟩
  · rintro ⟨m, x, hm, hx, h1, h2, h3, h4⟩
    unfold Rd.fit
    rw [hm]
    dsimp only
    rw [reps_ok_iff.2 ⟨x, fun k _ => hx k, rfl⟩, key]
    dsimp only
    rw [key2]
    dsimp only
    cases st'
    simp_all

/-! ## C61: fits do not depend on the history -/

/-- **C61 (refit).** Whether a fit succeeds, and everything it leaves behind, is determined by the settings of
the object: fitting the same object from any earlier state gives the same adjusted outcomes, bandwidths,
repetition results and aggregates. -/
theorem C61_refit (R : Rd n r) (v : PyVal) (st st' : RdState n r) (h : R.fit v st = (st', .ok ())) (st₀ : RdState n r) :
    ∃ st₀', R.fit v st₀ = (st₀', .ok ()) ∧ st₀'.mY = st'.mY ∧ st₀'.slots = st'.slots ∧ st₀'.agg = st'.agg ∧
      (R.fuzzy = true → st₀'.mD = st'.mD) := by
  obtain ⟨m, x, hm, hx, h1, h2, h3, h4⟩ := rdFit_ok_iff.1 h
  refine ⟨⟨fun k => (x k).1, fun k => ((x k).2.1).getD (st₀.mD k), fun k => some (x k).2.2, st'.agg⟩,
    rdFit_ok_iff.2 ⟨m, x, hm, hx, rfl, rfl, rfl, h4⟩, h1.symm, h3.symm, rfl, ?_⟩
  intro hf
  rw [h2]
  funext k
  have := repRun_isSome (hx k)
  rw [hf] at this
  obtain ⟨d, hd⟩ := Option.isSome_iff_exists.1 this
  simp [hd]

theorem repRun_congr (R : Rd n r) {r' : ℕ} (s : Fin r' → List (Fold n)) (k : Fin r) (k' : Fin r') (hs : s k' = R.smpls k) :
    ∀ (m : ℕ) (w : Fin n → ℝ) (hb : Option (ℝ × ℝ)),
      (⟨R.data, R.cutoff, R.fuzzy, R.ml_g, R.gMethod, R.ml_m, R.spec, R.kernel, R.hFs, s, R.rdrobust⟩ : Rd n r').repRun k' m w hb =
        R.repRun k m w hb := by
  have hadj : ∀ w, (⟨R.data, R.cutoff, R.fuzzy, R.ml_g, R.gMethod, R.ml_m, R.spec, R.kernel, R.hFs, s, R.rdrobust⟩ :
      Rd n r').adjusted k' w = R.adjusted k w := by
    intro w
    unfold Rd.adjusted
    dsimp only
    rw [hs]
    rfl
  intro m
  induction m with
  | zero =>
    intro w hb
    unfold Rd.repRun
    rw [hadj]
    rfl
  | succ m ih =>
    intro w hb
    unfold Rd.repRun
    rw [hadj]
    cases R.adjusted k w with
    | error e => rfl
    | ok a =>
      show (do let res ← R.rdrobust a.1 R.score a.2 none; _) = (do let res ← R.rdrobust a.1 R.score a.2 none; _)
      cases R.rdrobust a.1 R.score a.2 none with
      | error e => rfl
      | ok res => exact ih _ _

/-- **C61 (repetitions are independent).** The adjusted outcome and the last stage result of a repetition
depend on the split of that repetition only: two objects with the same settings and (possibly different numbers
of) splits agree wherever their splits agree. -/
theorem C61_repetitions (R : Rd n r) {r' : ℕ} (s : Fin r' → List (Fold n)) (v : PyVal) (st st' : RdState n r)
    (st₂ st₂' : RdState n r') (h : R.fit v st = (st', .ok ()))
    (h' : (⟨R.data, R.cutoff, R.fuzzy, R.ml_g, R.gMethod, R.ml_m, R.spec, R.kernel, R.hFs, s, R.rdrobust⟩ :
      Rd n r').fit v st₂ = (st₂', .ok ()))
    (k : Fin r) (k' : Fin r') (hs : s k' = R.smpls k) : st₂'.mY k' = st'.mY k ∧ st₂'.slots k' = st'.slots k := by
  obtain ⟨m, x, hm, hx, h1, h2, h3, h4⟩ := rdFit_ok_iff.1 h
  obtain ⟨m', x', hm', hx', h1', h2', h3', h4'⟩ := rdFit_ok_iff.1 h'
  rw [hm] at hm'
  cases hm'
  have e : x' k' = x k := by
    have a := hx' k'
    have b := hx k
    rw [repRun_congr R s k k' hs] at a
    exact Except.ok.inj (a.symm.trans b)
  rw [h1, h1', h3, h3']
  simp only [e, and_self]

/-! ## C51: the adjusted outcome -/

/-- The features at the cutoff, seen from one side: the indicator of being above the cutoff, zero for every term
that contains the (centred) score, and the covariates. -/
def sideRow (spec : FsSpec) (above : ℝ) (x : List ℝ) : List ℝ :=
  above :: (match spec with | .cutoff => [] | .cutoffScore => [0] | .interacted => [0, 0]) ++ x

/-- `v` is what the property demands as the quantity subtracted from the outcome of observation `i`: the mean of
the predictions for the covariates of `i` at both sides of the cutoff, by a model trained (with weights `w`) on the
training sample of a fold that tests `i` and does not train on it. -/
def OutOfFoldMean (R : Rd n r) (L : WLearner) (m : Method) (outcome w : Fin n → ℝ) (folds : List (Fold n)) (i : Fin n)
    (v : ℝ) : Prop :=
  ∃ f ∈ folds, i ∈ f.test ∧ i ∉ f.train ∧ ∃ left right,
    L.eval m (R.trainRows outcome w f.train) (sideRow R.spec 0 (R.data.x i)) = .ok left ∧
    L.eval m (R.trainRows outcome w f.train) (sideRow R.spec 1 (R.data.x i)) = .ok right ∧ v = (left + right) / 2

theorem castScatter_eq (t : Dtype) (a : Fin n → Option ℝ) (idx : List (Fin n)) (e : Fin n → Except Exc ℝ) (l : List ℝ)
    (h : idx.mapM e = .ok l) (i : Fin n) :
    (i ∉ idx → castScatter t a idx l i = a i) ∧
    (i ∈ idx → ∃ v, e i = .ok v ∧ castScatter t a idx l i = some (t.cast v)) := by
  have hl := mapM_ok_map h (g := fun i => match e i with | .ok v => v | .error _ => 0) (by
    intro a _ b hb; rw [hb])
  subst hl
  unfold castScatter
  rw [List.map_map, scatter_map]
  constructor
  · intro hi; rw [if_neg hi]
  · intro hi
    obtain ⟨v, hv⟩ := mapM_ok_mem h i hi
    refine ⟨v, hv, ?_⟩
    rw [if_pos hi]
    simp [hv]

theorem zLeft_eq (spec : FsSpec) (x : List ℝ) : zLeft spec ++ x = sideRow spec 0 x := by cases spec <;> rfl

theorem zRight_eq (spec : FsSpec) (x : List ℝ) : zRight spec ++ x = sideRow spec 1 x := by cases spec <;> rfl

theorem foldSteps (R : Rd n r) (t : Dtype) (L : WLearner) (m : Method) (outcome w : Fin n → ℝ) (folds : List (Fold n))
    (hnd : (folds.map Fold.test).flatten.Nodup) (mu mu' : (Fin n → Option ℝ) × (Fin n → Option ℝ))
    (h : folds.foldlM (R.foldStep t L m outcome w) mu = .ok mu') (i : Fin n) :
    ((∀ f ∈ folds, i ∉ f.test) → mu'.1 i = mu.1 i ∧ mu'.2 i = mu.2 i) ∧
    ∀ f ∈ folds, i ∈ f.test → ∃ left right,
      L.eval m (R.trainRows outcome w f.train) (sideRow R.spec 0 (R.data.x i)) = .ok left ∧
      L.eval m (R.trainRows outcome w f.train) (sideRow R.spec 1 (R.data.x i)) = .ok right ∧
      mu'.1 i = some (t.cast left) ∧ mu'.2 i = some (t.cast right) := by
  induction folds generalizing mu with
  | nil =>
    cases h
    simp
  | cons f fs ih =>
    rw [List.foldlM_cons] at h
    obtain ⟨mu₁, h₁, h⟩ := bind_ok h
    rw [List.map_cons, List.flatten_cons, List.nodup_append] at hnd
    obtain ⟨hA, hB⟩ := ih hnd.2.1 mu₁ h
    unfold Rd.foldStep at h₁
    obtain ⟨left, hl, h₁⟩ := bind_ok h₁
    obtain ⟨right, hr, h₁⟩ := bind_ok h₁
    cases h₁
    have cl := castScatter_eq t mu.1 f.test _ left hl i
    have cr := castScatter_eq t mu.2 f.test _ right hr i
    constructor
    · intro hno
      obtain ⟨a, b⟩ := hA fun g hg => hno g (by simp [hg])
      exact ⟨a.trans (cl.1 (hno f (by simp))), b.trans (cr.1 (hno f (by simp)))⟩
    · intro g hg hi
      rcases List.mem_cons.1 hg with rfl | hg
      · obtain ⟨a, b⟩ := hA (by
          intro g' hg' hi'
          exact hnd.2.2 i hi i (List.mem_flatten.2 ⟨g'.test, List.mem_map_of_mem hg', hi'⟩) rfl)
        obtain ⟨vl, hvl, el⟩ := cl.2 hi
        obtain ⟨vr, hvr, er⟩ := cr.2 hi
        refine ⟨vl, vr, ?_, ?_, a.trans el, b.trans er⟩
        · rw [← zLeft_eq]; exact hvl
        · rw [← zRight_eq]; exact hvr
      · exact hB g hg hi

/-- The splits of an object are partitions of the observations with disjoint training sets. -/
def Rd.GoodSplits (R : Rd n r) : Prop :=
  ∀ k, ((R.smpls k).flatMap Fold.test).Perm (List.finRange n) ∧ ∀ f ∈ R.smpls k, ∀ i, i ∈ f.train ↔ i ∉ f.test

/-- Every constructed object has such splits, whatever the stratified draw assigns. -/
theorem rdCreate_good {casefold : String → String} {bw : ℝ} {rdrobust : RdRobust n} {fold : Fin r → Fin n → ℕ}
    {a : RdInput n} {R : Rd n r} {st : RdState n r} (h : rdCreate casefold bw rdrobust fold a = .ok (R, st))
    (hf : ∀ k i, fold k i < a.nFolds) : R.GoodSplits := by
  unfold rdCreate at h
  obtain ⟨c, -, h⟩ := bind_ok h
  obtain ⟨lm, -, h⟩ := bind_ok h
  obtain ⟨_, -, h⟩ := bind_ok h
  obtain ⟨hb, -, h⟩ := bind_ok h
  obtain ⟨spec, -, h⟩ := bind_ok h
  obtain ⟨ker, -, h⟩ := bind_ok h
  obtain ⟨_, -, h⟩ := bind_ok h
  cases h
  intro k
  obtain ⟨-, h1, h2⟩ := C23_stratified_partition a.nFolds (fold k) (hf k)
  exact ⟨h1, fun f hfm i => (h2 f hfm).2 i⟩

theorem fitNuisance_val (R : Rd n r) (hR : R.GoodSplits) (k : Fin r) (t : Dtype) (L : WLearner) (m : Method)
    (outcome w : Fin n → ℝ) (eta : Fin n → Option ℝ) (h : R.fitNuisance t L m outcome w (R.smpls k) = .ok eta) (i : Fin n) :
    ∃ f ∈ R.smpls k, i ∈ f.test ∧ i ∉ f.train ∧ ∃ left right,
      L.eval m (R.trainRows outcome w f.train) (sideRow R.spec 0 (R.data.x i)) = .ok left ∧
      L.eval m (R.trainRows outcome w f.train) (sideRow R.spec 1 (R.data.x i)) = .ok right ∧
      eta i = some (t.add (t.cast left) (t.cast right) / 2) := by
  unfold Rd.fitNuisance at h
  obtain ⟨mu, hmu, h⟩ := bind_ok h
  cases h
  have hi : i ∈ (R.smpls k).flatMap Fold.test := (hR k).1.mem_iff.2 (List.mem_finRange i)
  obtain ⟨f, hf, hif⟩ := List.mem_flatMap.1 hi
  have hnd : ((R.smpls k).map Fold.test).flatten.Nodup := by
    rw [← List.flatMap_def]
    exact (hR k).1.nodup_iff.2 (List.nodup_finRange n)
  obtain ⟨left, right, h1, h2, h3, h4⟩ := (foldSteps R t L m outcome w (R.smpls k) hnd _ mu hmu i).2 f hf hif
  refine ⟨f, hf, hif, fun ht => ((hR k).2 f hf i).1 ht hif, left, right, h1, h2, ?_⟩
  show halfSum t (mu.1 i) (mu.2 i) = _
  rw [h3, h4]
  rfl

theorem repRun_last {R : Rd n r} {k : Fin r} {m : ℕ} {h₀ : ℝ} {hb : Option (ℝ × ℝ)}
    {x : (Fin n → Option ℝ) × Option (Fin n → Option ℝ) × RdSlot} (h : R.repRun k m (R.weights h₀) hb = .ok x) :
    ∃ h', (m = 0 → h' = h₀) ∧ (m ≠ 0 → x.2.2.h = some h') ∧ R.adjusted k (R.weights h') = .ok (x.1, x.2.1) := by
  induction m generalizing h₀ hb with
  | zero =>
    unfold Rd.repRun at h
    obtain ⟨a, ha, h⟩ := bind_ok h
    obtain ⟨res, -, h⟩ := bind_ok h
    cases h
    exact ⟨h₀, fun _ => rfl, fun h => absurd rfl h, ha⟩
  | succ m ih =>
    unfold Rd.repRun at h
    obtain ⟨a, ha, h⟩ := bind_ok h
    obtain ⟨res, -, h⟩ := bind_ok h
    obtain ⟨h', h1, h2, h3⟩ := ih h
    refine ⟨h', by simp, ?_, h3⟩
    intro _
    by_cases hm : m = 0
    · subst hm
      rw [h1 rfl]
      unfold Rd.repRun at h
      obtain ⟨a, ha, h⟩ := bind_ok h
      obtain ⟨res', -, h⟩ := bind_ok h
      cases h
      rfl
    · exact h2 hm

/-- The rows a first stage learner is trained on, written out: for every training observation the indicator of the score
being at or above the cutoff, the distance to the cutoff as far as the specification uses it, and the covariates;
the target; and the kernel weight of the distance to the cutoff. -/
noncomputable def firstStageRow (spec : FsSpec) (cutoff : ℝ) (K : Kernel) (b : ℝ) (s : ℝ) (x : List ℝ) (target : ℝ) :
    List ℝ × ℝ × ℝ :=
  let side : ℝ := if cutoff ≤ s then 1 else 0
  ((match spec with
    | .cutoff => side :: x
    | .cutoffScore => side :: (s - cutoff) :: x
    | .interacted => side :: (side * (s - cutoff)) :: (s - cutoff) :: x), target, K (s - cutoff) b)

/-- **C51 (first stage).** The first stage learners are trained on the training observations of the fold only; an
observation at the cutoff belongs to the treated side. -/
theorem C51_training (R : Rd n r) (outcome : Fin n → ℝ) (b : ℝ) (train : List (Fin n)) :
    R.trainRows outcome (R.weights b) train =
      train.map fun i => firstStageRow R.spec R.cutoff R.kernel b (R.data.s i) (R.data.x i) (outcome i) := by
  unfold Rd.trainRows
  refine List.map_congr_left fun i _ => ?_
  have h : R.intended i = if R.cutoff ≤ R.data.s i then 1 else 0 := by
    unfold Rd.intended Rd.score
    by_cases h : R.cutoff ≤ R.data.s i
    · rw [if_pos h, if_pos (by linarith)]
    · rw [if_neg h, if_neg (by linarith)]
  unfold firstStageRow
  rw [h]
  cases R.spec <;> rfl

/-- An observation at the cutoff is trained as treated. -/
example (K : Kernel) : (firstStageRow .cutoffScore 2 K 1 2 [7] 5).1 = [1, 0, 7] := by
  unfold firstStageRow
  norm_num

/-- **C51 (what is subtracted), all column types.** After a successful fit the adjusted outcome of every
observation in every repetition is the outcome minus half the sum of the left and right out-of-fold predictions
*as stored in an array of the type of the outcome column*.  The weights of the first stage are the kernel at the
first stage bandwidth (one iteration) or at the bandwidth reported for the repetition. -/
theorem C51_adjusted_by_type (R : Rd n r) (hR : R.GoodSplits) (v : PyVal) (st st' : RdState n r)
    (h : R.fit v st = (st', .ok ())) (k : Fin r) : ∃ b, (checkIterations v = .ok 1 → b = R.hFs) ∧
      (checkIterations v ≠ .ok 1 → ∃ sl, st'.slots k = some sl ∧ sl.h = some b) ∧
      ∀ i, ∃ f ∈ R.smpls k, i ∈ f.test ∧ i ∉ f.train ∧ ∃ left right,
        R.ml_g.eval R.gMethod (R.trainRows R.data.y (R.weights b) f.train) (sideRow R.spec 0 (R.data.x i)) = .ok left ∧
        R.ml_g.eval R.gMethod (R.trainRows R.data.y (R.weights b) f.train) (sideRow R.spec 1 (R.data.x i)) = .ok right ∧
        st'.mY k i = some (R.data.y i -
          R.data.yType.add (R.data.yType.cast left) (R.data.yType.cast right) / 2) := by
  obtain ⟨m, x, hm, hx, h1, h2, h3, h4⟩ := rdFit_ok_iff.1 h
  obtain ⟨b, hb0, hb1, hadj⟩ := repRun_last (hx k)
  have hm1 : 1 ≤ m := by
    unfold checkIterations at hm
    split at hm
    · cases hm
    · split_ifs at hm with hz
      cases hm
      omega
  refine ⟨b, ?_, ?_, ?_⟩
  · intro h'
    rw [hm] at h'
    cases h'
    exact hb0 rfl
  · intro h'
    refine ⟨(x k).2.2, by rw [h3], hb1 ?_⟩
    intro h0
    apply h'
    rw [hm]
    congr 1
    omega
  · intro i
    unfold Rd.adjusted at hadj
    obtain ⟨etaY, hY, hadj⟩ := bind_ok hadj
    obtain ⟨f, hf, ht, htr, left, right, e1, e2, e3⟩ := fitNuisance_val R hR k _ _ _ _ _ _ hY i
    refine ⟨f, hf, ht, htr, left, right, e1, e2, ?_⟩
    have : (x k).1 = subEta R.data.y etaY := by
      split_ifs at hadj
      · obtain ⟨etaD, -, hadj⟩ := bind_ok hadj
        exact (congrArg Prod.fst (Except.ok.inj hadj)).symm
      · exact (congrArg Prod.fst (Except.ok.inj hadj)).symm
    rw [h1]
    dsimp only
    rw [this, subEta, e3]
    rfl

/-- **C51, partial.** For outcome columns of floating point type the adjusted outcome is the outcome minus the mean
of the left and right limits predicted out of fold.  Missing: integer and boolean columns, for which the statement
is false (`C51_violated`). -/
theorem C51_adjusted_partial (R : Rd n r) (hR : R.GoodSplits) (hy : R.data.yType = .float) (v : PyVal)
    (st st' : RdState n r) (h : R.fit v st = (st', .ok ())) (k : Fin r) :
    ∃ b, (checkIterations v = .ok 1 → b = R.hFs) ∧
      (checkIterations v ≠ .ok 1 → ∃ sl, st'.slots k = some sl ∧ sl.h = some b) ∧
      ∀ i, ∃ e, OutOfFoldMean R R.ml_g R.gMethod R.data.y (R.weights b) (R.smpls k) i e ∧
        st'.mY k i = some (R.data.y i - e) := by
  obtain ⟨b, h1, h2, h3⟩ := C51_adjusted_by_type R hR v st st' h k
  refine ⟨b, h1, h2, fun i => ?_⟩
  obtain ⟨f, hf, ht, htr, left, right, e1, e2, e3⟩ := h3 i
  refine ⟨(left + right) / 2, ⟨f, hf, ht, htr, left, right, e1, e2, rfl⟩, ?_⟩
  rw [e3, hy]
  rfl

/-- **C51, partial (treatment of fuzzy designs).** The same for the adjusted treatment. -/
theorem C51_treatment_partial (R : Rd n r) (hR : R.GoodSplits) (hd : R.data.dType = .float) (hf : R.fuzzy = true)
    (v : PyVal) (st st' : RdState n r) (h : R.fit v st = (st', .ok ())) (k : Fin r) :
    ∃ b, (checkIterations v = .ok 1 → b = R.hFs) ∧
      ∀ i, ∃ e, OutOfFoldMean R R.ml_m .proba R.data.d (R.weights b) (R.smpls k) i e ∧
        st'.mD k i = some (R.data.d i - e) := by
  obtain ⟨m, x, hm, hx, h1, h2, h3, h4⟩ := rdFit_ok_iff.1 h
  obtain ⟨b, hb0, hb1, hadj⟩ := repRun_last (hx k)
  refine ⟨b, ?_, ?_⟩
  · intro h'
    rw [hm] at h'
    cases h'
    exact hb0 rfl
  · intro i
    unfold Rd.adjusted at hadj
    obtain ⟨etaY, hY, hadj⟩ := bind_ok hadj
    rw [hf] at hadj
    simp only [if_true] at hadj
    obtain ⟨etaD, hD, hadj⟩ := bind_ok hadj
    obtain ⟨f, hf', ht, htr, left, right, e1, e2, e3⟩ := fitNuisance_val R hR k _ _ _ _ _ _ hD i
    refine ⟨(left + right) / 2, ⟨f, hf', ht, htr, left, right, e1, e2, rfl⟩, ?_⟩
    have : (x k).2.1 = some (subEta R.data.d etaD) := (congrArg Prod.snd (Except.ok.inj hadj)).symm
    rw [h2]
    dsimp only
    rw [this, Option.getD_some, subEta, e3, hd]
    rfl

/-! ### A concrete object -/

/-- A last stage that reports fixed numbers. -/
def exRes : RdRes := ⟨fun _ => 1, fun _ => 2, fun _ => (0, 3), (1, 1), 1, 1⟩

/-- Two observations on both sides of the cutoff 0, a learner that always predicts 1/2. -/
noncomputable def exRdInput (t : Dtype) : RdInput 2 where
  data := ⟨fun _ => [], ![0, 1], ![0, 1], ![-1 / 2, 1 / 2], t, .float⟩
  hasScore := true
  sType := .float
  nTreat := 1
  hasZ := false
  binaryOutcome := true
  cutoff := .int 0
  fuzzy := false
  ml_g := ⟨fun _ _ => 1 / 2, fun _ _ => [1 / 2, 1 / 2]⟩
  gClassifier := false
  ml_m := none
  nFolds := 2
  hFs := .float 1
  fsSpec := .str "cutoff"
  fsKernel := .str "uniform"

/-- The object constructed from it. -/
noncomputable def exRd (t : Dtype) : Rd 2 1 where
  data := (exRdInput t).data
  cutoff := 0
  fuzzy := false
  ml_g := (exRdInput t).ml_g
  gMethod := .predict
  ml_m := ⟨fun _ _ => 0, fun _ _ => []⟩
  spec := .cutoff
  kernel := kernelUniform
  hFs := 1
  smpls := fun _ => assignFolds 2 fun i => i
  rdrobust := fun _ _ _ _ => .ok exRes

theorem exRd_create (t : Dtype) : rdCreate id 1 (fun _ _ _ _ => .ok exRes) (fun _ i => i) (exRdInput t) =
    .ok (exRd t, rdInit) := by
  have hc : continuousTarget (exRdInput t).sType (exRdInput t).data.s := by
    refine ⟨rfl, 1, fun z hz => ?_⟩
    have h1 : (1 / 2 : ℝ) = z := hz
    have h2 : (1 : ℝ) = ((2 * z : ℤ) : ℝ) := by push_cast; linarith
    have h3 : (1 : ℤ) = 2 * z := by exact_mod_cast h2
    omega
  have h1 : rdCheckData (exRdInput t) = .ok 0 := by
    unfold rdCheckData
    rw [if_neg (by simp [exRdInput]), if_neg (by simpa using hc)]
    have : (exRdInput t).cutoff.number = some 0 := by simp [exRdInput, PyVal.number]
    rw [this]
    dsimp only
    rw [if_neg (by
      push Not
      exact ⟨⟨0, by norm_num [exRdInput]⟩, ⟨1, by norm_num [exRdInput]⟩⟩), if_neg (by
      push Not
      refine ⟨rfl, fun i => ?_⟩
      fin_cases i <;> simp [exRdInput]), if_neg (by simp [exRdInput])]
  have h2 : rdCheckLearners (exRdInput t) = .ok (.predict, ⟨fun _ _ => 0, fun _ _ => []⟩) := by
    simp [rdCheckLearners, exRdInput]
  have h3 : checkKernel id (exRdInput t).fsKernel = .ok (kernelUniform, "uniform") := by
    simp [checkKernel, exRdInput]
  have h4 : rdCheckSign (fun i => (exRdInput t).data.s i - 0) (fun i => kernelUniform ((exRdInput t).data.s i - 0) 1) = .ok () := by
    unfold rdCheckSign
    rw [if_neg]
    simp only [Fin.sum_univ_two, exRdInput, kernelUniform]
    norm_num [abs_of_pos, abs_of_neg, abs_div]
  have h5 : checkFsSpec (exRdInput t).fsSpec = .ok .cutoff := by simp [checkFsSpec, exRdInput]
  have h6 : rdCheckFolds (exRdInput t).nFolds = .ok () := by simp [rdCheckFolds, exRdInput]
  have h7 : rdBandwidth 1 (exRdInput t).hFs = .ok 1 := by simp [rdBandwidth, exRdInput]
  unfold rdCreate
  simp only [h1, h2, h3, h5, h6, h7, bind, Except.bind]
  rw [h4]
  rfl

/-- With learners whose predictions are defined and a last stage that does not raise, `fit` succeeds. -/
theorem rdFit_succeeds (R : Rd n r) (v : PyVal) (m : ℕ) (hv : checkIterations v = .ok m)
    (hg : ∀ D z, ∃ a, R.ml_g.eval R.gMethod D z = .ok a)
    (hm : R.fuzzy = true → ∀ D z, ∃ a, R.ml_m.eval .proba D z = .ok a)
    (hr : ∀ y x f hb, ∃ res, R.rdrobust y x f hb = .ok res) (st : RdState n r) : ∃ st', R.fit v st = (st', .ok ()) := by
  have hn : ∀ (t : Dtype) (L : WLearner) (me : Method) (o w : Fin n → ℝ) (fs : List (Fold n)),
      (∀ D z, ∃ a, L.eval me D z = .ok a) → ∃ e, R.fitNuisance t L me o w fs = .ok e := by
    intro t L me o w fs hL
    have : ∀ mu, ∃ mu', fs.foldlM (R.foldStep t L me o w) mu = .ok mu' := by
      induction fs with
      | nil => intro mu; exact ⟨mu, rfl⟩
      | cons f fs ih =>
        intro mu
        choose g hg using hL
        have h1 : ∀ z : Fin n → List ℝ, f.test.mapM (fun i => L.eval me (R.trainRows o w f.train) (z i)) =
            .ok (f.test.map fun i => g (R.trainRows o w f.train) (z i)) :=
          fun z => mapM_ok _ _ _ fun i _ => hg _ _
        rw [List.foldlM_cons]
        unfold Rd.foldStep
        simp only [h1 (fun i => zLeft R.spec ++ R.data.x i), h1 (fun i => zRight R.spec ++ R.data.x i)]
        exact ih _
    obtain ⟨mu, hmu⟩ := this (fun _ => t.fill, fun _ => t.fill)
    unfold Rd.fitNuisance
    rw [hmu]
    exact ⟨_, rfl⟩
  have ha : ∀ k w, ∃ a, R.adjusted k w = .ok a := by
    intro k w
    unfold Rd.adjusted
    obtain ⟨e, he⟩ := hn R.data.yType R.ml_g R.gMethod R.data.y w (R.smpls k) hg
    rw [he]
    cases hf : R.fuzzy with
    | false => exact ⟨_, rfl⟩
    | true =>
      obtain ⟨e', he'⟩ := hn R.data.dType R.ml_m .proba R.data.d w (R.smpls k) (hm hf)
      rw [he']
      exact ⟨_, rfl⟩
  have hx : ∀ k m w hb, ∃ x, R.repRun k m w hb = .ok x := by
    intro k m
    induction m with
    | zero =>
      intro w hb
      obtain ⟨a, h1⟩ := ha k w
      obtain ⟨res, h2⟩ := hr a.1 R.score a.2 hb
      unfold Rd.repRun
      rw [h1]
      refine ⟨(a.1, a.2, ⟨hb.map Prod.fst, res⟩), ?_⟩
      show (do let res ← R.rdrobust a.1 R.score a.2 hb; _) = _
      rw [h2]
      rfl
    | succ m ih =>
      intro w hb
      obtain ⟨a, h1⟩ := ha k w
      obtain ⟨res, h2⟩ := hr a.1 R.score a.2 none
      unfold Rd.repRun
      rw [h1]
      obtain ⟨x, hx⟩ := ih (R.weights res.h) (some (res.h, res.b))
      refine ⟨x, ?_⟩
      show (do let res ← R.rdrobust a.1 R.score a.2 none; _) = _
      rw [h2]
      exact hx
  choose x hx using fun k => hx k (m - 1) (R.weights R.hFs) none
  exact ⟨⟨_, _, _, _⟩, rdFit_ok_iff.2 ⟨m, x, hv, hx, rfl, rfl, rfl, rfl⟩⟩

theorem exRd_fit (t : Dtype) (st : RdState 2 1) : ∃ st', (exRd t).fit (.int 1) st = (st', .ok ()) :=
  rdFit_succeeds _ _ 1 (by simp [checkIterations, PyVal.asInt]) (fun _ _ => ⟨1 / 2, rfl⟩) (fun h => by cases h)
    (fun _ _ _ _ => ⟨exRes, rfl⟩) _

theorem exRd_good (t : Dtype) : (exRd t).GoodSplits := rdCreate_good (exRd_create t) fun _ i => i.2

/-- The adjusted outcome of the concrete object. -/
theorem exRd_val (t : Dtype) (st st' : RdState 2 1) (h : (exRd t).fit (.int 1) st = (st', .ok ())) (i : Fin 2) :
    st'.mY 0 i = some ((exRd t).data.y i - t.add (t.cast (1 / 2)) (t.cast (1 / 2)) / 2) := by
  obtain ⟨b, -, -, h3⟩ := C51_adjusted_by_type (exRd t) (exRd_good t) _ st st' h 0
  obtain ⟨f, -, -, -, left, right, e1, e2, e3⟩ := h3 i
  have h1 : (1 / 2 : ℝ) = left := Except.ok.inj e1
  have h2 : (1 / 2 : ℝ) = right := Except.ok.inj e2
  rw [e3, ← h1, ← h2]
  rfl

/-- **C51 (violated).** For an outcome column of integer type the adjusted outcome is not the outcome minus the mean
of the two predictions: with a learner that always predicts 1/2, `RDFlex` subtracts 0 from an integer outcome column
(and 1/2 from the same column stored as floats). -/
theorem C51_violated : ∃ (R : Rd 2 1) (st' : RdState 2 1),
    rdCreate id 1 (fun _ _ _ _ => .ok exRes) (fun _ i => i) (exRdInput .int) = .ok (R, rdInit) ∧ R.GoodSplits ∧
    R.fit (.int 1) rdInit = (st', .ok ()) ∧ R.data.yType = .int ∧
    ∀ i w e, OutOfFoldMean R R.ml_g R.gMethod R.data.y w (R.smpls 0) i e → e = 1 / 2 ∧
      st'.mY 0 i = some (R.data.y i) ∧ st'.mY 0 i ≠ some (R.data.y i - e) := by
  obtain ⟨st', h⟩ := exRd_fit .int rdInit
  refine ⟨exRd .int, st', exRd_create .int, exRd_good .int, h, rfl, ?_⟩
  rintro i w e ⟨f, -, -, -, left, right, e1, e2, rfl⟩
  have h1 : (1 / 2 : ℝ) = left := Except.ok.inj e1
  have h2 : (1 / 2 : ℝ) = right := Except.ok.inj e2
  subst h1 h2
  have hv := exRd_val .int rdInit st' h i
  have hz : Dtype.int.add (Dtype.int.cast (1 / 2)) (Dtype.int.cast (1 / 2)) / 2 = 0 := by
    have : ⌊(1 / 2 : ℝ)⌋ = 0 := by norm_num
    simp only [Dtype.add, Dtype.cast]
    rw [if_pos (by norm_num), this]
    norm_num
  rw [hz, sub_zero] at hv
  refine ⟨by norm_num, hv, ?_⟩
  rw [hv]
  intro hc
  have := Option.some.inj hc
  linarith

/-- Non-vacuity of C51: the same data with a floating point outcome. -/
example : ∃ st', (exRd .float).fit (.int 1) rdInit = (st', .ok ()) ∧ st'.mY 0 1 = some (1 / 2) := by
  obtain ⟨st', h⟩ := exRd_fit .float rdInit
  refine ⟨st', h, ?_⟩
  rw [exRd_val .float rdInit st' h 1]
  norm_num [exRd, exRdInput, Dtype.add, Dtype.cast]

/-! ## C52: aggregation and confidence intervals -/

/-- **C52 (aggregation).** After every successful fit the reported coefficients and standard errors are obtained from
the repetitions' results by the median rule used for all other models (`aggTheta`, `aggSe`), with the effective
number of observations as scaling. -/
theorem C52_aggregation (R : Rd n r) (v : PyVal) (st st' : RdState n r) (h : R.fit v st = (st', .ok ())) :
    ∃ (res : Fin r → RdRes) (a : RdAgg), (∀ k, (st'.slots k).map RdSlot.res = some (res k)) ∧ st'.agg = some a ∧
      ∀ j, a.coef j = aggTheta (fun k => (res k).coef j) ∧
        a.se j = aggSe (fun k => (res k).coef j) (fun k => (res k).se j) (fun k => (res k).Nh.1 + (res k).Nh.2) := by
  obtain ⟨m, x, hm, hx, h1, h2, h3, h4⟩ := rdFit_ok_iff.1 h
  refine ⟨fun k => (x k).2.2.res, _, ?_, h4, fun j => ⟨rfl, rfl⟩⟩
  intro k
  rw [h3]
  rfl

/-- **C52 (intervals of `fit`).** If every interval reported by the last stage contains its coefficient, so does every
aggregated interval. -/
theorem C52_ci (R : Rd n r) (v : PyVal) (st st' : RdState n r) (h : R.fit v st = (st', .ok ()))
    (hci : ∀ k sl, st'.slots k = some sl → ∀ j, (sl.res.ci j).1 ≤ sl.res.coef j ∧ sl.res.coef j ≤ (sl.res.ci j).2) :
    ∃ a, st'.agg = some a ∧ ∀ j, (a.ci j).1 ≤ a.coef j ∧ a.coef j ≤ (a.ci j).2 := by
  obtain ⟨m, x, hm, hx, h1, h2, h3, h4⟩ := rdFit_ok_iff.1 h
  refine ⟨_, h4, fun j => ⟨median_mono fun k => ?_, median_mono fun k => ?_⟩⟩
  · exact (hci k _ (by rw [h3]) j).1
  · exact (hci k _ (by rw [h3]) j).2

/-- **C52 (`confint`).** After every successful fit, for every level in (0,1), the confidence intervals contain the
coefficients, provided the standard errors of the last stage are non-negative; and they widen with the level. -/
theorem C52_confint (R : Rd n r) (v : PyVal) (st st' : RdState n r) (h : R.fit v st = (st', .ok ()))
    (hse : ∀ k sl, st'.slots k = some sl → ∀ j, 0 ≤ sl.res.se j) (l : ℝ) (h0 : 0 < l) (h1 : l < 1) :
    ∃ a c, st'.agg = some a ∧ st'.confint (.float l) = .ok (some c) ∧
      (∀ j, (c j).1 ≤ a.coef j ∧ a.coef j ≤ (c j).2) ∧
      ∀ l', l ≤ l' → l' < 1 → ∃ c', st'.confint (.float l') = .ok (some c') ∧ ∀ j, (c' j).1 ≤ (c j).1 ∧ (c j).2 ≤ (c' j).2 := by
  obtain ⟨m, x, hm, hx, e1, e2, e3, e4⟩ := rdFit_ok_iff.1 h
  have hall : allRes st'.slots = some fun k => (x k).2.2.res := by rw [e3]; simp [allRes]
  have hs : ∀ k j, 0 ≤ (x k).2.2.res.se j := fun k => hse k _ (by rw [e3])
  have hc : ∀ l, 0 < l → l < 1 → st'.confint (.float l) = .ok (some fun j =>
      (median fun k => (x k).2.2.res.coef j - (x k).2.2.res.se j * ppf (1 - (1 - l) / 2),
        median fun k => (x k).2.2.res.coef j + (x k).2.2.res.se j * ppf (1 - (1 - l) / 2))) := by
    intro l h0 h1
    unfold RdState.confint
    have : checkInZeroOne (.float l) false false = .ok l := by
      rw [checkInZeroOne_ok_iff]; simp [h0, h1]
    rw [this, hall]
    rfl
  have hp : ∀ l, 0 < l → l < 1 → 0 ≤ ppf (1 - (1 - l) / 2) := fun l h0 h1 => (pointCrit_pos h0 h1).le
  refine ⟨_, _, e4, hc l h0 h1, fun j => ⟨median_mono fun k => ?_, median_mono fun k => ?_⟩, ?_⟩
  · have := mul_nonneg (hs k j) (hp l h0 h1)
    linarith
  · have := mul_nonneg (hs k j) (hp l h0 h1)
    linarith
  · intro l' hl h1'
    refine ⟨_, hc l' (h0.trans_le hl) h1', fun j => ⟨median_mono fun k => ?_, median_mono fun k => ?_⟩⟩
    · have := mul_le_mul_of_nonneg_left (pointCrit_mono h0 hl h1') (hs k j)
      unfold pointCrit at this
      linarith
    · have := mul_le_mul_of_nonneg_left (pointCrit_mono h0 hl h1') (hs k j)
      unfold pointCrit at this
      linarith

/-- **C52 (one repetition).** With a single repetition the aggregates are the results of the last stage. -/
theorem C52_single (R : Rd n 1) (v : PyVal) (st st' : RdState n 1) (h : R.fit v st = (st', .ok ()))
    (hse : ∀ sl, st'.slots 0 = some sl → ∀ j, 0 ≤ sl.res.se j) :
    ∃ a sl, st'.agg = some a ∧ st'.slots 0 = some sl ∧
      ∀ j, a.coef j = sl.res.coef j ∧ a.se j = sl.res.se j ∧ a.ci j = sl.res.ci j := by
  obtain ⟨m, x, hm, hx, e1, e2, e3, e4⟩ := rdFit_ok_iff.1 h
  refine ⟨_, (x 0).2.2, e4, by rw [e3], fun j => ⟨median_one _, ?_, ?_⟩⟩
  · exact (C08_single (fun k => (x k).2.2.res.coef j) (fun k => (x k).2.2.res.se j) _ (hse _ (by rw [e3]) j)).2
  · show (median _, median _) = _
    rw [median_one, median_one]

/-- **C52 (p-values).** The p-values lie in [0,1], and for one repetition the p-value is below `α` exactly if 0 lies
outside the interval of level `1 - α`. -/
theorem C52_pval (R : Rd n 1) (v : PyVal) (st st' : RdState n 1) (h : R.fit v st = (st', .ok ()))
    (hse : ∀ sl, st'.slots 0 = some sl → ∀ j, 0 < sl.res.se j) (α : ℝ) (h0 : 0 < α) (h1 : α < 1) :
    ∃ a c, st'.agg = some a ∧ st'.confint (.float (1 - α)) = .ok (some c) ∧
      ∀ j, 0 ≤ a.pval j ∧ a.pval j ≤ 1 ∧ (a.pval j < α ↔ 0 < (c j).1 ∨ (c j).2 < 0) := by
  obtain ⟨m, x, hm, hx, e1, e2, e3, e4⟩ := rdFit_ok_iff.1 h
  have hall : allRes st'.slots = some fun k => (x k).2.2.res := by rw [e3]; simp [allRes]
  have hc : st'.confint (.float (1 - α)) = .ok (some fun j =>
      (median fun k => (x k).2.2.res.coef j - (x k).2.2.res.se j * ppf (1 - (1 - (1 - α)) / 2),
        median fun k => (x k).2.2.res.coef j + (x k).2.2.res.se j * ppf (1 - (1 - (1 - α)) / 2))) := by
    unfold RdState.confint
    have : checkInZeroOne (.float (1 - α)) false false = .ok (1 - α) := by
      rw [checkInZeroOne_ok_iff]; simp [h0, h1]
    rw [this, hall]
    rfl
  refine ⟨_, _, e4, hc, fun j => ?_⟩
  have hs := hse _ (by rw [e3]) j
  have hcoef : (rdAggregate fun k => (x k).2.2.res).coef j = (x 0).2.2.res.coef j := median_one _
  have hsev : (rdAggregate fun k => (x k).2.2.res).se j = (x 0).2.2.res.se j :=
    (C08_single (fun k => (x k).2.2.res.coef j) (fun k => (x k).2.2.res.se j) _ hs.le).2
  simp only [RdAgg.pval, RdAgg.t, hcoef, hsev, median_one]
  have hle : Phi (-|(x 0).2.2.res.coef j / (x 0).2.2.res.se j|) ≤ 1 / 2 := by
    rw [← Phi_zero]
    exact Phi_mono (neg_nonpos.2 (abs_nonneg _))
  refine ⟨by linarith [(Phi_pos (-|(x 0).2.2.res.coef j / (x 0).2.2.res.se j|))], by linarith, ?_⟩
  have hz : 0 < ppf (1 - (1 - (1 - α)) / 2) := pointCrit_pos (by linarith) (by linarith)
  rw [Phi_neg, pval_lt_iff _ _ h0 h1]
  have e : (1 - (1 - (1 - α)) / 2) = 1 - α / 2 := by ring
  unfold pointCrit
  rw [e] at hz ⊢
  rw [abs_t_gt_iff hs hz]

/-- Non-vacuity of C52. -/
example : ∃ st', (exRd .float).fit (.int 1) rdInit = (st', .ok ()) ∧
    ∀ k sl, st'.slots k = some sl → ∀ j, 0 < sl.res.se j ∧ (sl.res.ci j).1 ≤ sl.res.coef j ∧
      sl.res.coef j ≤ (sl.res.ci j).2 := by
  obtain ⟨st', h⟩ := exRd_fit .float rdInit
  refine ⟨st', h, ?_⟩
  obtain ⟨m, x, hm, hx, e1, e2, e3, e4⟩ := rdFit_ok_iff.1 h
  intro k sl hsl j
  rw [e3] at hsl
  cases hsl
  have hm1 : m = 1 := by simpa [checkIterations, PyVal.asInt] using hm.symm
  subst hm1
  have h2 := hx k
  unfold Rd.repRun at h2
  obtain ⟨a, -, h2⟩ := bind_ok h2
  obtain ⟨res, hr, h2⟩ := bind_ok h2
  cases hr
  rw [← Except.ok.inj h2]
  norm_num [exRes]

end DML
