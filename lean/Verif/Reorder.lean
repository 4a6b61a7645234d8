import Verif.Units

/-!
# The order of the observations: specification and lemmas

What it means that two fits differ only in the order of the rows of the data, and how cross-fitted predictions, estimates
and sensitivity elements of one cell react.
-/

namespace DML

open Finset

variable {n r : ℕ} {P M : Type}

/-! ## Specification -/

/-- A learner that does not depend on the order of its training data. -/
def Learner.OrderFree (L : Learner P (List Cell)) : Prop :=
  ∀ p D D' x, D.Perm D' → L.predict p D x = L.predict p D' x ∧ L.proba p D x = L.proba p D' x

/-- The data object of the data frame whose row `i` is row `σ i` of the original one. -/
def DataState.reorder (σ : Equiv.Perm (Fin n)) (D : DataState n) : DataState n :=
  { D with
    yv := fun i => D.yv (σ i)
    zv := D.zv.map fun l => l.map fun z i => z (σ i)
    tv := D.tv.map fun t i => t (σ i)
    sv := D.sv.map fun s i => s (σ i)
    dv := fun i => D.dv (σ i)
    xv := D.xv.map fun x i => x (σ i)
    cv := D.cv.map fun c i => c (σ i) }

/-- Row `i` of the new data is row `σ i` of the old data; the second fold contains the same observations. -/
structure Fold.Reordered (σ : Equiv.Perm (Fin n)) (f f' : Fold n) : Prop where
  train : f.train.Perm (f'.train.map σ)
  test : f.test.Perm (f'.test.map σ)

/-- The folds contain the same observations. -/
def SplitReordered (σ : Equiv.Perm (Fin n)) (S S' : List (Fold n)) : Prop := List.Forall₂ (Fold.Reordered σ) S S'

/-- The cluster labels of the reordered observations. -/
def ClusterVars.reorder (σ : Equiv.Perm (Fin n)) : ClusterVars n → ClusterVars n
  | .one c => .one fun i => c (σ i)
  | .two c d => .two (fun i => c (σ i)) fun i => d (σ i)

/-- The cluster information of one repetition. -/
structure ClusterRep.Reordered (σ : Equiv.Perm (Fin n)) (cr cr' : ClusterRep n) : Prop where
  vars : cr'.vars = cr.vars.reorder σ
  smpls : SplitReordered σ cr.smpls cr'.smpls
  smplsCluster : cr'.smplsCluster = cr.smplsCluster
  nFolds : cr'.nFoldsPerCluster = cr.nFoldsPerCluster

/-- The input of one cell of the reordered data. -/
structure CellIn.Reordered (σ : Equiv.Perm (Fin n)) (c c' : CellIn n P) : Prop where
  data : c'.data = c.data.reorder σ
  treat : c'.treat = c.treat
  smpls : SplitReordered σ c.smpls c'.smpls
  cluster : (c.cluster = none ∧ c'.cluster = none) ∨
    ∃ cr cr', c.cluster = some cr ∧ c'.cluster = some cr' ∧ cr.Reordered σ cr'
  params : c'.params = c.params
  ext : ∀ l, c'.extOf l = (c.extOf l).map fun e i => e (σ i)
  want : c'.wantModels = c.wantModels
  rep : c'.rep = c.rep

/-- The same estimate, with the influence function in the new order. -/
structure FitOne.Reordered (σ : Equiv.Perm (Fin n)) (f f' : FitOne n) : Prop where
  coef : f'.coef = f.coef
  se : f'.se = f.se
  vsf : f'.vsf = f.vsf
  psi : ∀ i, f'.scaledPsi i = f.scaledPsi (σ i)

/-- The same sensitivity elements, in the new order. -/
structure SensElems.Reordered (σ : Equiv.Perm (Fin n)) (e e' : SensElems n) : Prop where
  sigma2 : e'.sigma2 = e.sigma2
  nu2 : e'.nu2 = e.nu2
  psiSigma2 : ∀ i, e'.psiSigma2 i = e.psiSigma2 (σ i)
  psiNu2 : ∀ i, e'.psiNu2 i = e.psiNu2 (σ i)
  rr : ∀ i, e'.rr i = e.rr (σ i)

/-- A parameter with its influence function in the new order. -/
def Block.reorder (σ : Equiv.Perm (Fin n)) (b : Block n r) : Block n r := { b with psi := fun i k => b.psi (σ i) k }

/-- Bias bounds with their influence functions in the new order. -/
def Sens.reorder (σ : Equiv.Perm (Fin n)) (s : Sens n r) : Sens n r := { s with psiMaxBias := fun i k => s.psiMaxBias (σ i) k }

/-- Predictions in the new order. -/
def CvRes.Reordered (σ : Equiv.Perm (Fin n)) (q q' : CvRes n P (List Cell)) : Prop := ∀ i, q'.preds i = q.preds (σ i)

/-! ## Splits -/

theorem SplitReordered.length {σ : Equiv.Perm (Fin n)} {S S' : List (Fold n)} (h : SplitReordered σ S S') :
    S.length = S'.length := List.Forall₂.length_eq h

theorem Fold.Reordered.mem_test {σ : Equiv.Perm (Fin n)} {f f' : Fold n} (h : f.Reordered σ f') (i : Fin n) :
    i ∈ f'.test ↔ σ i ∈ f.test := by
  rw [h.test.mem_iff, List.mem_map]
  exact ⟨fun q => ⟨i, q, rfl⟩, fun ⟨j, q, e⟩ => by rwa [← σ.injective e]⟩

theorem Fold.Reordered.mem_train {σ : Equiv.Perm (Fin n)} {f f' : Fold n} (h : f.Reordered σ f') (i : Fin n) :
    i ∈ f'.train ↔ σ i ∈ f.train := by
  rw [h.train.mem_iff, List.mem_map]
  exact ⟨fun q => ⟨i, q, rfl⟩, fun ⟨j, q, e⟩ => by rwa [← σ.injective e]⟩

theorem SplitReordered.getElem {σ : Equiv.Perm (Fin n)} {S S' : List (Fold n)} (h : SplitReordered σ S S') (k : ℕ)
    (hk : k < S.length) : S[k].Reordered σ (S'[k]'(by rw [← h.length]; exact hk)) :=
  (forall₂_getElem h).2 k hk (by rw [← h.length]; exact hk)

theorem SplitReordered.flatten {σ : Equiv.Perm (Fin n)} {S S' : List (Fold n)} (h : SplitReordered σ S S') :
    (S.map Fold.test).flatten.Perm ((S'.map Fold.test).flatten.map σ) := by
  induction h with
  | nil => rfl
  | cons a _ ih =>
    simp only [List.map_cons, List.flatten_cons, List.map_append]
    exact a.test.append ih

theorem SplitReordered.isPartition {σ : Equiv.Perm (Fin n)} {S S' : List (Fold n)} (h : SplitReordered σ S S') :
    isPartition S' = isPartition S := by
  have hf := h.flatten
  rw [Bool.eq_iff_iff, isPartition_iff, isPartition_iff]
  have hσ : ((List.finRange n).map σ).Perm (List.finRange n) := by
    rw [List.perm_ext_iff_of_nodup ((List.nodup_map_iff σ.injective).2 (List.nodup_finRange n)) (List.nodup_finRange n)]
    exact fun i => ⟨fun _ => List.mem_finRange i, fun _ => List.mem_map.2 ⟨σ.symm i, List.mem_finRange _, by simp⟩⟩
  constructor
  · intro q
    exact hf.trans ((q.map σ).trans hσ)
  · intro q
    have : ((S'.map Fold.test).flatten.map σ).Perm ((List.finRange n).map σ) := hf.symm.trans (q.trans hσ.symm)
    have h2 := this.map σ.symm
    rw [List.map_map, List.map_map] at h2
    have he : (σ.symm : Fin n → Fin n) ∘ σ = id := by funext i; simp
    rwa [he, List.map_id, List.map_id] at h2

theorem SplitReordered.foldsOk {σ : Equiv.Perm (Fin n)} {S S' : List (Fold n)} (h : SplitReordered σ S S') (hS : FoldsOk S) :
    FoldsOk S' := by
  refine ⟨by rw [h.isPartition]; exact hS.partition, fun f' hf' => ?_⟩
  obtain ⟨k, hk, rfl⟩ := List.mem_iff_getElem.1 hf'
  have := h.getElem k (by rw [h.length]; exact hk)
  have h2 := this.train.nodup_iff.1 (hS.nodup _ (List.getElem_mem _))
  exact h2.of_map

theorem SplitReordered.cond {σ : Equiv.Perm (Fin n)} {S S' : List (Fold n)} (h : SplitReordered σ S S')
    {on on' : Fin n → Prop} [DecidablePred on] [DecidablePred on'] (ho : ∀ i, on' i ↔ on (σ i)) :
    SplitReordered σ (condSmpls on S) (condSmpls on' S') := by
  unfold condSmpls SplitReordered
  rw [List.forall₂_map_left_iff, List.forall₂_map_right_iff]
  refine List.Forall₂.imp (fun f f' hf => ?_) h
  refine ⟨?_, hf.test⟩
  dsimp only
  have hs : ∀ s : Finset (Fin n), (s.sort (· ≤ ·)).Nodup := fun s => Finset.sort_nodup s _
  refine (List.perm_ext_iff_of_nodup (hs _) ((List.nodup_map_iff σ.injective).2 (hs _))).2 fun i => ?_
  change i ∈ intersect1d (whereIdx on) f.train ↔ i ∈ List.map σ (intersect1d (whereIdx on') f'.train)
  rw [mem_intersect1d, mem_whereIdx, List.mem_map]
  constructor
  · rintro ⟨h1, h2⟩
    refine ⟨σ.symm i, ?_, by simp⟩
    rw [mem_intersect1d, mem_whereIdx, ho, hf.mem_train]
    simpa using ⟨h1, h2⟩
  · rintro ⟨j, hj, rfl⟩
    rw [mem_intersect1d, mem_whereIdx, ho, hf.mem_train] at hj
    exact hj

/-! ## Cross-fitted predictions -/

theorem trainData_perm {X : Type} {σ : Equiv.Perm (Fin n)} {f f' : Fold n} (h : f.Reordered σ f') {x x' : Fin n → X}
    (hx : ∀ i, x' i = x (σ i)) {y y' : Fin n → ℝ} (hy : ∀ i, y' i = y (σ i)) :
    (trainData x y f.train).Perm (trainData x' y' f'.train) := by
  have h1 : trainData x' y' f'.train = trainData x y (f'.train.map σ) := by
    unfold trainData
    rw [List.map_map]
    exact List.map_congr_left fun i _ => by rw [hx, hy]; rfl
  rw [h1]
  exact h.train.map _

theorem image_reorder (σ : Equiv.Perm (Fin n)) {y y' : Fin n → ℝ} (hy : ∀ i, y' i = y (σ i)) : univ.image y' = univ.image y := by
  ext v
  simp only [Finset.mem_image, Finset.mem_univ, true_and]
  exact ⟨fun ⟨i, h⟩ => ⟨σ i, by rw [← hy]; exact h⟩, fun ⟨i, h⟩ => ⟨σ.symm i, by rw [hy]; simpa using h⟩⟩

theorem fitTarget_reorder (σ : Equiv.Perm (Fin n)) {y y' : Fin n → ℝ} (hy : ∀ i, y' i = y (σ i)) (m : Method) (i : Fin n) :
    fitTarget m y' i = fitTarget m y (σ i) := by
  cases m with
  | predict => exact hy i
  | proba => simp only [fitTarget, encode, image_reorder σ hy, hy]

theorem classesOf_perm {X : Type} {D D' : List (X × ℝ)} (h : D.Perm D') : classesOf D = classesOf D' := by
  unfold classesOf
  rw [List.toFinset_eq_of_perm _ _ (h.map Prod.snd)]

/-- The prediction of one observation, whatever branch is taken. -/
noncomputable def cvEval {X : Type} (L : Learner P X) (a : CvArgs n P X) (y : Fin n → ℝ) (f : Fold n) (k : ℕ) (i : Fin n) : Except Exc ℝ :=
  if a.manual then manualEval L a.method ⟨a.params.at k, trainData a.x (fitTarget a.method y) f.train⟩ (a.x i)
  else autoEval L a.method (univ.image y).card (a.params.at k) (trainData a.x (fitTarget a.method y) f.train) (a.x i)

theorem cv_value {X : Type} {L : Learner P X} {a : CvArgs n P X} {q : CvRes n P X} {y : Fin n → ℝ} (hy : a.y = .plain y)
    (hp : isPartition a.smpls = true) (h : cvPredict L a = .ok q) (k : ℕ) (hk : k < a.smpls.length) (i : Fin n)
    (hi : i ∈ a.smpls[k].test) : ∃ v, cvEval L a y a.smpls[k] k i = .ok v ∧ q.preds i = some v := by
  rcases a with ⟨x, y0, smpls, params, method, rt, rm⟩
  subst hy
  unfold cvPredict at h
  unfold cvEval
  dsimp only at *
  split at h
  · rename_i hman
    rw [if_pos hman]
    obtain ⟨data, ps, preds, hd, hps, hpr, h1, -, -, -⟩ := manualPredict_unfold h
    obtain ⟨hpl, hpv⟩ := foldParams_ok hps
    have hdd := Except.ok.inj hd
    dsimp only at hdd
    have hdl : data.length = smpls.length := by rw [← hdd, List.length_map]
    obtain ⟨w, hw, hpi⟩ := manual_value hp hdl hpl hpr k hk i hi
    dsimp only at hw
    have hdk : data[k]'(by rw [hdl]; exact hk) = trainData x (fitTarget method y) smpls[k].train := by
      subst hdd
      rw [List.getElem_map]
    rw [hpv, hdk] at hw
    exact ⟨w, hw, by rw [h1, hpi]⟩
  · rename_i hman
    rw [if_neg hman]
    cases params with
    | default => exact autoPredict_ok hp h (List.getElem_mem hk) hi
    | same p => exact autoPredict_ok hp h (List.getElem_mem hk) hi
    | perFold l => cases h

theorem cvPredict_reordered {L : Learner P (List Cell)} (hL : L.OrderFree) {σ : Equiv.Perm (Fin n)} {x x' : Fin n → List Cell}
    (hx : ∀ i, x' i = x (σ i)) {y y' : Fin n → ℝ} (hy : ∀ i, y' i = y (σ i)) {S S' : List (Fold n)} (hS : FoldsOk S)
    (hSS : SplitReordered σ S S') {ps : Params P} {m : Method} {rt m1 : Bool} {q q' : CvRes n P (List Cell)}
    (h : cvPredict L ⟨x, .plain y, S, ps, m, rt, m1⟩ = .ok q)
    (h' : cvPredict L ⟨x', .plain y', S', ps, m, rt, m1⟩ = .ok q') : q.Reordered σ q' := by
  intro i
  have hS' := hSS.foldsOk hS
  obtain ⟨k, hk, _⟩ := C26_complete hS'.partition i
  have hkl : (k : ℕ) < S.length := by rw [hSS.length]; exact k.2
  have hf := hSS.getElem k hkl
  obtain ⟨v', e', p'⟩ := cv_value rfl hS'.partition h' k k.2 i hk
  obtain ⟨v, e, p⟩ := cv_value rfl hS.partition h k hkl (σ i) ((hf.mem_test i).1 hk)
  rw [p', p]
  have hm : CvArgs.manual ⟨x', .plain y', S', ps, m, rt, m1⟩ = CvArgs.manual ⟨x, .plain y, S, ps, m, rt, m1⟩ := by
    simp only [CvArgs.manual, hSS.isPartition]; rfl
  have hD := trainData_perm hf hx fun i => fitTarget_reorder σ hy m i
  have : cvEval L ⟨x', .plain y', S', ps, m, rt, m1⟩ y' (S'[(k : ℕ)]) k i =
      cvEval L ⟨x, .plain y, S, ps, m, rt, m1⟩ y (S[(k : ℕ)]) k (σ i) := by
    unfold cvEval
    rw [hm]
    dsimp only
    rw [image_reorder σ hy, hx]
    cases m with
    | predict => simp only [manualEval, autoEval, (hL _ _ _ _ hD).1]
    | proba => simp only [manualEval, autoEval, (hL _ _ _ _ hD).2, autoColumn, classesOf_perm hD]
  dsimp only at e e'
  rw [this, e] at e'
  rw [Except.ok.inj e']

theorem CvRes.Reordered.vec {σ : Equiv.Perm (Fin n)} {q q' : CvRes n P (List Cell)} (h : q.Reordered σ q') :
    q'.vec = fun i => q.vec (σ i) := by
  funext i
  simp [CvRes.vec, h i]

/-! ## Estimates -/

theorem mean_reorder {σ : Equiv.Perm (Fin n)} {f g : Fin n → ℝ} (h : ∀ i, g i = f (σ i)) : mean g = mean f := by
  rw [funext h, mean_perm]

theorem zip_reorder {σ : Equiv.Perm (Fin n)} {S S' : List (Fold n)} (h : SplitReordered σ S S') (cf : List ClusterFold)
    (G : ClusterFold → ℝ → ℝ) {g g' : Fin n → ℝ} (hg : ∀ i, g' i = g (σ i)) :
    ((S'.zip cf).map fun f => G f.2 (f.1.test.map g').sum) = (S.zip cf).map fun f => G f.2 (f.1.test.map g).sum := by
  induction h generalizing cf with
  | nil => rfl
  | cons a _ ih =>
    cases cf with
    | nil => rfl
    | cons q t =>
      simp only [List.zip_cons_cons, List.map_cons]
      rw [ih, (a.test.map g).sum_eq, List.map_map]
      congr 3
      exact List.map_congr_left fun i _ => hg i

/-- The cluster information of a cell. -/
def ClusterReordered (σ : Equiv.Perm (Fin n)) (c c' : Option (ClusterRep n)) : Prop :=
  (c = none ∧ c' = none) ∨ ∃ cr cr', c = some cr ∧ c' = some cr' ∧ cr.Reordered σ cr'

theorem aggObs_reorder {σ : Equiv.Perm (Fin n)} {c c' : Option (ClusterRep n)} (h : ClusterReordered σ c c') {g g' : Fin n → ℝ}
    (hg : ∀ i, g' i = g (σ i)) : aggObs c' g' = aggObs c g := by
  rcases h with ⟨rfl, rfl⟩ | ⟨cr, cr', rfl, rfl, h⟩
  · exact mean_reorder hg
  · have hw : ∀ f, clusterWeight cr'.vars f = clusterWeight cr.vars f := by
      intro f
      rw [h.vars]
      cases cr.vars <;> rfl
    unfold aggObs
    dsimp only
    simp only [hw]
    rw [h.smplsCluster, zip_reorder h.smpls cr.smplsCluster (fun f v => clusterWeight cr.vars f * v) hg]

theorem varEst_reordered {σ : Equiv.Perm (Fin n)} {c c' : Option (ClusterRep n)} (h : ClusterReordered σ c c') {g g' d d' : Fin n → ℝ}
    (hg : ∀ i, g' i = g (σ i)) (hd : ∀ i, d' i = d (σ i)) : varEst g' d' c' = varEst g d c := by
  rcases h with ⟨rfl, rfl⟩ | ⟨cr, cr', rfl, rfl, h⟩
  · unfold varEst varEstParts
    rw [mean_reorder hd, mean_reorder (f := fun i => g i ^ 2) fun i => by rw [hg]]
  · rcases cr' with ⟨v', sm', cf', K'⟩
    rcases cr with ⟨v, sm, cf, K⟩
    obtain ⟨h1, h2, h3, h4⟩ := h
    dsimp only at h1 h2 h3 h4
    subst h1 h3 h4
    obtain rfl : g' = fun i => g (σ i) := funext hg
    cases v with
    | one c =>
      have e1 : gammaOne (fun i => c (σ i)) (fun i => g (σ i)) cf' = gammaOne c g cf' := by
        unfold gammaOne
        simp only [fun v => outerSum_reorder σ g fun i => c i = v]
      have e2 : jOne d' (sm'.zip cf') = jOne d (sm.zip cf') := by
        unfold jOne
        rw [zip_reorder h2 cf' (fun f v => v / (f.test1.length : ℝ)) hd]
      simp only [varEst, varEstParts, ClusterVars.reorder, e1, e2, nUnique_reorder]
    | two c₁ c₂ =>
      have e1 : gammaTwo (fun i => c₁ (σ i)) (fun i => c₂ (σ i)) (fun i => g (σ i)) cf' = gammaTwo c₁ c₂ g cf' := by
        unfold gammaTwo
        simp only [fun v (t : List ℤ) => outerSum_reorder σ g fun i => c₁ i = v ∧ c₂ i ∈ t,
          fun v (t : List ℤ) => outerSum_reorder σ g fun i => c₂ i = v ∧ c₁ i ∈ t]
      have e2 : jTwo d' (sm'.zip cf') = jTwo d (sm.zip cf') := by
        unfold jTwo
        rw [zip_reorder h2 cf' (fun f v => v / ((f.test1.length * f.test2.length : ℕ) : ℝ)) hd]
      simp only [varEst, varEstParts, ClusterVars.reorder, e1, e2, nUnique_reorder]

theorem PsiElems.reordered {σ : Equiv.Perm (Fin n)} {c c' : Option (ClusterRep n)} (h : ClusterReordered σ c c')
    {e e' : PsiElems n} (ha : ∀ i, e'.a i = e.a (σ i)) (hb : ∀ i, e'.b i = e.b (σ i)) : (e.fit c).Reordered σ (e'.fit c') := by
  have hc : e'.coef c' = e.coef c := by
    unfold PsiElems.coef
    rw [aggObs_reorder h ha, aggObs_reorder h hb]
  have hp : ∀ i, e'.score (e'.coef c') i = e.score (e.coef c) (σ i) := by
    intro i
    unfold PsiElems.score
    rw [hc, ha, hb]
  have hv := varEst_reordered h hp ha
  refine ⟨hc, ?_, ?_, fun i => ?_⟩
  · exact congrArg (fun v => Real.sqrt v.1) hv
  · exact congrArg Prod.snd hv
  · show e'.score (e'.coef c') i / mean e'.a = e.score (e.coef c) (σ i) / mean e.a
    rw [hp, mean_reorder ha]

/-! ## Sensitivity elements -/

theorem sensOf_reordered {σ : Equiv.Perm (Fin n)} {e e' mA mA' rr rr' : Fin n → ℝ} (he : ∀ i, e' i = e (σ i))
    (hm : ∀ i, mA' i = mA (σ i)) (hr : ∀ i, rr' i = rr (σ i)) : (sensOf e mA rr).Reordered σ (sensOf e' mA' rr') := by
  have h2 : (mean fun i => 2 * mA' i - rr' i ^ 2) = mean fun i => 2 * mA i - rr i ^ 2 :=
    mean_reorder (f := fun i => 2 * mA i - rr i ^ 2) fun i => by rw [hm, hr]
  refine ⟨mean_reorder he, h2, fun i => ?_, fun i => ?_, hr⟩
  · show e' i - mean e' = e (σ i) - mean e
    rw [he, mean_reorder he]
  · show 2 * mA' i - rr' i ^ 2 - _ = 2 * mA (σ i) - rr (σ i) ^ 2 - _
    rw [hm, hr, h2]

theorem plrSens_reordered {σ : Equiv.Perm (Fin n)} {e e' d d' m m' : Fin n → ℝ} (he : ∀ i, e' i = e (σ i))
    (hd : ∀ i, d' i = d (σ i)) (hm : ∀ i, m' i = m (σ i)) : (plrSens e d m).Reordered σ (plrSens e' d' m') := by
  have h2 : (mean fun i => (d' i - m' i) ^ 2) = mean fun i => (d i - m i) ^ 2 :=
    mean_reorder (f := fun i => (d i - m i) ^ 2) fun i => by rw [hd, hm]
  refine ⟨mean_reorder he, ?_, fun i => ?_, fun i => ?_, fun i => ?_⟩
  · simp only [plrSens, h2]
  · simp only [plrSens, he, mean_reorder he]
  · simp only [plrSens, h2]; rw [hd, hm]
  · simp only [plrSens, h2]; rw [hd, hm]

theorem SensElems.Reordered.bias {σ : Equiv.Perm (Fin n)} {e e' : SensElems n} (h : e.Reordered σ e') :
    e'.maxBias = e.maxBias ∧ ∀ i, e'.psiMaxBias i = e.psiMaxBias (σ i) := by
  have h1 : e'.maxBias = e.maxBias := by
    unfold SensElems.maxBias
    rw [h.sigma2, h.nu2]
  refine ⟨h1, fun i => ?_⟩
  unfold SensElems.psiMaxBias
  rw [h1, h.sigma2, h.nu2, h.psiSigma2, h.psiNu2]

theorem validateSens_reordered {σ : Equiv.Perm (Fin n)} {e e' : Fin r → SensElems n} (h : ∀ k, (e k).Reordered σ (e' k)) (k : Fin r) :
    (validateSens e k).Reordered σ (validateSens e' k) := by
  have hiff : (∃ k, (e' k).nu2 ≤ 0) ↔ ∃ k, (e k).nu2 ≤ 0 := exists_congr fun k => by rw [(h k).nu2]
  unfold validateSens
  by_cases hn : ∃ k, (e k).nu2 ≤ 0
  · rw [if_pos hn, if_pos (hiff.2 hn)]
    refine ⟨(h k).sigma2, ?_, (h k).psiSigma2, ?_, (h k).rr⟩
    · exact mean_reorder (f := fun i => (e k).rr i ^ 2) fun i => by rw [(h k).rr]
    · intro i; dsimp only; rw [(h k).rr]
  · rw [if_neg hn, if_neg (fun q => hn (hiff.1 q))]
    exact h k

theorem cellSens_reordered {σ : Equiv.Perm (Fin n)} {e e' : Fin r → SensElems n} (h : ∀ k, (e k).Reordered σ (e' k)) :
    cellSens e' = (cellSens e).reorder σ ∧ cellBench e' = cellBench e := by
  unfold cellSens cellBench Sens.reorder
  refine ⟨?_, ?_⟩
  · congr 1
    · funext k; exact (validateSens_reordered h k).bias.1
    · funext i k; exact (validateSens_reordered h k).bias.2 i
  · congr 1
    · funext k; exact (validateSens_reordered h k).sigma2
    · funext k; exact (validateSens_reordered h k).nu2

theorem cellBlock_reordered {σ : Equiv.Perm (Fin n)} {v : ℝ} {f f' : Fin r → FitOne n} (h : ∀ k, (f k).Reordered σ (f' k)) :
    cellBlock v f' = (cellBlock v f).reorder σ := by
  have h1 : (fun k => (f' k).coef) = fun k => (f k).coef := funext fun k => (h k).coef
  have h2 : (fun k => (f' k).se) = fun k => (f k).se := funext fun k => (h k).se
  unfold cellBlock Block.reorder
  simp only [h1, h2]
  congr 1
  funext i k; exact (h k).psi i

end DML
