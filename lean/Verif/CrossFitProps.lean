import Verif.CrossFit

/-!
# Cross-fitting is honest and complete (C26), conditional subsamples (C27), external predictions (C28)
-/

namespace DML

open Finset

variable {n : ℕ} {P X : Type}

/-! ## Partitions -/

theorem isPartition_iff (smpls : List (Fold n)) :
    isPartition smpls = true ↔ (smpls.map Fold.test).flatten.Perm (List.finRange n) := by
  unfold isPartition
  simp only [Bool.and_eq_true, decide_eq_true_eq, List.all_eq_true, List.mem_finRange, forall_const]
  constructor
  · rintro ⟨hl, hm⟩
    have hs : List.Subperm (List.finRange n) (smpls.map Fold.test).flatten :=
      (List.nodup_finRange n).subperm fun i _ => hm i
    exact (hs.perm_of_length_le (by simp [hl])).symm
  · intro h
    exact ⟨by simpa using h.length_eq, fun i => h.mem_iff.2 (List.mem_finRange i)⟩

theorem fold_eq_of_mem {smpls : List (Fold n)} (hnd : (smpls.map Fold.test).flatten.Nodup) {f f' : Fold n}
    (hf : f ∈ smpls) (hf' : f' ∈ smpls) {i : Fin n} (hi : i ∈ f.test) (hi' : i ∈ f'.test) : f = f' := by
  rw [List.nodup_flatten, List.pairwise_map] at hnd
  by_contra hne
  have : Std.Symm fun f g : Fold n => List.Disjoint f.test g.test := ⟨fun _ _ h => h.symm⟩
  exact hnd.2.forall hf hf' hne hi hi'

/-! ## Scatter -/

theorem scatter_map (a : Fin n → Option ℝ) (idx : List (Fin n)) (g : Fin n → ℝ) (i : Fin n) :
    scatter a idx (idx.map g) i = if i ∈ idx then some (g i) else a i := by
  unfold scatter
  induction idx generalizing a with
  | nil => simp
  | cons j idx ih =>
    rw [List.map_cons, List.zip_cons_cons, List.foldl_cons, ih]
    by_cases h : i ∈ idx
    · simp [h]
    · by_cases hj : i = j
      · subst hj; simp [h]
      · simp [h, hj]

theorem scatter_getElem {idx : List (Fin n)} (hnd : idx.Nodup) {v : List ℝ} (hl : v.length = idx.length)
    (a : Fin n → Option ℝ) : idx.map (fun i => (scatter a idx v i).getD 0) = v := by
  obtain ⟨g, hg⟩ : ∃ g : Fin n → ℝ, v = idx.map g := by
    induction idx generalizing v with
    | nil => exact ⟨fun _ => 0, by simpa using hl⟩
    | cons j idx ih =>
      match v, hl with
      | w :: v, hl =>
        obtain ⟨g, rfl⟩ := ih hnd.of_cons (by simpa using hl)
        refine ⟨Function.update g j w, ?_⟩
        rw [List.map_cons, Function.update_self]
        congr 1
        apply List.map_congr_left
        intro i hi
        rw [Function.update_of_ne]
        rintro rfl
        exact (List.nodup_cons.1 hnd).1 hi
  subst hg
  apply List.map_congr_left
  intro i hi
  rw [scatter_map, if_pos hi, Option.getD_some]

theorem mapM_ok_map {α β : Type} {f : α → Except Exc β} {l : List α} {r : List β} (h : l.mapM f = .ok r)
    {g : α → β} (hg : ∀ a ∈ l, ∀ b, f a = .ok b → b = g a) : r = l.map g := by
  rw [mapM_ok_iff] at h
  induction h with
  | nil => rfl
  | cons ha _ ih =>
    rw [List.map_cons, hg _ (by simp) _ ha, ih fun a' ha' => hg a' (by simp [ha'])]

theorem mapM_ok_mem {α β : Type} {f : α → Except Exc β} {l : List α} {r : List β} (h : l.mapM f = .ok r) :
    ∀ a ∈ l, ∃ b, f a = .ok b := by
  rw [mapM_ok_iff] at h
  induction h with
  | nil => simp
  | cons ha _ ih =>
    intro a' ha'
    rcases List.mem_cons.1 ha' with rfl | h'
    · exact ⟨_, ha⟩
    · exact ih a' h'

/-- The value of a successful computation. -/
noncomputable def okVal (x : Except Exc ℝ) : ℝ :=
  match x with
  | .ok v => v
  | .error _ => 0

/-! ## The manual loop -/

theorem predictFold_ok {L : Learner P X} {m : Method} {x : Fin n → X} {a b : Fin n → Option ℝ}
    {fm : Fold n × FittedModel P X} (h : predictFold L m x a fm = .ok b) (i : Fin n) :
    (i ∈ fm.1.test → ∃ v, manualEval L m fm.2 (x i) = .ok v ∧ b i = some v) ∧ (i ∉ fm.1.test → b i = a i) := by
  unfold predictFold at h
  obtain ⟨vals, hv, h⟩ := bind_ok h
  have hb := Except.ok.inj h
  have hvals : vals = fm.1.test.map fun i => okVal (manualEval L m fm.2 (x i)) :=
    mapM_ok_map hv fun i _ v hi => by rw [hi]; rfl
  subst hb
  rw [hvals, scatter_map]
  refine ⟨fun hi => ?_, fun hi => if_neg hi⟩
  obtain ⟨v, hv'⟩ := mapM_ok_mem hv i hi
  refine ⟨v, hv', ?_⟩
  rw [if_pos hi, hv']
  rfl

theorem predictLoop_untouched {L : Learner P X} {m : Method} {x : Fin n → X} (fms : List (Fold n × FittedModel P X))
    {a b : Fin n → Option ℝ} (h : fms.foldlM (predictFold L m x) a = .ok b) (i : Fin n)
    (hi : ∀ fm ∈ fms, i ∉ fm.1.test) : b i = a i := by
  induction fms generalizing a with
  | nil => cases h; rfl
  | cons fm fms ih =>
    rw [List.foldlM_cons] at h
    obtain ⟨c, hc, h⟩ := bind_ok h
    rw [ih h fun fm' h' => hi fm' (by simp [h'])]
    exact (predictFold_ok hc i).2 (hi fm (by simp))

theorem predictLoop_ok {L : Learner P X} {m : Method} {x : Fin n → X} (fms : List (Fold n × FittedModel P X))
    (hd : fms.Pairwise fun f g => List.Disjoint f.1.test g.1.test) {a b : Fin n → Option ℝ}
    (h : fms.foldlM (predictFold L m x) a = .ok b) (i : Fin n) (fm : Fold n × FittedModel P X) (hfm : fm ∈ fms)
    (hi : i ∈ fm.1.test) : ∃ v, manualEval L m fm.2 (x i) = .ok v ∧ b i = some v := by
  induction fms generalizing a with
  | nil => cases hfm
  | cons g fms ih =>
    rw [List.foldlM_cons] at h
    obtain ⟨c, hc, h2⟩ := bind_ok h
    rw [List.pairwise_cons] at hd
    rcases List.mem_cons.1 hfm with rfl | hfm
    · obtain ⟨v, hv, hcv⟩ := (predictFold_ok hc i).1 hi
      refine ⟨v, hv, ?_⟩
      rw [predictLoop_untouched fms h2 i fun fm' h' => fun hi' => hd.1 fm' h' hi hi', hcv]
    · exact ih hd.2 h2 hfm

theorem predictLoop_total {L : Learner P X} {m : Method} {x : Fin n → X} (fms : List (Fold n × FittedModel P X))
    (h : ∀ fm ∈ fms, ∀ i ∈ fm.1.test, ∃ v, manualEval L m fm.2 (x i) = .ok v) (a : Fin n → Option ℝ) :
    ∃ b, fms.foldlM (predictFold L m x) a = .ok b := by
  induction fms generalizing a with
  | nil => exact ⟨a, rfl⟩
  | cons fm fms ih =>
    have h1 : fm.1.test.mapM (fun i => manualEval L m fm.2 (x i)) =
        .ok (fm.1.test.map fun i => okVal (manualEval L m fm.2 (x i))) := by
      apply mapM_ok
      intro i hi
      obtain ⟨v, hv⟩ := h fm (by simp) i hi
      rw [hv]
      rfl
    obtain ⟨b, hb⟩ := ih (fun fm' h' => h fm' (by simp [h'])) (scatter a fm.1.test (fm.1.test.map fun i => okVal (manualEval L m fm.2 (x i))))
    refine ⟨b, ?_⟩
    rw [List.foldlM_cons]
    unfold predictFold at hb ⊢
    rw [h1]
    exact hb

/-! ## The specification -/

/-- The parameters the user asked for in fold `k`. -/
def Params.at (p : Params P) (k : ℕ) : Option P :=
  match p with
  | .default => none
  | .same q => some q
  | .perFold l => l[k]?

/-- The training data of fold `k`: the rows of the training observations with their targets. -/
def Target.dataOf (y : Target n) (x : Fin n → X) (f : Fold n) (k : ℕ) : List (X × ℝ) :=
  match y with
  | .plain y => f.train.map fun i => (x i, y i)
  | .perFold ys => (f.train.map x).zip ((ys[k]?).getD [])

theorem zip_map_id {α β : Type} (l : List α) (f : α → X) (v : List β) (h : v.length = l.length) (g : α → β)
    (hg : l.map g = v) : (l.map fun i => (f i, g i)) = (l.map f).zip v := by
  subst hg
  rw [List.zip_map']

theorem foldParams_ok {ps : Params P} {k : ℕ} {l : List (Option P)} (h : foldParams ps k = .ok l) :
    l.length = k ∧ ∀ j (hj : j < l.length), l[j] = ps.at j := by
  cases ps with
  | default => cases h; simp [Params.at]
  | same p => cases h; simp [Params.at]
  | perFold q =>
    simp only [foldParams] at h
    by_cases hq : q.length = k
    · rw [if_neg (not_not.2 hq)] at h
      cases h
      refine ⟨by simpa using hq, ?_⟩
      intro j hj
      rw [List.length_map] at hj
      simp [Params.at, hj]
    · rw [if_pos hq] at h
      cases h

theorem forall₂_getElem {α β : Type} {R : α → β → Prop} {l : List α} {r : List β} (h : List.Forall₂ R l r) :
    l.length = r.length ∧ ∀ j (hj : j < l.length) (hj' : j < r.length), R l[j] r[j] := by
  induction h with
  | nil => simp
  | cons hr _ ih =>
    refine ⟨by simp [ih.1], ?_⟩
    intro j hj hj'
    cases j with
    | zero => exact hr
    | succ j => exact ih.2 j (by simpa using hj) (by simpa using hj')

theorem foldData_ok {x : Fin n → X} {y : Target n} {smpls : List (Fold n)} {l : List (List (X × ℝ))}
    (h : foldData x y .predict smpls = .ok l) (hnd : ∀ f ∈ smpls, f.train.Nodup) :
    l.length = smpls.length ∧ ∀ j (hj : j < smpls.length) (hj' : j < l.length), l[j] = y.dataOf x smpls[j] j := by
  cases y with
  | plain y => cases h; simp [Target.dataOf, trainData, fitTarget]
  | perFold ys =>
    unfold foldData at h
    dsimp only at h
    rw [mapM_ok_iff] at h
    obtain ⟨hl, hall⟩ := forall₂_getElem h
    rw [List.length_zipIdx] at hl
    refine ⟨hl.symm, ?_⟩
    intro j hj hj'
    have hj2 := hall j (by simpa using hj) hj'
    rw [List.getElem_zipIdx] at hj2
    simp only [Nat.zero_add] at hj2
    unfold perFoldData at hj2
    unfold Target.dataOf
    dsimp only
    cases hys : ys[j]? with
    | none => rw [hys] at hj2; cases hj2
    | some v =>
      rw [hys] at hj2
      dsimp only at hj2
      by_cases hlen : v.length = smpls[j].train.length
      · rw [if_neg (not_not.2 hlen)] at hj2
        rw [← Except.ok.inj hj2, Option.getD_some]
        exact zip_map_id _ _ _ hlen _ (scatter_getElem (hnd _ (List.getElem_mem hj)) hlen _)
      · rw [if_pos hlen] at hj2
        cases hj2

/-! ## The redirected branch -/

theorem exists_common {smpls : List (Fold n)} (hnd : (smpls.map Fold.test).flatten.Nodup) (F : Fold n → Fin n → ℝ) :
    ∃ G : Fin n → ℝ, ∀ f ∈ smpls, ∀ i ∈ f.test, F f i = G i := by
  classical
  refine ⟨fun i => if h : ∃ f ∈ smpls, i ∈ f.test then F h.choose i else 0, ?_⟩
  intro f hf i hi
  have h : ∃ f ∈ smpls, i ∈ f.test := ⟨f, hf, hi⟩
  dsimp only
  rw [dif_pos h, fold_eq_of_mem hnd hf h.choose_spec.1 hi h.choose_spec.2]

theorem autoPredict_ok {L : Learner P X} {x : Fin n → X} {y : Fin n → ℝ} {smpls : List (Fold n)} {p : Option P}
    {m : Method} {r : CvRes n P X} (hp : isPartition smpls = true) (h : autoPredict L x y smpls p m = .ok r)
    {f : Fold n} (hf : f ∈ smpls) {i : Fin n} (hi : i ∈ f.test) :
    ∃ v, autoEval L m (univ.image y).card p (trainData x (fitTarget m y) f.train) (x i) = .ok v ∧
      r.preds i = some v := by
  have hperm := (isPartition_iff smpls).1 hp
  have hnd : (smpls.map Fold.test).flatten.Nodup := hperm.nodup_iff.2 (List.nodup_finRange n)
  unfold autoPredict at h
  obtain ⟨parts, hparts, h⟩ := bind_ok h
  have hr := Except.ok.inj h
  let F : Fold n → Fin n → Except Exc ℝ := fun f i =>
    autoEval L m (univ.image y).card p (trainData x (fitTarget m y) f.train) (x i)
  obtain ⟨G, hG⟩ := exists_common hnd fun f i => okVal (F f i)
  have h1 : parts = smpls.map fun f => f.test.map G := by
    refine mapM_ok_map hparts ?_
    intro f hf vs hvs
    refine mapM_ok_map hvs ?_
    intro i hi v hv
    rw [← hG f hf i hi]
    show v = okVal (autoEval L m (univ.image y).card p (trainData x (fitTarget m y) f.train) (x i))
    rw [hv]
    rfl
  have h2 : parts.flatten = (smpls.map Fold.test).flatten.map G := by
    rw [h1, List.map_flatten, List.map_map]
    rfl
  obtain ⟨vs, hvs⟩ := mapM_ok_mem hparts f hf
  obtain ⟨v, hv⟩ := mapM_ok_mem hvs i hi
  refine ⟨v, hv, ?_⟩
  rw [← hr]
  dsimp only
  have hmem : i ∈ (smpls.map Fold.test).flatten := List.mem_flatten.2 ⟨f.test, List.mem_map.2 ⟨f, hf, rfl⟩, hi⟩
  rw [h2, List.getElem?_map, List.getElem?_idxOf hmem, Option.map_some, ← hG f hf i hi]
  show some (okVal (autoEval L m (univ.image y).card p (trainData x (fitTarget m y) f.train) (x i))) = _
  rw [hv]
  rfl

theorem autoPredict_total {L : Learner P X} {x : Fin n → X} {y : Fin n → ℝ} {smpls : List (Fold n)} {p : Option P}
    {m : Method} (h : ∀ f ∈ smpls, ∀ i ∈ f.test,
      ∃ v, autoEval L m (univ.image y).card p (trainData x (fitTarget m y) f.train) (x i) = .ok v) :
    ∃ r, autoPredict L x y smpls p m = .ok r := by
  unfold autoPredict
  rw [mapM_ok _ (fun f => f.test.map fun i =>
    okVal (autoEval L m (univ.image y).card p (trainData x (fitTarget m y) f.train) (x i)))]
  · exact ⟨_, rfl⟩
  · intro f hf
    apply mapM_ok
    intro i hi
    obtain ⟨v, hv⟩ := h f hf i hi
    rw [hv]
    rfl

/-! ## The manual branch -/

theorem pairwise_zip_left {α β : Type} {R : α → α → Prop} (l : List α) (m : List β) (h : l.Pairwise R) :
    (l.zip m).Pairwise fun p q => R p.1 q.1 := by
  induction l generalizing m with
  | nil => simp
  | cons a l ih =>
    cases m with
    | nil => simp
    | cons b m =>
      rw [List.zip_cons_cons, List.pairwise_cons]
      rw [List.pairwise_cons] at h
      exact ⟨fun p hp => h.1 _ (List.of_mem_zip hp).1, ih m h.2⟩

theorem manualPredict_unfold {L : Learner P X} {a : CvArgs n P X} {r : CvRes n P X} (h : manualPredict L a = .ok r) :
    ∃ data ps preds, foldData a.x a.y a.method a.smpls = .ok data ∧ foldParams a.params a.smpls.length = .ok ps ∧
      (a.smpls.zip ((ps.zip data).map fun pd => (⟨pd.1, pd.2⟩ : FittedModel P X))).foldlM
        (predictFold L a.method a.x) (fun _ => none) = .ok preds ∧
      r.preds = preds ∧ r.targets = manualTargets a.y a.method a.smpls ∧
      r.models = (if a.returnModels then some ((ps.zip data).map fun pd => (⟨pd.1, pd.2⟩ : FittedModel P X)) else none) ∧
      r.trainPreds = (if a.returnTrain then
        some ((a.smpls.zip ((ps.zip data).map fun pd => (⟨pd.1, pd.2⟩ : FittedModel P X))).map fun fm =>
          fm.1.train.map fun i => L.predict fm.2.params fm.2.data (a.x i)) else none) := by
  unfold manualPredict at h
  split at h
  · cases h
  split at h
  · cases h
  obtain ⟨data, hd, h⟩ := bind_ok h
  obtain ⟨ps, hps, h⟩ := bind_ok h
  obtain ⟨preds, hpr, h⟩ := bind_ok h
  have hr := Except.ok.inj h
  exact ⟨data, ps, preds, hd, hps, hpr, by rw [← hr], by rw [← hr], by rw [← hr], by rw [← hr]⟩

theorem manual_value {L : Learner P X} {a : CvArgs n P X} {preds : Fin n → Option ℝ} {data : List (List (X × ℝ))}
    {ps : List (Option P)} (hp : isPartition a.smpls = true) (hdl : data.length = a.smpls.length)
    (hpl : ps.length = a.smpls.length)
    (h : (a.smpls.zip ((ps.zip data).map fun pd => (⟨pd.1, pd.2⟩ : FittedModel P X))).foldlM
        (predictFold L a.method a.x) (fun _ => none) = .ok preds) (k : ℕ) (hk : k < a.smpls.length) (i : Fin n)
    (hi : i ∈ a.smpls[k].test) :
    ∃ v, manualEval L a.method ⟨ps[k], data[k]⟩ (a.x i) = .ok v ∧ preds i = some v := by
  have hnd : (a.smpls.map Fold.test).flatten.Nodup :=
    ((isPartition_iff _).1 hp).nodup_iff.2 (List.nodup_finRange n)
  rw [List.nodup_flatten, List.pairwise_map] at hnd
  refine predictLoop_ok _ (pairwise_zip_left _ _ hnd.2) h i (a.smpls[k], ⟨ps[k], data[k]⟩) ?_ hi
  rw [List.mem_iff_getElem]
  refine ⟨k, by simp [hdl, hpl, hk], ?_⟩
  simp

/-! ## C26 -/

/-- **C26.** With a valid partition every observation is in the test set of exactly one fold. -/
theorem C26_complete {smpls : List (Fold n)} (hp : isPartition smpls = true) (i : Fin n) :
    ∃! k : Fin smpls.length, i ∈ smpls[k].test := by
  have hperm := (isPartition_iff smpls).1 hp
  have hnd : (smpls.map Fold.test).flatten.Nodup := hperm.nodup_iff.2 (List.nodup_finRange n)
  obtain ⟨t, ht, hi⟩ := List.mem_flatten.1 (hperm.mem_iff.2 (List.mem_finRange i))
  obtain ⟨f, hf, rfl⟩ := List.mem_map.1 ht
  obtain ⟨k, hk, rfl⟩ := List.mem_iff_getElem.1 hf
  refine ⟨⟨k, hk⟩, hi, ?_⟩
  intro k' hk'
  rw [List.nodup_flatten, List.pairwise_map, List.pairwise_iff_getElem] at hnd
  by_contra hne
  have hv : k'.val ≠ k := fun h => hne (Fin.ext h)
  rcases Nat.lt_or_gt_of_ne hv with h | h
  · exact hnd.2 k'.val k k'.isLt hk h hk' hi
  · exact hnd.2 k k'.val hk k'.isLt h hi hk'

/-- **C26.** Whatever branch is taken (plain, fold-specific parameters, fold-specific targets, stored models,
training predictions): the prediction of an observation in the test set of fold `k` is the one of the learner
with the parameters of fold `k`, trained on exactly the training observations of fold `k`. -/
theorem C26_prediction_rule {L : Learner P X} {a : CvArgs n P X} {r : CvRes n P X} (hm : a.method = .predict)
    (hp : isPartition a.smpls = true) (hnd : ∀ f ∈ a.smpls, f.train.Nodup) (h : cvPredict L a = .ok r)
    (k : ℕ) (hk : k < a.smpls.length) (i : Fin n) (hi : i ∈ a.smpls[k].test) :
    r.preds i = some (L.predict (a.params.at k) (a.y.dataOf a.x a.smpls[k] k) (a.x i)) := by
  rcases a with ⟨x, y, smpls, params, method, rt, rm⟩
  subst hm
  unfold cvPredict at h
  split at h
  · obtain ⟨data, ps, preds, hd, hps, hpr, h1, -, -, -⟩ := manualPredict_unfold h
    obtain ⟨hdl, hdv⟩ := foldData_ok hd hnd
    obtain ⟨hpl, hpv⟩ := foldParams_ok hps
    obtain ⟨v, hv, hpi⟩ := manual_value hp hdl hpl hpr k hk i hi
    rw [h1, hpi, ← Except.ok.inj hv]
    dsimp only
    rw [hpv, hdv k hk]
  · have key : ∀ (y : Fin n → ℝ) (p : Option P), autoPredict L x y smpls p .predict = .ok r →
        r.preds i = some (L.predict p (smpls[k].train.map fun j => (x j, y j)) (x i)) := by
      intro y p hy
      obtain ⟨v, hv, hri⟩ := autoPredict_ok hp hy (List.getElem_mem hk) hi
      rw [hri, ← Except.ok.inj hv]
      rfl
    cases y with
    | plain y =>
      cases params with
      | default => exact key y none h
      | same p => exact key y (some p) h
      | perFold l => cases h
    | perFold ys => cases params <;> cases h

/-- **C26.** Honesty: the prediction for an observation of fold `k` is unchanged when covariates and targets
of observations outside the training set of fold `k` change (its own covariates aside), even if the second
call takes the other code path. -/
theorem C26_honest {L : Learner P X} {a a' : CvArgs n P X} {r r' : CvRes n P X} (hm : a.method = .predict)
    (hm' : a'.method = .predict) (hp : isPartition a.smpls = true) (hs : a'.smpls = a.smpls)
    (hpar : a'.params = a.params) {y y' : Fin n → ℝ} (hy : a.y = .plain y) (hy' : a'.y = .plain y')
    (h : cvPredict L a = .ok r) (h' : cvPredict L a' = .ok r') (hnd : ∀ f ∈ a.smpls, f.train.Nodup)
    (k : ℕ) (hk : k < a.smpls.length) (i : Fin n) (hi : i ∈ a.smpls[k].test)
    (htrain : ∀ j ∈ a.smpls[k].train, a.x j = a'.x j ∧ y j = y' j) (hxi : a.x i = a'.x i) :
    r.preds i = r'.preds i := by
  rw [C26_prediction_rule hm hp hnd h k hk i hi]
  rcases a' with ⟨x', y0', smpls', params', m', rt', rm'⟩
  subst hs hpar hy' hm'
  rw [C26_prediction_rule (a := ⟨x', .plain y', a.smpls, a.params, .predict, rt', rm'⟩) rfl hp hnd h' k hk i hi]
  simp only [hy, Target.dataOf]
  dsimp only at hxi htrain
  rw [hxi]
  congr 2
  apply List.map_congr_left
  intro j hj
  rw [(htrain j hj).1, (htrain j hj).2]

theorem manualTargets_plain {smpls : List (Fold n)} (hp : isPartition smpls = true) (y : Fin n → ℝ) (m : Method) :
    manualTargets (.plain y) m smpls = some fun i => some (fitTarget m y i) := by
  unfold manualTargets
  dsimp only
  congr 1
  have key : ∀ (l : List (Fold n)) (a : Fin n → Option ℝ) (i : Fin n),
      l.foldl (fun a f => scatter a f.test (f.test.map (fitTarget m y))) a i =
        if ∃ f ∈ l, i ∈ f.test then some (fitTarget m y i) else a i := by
    intro l
    induction l with
    | nil => simp
    | cons f l ih =>
      intro a i
      rw [List.foldl_cons, ih, scatter_map]
      by_cases h1 : ∃ g ∈ l, i ∈ g.test
      · rw [if_pos h1, if_pos]
        obtain ⟨g, hg, hi⟩ := h1
        exact ⟨g, by simp [hg], hi⟩
      · rw [if_neg h1]
        by_cases h2 : i ∈ f.test
        · rw [if_pos h2, if_pos ⟨f, by simp, h2⟩]
        · rw [if_neg h2, if_neg]
          rintro ⟨g, hg, hi⟩
          rcases List.mem_cons.1 hg with rfl | hg
          · exact h2 hi
          · exact h1 ⟨g, hg, hi⟩
  funext i
  rw [key, if_pos]
  obtain ⟨k, hk, -⟩ := C26_complete hp i
  exact ⟨_, List.getElem_mem k.isLt, hk⟩

theorem cvPredict_auto {L : Learner P X} {x : Fin n → X} {y : Fin n → ℝ} {smpls : List (Fold n)} {ps : Params P}
    (hps : ps.isPerFold = false) (hp : isPartition smpls = true) (m : Method) :
    cvPredict L ⟨x, .plain y, smpls, ps, m, false, false⟩ = autoPredict L x y smpls (ps.at 0) m := by
  unfold cvPredict
  rw [if_neg (by simp [CvArgs.manual, hp, hps, Target.isPerFold])]
  cases ps with
  | default => rfl
  | same p => rfl
  | perFold l => cases hps

theorem cvPredict_manual {L : Learner P X} {a : CvArgs n P X} (h : (a.returnTrain || a.returnModels) = true) :
    cvPredict L a = manualPredict L a := by
  unfold cvPredict
  rw [if_pos]
  unfold CvArgs.manual
  cases h1 : a.returnTrain
  · rw [h1] at h
    have h2 : a.returnModels = true := by simpa using h
    simp [h2]
  · simp

theorem manualPredict_total {L : Learner P X} {x : Fin n → X} {y : Fin n → ℝ} {smpls : List (Fold n)} {ps : Params P}
    (hps : ps.isPerFold = false) (hp : isPartition smpls = true) (m : Method) (rt rm : Bool)
    (h : ∀ f ∈ smpls, ∀ i ∈ f.test,
      ∃ v, manualEval L m ⟨ps.at 0, trainData x (fitTarget m y) f.train⟩ (x i) = .ok v) :
    ∃ r, manualPredict L ⟨x, .plain y, smpls, ps, m, rt, rm⟩ = .ok r := by
  obtain ⟨l, hl⟩ : ∃ l, foldParams ps smpls.length = .ok l := by
    cases ps with
    | default => exact ⟨_, rfl⟩
    | same p => exact ⟨_, rfl⟩
    | perFold l => cases hps
  obtain ⟨hll, hlv⟩ := foldParams_ok hl
  have h0 : ∀ j, ps.at j = ps.at 0 := by
    intro j
    cases ps with
    | default => rfl
    | same p => rfl
    | perFold l => cases hps
  obtain ⟨b, hb⟩ := predictLoop_total (L := L) (m := m) (x := x)
    (smpls.zip ((l.zip (smpls.map fun f => trainData x (fitTarget m y) f.train)).map fun pd =>
      (⟨pd.1, pd.2⟩ : FittedModel P X))) (by
      intro fm hfm i hi
      obtain ⟨k, hk, hk'⟩ := List.mem_iff_getElem.1 hfm
      rw [List.length_zip] at hk
      have hk1 : k < smpls.length := lt_of_lt_of_le hk (min_le_left _ _)
      have hfm1 : fm = (smpls[k], ⟨ps.at 0, trainData x (fitTarget m y) smpls[k].train⟩) := by
        rw [← hk']
        simp [hlv, h0]
      subst hfm1
      exact h _ (List.getElem_mem hk1) i hi) (fun _ => none)
  unfold manualPredict
  simp only [hp, Target.isPerFold, Bool.not_true, Bool.false_and, Bool.and_false, Bool.false_eq_true, if_false, foldData, hl]
  simp only [bind, Except.bind] at hb ⊢
  rw [hb]
  exact ⟨_, rfl⟩

/-- **C26.** For `predict` the redirected and the manual branch return the same predictions and targets, and
neither raises: storing models or training predictions does not change an estimate. -/
theorem C26_paths_agree (L : Learner P X) (x : Fin n → X) (y : Fin n → ℝ) {smpls : List (Fold n)} {ps : Params P}
    (hps : ps.isPerFold = false) (hp : isPartition smpls = true) (hnd : ∀ f ∈ smpls, f.train.Nodup) (rt rm : Bool) :
    ∃ r r', cvPredict L ⟨x, .plain y, smpls, ps, .predict, false, false⟩ = .ok r ∧
      cvPredict L ⟨x, .plain y, smpls, ps, .predict, rt, rm⟩ = .ok r' ∧
      r.preds = r'.preds ∧ r.targets = r'.targets := by
  obtain ⟨r, hr⟩ : ∃ r, cvPredict L ⟨x, .plain y, smpls, ps, .predict, false, false⟩ = .ok r := by
    rw [cvPredict_auto hps hp]
    exact autoPredict_total fun f _ i _ => ⟨_, rfl⟩
  by_cases hrr : (rt || rm) = true
  · obtain ⟨r', hr'⟩ : ∃ r', cvPredict L ⟨x, .plain y, smpls, ps, .predict, rt, rm⟩ = .ok r' := by
      rw [cvPredict_manual hrr]
      exact manualPredict_total hps hp .predict rt rm fun f _ i _ => ⟨_, rfl⟩
    refine ⟨r, r', hr, hr', ?_, ?_⟩
    · funext i
      obtain ⟨k, hk, -⟩ := C26_complete hp i
      rw [C26_prediction_rule rfl hp hnd hr k.val k.isLt i hk, C26_prediction_rule rfl hp hnd hr' k.val k.isLt i hk]
    · rw [cvPredict_manual hrr] at hr'
      obtain ⟨_, _, _, _, _, _, _, ht, _, _⟩ := manualPredict_unfold hr'
      rw [ht, manualTargets_plain hp]
      rw [cvPredict_auto hps hp] at hr
      unfold autoPredict at hr
      obtain ⟨_, _, hr⟩ := bind_ok hr
      rw [← Except.ok.inj hr]
      rfl
  · have h1 : rt = false ∧ rm = false := by simpa using hrr
    obtain ⟨rfl, rfl⟩ := h1
    exact ⟨r, r, hr, hr, rfl, rfl⟩

/-! ### Classifiers -/

/-- A target with values 0 and 1, both of which occur. -/
structure BinaryTarget (y : Fin n → ℝ) : Prop where
  values : ∀ i, y i = 0 ∨ y i = 1
  zero : ∃ i, y i = 0
  one : ∃ i, y i = 1

/-- Both classes occur in the training set. -/
def BothClasses (y : Fin n → ℝ) (f : Fold n) : Prop := (∃ i ∈ f.train, y i = 0) ∧ ∃ i ∈ f.train, y i = 1

theorem BinaryTarget.image {y : Fin n → ℝ} (h : BinaryTarget y) : univ.image y = {0, 1} := by
  ext v
  simp only [Finset.mem_image, Finset.mem_univ, true_and, Finset.mem_insert, Finset.mem_singleton]
  constructor
  · rintro ⟨i, rfl⟩; exact h.values i
  · rintro (rfl | rfl)
    · exact h.zero
    · exact h.one

theorem BinaryTarget.encode {y : Fin n → ℝ} (h : BinaryTarget y) : encode y = y := by
  funext i
  unfold DML.encode
  rw [h.image]
  rcases h.values i with hi | hi
  · rw [hi, Finset.filter_false_of_mem]
    · simp
    · intro v hv
      simp only [Finset.mem_insert, Finset.mem_singleton] at hv
      rcases hv with rfl | rfl <;> norm_num
  · rw [hi]
    have : (({0, 1} : Finset ℝ).filter fun v => v < 1) = {0} := by
      ext v
      simp only [Finset.mem_filter, Finset.mem_insert, Finset.mem_singleton]
      constructor
      · rintro ⟨rfl | rfl, h2⟩
        · rfl
        · norm_num at h2
      · rintro rfl; norm_num
    rw [this]
    simp

theorem BinaryTarget.card {y : Fin n → ℝ} (h : BinaryTarget y) : (univ.image y).card = 2 := by
  rw [h.image]
  exact Finset.card_pair (by norm_num)

theorem classesOf_both {x : Fin n → X} {y : Fin n → ℝ} (h : BinaryTarget y) {f : Fold n} (hb : BothClasses y f) :
    (classesOf (trainData x y f.train)).length = 2 := by
  unfold classesOf trainData
  rw [Finset.length_sort, List.map_map]
  have : (f.train.map (Prod.snd ∘ fun i => (x i, y i))).toFinset = {0, 1} := by
    ext v
    simp only [List.mem_toFinset, List.mem_map, Function.comp, Finset.mem_insert, Finset.mem_singleton]
    constructor
    · rintro ⟨i, -, rfl⟩; exact h.values i
    · rintro (rfl | rfl)
      · exact hb.1
      · exact hb.2
  rw [this]
  exact Finset.card_pair (by norm_num)

theorem autoEval_proba {L : Learner P X} (hL : L.Compliant) {x : Fin n → X} {y : Fin n → ℝ} (h : BinaryTarget y)
    {f : Fold n} (hb : BothClasses y f) (p : Option P) (z : X) :
    ∃ v, (L.proba p (trainData x y f.train) z)[1]? = some v ∧
      autoEval L .proba (univ.image y).card p (trainData x (fitTarget .proba y) f.train) z = .ok v ∧
      manualEval L .proba ⟨p, trainData x (fitTarget .proba y) f.train⟩ z = .ok v := by
  have hlen : (L.proba p (trainData x y f.train) z).length = 2 := by rw [hL, classesOf_both h hb]
  obtain ⟨v, hv⟩ : ∃ v, (L.proba p (trainData x y f.train) z)[1]? = some v :=
    ⟨_, List.getElem?_eq_getElem (by omega)⟩
  refine ⟨v, hv, ?_, ?_⟩
  · simp only [autoEval, fitTarget, h.encode, autoColumn, h.card, classesOf_both h hb, if_true, hv]
  · simp only [manualEval, fitTarget, h.encode, manualColumn, hv]

/-- **C26.** Classifiers: if the training set of the fold contains both classes, the prediction is the
probability of class 1 of the classifier trained on exactly this training set, in every branch. -/
theorem C26_prediction_rule_proba {L : Learner P X} (hL : L.Compliant) {a : CvArgs n P X} {r : CvRes n P X}
    (hm : a.method = .proba) {y : Fin n → ℝ} (hy : a.y = .plain y) (hbin : BinaryTarget y)
    (hp : isPartition a.smpls = true) (h : cvPredict L a = .ok r) (k : ℕ) (hk : k < a.smpls.length) (i : Fin n)
    (hi : i ∈ a.smpls[k].test) (hb : BothClasses y a.smpls[k]) :
    (r.preds i).isSome ∧
    r.preds i = (L.proba (a.params.at k) (a.smpls[k].train.map fun j => (a.x j, y j)) (a.x i))[1]? := by
  rcases a with ⟨x, y0, smpls, params, method, rt, rm⟩
  subst hm hy
  unfold cvPredict at h
  dsimp only at *
  obtain ⟨v, hv, hav, hmv⟩ := autoEval_proba hL (x := x) hbin hb (params.at k) (x i)
  suffices hs : r.preds i = some v by
    rw [hs]
    exact ⟨rfl, hv.symm⟩
  split at h
  · obtain ⟨data, ps, preds, hd, hps, hpr, h1, -, -, -⟩ := manualPredict_unfold h
    obtain ⟨hpl, hpv⟩ := foldParams_ok hps
    have hdd := Except.ok.inj hd
    dsimp only at hdd
    have hdl : data.length = smpls.length := by rw [← hdd, List.length_map]
    obtain ⟨w, hw, hpi⟩ := manual_value hp hdl hpl hpr k hk i hi
    dsimp only at hw
    have hdk : data[k]'(by rw [hdl]; exact hk) = trainData x (fitTarget .proba y) smpls[k].train := by
      subst hdd
      rw [List.getElem_map]
    rw [hpv, hdk, hmv] at hw
    rw [h1, hpi, Except.ok.inj hw]
  · have key : ∀ p : Option P, params.at k = p → autoPredict L x y smpls p .proba = .ok r → r.preds i = some v := by
      intro p hpp hy
      obtain ⟨w, hw, hri⟩ := autoPredict_ok hp hy (List.getElem_mem hk) hi
      rw [← hpp, hav] at hw
      rw [hri, Except.ok.inj hw]
    cases params with
    | default => exact key none rfl h
    | same p => exact key (some p) rfl h
    | perFold l => cases h

/-- **C26.** Classifiers: both branches succeed and return the same predictions and targets if every training
set contains both classes. -/
theorem C26_paths_agree_proba_partial {L : Learner P X} (hL : L.Compliant) (x : Fin n → X) {y : Fin n → ℝ}
    (hbin : BinaryTarget y) {smpls : List (Fold n)} {ps : Params P}
    (hps : ps.isPerFold = false) (hp : isPartition smpls = true) (hb : ∀ f ∈ smpls, BothClasses y f) (rt rm : Bool) :
    ∃ r r', cvPredict L ⟨x, .plain y, smpls, ps, .proba, false, false⟩ = .ok r ∧
      cvPredict L ⟨x, .plain y, smpls, ps, .proba, rt, rm⟩ = .ok r' ∧
      r.preds = r'.preds ∧ r.targets = r'.targets := by
  obtain ⟨r, hr⟩ : ∃ r, cvPredict L ⟨x, .plain y, smpls, ps, .proba, false, false⟩ = .ok r := by
    rw [cvPredict_auto hps hp]
    exact autoPredict_total fun f hf i _ => by
      obtain ⟨v, -, hv, -⟩ := autoEval_proba hL (x := x) hbin (hb f hf) (ps.at 0) (x i)
      exact ⟨v, hv⟩
  by_cases hrr : (rt || rm) = true
  · obtain ⟨r', hr'⟩ : ∃ r', cvPredict L ⟨x, .plain y, smpls, ps, .proba, rt, rm⟩ = .ok r' := by
      rw [cvPredict_manual hrr]
      exact manualPredict_total hps hp .proba rt rm fun f hf i _ => by
        obtain ⟨v, -, -, hv⟩ := autoEval_proba hL (x := x) hbin (hb f hf) (ps.at 0) (x i)
        exact ⟨v, hv⟩
    refine ⟨r, r', hr, hr', ?_, ?_⟩
    · funext i
      obtain ⟨k, hk, -⟩ := C26_complete hp i
      rw [(C26_prediction_rule_proba hL rfl rfl hbin hp hr k.val k.isLt i hk (hb _ (List.getElem_mem k.isLt))).2,
        (C26_prediction_rule_proba hL rfl rfl hbin hp hr' k.val k.isLt i hk (hb _ (List.getElem_mem k.isLt))).2]
    · rw [cvPredict_manual hrr] at hr'
      obtain ⟨_, _, _, _, _, _, _, ht, _, _⟩ := manualPredict_unfold hr'
      rw [ht, manualTargets_plain hp]
      rw [cvPredict_auto hps hp] at hr
      unfold autoPredict at hr
      obtain ⟨_, _, hr⟩ := bind_ok hr
      rw [← Except.ok.inj hr]
      simp only [fitTarget, hbin.encode]
  · have h1 : rt = false ∧ rm = false := by simpa using hrr
    obtain ⟨rfl, rfl⟩ := h1
    exact ⟨r, r, hr, hr, rfl, rfl⟩

/-- A classifier that predicts the same probability for every class it has seen. -/
noncomputable def uniformClassifier : Learner Unit Unit where
  predict := fun _ _ _ => 0
  proba := fun _ D _ => (classesOf D).map fun _ => 1 / ((classesOf D).length : ℝ)

theorem uniformClassifier_compliant : uniformClassifier.Compliant := fun _ _ _ => by
  simp [uniformClassifier]

/-- Two observations, one per class, two folds. -/
def twoFolds : List (Fold 2) := [⟨[0], [1]⟩, ⟨[1], [0]⟩]

theorem classesOf_singleton {X : Type} (x : X) (v : ℝ) : classesOf [(x, v)] = [v] := by
  simp [classesOf]

theorem binaryTarget_two : BinaryTarget (fun i : Fin 2 => (i.val : ℝ)) := by
  refine ⟨?_, ⟨0, by simp⟩, ⟨1, by simp⟩⟩
  intro i
  match i with
  | 0 => simp
  | 1 => simp

/-- **C26 is violated** for classifiers when a training set contains a single class: the redirected branch
fills the missing column with zeros, the manual branch (stored models, fold-specific parameters) raises an
`IndexError`, so that the same model fits without and fails with `store_models=True`. -/
theorem C26_violated : ∃ (L : Learner Unit Unit) (y : Fin 2 → ℝ), L.Compliant ∧ BinaryTarget y ∧
    isPartition twoFolds = true ∧
    (∃ r, cvPredict L ⟨fun _ => (), .plain y, twoFolds, .default, .proba, false, false⟩ = .ok r) ∧
    cvPredict L ⟨fun _ => (), .plain y, twoFolds, .default, .proba, false, true⟩ = .error .indexError := by
  have hp : isPartition twoFolds = true := by decide
  refine ⟨uniformClassifier, fun i => (i.val : ℝ), uniformClassifier_compliant, binaryTarget_two, hp, ?_, ?_⟩
  · rw [cvPredict_auto rfl hp]
    apply autoPredict_total
    intro f hf i hi
    simp only [autoEval, fitTarget, binaryTarget_two.encode, autoColumn, binaryTarget_two.card, uniformClassifier]
    have h1 : ∃ v : ℝ, classesOf (trainData (fun _ => ()) (fun i : Fin 2 => (i.val : ℝ)) f.train) = [v] := by
      simp only [twoFolds, List.mem_cons, List.not_mem_nil, or_false] at hf
      rcases hf with rfl | rfl <;> exact ⟨_, classesOf_singleton _ _⟩
    obtain ⟨v, hv⟩ := h1
    rw [hv]
    simp only [List.length_singleton, List.map_cons, List.map_nil, List.mem_singleton]
    rw [if_neg (by norm_num)]
    by_cases h : (1 : ℝ) = v
    · rw [if_pos h, ← h]
      exact ⟨1 / ((1 : ℕ) : ℝ), by simp⟩
    · rw [if_neg h]
      exact ⟨0, rfl⟩
  · rw [cvPredict_manual rfl]
    unfold manualPredict
    rw [if_neg (by simp [hp]), if_neg (by simp [Target.isPerFold])]
    simp only [foldData, foldParams, twoFolds, List.map_cons, List.map_nil, List.length_cons, List.length_nil,
      List.replicate, fitTarget, binaryTarget_two.encode, bind, Except.bind, List.zip_cons_cons, List.zip_nil_right,
      List.foldlM_cons, predictFold, List.mapM_cons, manualEval, trainData, uniformClassifier, classesOf_singleton,
      manualColumn]
    simp

/-- Non-vacuity of C26: a partition with nodup training sets and a learner that depends on its training data. -/
example : isPartition twoFolds = true ∧ (∀ f ∈ twoFolds, f.train.Nodup) ∧
    ∃ r, cvPredict (P := Unit) (X := ℝ) ⟨fun _ D _ => (D.map Prod.snd).sum, fun _ _ _ => []⟩
      ⟨fun _ => 0, .plain fun i => i.val, twoFolds, .default, .predict, false, false⟩ = .ok r ∧
      r.preds 0 = some 1 := by
  have hp : isPartition twoFolds = true := by decide
  have hnd : ∀ f ∈ twoFolds, f.train.Nodup := by simp [twoFolds]
  obtain ⟨r, _, h, -⟩ := C26_paths_agree (P := Unit) ⟨fun _ D _ => (D.map Prod.snd).sum, fun _ _ _ => []⟩
    (fun _ : Fin 2 => (0 : ℝ)) (fun i => i.val) (ps := .default) rfl hp hnd false false
  refine ⟨hp, hnd, r, h, ?_⟩
  rw [C26_prediction_rule rfl hp hnd h 1 (by simp [twoFolds]) 0 (by simp [twoFolds])]
  simp [Target.dataOf, twoFolds]

/-- **C26.** The stored models are the ones that made the predictions, one per fold in fold order. -/
theorem C26_stored_models {L : Learner P X} {a : CvArgs n P X} {r : CvRes n P X} (hm : a.method = .predict)
    (hnd : ∀ f ∈ a.smpls, f.train.Nodup) (hrm : a.returnModels = true)
    (h : cvPredict L a = .ok r) :
    ∃ ms, r.models = some ms ∧ ms.length = a.smpls.length ∧
      ∀ k (hk : k < a.smpls.length) (hk' : k < ms.length),
        ms[k] = ⟨a.params.at k, a.y.dataOf a.x a.smpls[k] k⟩ := by
  rw [cvPredict_manual (by simp [hrm])] at h
  obtain ⟨data, ps, preds, hd, hps, hpr, -, -, hmod, -⟩ := manualPredict_unfold h
  rw [hm] at hd
  obtain ⟨hdl, hdv⟩ := foldData_ok hd hnd
  obtain ⟨hpl, hpv⟩ := foldParams_ok hps
  rw [if_pos hrm] at hmod
  refine ⟨_, hmod, by simp [hdl, hpl], ?_⟩
  intro k hk hk'
  simp [hpv, hdv k hk]

/-! ## C27 -/

theorem mem_intersect1d (a b : List (Fin n)) (i : Fin n) : i ∈ intersect1d a b ↔ i ∈ a ∧ i ∈ b := by
  simp [intersect1d]

theorem mem_whereIdx (mask : Fin n → Prop) [DecidablePred mask] (i : Fin n) : i ∈ whereIdx mask ↔ mask i := by
  simp [whereIdx]

/-- **C27.** The conditional samples have the same folds with the same test sets, and the training set of
fold `k` consists of exactly the training observations of fold `k` that satisfy the condition. -/
theorem C27_training_sets (mask : Fin n → Prop) [DecidablePred mask] (smpls : List (Fold n)) :
    (condSmpls mask smpls).length = smpls.length ∧
    ∀ k (hk : k < smpls.length) (hk' : k < (condSmpls mask smpls).length),
      (condSmpls mask smpls)[k].test = smpls[k].test ∧ (condSmpls mask smpls)[k].train.Nodup ∧
      ∀ i, i ∈ (condSmpls mask smpls)[k].train ↔ i ∈ smpls[k].train ∧ mask i := by
  refine ⟨by simp [condSmpls], ?_⟩
  intro k hk hk'
  simp only [condSmpls, List.getElem_map, true_and]
  refine ⟨Finset.sort_nodup _ _, ?_⟩
  intro i
  rw [mem_intersect1d, mem_whereIdx, and_comm]

/-- **C27.** For increasing training index lists (all drawn and all accepted splits, C22–C24) the conditional
training set is the original one with the other observations left out, in the same order. -/
theorem C27_training_sets_sorted (mask : Fin n → Prop) [DecidablePred mask] (f : Fold n)
    (h : f.train.Pairwise (· < ·)) :
    intersect1d (whereIdx mask) f.train = f.train.filter fun i => decide (mask i) := by
  refine List.Perm.eq_of_pairwise (le := (· ≤ ·)) (fun _ _ _ _ h1 h2 => le_antisymm h1 h2) ?_ ?_ ?_
  · exact Finset.pairwise_sort _ _
  · exact (h.imp le_of_lt).filter _
  · refine (List.perm_ext_iff_of_nodup (Finset.sort_nodup _ _) ((h.imp ne_of_lt).filter _)).2 ?_
    intro i
    have := mem_intersect1d (whereIdx mask) f.train i
    rw [intersect1d] at this
    rw [this, mem_whereIdx, List.mem_filter]
    simp [and_comm]

theorem perm_split (f : Fold n) (hnd : f.train.Nodup) (m₁ m₂ : Fin n → Prop) [DecidablePred m₁] [DecidablePred m₂]
    (hc : ∀ i, m₁ i ∨ m₂ i) (hd : ∀ i, ¬ (m₁ i ∧ m₂ i)) :
    (intersect1d (whereIdx m₁) f.train ++ intersect1d (whereIdx m₂) f.train).Perm f.train := by
  refine (List.perm_ext_iff_of_nodup ?_ hnd).2 ?_
  · rw [List.nodup_append]
    refine ⟨Finset.sort_nodup _ _, Finset.sort_nodup _ _, ?_⟩
    rintro i hi j hj rfl
    rw [mem_intersect1d, mem_whereIdx] at hi hj
    exact hd i ⟨hi.1, hj.1⟩
  · intro i
    rw [List.mem_append, mem_intersect1d, mem_intersect1d, mem_whereIdx, mem_whereIdx]
    have := hc i
    tauto

/-- **C27.** For a 0/1 indicator the two conditional training sets partition the training set. -/
theorem C27_partition (smpls : List (Fold n)) (b : Fin n → ℝ) (hb : ∀ i, b i = 0 ∨ b i = 1)
    (hnd : ∀ f ∈ smpls, f.train.Nodup) (k : ℕ) (hk : k < smpls.length)
    (h0 : k < (getCondSmpls smpls b).1.length) (h1 : k < (getCondSmpls smpls b).2.length) :
    ((getCondSmpls smpls b).1[k].train ++ (getCondSmpls smpls b).2[k].train).Perm smpls[k].train := by
  simp only [getCondSmpls, condSmpls, List.getElem_map]
  refine perm_split _ (hnd _ (List.getElem_mem hk)) _ _ hb ?_
  rintro i ⟨h, h'⟩
  rw [h] at h'
  norm_num at h'

/-- **C27.** The training sets of the four samples of two indicators contain exactly the training observations
with the respective values. -/
theorem C27_training_sets_2d (smpls : List (Fold n)) (b₁ b₂ : Fin n → ℝ) (k : ℕ) (hk : k < smpls.length) (i : Fin n) :
    ∀ s₀₀ s₀₁ s₁₀ s₁₁, getCondSmpls2d smpls b₁ b₂ = (s₀₀, s₀₁, s₁₀, s₁₁) →
      (∃ f, s₀₀[k]? = some f ∧ (i ∈ f.train ↔ i ∈ smpls[k].train ∧ b₁ i = 0 ∧ b₂ i = 0)) ∧
      (∃ f, s₀₁[k]? = some f ∧ (i ∈ f.train ↔ i ∈ smpls[k].train ∧ b₁ i = 0 ∧ b₂ i = 1)) ∧
      (∃ f, s₁₀[k]? = some f ∧ (i ∈ f.train ↔ i ∈ smpls[k].train ∧ b₁ i = 1 ∧ b₂ i = 0)) ∧
      (∃ f, s₁₁[k]? = some f ∧ (i ∈ f.train ↔ i ∈ smpls[k].train ∧ b₁ i = 1 ∧ b₂ i = 1)) := by
  intro s₀₀ s₀₁ s₁₀ s₁₁ h
  simp only [getCondSmpls2d, Prod.mk.injEq] at h
  obtain ⟨rfl, rfl, rfl, rfl⟩ := h
  refine ⟨?_, ?_, ?_, ?_⟩ <;>
  · refine ⟨_, List.getElem?_eq_getElem (by simpa [condSmpls] using hk), ?_⟩
    simp only [condSmpls, List.getElem_map]
    rw [mem_intersect1d, mem_whereIdx, and_comm]

theorem isPartition_cond (mask : Fin n → Prop) [DecidablePred mask] (smpls : List (Fold n)) :
    isPartition (condSmpls mask smpls) = isPartition smpls := by
  unfold isPartition condSmpls
  simp only [List.map_map, Function.comp_def]

/-- **C27.** End to end: a conditional nuisance function (e.g. `g(1, X)` with `mask i = (d i = 1)`) predicts
every test observation of fold `k` with the learner trained on exactly the training observations of fold `k`
that satisfy the condition. -/
theorem C27_conditional_prediction {L : Learner P X} (mask : Fin n → Prop) [DecidablePred mask]
    {smpls : List (Fold n)} {x : Fin n → X} {y : Fin n → ℝ} {ps : Params P} {rt rm : Bool} {r : CvRes n P X}
    (hp : isPartition smpls = true) (hsorted : ∀ f ∈ smpls, f.train.Pairwise (· < ·))
    (h : cvPredict L ⟨x, .plain y, condSmpls mask smpls, ps, .predict, rt, rm⟩ = .ok r)
    (k : ℕ) (hk : k < smpls.length) (i : Fin n) (hi : i ∈ smpls[k].test) :
    r.preds i = some (L.predict (ps.at k)
      ((smpls[k].train.filter fun j => decide (mask j)).map fun j => (x j, y j)) (x i)) := by
  obtain ⟨hl, hall⟩ := C27_training_sets mask smpls
  have h1 := C26_prediction_rule (a := ⟨x, .plain y, condSmpls mask smpls, ps, .predict, rt, rm⟩) rfl
    (by rw [← hp]; exact isPartition_cond mask smpls)
    (fun f hf => by
      obtain ⟨j, hj, rfl⟩ := List.mem_iff_getElem.1 hf
      exact (hall j (by rw [← hl]; exact hj) hj).2.1) h k (by simpa [hl] using hk) i
    (by rw [(hall k hk (by rw [hl]; exact hk)).1]; exact hi)
  rw [h1]
  simp only [Target.dataOf]
  rw [← C27_training_sets_sorted mask smpls[k] (hsorted _ (List.getElem_mem hk))]
  simp only [condSmpls, List.getElem_map]

/-- **C27.** The evaluation targets of a conditional nuisance function are missing exactly outside the
subsample. -/
theorem C27_targets (t : Fin n → Option ℝ) (mask : Fin n → Prop) [DecidablePred mask] (i : Fin n) :
    (mask i → condTargets t mask i = t i) ∧ (¬ mask i → condTargets t mask i = none) := by
  unfold condTargets
  exact ⟨fun h => if_pos h, fun h => if_neg h⟩

/-- Non-vacuity of C27. -/
example : getCondSmpls (n := 4) [⟨[0, 1, 2], [3]⟩] (fun i => if i.val < 2 then 1 else 0) =
    ([⟨[2], [3]⟩], [⟨[0, 1], [3]⟩]) := by
  have h : ([0, 1, 2] : List (Fin 4)).Pairwise (· < ·) := by decide
  simp only [getCondSmpls, condSmpls, List.map_cons, List.map_nil]
  rw [C27_training_sets_sorted _ ⟨[0, 1, 2], [3]⟩ h, C27_training_sets_sorted _ ⟨[0, 1, 2], [3]⟩ h]
  simp

/-! ## C28 -/

/-- What `external_predictions` may be: a dictionary of treatments, each with a dictionary of learners, each
with an array of shape `(n_obs, n_rep)`. -/
def ExtArg.WellFormed (treats learners : List String) (nObs nRep : ℕ) : ExtArg → Prop
  | .none => True
  | .notDict => False
  | .dict items => ∀ t v, (t, v) ∈ items → t ∈ treats ∧ ∃ inner, v = .dict inner ∧
      ∀ l w, (l, w) ∈ inner → l ∈ learners ∧ ∃ a, w = .arr2 nObs nRep a

theorem checkExtVal_iff (nObs nRep : ℕ) (v : ExtVal) :
    checkExtVal nObs nRep v = .ok () ↔ ∃ a, v = .arr2 nObs nRep a := by
  cases v with
  | arr2 r c a =>
    unfold checkExtVal
    by_cases h : r = nObs ∧ c = nRep
    · obtain ⟨rfl, rfl⟩ := h
      simp
    · dsimp only
      rw [if_neg h]
      constructor
      · intro h'; cases h'
      · rintro ⟨a', ha⟩
        cases ha
        exact absurd ⟨rfl, rfl⟩ h
  | otherShape => simp [checkExtVal]
  | notArray => simp [checkExtVal]

theorem mapM_unit_iff {α : Type} (f : α → Except Exc Unit) (l : List α) :
    (∃ r, l.mapM f = .ok r) ↔ ∀ a ∈ l, f a = .ok () := by
  constructor
  · rintro ⟨r, hr⟩ a ha
    obtain ⟨b, hb⟩ := mapM_ok_mem hr a ha
    exact hb
  · intro h
    exact ⟨_, mapM_ok f (fun _ => ()) l h⟩

theorem bind_unit_iff {α : Type} (x : Except Exc α) : (do let _ ← x; return ()) = (Except.ok () : Except Exc Unit) ↔ ∃ r, x = .ok r := by
  cases x with
  | error e => simp [bind, Except.bind]
  | ok a => simp [bind, Except.bind, pure, Except.pure]

theorem checkExtInner_iff (learners : List String) (nObs nRep : ℕ) (v : ExtInner) :
    checkExtInner learners nObs nRep v = .ok () ↔ ∃ inner, v = .dict inner ∧
      ∀ l w, (l, w) ∈ inner → l ∈ learners ∧ ∃ a, w = .arr2 nObs nRep a := by
  cases v with
  | notDict => simp [checkExtInner]
  | dict items =>
    simp only [checkExtInner, ExtInner.dict.injEq, exists_eq_left']
    by_cases h : items.map Prod.fst ⊆ learners
    · rw [if_pos h, bind_unit_iff, mapM_unit_iff]
      constructor
      · intro hh l w hlw
        exact ⟨h (List.mem_map.2 ⟨(l, w), hlw, rfl⟩), (checkExtVal_iff _ _ _).1 (hh _ hlw)⟩
      · intro hh a ha
        exact (checkExtVal_iff _ _ _).2 (hh a.1 a.2 ha).2
    · rw [if_neg h]
      constructor
      · intro h'; cases h'
      · intro hh
        exact absurd (fun l hl => by
          obtain ⟨p, hp, rfl⟩ := List.mem_map.1 hl
          exact (hh p.1 p.2 hp).1) h

/-- **C28.** Exactly the well-formed dictionaries are accepted. -/
theorem C28_accepted_iff (treats learners : List String) (nObs nRep : ℕ) (e : ExtArg) :
    checkExt treats learners nObs nRep e = .ok () ↔ e.WellFormed treats learners nObs nRep := by
  cases e with
  | none => simp [checkExt, ExtArg.WellFormed]
  | notDict => simp [checkExt, ExtArg.WellFormed]
  | dict items =>
    simp only [checkExt, ExtArg.WellFormed]
    by_cases h : items.map Prod.fst ⊆ treats
    · rw [if_pos h, bind_unit_iff, mapM_unit_iff]
      constructor
      · intro hh t v htv
        exact ⟨h (List.mem_map.2 ⟨(t, v), htv, rfl⟩), (checkExtInner_iff _ _ _ _).1 (hh _ htv)⟩
      · intro hh a ha
        exact (checkExtInner_iff _ _ _ _).2 (hh a.1 a.2 ha).2
    · rw [if_neg h]
      constructor
      · intro h'; cases h'
      · intro hh
        exact absurd (fun l hl => by
          obtain ⟨p, hp, rfl⟩ := List.mem_map.1 hl
          exact (hh p.1 p.2 hp).1) h

/-- The array the user supplied for a treatment and a learner. -/
def ExtArg.supplied (e : ExtArg) (treatment learner : String) : Option ExtVal :=
  match e with
  | .dict items =>
    match lookupKey treatment items with
    | some (.dict inner) => lookupKey learner inner
    | _ => Option.none
  | _ => Option.none

/-- The treatments the user supplied an entry for (all of them if there are no external predictions). -/
def ExtArg.Covers (e : ExtArg) (treatment : String) : Prop :=
  match e with
  | .none => True
  | .notDict => False
  | .dict items => ∃ v, lookupKey treatment items = some v

theorem lookupKey_mem {α : Type} {k : String} {l : List (String × α)} {v : α} (h : lookupKey k l = some v) : (k, v) ∈ l := by
  induction l with
  | nil => cases h
  | cons p l ih =>
    unfold lookupKey at h
    split at h
    · rename_i hk
      cases h
      rw [← hk]
      simp
    · exact List.mem_cons_of_mem _ (ih h)

/-- **C28.** Every learner without supplied array is estimated as usual, and for every supplied array exactly
the column of the current repetition is handed to the score. -/
theorem C28_addressed_partial {treats learners : List String} {nRep : ℕ} {e : ExtArg}
    (hok : checkExt treats learners n nRep e = .ok ()) (treatment : String) (hc : e.Covers treatment) (iRep : ℕ) :
    ∃ l, setExt n e learners treatment iRep = .ok l ∧ l.map Prod.fst = learners ∧
      ∀ name v, (name, v) ∈ l →
        (e.supplied treatment name = none → v = none) ∧
        (∀ r c a, e.supplied treatment name = some (.arr2 r c a) →
          r = n ∧ c = nRep ∧ v = some fun i => a i.val iRep) := by
  have hwf := (C28_accepted_iff _ _ _ _ _).1 hok
  refine ⟨learners.map fun l => (l, (e.supplied treatment l).bind (extColumn n iRep)), ?_, by simp [Function.comp_def], ?_⟩
  · unfold setExt
    apply mapM_ok
    intro l _
    cases e with
    | none => rfl
    | notDict => cases hok
    | dict items =>
      obtain ⟨v, hv⟩ := hc
      obtain ⟨-, inner, rfl, -⟩ := hwf treatment v (lookupKey_mem hv)
      simp only [hv, ExtArg.supplied]
  · intro name v hv
    obtain ⟨l, -, h⟩ := List.mem_map.1 hv
    cases h
    refine ⟨fun h => by rw [h]; rfl, ?_⟩
    intro r c a h
    cases e with
    | none => cases h
    | notDict => cases h
    | dict items =>
      simp only [ExtArg.supplied] at h ⊢
      cases hl : lookupKey treatment items with
      | none => rw [hl] at h; cases h
      | some w =>
        obtain ⟨-, inner, rfl, hin⟩ := hwf treatment w (lookupKey_mem hl)
        rw [hl] at h
        dsimp only at h ⊢
        obtain ⟨-, a', ha⟩ := hin name _ (lookupKey_mem h)
        cases ha
        rw [h]
        exact ⟨rfl, rfl, rfl⟩

/-- **C28.** An external prediction is used verbatim, whatever the learner would do. -/
theorem C28_verbatim (ext : Fin n → ℝ) (est : Except Exc (CvRes n P X)) :
    ∃ r, useExt (some ext) est = .ok r ∧ ∀ i, r.preds i = some (ext i) :=
  ⟨_, rfl, fun _ => rfl⟩

/-- **C28.** Without external prediction the estimate is used. -/
theorem C28_estimated (est : Except Exc (CvRes n P X)) : useExt (none : Option (Fin n → ℝ)) est = est := rfl

/-- **C28 is violated** for several treatments: a dictionary that supplies predictions for some treatments
only is accepted by the check, but the fit raises `KeyError` for the others instead of estimating them. -/
theorem C28_violated : ∃ (treats learners : List String) (e : ExtArg),
    checkExt treats learners n 1 e = .ok () ∧ "d2" ∈ treats ∧
    setExt n e learners "d2" 0 = .error .keyError := by
  refine ⟨["d1", "d2"], ["ml_l", "ml_m"], .dict [("d1", .dict [("ml_l", .arr2 n 1 fun _ _ => 0)])], ?_, by simp, ?_⟩
  · rw [C28_accepted_iff]
    intro t v h
    simp only [List.mem_singleton, Prod.mk.injEq] at h
    obtain ⟨rfl, rfl⟩ := h
    refine ⟨by simp, _, rfl, ?_⟩
    intro l w h
    simp only [List.mem_singleton, Prod.mk.injEq] at h
    obtain ⟨rfl, rfl⟩ := h
    exact ⟨by simp, _, rfl⟩
  · simp [setExt, lookupKey, bind, Except.bind]

/-- Non-vacuity of C28. -/
example : ∃ l, setExt 2 (.dict [("d", .dict [("ml_m", .arr2 2 3 fun i k => i + 10 * k)])]) ["ml_l", "ml_m"] "d" 2 = .ok l ∧
    ∀ v, ("ml_m", some v) ∈ l → v 1 = 21 := by
  refine ⟨_, rfl, ?_⟩
  intro v hv
  simp [lookupKey, extColumn] at hv
  subst hv
  norm_num

end DML
