import Verif.Nested
import Verif.CrossFitProps
import Verif.NonlinearProps

/-!
# Nested cross-fitting (C55)

The predictions for a test fold depend on the training data of the fold only, once the start value and the
bounds of the root search are given; these are computed from all outcomes, so that in PQ the prediction for an
observation can depend on the outcome of this observation (`C55_violated`).  The preliminary estimate uses the
first half of a training set, the outcome models the second.
-/

namespace DML

open Finset

variable {n : ℕ} {P X XD : Type}

/-! ## Data that agree on a set of observations -/

/-- Two data sets with the same rows at the indices in `l`. -/
structure AgreeOn (l : List (Fin n)) (D D' : Obs n X) : Prop where
  x : ∀ i ∈ l, D.x i = D'.x i
  y : ∀ i ∈ l, D.y i = D'.y i
  d : ∀ i ∈ l, D.d i = D'.d i

/-- The same for data with an instrument. -/
structure AgreeOnZ (l : List (Fin n)) (D D' : ObsZ n X) : Prop extends AgreeOn l D.toObs D'.toObs where
  z : ∀ i ∈ l, D.z i = D'.z i

/-- The same for data with selection. -/
structure AgreeOnS (l : List (Fin n)) (D D' : ObsS n X XD) : Prop extends AgreeOn l D.toObs D'.toObs where
  dx : ∀ i ∈ l, D.dx i = D'.dx i
  s : ∀ i ∈ l, D.s i = D'.s i

theorem AgreeOn.mono {l l' : List (Fin n)} {D D' : Obs n X} (h : AgreeOn l D D') (hl : ∀ i ∈ l', i ∈ l) :
    AgreeOn l' D D' :=
  ⟨fun i hi => h.x i (hl i hi), fun i hi => h.y i (hl i hi), fun i hi => h.d i (hl i hi)⟩

theorem AgreeOnZ.mono {l l' : List (Fin n)} {D D' : ObsZ n X} (h : AgreeOnZ l D D') (hl : ∀ i ∈ l', i ∈ l) :
    AgreeOnZ l' D D' :=
  ⟨h.toAgreeOn.mono hl, fun i hi => h.z i (hl i hi)⟩

theorem sub_congr {α : Type} {l : List (Fin n)} {v w : Fin n → α} (h : ∀ i ∈ l, v i = w i) : sub l v = sub l w :=
  funext fun i => h _ (List.get_mem l i)

theorem map_congr_mem {α : Type} {l : List (Fin n)} {v w : Fin n → α} (h : ∀ i ∈ l, v i = w i) : l.map v = l.map w :=
  List.map_congr_left h

theorem trainData_congr {x x' : Fin n → X} {y y' : Fin n → ℝ} {l : List (Fin n)} (hx : ∀ i ∈ l, x i = x' i)
    (hy : ∀ i ∈ l, y i = y' i) : trainData x y l = trainData x' y' l :=
  List.map_congr_left fun i hi => by rw [hx i hi, hy i hi]

theorem filter_map_congr {α : Type} {l : List (Fin n)} {p p' : Fin n → Bool} {v w : Fin n → α} (hp : ∀ i ∈ l, p i = p' i)
    (h : ∀ i ∈ l, v i = w i) : (l.filter p).map v = (l.filter p').map w := by
  rw [List.filter_congr hp]
  exact List.map_congr_left fun i hi => h i (List.mem_of_mem_filter hi)

theorem NestedExt.Ok.mem {E : NestedExt n} (hE : E.Ok) {l : List (Fin n)} {s : List ℝ} {h : List (Fin n) × List (Fin n)}
    (hh : E.halves l s = .ok h) : (∀ i ∈ h.1, i ∈ l) ∧ ∀ i ∈ h.2, i ∈ l := by
  obtain ⟨a, b⟩ := h
  have hp := hE.halves hh
  exact ⟨fun i hi => hp.mem_iff.1 (List.mem_append_left _ hi), fun i hi => hp.mem_iff.1 (List.mem_append_right _ hi)⟩

theorem secondHalf_congr {t : ℝ} {g : ℝ → ℝ} {D D' : Obs n X} {l : List (Fin n)} (h : AgreeOn l D D') :
    secondHalf t g D l = secondHalf t g D' l :=
  filter_map_congr (fun i hi => by rw [h.d i hi]) fun i hi => by rw [h.x i hi, h.y i hi]

theorem prelimM_congr (L : Learner P X) (p : Option P) {h1 : List (Fin n)} {D D' : Obs n X} (h : AgreeOn h1 D D')
    (mExt : Option (Fin n → ℝ)) (s : List (Fold h1.length)) :
    prelimM L p h1 D mExt s = prelimM L p h1 D' mExt s := by
  cases mExt with
  | some m => rfl
  | none =>
    show prelimFit L p h1 D.x D.d s = prelimFit L p h1 D'.x D'.d s
    unfold prelimFit
    rw [sub_congr h.x, sub_congr h.d]

/-- One pass of the loop depends on the rows of the training set only. -/
theorem quantFold_congr {E : NestedExt n} (hE : E.Ok) (L : Learner P X) (c : QuantSet) (t : ℝ → ℝ → ℝ) {D D' : Obs n X}
    (k : ℕ) (pg pm : Option P) (gExt mExt : Option (Fin n → ℝ)) {f : Fold n} (h : AgreeOn f.train D D') :
    quantFold E L c t D k pg pm gExt mExt f = quantFold E L c t D' k pg pm gExt mExt f := by
  unfold quantFold
  rw [map_congr_mem h.d]
  cases hh : E.halves f.train (f.train.map D'.d) with
  | error e => simp only [bind, Except.bind]
  | ok hs =>
    obtain ⟨m1, m2⟩ := hE.mem hh
    have a1 := h.mono m1
    have a2 := h.mono m2
    simp only [bind, Except.bind]
    rw [sub_congr a1.d, sub_congr a1.y, trainData_congr h.x h.d]
    cases E.skf hs.1.length k (sub hs.1 D'.d) with
    | error e => simp only
    | ok s =>
      simp only
      rw [prelimM_congr L pm a1]
      cases prelimM L pm hs.1 D' mExt s with
      | error e => simp only
      | ok mp =>
        simp only
        rw [secondHalf_congr a2]

/-! ## Gathering the predictions of the folds -/

theorem gather_skip {R : Type} (val : R → Fin n → Option ℝ) (i : Fin n) (rs : List (Fold n × R)) :
    ∀ a : Option ℝ, (∀ fr ∈ rs, i ∉ fr.1.test) →
      rs.foldl (fun a fr => if i ∈ fr.1.test then val fr.2 i else a) a = a := by
  induction rs with
  | nil => intro a _; rfl
  | cons b l ih =>
    intro a h
    rw [List.foldl_cons, if_neg (h b List.mem_cons_self)]
    exact ih a fun fr hfr => h fr (List.mem_cons_of_mem _ hfr)

theorem gather_eq {R : Type} (val : R → Fin n → Option ℝ) {i : Fin n} {fr : Fold n × R} (rs : List (Fold n × R)) :
    ∀ a : Option ℝ, (rs.map fun r => r.1.test).flatten.Nodup → fr ∈ rs → i ∈ fr.1.test →
      rs.foldl (fun a fr => if i ∈ fr.1.test then val fr.2 i else a) a = val fr.2 i := by
  induction rs with
  | nil => intro a _ h; cases h
  | cons b l ih =>
    intro a hnd hm hi
    rw [List.map_cons, List.flatten_cons, List.nodup_append] at hnd
    rcases List.mem_cons.1 hm with rfl | hm
    · rw [List.foldl_cons, if_pos hi]
      refine gather_skip val i l _ ?_
      intro g hg hig
      exact hnd.2.2 i hi i (List.mem_flatten.2 ⟨_, List.mem_map.2 ⟨g, hg, rfl⟩, hig⟩) rfl
    · rw [List.foldl_cons]
      exact ih _ hnd.2.1 hm hi

/-- The loop over the folds, if every pass returns its fold. -/
theorem passes_at {R : Type} {pass : Fold n × ℕ → Except Exc (Fold n × R)} {smpls : List (Fold n)}
    {rs : List (Fold n × R)} (hpass : ∀ fk r, pass fk = .ok r → r.1 = fk.1)
    (h : smpls.zipIdx.mapM pass = .ok rs) :
    rs.map Prod.fst = smpls ∧ ∀ (k : ℕ) (f : Fold n), smpls[k]? = some f → ∃ r : R, pass (f, k) = .ok (f, r) ∧ (f, r) ∈ rs := by
  have h2 := (mapM_ok_iff pass _ _).1 h
  have key : ∀ (l : List (Fold n × ℕ)) (q : List (Fold n × R)), List.Forall₂ (fun a b => pass a = .ok b) l q →
      q.map Prod.fst = l.map Prod.fst ∧ ∀ fk ∈ l, ∃ r : R, pass fk = .ok (fk.1, r) ∧ (fk.1, r) ∈ q := by
    intro l q hq
    induction hq with
    | nil => exact ⟨rfl, fun fk hfk => by cases hfk⟩
    | @cons a b l q hab _ ih =>
      have hb := hpass _ _ hab
      refine ⟨by rw [List.map_cons, List.map_cons, hb, ih.1], ?_⟩
      intro fk hfk
      rcases List.mem_cons.1 hfk with rfl | hfk
      · refine ⟨b.2, ?_, ?_⟩
        · rw [hab, ← hb]
        · rw [← hb]; exact List.mem_cons_self
      · obtain ⟨r, h1, h2⟩ := ih.2 fk hfk
        exact ⟨r, h1, List.mem_cons_of_mem _ h2⟩
  obtain ⟨k1, k2⟩ := key _ _ h2
  refine ⟨by rw [k1, List.zipIdx_map_fst], ?_⟩
  intro k f hf
  exact k2 (f, k) (List.mem_zipIdx_iff_getElem?.2 hf)

theorem gather_at {R : Type} {pass : Fold n × ℕ → Except Exc (Fold n × R)} {smpls : List (Fold n)}
    {rs : List (Fold n × R)} (hpass : ∀ fk r, pass fk = .ok r → r.1 = fk.1)
    (h : smpls.zipIdx.mapM pass = .ok rs) (hp : isPartition smpls = true) {k : ℕ} {f : Fold n}
    (hf : smpls[k]? = some f) {i : Fin n} (hi : i ∈ f.test) :
    ∃ r : R, pass (f, k) = .ok (f, r) ∧ (f, r) ∈ rs ∧ ∀ val : R → Fin n → Option ℝ, gather val rs i = val r i := by
  obtain ⟨h1, h2⟩ := passes_at hpass h
  obtain ⟨r, hr, hm⟩ := h2 k f hf
  refine ⟨r, hr, hm, fun val => ?_⟩
  have hnd : (rs.map fun r => r.1.test).flatten.Nodup := by
    have : (rs.map fun r => r.1.test) = smpls.map Fold.test := by rw [← h1, List.map_map]; rfl
    rw [this]
    exact ((isPartition_iff smpls).1 hp).nodup_iff.2 (List.nodup_finRange n)
  exact gather_eq val (fr := (f, r)) rs none hnd hm hi

theorem quantPass_fst {E : NestedExt n} {L : Learner P X} {c : QuantSet} {t : ℝ → ℝ → ℝ} {D : Obs n X} {k : ℕ}
    {psG psM : Option (List P)} {gExt mExt : Option (Fin n → ℝ)} (fk : Fold n × ℕ) (r : Fold n × QuantFold P X)
    (h : quantPass E L c t D k psG psM gExt mExt fk = .ok r) : r.1 = fk.1 := by
  unfold quantPass at h
  obtain ⟨_, _, h⟩ := bind_ok h
  obtain ⟨_, _, h⟩ := bind_ok h
  obtain ⟨_, _, h⟩ := bind_ok h
  rw [← Except.ok.inj h]

theorem quantPass_congr {E : NestedExt n} (hE : E.Ok) (L : Learner P X) (c : QuantSet) (t : ℝ → ℝ → ℝ) {D D' : Obs n X}
    (k : ℕ) (psG psM : Option (List P)) (gExt mExt : Option (Fin n → ℝ)) {fk : Fold n × ℕ} (h : AgreeOn fk.1.train D D') :
    quantPass E L c t D k psG psM gExt mExt fk = quantPass E L c t D' k psG psM gExt mExt fk := by
  unfold quantPass
  cases paramFor gExt psG fk.2 with
  | error e => simp only [bind, Except.bind]
  | ok pg =>
    cases paramFor mExt psM fk.2 with
    | error e => simp only [bind, Except.bind]
    | ok pm =>
      simp only [bind, Except.bind]
      rw [quantFold_congr hE L c t k pg pm gExt mExt h]

theorem orExt_none (v : Fin n → Option ℝ) : orExt none v = v := rfl

/-- The parts of a successful run. -/
theorem quantNuisance_ok {E : NestedExt n} {L : Learner P X} {ev : FittedModel P X → X → ℝ} {c : QuantSet}
    {t : ℝ → ℝ → ℝ} {D : Obs n X} {smpls : List (Fold n)} {psG psM : Option (List P)} {gExt mExt : Option (Fin n → ℝ)}
    {w : Bool} {o : QuantOut n P X} (h : quantNuisance E L ev c t D smpls psG psM gExt mExt w = .ok o) :
    quantPasses E L c t D smpls psG psM gExt mExt = .ok o.folds ∧
    o.g = orExt gExt (gather (fun r => modelPred ev D.x r.g) o.folds) ∧
    o.m = (fun i => (orExt mExt (gather (fun r => modelPred (zeroOne L) D.x r.m) o.folds) i).map (trim c.trimT)) := by
  unfold quantNuisance at h
  obtain ⟨rs, hrs, h⟩ := bind_ok h
  by_cases hw : (w && (gExt.isSome || mExt.isSome)) = true
  · rw [if_pos hw] at h
    cases h
  · rw [if_neg hw] at h
    have := Except.ok.inj h
    subst this
    exact ⟨hrs, rfl, rfl⟩

/-- **C55 (PQ and CVaR, in part).** Given the start value and the bounds of the root search (`c`), the predictions
for a test observation depend only on the rows of the training set of its fold and on its own covariates: if two
data sets agree there, a run on the one and a run on the other — with any other folds beside this one — give the
same predictions of the outcome model and of the propensity.  Missing: start value and bounds depend on all
outcomes, see `C55_violated`. -/
theorem C55_quant_partial {E : NestedExt n} (hE : E.Ok) {L : Learner P X} {ev : FittedModel P X → X → ℝ} {c : QuantSet}
    {t : ℝ → ℝ → ℝ} {D D' : Obs n X} {smpls smpls' : List (Fold n)} (hl : smpls.length = smpls'.length)
    {psG psM : Option (List P)} {gExt mExt : Option (Fin n → ℝ)} {w : Bool} {o o' : QuantOut n P X}
    (hp : isPartition smpls = true) (hp' : isPartition smpls' = true) {k : ℕ} {f : Fold n}
    (hf : smpls[k]? = some f) (hf' : smpls'[k]? = some f) {i : Fin n} (hi : i ∈ f.test) (ha : AgreeOn f.train D D')
    (hx : D.x i = D'.x i)
    (h : quantNuisance E L ev c t D smpls psG psM gExt mExt w = .ok o)
    (h' : quantNuisance E L ev c t D' smpls' psG psM gExt mExt w = .ok o') :
    o.g i = o'.g i ∧ o.m i = o'.m i := by
  obtain ⟨h1, h2, h3⟩ := quantNuisance_ok h
  obtain ⟨h1', h2', h3'⟩ := quantNuisance_ok h'
  rw [h2, h2', h3, h3']
  dsimp only
  by_cases he : (gExt.isSome && mExt.isSome) = true
  · rw [Bool.and_eq_true] at he
    obtain ⟨g, rfl⟩ := Option.isSome_iff_exists.1 he.1
    obtain ⟨m, rfl⟩ := Option.isSome_iff_exists.1 he.2
    exact ⟨rfl, rfl⟩
  · unfold quantPasses at h1 h1'
    rw [if_neg he] at h1 h1'
    obtain ⟨r, hr, -, hg⟩ := gather_at quantPass_fst h1 hp hf hi
    obtain ⟨r', hr', -, hg'⟩ := gather_at quantPass_fst h1' hp' hf' hi
    rw [hl, quantPass_congr hE L c t _ psG psM gExt mExt (fk := (f, k)) ha, hr'] at hr
    have hrr : r = r' := by
      have := Except.ok.inj hr
      exact (Prod.mk.inj this).2.symm
    subst hrr
    constructor
    · cases gExt with
      | some g => rfl
      | none =>
        rw [orExt_none, orExt_none]
        rw [hg, hg']
        unfold modelPred
        rw [hx]
    · cases mExt with
      | some m => rfl
      | none =>
        rw [orExt_none, orExt_none]
        rw [hg, hg']
        unfold modelPred
        rw [hx]

/-- **C55 (PQ and CVaR).** The two stages use disjoint parts of the training set.  A training set without
repetitions is split into two disjoint halves that together make up the training set; the preliminary estimate
is the same for every data set that agrees with the given one on the first half (and is split in the same way);
the outcome model is trained on the treated rows of the second half, with the preliminary estimate in its target;
the propensity is refitted on the whole training set. -/
theorem C55_quant_halves {E : NestedExt n} (hE : E.Ok) {L : Learner P X} {c : QuantSet} {t : ℝ → ℝ → ℝ} {D : Obs n X}
    {k : ℕ} {pg pm : Option P} {f : Fold n} (hnd : f.train.Nodup) {mExt : Option (Fin n → ℝ)} {r : QuantFold P X}
    (h : quantFold E L c t D k pg pm none mExt f = .ok r) :
    ∃ h1 h2 : List (Fin n), (h1 ++ h2).Perm f.train ∧ h1.Disjoint h2 ∧
      (∀ (D' : Obs n X) (r' : QuantFold P X), AgreeOn h1 D D' →
        E.halves f.train (f.train.map D'.d) = E.halves f.train (f.train.map D.d) →
        quantFold E L c t D' k pg pm none mExt f = .ok r' → r'.ipw = r.ipw) ∧
      r.g = some ⟨pg, (h2.filter fun i => decide (D.d i = c.treatment)).map fun i => (D.x i, t r.ipw (D.y i))⟩ ∧
      (mExt = none → r.m = some ⟨pm, f.train.map fun i => (D.x i, D.d i)⟩) := by
  unfold quantFold at h
  obtain ⟨hs, hh, h⟩ := bind_ok h
  obtain ⟨s, hsk, h⟩ := bind_ok h
  obtain ⟨mp, hmp, h⟩ := bind_ok h
  have hr := Except.ok.inj h
  have hperm : (hs.1 ++ hs.2).Perm f.train := hE.halves hh
  refine ⟨hs.1, hs.2, hperm, ?_, ?_, ?_, ?_⟩
  · have := hperm.nodup_iff.2 hnd
    intro i h1 h2
    exact (List.nodup_append.1 this).2.2 i h1 i h2 rfl
  · intro D' r' ha hsame h'
    unfold quantFold at h'
    obtain ⟨hs', hh', h'⟩ := bind_ok h'
    rw [hsame, hh] at hh'
    have := Except.ok.inj hh'
    subst this
    obtain ⟨s', hsk', h'⟩ := bind_ok h'
    rw [← sub_congr ha.d, hsk] at hsk'
    have := Except.ok.inj hsk'
    subst this
    obtain ⟨mp', hmp', h'⟩ := bind_ok h'
    rw [← prelimM_congr L pm ha, hmp] at hmp'
    have := Except.ok.inj hmp'
    subst this
    have hr' := Except.ok.inj h'
    rw [← hr, ← hr']
    dsimp only
    rw [sub_congr ha.d, sub_congr ha.y]
  · rw [← hr]
    rfl
  · rintro rfl
    rw [← hr]
    rfl

/-- **C55 (PQ and CVaR).** Every observation gets a prediction. -/
theorem C55_quant_complete {E : NestedExt n} {L : Learner P X} {ev : FittedModel P X → X → ℝ} {c : QuantSet}
    {t : ℝ → ℝ → ℝ} {D : Obs n X} {smpls : List (Fold n)} {psG psM : Option (List P)} {gExt mExt : Option (Fin n → ℝ)}
    {w : Bool} {o : QuantOut n P X} (hp : isPartition smpls = true)
    (h : quantNuisance E L ev c t D smpls psG psM gExt mExt w = .ok o) (i : Fin n) :
    (o.g i).isSome = true ∧ (o.m i).isSome = true := by
  obtain ⟨h1, h2, h3⟩ := quantNuisance_ok h
  rw [h2, h3]
  dsimp only
  by_cases he : (gExt.isSome && mExt.isSome) = true
  · rw [Bool.and_eq_true] at he
    obtain ⟨g, rfl⟩ := Option.isSome_iff_exists.1 he.1
    obtain ⟨m, rfl⟩ := Option.isSome_iff_exists.1 he.2
    exact ⟨rfl, rfl⟩
  · unfold quantPasses at h1
    rw [if_neg he] at h1
    obtain ⟨k, hk, -⟩ := C26_complete hp i
    obtain ⟨r, hr, -, hg⟩ := gather_at quantPass_fst h1 hp (List.getElem?_eq_getElem k.isLt) hk
    unfold quantPass at hr
    obtain ⟨_, _, hr⟩ := bind_ok hr
    obtain ⟨_, _, hr⟩ := bind_ok hr
    obtain ⟨r', hr', hr⟩ := bind_ok hr
    have hrr : r' = r := (Prod.mk.inj (Except.ok.inj hr)).2
    subst hrr
    unfold quantFold at hr'
    obtain ⟨_, _, hr'⟩ := bind_ok hr'
    obtain ⟨_, _, hr'⟩ := bind_ok hr'
    obtain ⟨_, _, hr'⟩ := bind_ok hr'
    have hr' := Except.ok.inj hr'
    constructor
    · cases gExt with
      | some g => rfl
      | none =>
        rw [orExt_none]
        rw [hg, ← hr']
        rfl
    · cases mExt with
      | some m => rfl
      | none =>
        rw [orExt_none]
        rw [hg, ← hr']
        rfl

/-! ## LPQ -/

theorem dataAt_congr {D D' : ObsZ n X} {v : ℝ} {t t' : Fin n → ℝ} {l : List (Fin n)} (h : AgreeOnZ l D D')
    (ht : ∀ i ∈ l, t i = t' i) : dataAt D v t l = dataAt D' v t' l :=
  filter_map_congr (fun i hi => by rw [h.z i hi]) fun i hi => by rw [h.x i hi, ht i hi]

theorem lpqPrelim_congr {E : NestedExt n} (K : LpqLearners P X) (c : QuantSet) {D D' : ObsZ n X} (k : ℕ) (p : LpqParams P)
    {h1 : List (Fin n)} (h : AgreeOnZ h1 D D') : lpqPrelim E K c D k p h1 = lpqPrelim E K c D' k p h1 := by
  have hs : sub h1 D.strata = sub h1 D'.strata := sub_congr fun i hi => by
    unfold ObsZ.strata
    rw [h.d i hi, h.z i hi]
  unfold lpqPrelim prelimFit
  rw [hs, dataAt_congr h h.d, dataAt_congr h h.d, sub_congr h.x, sub_congr h.y, sub_congr h.z, sub_congr h.d]

theorem lpqFold_congr {E : NestedExt n} (hE : E.Ok) (K : LpqLearners P X) (c : QuantSet) {D D' : ObsZ n X} (k : ℕ)
    (p : LpqParams P) {f : Fold n} (h : AgreeOnZ f.train D D') : lpqFold E K c D k p f = lpqFold E K c D' k p f := by
  have hs : f.train.map D.strata = f.train.map D'.strata := map_congr_mem fun i hi => by
    unfold ObsZ.strata
    rw [h.d i hi, h.z i hi]
  unfold lpqFold
  rw [hs]
  cases hh : E.halves f.train (f.train.map D'.strata) with
  | error e => rfl
  | ok hs =>
    obtain ⟨m1, m2⟩ := hE.mem hh
    have a2 := h.mono m2
    simp only [bind, Except.bind]
    rw [lpqPrelim_congr K c k p (h.mono m1)]
    cases lpqPrelim E K c D' k p hs.1 with
    | error e => rfl
    | ok ipw =>
      simp only
      rw [trainData_congr h.x h.z, dataAt_congr h h.d, dataAt_congr h h.d,
        dataAt_congr (v := 0) a2 (fun i hi => by rw [a2.d i hi, a2.y i hi] :
          ∀ i ∈ hs.2, indEq (D.d i) c.treatment * indLe (D.y i) ipw = indEq (D'.d i) c.treatment * indLe (D'.y i) ipw),
        dataAt_congr (v := 1) a2 (fun i hi => by rw [a2.d i hi, a2.y i hi] :
          ∀ i ∈ hs.2, indEq (D.d i) c.treatment * indLe (D.y i) ipw = indEq (D'.d i) c.treatment * indLe (D'.y i) ipw)]

theorem lpqPass_fst {E : NestedExt n} {K : LpqLearners P X} {c : QuantSet} {D : ObsZ n X} {k : ℕ}
    {ps : LpqParams (List P)} (fk : Fold n × ℕ) (r : Fold n × LpqFold P X)
    (h : lpqPass E K c D k ps fk = .ok r) : r.1 = fk.1 := by
  unfold lpqPass at h
  obtain ⟨_, _, h⟩ := bind_ok h
  obtain ⟨_, _, h⟩ := bind_ok h
  rw [← Except.ok.inj h]

/-- **C55 (LPQ, in part).** As `C55_quant_partial`: given start value and bounds, the five predictions for a test
observation depend only on the training rows of its fold and on its own covariates. -/
theorem C55_lpq_partial {E : NestedExt n} (hE : E.Ok) {K : LpqLearners P X} {c : QuantSet} {D D' : ObsZ n X}
    {smpls smpls' : List (Fold n)} (hl : smpls.length = smpls'.length) {ps : LpqParams (List P)} {o o' : LpqOut n P X}
    (hp : isPartition smpls = true) (hp' : isPartition smpls' = true) {k : ℕ} {f : Fold n}
    (hf : smpls[k]? = some f) (hf' : smpls'[k]? = some f) {i : Fin n} (hi : i ∈ f.test) (ha : AgreeOnZ f.train D D')
    (hx : D.x i = D'.x i) (h : lpqEstimate E K c D smpls ps = .ok o) (h' : lpqEstimate E K c D' smpls' ps = .ok o') :
    o.mz i = o'.mz i ∧ o.mdz0 i = o'.mdz0 i ∧ o.mdz1 i = o'.mdz1 i ∧ o.g0 i = o'.g0 i ∧ o.g1 i = o'.g1 i := by
  unfold lpqEstimate at h h'
  obtain ⟨rs, h1, h⟩ := bind_ok h
  obtain ⟨rs', h1', h'⟩ := bind_ok h'
  have h := Except.ok.inj h
  have h' := Except.ok.inj h'
  obtain ⟨r, hr, -, hg⟩ := gather_at lpqPass_fst h1 hp hf hi
  obtain ⟨r', hr', -, hg'⟩ := gather_at lpqPass_fst h1' hp' hf' hi
  have hpass : lpqPass E K c D smpls.length ps (f, k) = lpqPass E K c D' smpls'.length ps (f, k) := by
    unfold lpqPass
    rw [hl]
    cases lpqParamsAt ps (f, k).2 with
    | error e => rfl
    | ok p =>
      simp only [bind, Except.bind]
      rw [lpqFold_congr hE K c _ p ha]
  rw [hpass, hr'] at hr
  have hrr : r = r' := (Prod.mk.inj (Except.ok.inj hr)).2.symm
  subst hrr
  rw [← h, ← h']
  dsimp only
  unfold lpqGather
  simp only [hg, hg', hx, and_self]

/-- **C55 (LPQ).** The preliminary estimate uses the first half of the training set, the two outcome models the
rows of the second half with the respective instrument, the propensities the whole training set. -/
theorem C55_lpq_halves {E : NestedExt n} (hE : E.Ok) {K : LpqLearners P X} {c : QuantSet} {D : ObsZ n X} {k : ℕ}
    {p : LpqParams P} {f : Fold n} (hnd : f.train.Nodup) {r : LpqFold P X} (h : lpqFold E K c D k p f = .ok r) :
    ∃ h1 h2 : List (Fin n), (h1 ++ h2).Perm f.train ∧ h1.Disjoint h2 ∧
      (∀ (D' : ObsZ n X) (r' : LpqFold P X), AgreeOnZ h1 D D' →
        E.halves f.train (f.train.map D'.strata) = E.halves f.train (f.train.map D.strata) →
        lpqFold E K c D' k p f = .ok r' → r'.ipw = r.ipw) ∧
      r.g0 = ⟨p.g0, (h2.filter fun i => decide (D.z i = 0)).map fun i =>
        (D.x i, indEq (D.d i) c.treatment * indLe (D.y i) r.ipw)⟩ ∧
      r.g1 = ⟨p.g1, (h2.filter fun i => decide (D.z i = 1)).map fun i =>
        (D.x i, indEq (D.d i) c.treatment * indLe (D.y i) r.ipw)⟩ ∧
      r.mz = ⟨p.mz, f.train.map fun i => (D.x i, D.z i)⟩ ∧
      r.mdz0 = ⟨p.mdz0, (f.train.filter fun i => decide (D.z i = 0)).map fun i => (D.x i, D.d i)⟩ ∧
      r.mdz1 = ⟨p.mdz1, (f.train.filter fun i => decide (D.z i = 1)).map fun i => (D.x i, D.d i)⟩ := by
  unfold lpqFold at h
  obtain ⟨hs, hh, h⟩ := bind_ok h
  obtain ⟨ipw, hipw, h⟩ := bind_ok h
  have hr := Except.ok.inj h
  have hperm : (hs.1 ++ hs.2).Perm f.train := hE.halves hh
  refine ⟨hs.1, hs.2, hperm, ?_, ?_, by rw [← hr]; rfl, by rw [← hr]; rfl, by rw [← hr]; rfl, by rw [← hr]; rfl,
    by rw [← hr]; rfl⟩
  · have := hperm.nodup_iff.2 hnd
    intro i h1 h2
    exact (List.nodup_append.1 this).2.2 i h1 i h2 rfl
  · intro D' r' ha hsame h'
    unfold lpqFold at h'
    obtain ⟨hs', hh', h'⟩ := bind_ok h'
    rw [hsame, hh] at hh'
    have := Except.ok.inj hh'
    subst this
    obtain ⟨ipw', hipw', h'⟩ := bind_ok h'
    rw [← lpqPrelim_congr K c k p ha, hipw] at hipw'
    have := Except.ok.inj hipw'
    subst this
    rw [← hr, ← Except.ok.inj h']

/-- **C28 (LPQ, violation).** External predictions that are supplied for some but not for all five learners are
ignored without an error: the result is the one without external predictions.  The test that is meant to reject
them can never succeed. -/
theorem C28_lpq_ignored {E : NestedExt n} {K : LpqLearners P X} {c : QuantSet} {D : ObsZ n X} {smpls : List (Fold n)}
    {ps : LpqParams (List P)} {ext : LpqParams (Fin n → ℝ)} (h : ext.all = false) (w : Bool) :
    lpqNuisance E K c D smpls ps ext w = lpqNuisance E K c D smpls ps ⟨none, none, none, none, none⟩ w := by
  unfold lpqNuisance
  rw [if_neg (by rw [h]; exact Bool.false_ne_true), if_neg (by simp [LpqParams.all])]

/-- **C28 (LPQ).** If all five are supplied they are used as they are, and asking for models raises. -/
theorem C28_lpq_all {E : NestedExt n} {K : LpqLearners P X} {c : QuantSet} {D : ObsZ n X} {smpls : List (Fold n)}
    {ps : LpqParams (List P)} (a b c' d e : Fin n → ℝ) :
    (∃ o, lpqNuisance E K c D smpls ps ⟨some a, some b, some c', some d, some e⟩ false = .ok o ∧
      (∀ i, o.mz i = some (a i) ∧ o.mdz0 i = some (b i) ∧ o.mdz1 i = some (c' i) ∧ o.g0 i = some (d i) ∧
        o.g1 i = some (e i)) ∧ o.start = c.start) ∧
    lpqNuisance E K c D smpls ps ⟨some a, some b, some c', some d, some e⟩ true = .error .attributeError :=
  ⟨⟨_, rfl, fun _ => ⟨rfl, rfl, rfl, rfl, rfl⟩, rfl⟩, rfl⟩

/-! ## SSM -/

theorem xpi_congr {K : SsmLearners P X XD} {pi : FittedModel P XD} {D D' : ObsS n X XD} {l : List (Fin n)}
    (h : AgreeOnS l D D') : ∀ i ∈ l, xpi K pi D i = xpi K pi D' i := fun i hi => by
  unfold xpi
  rw [h.x i hi, h.dx i hi]

theorem ssmSel_congr {D D' : ObsS n X XD} {l : List (Fin n)} (h : AgreeOnS l D D') (v : ℝ) :
    ssmSel D v l = ssmSel D' v l := by
  unfold ssmSel intersect1d
  congr 1
  ext i
  simp only [Finset.mem_inter, List.mem_toFinset, mem_whereIdx, Finset.mem_sort]
  constructor
  · rintro ⟨h1, h2, h3⟩
    exact ⟨by rw [← h.d i h3]; exact h1, by rw [← h.s i h3]; exact h2, h3⟩
  · rintro ⟨h1, h2, h3⟩
    exact ⟨by rw [h.d i h3]; exact h1, by rw [h.s i h3]; exact h2, h3⟩

theorem mem_ssmSel {D : ObsS n X XD} {v : ℝ} {l : List (Fin n)} {i : Fin n} :
    i ∈ ssmSel D v l ↔ D.d i = v ∧ D.s i = 1 ∧ i ∈ l := by
  unfold ssmSel
  rw [mem_intersect1d, mem_intersect1d, mem_whereIdx, mem_whereIdx]

theorem AgreeOnS.mono {l l' : List (Fin n)} {D D' : ObsS n X XD} (h : AgreeOnS l D D') (hl : ∀ i ∈ l', i ∈ l) :
    AgreeOnS l' D D' :=
  ⟨h.toAgreeOn.mono hl, fun i hi => h.dx i (hl i hi), fun i hi => h.s i (hl i hi)⟩

theorem ssmFold_congr {E : NestedExt n} (hE : E.Ok) (K : SsmLearners P X XD) {D D' : ObsS n X XD}
    (p : Option P × Option P × Option P × Option P) {f : Fold n} (h : AgreeOnS f.train D D') :
    ssmFold E K D p f = ssmFold E K D' p f := by
  have hs : f.train.map D.strata = f.train.map D'.strata := map_congr_mem fun i hi => by
    unfold ObsS.strata
    rw [h.d i hi, h.s i hi]
  unfold ssmFold
  rw [hs]
  cases hh : E.halves f.train (f.train.map D'.strata) with
  | error e => rfl
  | ok hs =>
    obtain ⟨m1, m2⟩ := hE.mem hh
    have a1 := h.mono m1
    have a2 := h.mono m2
    have sel : ∀ v, ∀ i ∈ ssmSel D' v hs.2, i ∈ hs.2 := fun v i hi => (mem_ssmSel.1 hi).2.2
    simp only [bind, Except.bind]
    rw [ssmSel_congr a2 1, ssmSel_congr a2 0, trainData_congr a1.dx a1.s, trainData_congr (xpi_congr a2) a2.d,
      trainData_congr (xpi_congr (a2.mono (sel 1))) (a2.mono (sel 1)).y,
      trainData_congr (xpi_congr (a2.mono (sel 0))) (a2.mono (sel 0)).y]

theorem ssmPass_fst {E : NestedExt n} {K : SsmLearners P X XD} {D : ObsS n X XD} {ps : SsmParams P}
    (fk : Fold n × ℕ) (r : Fold n × SsmFold P X XD) (h : ssmPass E K D ps fk = .ok r) : r.1 = fk.1 := by
  unfold ssmPass at h
  obtain ⟨_, _, h⟩ := bind_ok h
  obtain ⟨_, _, h⟩ := bind_ok h
  obtain ⟨_, _, h⟩ := bind_ok h
  obtain ⟨_, _, h⟩ := bind_ok h
  obtain ⟨_, _, h⟩ := bind_ok h
  rw [← Except.ok.inj h]

/-- **C55 (SSM with nonignorable nonresponse).** The four predictions for a test observation depend only on the
training rows of its fold and on its own covariates, treatment and instrument.  (Nothing is computed from the
whole sample beforehand.) -/
theorem C55_ssm {E : NestedExt n} (hE : E.Ok) {K : SsmLearners P X XD} {D D' : ObsS n X XD} {tr : ℝ}
    {smpls smpls' : List (Fold n)} {ps : SsmParams P} {o o' : SsmOut n P X XD}
    (hp : isPartition smpls = true) (hp' : isPartition smpls' = true) {k : ℕ} {f : Fold n}
    (hf : smpls[k]? = some f) (hf' : smpls'[k]? = some f) {i : Fin n} (hi : i ∈ f.test) (ha : AgreeOnS f.train D D')
    (hx : D.x i = D'.x i) (hdx : D.dx i = D'.dx i)
    (h : ssmNuisance E K D tr smpls ps = .ok o) (h' : ssmNuisance E K D' tr smpls' ps = .ok o') :
    o.pi i = o'.pi i ∧ o.m i = o'.m i ∧ o.g1 i = o'.g1 i ∧ o.g0 i = o'.g0 i := by
  unfold ssmNuisance at h h'
  obtain ⟨rs, h1, h⟩ := bind_ok h
  obtain ⟨rs', h1', h'⟩ := bind_ok h'
  have h := Except.ok.inj h
  have h' := Except.ok.inj h'
  obtain ⟨r, hr, -, hg⟩ := gather_at ssmPass_fst h1 hp hf hi
  obtain ⟨r', hr', -, hg'⟩ := gather_at ssmPass_fst h1' hp' hf' hi
  have hpass : ssmPass E K D ps (f, k) = ssmPass E K D' ps (f, k) := by
    unfold ssmPass
    simp only [ssmFold_congr hE K _ ha]
  rw [hpass, hr'] at hr
  have hrr : r = r' := (Prod.mk.inj (Except.ok.inj hr)).2.symm
  subst hrr
  rw [← h, ← h']
  dsimp only
  simp only [hg, hg', SsmFold.row, xpi, hx, hdx, and_self]

/-- **C55 (SSM with nonignorable nonresponse).** The selection model is trained on the first half; the propensity
and the two outcome models on the second half, the outcome models on the selected observations with the
respective treatment; their features contain the prediction of the selection model. -/
theorem C55_ssm_halves {E : NestedExt n} (hE : E.Ok) {K : SsmLearners P X XD} {D : ObsS n X XD}
    {p : Option P × Option P × Option P × Option P} {f : Fold n} (hnd : f.train.Nodup) {r : SsmFold P X XD}
    (h : ssmFold E K D p f = .ok r) :
    ∃ h1 h2 : List (Fin n), (h1 ++ h2).Perm f.train ∧ h1.Disjoint h2 ∧
      r.pi = ⟨p.1, h1.map fun i => (D.dx i, D.s i)⟩ ∧
      r.m = ⟨p.2.1, h2.map fun i => ((D.x i, zeroOne K.pi r.pi (D.dx i)), D.d i)⟩ ∧
      (∃ l1 : List (Fin n), (∀ i, i ∈ l1 ↔ i ∈ h2 ∧ D.d i = 1 ∧ D.s i = 1) ∧ l1.Nodup ∧
        r.g1 = ⟨p.2.2.1, l1.map fun i => ((D.x i, zeroOne K.pi r.pi (D.dx i)), D.y i)⟩) ∧
      ∃ l0 : List (Fin n), (∀ i, i ∈ l0 ↔ i ∈ h2 ∧ D.d i = 0 ∧ D.s i = 1) ∧ l0.Nodup ∧
        r.g0 = ⟨p.2.2.2, l0.map fun i => ((D.x i, zeroOne K.pi r.pi (D.dx i)), D.y i)⟩ := by
  unfold ssmFold at h
  obtain ⟨hs, hh, h⟩ := bind_ok h
  have hr := Except.ok.inj h
  have hperm : (hs.1 ++ hs.2).Perm f.train := hE.halves hh
  have hdis : hs.1.Disjoint hs.2 := by
    have := hperm.nodup_iff.2 hnd
    intro i h1 h2
    exact (List.nodup_append.1 this).2.2 i h1 i h2 rfl
  subst hr
  refine ⟨hs.1, hs.2, hperm, hdis, rfl, rfl, ⟨ssmSel D 1 hs.2, ?_, ?_, rfl⟩, ⟨ssmSel D 0 hs.2, ?_, ?_, rfl⟩⟩
  · intro i
    rw [mem_ssmSel]
    tauto
  · unfold ssmSel intersect1d
    exact Finset.sort_nodup _ _
  · intro i
    rw [mem_ssmSel]
    tauto
  · unfold ssmSel intersect1d
    exact Finset.sort_nodup _ _

/-! ## A concrete case, and the violations

Twelve observations in two folds.  Each training set has two treated and four control observations, which are
split into halves with one treated and two control observations each. -/

/-- Routines that satisfy the contract: the first and the second half of the index list; one fold of all
positions; the better end of the bracket. -/
noncomputable def exNested (n : ℕ) : NestedExt n :=
  { halves := fun l _ => .ok (l.take (l.length / 2), l.drop (l.length / 2))
    skf := fun m _ _ => .ok [⟨List.finRange m, List.finRange m⟩]
    minScalar := fun f b => if f b.1 ≤ f b.2 then b.1 else b.2 }

theorem exNested_ok (n : ℕ) : (exNested n).Ok := by
  constructor
  · intro l s a b h
    obtain ⟨rfl, rfl⟩ := Prod.mk.inj (Except.ok.inj h)
    rw [List.take_append_drop]
  · intro m k s f h
    rw [← Except.ok.inj h, isPartition_iff]
    simp

/-- Outcomes; observation 4, a control in the first test set, has outcome `T`. -/
noncomputable def exY (T : ℝ) : Fin 12 → ℝ := ![-1, 0, 0, -1, T, -5, 0, 0, 0, -1, 0, 0]

/-- Treatments. -/
noncomputable def exD : Fin 12 → ℝ := ![1, 0, 0, 1, 0, 0, 1, 0, 0, 1, 0, 0]

/-- The observations with arbitrary covariates. -/
noncomputable def exObs (x : Fin 12 → X) (T : ℝ) : Obs 12 X := ⟨x, exY T, exD⟩

/-- The training set of the first fold. -/
def exF0 : Fold 12 := ⟨[6, 7, 8, 9, 10, 11], [0, 1, 2, 3, 4, 5]⟩

/-- The second fold. -/
def exF1 : Fold 12 := ⟨[0, 1, 2, 3, 4, 5], [6, 7, 8, 9, 10, 11]⟩

/-- A classifier that predicts the label of its first training observation. -/
noncomputable def exLearner (X : Type) : Learner Unit X :=
  { predict := fun _ D _ => (D.map Prod.snd).headD 0
    proba := fun _ D _ => [1 - (D.map Prod.snd).headD 0, (D.map Prod.snd).headD 0] }

/-- The propensity supplied by the user. -/
noncomputable def exM : Fin 12 → ℝ := fun _ => 1 / 10

/-- Settings: treatment 1, quantile 5/6, trimming at 1/100, no normalisation. -/
noncomputable def exSet (start lo hi : ℝ) : QuantSet := ⟨1, 5 / 6, 1 / 100, false, start, lo, hi⟩

theorem exPartition : isPartition [exF0, exF1] = true := by decide

/-- A step function. -/
noncomputable def stepAt (v t : ℝ) : ℝ := if v ≤ t then 5 / 2 else -(5 / 6)

theorem exScore (c : QuantSet) (hc : c.treatment = 1 ∧ c.q = 5 / 6 ∧ c.trimT = 1 / 100 ∧ c.normalize = false)
    (y : Fin 3 → ℝ) : c.ipwMean ![1, 0, 0] y (fun _ => 1 / 10) = stepAt (y 0) := by
  obtain ⟨h1, h2, h3, h4⟩ := hc
  funext t
  have hadj : ∀ i, c.adj (fun _ : Fin 3 => 1 / 10) ![1, 0, 0] i = 1 / 10 := by
    intro i
    unfold QuantSet.adj adjust
    rw [h1, h3, h4, if_neg one_ne_zero]
    simp only [Bool.false_eq_true, if_false]
    unfold trim
    norm_num
  unfold QuantSet.ipwMean mean ipwScore
  simp only [hadj, h1, h2, Fin.sum_univ_three]
  unfold stepAt indEq indLe
  simp only [Matrix.cons_val_zero, Matrix.cons_val_one, Matrix.cons_val]
  split_ifs <;> norm_num at *

theorem stepAt_sign (v t : ℝ) : SignType.sign (stepAt v t) = if v ≤ t then 1 else -1 := by
  unfold stepAt
  split_ifs with h
  · exact sign_pos (by norm_num)
  · exact sign_neg (by norm_num)

/-- The solver on a step function: the left end of the first bracket around the step. -/
theorem exSolve {v start lo hi : ℝ} (m : ℕ) (hm : 1 ≤ m) (hm' : m ≤ 10)
    (h1 : (bracketAt start lo hi m).1 < v) (h2 : v ≤ (bracketAt start lo hi m).2)
    (h3 : ∀ l, 1 ≤ l → l < m → (v ≤ (bracketAt start lo hi l).1 ↔ v ≤ (bracketAt start lo hi l).2)) :
    solveIpw (exNested n) (stepAt v) start lo hi = (bracketAt start lo hi m).1 := by
  have hs : SignChange (stepAt v) (bracketAt start lo hi m) := by
    unfold SignChange
    rw [stepAt_sign, stepAt_sign, if_neg (not_le.2 h1), if_pos h2]
    decide
  have hns : ∀ l, 1 ≤ l → l < m → ¬ SignChange (stepAt v) (bracketAt start lo hi l) := by
    intro l hl hlm
    unfold SignChange
    rw [stepAt_sign, stepAt_sign, not_not]
    have := h3 l hl hlm
    split_ifs <;> tauto
  have hb : (bracketGuess (stepAt v) start lo hi).2 = bracketAt start lo hi m := by
    rcases C43_bracket_search (stepAt v) start lo hi with ⟨m', a1, a2, a3, a4, a5⟩ | ⟨a1, -⟩
    · rw [a5]
      have : m' = m := by
        rcases lt_trichotomy m' m with h | h | h
        · exact absurd a3 (hns m' a1 h)
        · exact h
        · exact absurd hs (a4 m hm h)
      rw [this]
    · exact absurd hs (a1 m hm hm')
  unfold solveIpw
  rw [hb]
  show (if |stepAt v (bracketAt start lo hi m).1| ≤ |stepAt v (bracketAt start lo hi m).2| then
    (bracketAt start lo hi m).1 else (bracketAt start lo hi m).2) = _
  refine if_pos ?_
  unfold stepAt
  rw [if_neg (not_le.2 h1), if_pos h2]
  norm_num [abs_of_pos]

/-- The two preliminary estimates of the example. -/
noncomputable def exIpw (v start lo hi : ℝ) : ℝ := solveIpw (exNested 12) (stepAt v) start lo hi

/-- The preliminary estimate of a fold of the example whose first half is `h1`, with supplied propensities `m`. -/
noncomputable def exPrelim (m : Fin 12 → ℝ) (T start lo hi : ℝ) (a b c : Fin 12) : ℝ :=
  solveIpw (exNested 12) ((exSet start lo hi).ipwMean (sub [a, b, c] exD) (sub [a, b, c] (exY T))
    (prelimExt m [⟨List.finRange 3, List.finRange 3⟩])) start lo hi

/-- A run of PQ on the example: it succeeds; the prediction for the first test set is the label of treated
observation 9. -/
theorem exRunM (x : Fin 12 → X) (m : Fin 12 → ℝ) (T start lo hi : ℝ) : ∃ o : QuantOut 12 Unit X,
    quantNuisance (exNested 12) (exLearner X) (zeroOne (exLearner X)) (exSet start lo hi)
      (fun ipw y => indLe y ipw) (exObs x T) [exF0, exF1] none none none (some m) false = .ok o ∧
    o.g 4 = some (indLe (-1) (exPrelim m T start lo hi 6 7 8)) ∧
    o.folds.map (fun r => r.2.ipw) = [exPrelim m T start lo hi 6 7 8, exPrelim m T start lo hi 0 1 2] := by
  have p0 : quantPass (exNested 12) (exLearner X) (exSet start lo hi) (fun ipw y => indLe y ipw) (exObs x T) 2
      none none none (some m) (exF0, 0) =
      .ok (exF0, ⟨exPrelim m T start lo hi 6 7 8,
        some ⟨none, [(x 9, indLe (-1) (exPrelim m T start lo hi 6 7 8))]⟩, none⟩) := by
    have hg : secondHalf 1 (fun y => indLe y (exPrelim m T start lo hi 6 7 8)) (exObs x T) [9, 10, 11] =
        [(x 9, indLe (-1) (exPrelim m T start lo hi 6 7 8))] := by
      unfold secondHalf
      rw [List.filter_cons, if_pos (by simp [exObs, exD]), List.filter_cons, if_neg (by simp [exObs, exD]),
        List.filter_cons, if_neg (by simp [exObs, exD])]
      rfl
    rw [← hg]
    rfl
  have p1 : quantPass (exNested 12) (exLearner X) (exSet start lo hi) (fun ipw y => indLe y ipw) (exObs x T) 2
      none none none (some m) (exF1, 1) =
      .ok (exF1, ⟨exPrelim m T start lo hi 0 1 2,
        some ⟨none, [(x 3, indLe (-1) (exPrelim m T start lo hi 0 1 2))]⟩, none⟩) := by
    have hg : secondHalf 1 (fun y => indLe y (exPrelim m T start lo hi 0 1 2)) (exObs x T) [3, 4, 5] =
        [(x 3, indLe (-1) (exPrelim m T start lo hi 0 1 2))] := by
      unfold secondHalf
      rw [List.filter_cons, if_pos (by simp [exObs, exD]), List.filter_cons, if_neg (by simp [exObs, exD]),
        List.filter_cons, if_neg (by simp [exObs, exD])]
      rfl
    rw [← hg]
    rfl
  have hps : quantPasses (exNested 12) (exLearner X) (exSet start lo hi) (fun ipw y => indLe y ipw) (exObs x T)
      [exF0, exF1] none none none (some m) =
      .ok [(exF0, ⟨exPrelim m T start lo hi 6 7 8,
          some ⟨none, [(x 9, indLe (-1) (exPrelim m T start lo hi 6 7 8))]⟩, none⟩),
        (exF1, ⟨exPrelim m T start lo hi 0 1 2,
          some ⟨none, [(x 3, indLe (-1) (exPrelim m T start lo hi 0 1 2))]⟩, none⟩)] := by
    unfold quantPasses
    rw [if_neg (by simp)]
    show List.mapM _ [(exF0, 0), (exF1, 1)] = _
    rw [List.mapM_cons, List.mapM_cons, List.mapM_nil]
    show (do
      let a ← quantPass (exNested 12) (exLearner X) (exSet start lo hi) (fun ipw y => indLe y ipw) (exObs x T) 2
        none none none (some m) (exF0, 0)
      let b ← do
        let a ← quantPass (exNested 12) (exLearner X) (exSet start lo hi) (fun ipw y => indLe y ipw) (exObs x T) 2
          none none none (some m) (exF1, 1)
        let b ← pure []
        pure (a :: b)
      pure (a :: b)) = _
    rw [p0, p1]
    rfl
  unfold quantNuisance
  rw [hps]
  refine ⟨_, rfl, ?_, rfl⟩
  rfl

theorem exSet_fields (start lo hi : ℝ) : (exSet start lo hi).treatment = 1 ∧ (exSet start lo hi).q = 5 / 6 ∧
    (exSet start lo hi).trimT = 1 / 100 ∧ (exSet start lo hi).normalize = false := ⟨rfl, rfl, rfl, rfl⟩

theorem exPrelim_eq (T start lo hi : ℝ) {a b c : Fin 12} (hd : sub [a, b, c] exD = ![1, 0, 0]) :
    exPrelim exM T start lo hi a b c = exIpw (exY T a) start lo hi := by
  have hm' : prelimExt exM [⟨List.finRange 3, List.finRange 3⟩] = fun _ : Fin 3 => 1 / 10 := by
    funext i
    fin_cases i <;> rfl
  have hs := exScore (exSet start lo hi) (exSet_fields start lo hi) (sub [a, b, c] (exY T))
  unfold exPrelim
  rw [hd]
  show solveIpw (exNested 12) ((exSet start lo hi).ipwMean ![1, 0, 0] (sub [a, b, c] (exY T))
    (prelimExt exM [⟨List.finRange 3, List.finRange 3⟩])) start lo hi = _
  rw [hm', hs]
  rfl

/-- With the constant propensity the preliminary estimates are those of the steps at `Y₆ = 0` and `Y₀ = -1`. -/
theorem exRun (x : Fin 12 → X) (T start lo hi : ℝ) : ∃ o : QuantOut 12 Unit X,
    quantNuisance (exNested 12) (exLearner X) (zeroOne (exLearner X)) (exSet start lo hi)
      (fun ipw y => indLe y ipw) (exObs x T) [exF0, exF1] none none none (some exM) false = .ok o ∧
    o.g 4 = some (indLe (-1) (exIpw 0 start lo hi)) ∧
    o.folds.map (fun r => r.2.ipw) = [exIpw 0 start lo hi, exIpw (-1) start lo hi] := by
  obtain ⟨o, h1, h2, h3⟩ := exRunM x exM T start lo hi
  have e0 : exPrelim exM T start lo hi 6 7 8 = exIpw 0 start lo hi := by
    rw [exPrelim_eq T start lo hi (by funext i; fin_cases i <;> rfl)]
    rfl
  have e1 : exPrelim exM T start lo hi 0 1 2 = exIpw (-1) start lo hi := by
    rw [exPrelim_eq T start lo hi (by funext i; fin_cases i <;> rfl)]
    rfl
  exact ⟨o, h1, by rw [h2, e0], by rw [h3, e0, e1]⟩

theorem exY_agree (T T' : ℝ) : ∀ i, i ≠ 4 → exY T i = exY T' i := by
  intro i hi
  fin_cases i <;> simp [exY] at hi ⊢

theorem exBounds (T : ℝ) (hT : 0 ≤ T) : coefBounds (exY T) = (-5, T) := by
  have h1 : ∀ i, -5 ≤ exY T i ∧ exY T i ≤ T := by
    intro i
    fin_cases i <;> simp [exY] <;> linarith
  unfold coefBounds
  have hb : BddBelow (Set.range (exY T)) := ⟨-5, by rintro _ ⟨i, rfl⟩; exact (h1 i).1⟩
  have ha : BddAbove (Set.range (exY T)) := ⟨T, by rintro _ ⟨i, rfl⟩; exact (h1 i).2⟩
  refine Prod.ext ?_ ?_
  · exact le_antisymm (ciInf_le hb (5 : Fin 12)) (le_ciInf fun i => (h1 i).1)
  · exact le_antisymm (ciSup_le fun i => (h1 i).2) (le_ciSup ha (4 : Fin 12))

theorem exTreated (T : ℝ) : treatedY (exY T) exD 1 = [-1, -1, 0, -1] := by
  have h : (List.finRange 12) = [0, 1, 2, 3, 4, 5, 6, 7, 8, 9, 10, 11] := by decide
  unfold treatedY
  rw [h]
  simp [exD, exY]

theorem exQuantile : quantileOf [-1, -1, 0, -1] (5 / 6) = -(1 / 2) := by
  have hmono : Monotone ((fun i : Fin 4 => ([-1, -1, 0, -1] : List ℝ).get i) ∘ (Equiv.swap (2 : Fin 4) 3)) := by
    have e : ((fun i : Fin 4 => ([-1, -1, 0, -1] : List ℝ).get i) ∘ (Equiv.swap (2 : Fin 4) 3)) = ![-1, -1, -1, 0] := by
      funext i
      fin_cases i <;> simp [Equiv.swap_apply_def]
    rw [e]
    intro i j hij
    fin_cases i <;> fin_cases j <;> simp at *
  have hk := kth_eq_of_monotone (f := fun i : Fin 4 => ([-1, -1, 0, -1] : List ℝ).get i) (σ := Equiv.swap (2 : Fin 4) 3) hmono
  have k2 : kth (fun i : Fin 4 => ([-1, -1, 0, -1] : List ℝ).get i) ⟨2, by norm_num⟩ = -1 := by
    rw [hk, show Equiv.swap (2 : Fin 4) 3 ⟨2, by norm_num⟩ = 3 from Equiv.swap_apply_left _ _]
    rfl
  have k3 : kth (fun i : Fin 4 => ([-1, -1, 0, -1] : List ℝ).get i) ⟨3, by norm_num⟩ = 0 := by
    rw [hk, show Equiv.swap (2 : Fin 4) 3 ⟨3, by norm_num⟩ = 2 from Equiv.swap_apply_right _ _]
    rfl
  unfold quantileOf
  show quantile (fun i : Fin 4 => ([-1, -1, 0, -1] : List ℝ).get i) (5 / 6) = _
  have hfl : ⌊(5 / 6 : ℝ) * (((4 : ℕ) : ℝ) - 1)⌋₊ = 2 := by
    rw [Nat.floor_eq_iff (by norm_num)]
    constructor <;> norm_num
  clear hk hmono
  generalize (fun i : Fin 4 => ([-1, -1, 0, -1] : List ℝ).get i) = v at *
  unfold quantile
  rw [dif_pos (by norm_num)]
  simp only [hfl]
  norm_num [k2, k3]

/-- The settings of the constructor. -/
theorem exSettings_eq (T : ℝ) (hT : 0 ≤ T) :
    pqSettings 1 (5 / 6) (1 / 100) false (exY T) exD = exSet (-(1 / 2)) (-5) T := by
  unfold pqSettings pqStart exSet
  rw [exBounds T hT, exTreated, exQuantile]

theorem exIpw5 : exIpw 0 (-(1 / 2)) (-5) 5 = -1 := by
  unfold exIpw
  rw [exSolve 1 le_rfl (by norm_num) (by unfold bracketAt; norm_num) (by unfold bracketAt; norm_num) (fun l h1 h2 => by omega)]
  unfold bracketAt
  norm_num

theorem exIpw50 : exIpw 0 (-(1 / 2)) (-5) 50 = -(13 / 4) := by
  unfold exIpw
  rw [exSolve 1 le_rfl (by norm_num) (by unfold bracketAt; norm_num) (by unfold bracketAt; norm_num) (fun l h1 h2 => by omega)]
  unfold bracketAt
  norm_num

/-- **C55 (violated).** In PQ the prediction for an observation can depend on its own outcome.  In a data set with
twelve observations and two folds only the outcome of observation 4 is changed, which is in the test set and not in
the training set of its fold; the bounds of the search for the preliminary estimate are the smallest and the largest
outcome of the whole sample, so that the preliminary estimate of the fold, the labels of its outcome model and the
prediction for observation 4 itself change. -/
theorem C55_violated : ∃ (E : NestedExt 12) (L : Learner Unit Unit) (x : Fin 12 → Unit) (y y' d m : Fin 12 → ℝ)
    (f f' : Fold 12) (o o' : QuantOut 12 Unit Unit),
    E.Ok ∧ isPartition [f, f'] = true ∧ (∀ i, i ≠ 4 → y i = y' i) ∧ (4 : Fin 12) ∈ f.test ∧ (4 : Fin 12) ∉ f.train ∧
    quantNuisance E L (zeroOne L) (pqSettings 1 (5 / 6) (1 / 100) false y d) (fun ipw y => indLe y ipw) ⟨x, y, d⟩ [f, f']
      none none none (some m) false = .ok o ∧
    quantNuisance E L (zeroOne L) (pqSettings 1 (5 / 6) (1 / 100) false y' d) (fun ipw y => indLe y ipw) ⟨x, y', d⟩ [f, f']
      none none none (some m) false = .ok o' ∧
    o.g 4 = some 1 ∧ o'.g 4 = some 0 := by
  obtain ⟨o, h1, h2, -⟩ := exRun (fun _ : Fin 12 => ()) 5 (-(1 / 2)) (-5) 5
  obtain ⟨o', h1', h2', -⟩ := exRun (fun _ : Fin 12 => ()) 50 (-(1 / 2)) (-5) 50
  refine ⟨exNested 12, exLearner Unit, fun _ => (), exY 5, exY 50, exD, exM, exF0, exF1, o, o', exNested_ok 12,
    exPartition, ?_, by decide, by decide, ?_, ?_, ?_, ?_⟩
  · exact exY_agree 5 50
  · rw [exSettings_eq 5 (by norm_num)]
    exact h1
  · rw [exSettings_eq 50 (by norm_num)]
    exact h1'
  · rw [h2, exIpw5]
    norm_num [indLe]
  · rw [h2', exIpw50]
    norm_num [indLe]

/-- The supplied propensities with another value for observation 0. -/
noncomputable def exM' : Fin 12 → ℝ := fun i => if i = 0 then 1 else 1 / 10

/-- The preliminary estimate with these propensities: the moment is negative everywhere, the right end of the last
bracket is the better one. -/
theorem exPrelim' : exPrelim exM' 50 (-(1 / 2)) (-5) 50 6 7 8 = 27 := by
  have hp : ∀ i : Fin 3, prelimExt exM' [⟨List.finRange 3, List.finRange 3⟩] i = if i = 0 then 1 else 1 / 10 := by
    intro i
    fin_cases i
    · show exM' 0 = _
      simp [exM']
    · show exM' 1 = _
      simp [exM']
    · show exM' 2 = _
      simp [exM']
  have hs : ∀ t, (exSet (-(1 / 2)) (-5) 50).ipwMean (sub [6, 7, 8] exD) (sub [6, 7, 8] (exY 50))
      (prelimExt exM' [⟨List.finRange 3, List.finRange 3⟩]) t = if 0 ≤ t then -(295 / 594) else -(5 / 6) := by
    intro t
    have hadj : ∀ i : Fin 3, (exSet (-(1 / 2)) (-5) 50).adj (prelimExt exM' [⟨List.finRange 3, List.finRange 3⟩])
        (sub [6, 7, 8] exD) i = if i = 0 then 99 / 100 else 1 / 10 := by
      intro i
      unfold QuantSet.adj adjust exSet
      dsimp only
      rw [if_neg one_ne_zero]
      simp only [Bool.false_eq_true, if_false]
      rw [hp i]
      unfold trim
      split_ifs <;> norm_num
    unfold QuantSet.ipwMean mean ipwScore
    show (∑ i : Fin 3, (indEq (sub [6, 7, 8] exD i) 1 / (exSet (-(1 / 2)) (-5) 50).adj
      (prelimExt exM' [⟨List.finRange 3, List.finRange 3⟩]) (sub [6, 7, 8] exD) i *
      indLe (sub [6, 7, 8] (exY 50) i) t - 5 / 6)) / ((3 : ℕ) : ℝ) = _
    rw [Fin.sum_univ_three]
    simp only [hadj]
    have d0 : sub [6, 7, 8] exD (0 : Fin 3) = 1 := rfl
    have d1 : sub [6, 7, 8] exD (1 : Fin 3) = 0 := rfl
    have d2 : sub [6, 7, 8] exD (2 : Fin 3) = 0 := rfl
    have y0 : sub [6, 7, 8] (exY 50) (0 : Fin 3) = 0 := rfl
    rw [d0, d1, d2, y0]
    unfold indEq indLe
    by_cases ht : 0 ≤ t
    · rw [if_pos ht, if_pos ht]
      norm_num
    · rw [if_neg ht, if_neg ht]
      norm_num
  unfold exPrelim
  generalize (exSet (-(1 / 2)) (-5) 50).ipwMean (sub [6, 7, 8] exD) (sub [6, 7, 8] (exY 50))
      (prelimExt exM' [⟨List.finRange 3, List.finRange 3⟩]) = sc at hs
  have hn : ∀ b, ¬ SignChange sc b := by
    intro b
    unfold SignChange
    have : ∀ t, SignType.sign (sc t) = -1 := by
      intro t
      rw [hs t]
      split_ifs <;> exact sign_neg (by norm_num)
    rw [this, this, not_not]
  have hb : (bracketGuess sc (-(1 / 2)) (-5) 50).2 = (-5, 27) := by
    rcases C43_bracket_search sc (-(1 / 2)) (-5) 50 with ⟨m, -, -, h, -⟩ | ⟨-, h⟩
    · exact absurd h (hn _)
    · rw [h]
      unfold bracketAt
      norm_num
  unfold solveIpw
  rw [hb]
  show (if |sc (-5)| ≤ |sc 27| then (-5 : ℝ) else 27) = _
  refine if_neg ?_
  rw [hs, hs, if_neg (by norm_num), if_pos (by norm_num)]
  norm_num [abs_of_pos]

/-- **C28 (PQ, violated).** Supplied propensities are not used for the observations they belong to: within the first
half of a training set they are looked up by position in the half.  In a data set with twelve observations and two
folds the first half of the training set of a fold consists of observations 6, 7 and 8; changing the propensity
supplied for observation 0, which is in the test set of the fold, changes the preliminary estimate of the fold and
with it the prediction of the outcome model for test observation 4. -/
theorem C28_pq_violated : ∃ (E : NestedExt 12) (L : Learner Unit Unit) (c : QuantSet) (D : Obs 12 Unit)
    (m m' : Fin 12 → ℝ) (f f' : Fold 12) (o o' : QuantOut 12 Unit Unit),
    E.Ok ∧ isPartition [f, f'] = true ∧ (∀ i, i ≠ 0 → m i = m' i) ∧ (0 : Fin 12) ∉ f.train ∧ (4 : Fin 12) ∈ f.test ∧
    quantNuisance E L (zeroOne L) c (fun ipw y => indLe y ipw) D [f, f'] none none none (some m) false = .ok o ∧
    quantNuisance E L (zeroOne L) c (fun ipw y => indLe y ipw) D [f, f'] none none none (some m') false = .ok o' ∧
    o.g 4 = some 0 ∧ o'.g 4 = some 1 := by
  obtain ⟨o, h1, h2, -⟩ := exRun (fun _ : Fin 12 => ()) 50 (-(1 / 2)) (-5) 50
  obtain ⟨o', h1', h2', -⟩ := exRunM (fun _ : Fin 12 => ()) exM' 50 (-(1 / 2)) (-5) 50
  refine ⟨exNested 12, exLearner Unit, exSet (-(1 / 2)) (-5) 50, exObs (fun _ => ()) 50, exM, exM', exF0, exF1, o, o',
    exNested_ok 12, exPartition, ?_, by decide, by decide, h1, h1', ?_, ?_⟩
  · intro i hi
    unfold exM exM'
    rw [if_neg hi]
  · rw [h2, exIpw50]
    norm_num [indLe]
  · rw [h2', exPrelim']
    norm_num [indLe]

/-- The hypotheses of `C55_quant_partial` and `C55_quant_complete` are met by two runs on different data: the
outcome of a test observation differs. -/
example : ∃ o o' : QuantOut 12 Unit Unit,
    quantNuisance (exNested 12) (exLearner Unit) (zeroOne (exLearner Unit)) (exSet 0 (-5) 50)
      (fun ipw y => indLe y ipw) (exObs (fun _ => ()) 5) [exF0, exF1] none none none (some exM) false = .ok o ∧
    quantNuisance (exNested 12) (exLearner Unit) (zeroOne (exLearner Unit)) (exSet 0 (-5) 50)
      (fun ipw y => indLe y ipw) (exObs (fun _ => ()) 50) [exF0, exF1] none none none (some exM) false = .ok o' ∧
    AgreeOn exF0.train (exObs (fun _ => ()) 5) (exObs (fun _ => ()) 50) ∧
    ¬ AgreeOn exF0.test (exObs (fun _ => ()) 5) (exObs (fun _ => ()) 50) := by
  obtain ⟨o, h, -⟩ := exRun (fun _ : Fin 12 => ()) 5 0 (-5) 50
  obtain ⟨o', h', -⟩ := exRun (fun _ : Fin 12 => ()) 50 0 (-5) 50
  refine ⟨o, o', h, h', ⟨fun _ _ => rfl, ?_, fun _ _ => rfl⟩, ?_⟩
  · intro i hi
    exact exY_agree 5 50 i (by rintro rfl; exact absurd hi (by decide))
  · intro ha
    have := ha.y 4 (by decide)
    simp [exObs, exY] at this

/-- The hypotheses of `C55_ssm` are met by runs on any data. -/
example (K : SsmLearners Unit Unit Unit) (D : ObsS 12 Unit Unit) (tr : ℝ) : ∃ o,
    ssmNuisance (exNested 12) K D tr [exF0, exF1] ⟨none, none, none, none⟩ = .ok o := ⟨_, rfl⟩

/-- … those of `C55_ssm_halves` by the first fold. -/
example (K : SsmLearners Unit Unit Unit) (D : ObsS 12 Unit Unit) : exF0.train.Nodup ∧ ∃ r,
    ssmFold (exNested 12) K D (none, none, none, none) exF0 = .ok r := ⟨by decide, _, rfl⟩

theorem exPrelimFit (p : Option Unit) (x : Fin 12 → X) {a b c : Fin 12} (hd : sub [a, b, c] exD = ![1, 0, 0]) :
    ∃ m, prelimFit (exLearner X) p [a, b, c] x exD [⟨List.finRange 3, List.finRange 3⟩] = .ok m := by
  have hb : BinaryTarget (sub [a, b, c] exD) := by
    rw [hd]
    refine ⟨?_, ⟨1, rfl⟩, ⟨0, rfl⟩⟩
    intro i
    fin_cases i
    · exact Or.inr rfl
    · exact Or.inl rfl
    · exact Or.inl rfl
  have hp : isPartition [(⟨List.finRange 3, List.finRange 3⟩ : Fold 3)] = true := by
    rw [isPartition_iff]
    simp
  have hpar : (ofParam p).isPerFold = false := by cases p <;> rfl
  obtain ⟨r, hr⟩ : ∃ r, cvPredict (exLearner X) (⟨sub [a, b, c] x, .plain (sub [a, b, c] exD),
      [⟨List.finRange 3, List.finRange 3⟩], ofParam p, .proba, false, false⟩ : CvArgs 3 Unit X) = .ok r := by
    rw [cvPredict_auto hpar hp]
    refine autoPredict_total ?_
    intro f hf i _
    rw [List.mem_singleton] at hf
    subst hf
    have hbc : BothClasses (sub [a, b, c] exD) (⟨List.finRange 3, List.finRange 3⟩ : Fold 3) := by
      rw [hd]
      exact ⟨⟨1, List.mem_finRange _, rfl⟩, ⟨0, List.mem_finRange _, rfl⟩⟩
    simp only [autoEval, fitTarget, hb.encode, autoColumn, hb.card, classesOf_both hb hbc, if_true]
    exact ⟨_, rfl⟩
  refine ⟨fun i => (r.preds i).getD 0, ?_⟩
  unfold prelimFit
  show (cvPredict (exLearner X) (⟨sub [a, b, c] x, .plain (sub [a, b, c] exD),
      [⟨List.finRange 3, List.finRange 3⟩], ofParam p, .proba, false, false⟩ : CvArgs 3 Unit X) >>= _) = _
  rw [hr]
  rfl

/-- Every learner of LPQ is the classifier of the example. -/
noncomputable def exLpq (X : Type) : LpqLearners Unit X :=
  ⟨exLearner X, exLearner X, exLearner X, exLearner X, exLearner X⟩

/-- The hypotheses of the theorems about LPQ are met by runs on any outcomes, treatments and covariates. -/
theorem exLpq_runs (x : Fin 12 → X) (y d : Fin 12 → ℝ) (c : QuantSet) : ∃ o,
    lpqEstimate (exNested 12) (exLpq X) c ⟨⟨x, y, d⟩, exD⟩ [exF0, exF1] ⟨none, none, none, none, none⟩ = .ok o := by
  have h0 : sub [6, 7, 8] exD = ![1, 0, 0] := by funext i; fin_cases i <;> rfl
  have h1 : sub [0, 1, 2] exD = ![1, 0, 0] := by funext i; fin_cases i <;> rfl
  obtain ⟨m0, e0⟩ := exPrelimFit none x h0
  obtain ⟨m1, e1⟩ := exPrelimFit none x h1
  have p0 : ∃ v, lpqPrelim (exNested 12) (exLpq X) c ⟨⟨x, y, d⟩, exD⟩ 2 ⟨none, none, none, none, none⟩ [6, 7, 8] = .ok v := by
    unfold lpqPrelim
    show ∃ v, (prelimFit (exLearner X) none [6, 7, 8] x exD [⟨List.finRange 3, List.finRange 3⟩] >>= _) = .ok v
    rw [e0]
    exact ⟨_, rfl⟩
  have p1 : ∃ v, lpqPrelim (exNested 12) (exLpq X) c ⟨⟨x, y, d⟩, exD⟩ 2 ⟨none, none, none, none, none⟩ [0, 1, 2] = .ok v := by
    unfold lpqPrelim
    show ∃ v, (prelimFit (exLearner X) none [0, 1, 2] x exD [⟨List.finRange 3, List.finRange 3⟩] >>= _) = .ok v
    rw [e1]
    exact ⟨_, rfl⟩
  obtain ⟨v0, p0⟩ := p0
  obtain ⟨v1, p1⟩ := p1
  have f0 : ∃ r, lpqFold (exNested 12) (exLpq X) c ⟨⟨x, y, d⟩, exD⟩ 2 ⟨none, none, none, none, none⟩ exF0 = .ok r := by
    unfold lpqFold
    show ∃ r, (lpqPrelim (exNested 12) (exLpq X) c ⟨⟨x, y, d⟩, exD⟩ 2 ⟨none, none, none, none, none⟩ [6, 7, 8] >>= _) = .ok r
    rw [p0]
    exact ⟨_, rfl⟩
  have f1 : ∃ r, lpqFold (exNested 12) (exLpq X) c ⟨⟨x, y, d⟩, exD⟩ 2 ⟨none, none, none, none, none⟩ exF1 = .ok r := by
    unfold lpqFold
    show ∃ r, (lpqPrelim (exNested 12) (exLpq X) c ⟨⟨x, y, d⟩, exD⟩ 2 ⟨none, none, none, none, none⟩ [0, 1, 2] >>= _) = .ok r
    rw [p1]
    exact ⟨_, rfl⟩
  obtain ⟨r0, f0⟩ := f0
  obtain ⟨r1, f1⟩ := f1
  have q0 : lpqPass (exNested 12) (exLpq X) c ⟨⟨x, y, d⟩, exD⟩ 2 ⟨none, none, none, none, none⟩ (exF0, 0) =
      .ok (exF0, r0) := by
    unfold lpqPass
    show (lpqFold (exNested 12) (exLpq X) c ⟨⟨x, y, d⟩, exD⟩ 2 ⟨none, none, none, none, none⟩ exF0 >>= _) = _
    rw [f0]
    rfl
  have q1 : lpqPass (exNested 12) (exLpq X) c ⟨⟨x, y, d⟩, exD⟩ 2 ⟨none, none, none, none, none⟩ (exF1, 1) =
      .ok (exF1, r1) := by
    unfold lpqPass
    show (lpqFold (exNested 12) (exLpq X) c ⟨⟨x, y, d⟩, exD⟩ 2 ⟨none, none, none, none, none⟩ exF1 >>= _) = _
    rw [f1]
    rfl
  have hps : List.mapM (lpqPass (exNested 12) (exLpq X) c ⟨⟨x, y, d⟩, exD⟩ 2 ⟨none, none, none, none, none⟩)
      [(exF0, 0), (exF1, 1)] = .ok [(exF0, r0), (exF1, r1)] := by
    rw [List.mapM_cons, List.mapM_cons, List.mapM_nil, q0, q1]
    rfl
  unfold lpqEstimate
  show ∃ o, (List.mapM (lpqPass (exNested 12) (exLpq X) c ⟨⟨x, y, d⟩, exD⟩ 2 ⟨none, none, none, none, none⟩)
      [(exF0, 0), (exF1, 1)] >>= _) = .ok o
  rw [hps]
  exact ⟨_, rfl⟩

/-- **C28 (LPQ, violation).** Concretely: with a propensity supplied for `ml_m_z` only, estimation succeeds, and nothing
of what is returned depends on the supplied values. -/
theorem C28_lpq_ignored_ok (x : Fin 12 → X) (y d : Fin 12 → ℝ) (c : QuantSet) (w : Bool) : ∃ o, ∀ p : Fin 12 → ℝ,
    lpqNuisance (exNested 12) (exLpq X) c ⟨⟨x, y, d⟩, exD⟩ [exF0, exF1] ⟨none, none, none, none, none⟩
      ⟨some p, none, none, none, none⟩ w = .ok o := by
  obtain ⟨o, ho⟩ := exLpq_runs x y d c
  exact ⟨o, fun p => by unfold lpqNuisance; rw [if_neg (by simp [LpqParams.all])]; exact ho⟩

end DML
