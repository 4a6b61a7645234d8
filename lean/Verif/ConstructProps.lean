import Verif.Construct
import Verif.DataProps
import Verif.WeightsProps
import Verif.PropensityProps
import Verif.FitOkProps

/-!
# C64: models are created exactly for suitable data and settings

For every model class: which calls of the constructor succeed, stated in terms of the columns of the data frame and
the values of the arguments, and which settings the created object has.
-/

namespace DML

variable {n : ℕ} {P : Type}

/-! ## The requirements -/

/-- A column of zeros and ones. -/
def ZeroOne (c : Fin n → Cell) : Prop := ∀ i, c i = .num 0 ∨ c i = .num 1

/-- A learner object with the scikit-learn interface; `proba` asks for `predict_proba` instead of `predict`. -/
structure LearnerObj.Usable (L : LearnerObj P) (proba : Bool) : Prop where
  instance_ : L.isClass = false
  fit : L.hasFit = true
  set : L.hasSetParams = true
  get : L.hasGetParams = true
  method : (if proba then L.hasProba else L.hasPredict) = true

/-- The number of different values of a column. -/
def nValues (c : Fin n → ℤ) : ℕ := (Finset.univ.image c).card

/-- The resampling settings are positive integers and a boolean, there are at most two cluster variables, and if a split
is drawn at once, there are at least two folds and at least as many observations (clusters, in every cluster
variable) as folds. -/
def ResamplingOk (read : List (Fin n → Cell) → ClusterVars n) (D : DataState n) (b : Resampling n) : Prop :=
  (D.cluster.isSome → D.cv.length ≤ 2) ∧
  ∃ K R dr, b.nFolds.asInt = some K ∧ 1 ≤ K ∧ b.nRep.asInt = some R ∧ 1 ≤ R ∧ b.draw = .bool dr ∧
    (dr = true → if D.cluster.isSome then ∀ c ∈ (read D.cv).cols, 2 ≤ K ∧ K ≤ nValues c else 2 ≤ K ∧ K ≤ n)

/-- If a stratified split is drawn at once, the strata are numbered by integers and one of them has at least as many
observations as there are folds. -/
def StrataOk (strata : Fin n → ℝ) (D : DataState n) (b : Resampling n) : Prop :=
  b.draw = .bool true → D.cluster = none → (∀ i, ∃ z : ℤ, strata i = z) ∧
    ∃ v, ∀ K, b.nFolds.asInt = some K → K ≤ Nat.card {i // strata i = v}

/-! ## The checks -/

theorem bind_ok_iff {α β : Type} {x : Except Exc α} {f : α → Except Exc β} {z : β} :
    (x >>= f) = .ok z ↔ ∃ a, x = .ok a ∧ f a = .ok z := by
  cases x with
  | error e => exact ⟨fun h => (by cases h), fun ⟨_, h, _⟩ => (by cases h)⟩
  | ok a => exact ⟨fun h => ⟨a, rfl, h⟩, fun ⟨_, h, h'⟩ => Except.ok.inj h ▸ h'⟩

theorem bind_unit_ok_iff {β : Type} {x : Except Exc Unit} {f : Unit → Except Exc β} {z : β} :
    (x >>= f) = .ok z ↔ x = .ok () ∧ f () = .ok z := by
  rw [bind_ok_iff]
  exact ⟨fun ⟨_, h⟩ => h, fun h => ⟨(), h⟩⟩

theorem LearnerObj.check_ok_iff (L : LearnerObj P) (r c v : Bool) :
    L.check r c = .ok v ↔ v = L.asClassifier r c ∧ L.Usable v := by
  unfold LearnerObj.check
  constructor
  · intro h
    split_ifs at h with h1 h2 h3 h4 h5 h6 h6
    · obtain rfl := Except.ok.inj h
      refine ⟨h5.symm, ?_, ?_, ?_, ?_, ?_⟩ <;> simp_all
    · obtain rfl := Except.ok.inj h
      refine ⟨by simp_all, ?_, ?_, ?_, ?_, ?_⟩ <;> simp_all
  · rintro ⟨h, h1, h2, h3, h4, h5⟩
    rw [h1, h2, h3, h4, ← h]
    cases v <;> simp_all

theorem checkScore_ok_iff {α : Type} (t : List (String × α)) (v : PyVal) (a : α) :
    checkScore t v = .ok a ↔ ∃ s, v = .str s ∧ lookupKey s t = some a := by
  unfold checkScore
  split
  · rename_i s
    cases h : lookupKey s t with
    | none => exact ⟨fun g => (by cases g), fun ⟨s', e, g⟩ => (by cases e; rw [h] at g; cases g)⟩
    | some b =>
      refine ⟨fun g => ⟨s, rfl, (by rw [h, Except.ok.inj g])⟩, fun ⟨s', e, g⟩ => ?_⟩
      cases e
      rw [h] at g
      rw [Option.some.inj g]
  · rename_i h
    exact ⟨fun g => (by cases g), fun ⟨s, e, _⟩ => absurd e (h s)⟩

theorem checkQuantile_ok_iff (v : PyVal) (x : ℝ) : checkQuantile v = .ok x ↔ v = .float x ∧ 0 < x ∧ x < 1 := by
  unfold checkQuantile
  split
  · rename_i y
    split_ifs with h
    · refine ⟨fun g => (by cases g), fun ⟨g, h1, h2⟩ => ?_⟩
      cases g
      rcases h with h | h <;> linarith
    · push Not at h
      refine ⟨fun g => ?_, fun ⟨g, _⟩ => ?_⟩
      · obtain rfl := Except.ok.inj g
        exact ⟨rfl, h⟩
      · cases g; rfl
  · rename_i h
    exact ⟨fun g => (by cases g), fun ⟨e, _⟩ => absurd e (h x)⟩

theorem checkTreatmentArg_ok_iff (v : PyVal) (z : ℤ) : checkTreatmentArg v = .ok z ↔ v.asInt = some z ∧ (z = 0 ∨ z = 1) := by
  unfold checkTreatmentArg
  cases v.asInt with
  | none => simp
  | some y =>
    dsimp only
    split_ifs with h
    · refine ⟨fun g => (by cases g), fun ⟨g, h'⟩ => ?_⟩
      cases g
      omega
    · refine ⟨fun g => ?_, fun ⟨g, _⟩ => (by cases g; rfl)⟩
      obtain rfl := Except.ok.inj g
      refine ⟨rfl, by omega⟩

theorem checkBool_ok_iff (v : PyVal) (b : Bool) : checkBool v = .ok b ↔ v = .bool b := by
  cases v <;> simp [checkBool]

theorem checkNoInstr_ok_iff (D : DataState n) : checkNoInstr D = .ok () ↔ D.z = none := by
  unfold checkNoInstr
  cases D.z <;> simp

theorem require_ok_iff (b : Bool) : require b = .ok () ↔ b = true := by
  cases b <;> simp [require]

theorem checkOutcome_ok_iff (g b : Bool) : checkOutcome g b = .ok () ↔ (g = true → b = true) := by
  cases g <;> cases b <;> simp [checkOutcome]

theorem cell_num {c : Cell} {v : ℝ} (h : ∃ v, c = .num v) (hv : c.val = v) : c = .num v := by
  obtain ⟨w, rfl⟩ := h
  rw [← hv]
  rfl

theorem zeroOneCol_of {c : Fin n → Cell} (h : ZeroOne c) : zeroOneCol c = true := by
  refine decide_eq_true fun i => ?_
  rcases h i with h | h <;> rw [h] <;> norm_num [Cell.val]

theorem typeOfTarget_of {c : Fin n → Cell} (h : ZeroOne c) : typeOfTarget c = .ok .binary := by
  classical
  unfold typeOfTarget
  have h1 : finiteCol c := fun i => by
    rcases h i with h | h
    · exact ⟨0, h⟩
    · exact ⟨1, h⟩
  have h2 : ∀ i, ∃ z : ℤ, (c i).val = z := fun i => by
    rcases h i with h | h
    · exact ⟨0, by rw [h]; simp [Cell.val]⟩
    · exact ⟨1, by rw [h]; simp [Cell.val]⟩
  have h3 : (Finset.univ.image fun i => (c i).val).card ≤ 2 := by
    refine (Finset.card_le_card (t := {0, 1}) ?_).trans Finset.card_le_two
    intro x hx
    obtain ⟨i, -, rfl⟩ := Finset.mem_image.1 hx
    rcases h i with h | h <;> rw [h] <;> simp [Cell.val]
  rw [if_neg (not_not.2 h1), if_neg (not_not.2 h2), if_neg (by exact not_lt.2 (by convert h3))]

theorem isZeroOne_ok_iff (c : Fin n → Cell) : isZeroOne c = .ok true ↔ ZeroOne c := by
  constructor
  · intro h
    obtain ⟨t, ht, h⟩ := bind_ok h
    have h := Except.ok.inj h
    rw [Bool.and_eq_true, decide_eq_true_iff] at h
    have hz := of_decide_eq_true h.2
    have hf : finiteCol c := by
      by_contra hf
      unfold typeOfTarget at ht
      rw [if_pos hf] at ht
      cases ht
    intro i
    have h0 : (c i).val * ((c i).val - 1) = 0 := by nlinarith [hz i]
    rcases mul_eq_zero.1 h0 with h0 | h0
    · exact Or.inl (cell_num (hf i) h0)
    · exact Or.inr (cell_num (hf i) (by linarith))
  · intro h
    unfold isZeroOne
    rw [typeOfTarget_of h]
    simp only [bind, Except.bind, pure, Except.pure, zeroOneCol_of h]
    rfl

theorem isZeroOne_require_iff (c : Fin n → Cell) (b : Bool) :
    (isZeroOne c >>= fun v => require (b && v)) = .ok () ↔ b = true ∧ ZeroOne c := by
  rw [bind_ok_iff, ← isZeroOne_ok_iff]
  constructor
  · rintro ⟨v, h1, h2⟩
    rw [require_ok_iff, Bool.and_eq_true] at h2
    rw [h1, h2.2]
    exact ⟨h2.1, rfl⟩
  · rintro ⟨h1, h2⟩
    exact ⟨true, h2, by rw [h1]; rfl⟩

theorem checkZeroOneTreat_ok_iff (D : DataState n) : checkZeroOneTreat D = .ok () ↔ D.d.length = 1 ∧ ZeroOne D.dv := by
  unfold checkZeroOneTreat
  rw [isZeroOne_require_iff, decide_eq_true_iff]

theorem checkZeroOneInstr_ok_iff (D : DataState n) :
    checkZeroOneInstr D = .ok () ↔ ∃ z, D.zv = some [z] ∧ ZeroOne z := by
  unfold checkZeroOneInstr
  split
  · rename_i z hz
    rw [show (isZeroOne z >>= fun b => require b) = (isZeroOne z >>= fun b => require (true && b)) from rfl,
      isZeroOne_require_iff, hz]
    constructor
    · rintro ⟨-, h⟩
      exact ⟨z, rfl, h⟩
    · rintro ⟨z', h, h'⟩
      cases h
      exact ⟨rfl, h'⟩
  · rename_i h
    exact ⟨fun g => (by cases g), fun ⟨z, g, _⟩ => absurd g (h z)⟩

theorem checkZeroOneTime_ok_iff (D : DataState n) :
    checkZeroOneTime D = .ok () ↔ ∃ t, D.tv = some t ∧ ZeroOne t := by
  unfold checkZeroOneTime
  split
  · rename_i z hz
    rw [show (isZeroOne z >>= fun b => require b) = (isZeroOne z >>= fun b => require (true && b)) from rfl,
      isZeroOne_require_iff, hz]
    constructor
    · rintro ⟨-, h⟩
      exact ⟨z, rfl, h⟩
    · rintro ⟨z', h, h'⟩
      cases h
      exact ⟨rfl, h'⟩
  · rename_i h
    refine ⟨fun g => (by cases g), fun ⟨z, g, _⟩ => ?_⟩
    rw [h] at g
    cases g

/-! ## The base class -/

theorem checkInteger_one_iff (v : PyVal) (K : ℤ) : checkInteger v (some 1) none = .ok K ↔ v.asInt = some K ∧ 1 ≤ K := by
  unfold checkInteger
  cases v.asInt with
  | none => simp
  | some z =>
    simp only [Option.any_some, Option.any_none, decide_eq_true_eq, Bool.false_eq_true, if_false]
    split_ifs with h
    · refine ⟨fun g => (by cases g), fun ⟨g, h'⟩ => ?_⟩
      cases g
      omega
    · refine ⟨fun g => ?_, fun ⟨g, _⟩ => (by cases g; rfl)⟩
      obtain rfl := Except.ok.inj g
      exact ⟨rfl, by omega⟩

theorem uniqueSorted_length (c : Fin n → ℤ) : (uniqueSorted c).length = nValues c := by
  unfold uniqueSorted nValues
  exact Finset.length_sort _

theorem mapM_exists_iff {α β : Type} (f : α → Except Exc β) (l : List α) :
    (∃ r, l.mapM f = .ok r) ↔ ∀ x ∈ l, ∃ y, f x = .ok y := by
  induction l with
  | nil => exact ⟨fun _ x hx => (by cases hx), fun _ => ⟨[], rfl⟩⟩
  | cons a l ih =>
    rw [List.forall_mem_cons, ← ih]
    constructor
    · rintro ⟨r, h⟩
      rw [List.mapM_cons] at h
      obtain ⟨y, hy, h⟩ := bind_ok h
      obtain ⟨ys, hys, h⟩ := bind_ok h
      exact ⟨⟨y, hy⟩, ⟨ys, hys⟩⟩
    · rintro ⟨⟨y, hy⟩, ⟨ys, hys⟩⟩
      refine ⟨y :: ys, ?_⟩
      rw [List.mapM_cons, hy, hys]
      rfl

theorem drawClusterRep_ok_iff (k : ℕ) (vars : List (Fin n → ℤ)) (σ : ℕ → (m : ℕ) → Equiv.Perm (Fin m)) :
    (∃ r, drawClusterRep k vars σ = .ok r) ↔ ∀ c ∈ vars, 2 ≤ k ∧ k ≤ nValues c := by
  have h1 : (∃ r, drawClusterRep k vars σ = .ok r) ↔ ∃ sv, (vars.zipIdx.mapM fun cv =>
      if k < 2 ∨ (uniqueSorted cv.1).length < k then (.error .valueError : Except Exc (List (List ℤ × List ℤ)))
      else .ok (clusterKfold k (uniqueSorted cv.1) (σ cv.2 _))) = .ok sv := by
    unfold drawClusterRep
    constructor
    · rintro ⟨r, h⟩
      obtain ⟨sv, h, -⟩ := bind_ok h
      exact ⟨sv, h⟩
    · rintro ⟨sv, h⟩
      rw [h]
      exact ⟨_, rfl⟩
  rw [h1, mapM_exists_iff]
  constructor
  · intro h c hc
    obtain ⟨i, hi, rfl⟩ := List.mem_iff_getElem.1 hc
    obtain ⟨y, hy⟩ := h (vars[i], i) (List.mk_mem_zipIdx_iff_getElem?.2 (List.getElem?_eq_getElem hi))
    dsimp only at hy
    split_ifs at hy with h2
    rw [uniqueSorted_length] at h2
    omega
  · intro h x hx
    have hc : x.1 ∈ vars := by
      have := List.mem_map_of_mem (f := Prod.fst) hx
      rwa [List.zipIdx_map_fst] at this
    have := h _ hc
    refine ⟨_, if_neg ?_⟩
    rw [uniqueSorted_length]
    omega

theorem drawCluster_ok_iff {nRep : ℕ} (hr : 1 ≤ nRep) (k : ℕ) (vars : List (Fin n → ℤ))
    (σ : ℕ → ℕ → (m : ℕ) → Equiv.Perm (Fin m)) :
    (∃ r, drawCluster k nRep vars σ = .ok r) ↔ ∀ c ∈ vars, 2 ≤ k ∧ k ≤ nValues c := by
  unfold drawCluster
  rw [mapM_exists_iff]
  constructor
  · intro h
    exact (drawClusterRep_ok_iff k vars (σ 0)).1 (h 0 (List.mem_range.2 hr))
  · intro h r _
    exact (drawClusterRep_ok_iff k vars (σ r)).2 h

theorem drawSplit_ok_iff (k r : ℕ) (σ : ℕ → Equiv.Perm (Fin n)) : (∃ l, drawSplit k r σ = .ok l) ↔ 2 ≤ k ∧ k ≤ n := by
  unfold drawSplit
  split_ifs with h1 h2
  · exact ⟨fun ⟨_, h⟩ => (by cases h), fun h => (by omega)⟩
  · exact ⟨fun ⟨_, h⟩ => (by cases h), fun h => (by omega)⟩
  · exact ⟨fun _ => by omega, fun _ => ⟨_, rfl⟩⟩

/-- What a draw requires. -/
def SplitPossible {M : Type} (sp : Spec n P M) (D : DataState n) (K : ℤ) : Prop :=
  match sp.vars with
  | some v => ∀ c ∈ (v D.cv).cols, 2 ≤ K ∧ K ≤ nValues c
  | none => 2 ≤ K ∧ (sp.stratified = false → K ≤ n)

theorem drawnSplit_ok_iff {M : Type} (sp : Spec n P M) (s : MState n P M) (w : Draws n) {K : ℤ} (h0 : 1 ≤ K) (hr : 1 ≤ s.nRep)
    (h1 : sp.vars = none → s.nFolds = K.toNat) (h2 : s.nFoldsPer = K.toNat) :
    (∃ r, drawnSplit sp s w = .ok r) ↔ SplitPossible sp s.data K := by
  unfold drawnSplit SplitPossible
  cases hv : sp.vars with
  | some v =>
    dsimp only
    have h := drawCluster_ok_iff hr s.nFoldsPer (v s.data.cv).cols w.clusters
    constructor
    · rintro ⟨r, h'⟩
      obtain ⟨l, hl, -⟩ := bind_ok h'
      intro c hc
      have := h.1 ⟨l, hl⟩ c hc
      omega
    · intro h'
      obtain ⟨l, hl⟩ := h.2 fun c hc => by have := h' c hc; omega
      rw [hl]
      exact ⟨_, rfl⟩
  | none =>
    have h1 := h1 hv
    dsimp only
    cases hs : sp.stratified with
    | true =>
      rw [if_pos rfl]
      split_ifs with h3
      · exact ⟨fun ⟨_, h⟩ => (by cases h), fun h => (by omega)⟩
      · exact ⟨fun _ => ⟨by omega, fun h => (by cases h)⟩, fun _ => ⟨_, rfl⟩⟩
    | false =>
      rw [if_neg (by simp)]
      have h := drawSplit_ok_iff s.nFolds s.nRep w.shuffle
      constructor
      · rintro ⟨r, h'⟩
        obtain ⟨l, hl, -⟩ := bind_ok h'
        have := h.1 ⟨l, hl⟩
        exact ⟨by omega, fun _ => by omega⟩
      · rintro ⟨h3, h4⟩
        have h4 := h4 rfl
        obtain ⟨l, hl⟩ := h.2 (by omega)
        rw [hl]
        exact ⟨_, rfl⟩

/-- The object before a split is drawn. -/
def rawModel {M : Type} (sp : Spec n P M) (D : DataState n) (st : ℝ) (k r : ℤ) : MState n P M :=
  { data := D
    heap := fun _ => Arr.fresh 0 0
    next := 0
    arr := 0
    scores := fun _ _ => none
    coef := fun _ => none
    se := fun _ => none
    nRep := r.toNat
    nFolds := if sp.vars.isSome then k.toNat ^ D.cv.length else k.toNat
    nFoldsPer := k.toNat
    smpls := none
    smplsCluster := none
    params := initParams sp.learners D.d r.toNat
    preds := none
    loss := none
    models := none
    sens := none
    framework := none
    start := st }

/-- The draw at the end of the constructor. -/
def firstDraw {M : Type} (sp : Spec n P M) (s : MState n P M) (b : Bool) (w : Draws n) : Except Exc (MState n P M) :=
  if b then
    match drawSampleSplitting sp s w with
    | (_, .error e) => .error e
    | (s, .ok ()) => .ok (initArrays s)
  else .ok (initArrays s)

theorem initModel_eq {M : Type} (sp : Spec n P M) (D : DataState n) (st : ℝ) (nf nr dr : PyVal) (w : Draws n) :
    initModel sp D st nf nr dr w = (do
      let _ ← checkClusterVars sp D
      let k ← checkInteger nf (some 1) none
      let r ← checkInteger nr (some 1) none
      let b ← checkBool dr
      firstDraw sp (rawModel sp D st k r) b w) := rfl

/-- What the base class creates: the object refers to the data it was given, holds no results, and has a split exactly
if one was drawn. -/
structure Created {M : Type} (sp : Spec n P M) (D : DataState n) (b : Resampling n) (s : MState n P M) : Prop where
  data : s.data = D
  reps : b.nRep.asInt = some (s.nRep : ℤ)
  folds : b.nFolds.asInt = some (s.nFoldsPer : ℤ)
  plain : sp.vars = none → s.nFolds = s.nFoldsPer
  split : s.smpls.isSome ↔ b.draw = .bool true
  params : s.params = initParams sp.learners D.d s.nRep
  framework : s.framework = none
  preds : s.preds = none
  loss : s.loss = none
  models : s.models = none
  coef : ∀ j, s.coef j = none
  se : ∀ j, s.se j = none

theorem firstDraw_ok {M : Type} {sp : Spec n P M} {s s' : MState n P M} {b : Bool} {w : Draws n}
    (h : firstDraw sp s b w = .ok s') :
    ∃ t, s' = initArrays t ∧ t = { s with smpls := t.smpls, smplsCluster := t.smplsCluster } ∧
      (b = false → t = s) ∧ (b = true → t.smpls.isSome) := by
  unfold firstDraw at h
  cases b with
  | false => exact ⟨s, (Except.ok.inj h).symm, rfl, fun _ => rfl, fun h => (by cases h)⟩
  | true =>
    rw [if_pos rfl] at h
    split at h
    · cases h
    · rename_i t ht
      unfold drawSampleSplitting at ht
      split at ht
      · cases ht
      · rename_i l c hd
        obtain rfl := (Prod.mk.inj ht).1
        exact ⟨_, (Except.ok.inj h).symm, rfl, fun h => (by cases h), fun _ => rfl⟩

theorem initModel_created {M : Type} {sp : Spec n P M} {D : DataState n} {st : ℝ} {b : Resampling n} {w : Draws n} {s : MState n P M}
    (h : initModel sp D st b.nFolds b.nRep b.draw w = .ok s) : Created sp D b s := by
  rw [initModel_eq] at h
  obtain ⟨_, -, h⟩ := bind_ok h
  obtain ⟨K, hK, h⟩ := bind_ok h
  obtain ⟨R, hR, h⟩ := bind_ok h
  obtain ⟨dr, hb, h⟩ := bind_ok h
  rw [checkInteger_one_iff] at hK hR
  rw [checkBool_ok_iff] at hb
  obtain ⟨t, rfl, ht, h1, h2⟩ := firstDraw_ok h
  have hs : (initArrays t).smpls = t.smpls := rfl
  refine ⟨?_, ?_, ?_, ?_, ?_, ?_, ?_, ?_, ?_, ?_, fun _ => rfl, fun _ => rfl⟩
  · show t.data = D
    rw [ht]
    rfl
  · show _ = some (t.nRep : ℤ)
    rw [ht, hR.1]
    show some R = some (R.toNat : ℤ)
    rw [Int.toNat_of_nonneg (by omega)]
  · show _ = some (t.nFoldsPer : ℤ)
    rw [ht, hK.1]
    show some K = some (K.toNat : ℤ)
    rw [Int.toNat_of_nonneg (by omega)]
  · intro hv
    show t.nFolds = t.nFoldsPer
    rw [ht]
    show (if sp.vars.isSome then _ else K.toNat) = K.toNat
    rw [hv]
    rfl
  · rw [hs, hb]
    cases dr with
    | true => exact ⟨fun _ => rfl, fun _ => h2 rfl⟩
    | false =>
      rw [h1 rfl]
      exact ⟨fun h => (by cases h), fun h => (by cases h)⟩
  · show t.params = initParams sp.learners D.d t.nRep
    rw [ht]
    rfl
  · show t.framework = none
    rw [ht]
    rfl
  · show t.preds = none
    rw [ht]
    rfl
  · show t.loss = none
    rw [ht]
    rfl
  · show t.models = none
    rw [ht]
    rfl

theorem firstDraw_ok_iff {M : Type} (sp : Spec n P M) (D : DataState n) (st : ℝ) (w : Draws n) {K R : ℤ} (hK : 1 ≤ K) (hR : 1 ≤ R)
    (b : Bool) : (∃ s, firstDraw sp (rawModel sp D st K R) b w = .ok s) ↔ (b = true → SplitPossible sp D K) := by
  unfold firstDraw
  cases b with
  | false => exact ⟨fun _ h => (by cases h), fun _ => ⟨_, rfl⟩⟩
  | true =>
    have h := drawnSplit_ok_iff sp (rawModel sp D st K R) w hK (show 1 ≤ R.toNat by omega)
      (fun hv => show (if sp.vars.isSome then _ else _) = _ by rw [hv]; rfl) rfl
    rw [if_pos rfl]
    unfold drawSampleSplitting
    cases hd : drawnSplit sp (rawModel sp D st K R) w with
    | error e =>
      refine ⟨fun ⟨_, g⟩ => (by cases g), fun g => ?_⟩
      obtain ⟨r, hr⟩ := h.2 (g rfl)
      rw [hd] at hr
      cases hr
    | ok r => exact ⟨fun _ _ => h.1 ⟨r, hd⟩, fun _ => ⟨_, rfl⟩⟩

/-- Which objects the base class creates. -/
theorem initModel_ok_iff {M : Type} (sp : Spec n P M) (D : DataState n) (st : ℝ) (nf nr dr : PyVal) (w : Draws n) :
    (∃ s, initModel sp D st nf nr dr w = .ok s) ↔ (sp.vars.isSome → D.cv.length ≤ 2) ∧ ∃ K R b, nf.asInt = some K ∧ 1 ≤ K ∧
      nr.asInt = some R ∧ 1 ≤ R ∧ dr = .bool b ∧ (b = true → SplitPossible sp D K) := by
  have hc : checkClusterVars sp D = .ok () ↔ (sp.vars.isSome → D.cv.length ≤ 2) := by
    unfold checkClusterVars
    split_ifs with h
    · rw [Bool.and_eq_true, decide_eq_true_iff] at h
      exact ⟨fun g => (by cases g), fun g => absurd (g h.1) (by omega)⟩
    · rw [Bool.and_eq_true, decide_eq_true_iff, not_and] at h
      exact ⟨fun _ g => by have := h g; omega, fun _ => rfl⟩
  rw [initModel_eq]
  simp only [bind_ok_iff, hc, checkInteger_one_iff, checkBool_ok_iff]
  constructor
  · rintro ⟨s, _, h1, K, hK, R, hR, b, hb, h⟩
    exact ⟨h1, K, R, b, hK.1, hK.2, hR.1, hR.2, hb, (firstDraw_ok_iff sp D st w hK.2 hR.2 b).1 ⟨s, h⟩⟩
  · rintro ⟨h1, K, R, b, hK, hK1, hR, hR1, hb, h⟩
    obtain ⟨s, hs⟩ := (firstDraw_ok_iff sp D st w hK1 hR1 b).2 h
    exact ⟨s, (), h1, K, ⟨hK, hK1⟩, R, ⟨hR, hR1⟩, b, hb, hs⟩

theorem varsOf_isSome (read : List (Fin n → Cell) → ClusterVars n) (D : DataState n) :
    (varsOf read D).isSome = D.cluster.isSome := by
  unfold varsOf
  split_ifs with h
  · rw [h]; rfl
  · rw [Bool.not_eq_true] at h
    rw [h]; rfl

theorem splitPossible_iff {M : Type} {sp : Spec n P M} {read : List (Fin n → Cell) → ClusterVars n} {D : DataState n}
    (hv : sp.vars = varsOf read D) (K : ℤ) : SplitPossible sp D K ↔
      if D.cluster.isSome then ∀ c ∈ (read D.cv).cols, 2 ≤ K ∧ K ≤ nValues c
      else 2 ≤ K ∧ (sp.stratified = false → K ≤ n) := by
  unfold SplitPossible
  rw [hv]
  unfold varsOf
  cases D.cluster <;> rfl

/-- **C64** (the base class): the resampling settings that are accepted. -/
theorem C64_base (read : List (Fin n → Cell) → ClusterVars n) (D : DataState n) (b : Resampling n) :
    (∃ s, baseInit (P := P) read D b = .ok s) ↔ ResamplingOk read D b := by
  unfold baseInit ResamplingOk
  rw [initModel_ok_iff]
  simp only [splitPossible_iff (sp := bareSpec (P := P) [] (varsOf read D)) rfl]
  show ((varsOf read D).isSome = true → _) ∧ _ ↔ _
  rw [varsOf_isSome]
  have : (bareSpec (n := n) (P := P) [] (varsOf read D)).stratified = false := rfl
  simp only [this, true_implies]

/-- The second creation succeeds if the first one did. -/
theorem second_ok {read : List (Fin n → Cell) → ClusterVars n} {D : DataState n} {b : Resampling n}
    (h : ResamplingOk read D b) {sp : LinSpec n P} (hv : sp.vars = varsOf read D) (w : Draws n) :
    ∃ s, initModel sp D 0 b.nFolds b.nRep b.draw w = .ok s := by
  rw [initModel_ok_iff]
  obtain ⟨h1, K, R, dr, hK, hK1, hR, hR1, hb, h2⟩ := h
  refine ⟨?_, K, R, dr, hK, hK1, hR, hR1, hb, fun hd => ?_⟩
  · rw [hv, varsOf_isSome]
    exact h1
  · rw [splitPossible_iff hv]
    have h2 := h2 hd
    split_ifs at h2 ⊢
    · exact h2
    · exact ⟨h2.1, fun _ => h2.2⟩

theorem checkStrata_ok_iff {read : List (Fin n → Cell) → ClusterVars n} {D : DataState n} {b : Resampling n}
    {s : MState n P (Option (List (FittedModel P (List Cell))))} (h : baseInit read D b = .ok s) (strata : Fin n → ℝ) :
    checkStrata strata D b s.nFolds = .ok () ↔ StrataOk strata D b := by
  classical
  have hc := initModel_created h
  have hK := (C64_base read D b).1 ⟨s, h⟩
  unfold checkStrata StrataOk
  split
  · rename_i hb
    cases hcl : D.cluster with
    | some c => simp
    | none =>
      have hf : s.nFolds = s.nFoldsPer := hc.plain (show varsOf read D = none by unfold varsOf; rw [hcl]; rfl)
      simp only [Option.isSome_none, Bool.false_eq_true, if_false]
      have hcount : ∀ v, ((List.finRange n).filter fun j => decide (strata j = v)).length = Nat.card {i // strata i = v} := by
        intro v
        rw [Nat.card_eq_fintype_card, Fintype.card_subtype, ← List.toFinset_card_of_nodup ((List.nodup_finRange n).filter _)]
        congr 1
        ext i
        simp
      by_cases h1 : ∀ i, ∃ z : ℤ, strata i = z
      · rw [if_neg (not_not.2 h1)]
        by_cases h2 : ∀ i, ((List.finRange n).filter fun j => decide (strata j = strata i)).length < s.nFolds
        · rw [if_pos (by convert h2)]
          refine ⟨fun g => (by cases g), fun g => ?_⟩
          obtain ⟨v, hv⟩ := (g hb trivial).2
          have hv := hv _ hc.folds
          by_cases hi : ∃ i, strata i = v
          · obtain ⟨i, rfl⟩ := hi
            have := h2 i
            rw [hcount] at this
            omega
          · have : Nat.card {i // strata i = v} = 0 := by
              rw [Nat.card_eq_zero]
              exact Or.inl ⟨fun x => hi ⟨x.1, x.2⟩⟩
            obtain ⟨-, K, R, dr, hK, hK1, -⟩ := hK
            rw [hc.folds] at hK
            have := Option.some.inj hK
            omega
        · rw [if_neg (by convert h2)]
          refine ⟨fun _ _ _ => ⟨h1, ?_⟩, fun _ => rfl⟩
          push Not at h2
          obtain ⟨i, hi⟩ := h2
          refine ⟨strata i, fun K hK => ?_⟩
          rw [hc.folds] at hK
          obtain rfl := Option.some.inj hK
          rw [hcount] at hi
          omega
      · rw [if_pos h1]
        exact ⟨fun g => (by cases g), fun g => absurd (g hb trivial).1 h1⟩
  · rename_i hb
    exact ⟨fun _ g => absurd g hb, fun _ => rfl⟩

/-! ## The data -/

/-- The data object was created from the data frame `F` and not changed since. -/
def FreshData (F : Frame n) (D : DataState n) : Prop := F.cols.Nodup ∧ ∃ cl a, dataInit F cl a = .ok D

theorem FreshData.roles {F : Frame n} {D : DataState n} (h : FreshData F D) :
    D.binTreats = D.d.map (fun c => (c, isBinaryCol (F.col c))) ∧ D.binOut = isBinaryCol (F.col D.y) ∧
    D.yv = F.col D.y ∧ D.zv = D.z.map (fun z => z.map F.col) ∧ D.tv = D.t.map F.col ∧ D.sv = D.s.map F.col ∧
    ∃ tv l, D.d = tv :: l ∧ D.dv = F.col tv := by
  obtain ⟨hF, cl, a, h⟩ := h
  obtain ⟨-, -, hf, h1, h2, -, -, -, -, -, -, -, -, tv, l, h3, h4, -⟩ := dataInit_ok hF h
  exact ⟨h1, h2, hf.1, hf.2.1, hf.2.2.1, hf.2.2.2.1, tv, l, h3, h4⟩

theorem isBinaryCol_iff (c : Fin n → Cell) : isBinaryCol c = true ↔ ZeroOne c := by
  simp [isBinaryCol, ZeroOne]

theorem initWeights_ok_iff (w : WArg) (hw : w.Dict) (score : WScore) (nObs nRep : ℕ) :
    (∃ r, initWeights w score nObs nRep = .ok r) ↔ GoodWeights nObs nRep w score := by
  constructor
  · rintro ⟨r, h⟩
    obtain ⟨_, h, -⟩ := bind_ok h
    exact (C53_accepted_iff w hw score nObs nRep).1 h
  · intro h
    obtain ⟨r, h, -⟩ := C53_used w score nObs nRep h hw
    exact ⟨r, h⟩

/-- The propensity is trimmed by a valid rule. -/
def TrimmingOk (rule threshold : PyVal) : Prop := rule = .str "truncate" ∧ ∃ x, threshold = .float x ∧ 0 < x ∧ x < 1 / 2

theorem FreshData.one {F : Frame n} {D : DataState n} (h : FreshData F D) (h1 : D.d.length = 1) :
    ∃ d, D.d = [d] ∧ D.dv = F.col d := by
  obtain ⟨-, -, -, -, -, -, tv, l, h3, h4⟩ := h.roles
  rw [h3] at h1
  obtain rfl : l = [] := List.length_eq_zero_iff.1 (by simpa using h1)
  exact ⟨tv, h3, h4⟩

theorem FreshData.binOut {F : Frame n} {D : DataState n} (h : FreshData F D) : D.binOut = true ↔ ZeroOne (F.col D.y) := by
  rw [h.roles.2.1, isBinaryCol_iff]

theorem FreshData.instr {F : Frame n} {D : DataState n} (h : FreshData F D) (z : Fin n → Cell) :
    D.zv = some [z] ↔ ∃ c, D.z = some [c] ∧ z = F.col c := by
  obtain ⟨-, -, -, hz, -⟩ := h.roles
  rw [hz]
  cases D.z with
  | none => simp
  | some l =>
    simp only [Option.map_some, Option.some.injEq]
    constructor
    · intro h
      match l, h with
      | [c], h => exact ⟨c, rfl, (List.cons.inj h).1.symm⟩
    · rintro ⟨c, rfl, rfl⟩
      rfl

theorem FreshData.time {F : Frame n} {D : DataState n} (h : FreshData F D) (t : Fin n → Cell) :
    D.tv = some t ↔ ∃ c, D.t = some c ∧ t = F.col c := by
  obtain ⟨-, -, -, -, ht, -⟩ := h.roles
  rw [ht]
  cases D.t with
  | none => simp
  | some c => simp [eq_comm]

theorem FreshData.sel {F : Frame n} {D : DataState n} (h : FreshData F D) (t : Fin n → Cell) :
    D.sv = some t ↔ ∃ c, D.s = some c ∧ t = F.col c := by
  obtain ⟨-, -, -, -, -, ht, -⟩ := h.roles
  rw [ht]
  cases D.s with
  | none => simp
  | some c => simp [eq_comm]

theorem oneScore_iff (name : String) (v : PyVal) (u : Unit) : checkScore [(name, ())] v = .ok u ↔ v = .str name := by
  rw [checkScore_ok_iff]
  constructor
  · rintro ⟨s, rfl, h⟩
    have := lookupKey_mem h
    simp only [List.mem_cons, Prod.mk.injEq, List.not_mem_nil, or_false] at this
    rw [this.1]
  · rintro rfl
    exact ⟨_, rfl, by simp [lookupKey]⟩

theorem twoScore_iff {α : Type} {s₁ s₂ : String} (hs : s₁ ≠ s₂) (x₁ x₂ y : α) (v : PyVal) :
    checkScore [(s₁, x₁), (s₂, x₂)] v = .ok y ↔ (v = .str s₁ ∧ y = x₁) ∨ (v = .str s₂ ∧ y = x₂) := by
  rw [checkScore_ok_iff]
  constructor
  · rintro ⟨s, rfl, h⟩
    have := lookupKey_mem h
    simp only [List.mem_cons, Prod.mk.injEq, List.not_mem_nil, or_false] at this
    rcases this with ⟨rfl, rfl⟩ | ⟨rfl, rfl⟩
    · exact Or.inl ⟨rfl, rfl⟩
    · exact Or.inr ⟨rfl, rfl⟩
  · rintro (⟨h, rfl⟩ | ⟨h, rfl⟩)
    · exact ⟨_, h, by simp [lookupKey]⟩
    · exact ⟨_, h, by simp [lookupKey, hs]⟩

theorem checkTreated_ok_iff (D : DataState n) (level : ℝ) :
    checkTreated D level = .ok () ↔ 5 ≤ Nat.card {i // (D.dv i).val = level} := by
  classical
  unfold checkTreated
  rw [require_ok_iff, decide_eq_true_iff, Nat.card_eq_fintype_card, Fintype.card_subtype,
    ← List.toFinset_card_of_nodup ((List.nodup_finRange n).filter _)]
  refine iff_of_eq (congrArg _ (congrArg _ ?_))
  ext i
  simp

/-- The subgroups of IIVM: not given, or a dictionary with exactly the two keys and boolean values. -/
def SubgroupsOk (a : SubgroupArg) : Prop :=
  a = .none ∨ ∃ kv b c, a = .dict kv ∧ kv.Perm [("always_takers", .bool b), ("never_takers", .bool c)]

/-- A dictionary has no key twice. -/
def SubgroupArg.Dict : SubgroupArg → Prop
  | .dict kv => (kv.map Prod.fst).Nodup
  | _ => True

/-! ## The checks, one by one -/

theorem FreshData.first {F : Frame n} {D : DataState n} (h : FreshData F D) :
    ∃ d, D.d.head? = some d ∧ D.dv = F.col d ∧ ∃ l, D.d = d :: l := by
  obtain ⟨-, -, -, -, -, -, tv, l, h3, h4⟩ := h.roles
  exact ⟨tv, by rw [h3]; rfl, h4, l, h3⟩

theorem treat_iff {F : Frame n} {D : DataState n} (hD : FreshData F D) :
    checkZeroOneTreat D = .ok () ↔ ∃ d, D.d = [d] ∧ ZeroOne (F.col d) := by
  rw [checkZeroOneTreat_ok_iff]
  constructor
  · rintro ⟨h1, h2⟩
    obtain ⟨d, hd, hv⟩ := hD.one h1
    exact ⟨d, hd, hv ▸ h2⟩
  · rintro ⟨d, hd, h⟩
    obtain ⟨d', hd', hv⟩ := hD.one (by rw [hd]; rfl)
    obtain rfl : d' = d := by rw [hd'] at hd; exact (List.cons.inj hd).1
    exact ⟨by rw [hd]; rfl, by rw [hv]; exact h⟩

theorem instr_iff {F : Frame n} {D : DataState n} (hD : FreshData F D) :
    checkZeroOneInstr D = .ok () ↔ ∃ z, D.z = some [z] ∧ ZeroOne (F.col z) := by
  rw [checkZeroOneInstr_ok_iff]
  constructor
  · rintro ⟨z, h1, h2⟩
    obtain ⟨c, hc, rfl⟩ := (hD.instr z).1 h1
    exact ⟨c, hc, h2⟩
  · rintro ⟨c, hc, h⟩
    exact ⟨_, (hD.instr _).2 ⟨c, hc, rfl⟩, h⟩

theorem time_iff {F : Frame n} {D : DataState n} (hD : FreshData F D) :
    checkZeroOneTime D = .ok () ↔ ∃ t, D.t = some t ∧ ZeroOne (F.col t) := by
  rw [checkZeroOneTime_ok_iff]
  constructor
  · rintro ⟨z, h1, h2⟩
    obtain ⟨c, hc, rfl⟩ := (hD.time z).1 h1
    exact ⟨c, hc, h2⟩
  · rintro ⟨c, hc, h⟩
    exact ⟨_, (hD.time _).2 ⟨c, hc, rfl⟩, h⟩

theorem sel_iff {F : Frame n} {D : DataState n} (hD : FreshData F D) :
    (∃ c, selCol D = .ok c) ↔ ∃ s, D.s = some s := by
  unfold selCol
  constructor
  · rintro ⟨c, h⟩
    cases hs : D.sv with
    | none => rw [hs] at h; cases h
    | some v =>
      obtain ⟨c, hc, -⟩ := (hD.sel v).1 hs
      exact ⟨c, hc⟩
  · rintro ⟨c, hc⟩
    rw [(hD.sel _).2 ⟨c, hc, rfl⟩]
    exact ⟨_, rfl⟩

/-- The strata by treatment. -/
def StrataByTreat (F : Frame n) (D : DataState n) (b : Resampling n) : Prop :=
  ∀ d, D.d.head? = some d → StrataOk (nums (F.col d)) D b

/-- The strata by treatment and a second variable `v`. -/
def StrataByTwo (F : Frame n) (v : Option String) (D : DataState n) (b : Resampling n) : Prop :=
  ∀ d c, D.d.head? = some d → v = some c → StrataOk (fun i => nums (F.col d) i + 2 * nums (F.col c) i) D b

theorem strata_iff {F : Frame n} {D : DataState n} (hD : FreshData F D) {read : List (Fin n → Cell) → ClusterVars n}
    {b : Resampling n} {s : MState n P (Option (List (FittedModel P (List Cell))))} (h : baseInit read D b = .ok s) :
    checkStrata (fun i => (D.dv i).val) D b s.nFolds = .ok () ↔ StrataByTreat F D b := by
  rw [checkStrata_ok_iff h]
  obtain ⟨d, hd, hv, -⟩ := hD.first
  unfold StrataByTreat
  rw [hd, hv]
  exact ⟨fun g d' h' => Option.some.inj h' ▸ g, fun g => g d rfl⟩

theorem strata2_iff {F : Frame n} {D : DataState n} (hD : FreshData F D) {read : List (Fin n → Cell) → ClusterVars n}
    {b : Resampling n} {s : MState n P (Option (List (FittedModel P (List Cell))))} (h : baseInit read D b = .ok s)
    {v : Fin n → Cell} {c : Option String} (hc : ∃ c', c = some c' ∧ v = F.col c') :
    checkStrata (strata2 D v) D b s.nFolds = .ok () ↔ StrataByTwo F c D b := by
  rw [checkStrata_ok_iff h]
  obtain ⟨d, hd, hv, -⟩ := hD.first
  obtain ⟨c', rfl, rfl⟩ := hc
  unfold StrataByTwo strata2
  rw [hd, hv]
  exact ⟨fun g d' c'' h' h'' => Option.some.inj h' ▸ Option.some.inj h'' ▸ g, fun g => g d c' rfl rfl⟩

/-- The only instrument. -/
def oneInstr (D : DataState n) : Option String :=
  match D.z with
  | some [z] => some z
  | _ => none

theorem firstInstr_eq {F : Frame n} {D : DataState n} (hD : FreshData F D) (h : ∃ z, D.z = some [z] ∧ ZeroOne (F.col z)) :
    ∃ c, oneInstr D = some c ∧ firstInstr D = F.col c := by
  obtain ⟨z, hz, -⟩ := h
  refine ⟨z, by unfold oneInstr; rw [hz], ?_⟩
  unfold firstInstr
  rw [(hD.instr _).2 ⟨z, hz, rfl⟩]
  rfl

theorem timeCol_eq {F : Frame n} {D : DataState n} (hD : FreshData F D) (h : ∃ z, D.t = some z ∧ ZeroOne (F.col z)) :
    ∃ c, D.t = some c ∧ timeCol D = F.col c := by
  obtain ⟨z, hz, -⟩ := h
  refine ⟨z, hz, ?_⟩
  unfold timeCol
  rw [(hD.time _).2 ⟨z, hz, rfl⟩]
  rfl

theorem selCol_eq {F : Frame n} {D : DataState n} (hD : FreshData F D) {v : Fin n → Cell} (h : selCol D = .ok v) :
    ∃ c, D.s = some c ∧ v = F.col c := by
  unfold selCol at h
  cases hs : D.sv with
  | none => rw [hs] at h; cases h
  | some w =>
    rw [hs] at h
    obtain rfl := Except.ok.inj h
    exact (hD.sel w).1 hs

theorem treated_iff {F : Frame n} {D : DataState n} (hD : FreshData F D) (level : ℝ) :
    checkTreated D level = .ok () ↔ ∀ d, D.d.head? = some d → 5 ≤ Nat.card {i // nums (F.col d) i = level} := by
  rw [checkTreated_ok_iff]
  obtain ⟨d, hd, hv, -⟩ := hD.first
  rw [hd, hv]
  exact ⟨fun g d' h' => Option.some.inj h' ▸ g, fun g => g d rfl⟩

theorem atMostOne_iff {F : Frame n} {D : DataState n} (hD : FreshData F D) :
    require (decide (D.d.length ≤ 1)) = .ok () ↔ ∃ d, D.d = [d] := by
  rw [require_ok_iff, decide_eq_true_iff]
  obtain ⟨d, -, -, l, hl⟩ := hD.first
  rw [hl]
  constructor
  · intro h
    obtain rfl : l = [] := List.length_eq_zero_iff.1 (by simp only [List.length_cons] at h; omega)
    exact ⟨d, rfl⟩
  · rintro ⟨d', h⟩
    rw [h]
    rfl

theorem outcome_iff {F : Frame n} {D : DataState n} (hD : FreshData F D) (g : Bool) :
    checkOutcome g D.binOut = .ok () ↔ (g = true → ZeroOne (F.col D.y)) := by
  rw [checkOutcome_ok_iff, hD.binOut]

theorem outcome_fresh_iff {F : Frame n} {D : DataState n} (hD : FreshData F D) (g : Bool) :
    checkOutcome g (isBinaryCol D.yv) = .ok () ↔ (g = true → ZeroOne (F.col D.y)) := by
  rw [checkOutcome_ok_iff, isBinaryCol_iff, hD.roles.2.2.1]

theorem usable_iff (L : LearnerObj P) (r c : Bool) :
    (∃ v, L.check r c = .ok v) ↔ L.Usable (L.asClassifier r c) := by
  constructor
  · rintro ⟨v, h⟩
    rw [LearnerObj.check_ok_iff] at h
    exact h.1 ▸ h.2
  · intro h
    exact ⟨_, (LearnerObj.check_ok_iff L r c _).2 ⟨rfl, h⟩⟩

theorem bool_iff (v : PyVal) : (∃ b, checkBool v = .ok b) ↔ ∃ b, v = .bool b := by
  simp only [checkBool_ok_iff]

theorem trimming_iff (r t : PyVal) : (∃ x, checkTrimming r t = .ok x) ↔ TrimmingOk r t := by
  simp only [C39_accepted_iff]
  unfold TrimmingOk
  constructor
  · rintro ⟨x, h1, h2⟩
    exact ⟨h1, x, h2⟩
  · rintro ⟨h1, x, h2⟩
    exact ⟨x, h1, h2⟩

theorem one_score_iff (name : String) (v : PyVal) : (∃ u, checkScore [(name, ())] v = .ok u) ↔ v = .str name := by
  simp only [oneScore_iff]
  exact ⟨fun ⟨_, h⟩ => h, fun h => ⟨(), h⟩⟩

theorem two_score_iff {α : Type} {s₁ s₂ : String} (hs : s₁ ≠ s₂) (x₁ x₂ : α) (v : PyVal) :
    (∃ y, checkScore [(s₁, x₁), (s₂, x₂)] v = .ok y) ↔ v = .str s₁ ∨ v = .str s₂ := by
  simp only [twoScore_iff hs]
  constructor
  · rintro ⟨y, ⟨h, -⟩ | ⟨h, -⟩⟩
    · exact Or.inl h
    · exact Or.inr h
  · rintro (h | h)
    · exact ⟨x₁, Or.inl ⟨h, rfl⟩⟩
    · exact ⟨x₂, Or.inr ⟨h, rfl⟩⟩

/-- The weights are used as given (cf. `C53_used`). -/
def UsesWeights (w : WArg) (nObs nRep : ℕ) (s : StoredWeights) : Prop :=
  ∀ (i : Fin nObs) (k : Fin nRep), (w = .none → s.get nObs nRep i k = (1, 1)) ∧
    (∀ a, w = .arr a → s.get nObs nRep i k = (a.entries.getD i 0, a.entries.getD i 0)) ∧
    (∀ kv a b, w = .dict kv → kv.Perm [("weights", .arr a), ("weights_bar", .arr b)] →
      s.get nObs nRep i k = (a.entries.getD i 0, b.entries.getD (i * nRep + k) 0))

theorem usesWeights {w : WArg} (hw : w.Dict) {score : WScore} {nObs nRep : ℕ} {r : StoredWeights}
    (h : initWeights w score nObs nRep = .ok r) : UsesWeights w nObs nRep r := by
  obtain ⟨r', h', hu⟩ := C53_used w score nObs nRep ((initWeights_ok_iff w hw score nObs nRep).1 ⟨r, h⟩) hw
  rw [h] at h'
  obtain rfl := Except.ok.inj h'
  exact fun i k => (hu i k).2.2

/-- Whether cluster variables are used: exactly if the data are clustered. -/
theorem varsOf_eq (read : List (Fin n → Cell) → ClusterVars n) (D : DataState n) :
    (D.cluster = none → varsOf read D = none) ∧ (D.cluster ≠ none → varsOf read D = some read) := by
  unfold varsOf
  cases D.cluster <;> simp

theorem irmScore_iff (v : PyVal) (atte : Bool) : checkScore [("ATE", false), ("ATTE", true)] v = .ok atte ↔
    v = .str (if atte then "ATTE" else "ATE") := by
  rw [twoScore_iff (by decide)]
  cases atte <;> simp

/-- Suitable weights for the score of IRM and the number of repetitions. -/
def IrmWeights (n : ℕ) (a : IrmArgs P) (b : Resampling n) : Prop :=
  ∀ R : ℕ, b.nRep.asInt = some (R : ℤ) → (a.score = .str "ATE" → GoodWeights n R a.weights .ate) ∧
    (a.score = .str "ATTE" → GoodWeights n R a.weights .atte)

theorem irmWeights_iff {a : IrmArgs P} (hw : a.weights.Dict) {b : Resampling n} {nRep : ℕ} (hr : b.nRep.asInt = some (nRep : ℤ))
    {atte : Bool} (hs : checkScore [("ATE", false), ("ATTE", true)] a.score = .ok atte) :
    (∃ w, initWeights a.weights (wScoreOf atte) n nRep = .ok w) ↔ IrmWeights n a b := by
  rw [initWeights_ok_iff _ hw]
  rw [irmScore_iff] at hs
  unfold IrmWeights
  constructor
  · intro h R hR
    obtain rfl : nRep = R := by rw [hr] at hR; have := Option.some.inj hR; omega
    rw [hs]
    cases atte
    · exact ⟨fun _ => h, fun h => absurd h (by simp)⟩
    · exact ⟨fun h => absurd h (by simp), fun _ => h⟩
  · intro h
    have h := h nRep hr
    cases atte
    · exact h.1 hs
    · exact h.2 hs

theorem apoWeights_iff {w : WArg} (hw : w.Dict) {b : Resampling n} {nRep : ℕ} (hr : b.nRep.asInt = some (nRep : ℤ)) :
    (∃ r, initWeights w .ate n nRep = .ok r) ↔ ∀ R : ℕ, b.nRep.asInt = some (R : ℤ) → GoodWeights n R w .ate := by
  rw [initWeights_ok_iff _ hw]
  constructor
  · intro h R hR
    obtain rfl : nRep = R := by rw [hr] at hR; have := Option.some.inj hR; omega
    exact h
  · exact fun h => h nRep hr

theorem did_score_iff (v : PyVal) : (∃ y, checkScore didScores v = .ok y) ↔ v = .str "observational" ∨ v = .str "experimental" :=
  two_score_iff (by decide) _ _ v

theorem pl_score_iff (v : PyVal) : (∃ y, checkScore plScores v = .ok y) ↔ v = .str "IV-type" ∨ v = .str "partialling out" :=
  two_score_iff (by decide) _ _ v

theorem didM_iff {a : DidArgs P} {score : DidScore} (hs : checkScore didScores a.score = .ok score) :
    (∃ v, checkDidM a score = .ok v) ↔ (a.score = .str "observational" → ∃ m, a.ml_m = some m ∧ m.Usable true) := by
  unfold didScores at hs
  rw [twoScore_iff (by decide)] at hs
  unfold checkDidM
  rcases hs with ⟨h, rfl⟩ | ⟨h, rfl⟩
  · rw [h]
    dsimp only
    unfold checkLearnerOpt
    cases a.ml_m with
    | none => exact ⟨fun ⟨_, g⟩ => (by cases g), fun g => (by obtain ⟨m, hm, -⟩ := g rfl; cases hm)⟩
    | some m =>
      dsimp only
      rw [usable_iff]
      exact ⟨fun g _ => ⟨m, rfl, g⟩, fun g => (by obtain ⟨m', hm, g⟩ := g rfl; cases hm; exact g)⟩
  · rw [h]
    exact ⟨fun _ g => absurd g (by simp), fun _ => ⟨_, rfl⟩⟩

theorem ssmData_iff (score : PyVal) (D : DataState n) :
    checkSsmData score D = .ok () ↔ (score = .str "nonignorable" → D.z ≠ none) := by
  unfold checkSsmData
  split
  · rename_i s
    rw [require_ok_iff, Bool.or_eq_true, decide_eq_true_iff, Option.isSome_iff_ne_none]
    constructor
    · rintro (h | h) g
      · exact h
      · exact absurd (PyVal.str.inj g) h
    · intro h
      by_cases hs : s = "nonignorable"
      · exact Or.inl (h (by rw [hs]))
      · exact Or.inr hs
  · rename_i h
    exact ⟨fun _ g => absurd g (h _), fun _ => rfl⟩

theorem plrG_iff {a : PlrArgs P} {iv : Bool} (hs : checkScore plScores a.score = .ok iv) :
    (∃ v, checkPlrG a iv = .ok v) ↔ (a.score = .str "IV-type" → ∀ g, a.ml_g = some g → g.Usable false) := by
  unfold plScores at hs
  rw [twoScore_iff (by decide)] at hs
  unfold checkPlrG
  cases a.ml_g with
  | none => exact ⟨fun _ _ _ g => (by cases g), fun _ => ⟨_, rfl⟩⟩
  | some g =>
    rcases hs with ⟨h, rfl⟩ | ⟨h, rfl⟩
    · rw [h]
      dsimp only
      rw [if_pos rfl, usable_iff]
      exact ⟨fun h _ g' hg => Option.some.inj hg ▸ h, fun h => h rfl g rfl⟩
    · rw [h]
      exact ⟨fun _ g => absurd g (by simp), fun _ => ⟨_, rfl⟩⟩

theorem treatClassifier_iff {F : Frame n} {D : DataState n} (hD : FreshData F D) (m : Bool) :
    checkTreatClassifier m D = .ok () ↔ (m = true → ∀ d ∈ D.d, ZeroOne (F.col d)) := by
  have h : (D.binTreats.all fun q => q.2) = true ↔ ∀ d ∈ D.d, ZeroOne (F.col d) := by
    rw [hD.roles.1]
    simp [isBinaryCol_iff]
  rw [← h]
  unfold checkTreatClassifier
  cases m <;> cases (D.binTreats.all fun q => q.2) <;> simp

theorem hasInstr_iff (D : DataState n) : require (decide (D.nInstr ≠ 0)) = .ok () ↔ ∃ z l, D.z = some (z :: l) := by
  rw [require_ok_iff, decide_eq_true_iff]
  unfold DataState.nInstr
  cases D.z with
  | none => simp
  | some l => cases l <;> simp

theorem plivScore_iff (D : DataState n) (v : PyVal) (iv : Bool) : checkScore (plivScores D) v = .ok iv ↔
    (v = .str "partialling out" ∧ iv = false) ∨ (v = .str "IV-type" ∧ (∃ z, D.z = some [z]) ∧ iv = true) := by
  unfold plivScores
  have h1 : D.nInstr = 1 ↔ ∃ z, D.z = some [z] := by
    unfold DataState.nInstr
    cases D.z with
    | none => simp
    | some l => simp [List.length_eq_one_iff]
  by_cases h : D.nInstr = 1
  · rw [if_pos h]
    unfold plScores
    rw [twoScore_iff (by decide)]
    have := h1.1 h
    tauto
  · rw [if_neg h]
    have hn : ¬ ∃ z, D.z = some [z] := fun g => h (h1.2 g)
    rw [checkScore_ok_iff]
    constructor
    · rintro ⟨s, rfl, g⟩
      have := lookupKey_mem g
      simp only [List.mem_cons, Prod.mk.injEq, List.not_mem_nil, or_false] at this
      exact Or.inl ⟨by rw [this.1], this.2⟩
    · rintro (⟨rfl, rfl⟩ | ⟨-, g, -⟩)
      · exact ⟨_, rfl, by simp [lookupKey]⟩
      · exact absurd g hn

theorem pliv_score_iff (D : DataState n) (v : PyVal) : (∃ iv, checkScore (plivScores D) v = .ok iv) ↔
    v = .str "partialling out" ∨ (v = .str "IV-type" ∧ ∃ z, D.z = some [z]) := by
  simp only [plivScore_iff]
  constructor
  · rintro ⟨iv, ⟨h, -⟩ | ⟨h, g, -⟩⟩
    · exact Or.inl h
    · exact Or.inr ⟨h, g⟩
  · rintro (h | ⟨h, g⟩)
    · exact ⟨_, Or.inl ⟨h, rfl⟩⟩
    · exact ⟨_, Or.inr ⟨h, g, rfl⟩⟩

theorem plivG_iff {a : PlivArgs n P} {D : DataState n} {iv : Bool} (hs : checkScore (plivScores D) a.score = .ok iv) :
    (∃ v, checkPlivG a iv = .ok v) ↔ (a.score = .str "IV-type" → ∃ g, a.ml_g = some g ∧ g.Usable false) := by
  rw [plivScore_iff] at hs
  unfold checkPlivG
  rcases hs with ⟨h, rfl⟩ | ⟨h, -, rfl⟩
  · rw [h]
    exact ⟨fun _ g => absurd g (by simp), fun _ => ⟨_, rfl⟩⟩
  · rw [h, if_pos rfl]
    cases a.ml_g with
    | none => exact ⟨fun ⟨_, g⟩ => (by cases g), fun g => (by obtain ⟨m, hm, -⟩ := g rfl; cases hm)⟩
    | some m =>
      dsimp only
      rw [usable_iff]
      exact ⟨fun g _ => ⟨m, rfl, g⟩, fun g => (by obtain ⟨m', hm, g⟩ := g rfl; cases hm; exact g)⟩

theorem plivSpecOf_vars (k : PlivClass n P) (D : DataState n) : (plivSpecOf k D).vars = k.vars := by
  unfold plivSpecOf
  split_ifs <;> rfl

/-- Both creations see the same number of repetitions. -/
theorem initModel_nRep {M M' : Type} {sp : Spec n P M} {sp' : Spec n P M'} {D : DataState n} {b : Resampling n} {w : Draws n}
    {s : MState n P M} {s' : MState n P M'} (h : Created sp D b s)
    (h' : initModel sp' D 0 b.nFolds b.nRep b.draw w = .ok s') : s.nRep = s'.nRep := by
  have h1 := h.reps
  rw [(initModel_created h').reps] at h1
  have := Option.some.inj h1
  omega

/-! ## IRM -/

/-- The requirements of `DoubleMLIRM`. -/
structure IrmSuitable (F : Frame n) (D : DataState n) (a : IrmArgs P) (b : Resampling n) : Prop where
  noInstr : D.z = none
  treat : ∃ d, D.d = [d] ∧ ZeroOne (F.col d)
  score : a.score = .str "ATE" ∨ a.score = .str "ATTE"
  strata : StrataByTreat F D b
  ml_g : a.ml_g.Usable a.ml_g.isClassifier
  ml_m : a.ml_m.Usable true
  outcome : a.ml_g.isClassifier = true → ZeroOne (F.col D.y)
  normalize : ∃ v, a.normalize = .bool v
  trimming : TrimmingOk a.rule a.threshold
  weights : IrmWeights n a b

/-- **C64, IRM.**  For data that were not changed since their creation, the constructor succeeds exactly if the requirements
are met. -/
theorem C64_irm {F : Frame n} {D : DataState n} (hD : FreshData F D) (read : List (Fin n → Cell) → ClusterVars n)
    (a : IrmArgs P) (hw : a.weights.Dict) (b : Resampling n) :
    (∃ r, newIrm read a D b = .ok r) ↔ ResamplingOk read D b ∧ IrmSuitable F D a b := by
  constructor
  · rintro ⟨r, h⟩
    unfold newIrm at h
    obtain ⟨s0, h0, h⟩ := bind_ok h
    have hR := (C64_base read D b).1 ⟨s0, h0⟩
    have hc := initModel_created h0
    obtain ⟨_, h1, h⟩ := bind_ok h
    obtain ⟨_, h2, h⟩ := bind_ok h
    obtain ⟨atte, h3, h⟩ := bind_ok h
    obtain ⟨_, h4, h⟩ := bind_ok h
    obtain ⟨g, h5, h⟩ := bind_ok h
    obtain ⟨rfl, h5⟩ := (LearnerObj.check_ok_iff _ _ _ _).1 h5
    obtain ⟨m, h6, h⟩ := bind_ok h
    obtain ⟨rfl, h6⟩ := (LearnerObj.check_ok_iff _ _ _ _).1 h6
    obtain ⟨_, h7, h⟩ := bind_ok h
    obtain ⟨v, h8, h⟩ := bind_ok h
    obtain ⟨t, h9, h⟩ := bind_ok h
    obtain ⟨w, h10, h⟩ := bind_ok h
    exact ⟨hR, (checkNoInstr_ok_iff D).1 h1, (treat_iff hD).1 h2, (two_score_iff (by decide) false true _).1 ⟨_, h3⟩, (strata_iff hD h0).1 h4, h5, h6, (outcome_iff hD a.ml_g.isClassifier).1 h7, (bool_iff _).1 ⟨_, h8⟩, (trimming_iff _ _).1 ⟨_, h9⟩, (irmWeights_iff hw hc.reps h3).1 ⟨_, h10⟩⟩
  · rintro ⟨hR, ha⟩
    obtain ⟨s0, h0⟩ := (C64_base (P := P) read D b).2 hR
    have hc := initModel_created h0
    have h1 := (checkNoInstr_ok_iff D).2 ha.noInstr
    have h2 := (treat_iff hD).2 ha.treat
    obtain ⟨atte, h3⟩ := (two_score_iff (by decide) false true _).2 ha.score
    have h4 := (strata_iff hD h0).2 ha.strata
    have h5 := (LearnerObj.check_ok_iff a.ml_g true true a.ml_g.isClassifier).2 ⟨rfl, ha.ml_g⟩
    have h6 := (LearnerObj.check_ok_iff a.ml_m false true true).2 ⟨rfl, ha.ml_m⟩
    have h7 := (outcome_iff hD a.ml_g.isClassifier).2 ha.outcome
    obtain ⟨v, h8⟩ := (bool_iff _).2 ha.normalize
    obtain ⟨t, h9⟩ := (trimming_iff _ _).2 ha.trimming
    obtain ⟨w, h10⟩ := (irmWeights_iff hw hc.reps h3).2 ha.weights
    unfold newIrm
    rw [h0]
    simp only [bind, Except.bind, h1, h2, h3, h4, h5, h6, h7, h8, h9, h10]
    obtain ⟨s, hs⟩ := second_ok hR (sp := irmSpec
      { ml_g := a.ml_g.run
        ml_m := a.ml_m.run
        gClassifier := a.ml_g.isClassifier
        atte := atte
        normalize := v
        trimT := t
        weights := w
        vars := varsOf read D }) rfl b.second
    rw [hs]
    exact ⟨_, rfl⟩

/-- **C64, IRM, the created object.**  The object has exactly the given learners and settings, refers to the given data, and holds no results. -/
theorem C64_irm_object {D : DataState n} (read : List (Fin n → Cell) → ClusterVars n)
    (a : IrmArgs P) (hw : a.weights.Dict) (b : Resampling n) {k : IrmClass n P} {s : LinState n P} (h : newIrm read a D b = .ok (k, s)) :
    k.ml_g = a.ml_g.run ∧
    k.ml_m = a.ml_m.run ∧
    k.gClassifier = a.ml_g.isClassifier ∧
    a.score = .str (if k.atte then "ATTE" else "ATE") ∧
    a.normalize = .bool k.normalize ∧
    a.threshold = .float k.trimT ∧
    UsesWeights a.weights n s.nRep k.weights ∧
    ((D.cluster = none → k.vars = none) ∧ (D.cluster ≠ none → k.vars = some read)) ∧
    Created (irmSpec k) D b s := by
  unfold newIrm at h
  obtain ⟨s0, h0, h⟩ := bind_ok h
  have hR := (C64_base read D b).1 ⟨s0, h0⟩
  have hc := initModel_created h0
  obtain ⟨_, h1, h⟩ := bind_ok h
  obtain ⟨_, h2, h⟩ := bind_ok h
  obtain ⟨atte, h3, h⟩ := bind_ok h
  obtain ⟨_, h4, h⟩ := bind_ok h
  obtain ⟨g, h5, h⟩ := bind_ok h
  obtain ⟨rfl, h5⟩ := (LearnerObj.check_ok_iff _ _ _ _).1 h5
  obtain ⟨m, h6, h⟩ := bind_ok h
  obtain ⟨rfl, h6⟩ := (LearnerObj.check_ok_iff _ _ _ _).1 h6
  obtain ⟨_, h7, h⟩ := bind_ok h
  obtain ⟨v, h8, h⟩ := bind_ok h
  obtain ⟨t, h9, h⟩ := bind_ok h
  obtain ⟨w, h10, h⟩ := bind_ok h
  obtain ⟨s1, hs, h⟩ := bind_ok h
  cases h
  exact ⟨rfl, rfl, rfl, (irmScore_iff _ _).1 h3, (checkBool_ok_iff _ _).1 h8, ((C39_accepted_iff _ _ _).1 h9).2.1, initModel_nRep hc hs ▸ usesWeights hw h10, varsOf_eq read D, initModel_created hs⟩

/-! ## APO -/

/-- The requirements of `DoubleMLAPO`. -/
structure ApoSuitable (F : Frame n) (D : DataState n) (a : ApoArgs P) (b : Resampling n) : Prop where
  one : ∃ d, D.d = [d]
  noInstr : D.z = none
  treated : ∀ d, D.d.head? = some d → 5 ≤ Nat.card {i // nums (F.col d) i = a.level}
  score : a.score = .str "APO"
  strata : StrataByTreat F D b
  ml_g : a.ml_g.Usable a.ml_g.isClassifier
  ml_m : a.ml_m.Usable true
  outcome : a.ml_g.isClassifier = true → ZeroOne (F.col D.y)
  normalize : ∃ v, a.normalize = .bool v
  trimming : TrimmingOk a.rule a.threshold
  weights : ∀ R : ℕ, b.nRep.asInt = some (R : ℤ) → GoodWeights n R a.weights .ate

/-- **C64, APO.**  For data that were not changed since their creation, the constructor succeeds exactly if the requirements
are met. -/
theorem C64_apo {F : Frame n} {D : DataState n} (hD : FreshData F D) (read : List (Fin n → Cell) → ClusterVars n)
    (a : ApoArgs P) (hw : a.weights.Dict) (b : Resampling n) :
    (∃ r, newApo read a D b = .ok r) ↔ ResamplingOk read D b ∧ ApoSuitable F D a b := by
  constructor
  · rintro ⟨r, h⟩
    unfold newApo at h
    obtain ⟨s0, h0, h⟩ := bind_ok h
    have hR := (C64_base read D b).1 ⟨s0, h0⟩
    have hc := initModel_created h0
    obtain ⟨_, h1, h⟩ := bind_ok h
    obtain ⟨_, h2, h⟩ := bind_ok h
    obtain ⟨_, h3, h⟩ := bind_ok h
    obtain ⟨u, h4, h⟩ := bind_ok h
    obtain ⟨_, h5, h⟩ := bind_ok h
    obtain ⟨g, h6, h⟩ := bind_ok h
    obtain ⟨rfl, h6⟩ := (LearnerObj.check_ok_iff _ _ _ _).1 h6
    obtain ⟨m, h7, h⟩ := bind_ok h
    obtain ⟨rfl, h7⟩ := (LearnerObj.check_ok_iff _ _ _ _).1 h7
    obtain ⟨_, h8, h⟩ := bind_ok h
    obtain ⟨v, h9, h⟩ := bind_ok h
    obtain ⟨t, h10, h⟩ := bind_ok h
    obtain ⟨w, h11, h⟩ := bind_ok h
    exact ⟨hR, (atMostOne_iff hD).1 h1, (checkNoInstr_ok_iff D).1 h2, (treated_iff hD a.level).1 h3, (one_score_iff _ _).1 ⟨_, h4⟩, (strata_iff hD h0).1 h5, h6, h7, (outcome_iff hD a.ml_g.isClassifier).1 h8, (bool_iff _).1 ⟨_, h9⟩, (trimming_iff _ _).1 ⟨_, h10⟩, (apoWeights_iff hw hc.reps).1 ⟨_, h11⟩⟩
  · rintro ⟨hR, ha⟩
    obtain ⟨s0, h0⟩ := (C64_base (P := P) read D b).2 hR
    have hc := initModel_created h0
    have h1 := (atMostOne_iff hD).2 ha.one
    have h2 := (checkNoInstr_ok_iff D).2 ha.noInstr
    have h3 := (treated_iff hD a.level).2 ha.treated
    obtain ⟨u, h4⟩ := (one_score_iff _ _).2 ha.score
    have h5 := (strata_iff hD h0).2 ha.strata
    have h6 := (LearnerObj.check_ok_iff a.ml_g true true a.ml_g.isClassifier).2 ⟨rfl, ha.ml_g⟩
    have h7 := (LearnerObj.check_ok_iff a.ml_m false true true).2 ⟨rfl, ha.ml_m⟩
    have h8 := (outcome_iff hD a.ml_g.isClassifier).2 ha.outcome
    obtain ⟨v, h9⟩ := (bool_iff _).2 ha.normalize
    obtain ⟨t, h10⟩ := (trimming_iff _ _).2 ha.trimming
    obtain ⟨w, h11⟩ := (apoWeights_iff hw hc.reps).2 ha.weights
    unfold newApo
    rw [h0]
    simp only [bind, Except.bind, h1, h2, h3, h4, h5, h6, h7, h8, h9, h10, h11]
    obtain ⟨s, hs⟩ := second_ok hR (sp := apoSpec
      { ml_g := a.ml_g.run
        ml_m := a.ml_m.run
        gClassifier := a.ml_g.isClassifier
        level := a.level
        normalize := v
        trimT := t
        weights := w
        vars := varsOf read D }) rfl b.second
    rw [hs]
    exact ⟨_, rfl⟩

/-- **C64, APO, the created object.**  The object has exactly the given learners and settings, refers to the given data, and holds no results. -/
theorem C64_apo_object {D : DataState n} (read : List (Fin n → Cell) → ClusterVars n)
    (a : ApoArgs P) (hw : a.weights.Dict) (b : Resampling n) {k : ApoClass n P} {s : LinState n P} (h : newApo read a D b = .ok (k, s)) :
    k.ml_g = a.ml_g.run ∧
    k.ml_m = a.ml_m.run ∧
    k.gClassifier = a.ml_g.isClassifier ∧
    k.level = a.level ∧
    a.normalize = .bool k.normalize ∧
    a.threshold = .float k.trimT ∧
    UsesWeights a.weights n s.nRep k.weights ∧
    ((D.cluster = none → k.vars = none) ∧ (D.cluster ≠ none → k.vars = some read)) ∧
    Created (apoSpec k) D b s := by
  unfold newApo at h
  obtain ⟨s0, h0, h⟩ := bind_ok h
  have hR := (C64_base read D b).1 ⟨s0, h0⟩
  have hc := initModel_created h0
  obtain ⟨_, h1, h⟩ := bind_ok h
  obtain ⟨_, h2, h⟩ := bind_ok h
  obtain ⟨_, h3, h⟩ := bind_ok h
  obtain ⟨u, h4, h⟩ := bind_ok h
  obtain ⟨_, h5, h⟩ := bind_ok h
  obtain ⟨g, h6, h⟩ := bind_ok h
  obtain ⟨rfl, h6⟩ := (LearnerObj.check_ok_iff _ _ _ _).1 h6
  obtain ⟨m, h7, h⟩ := bind_ok h
  obtain ⟨rfl, h7⟩ := (LearnerObj.check_ok_iff _ _ _ _).1 h7
  obtain ⟨_, h8, h⟩ := bind_ok h
  obtain ⟨v, h9, h⟩ := bind_ok h
  obtain ⟨t, h10, h⟩ := bind_ok h
  obtain ⟨w, h11, h⟩ := bind_ok h
  obtain ⟨s1, hs, h⟩ := bind_ok h
  cases h
  exact ⟨rfl, rfl, rfl, rfl, (checkBool_ok_iff _ _).1 h9, ((C39_accepted_iff _ _ _).1 h10).2.1, initModel_nRep hc hs ▸ usesWeights hw h11, varsOf_eq read D, initModel_created hs⟩

theorem lookupKey_eq_of_nodup {α : Type} {l : List (String × α)} (hd : (l.map Prod.fst).Nodup) {k : String} {v : α} (h : (k, v) ∈ l) :
    lookupKey k l = some v := by
  induction l with
  | nil => cases h
  | cons p l ih =>
    rw [List.map_cons, List.nodup_cons] at hd
    unfold lookupKey
    rcases List.mem_cons.1 h with h | h
    · rw [← h, if_pos rfl]
    · rw [if_neg]
      · exact ih hd.2 h
      · intro hk
        exact hd.1 (List.mem_map.2 ⟨_, h, hk.symm⟩)

theorem subgroups_iff (a : SubgroupArg) (hd : a.Dict) (u : Bool × Bool) : checkSubgroups a = .ok u ↔
    (a = .none ∧ u = (true, true)) ∨
    ∃ kv, a = .dict kv ∧ kv.Perm [("always_takers", .bool u.1), ("never_takers", .bool u.2)] := by
  unfold checkSubgroups
  cases a with
  | none => simp [eq_comm]
  | other => simp
  | dict kv =>
    have hd : (kv.map Prod.fst).Nodup := hd
    have mem : ∀ {k : String} {v : PyVal}, (k, v) ∈ kv → lookupKey k kv = some v := fun h => lookupKey_eq_of_nodup hd h
    have sub : ∀ {k : String} {b : Bool}, subgroupOf kv k = .ok b ↔ (k, .bool b) ∈ kv := by
      intro k b
      unfold subgroupOf
      constructor
      · intro h
        cases hk : lookupKey k kv with
        | none => rw [hk] at h; cases h
        | some v =>
          rw [hk] at h
          dsimp only at h
          rw [checkBool_ok_iff] at h
          exact lookupKey_mem (h ▸ hk)
      · intro h
        rw [mem h]
        exact (checkBool_ok_iff _ _).2 rfl
    dsimp only
    constructor
    · intro h
      split_ifs at h with hk
      obtain ⟨x, h1, h⟩ := bind_ok h
      obtain ⟨y, h2, h⟩ := bind_ok h
      cases h
      rw [sub] at h1 h2
      push Not at hk
      refine Or.inr ⟨kv, rfl, ?_⟩
      refine (List.perm_ext_iff_of_nodup (List.Nodup.of_map _ hd) (by simp)).2 fun p => ?_
      have inj := List.inj_on_of_nodup_map hd
      constructor
      · intro hp
        rcases hk.2 p.1 (List.mem_map_of_mem hp) with g | g
        · rw [inj hp h1 g]; simp
        · rw [inj hp h2 g]; simp
      · intro hp
        simp only [List.mem_cons, List.not_mem_nil, or_false] at hp
        rcases hp with rfl | rfl
        · exact h1
        · exact h2
    · rintro (⟨h, -⟩ | ⟨kv', h, hp⟩)
      · cases h
      · cases h
        have h1 : ("always_takers", PyVal.bool u.1) ∈ kv := hp.mem_iff.2 (by simp)
        have h2 : ("never_takers", PyVal.bool u.2) ∈ kv := hp.mem_iff.2 (by simp)
        rw [if_neg, sub.2 h1, sub.2 h2]
        · rfl
        · push Not
          refine ⟨⟨List.mem_map_of_mem (f := Prod.fst) h1, List.mem_map_of_mem (f := Prod.fst) h2⟩, fun k hk => ?_⟩
          obtain ⟨q, hq, rfl⟩ := List.mem_map.1 hk
          have := hp.mem_iff.1 hq
          simp only [List.mem_cons, List.not_mem_nil, or_false] at this
          rcases this with rfl | rfl
          · exact Or.inl rfl
          · exact Or.inr rfl

theorem subgroups_ok_iff (a : SubgroupArg) (hd : a.Dict) : (∃ u, checkSubgroups a = .ok u) ↔ SubgroupsOk a := by
  simp only [subgroups_iff a hd]
  unfold SubgroupsOk
  constructor
  · rintro ⟨u, ⟨h, -⟩ | ⟨kv, h, hp⟩⟩
    · exact Or.inl h
    · exact Or.inr ⟨kv, u.1, u.2, h, hp⟩
  · rintro (h | ⟨kv, b, c, h, hp⟩)
    · exact ⟨(true, true), Or.inl ⟨h, rfl⟩⟩
    · exact ⟨(b, c), Or.inr ⟨kv, h, hp⟩⟩

/-! ## IIVM -/

/-- The requirements of `DoubleMLIIVM`. -/
structure IivmSuitable (F : Frame n) (D : DataState n) (a : IivmArgs P) (b : Resampling n) : Prop where
  treat : ∃ d, D.d = [d] ∧ ZeroOne (F.col d)
  instr : ∃ z, D.z = some [z] ∧ ZeroOne (F.col z)
  score : a.score = .str "LATE"
  strata : StrataByTwo F (oneInstr D) D b
  ml_g : a.ml_g.Usable a.ml_g.isClassifier
  ml_m : a.ml_m.Usable true
  ml_r : a.ml_r.Usable true
  outcome : a.ml_g.isClassifier = true → ZeroOne (F.col D.y)
  normalize : ∃ v, a.normalize = .bool v
  trimming : TrimmingOk a.rule a.threshold
  subgroups : SubgroupsOk a.subgroups

/-- **C64, IIVM.**  For data that were not changed since their creation, the constructor succeeds exactly if the requirements
are met. -/
theorem C64_iivm {F : Frame n} {D : DataState n} (hD : FreshData F D) (read : List (Fin n → Cell) → ClusterVars n)
    (a : IivmArgs P) (hw : a.subgroups.Dict) (b : Resampling n) :
    (∃ r, newIivm read a D b = .ok r) ↔ ResamplingOk read D b ∧ IivmSuitable F D a b := by
  constructor
  · rintro ⟨r, h⟩
    unfold newIivm at h
    obtain ⟨s0, h0, h⟩ := bind_ok h
    have hR := (C64_base read D b).1 ⟨s0, h0⟩
    have hc := initModel_created h0
    obtain ⟨_, h1, h⟩ := bind_ok h
    obtain ⟨_, h2, h⟩ := bind_ok h
    obtain ⟨u, h3, h⟩ := bind_ok h
    obtain ⟨_, h4, h⟩ := bind_ok h
    obtain ⟨g, h5, h⟩ := bind_ok h
    obtain ⟨rfl, h5⟩ := (LearnerObj.check_ok_iff _ _ _ _).1 h5
    obtain ⟨m, h6, h⟩ := bind_ok h
    obtain ⟨rfl, h6⟩ := (LearnerObj.check_ok_iff _ _ _ _).1 h6
    obtain ⟨r, h7, h⟩ := bind_ok h
    obtain ⟨rfl, h7⟩ := (LearnerObj.check_ok_iff _ _ _ _).1 h7
    obtain ⟨_, h8, h⟩ := bind_ok h
    obtain ⟨v, h9, h⟩ := bind_ok h
    obtain ⟨t, h10, h⟩ := bind_ok h
    obtain ⟨u, h11, h⟩ := bind_ok h
    exact ⟨hR, (treat_iff hD).1 h1, (instr_iff hD).1 h2, (one_score_iff _ _).1 ⟨_, h3⟩, (strata2_iff hD h0 (firstInstr_eq hD ((instr_iff hD).1 h2))).1 h4, h5, h6, h7, (outcome_iff hD a.ml_g.isClassifier).1 h8, (bool_iff _).1 ⟨_, h9⟩, (trimming_iff _ _).1 ⟨_, h10⟩, (subgroups_ok_iff a.subgroups hw).1 ⟨_, h11⟩⟩
  · rintro ⟨hR, ha⟩
    obtain ⟨s0, h0⟩ := (C64_base (P := P) read D b).2 hR
    have hc := initModel_created h0
    have h1 := (treat_iff hD).2 ha.treat
    have h2 := (instr_iff hD).2 ha.instr
    obtain ⟨u, h3⟩ := (one_score_iff _ _).2 ha.score
    have h4 := (strata2_iff hD h0 (firstInstr_eq hD ((instr_iff hD).1 h2))).2 ha.strata
    have h5 := (LearnerObj.check_ok_iff a.ml_g true true a.ml_g.isClassifier).2 ⟨rfl, ha.ml_g⟩
    have h6 := (LearnerObj.check_ok_iff a.ml_m false true true).2 ⟨rfl, ha.ml_m⟩
    have h7 := (LearnerObj.check_ok_iff a.ml_r false true true).2 ⟨rfl, ha.ml_r⟩
    have h8 := (outcome_iff hD a.ml_g.isClassifier).2 ha.outcome
    obtain ⟨v, h9⟩ := (bool_iff _).2 ha.normalize
    obtain ⟨t, h10⟩ := (trimming_iff _ _).2 ha.trimming
    obtain ⟨u, h11⟩ := (subgroups_ok_iff a.subgroups hw).2 ha.subgroups
    unfold newIivm
    rw [h0]
    simp only [bind, Except.bind, h1, h2, h3, h4, h5, h6, h7, h8, h9, h10, h11]
    obtain ⟨s, hs⟩ := second_ok hR (sp := iivmSpec
      { ml_g := a.ml_g.run
        ml_m := a.ml_m.run
        ml_r := a.ml_r.run
        gClassifier := a.ml_g.isClassifier
        alwaysTakers := u.1
        neverTakers := u.2
        normalize := v
        trimT := t
        vars := varsOf read D }) rfl b.second
    rw [hs]
    exact ⟨_, rfl⟩

/-- **C64, IIVM, the created object.**  The object has exactly the given learners and settings, refers to the given data, and holds no results. -/
theorem C64_iivm_object {D : DataState n} (read : List (Fin n → Cell) → ClusterVars n)
    (a : IivmArgs P) (hw : a.subgroups.Dict) (b : Resampling n) {k : IivmClass n P} {s : LinState n P} (h : newIivm read a D b = .ok (k, s)) :
    k.ml_g = a.ml_g.run ∧
    k.ml_m = a.ml_m.run ∧
    k.ml_r = a.ml_r.run ∧
    k.gClassifier = a.ml_g.isClassifier ∧
    ((a.subgroups = .none ∧ (k.alwaysTakers, k.neverTakers) = (true, true)) ∨
      ∃ kv, a.subgroups = .dict kv ∧ kv.Perm [("always_takers", .bool k.alwaysTakers), ("never_takers", .bool k.neverTakers)]) ∧
    a.normalize = .bool k.normalize ∧
    a.threshold = .float k.trimT ∧
    ((D.cluster = none → k.vars = none) ∧ (D.cluster ≠ none → k.vars = some read)) ∧
    Created (iivmSpec k) D b s := by
  unfold newIivm at h
  obtain ⟨s0, h0, h⟩ := bind_ok h
  have hR := (C64_base read D b).1 ⟨s0, h0⟩
  have hc := initModel_created h0
  obtain ⟨_, h1, h⟩ := bind_ok h
  obtain ⟨_, h2, h⟩ := bind_ok h
  obtain ⟨u, h3, h⟩ := bind_ok h
  obtain ⟨_, h4, h⟩ := bind_ok h
  obtain ⟨g, h5, h⟩ := bind_ok h
  obtain ⟨rfl, h5⟩ := (LearnerObj.check_ok_iff _ _ _ _).1 h5
  obtain ⟨m, h6, h⟩ := bind_ok h
  obtain ⟨rfl, h6⟩ := (LearnerObj.check_ok_iff _ _ _ _).1 h6
  obtain ⟨r, h7, h⟩ := bind_ok h
  obtain ⟨rfl, h7⟩ := (LearnerObj.check_ok_iff _ _ _ _).1 h7
  obtain ⟨_, h8, h⟩ := bind_ok h
  obtain ⟨v, h9, h⟩ := bind_ok h
  obtain ⟨t, h10, h⟩ := bind_ok h
  obtain ⟨u, h11, h⟩ := bind_ok h
  obtain ⟨s1, hs, h⟩ := bind_ok h
  cases h
  exact ⟨rfl, rfl, rfl, rfl, (subgroups_iff _ hw _).1 h11, (checkBool_ok_iff _ _).1 h9, ((C39_accepted_iff _ _ _).1 h10).2.1, varsOf_eq read D, initModel_created hs⟩

/-! ## DID -/

/-- The requirements of `DoubleMLDID`. -/
structure DidSuitable (F : Frame n) (D : DataState n) (a : DidArgs P) (b : Resampling n) : Prop where
  noInstr : D.z = none
  treat : ∃ d, D.d = [d] ∧ ZeroOne (F.col d)
  score : a.score = .str "observational" ∨ a.score = .str "experimental"
  inSample : ∃ v, a.inSample = .bool v
  strata : StrataByTreat F D b
  ml_g : a.ml_g.Usable a.ml_g.isClassifier
  ml_m : a.score = .str "observational" → ∃ m, a.ml_m = some m ∧ m.Usable true
  outcome : a.ml_g.isClassifier = true → ZeroOne (F.col D.y)
  trimming : TrimmingOk a.rule a.threshold

/-- **C64, DID.**  For data that were not changed since their creation, the constructor succeeds exactly if the requirements
are met. -/
theorem C64_did {F : Frame n} {D : DataState n} (hD : FreshData F D) (read : List (Fin n → Cell) → ClusterVars n)
    (a : DidArgs P) (b : Resampling n) :
    (∃ r, newDid read a D b = .ok r) ↔ ResamplingOk read D b ∧ DidSuitable F D a b := by
  constructor
  · rintro ⟨r, h⟩
    unfold newDid at h
    obtain ⟨s0, h0, h⟩ := bind_ok h
    have hR := (C64_base read D b).1 ⟨s0, h0⟩
    have hc := initModel_created h0
    obtain ⟨_, h1, h⟩ := bind_ok h
    obtain ⟨_, h2, h⟩ := bind_ok h
    obtain ⟨score, h3, h⟩ := bind_ok h
    obtain ⟨v, h4, h⟩ := bind_ok h
    obtain ⟨_, h5, h⟩ := bind_ok h
    obtain ⟨g, h6, h⟩ := bind_ok h
    obtain ⟨rfl, h6⟩ := (LearnerObj.check_ok_iff _ _ _ _).1 h6
    obtain ⟨m, h7, h⟩ := bind_ok h
    obtain ⟨_, h8, h⟩ := bind_ok h
    obtain ⟨t, h9, h⟩ := bind_ok h
    exact ⟨hR, (checkNoInstr_ok_iff D).1 h1, (treat_iff hD).1 h2, (did_score_iff _).1 ⟨_, h3⟩, (bool_iff _).1 ⟨_, h4⟩, (strata_iff hD h0).1 h5, h6, (didM_iff h3).1 ⟨_, h7⟩, (outcome_iff hD a.ml_g.isClassifier).1 h8, (trimming_iff _ _).1 ⟨_, h9⟩⟩
  · rintro ⟨hR, ha⟩
    obtain ⟨s0, h0⟩ := (C64_base (P := P) read D b).2 hR
    have hc := initModel_created h0
    have h1 := (checkNoInstr_ok_iff D).2 ha.noInstr
    have h2 := (treat_iff hD).2 ha.treat
    obtain ⟨score, h3⟩ := (did_score_iff _).2 ha.score
    obtain ⟨v, h4⟩ := (bool_iff _).2 ha.inSample
    have h5 := (strata_iff hD h0).2 ha.strata
    have h6 := (LearnerObj.check_ok_iff a.ml_g true true a.ml_g.isClassifier).2 ⟨rfl, ha.ml_g⟩
    obtain ⟨m, h7⟩ := (didM_iff h3).2 ha.ml_m
    have h8 := (outcome_iff hD a.ml_g.isClassifier).2 ha.outcome
    obtain ⟨t, h9⟩ := (trimming_iff _ _).2 ha.trimming
    unfold newDid
    rw [h0]
    simp only [bind, Except.bind, h1, h2, h3, h4, h5, h6, h7, h8, h9]
    obtain ⟨s, hs⟩ := second_ok hR (sp := didSpec (didOf a a.ml_g.isClassifier score v t (varsOf read D))) rfl b.second
    rw [hs]
    exact ⟨_, rfl⟩

/-- **C64, DID, the created object.**  The object has exactly the given learners and settings, refers to the given data, and holds no results. -/
theorem C64_did_object {D : DataState n} (read : List (Fin n → Cell) → ClusterVars n)
    (a : DidArgs P) (b : Resampling n) {k : DidClass n P} {s : LinState n P} (h : newDid read a D b = .ok (k, s)) :
    k.ml_g = a.ml_g.run ∧
    (∀ m, a.ml_m = some m → k.ml_m = m.run) ∧
    k.gClassifier = a.ml_g.isClassifier ∧
    ((a.score = .str "observational" ∧ k.score = .observational) ∨ (a.score = .str "experimental" ∧ k.score = .experimental)) ∧
    a.inSample = .bool k.normalize ∧
    a.threshold = .float k.trimT ∧
    ((D.cluster = none → k.vars = none) ∧ (D.cluster ≠ none → k.vars = some read)) ∧
    Created (didSpec k) D b s := by
  unfold newDid at h
  obtain ⟨s0, h0, h⟩ := bind_ok h
  have hR := (C64_base read D b).1 ⟨s0, h0⟩
  have hc := initModel_created h0
  obtain ⟨_, h1, h⟩ := bind_ok h
  obtain ⟨_, h2, h⟩ := bind_ok h
  obtain ⟨score, h3, h⟩ := bind_ok h
  obtain ⟨v, h4, h⟩ := bind_ok h
  obtain ⟨_, h5, h⟩ := bind_ok h
  obtain ⟨g, h6, h⟩ := bind_ok h
  obtain ⟨rfl, h6⟩ := (LearnerObj.check_ok_iff _ _ _ _).1 h6
  obtain ⟨m, h7, h⟩ := bind_ok h
  obtain ⟨_, h8, h⟩ := bind_ok h
  obtain ⟨t, h9, h⟩ := bind_ok h
  obtain ⟨s1, hs, h⟩ := bind_ok h
  cases h
  exact ⟨rfl, fun m hm => (by unfold didOf; rw [hm]; rfl), rfl, (twoScore_iff (by decide) _ _ _ _).1 h3, (checkBool_ok_iff _ _).1 h4, ((C39_accepted_iff _ _ _).1 h9).2.1, varsOf_eq read D, initModel_created hs⟩

/-! ## DIDCS -/

/-- The requirements of `DoubleMLDIDCS`. -/
structure DidCsSuitable (F : Frame n) (D : DataState n) (a : DidArgs P) (b : Resampling n) : Prop where
  noInstr : D.z = none
  treat : ∃ d, D.d = [d] ∧ ZeroOne (F.col d)
  time : ∃ t, D.t = some t ∧ ZeroOne (F.col t)
  score : a.score = .str "observational" ∨ a.score = .str "experimental"
  inSample : ∃ v, a.inSample = .bool v
  strata : StrataByTwo F D.t D b
  ml_g : a.ml_g.Usable a.ml_g.isClassifier
  ml_m : a.score = .str "observational" → ∃ m, a.ml_m = some m ∧ m.Usable true
  outcome : a.ml_g.isClassifier = true → ZeroOne (F.col D.y)
  trimming : TrimmingOk a.rule a.threshold

/-- **C64, DIDCS.**  For data that were not changed since their creation, the constructor succeeds exactly if the requirements
are met. -/
theorem C64_didCs {F : Frame n} {D : DataState n} (hD : FreshData F D) (read : List (Fin n → Cell) → ClusterVars n)
    (a : DidArgs P) (b : Resampling n) :
    (∃ r, newDidCs read a D b = .ok r) ↔ ResamplingOk read D b ∧ DidCsSuitable F D a b := by
  constructor
  · rintro ⟨r, h⟩
    unfold newDidCs at h
    obtain ⟨s0, h0, h⟩ := bind_ok h
    have hR := (C64_base read D b).1 ⟨s0, h0⟩
    have hc := initModel_created h0
    obtain ⟨_, h1, h⟩ := bind_ok h
    obtain ⟨_, h2, h⟩ := bind_ok h
    obtain ⟨_, h3, h⟩ := bind_ok h
    obtain ⟨score, h4, h⟩ := bind_ok h
    obtain ⟨v, h5, h⟩ := bind_ok h
    obtain ⟨_, h6, h⟩ := bind_ok h
    obtain ⟨g, h7, h⟩ := bind_ok h
    obtain ⟨rfl, h7⟩ := (LearnerObj.check_ok_iff _ _ _ _).1 h7
    obtain ⟨m, h8, h⟩ := bind_ok h
    obtain ⟨_, h9, h⟩ := bind_ok h
    obtain ⟨t, h10, h⟩ := bind_ok h
    exact ⟨hR, (checkNoInstr_ok_iff D).1 h1, (treat_iff hD).1 h2, (time_iff hD).1 h3, (did_score_iff _).1 ⟨_, h4⟩, (bool_iff _).1 ⟨_, h5⟩, (strata2_iff hD h0 (timeCol_eq hD ((time_iff hD).1 h3))).1 h6, h7, (didM_iff h4).1 ⟨_, h8⟩, (outcome_iff hD a.ml_g.isClassifier).1 h9, (trimming_iff _ _).1 ⟨_, h10⟩⟩
  · rintro ⟨hR, ha⟩
    obtain ⟨s0, h0⟩ := (C64_base (P := P) read D b).2 hR
    have hc := initModel_created h0
    have h1 := (checkNoInstr_ok_iff D).2 ha.noInstr
    have h2 := (treat_iff hD).2 ha.treat
    have h3 := (time_iff hD).2 ha.time
    obtain ⟨score, h4⟩ := (did_score_iff _).2 ha.score
    obtain ⟨v, h5⟩ := (bool_iff _).2 ha.inSample
    have h6 := (strata2_iff hD h0 (timeCol_eq hD ((time_iff hD).1 h3))).2 ha.strata
    have h7 := (LearnerObj.check_ok_iff a.ml_g true true a.ml_g.isClassifier).2 ⟨rfl, ha.ml_g⟩
    obtain ⟨m, h8⟩ := (didM_iff h4).2 ha.ml_m
    have h9 := (outcome_iff hD a.ml_g.isClassifier).2 ha.outcome
    obtain ⟨t, h10⟩ := (trimming_iff _ _).2 ha.trimming
    unfold newDidCs
    rw [h0]
    simp only [bind, Except.bind, h1, h2, h3, h4, h5, h6, h7, h8, h9, h10]
    obtain ⟨s, hs⟩ := second_ok hR (sp := csSpec (didOf a a.ml_g.isClassifier score v t (varsOf read D))) rfl b.second
    rw [hs]
    exact ⟨_, rfl⟩

/-- **C64, DIDCS, the created object.**  The object has exactly the given learners and settings, refers to the given data, and holds no results. -/
theorem C64_didCs_object {D : DataState n} (read : List (Fin n → Cell) → ClusterVars n)
    (a : DidArgs P) (b : Resampling n) {k : DidClass n P} {s : LinState n P} (h : newDidCs read a D b = .ok (k, s)) :
    k.ml_g = a.ml_g.run ∧
    (∀ m, a.ml_m = some m → k.ml_m = m.run) ∧
    k.gClassifier = a.ml_g.isClassifier ∧
    ((a.score = .str "observational" ∧ k.score = .observational) ∨ (a.score = .str "experimental" ∧ k.score = .experimental)) ∧
    a.inSample = .bool k.normalize ∧
    a.threshold = .float k.trimT ∧
    ((D.cluster = none → k.vars = none) ∧ (D.cluster ≠ none → k.vars = some read)) ∧
    Created (csSpec k) D b s := by
  unfold newDidCs at h
  obtain ⟨s0, h0, h⟩ := bind_ok h
  have hR := (C64_base read D b).1 ⟨s0, h0⟩
  have hc := initModel_created h0
  obtain ⟨_, h1, h⟩ := bind_ok h
  obtain ⟨_, h2, h⟩ := bind_ok h
  obtain ⟨_, h3, h⟩ := bind_ok h
  obtain ⟨score, h4, h⟩ := bind_ok h
  obtain ⟨v, h5, h⟩ := bind_ok h
  obtain ⟨_, h6, h⟩ := bind_ok h
  obtain ⟨g, h7, h⟩ := bind_ok h
  obtain ⟨rfl, h7⟩ := (LearnerObj.check_ok_iff _ _ _ _).1 h7
  obtain ⟨m, h8, h⟩ := bind_ok h
  obtain ⟨_, h9, h⟩ := bind_ok h
  obtain ⟨t, h10, h⟩ := bind_ok h
  obtain ⟨s1, hs, h⟩ := bind_ok h
  cases h
  exact ⟨rfl, fun m hm => (by unfold didOf; rw [hm]; rfl), rfl, (twoScore_iff (by decide) _ _ _ _).1 h4, (checkBool_ok_iff _ _).1 h5, ((C39_accepted_iff _ _ _).1 h10).2.1, varsOf_eq read D, initModel_created hs⟩

/-! ## SSM -/

/-- The requirements of `DoubleMLSSM`. -/
structure SsmSuitable (F : Frame n) (D : DataState n) (a : SsmArgs P) (b : Resampling n) : Prop where
  trimming : TrimmingOk a.rule a.threshold
  instr : a.score = .str "nonignorable" → D.z ≠ none
  score : a.score = .str "missing-at-random" ∨ a.score = .str "nonignorable"
  selection : ∃ s, D.s = some s
  strata : StrataByTwo F D.s D b
  ml_g : a.ml_g.Usable a.ml_g.isClassifier
  ml_pi : a.ml_pi.Usable true
  ml_m : a.ml_m.Usable true
  outcome : a.ml_g.isClassifier = true → ZeroOne (F.col D.y)
  normalize : ∃ v, a.normalize = .bool v

theorem ssmScore_iff (v : PyVal) (o : Bool) : checkScore [("missing-at-random", false), ("nonignorable", true)] v = .ok o ↔
    v = .str (if o then "nonignorable" else "missing-at-random") := by
  rw [twoScore_iff (by decide)]
  cases o <;> simp

/-- **C64, SSM.**  For data that were not changed since their creation, the constructor succeeds exactly if the requirements
are met. -/
theorem C64_ssm {F : Frame n} {D : DataState n} (hD : FreshData F D) (read : List (Fin n → Cell) → ClusterVars n)
    (a : SsmArgs P) (b : Resampling n) :
    (∃ r, newSsm read a D b = .ok r) ↔ ResamplingOk read D b ∧ SsmSuitable F D a b := by
  constructor
  · rintro ⟨r, h⟩
    unfold newSsm at h
    obtain ⟨s0, h0, h⟩ := bind_ok h
    have hR := (C64_base read D b).1 ⟨s0, h0⟩
    have hc := initModel_created h0
    obtain ⟨t, h1, h⟩ := bind_ok h
    obtain ⟨_, h2, h⟩ := bind_ok h
    obtain ⟨sc, h3, h⟩ := bind_ok h
    obtain ⟨sel, h4, h⟩ := bind_ok h
    obtain ⟨_, h5, h⟩ := bind_ok h
    obtain ⟨g, h6, h⟩ := bind_ok h
    obtain ⟨rfl, h6⟩ := (LearnerObj.check_ok_iff _ _ _ _).1 h6
    obtain ⟨pi, h7, h⟩ := bind_ok h
    obtain ⟨rfl, h7⟩ := (LearnerObj.check_ok_iff _ _ _ _).1 h7
    obtain ⟨m, h8, h⟩ := bind_ok h
    obtain ⟨rfl, h8⟩ := (LearnerObj.check_ok_iff _ _ _ _).1 h8
    obtain ⟨_, h9, h⟩ := bind_ok h
    obtain ⟨v, h10, h⟩ := bind_ok h
    exact ⟨hR, (trimming_iff _ _).1 ⟨_, h1⟩, (ssmData_iff a.score D).1 h2, (two_score_iff (by decide) false true _).1 ⟨_, h3⟩, (sel_iff hD).1 ⟨_, h4⟩, (strata2_iff hD h0 (selCol_eq hD h4)).1 h5, h6, h7, h8, (outcome_fresh_iff hD a.ml_g.isClassifier).1 h9, (bool_iff _).1 ⟨_, h10⟩⟩
  · rintro ⟨hR, ha⟩
    obtain ⟨s0, h0⟩ := (C64_base (P := P) read D b).2 hR
    have hc := initModel_created h0
    obtain ⟨t, h1⟩ := (trimming_iff _ _).2 ha.trimming
    have h2 := (ssmData_iff a.score D).2 ha.instr
    obtain ⟨sc, h3⟩ := (two_score_iff (by decide) false true _).2 ha.score
    obtain ⟨sel, h4⟩ := (sel_iff hD).2 ha.selection
    have h5 := (strata2_iff hD h0 (selCol_eq hD h4)).2 ha.strata
    have h6 := (LearnerObj.check_ok_iff a.ml_g true true a.ml_g.isClassifier).2 ⟨rfl, ha.ml_g⟩
    have h7 := (LearnerObj.check_ok_iff a.ml_pi false true true).2 ⟨rfl, ha.ml_pi⟩
    have h8 := (LearnerObj.check_ok_iff a.ml_m false true true).2 ⟨rfl, ha.ml_m⟩
    have h9 := (outcome_fresh_iff hD a.ml_g.isClassifier).2 ha.outcome
    obtain ⟨v, h10⟩ := (bool_iff _).2 ha.normalize
    unfold newSsm
    rw [h0]
    simp only [bind, Except.bind, h1, h2, h3, h4, h5, h6, h7, h8, h9, h10]
    obtain ⟨s, hs⟩ := second_ok hR (sp := ssmSpec
      { ml_g := a.ml_g.run
        ml_pi := a.ml_pi.run
        ml_m := a.ml_m.run
        gClassifier := a.ml_g.isClassifier
        normalize := v
        trimT := t
        vars := varsOf read D }) rfl b.second
    rw [hs]
    exact ⟨_, rfl⟩

/-- **C64, SSM, the created object.**  The object has exactly the given learners and settings, refers to the given data, and holds no results. -/
theorem C64_ssm_object {D : DataState n} (read : List (Fin n → Cell) → ClusterVars n)
    (a : SsmArgs P) (b : Resampling n) {o : Bool} {k : SsmClass n P} {s : LinState n P} (h : newSsm read a D b = .ok (o, k, s)) :
    a.score = .str (if o then "nonignorable" else "missing-at-random") ∧
    k.ml_g = a.ml_g.run ∧
    k.ml_pi = a.ml_pi.run ∧
    k.ml_m = a.ml_m.run ∧
    k.gClassifier = a.ml_g.isClassifier ∧
    a.normalize = .bool k.normalize ∧
    a.threshold = .float k.trimT ∧
    ((D.cluster = none → k.vars = none) ∧ (D.cluster ≠ none → k.vars = some read)) ∧
    Created (ssmSpec k) D b s := by
  unfold newSsm at h
  obtain ⟨s0, h0, h⟩ := bind_ok h
  have hR := (C64_base read D b).1 ⟨s0, h0⟩
  have hc := initModel_created h0
  obtain ⟨t, h1, h⟩ := bind_ok h
  obtain ⟨_, h2, h⟩ := bind_ok h
  obtain ⟨sc, h3, h⟩ := bind_ok h
  obtain ⟨sel, h4, h⟩ := bind_ok h
  obtain ⟨_, h5, h⟩ := bind_ok h
  obtain ⟨g, h6, h⟩ := bind_ok h
  obtain ⟨rfl, h6⟩ := (LearnerObj.check_ok_iff _ _ _ _).1 h6
  obtain ⟨pi, h7, h⟩ := bind_ok h
  obtain ⟨rfl, h7⟩ := (LearnerObj.check_ok_iff _ _ _ _).1 h7
  obtain ⟨m, h8, h⟩ := bind_ok h
  obtain ⟨rfl, h8⟩ := (LearnerObj.check_ok_iff _ _ _ _).1 h8
  obtain ⟨_, h9, h⟩ := bind_ok h
  obtain ⟨v, h10, h⟩ := bind_ok h
  obtain ⟨s1, hs, h⟩ := bind_ok h
  cases h
  exact ⟨(ssmScore_iff _ _).1 h3, rfl, rfl, rfl, rfl, (checkBool_ok_iff _ _).1 h10, ((C39_accepted_iff _ _ _).1 h1).2.1, varsOf_eq read D, initModel_created hs⟩

/-! ## PLR -/

/-- The requirements of `DoubleMLPLR`. -/
structure PlrSuitable (F : Frame n) (D : DataState n) (a : PlrArgs P) (b : Resampling n) : Prop where
  noInstr : D.z = none
  score : a.score = .str "IV-type" ∨ a.score = .str "partialling out"
  ml_l : a.ml_l.Usable false
  ml_m : a.ml_m.Usable a.ml_m.isClassifier
  ml_g : a.score = .str "IV-type" → ∀ g, a.ml_g = some g → g.Usable false
  treat : a.ml_m.isClassifier = true → ∀ d ∈ D.d, ZeroOne (F.col d)

theorem plScore_iff (v : PyVal) (o : Bool) : checkScore plScores v = .ok o ↔ v = .str (if o then "IV-type" else "partialling out") := by
  unfold plScores
  rw [twoScore_iff (by decide)]
  cases o <;> simp

/-- **C64, PLR.**  For data that were not changed since their creation, the constructor succeeds exactly if the requirements
are met. -/
theorem C64_plr {F : Frame n} {D : DataState n} (hD : FreshData F D) (read : List (Fin n → Cell) → ClusterVars n)
    (a : PlrArgs P) (b : Resampling n) :
    (∃ r, newPlr read a D b = .ok r) ↔ ResamplingOk read D b ∧ PlrSuitable F D a b := by
  constructor
  · rintro ⟨r, h⟩
    unfold newPlr at h
    obtain ⟨s0, h0, h⟩ := bind_ok h
    have hR := (C64_base read D b).1 ⟨s0, h0⟩
    have hc := initModel_created h0
    obtain ⟨_, h1, h⟩ := bind_ok h
    obtain ⟨iv, h2, h⟩ := bind_ok h
    obtain ⟨l, h3, h⟩ := bind_ok h
    obtain ⟨rfl, h3⟩ := (LearnerObj.check_ok_iff _ _ _ _).1 h3
    obtain ⟨m, h4, h⟩ := bind_ok h
    obtain ⟨rfl, h4⟩ := (LearnerObj.check_ok_iff _ _ _ _).1 h4
    obtain ⟨g, h5, h⟩ := bind_ok h
    obtain ⟨_, h6, h⟩ := bind_ok h
    exact ⟨hR, (checkNoInstr_ok_iff D).1 h1, (pl_score_iff _).1 ⟨_, h2⟩, h3, h4, (plrG_iff h2).1 ⟨_, h5⟩, (treatClassifier_iff hD a.ml_m.isClassifier).1 h6⟩
  · rintro ⟨hR, ha⟩
    obtain ⟨s0, h0⟩ := (C64_base (P := P) read D b).2 hR
    have hc := initModel_created h0
    have h1 := (checkNoInstr_ok_iff D).2 ha.noInstr
    obtain ⟨iv, h2⟩ := (pl_score_iff _).2 ha.score
    have h3 := (LearnerObj.check_ok_iff a.ml_l true false false).2 ⟨rfl, ha.ml_l⟩
    have h4 := (LearnerObj.check_ok_iff a.ml_m true true a.ml_m.isClassifier).2 ⟨rfl, ha.ml_m⟩
    obtain ⟨g, h5⟩ := (plrG_iff h2).2 ha.ml_g
    have h6 := (treatClassifier_iff hD a.ml_m.isClassifier).2 ha.treat
    unfold newPlr
    rw [h0]
    simp only [bind, Except.bind, h1, h2, h3, h4, h5, h6]
    obtain ⟨s, hs⟩ := second_ok hR (sp := plrSpec
      { ml_l := a.ml_l.run
        ml_m := a.ml_m.run
        ml_g := (a.ml_g.getD a.ml_l).run
        mClassifier := a.ml_m.isClassifier
        iv := iv
        vars := varsOf read D }) rfl b.first
    rw [hs]
    exact ⟨_, rfl⟩

/-- **C64, PLR, the created object.**  The object has exactly the given learners and settings, refers to the given data, and holds no results.  Without `ml_g`, `ml_l` takes its place. -/
theorem C64_plr_object {D : DataState n} (read : List (Fin n → Cell) → ClusterVars n)
    (a : PlrArgs P) (b : Resampling n) {k : PlrClass n P} {s : LinState n P} (h : newPlr read a D b = .ok (k, s)) :
    k.ml_l = a.ml_l.run ∧
    k.ml_m = a.ml_m.run ∧
    (∀ g, a.ml_g = some g → k.ml_g = g.run) ∧
    (a.ml_g = none → k.ml_g = a.ml_l.run) ∧
    k.mClassifier = a.ml_m.isClassifier ∧
    a.score = .str (if k.iv then "IV-type" else "partialling out") ∧
    ((D.cluster = none → k.vars = none) ∧ (D.cluster ≠ none → k.vars = some read)) ∧
    Created (plrSpec k) D b s := by
  unfold newPlr at h
  obtain ⟨s0, h0, h⟩ := bind_ok h
  have hR := (C64_base read D b).1 ⟨s0, h0⟩
  have hc := initModel_created h0
  obtain ⟨_, h1, h⟩ := bind_ok h
  obtain ⟨iv, h2, h⟩ := bind_ok h
  obtain ⟨l, h3, h⟩ := bind_ok h
  obtain ⟨rfl, h3⟩ := (LearnerObj.check_ok_iff _ _ _ _).1 h3
  obtain ⟨m, h4, h⟩ := bind_ok h
  obtain ⟨rfl, h4⟩ := (LearnerObj.check_ok_iff _ _ _ _).1 h4
  obtain ⟨g, h5, h⟩ := bind_ok h
  obtain ⟨_, h6, h⟩ := bind_ok h
  obtain ⟨s1, hs, h⟩ := bind_ok h
  cases h
  exact ⟨rfl, rfl, fun m hm => (by rw [hm]; rfl), fun hm => (by rw [hm]; rfl), rfl, (plScore_iff _ _).1 h2, varsOf_eq read D, initModel_created hs⟩

/-! ## PLIV -/

/-- The requirements of `DoubleMLPLIV`. -/
structure PlivSuitable (D : DataState n) (a : PlivArgs n P) (b : Resampling n) : Prop where
  instr : ∃ z l, D.z = some (z :: l)
  score : a.score = .str "partialling out" ∨ (a.score = .str "IV-type" ∧ ∃ z, D.z = some [z])
  ml_l : a.ml_l.Usable false
  ml_m : a.ml_m.Usable false
  ml_r : a.ml_r.Usable false
  ml_g : a.score = .str "IV-type" → ∃ g, a.ml_g = some g ∧ g.Usable false

/-- **C64, PLIV.**  The constructor succeeds exactly if the requirements
are met. -/
theorem C64_pliv {D : DataState n} (read : List (Fin n → Cell) → ClusterVars n)
    (a : PlivArgs n P) (b : Resampling n) :
    (∃ r, newPliv read a D b = .ok r) ↔ ResamplingOk read D b ∧ PlivSuitable D a b := by
  constructor
  · rintro ⟨r, h⟩
    unfold newPliv at h
    obtain ⟨s0, h0, h⟩ := bind_ok h
    have hR := (C64_base read D b).1 ⟨s0, h0⟩
    have hc := initModel_created h0
    obtain ⟨_, h1, h⟩ := bind_ok h
    obtain ⟨iv, h2, h⟩ := bind_ok h
    obtain ⟨l, h3, h⟩ := bind_ok h
    obtain ⟨rfl, h3⟩ := (LearnerObj.check_ok_iff _ _ _ _).1 h3
    obtain ⟨m, h4, h⟩ := bind_ok h
    obtain ⟨rfl, h4⟩ := (LearnerObj.check_ok_iff _ _ _ _).1 h4
    obtain ⟨r, h5, h⟩ := bind_ok h
    obtain ⟨rfl, h5⟩ := (LearnerObj.check_ok_iff _ _ _ _).1 h5
    obtain ⟨g, h6, h⟩ := bind_ok h
    exact ⟨hR, (hasInstr_iff D).1 h1, (pliv_score_iff D _).1 ⟨_, h2⟩, h3, h4, h5, (plivG_iff h2).1 ⟨_, h6⟩⟩
  · rintro ⟨hR, ha⟩
    obtain ⟨s0, h0⟩ := (C64_base (P := P) read D b).2 hR
    have hc := initModel_created h0
    have h1 := (hasInstr_iff D).2 ha.instr
    obtain ⟨iv, h2⟩ := (pliv_score_iff D _).2 ha.score
    have h3 := (LearnerObj.check_ok_iff a.ml_l true false false).2 ⟨rfl, ha.ml_l⟩
    have h4 := (LearnerObj.check_ok_iff a.ml_m true false false).2 ⟨rfl, ha.ml_m⟩
    have h5 := (LearnerObj.check_ok_iff a.ml_r true false false).2 ⟨rfl, ha.ml_r⟩
    obtain ⟨g, h6⟩ := (plivG_iff h2).2 ha.ml_g
    unfold newPliv
    rw [h0]
    simp only [bind, Except.bind, h1, h2, h3, h4, h5, h6]
    obtain ⟨s, hs⟩ := second_ok hR (sp := plivSpecOf
      { ml_l := a.ml_l.run
        ml_m := a.ml_m.run
        ml_r := a.ml_r.run
        ml_g := (a.ml_g.getD a.ml_l).run
        iv := iv
        proj := a.proj
        vars := varsOf read D } D) (plivSpecOf_vars _ D) b.first
    rw [hs]
    exact ⟨_, rfl⟩

/-- **C64, PLIV, the created object.**  The object has exactly the given learners and settings, refers to the given data, and holds no results. -/
theorem C64_pliv_object {D : DataState n} (read : List (Fin n → Cell) → ClusterVars n)
    (a : PlivArgs n P) (b : Resampling n) {k : PlivClass n P} {s : LinState n P} (h : newPliv read a D b = .ok (k, s)) :
    k.ml_l = a.ml_l.run ∧
    k.ml_m = a.ml_m.run ∧
    k.ml_r = a.ml_r.run ∧
    (∀ g, a.ml_g = some g → k.ml_g = g.run) ∧
    a.score = .str (if k.iv then "IV-type" else "partialling out") ∧
    ((D.cluster = none → k.vars = none) ∧ (D.cluster ≠ none → k.vars = some read)) ∧
    Created (plivSpecOf k D) D b s := by
  unfold newPliv at h
  obtain ⟨s0, h0, h⟩ := bind_ok h
  have hR := (C64_base read D b).1 ⟨s0, h0⟩
  have hc := initModel_created h0
  obtain ⟨_, h1, h⟩ := bind_ok h
  obtain ⟨iv, h2, h⟩ := bind_ok h
  obtain ⟨l, h3, h⟩ := bind_ok h
  obtain ⟨rfl, h3⟩ := (LearnerObj.check_ok_iff _ _ _ _).1 h3
  obtain ⟨m, h4, h⟩ := bind_ok h
  obtain ⟨rfl, h4⟩ := (LearnerObj.check_ok_iff _ _ _ _).1 h4
  obtain ⟨r, h5, h⟩ := bind_ok h
  obtain ⟨rfl, h5⟩ := (LearnerObj.check_ok_iff _ _ _ _).1 h5
  obtain ⟨g, h6, h⟩ := bind_ok h
  obtain ⟨s1, hs, h⟩ := bind_ok h
  cases h
  exact ⟨rfl, rfl, rfl, fun m hm => (by rw [hm]; rfl), (by rcases (plivScore_iff D _ _).1 h2 with ⟨g1, rfl⟩ | ⟨g1, -, rfl⟩ <;> exact g1), varsOf_eq read D, initModel_created hs⟩

/-! ## The quantile models -/

/-- The requirements of `DoubleMLPQ`, `DoubleMLCVAR` and `DoubleMLLPQ`. -/
structure QuantSuitable (q : QuantKind) (F : Frame n) (D : DataState n) (a : QuantArgs P) (b : Resampling n) : Prop where
  noInstr : q ≠ .lpq → D.z = none
  treat : ∃ d, D.d = [d] ∧ ZeroOne (F.col d)
  instr : q = .lpq → ∃ z, D.z = some [z] ∧ ZeroOne (F.col z)
  score : (q = .pq → a.score = .str "PQ") ∧ (q = .cvar → a.score = .str "CVaR") ∧ (q = .lpq → a.score = .str "LPQ")
  quantile : ∃ x, a.quantile = .float x ∧ 0 < x ∧ x < 1
  treatment : a.treatment.asInt = some 0 ∨ a.treatment.asInt = some 1
  normalize : ∃ v, a.normalize = .bool v
  strata : if q = .lpq then StrataByTwo F (oneInstr D) D b else StrataByTreat F D b
  trimming : TrimmingOk a.rule a.threshold
  ml_g : a.ml_g.Usable (decide (q ≠ .cvar))
  ml_m : a.ml_m.Usable true

theorem QuantKind.checkData_ok_iff {F : Frame n} {D : DataState n} (hD : FreshData F D) (q : QuantKind) :
    q.checkData D = .ok () ↔ (q ≠ .lpq → D.z = none) ∧ (∃ d, D.d = [d] ∧ ZeroOne (F.col d)) ∧
      (q = .lpq → ∃ z, D.z = some [z] ∧ ZeroOne (F.col z)) := by
  unfold QuantKind.checkData
  cases q with
  | lpq =>
    simp only [bind_unit_ok_iff, treat_iff hD, instr_iff hD]
    simp
  | pq =>
    simp only [bind_unit_ok_iff, treat_iff hD, checkNoInstr_ok_iff]
    simp
  | cvar =>
    simp only [bind_unit_ok_iff, treat_iff hD, checkNoInstr_ok_iff]
    simp

theorem QuantKind.strata_iff {F : Frame n} {D : DataState n} (hD : FreshData F D) {read : List (Fin n → Cell) → ClusterVars n}
    {b : Resampling n} {s : MState n P (Option (List (FittedModel P (List Cell))))} (h : baseInit read D b = .ok s) (q : QuantKind)
    (hz : q = .lpq → ∃ z, D.z = some [z] ∧ ZeroOne (F.col z)) :
    checkStrata (q.strata D) D b s.nFolds = .ok () ↔ if q = .lpq then StrataByTwo F (oneInstr D) D b else StrataByTreat F D b := by
  cases q with
  | lpq =>
    rw [if_pos rfl]
    exact strata2_iff hD h (firstInstr_eq hD (hz rfl))
  | pq =>
    rw [if_neg (by decide)]
    exact DML.strata_iff hD h
  | cvar =>
    rw [if_neg (by decide)]
    exact DML.strata_iff hD h

theorem quantile_iff (v : PyVal) : (∃ x, checkQuantile v = .ok x) ↔ ∃ x, v = .float x ∧ 0 < x ∧ x < 1 := by
  simp only [checkQuantile_ok_iff]

theorem treatment_iff (v : PyVal) : (∃ z, checkTreatmentArg v = .ok z) ↔ v.asInt = some 0 ∨ v.asInt = some 1 := by
  simp only [checkTreatmentArg_ok_iff]
  constructor
  · rintro ⟨z, h, rfl | rfl⟩
    · exact Or.inl h
    · exact Or.inr h
  · rintro (h | h)
    · exact ⟨0, h, Or.inl rfl⟩
    · exact ⟨1, h, Or.inr rfl⟩

theorem QuantKind.asClassifier (q : QuantKind) (L : LearnerObj P) :
    L.asClassifier (decide (q = .cvar)) (decide (q ≠ .cvar)) = decide (q ≠ .cvar) := by
  cases q <;> rfl

/-- **C64, PQ, CVaR, LPQ.**  For data that were not changed since their creation, the constructor succeeds exactly if the
requirements are met. -/
theorem C64_quant {F : Frame n} {D : DataState n} (hD : FreshData F D) (q : QuantKind)
    (read : List (Fin n → Cell) → ClusterVars n) (a : QuantArgs P) (b : Resampling n) :
    (∃ r, newQuant q read a D b = .ok r) ↔ ResamplingOk read D b ∧ QuantSuitable q F D a b := by
  have hsc : a.score = .str q.score ↔
      (q = .pq → a.score = .str "PQ") ∧ (q = .cvar → a.score = .str "CVaR") ∧ (q = .lpq → a.score = .str "LPQ") := by
    cases q <;> simp [QuantKind.score]
  constructor
  · rintro ⟨r, h⟩
    unfold newQuant at h
    obtain ⟨s0, h0, h⟩ := bind_ok h
    have hR := (C64_base read D b).1 ⟨s0, h0⟩
    obtain ⟨_, h1, h⟩ := bind_ok h
    obtain ⟨_, h2, h⟩ := bind_ok h
    obtain ⟨u, h3, h⟩ := bind_ok h
    obtain ⟨v, h4, h⟩ := bind_ok h
    obtain ⟨w, h5, h⟩ := bind_ok h
    obtain ⟨_, h6, h⟩ := bind_ok h
    obtain ⟨t, h7, h⟩ := bind_ok h
    obtain ⟨g, h8, h⟩ := bind_ok h
    obtain ⟨m, h9, h⟩ := bind_ok h
    obtain ⟨g1, g2, g3⟩ := (QuantKind.checkData_ok_iff hD q).1 h1
    refine ⟨hR, g1, g2, g3, hsc.1 ((one_score_iff _ _).1 ⟨_, h2⟩), (quantile_iff _).1 ⟨_, h3⟩, (treatment_iff _).1 ⟨_, h4⟩,
      (bool_iff _).1 ⟨_, h5⟩, (QuantKind.strata_iff hD h0 q g3).1 h6, (trimming_iff _ _).1 ⟨_, h7⟩, ?_, (usable_iff _ _ _).1 ⟨_, h9⟩⟩
    rw [← q.asClassifier a.ml_g]
    exact (usable_iff _ _ _).1 ⟨_, h8⟩
  · rintro ⟨hR, ha⟩
    obtain ⟨s0, h0⟩ := (C64_base (P := P) read D b).2 hR
    have h1 := (QuantKind.checkData_ok_iff hD q).2 ⟨ha.noInstr, ha.treat, ha.instr⟩
    obtain ⟨u0, h2⟩ := (one_score_iff _ _).2 (hsc.2 ha.score)
    obtain ⟨u, h3⟩ := (quantile_iff _).2 ha.quantile
    obtain ⟨v, h4⟩ := (treatment_iff _).2 ha.treatment
    obtain ⟨w, h5⟩ := (bool_iff _).2 ha.normalize
    have h6 := (QuantKind.strata_iff hD h0 q ha.instr).2 ha.strata
    obtain ⟨t, h7⟩ := (trimming_iff _ _).2 ha.trimming
    obtain ⟨g, h8⟩ := (usable_iff _ _ _).2 ((q.asClassifier a.ml_g).symm ▸ ha.ml_g)
    obtain ⟨m, h9⟩ := (usable_iff a.ml_m false true).2 ha.ml_m
    obtain ⟨s, hs⟩ := second_ok hR (sp := bareSpec (P := P) q.learners (varsOf read D)) rfl b.second
    unfold newQuant
    rw [h0]
    simp only [bind, Except.bind, h1, h2, h3, h4, h5, h6, h7, h8, h9]
    rw [hs]
    exact ⟨_, rfl⟩

/-- **C64, PQ, CVaR, LPQ, the created object.**  The object has exactly the given settings, refers to the given data, and
holds no results. -/
theorem C64_quant_object (q : QuantKind) {D : DataState n} (read : List (Fin n → Cell) → ClusterVars n) (a : QuantArgs P)
    (b : Resampling n) {k : QuantInit} {s : LinState n P} (h : newQuant q read a D b = .ok (k, s)) :
    a.treatment.asInt = some k.treatment ∧ a.quantile = .float k.q ∧ a.normalize = .bool k.normalize ∧
    a.threshold = .float k.trimT ∧
    Created (bareSpec (match q with
      | .lpq => ["ml_m_z", "ml_g_du_z0", "ml_g_du_z1", "ml_m_d_z0", "ml_m_d_z1"]
      | _ => ["ml_g", "ml_m"]) (if D.cluster.isSome then some read else none)) D b s := by
  unfold newQuant at h
  obtain ⟨s0, h0, h⟩ := bind_ok h
  obtain ⟨_, h1, h⟩ := bind_ok h
  obtain ⟨_, h2, h⟩ := bind_ok h
  obtain ⟨u, h3, h⟩ := bind_ok h
  obtain ⟨v, h4, h⟩ := bind_ok h
  obtain ⟨w, h5, h⟩ := bind_ok h
  obtain ⟨_, h6, h⟩ := bind_ok h
  obtain ⟨t, h7, h⟩ := bind_ok h
  obtain ⟨g, h8, h⟩ := bind_ok h
  obtain ⟨m, h9, h⟩ := bind_ok h
  obtain ⟨s1, hs, h⟩ := bind_ok h
  cases h
  refine ⟨((checkTreatmentArg_ok_iff _ _).1 h4).1, ((checkQuantile_ok_iff _ _).1 h3).1, (checkBool_ok_iff _ _).1 h5,
    ((C39_accepted_iff _ _ _).1 h7).2.1, ?_⟩
  have := initModel_created hs
  cases q <;> exact this

end DML
