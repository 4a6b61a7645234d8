import Verif.StudyCreated

/-!
# Created model objects

Objects can be created with drawn folds, and what they look like.
-/

namespace DML

variable {n : ℕ} {Q : Type}

/-- Objects can be created with drawn folds. -/
theorem created_exists (sp : LinSpec n Q) (hv : sp.vars = none) (D : DataState n) (st : ℝ) {K r : ℕ} (hK : 2 ≤ K) (hr : 0 < r)
    (hn : sp.stratified = false → K ≤ n) (w : Draws n) :
    ∃ s, initModel sp D st (.int K) (.int r) (.bool true) w = .ok s := by
  have h : checkClusterVars sp D = .ok () := by
    unfold checkClusterVars
    rw [hv]
    rfl
  have e1 : checkInteger (.int (K : ℤ)) (some 1) none = .ok (K : ℤ) := by
    simp only [checkInteger, PyVal.asInt]
    rw [if_neg (by simp; omega), if_neg (by simp)]
  have e2 : checkInteger (.int (r : ℤ)) (some 1) none = .ok (r : ℤ) := by
    simp only [checkInteger, PyVal.asInt]
    rw [if_neg (by simp; omega), if_neg (by simp)]
  have e3 : (rawModel sp D st (K : ℤ) (r : ℤ)).nFolds = K := by
    unfold rawModel
    rw [hv]
    simp
  rw [initModel_eq, h, e1, e2]
  simp only [Bind.bind, Except.bind, checkBool]
  unfold firstDraw
  rw [if_pos rfl]
  unfold drawSampleSplitting drawnSplit
  rw [hv]
  dsimp only
  rw [e3]
  cases hst : sp.stratified with
  | true =>
    rw [if_pos rfl, if_neg (by omega)]
    exact ⟨_, rfl⟩
  | false =>
    rw [if_neg (by simp), drawSplit_eq K _ w.shuffle hK (hn hst)]
    exact ⟨_, rfl⟩

open Classical in
/-- The created object (an object without split if creating it fails). -/
noncomputable def createdObj (sp : LinSpec n Q) (D : DataState n) (K r : ℕ) (w : Draws n) : LinState n Q :=
  if h : ∃ s, initModel sp D 0 (.int K) (.int r) (.bool true) w = .ok s then h.choose else rawModel sp D 0 K r

theorem createdObj_spec (sp : LinSpec n Q) (hv : sp.vars = none) (D : DataState n) {K r : ℕ} (hK : 2 ≤ K) (hr : 0 < r)
    (hn : sp.stratified = false → K ≤ n) (w : Draws n) :
    initModel sp D 0 (.int K) (.int r) (.bool true) w = .ok (createdObj sp D K r w) := by
  have h := created_exists sp hv D 0 hK hr hn w
  unfold createdObj
  rw [dif_pos h]
  exact h.choose_spec

/-- What an object created with drawn folds looks like, apart from its data object. -/
theorem created_state {sp : LinSpec n Q} (hv : sp.vars = none) (hst : sp.stratified = false) {D : DataState n} {st : ℝ} {K r : ℕ}
    (hK : 2 ≤ K) (hn : K ≤ n) {w : Draws n} {s : LinState n Q} (h : initModel sp D st (.int K) (.int r) (.bool true) w = .ok s) :
    s.data = D ∧ s.smplsCluster = none ∧ s.nFoldsPer = K ∧ s.nRep = r := by
  rw [initModel_eq] at h
  obtain ⟨_, -, h⟩ := bind_ok h
  obtain ⟨K', hK', h⟩ := bind_ok h
  obtain ⟨R, hR, h⟩ := bind_ok h
  obtain ⟨dr, hb, h⟩ := bind_ok h
  obtain rfl : true = dr := PyVal.bool.inj ((checkBool_ok_iff _ _).1 hb)
  have e1 : K' = K := by
    simp only [checkInteger, PyVal.asInt] at hK'
    split_ifs at hK'
    all_goals exact (Except.ok.inj hK').symm
  have e2 : R = r := by
    simp only [checkInteger, PyVal.asInt] at hR
    split_ifs at hR
    all_goals exact (Except.ok.inj hR).symm
  subst e1 e2
  unfold firstDraw at h
  rw [if_pos rfl] at h
  unfold drawSampleSplitting drawnSplit at h
  rw [hv] at h
  dsimp only at h
  rw [if_neg (by rw [hst]; simp)] at h
  have e3 : (rawModel sp D st (K : ℤ) (r : ℤ)).nFolds = K := by
    unfold rawModel
    rw [hv]
    simp
  have e4 : (rawModel sp D st (K : ℤ) (r : ℤ)).nRep = r := Int.toNat_natCast r
  rw [e3, e4, drawSplit_eq K r w.shuffle hK hn] at h
  obtain rfl := Except.ok.inj h
  exact ⟨rfl, rfl, Int.toNat_natCast K, e4⟩

end DML
