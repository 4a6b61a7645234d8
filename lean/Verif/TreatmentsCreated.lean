import Verif.TreatmentsProps
import Verif.CovariatesFitProps

/-!
# One treatment of several, from the constructors (C85)

The data object with one treatment alone is created from the same data frame with the other treatments among the covariates, and the
two models are created with the same arguments and the same draws.
-/

namespace DML

variable {n : ℕ} {P M : Type}

/-- What the constructor of a model makes of two data objects with the same cluster variables. -/
theorem initModel_both {sp : Spec n P M} {D D' : DataState n} (hcv : D'.cv = D.cv) {st st' : ℝ} {nf nr dr : PyVal} {w : Draws n}
    {s s' : MState n P M} (h : initModel sp D st nf nr dr w = .ok s) (h' : initModel sp D' st' nf nr dr w = .ok s') :
    s.data = D ∧ s'.data = D' ∧ s'.smpls = s.smpls ∧ s'.smplsCluster = s.smplsCluster ∧ s'.nFoldsPer = s.nFoldsPer ∧ s'.nRep = s.nRep ∧
      s.params = initParams sp.learners D.d s.nRep ∧ s'.params = initParams sp.learners D'.d s.nRep ∧ Shaped s ∧ Shaped s' := by
  rw [initModel_eq] at h h'
  obtain ⟨_, -, h⟩ := bind_ok h
  obtain ⟨_, -, h'⟩ := bind_ok h'
  obtain ⟨K, hK, h⟩ := bind_ok h
  obtain ⟨K', hK', h'⟩ := bind_ok h'
  obtain ⟨R, hR, h⟩ := bind_ok h
  obtain ⟨R', hR', h'⟩ := bind_ok h'
  obtain ⟨b, hb, h⟩ := bind_ok h
  obtain ⟨b', hb', h'⟩ := bind_ok h'
  rw [hK] at hK'
  rw [hR] at hR'
  rw [hb] at hb'
  cases hK'
  cases hR'
  cases hb'
  have hpos : 0 < R.toNat := by
    unfold checkInteger at hR
    split at hR
    · cases hR
    · split_ifs at hR with h1 h2
      all_goals
        cases hR
        simp at h1
        omega
  have hd : drawnSplit sp (rawModel sp D' st' K R) w = drawnSplit sp (rawModel sp D st K R) w := by
    unfold drawnSplit
    have e : (rawModel sp D' st' K R).nFolds = (rawModel sp D st K R).nFolds := by
      unfold rawModel
      rw [hcv]
    have e' : (rawModel sp D' st' K R).data.cv = (rawModel sp D st K R).data.cv := hcv
    rw [e, e']
    rfl
  unfold firstDraw at h h'
  cases b with
  | false =>
    obtain rfl := Except.ok.inj h
    obtain rfl := Except.ok.inj h'
    exact ⟨rfl, rfl, rfl, rfl, rfl, rfl, rfl, rfl, initArrays_shaped hpos, initArrays_shaped hpos⟩
  | true =>
    rw [if_pos rfl] at h h'
    unfold drawSampleSplitting at h h'
    rw [hd] at h'
    cases hS : drawnSplit sp (rawModel sp D st K R) w with
    | error e =>
      rw [hS] at h
      cases h
    | ok l =>
      rw [hS] at h h'
      obtain rfl := Except.ok.inj h
      obtain rfl := Except.ok.inj h'
      exact ⟨rfl, rfl, rfl, rfl, rfl, rfl, rfl, rfl, initArrays_shaped hpos, initArrays_shaped hpos⟩

/-- `D'` is a data object like `D` but with the treatment `tv` alone: the covariates are those of `D` and then, unless
`use_other_treat_as_covariate` of `D` is false, the other treatments of `D`. -/
structure DataState.OneOf (D D' : DataState n) (tv : String) : Prop where
  y : D'.y = D.y
  d : D'.d = [tv]
  x : D'.x = D.x ++ if D.useOther then D.d.erase tv else []
  z : D'.z = D.z
  cluster : D'.cluster = D.cluster

/-- The two models that the constructors make of the two data objects. -/
theorem OneOf.alone {F : Frame n} {D D' : DataState n} (hD : FreshData F D) (hD' : FreshData F D') {tv : String} (ht : tv ∈ D.d)
    (hO : D.OneOf D' tv) {sp : Spec n P M} {st st' : ℝ} {nf nr dr : PyVal} {w : Draws n} {s s' : MState n P M}
    (h : initModel sp D st nf nr dr w = .ok s) (h' : initModel sp D' st' nf nr dr w = .ok s') :
    Alone F s s' tv ∧ Shaped s ∧ Shaped s' ∧ s.data = D := by
  obtain ⟨hN, cl, a, hi⟩ := hD
  obtain ⟨-, cl', a', hi'⟩ := hD'
  obtain ⟨-, hR, hF, hb, -⟩ := dataInit_ok hN hi
  obtain ⟨-, hR', hF', hb', -⟩ := dataInit_ok hN hi'
  have hcv : D'.cv = D.cv := by rw [hF.2.2.2.2.1, hF'.2.2.2.2.1, hO.cluster]
  obtain ⟨e1, e2, e3, e4, e5, e6, e7, e8, e9, e10⟩ := initModel_both hcv h h'
  have ht' : tv ∈ D'.d := by rw [hO.d]; exact List.mem_singleton.2 rfl
  obtain ⟨c1, c2, c3⟩ := activeData_cols hF hR ht
  have hone : activeData F D' tv = D' := by
    unfold activeData
    rw [if_neg (by rw [hO.d]; simp)]
  obtain ⟨c1', c2', c3'⟩ := activeData_cols hF' hR' ht'
  rw [hone] at c1' c2' c3'
  refine ⟨⟨by rw [e2, hO.d], ?_, by rw [e1, e2, hcv], e3, e4, e5, e6, fun l => ?_⟩, e9, e10, e1⟩
  · rw [e1, e2]
    refine ⟨?_, ?_, by rw [c3, c3', hO.z], by rw [c1, c1'], ?_, ?_⟩
    · rw [hF'.1, (activeData_same F D tv).roles]
      show F.col D'.y = D.yv
      rw [hF.1, hO.y]
    · rw [hO.z, (activeData_same F D tv).roles]
    · rw [c2, c2', hO.x, hO.d]
      simp
    · rw [(activeData_same F D tv).roles]
      show lookupKey tv D'.binTreats = lookupKey tv D.binTreats
      rw [hb, hb', lookupKey_graph _ ht, lookupKey_graph _ ht']
  · rw [e7, e8]
    unfold initParams
    simp only [ht, ht', and_true]

/-- **C85, from the constructors.** `D` is a data object with several treatments, and `D'` is created from the same data frame with the
treatment `tv` (number `j`) alone and with the other treatments as further covariates (unless `use_other_treat_as_covariate` is false).
Models created with the same arguments and the same draws, and fitted with the same arguments, report the same for `tv`. -/
theorem C85_created {F : Frame n} {sp : LinSpec n P} (hsp : SeveralClass sp) {D D' : DataState n} (hD : FreshData F D)
    (hD' : FreshData F D') {tv : String} {j : ℕ} (hj : D.d[j]? = some tv) (hO : D.OneOf D' tv) {st st' : ℝ} {nf nr dr : PyVal}
    {w : Draws n} {s s' : LinState n P} (h : initModel sp D st nf nr dr w = .ok s) (h' : initModel sp D' st' nf nr dr w = .ok s')
    {a : FitArgs} (hok : (fit F sp s a).2 = .ok ()) (hok' : (fit F sp s' a).2 = .ok ()) :
    let t := (fit F sp s a).1
    let t' := (fit F sp s' a).1
    (∀ k < s.nRep, (t.heap t.arr).coef j k = (t'.heap t'.arr).coef 0 k ∧ (t.heap t.arr).se j k = (t'.heap t'.arr).se 0 k ∧
      t.scores j k = t'.scores 0 k ∧ t.loss.map (fun f => f j k) = t'.loss.map (fun f => f 0 k) ∧
      (a.storePredictions = .bool true → t.preds.map (fun f => f j k) = t'.preds.map (fun f => f 0 k)) ∧
      (a.storeModels = .bool true → t.models.map (fun f => f j k) = t'.models.map (fun f => f 0 k))) ∧
    t.coef j = t'.coef 0 ∧ t.se j = t'.se 0 ∧
    ∃ A A' : FW n s.nRep, t.fw? = some ⟨s.nRep, A⟩ ∧ t'.fw? = some ⟨s.nRep, A'⟩ ∧ A.blocks.length = D.d.length ∧
      (∃ b, A'.blocks = [b] ∧ A.blocks[j]? = some b) ∧
      (sp.sensImpl = true → ∃ S S' B B', A.sens = some S ∧ A'.sens = some S' ∧ A.bench = some B ∧ A'.bench = some B' ∧
        S[j]? = S'[0]? ∧ B[j]? = B'[0]? ∧ S'.length = 1) := by
  obtain ⟨h1, h2, h3, h4⟩ := OneOf.alone hD hD' (List.mem_of_getElem? hj) hO h h'
  rw [← h4] at hj ⊢
  exact C85_separate hsp h2 h3 h1 hj hok hok'

end DML
