import Verif.NestedClasses
import Verif.FitOkProps
import Verif.UnitsFitProps

/-!
# PQ, CVaR, LPQ and SSM with nonignorable nonresponse as model classes: properties

C27 (training samples), C28 (external predictions), C29 (repeated fits), C39 (trimming), C57 (unselected outcomes), C58
(targets of the evaluation) and C63 (fits that succeed).
-/

namespace DML

open Finset

variable {n : ℕ} {P : Type}

/-! ## What a successful cell looks like -/

theorem pqEst_ok {k : PqClass n P} {c : CellIn n P} {o : LinOut n P} (h : (pqSpec k).est c = .ok o) :
    ∃ r, quantNuisance k.nested k.ml_m (zeroOne k.ml_g) (k.set c.start) (fun ipw y => indLe y ipw) c.obs c.smpls
        (lookupKey "ml_g" c.params).join (lookupKey "ml_m" c.params).join (c.extOf "ml_g") (c.extOf "ml_m") c.wantModels = .ok r ∧
      o.preds = [("ml_g", r.g), ("ml_m", r.m)] ∧
      o.targets = [("ml_g", some r.gTarget), ("ml_m", some fun i => some (c.obs.d i))] := by
  obtain ⟨r, h1, h⟩ := bind_ok h
  obtain rfl := Except.ok.inj h
  exact ⟨r, h1, rfl, rfl⟩

theorem cvarEst_ok {k : PqClass n P} {c : CellIn n P} {o : LinOut n P} (h : (cvarSpec k).est c = .ok o) :
    ∃ r, quantNuisance k.nested k.ml_m (fun m x => k.ml_g.predict m.params m.data x) (k.set c.start)
        (fun ipw y => cvarTarget k.q ipw y) c.obs c.smpls (lookupKey "ml_g" c.params).join (lookupKey "ml_m" c.params).join
        none none c.wantModels = .ok r ∧
      o.preds = [("ml_g", r.g), ("ml_m", r.m)] ∧
      o.targets = [("ml_g", some r.gTarget), ("ml_m", some fun i => some (c.obs.d i))] := by
  obtain ⟨r, h1, h⟩ := bind_ok h
  obtain rfl := Except.ok.inj h
  exact ⟨r, h1, rfl, rfl⟩

theorem lpqEst_ok {k : LpqClass n P} {c : CellIn n P} {o : LinOut n P} (h : (lpqSpec k).est c = .ok o) :
    ∃ z r, c.instr = .ok z ∧ lpqNuisance k.nested k.learners (k.set c.start) (c.obsZ z) c.smpls
        (lpqEntries fun l => (lookupKey l c.params).join) (lpqEntries c.extOf) c.wantModels = .ok r ∧
      o.fit = lpqFit k r.start (fun i => indEq (c.obs.d i) k.treatment) r.mAdj (fun i => (r.g0 i).getD 0)
        (fun i => (r.g1 i).getD 0) c.obs.y z r.comp c.cluster ∧
      o.preds = [("ml_m_z", r.mz), ("ml_m_d_z0", r.mdz0), ("ml_m_d_z1", r.mdz1), ("ml_g_du_z0", r.g0), ("ml_g_du_z1", r.g1)] ∧
      o.targets = [("ml_m_z", some fun i => some (z i)),
        ("ml_m_d_z0", some (condTargets (fun i => some (c.obs.d i)) fun i => z i = 0)),
        ("ml_m_d_z1", some (condTargets (fun i => some (c.obs.d i)) fun i => z i = 1)),
        ("ml_g_du_z0", some r.g0Target), ("ml_g_du_z1", some r.g1Target)] ∧ o.start = r.start := by
  obtain ⟨z, h0, h⟩ := bind_ok h
  obtain ⟨r, h1, h⟩ := bind_ok h
  obtain rfl := Except.ok.inj h
  exact ⟨z, r, h0, h1, rfl, rfl, rfl, rfl⟩

theorem ssmNonEst_ok {k : SsmNonClass n P} {c : CellIn n P} {o : LinOut n P} (h : (ssmNonSpec k).est c = .ok o) :
    ∃ s dx r, c.sel = .ok s ∧ c.xdz = .ok dx ∧ ssmNuisance k.nested k.learners (c.obsS dx s) k.trimT c.smpls
        ⟨(lookupKey "ml_pi" c.params).join, (lookupKey "ml_m" c.params).join, (lookupKey "ml_g_d1" c.params).join,
          (lookupKey "ml_g_d0" c.params).join⟩ = .ok r ∧ c.cluster = none ∧
      o.fit = (ssmElems k.normalize (c.dIs 1) (c.dIs 0) (fun i => (r.g1 i).getD 0) (fun i => (r.g0 i).getD 0)
        (fun i => (r.pi i).getD 0) (fun i => (r.m i).getD 0) s c.y).fit c.cluster ∧
      o.preds = [("ml_g_d0", r.g0), ("ml_g_d1", r.g1), ("ml_pi", r.pi), ("ml_m", r.m)] ∧ o.start = c.start := by
  obtain ⟨s, h0, h⟩ := bind_ok h
  obtain ⟨dx, h1, h⟩ := bind_ok h
  obtain ⟨r, h2, h⟩ := bind_ok h
  obtain ⟨_, h3, h⟩ := bind_ok h
  obtain rfl := Except.ok.inj h
  refine ⟨s, dx, r, h0, h1, h2, ?_, rfl, rfl, rfl⟩
  unfold ssmCluster at h3
  cases hc : c.cluster with
  | none => rfl
  | some q => rw [hc] at h3; cases h3

/-! ## C27: the training samples of the stored predictions -/

/-- In fold `q`, with test observations `f.test`, the predictions `p` of a learner are those of a model trained on exactly the
observations `rows`, in this order, with covariates `x` and labels `y`, and with the parameters that are set for the fold. -/
def FoldModel (ps : Option (List P)) (ev : FittedModel P (List Cell) → List Cell → ℝ) (x : Fin n → List Cell)
    (rows : List (Fin n)) (y : Fin n → ℝ) (p : NV n) (q : ℕ) (f : Fold n) : Prop :=
  ∃ a, paramAt ps q = .ok a ∧ ∀ i ∈ f.test, p i = some (ev ⟨a, rows.map fun j => (x j, y j)⟩ (x i))

theorem quant_folds {E : NestedExt n} (hE : E.Ok) {L : Learner P (List Cell)} {ev : FittedModel P (List Cell) → List Cell → ℝ}
    {c : QuantSet} {t : ℝ → ℝ → ℝ} {D : Obs n (List Cell)} {S : List (Fold n)} {psG psM : Option (List P)}
    {gExt mExt : Option (Fin n → ℝ)} {w : Bool} {o : QuantOut n P (List Cell)} (hp : isPartition S = true)
    (he : (gExt.isSome && mExt.isSome) = false)
    (h : quantNuisance E L ev c t D S psG psM gExt mExt w = .ok o) {q : ℕ} {f : Fold n} (hf : S[q]? = some f) :
    ∃ (h₁ h₂ : List (Fin n)) (v : ℝ), (h₁ ++ h₂).Perm f.train ∧
      (gExt = none → ∃ a, paramAt psG q = .ok a ∧ ∀ i ∈ f.test, o.g i =
        some (ev ⟨a, (h₂.filter fun j => decide (D.d j = c.treatment)).map fun j => (D.x j, t v (D.y j))⟩ (D.x i)) ∧
        o.gTarget i = if D.d i = c.treatment then some (t v (D.y i)) else none) ∧
      (mExt = none → ∃ a, paramAt psM q = .ok a ∧ ∀ i ∈ f.test, o.m i =
        some (trim c.trimT (zeroOne L ⟨a, f.train.map fun j => (D.x j, D.d j)⟩ (D.x i)))) := by
  have hgt : o.gTarget = condTargets
      (if gExt.isSome then fun _ => none else gather (fun r i => some (t r.ipw (D.y i))) o.folds)
      (fun i => D.d i = c.treatment) := by
    unfold quantNuisance at h
    obtain ⟨rs, hrs, h⟩ := bind_ok h
    by_cases hw : (w && (gExt.isSome || mExt.isSome)) = true
    · rw [if_pos hw] at h
      cases h
    · rw [if_neg hw] at h
      obtain rfl := Except.ok.inj h
      rfl
  obtain ⟨h1, h2, h3⟩ := quantNuisance_ok h
  unfold quantPasses at h1
  rw [if_neg (by rw [he]; exact Bool.false_ne_true)] at h1
  obtain ⟨hfst, hall⟩ := passes_at quantPass_fst h1
  obtain ⟨r, hr, hm⟩ := hall q f hf
  have hval : ∀ i ∈ f.test, ∀ val : QuantFold P (List Cell) → Fin n → Option ℝ, gather val o.folds i = val r i := by
    intro i hi val
    obtain ⟨r', hr', -, hg⟩ := gather_at quantPass_fst h1 hp hf hi
    obtain rfl : r = r' := (Prod.mk.inj (Except.ok.inj (hr.symm.trans hr'))).2
    exact hg val
  unfold quantPass at hr
  obtain ⟨pg, hpg, hr⟩ := bind_ok hr
  obtain ⟨pm, hpm, hr⟩ := bind_ok hr
  obtain ⟨r', hr', hr⟩ := bind_ok hr
  obtain rfl : r' = r := (Prod.mk.inj (Except.ok.inj hr)).2
  unfold quantFold at hr'
  obtain ⟨hs, hh, hr'⟩ := bind_ok hr'
  obtain ⟨s, _, hr'⟩ := bind_ok hr'
  obtain ⟨mp, _, hr'⟩ := bind_ok hr'
  have hr' := Except.ok.inj hr'
  refine ⟨hs.1, hs.2, r'.ipw, hE.halves hh, ?_, ?_⟩
  · rintro rfl
    refine ⟨pg, hpg, fun i hi => ⟨?_, ?_⟩⟩
    · rw [h2, orExt_none, hval i hi]
      have : r'.g = some ⟨pg, secondHalf c.treatment (t r'.ipw) D hs.2⟩ := by rw [← hr']; rfl
      rw [this]
      rfl
    · rw [hgt]
      unfold condTargets
      simp only [Option.isSome_none, Bool.false_eq_true, if_false]
      rw [hval i hi]
  · rintro rfl
    refine ⟨pm, hpm, fun i hi => ?_⟩
    rw [h3]
    dsimp only
    rw [orExt_none, hval i hi]
    have : r'.m = some ⟨pm, trainData D.x D.d f.train⟩ := by rw [← hr']; rfl
    rw [this]
    rfl

/-- **C27, PQ.** Every training set is split into two halves.  The outcome model that predicts for the test
observations is trained on exactly the observations of the second half with the treatment in question, with labels
`y ≤ v` for one and the same number `v`; the propensity is trained on the whole training set. -/
theorem C27_pq {k : PqClass n P} (hE : k.nested.Ok) {c : CellIn n P} {o : LinOut n P} (hS : isPartition c.smpls = true)
    (h : (pqSpec k).est c = .ok o) (he : c.extOf "ml_g" = none) : ∃ g m, lookupKey "ml_g" o.preds = some g ∧
    lookupKey "ml_m" o.preds = some m ∧ ∀ (q : ℕ) (f : Fold n), c.smpls[q]? = some f → ∃ (h₁ h₂ : List (Fin n)) (v : ℝ), (h₁ ++ h₂).Perm f.train ∧
      FoldModel (lookupKey "ml_g" c.params).join (zeroOne k.ml_g) (rowX c.data)
        (h₂.filter fun j => decide (c.d j = k.treatment)) (fun j => if c.y j ≤ v then 1 else 0) g q f ∧
      (c.extOf "ml_m" = none → FoldModel (lookupKey "ml_m" c.params).join
        (fun a x => trim k.trimT (zeroOne k.ml_m a x)) (rowX c.data) f.train c.d m q f) := by
  obtain ⟨r, h1, hp, -⟩ := pqEst_ok h
  refine ⟨r.g, r.m, by rw [hp]; rfl, by rw [hp]; rfl, fun q f hf => ?_⟩
  obtain ⟨h₁, h₂, v, hperm, hg, hm⟩ := quant_folds hE hS (by rw [he]; rfl) h1 hf
  refine ⟨h₁, h₂, v, hperm, ?_, ?_⟩
  · obtain ⟨a, ha, hi⟩ := hg he
    exact ⟨a, ha, fun i hi' => (hi i hi').1⟩
  · intro hme
    obtain ⟨a, ha, hi⟩ := hm hme
    exact ⟨a, ha, hi⟩

/-- **C27, CVaR.** As for PQ, with the conditional value at risk as label. -/
theorem C27_cvar {k : PqClass n P} (hE : k.nested.Ok) {c : CellIn n P} {o : LinOut n P} (hS : isPartition c.smpls = true)
    (h : (cvarSpec k).est c = .ok o) : ∃ g m, lookupKey "ml_g" o.preds = some g ∧
    lookupKey "ml_m" o.preds = some m ∧ ∀ (q : ℕ) (f : Fold n), c.smpls[q]? = some f → ∃ (h₁ h₂ : List (Fin n)) (v : ℝ), (h₁ ++ h₂).Perm f.train ∧
      FoldModel (lookupKey "ml_g" c.params).join (fun a x => k.ml_g.predict a.params a.data x) (rowX c.data)
        (h₂.filter fun j => decide (c.d j = k.treatment)) (fun j => cvarTarget k.q v (c.y j)) g q f ∧
      FoldModel (lookupKey "ml_m" c.params).join
        (fun a x => trim k.trimT (zeroOne k.ml_m a x)) (rowX c.data) f.train c.d m q f := by
  obtain ⟨r, h1, hp, -⟩ := cvarEst_ok h
  refine ⟨r.g, r.m, by rw [hp]; rfl, by rw [hp]; rfl, fun q f hf => ?_⟩
  obtain ⟨h₁, h₂, v, hperm, hg, hm⟩ := quant_folds hE hS rfl h1 hf
  refine ⟨h₁, h₂, v, hperm, ?_, ?_⟩
  · obtain ⟨a, ha, hi⟩ := hg rfl
    exact ⟨a, ha, fun i hi' => (hi i hi').1⟩
  · obtain ⟨a, ha, hi⟩ := hm rfl
    exact ⟨a, ha, hi⟩

theorem lpq_folds {E : NestedExt n} (hE : E.Ok) {K : LpqLearners P (List Cell)} {c : QuantSet} {D : ObsZ n (List Cell)}
    {S : List (Fold n)} {ps : LpqParams (List P)} {o : LpqOut n P (List Cell)} (hp : isPartition S = true)
    (h : lpqEstimate E K c D S ps = .ok o) {q : ℕ} {f : Fold n} (hf : S[q]? = some f) :
    ∃ (h₁ h₂ : List (Fin n)) (v : ℝ) (a : LpqParams P), (h₁ ++ h₂).Perm f.train ∧ lpqParamsAt ps q = .ok a ∧ ∀ i ∈ f.test,
      o.mz i = some (zeroOne K.mz ⟨a.mz, f.train.map fun j => (D.x j, D.z j)⟩ (D.x i)) ∧
      o.mdz0 i = some (zeroOne K.mdz0 ⟨a.mdz0, (f.train.filter fun j => decide (D.z j = 0)).map fun j => (D.x j, D.d j)⟩ (D.x i)) ∧
      o.mdz1 i = some (zeroOne K.mdz1 ⟨a.mdz1, (f.train.filter fun j => decide (D.z j = 1)).map fun j => (D.x j, D.d j)⟩ (D.x i)) ∧
      o.g0 i = some (zeroOne K.g0 ⟨a.g0, (h₂.filter fun j => decide (D.z j = 0)).map fun j =>
        (D.x j, indEq (D.d j) c.treatment * indLe (D.y j) v)⟩ (D.x i)) ∧
      o.g1 i = some (zeroOne K.g1 ⟨a.g1, (h₂.filter fun j => decide (D.z j = 1)).map fun j =>
        (D.x j, indEq (D.d j) c.treatment * indLe (D.y j) v)⟩ (D.x i)) ∧
      (o.g0Target i = if D.z i = 0 then some (indEq (D.d i) c.treatment * indLe (D.y i) v) else none) ∧
      (o.g1Target i = if D.z i = 1 then some (indEq (D.d i) c.treatment * indLe (D.y i) v) else none) := by
  unfold lpqEstimate at h
  obtain ⟨rs, h1, h⟩ := bind_ok h
  have h := Except.ok.inj h
  obtain ⟨hfst, hall⟩ := passes_at lpqPass_fst h1
  obtain ⟨r, hr, hm⟩ := hall q f hf
  have hval : ∀ i ∈ f.test, ∀ val : LpqFold P (List Cell) → Fin n → Option ℝ, gather val rs i = val r i := by
    intro i hi val
    obtain ⟨r', hr', -, hg⟩ := gather_at lpqPass_fst h1 hp hf hi
    obtain rfl : r = r' := (Prod.mk.inj (Except.ok.inj (hr.symm.trans hr'))).2
    exact hg val
  unfold lpqPass at hr
  obtain ⟨a, ha, hr⟩ := bind_ok hr
  obtain ⟨r', hr', hr⟩ := bind_ok hr
  obtain rfl : r' = r := (Prod.mk.inj (Except.ok.inj hr)).2
  unfold lpqFold at hr'
  obtain ⟨hs, hh, hr'⟩ := bind_ok hr'
  obtain ⟨v, _, hr'⟩ := bind_ok hr'
  have hr' := Except.ok.inj hr'
  have hv : r'.ipw = v := by rw [← hr']
  refine ⟨hs.1, hs.2, v, a, hE.halves hh, ha, fun i hi => ?_⟩
  rw [← h]
  dsimp only
  unfold lpqGather lpqTarget condTargets
  simp only [hval i hi, hv]
  rw [← hr']
  refine ⟨?_, ?_, ?_, ?_, ?_, ?_, ?_⟩ <;> first | rfl | trivial

theorem lpqParamsAt_ok {ps : LpqParams (List P)} {q : ℕ} {a : LpqParams P} (h : lpqParamsAt ps q = .ok a) :
    paramAt ps.mz q = .ok a.mz ∧ paramAt ps.mdz0 q = .ok a.mdz0 ∧ paramAt ps.mdz1 q = .ok a.mdz1 ∧
      paramAt ps.g0 q = .ok a.g0 ∧ paramAt ps.g1 q = .ok a.g1 := by
  unfold lpqParamsAt at h
  obtain ⟨a1, h1, h⟩ := bind_ok h
  obtain ⟨a2, h2, h⟩ := bind_ok h
  obtain ⟨a3, h3, h⟩ := bind_ok h
  obtain ⟨a4, h4, h⟩ := bind_ok h
  obtain ⟨a5, h5, h⟩ := bind_ok h
  obtain rfl := Except.ok.inj h
  exact ⟨h1, h2, h3, h4, h5⟩

/-- All five external predictions are supplied. -/
def LpqAllExternal (c : CellIn n P) : Prop := ∀ l ∈ lpqNames, (c.extOf l).isSome = true

theorem lpqAll_iff (c : CellIn n P) : (lpqEntries c.extOf).all = true ↔ LpqAllExternal c := by
  unfold LpqParams.all lpqEntries LpqAllExternal lpqNames
  simp only [Bool.and_eq_true, List.mem_cons, List.not_mem_nil, or_false, forall_eq_or_imp, forall_eq]
  tauto

/-- **C27, LPQ.** The outcome models are trained on exactly the observations of the second half with the instrument value
in question, the treatment propensities on the training observations with that instrument value, the propensity of the
instrument on the whole training set. -/
theorem C27_lpq {k : LpqClass n P} (hE : k.nested.Ok) {c : CellIn n P} {o : LinOut n P} (hS : isPartition c.smpls = true)
    {z : Fin n → ℝ} (hz : c.instr = .ok z) (h : (lpqSpec k).est c = .ok o) (he : ¬ LpqAllExternal c) :
    ∃ mz m0 m1 g0 g1, lookupKey "ml_m_z" o.preds = some mz ∧ lookupKey "ml_m_d_z0" o.preds = some m0 ∧
    lookupKey "ml_m_d_z1" o.preds = some m1 ∧ lookupKey "ml_g_du_z0" o.preds = some g0 ∧
    lookupKey "ml_g_du_z1" o.preds = some g1 ∧ ∀ (q : ℕ) (f : Fold n), c.smpls[q]? = some f → ∃ (h₁ h₂ : List (Fin n)) (v : ℝ), (h₁ ++ h₂).Perm f.train ∧
      FoldModel (lookupKey "ml_m_z" c.params).join (zeroOne k.ml_m) (rowX c.data) f.train z
        mz q f ∧
      FoldModel (lookupKey "ml_m_d_z0" c.params).join (zeroOne k.ml_m) (rowX c.data)
        (f.train.filter fun j => decide (z j = 0)) c.d m0 q f ∧
      FoldModel (lookupKey "ml_m_d_z1" c.params).join (zeroOne k.ml_m) (rowX c.data)
        (f.train.filter fun j => decide (z j = 1)) c.d m1 q f ∧
      FoldModel (lookupKey "ml_g_du_z0" c.params).join (zeroOne k.ml_g) (rowX c.data)
        (h₂.filter fun j => decide (z j = 0))
        (fun j => (if c.d j = k.treatment then 1 else 0) * if c.y j ≤ v then 1 else 0) g0 q f ∧
      FoldModel (lookupKey "ml_g_du_z1" c.params).join (zeroOne k.ml_g) (rowX c.data)
        (h₂.filter fun j => decide (z j = 1))
        (fun j => (if c.d j = k.treatment then 1 else 0) * if c.y j ≤ v then 1 else 0) g1 q f := by
  obtain ⟨z', r, hz', h1, -, hp, -⟩ := lpqEst_ok h
  obtain rfl : z' = z := Except.ok.inj (hz'.symm.trans hz)
  unfold lpqNuisance at h1
  rw [if_neg (fun hc => he ((lpqAll_iff c).1 hc))] at h1
  refine ⟨r.mz, r.mdz0, r.mdz1, r.g0, r.g1, by rw [hp]; rfl, by rw [hp]; rfl, by rw [hp]; rfl, by rw [hp]; rfl,
    by rw [hp]; rfl, fun q f hf => ?_⟩
  obtain ⟨h₁, h₂, v, a, hperm, ha, hi⟩ := lpq_folds hE hS h1 hf
  obtain ⟨p1, p2, p3, p4, p5⟩ := lpqParamsAt_ok ha
  exact ⟨h₁, h₂, v, hperm, ⟨a.mz, p1, fun i hi' => (hi i hi').1⟩, ⟨a.mdz0, p2, fun i hi' => (hi i hi').2.1⟩,
    ⟨a.mdz1, p3, fun i hi' => (hi i hi').2.2.1⟩, ⟨a.g0, p4, fun i hi' => (hi i hi').2.2.2.1⟩,
    ⟨a.g1, p5, fun i hi' => (hi i hi').2.2.2.2.1⟩⟩

/-! ## C58: the observations the outcome models are evaluated on -/

/-- **C58, PQ.** The outcome model is evaluated on the observations with the treatment in question only, with the labels
it was trained for: `y ≤ v` with the number `v` of the fold the observation is a test observation of. -/
theorem C58_pq {k : PqClass n P} (hE : k.nested.Ok) {c : CellIn n P} {o : LinOut n P} (hS : isPartition c.smpls = true)
    (h : (pqSpec k).est c = .ok o) (he : c.extOf "ml_g" = none) : ∃ g t, lookupKey "ml_g" o.preds = some g ∧
    lookupKey "ml_g" o.targets = some (some t) ∧ ∀ (q : ℕ) (f : Fold n), c.smpls[q]? = some f → ∃ (h₂ : List (Fin n)) (v : ℝ),
      FoldModel (lookupKey "ml_g" c.params).join (zeroOne k.ml_g) (rowX c.data)
        (h₂.filter fun j => decide (c.d j = k.treatment)) (fun j => if c.y j ≤ v then 1 else 0) g q f ∧
      ∀ i ∈ f.test, t i = if c.d i = k.treatment then some (if c.y i ≤ v then 1 else 0) else none := by
  obtain ⟨r, h1, hp, ht⟩ := pqEst_ok h
  refine ⟨r.g, r.gTarget, by rw [hp]; rfl, by rw [ht]; rfl, fun q f hf => ?_⟩
  obtain ⟨h₁, h₂, v, hperm, hg, -⟩ := quant_folds hE hS (by rw [he]; rfl) h1 hf
  obtain ⟨a, ha, hi⟩ := hg he
  exact ⟨h₂, v, ⟨a, ha, fun i hi' => (hi i hi').1⟩, fun i hi' => (hi i hi').2⟩

/-- **C58, CVaR.** -/
theorem C58_cvar {k : PqClass n P} (hE : k.nested.Ok) {c : CellIn n P} {o : LinOut n P} (hS : isPartition c.smpls = true)
    (h : (cvarSpec k).est c = .ok o) : ∃ g t, lookupKey "ml_g" o.preds = some g ∧
    lookupKey "ml_g" o.targets = some (some t) ∧ ∀ (q : ℕ) (f : Fold n), c.smpls[q]? = some f → ∃ (h₂ : List (Fin n)) (v : ℝ),
      FoldModel (lookupKey "ml_g" c.params).join (fun a x => k.ml_g.predict a.params a.data x) (rowX c.data)
        (h₂.filter fun j => decide (c.d j = k.treatment)) (fun j => cvarTarget k.q v (c.y j)) g q f ∧
      ∀ i ∈ f.test, t i = if c.d i = k.treatment then some (cvarTarget k.q v (c.y i)) else none := by
  obtain ⟨r, h1, hp, ht⟩ := cvarEst_ok h
  refine ⟨r.g, r.gTarget, by rw [hp]; rfl, by rw [ht]; rfl, fun q f hf => ?_⟩
  obtain ⟨h₁, h₂, v, hperm, hg, -⟩ := quant_folds hE hS rfl h1 hf
  obtain ⟨a, ha, hi⟩ := hg rfl
  exact ⟨h₂, v, ⟨a, ha, fun i hi' => (hi i hi').1⟩, fun i hi' => (hi i hi').2⟩

/-- **C58, LPQ.** Each of the four conditional nuisance functions is evaluated on the observations with its value of the
instrument; the two outcome models with the labels they were trained for. -/
theorem C58_lpq {k : LpqClass n P} (hE : k.nested.Ok) {c : CellIn n P} {o : LinOut n P} (hS : isPartition c.smpls = true)
    {z : Fin n → ℝ} (hz : c.instr = .ok z) (h : (lpqSpec k).est c = .ok o) :
    EvaluatedOn o "ml_m_z" (fun _ => True) z ∧ EvaluatedOn o "ml_m_d_z0" (fun i => z i = 0) c.d ∧
    EvaluatedOn o "ml_m_d_z1" (fun i => z i = 1) c.d ∧
    (¬ LpqAllExternal c → ∃ t0 t1, lookupKey "ml_g_du_z0" o.targets = some (some t0) ∧
      lookupKey "ml_g_du_z1" o.targets = some (some t1) ∧ ∀ (q : ℕ) (f : Fold n), c.smpls[q]? = some f → ∃ v, ∀ i ∈ f.test,
        (t0 i = if z i = 0 then some ((if c.d i = k.treatment then 1 else 0) * if c.y i ≤ v then 1 else 0) else none) ∧
        (t1 i = if z i = 1 then some ((if c.d i = k.treatment then 1 else 0) * if c.y i ≤ v then 1 else 0) else none)) := by
  obtain ⟨z', r, hz', h1, -, hp, ht, -⟩ := lpqEst_ok h
  obtain rfl : z' = z := Except.ok.inj (hz'.symm.trans hz)
  refine ⟨⟨_, by rw [ht]; rfl, fun i => (by rw [if_pos trivial])⟩, ⟨_, by rw [ht]; rfl, fun i => ?_⟩,
    ⟨_, by rw [ht]; rfl, fun i => ?_⟩, fun he => ?_⟩
  · unfold condTargets
    by_cases h0 : z' i = 0
    · rw [if_pos h0, if_pos h0]; rfl
    · rw [if_neg h0, if_neg h0]
  · unfold condTargets
    by_cases h0 : z' i = 1
    · rw [if_pos h0, if_pos h0]; rfl
    · rw [if_neg h0, if_neg h0]
  · unfold lpqNuisance at h1
    rw [if_neg (fun hc => he ((lpqAll_iff c).1 hc))] at h1
    refine ⟨r.g0Target, r.g1Target, by rw [ht]; rfl, by rw [ht]; rfl, fun q f hf => ?_⟩
    obtain ⟨h₁, h₂, v, a, hperm, ha, hi⟩ := lpq_folds hE hS h1 hf
    exact ⟨v, fun i hi' => (hi i hi').2.2.2.2.2⟩

/-! ## C29: repeated fits -/

theorem ssmNon_startKept (k : SsmNonClass n P) : StartKept (ssmNonSpec k) := by
  intro c o h
  obtain ⟨_, _, _, _, _, _, _, _, _, hs⟩ := ssmNonEst_ok h
  exact hs

/-- **C29 (SSM with nonignorable nonresponse).** The results of a fit do not depend on earlier fits and inference calls. -/
theorem C29_ssm_nonignorable (E : Ext) (F : Frame n) (k : SsmNonClass n P)
    {s : MState n P (Option (List (FittedModel P (List Cell))))} (hs : WF s)
    (os : List (MOp n P)) (ho : ∀ o ∈ os, o.calm = true) (a : FitArgs) {p m : Bool} (hp : a.storePredictions = .bool p)
    (hm : a.storeModels = .bool m) :
    (fit F (ssmNonSpec k) (mrun E F (ssmNonSpec k) s os) a).2 = (fit F (ssmNonSpec k) s a).2 ∧
      ((fit F (ssmNonSpec k) s a).2 = .ok () →
        SameResults (ssmNonSpec k) p m (fit F (ssmNonSpec k) s a).1 (fit F (ssmNonSpec k) (mrun E F (ssmNonSpec k) s os) a).1 ∧
        ∀ q : ∀ r, Op n r, (infer E (fit F (ssmNonSpec k) (mrun E F (ssmNonSpec k) s os) a).1 q).2 =
          (infer E (fit F (ssmNonSpec k) s a).1 q).2) :=
  C29_refit_kept E F (ssmNon_startKept k) hs os ho a hp hm

/-! ## C39: trimming -/

theorem gather_some {R : Type} {val : R → Fin n → Option ℝ} {rs : List (Fold n × R)} {i : Fin n} {v : ℝ}
    (h : gather val rs i = some v) : ∃ r ∈ rs, val r.2 i = some v := by
  unfold gather at h
  suffices H : ∀ (l : List (Fold n × R)) (a : Option ℝ), (a = some v → ∃ r ∈ rs, val r.2 i = some v) → (∀ r ∈ l, r ∈ rs) →
      l.foldl (fun a fr => if i ∈ fr.1.test then val fr.2 i else a) a = some v → ∃ r ∈ rs, val r.2 i = some v from
    H rs none (fun h => by cases h) (fun _ h => h) h
  intro l
  induction l with
  | nil => exact fun a h1 _ h2 => h1 h2
  | cons r l ih =>
    intro a h1 h2 h3
    refine ih _ ?_ (fun r' hr' => h2 r' (List.mem_cons_of_mem _ hr')) h3
    intro h4
    dsimp only at h4
    split_ifs at h4
    · exact ⟨r, h2 r (List.mem_cons_self ..), h4⟩
    · exact h1 h4

/-- **C39, PQ.** Estimated and supplied propensities alike. -/
theorem C39_pq (k : PqClass n P) (ht : k.trimT < 1 / 2) {c : CellIn n P} {o : LinOut n P} (h : (pqSpec k).est c = .ok o) :
    TrimmedIn o "ml_m" k.trimT := by
  obtain ⟨r, h1, hp, -⟩ := pqEst_ok h
  refine ⟨r.m, by rw [hp]; rfl, fun i v hv => ?_⟩
  rw [(quantNuisance_ok h1).2.2] at hv
  obtain ⟨w, -, rfl⟩ := Option.map_eq_some_iff.1 hv
  exact ⟨(C39_range ht w).1, (C39_range ht w).2.1⟩

/-- **C39, CVaR.** -/
theorem C39_cvar (k : PqClass n P) (ht : k.trimT < 1 / 2) {c : CellIn n P} {o : LinOut n P} (h : (cvarSpec k).est c = .ok o) :
    TrimmedIn o "ml_m" k.trimT := by
  obtain ⟨r, h1, hp, -⟩ := cvarEst_ok h
  refine ⟨r.m, by rw [hp]; rfl, fun i v hv => ?_⟩
  rw [(quantNuisance_ok h1).2.2] at hv
  obtain ⟨w, -, rfl⟩ := Option.map_eq_some_iff.1 hv
  exact ⟨(C39_range ht w).1, (C39_range ht w).2.1⟩

/-- **C39, SSM with nonignorable nonresponse** (the propensity of the treatment; the selection propensity is not trimmed). -/
theorem C39_ssm_nonignorable (k : SsmNonClass n P) (ht : k.trimT < 1 / 2) {c : CellIn n P} {o : LinOut n P}
    (h : (ssmNonSpec k).est c = .ok o) : TrimmedIn o "ml_m" k.trimT := by
  obtain ⟨s, dx, r, -, -, h1, -, -, hp, -⟩ := ssmNonEst_ok h
  refine ⟨r.m, by rw [hp]; rfl, fun i v hv => ?_⟩
  unfold ssmNuisance at h1
  obtain ⟨rs, -, h1⟩ := bind_ok h1
  obtain rfl := Except.ok.inj h1
  dsimp only at hv
  obtain ⟨r, -, hr⟩ := gather_some hv
  obtain rfl := Option.some.inj hr
  exact ⟨(C39_range ht _).1, (C39_range ht _).2.1⟩

/-! ## C57: outcomes of unselected observations -/

theorem ssmFold_unselected {X XD : Type} {E : NestedExt n} {K : SsmLearners P X XD} {D : ObsS n X XD} {y' : Fin n → ℝ}
    (h : ∀ i, D.s i ≠ 0 → y' i = D.y i) (p : Option P × Option P × Option P × Option P) (f : Fold n) :
    ssmFold E K { D with y := y' } p f = ssmFold E K D p f := by
  unfold ssmFold
  have hm : ∀ v l, ∀ i ∈ ssmSel D v l, y' i = D.y i := by
    intro v l i hi
    have := (mem_ssmSel.1 hi).2.1
    exact h i (by rw [this]; exact one_ne_zero)
  have key : ∀ (pi : FittedModel P XD) v l, trainData (xpi K pi { D with y := y' }) y' (ssmSel { D with y := y' } v l) =
      trainData (xpi K pi D) D.y (ssmSel D v l) := fun pi v l => trainData_congr (fun _ _ => rfl) (hm v l)
  show (E.halves f.train (f.train.map D.strata)).bind _ = (E.halves f.train (f.train.map D.strata)).bind _
  cases E.halves f.train (f.train.map D.strata) with
  | error e => rfl
  | ok hs =>
    show Except.ok _ = Except.ok _
    dsimp only
    simp only [key]
    rfl

/-- The cell with other outcomes. -/
def CellIn.withOut (c : CellIn n P) (yv : Fin n → Cell) (b : Bool) : CellIn n P :=
  { c with data := { c.data with yv := yv, binOut := b } }

/-- **C57, SSM with nonignorable nonresponse.** The outcomes of unselected observations have no effect on predictions,
estimate, standard error and scores. -/
theorem C57_nonignorable_unselected {k : SsmNonClass n P} {c : CellIn n P} {o : LinOut n P} (h : (ssmNonSpec k).est c = .ok o)
    {s : Fin n → ℝ} (hs : c.sel = .ok s) {yv : Fin n → Cell} (hy : ∀ i, s i ≠ 0 → yv i = c.data.yv i) (b : Bool) :
    ∃ o', (ssmNonSpec k).est (c.withOut yv b) = .ok o' ∧ o'.fit = o.fit ∧ o'.preds = o.preds := by
  obtain ⟨s', dx, r, hs', hdx, h1, hc, hf, hp, -⟩ := ssmNonEst_ok h
  obtain rfl : s' = s := Except.ok.inj (hs'.symm.trans hs)
  have hy' : ∀ i, (c.obsS dx s').s i ≠ 0 → (c.withOut yv b).y i = (c.obsS dx s').y i := by
    intro i hi
    show (yv i).val = (c.data.yv i).val
    rw [hy i hi]
  have h2 : ssmNuisance k.nested k.learners ((c.withOut yv b).obsS dx s') k.trimT c.smpls
      ⟨(lookupKey "ml_pi" c.params).join, (lookupKey "ml_m" c.params).join, (lookupKey "ml_g_d1" c.params).join,
        (lookupKey "ml_g_d0" c.params).join⟩ = .ok r := by
    rw [← h1]
    unfold ssmNuisance
    have hpass : ∀ ps, ssmPass k.nested k.learners ((c.withOut yv b).obsS dx s') ps =
        ssmPass k.nested k.learners (c.obsS dx s') ps := by
      intro ps
      funext fk
      unfold ssmPass
      have := fun p => ssmFold_unselected (E := k.nested) (K := k.learners) hy' p fk.1
      simp only [show ∀ p, ssmFold k.nested k.learners ((c.withOut yv b).obsS dx s') p fk.1 =
        ssmFold k.nested k.learners (c.obsS dx s') p fk.1 from this]
    rw [hpass]
    rfl
  have hel := C57_unselected_irrelevant k.normalize (c.dIs 1) (c.dIs 0) (fun i => (r.g1 i).getD 0) (fun i => (r.g0 i).getD 0)
    (fun i => (r.pi i).getD 0) (fun i => (r.m i).getD 0) s' (c.withOut yv b).y c.y fun i hi => hy' i hi
  have h3 : ∃ o', (ssmNonSpec k).est (c.withOut yv b) = .ok o' := by
    show ∃ o', ssmNonEst k (c.withOut yv b) = .ok o'
    unfold ssmNonEst
    rw [show (c.withOut yv b).sel = .ok s' from hs', show (c.withOut yv b).xdz = .ok dx from hdx]
    show ∃ o', ((ssmNuisance k.nested k.learners ((c.withOut yv b).obsS dx s') k.trimT c.smpls
      ⟨(lookupKey "ml_pi" c.params).join, (lookupKey "ml_m" c.params).join, (lookupKey "ml_g_d1" c.params).join,
        (lookupKey "ml_g_d0" c.params).join⟩) >>= _) = .ok o'
    rw [h2]
    unfold ssmCluster
    rw [show (c.withOut yv b).cluster = none from hc]
    exact ⟨_, rfl⟩
  obtain ⟨o', ho'⟩ := h3
  obtain ⟨s2, dx2, r2, e1, e2, e3, -, e5, e6, -⟩ := ssmNonEst_ok ho'
  obtain rfl : s' = s2 := Except.ok.inj (hs'.symm.trans e1)
  obtain rfl : dx = dx2 := Except.ok.inj (hdx.symm.trans e2)
  obtain rfl : r = r2 := Except.ok.inj (h2.symm.trans e3)
  refine ⟨o', ho', ?_, by rw [e6, hp]⟩
  rw [e5, hf]
  exact congrArg (fun e : PsiElems n => e.fit c.cluster) hel

/-! ## C63: fits that succeed -/

theorem mapM_all {A B : Type} {f : A → Except Exc B} : ∀ {l : List A}, (∀ a ∈ l, ∃ b, f a = .ok b) → ∃ bs, l.mapM f = .ok bs
  | [], _ => ⟨[], rfl⟩
  | a :: l, h => by
    obtain ⟨b, hb⟩ := h a (List.mem_cons_self ..)
    obtain ⟨bs, hbs⟩ := mapM_all fun a' ha' => h a' (List.mem_cons_of_mem _ ha')
    exact ⟨b :: bs, by rw [List.mapM_cons, hb, hbs]; rfl⟩

theorem paramAt_total {ps : Option (List P)} {k q : ℕ} (h : (toParams ps).Fits k) (hq : q < k) : ∃ a, paramAt ps q = .ok a := by
  cases ps with
  | none => exact ⟨none, rfl⟩
  | some l =>
    have hl : l.length = k := h l rfl
    unfold paramAt
    dsimp only
    rw [List.getElem?_eq_getElem (by omega)]
    exact ⟨_, rfl⟩

/-- Every training set can be halved along the strata, and the first half can be split into as many folds as there are in
the sample splitting, with both values of `v` in every training part. -/
def HalvesReady (E : NestedExt n) (S : List (Fold n)) (strata v : Fin n → ℝ) : Prop :=
  ∀ f ∈ S, ∃ (h₁ h₂ : List (Fin n)) (s : List (Fold h₁.length)), E.halves f.train (f.train.map strata) = .ok (h₁, h₂) ∧
    E.skf h₁.length S.length (sub h₁ strata) = .ok s ∧ s ≠ [] ∧ ∀ g ∈ s, g.train.Nodup ∧ BothClasses (sub h₁ v) g

theorem prelimFit_total {X : Type} {L : Learner P X} (hL : L.Compliant) (p : Option P) {h₁ : List (Fin n)} (x : Fin n → X)
    {v : Fin n → ℝ} (hv : BinaryTarget v) {s : List (Fold h₁.length)} (hp : isPartition s = true) (hs : s ≠ [])
    (hg : ∀ g ∈ s, g.train.Nodup ∧ BothClasses (sub h₁ v) g) : ∃ m, prelimFit L p h₁ x v s = .ok m := by
  have hb : BinaryTarget (sub h₁ v) := by
    obtain ⟨g, hgm⟩ := List.exists_mem_of_ne_nil s hs
    obtain ⟨-, ⟨i, -, hi⟩, ⟨j, -, hj⟩⟩ := hg g hgm
    exact ⟨fun i => hv.1 _, ⟨i, hi⟩, ⟨j, hj⟩⟩
  obtain ⟨r, hr, -⟩ := cvPredict_succeeds (L := L) (x := sub h₁ x) (y := sub h₁ v) (smpls := s) (ps := ofParam p) (m := .proba)
    (by intro l hl; cases p <;> cases hl) hp (fun _ => ⟨hL, hb, fun f hf => (hg f hf).2⟩) (fun f hf => (hg f hf).1) false false
  unfold prelimFit
  rw [hr]
  exact ⟨_, rfl⟩

theorem quantNuisance_total {E : NestedExt n} (hE : E.Ok) {L : Learner P (List Cell)} (hL : L.Compliant)
    {ev : FittedModel P (List Cell) → List Cell → ℝ} {c : QuantSet} {t : ℝ → ℝ → ℝ} {D : Obs n (List Cell)}
    {S : List (Fold n)} {psG psM : Option (List P)} {gExt mExt : Option (Fin n → ℝ)} {w : Bool}
    (hG : (toParams psG).Fits S.length) (hM : (toParams psM).Fits S.length) (hb : BinaryTarget D.d)
    (hS : HalvesReady E S D.d D.d) (hw : w = true → gExt = none ∧ mExt = none) :
    ∃ o, quantNuisance E L ev c t D S psG psM gExt mExt w = .ok o := by
  have hfor : ∀ {ext : Option (Fin n → ℝ)} {ps : Option (List P)} {q : ℕ}, (toParams ps).Fits S.length → q < S.length →
      ∃ a, paramFor ext ps q = .ok a := by
    intro ext ps q h hq
    unfold paramFor
    split_ifs
    · exact ⟨_, rfl⟩
    · exact paramAt_total h hq
  have hpass : ∀ fk ∈ S.zipIdx, ∃ r, quantPass E L c t D S.length psG psM gExt mExt fk = .ok r := by
    rintro ⟨f, q⟩ hfq
    have hq : S[q]? = some f := List.mem_zipIdx_iff_getElem?.1 hfq
    have hlt := (List.getElem?_eq_some_iff.1 hq).1
    obtain ⟨pg, hpg⟩ := hfor (ext := gExt) hG hlt
    obtain ⟨pm, hpm⟩ := hfor (ext := mExt) hM hlt
    obtain ⟨h₁, h₂, s, e1, e2, e3, e4⟩ := hS f (List.mem_of_getElem? hq)
    obtain ⟨m, hm⟩ : ∃ m, prelimM L pm h₁ D mExt s = .ok m := by
      unfold prelimM
      cases mExt with
      | none => exact prelimFit_total hL pm D.x hb (hE.skf e2) e3 e4
      | some m => exact ⟨_, rfl⟩
    unfold quantPass quantFold
    simp only [hpg, hpm, e1, e2, hm, bind, Except.bind, pure, Except.pure]
    exact ⟨_, rfl⟩
  obtain ⟨rs, hrs⟩ : ∃ rs, quantPasses E L c t D S psG psM gExt mExt = .ok rs := by
    unfold quantPasses
    split_ifs
    · exact ⟨_, rfl⟩
    · exact mapM_all hpass
  unfold quantNuisance
  rw [hrs]
  have hif : ¬ (w && (gExt.isSome || mExt.isSome)) = true := by
    intro h
    rw [Bool.and_eq_true] at h
    obtain ⟨rfl, rfl⟩ := hw h.1
    exact absurd h.2 (by simp)
  show ∃ o, (if (w && (gExt.isSome || mExt.isSome)) = true then _ else _) = Except.ok o
  rw [if_neg hif]
  exact ⟨_, rfl⟩

theorem pq_keys : ∀ b : Bool, OneKey [("ml_g", b), ("ml_m", true)] ["ml_g", "ml_m"] := by decide

/-- **C63, PQ.** With a binary treatment, training sets that can be halved, and no request to store models together with
external predictions, a fit succeeds — also after earlier fits, with new splits and with parameters that were set. -/
theorem C63_pq {E : Ext} {F : Frame n} {k : PqClass n P} (hv : k.vars = none) (hE : k.nested.Ok) (hm : k.ml_m.Compliant)
    {D : DataState n} (hb : BinaryTarget (nums D.dv)) {tv : String} {s : LinState n P} (h : Reached E F (pqSpec k) D tv s)
    {L : List (List (Fold n))} (hL : s.smpls = some L) (hf : ∀ S ∈ L, HalvesReady k.nested S (nums D.dv) (nums D.dv)) {a : FitArgs}
    (ha : ValidArgs (pqSpec k) tv s.nRep a) (hx : a.storeModels = .bool false ∨ a.ext = .none) :
    (fit F (pqSpec k) s a).2 = .ok () := by
  refine C63_of_cells_args hv (fun h => by cases h) h hL ha ?_ (pq_keys true) ?_
  · intro q S c hq hS hc he hw
    have hd : c.obs.d = nums D.dv := hc.d
    obtain ⟨r, hr⟩ := quantNuisance_total (ev := zeroOne k.ml_g) (c := k.set c.start) (t := fun ipw y => indLe y ipw)
      (D := c.obs) (S := c.smpls) (psG := (lookupKey "ml_g" c.params).join) (psM := (lookupKey "ml_m" c.params).join)
      (gExt := c.extOf "ml_g") (mExt := c.extOf "ml_m") (w := c.wantModels) hE hm (by rw [hc.smpls]; exact hc.params "ml_g")
      (by rw [hc.smpls]; exact hc.params "ml_m") (by rw [hd]; exact hb) (by rw [hd, hc.smpls]; exact hf S (List.mem_of_getElem? hq))
      (by
        intro hwt
        rcases hx with hx | hx
        · rw [hx, hwt] at hw; cases hw
        · rw [hx] at he; exact ⟨noExt he _, noExt he _⟩)
    show ∃ o, (quantNuisance k.nested k.ml_m (zeroOne k.ml_g) (k.set c.start) (fun ipw y => indLe y ipw) c.obs c.smpls
      (lookupKey "ml_g" c.params).join (lookupKey "ml_m" c.params).join (c.extOf "ml_g") (c.extOf "ml_m") c.wantModels >>= _) = .ok o
    rw [hr]
    exact ⟨_, rfl⟩
  · intro c o ho l hl
    obtain ⟨r, -, hp, ht⟩ := pqEst_ok ho
    rw [hp, ht]
    have hl' : l = "ml_g" ∨ l = "ml_m" := by simpa [pqSpec] using hl
    rcases hl' with rfl | rfl <;> exact ⟨rfl, rfl⟩

/-- **C63, CVaR.** -/
theorem C63_cvar {E : Ext} {F : Frame n} {k : PqClass n P} (hv : k.vars = none) (hE : k.nested.Ok) (hm : k.ml_m.Compliant)
    {D : DataState n} (hb : BinaryTarget (nums D.dv)) {tv : String} {s : LinState n P} (h : Reached E F (cvarSpec k) D tv s)
    {L : List (List (Fold n))} (hL : s.smpls = some L) (hf : ∀ S ∈ L, HalvesReady k.nested S (nums D.dv) (nums D.dv)) {a : FitArgs}
    (ha : ValidArgs (cvarSpec k) tv s.nRep a) : (fit F (cvarSpec k) s a).2 = .ok () := by
  refine C63_of_cells hv (fun h => by cases h) h hL ha ?_ (pq_keys false) ?_
  · intro q S c hq hS hc
    have hd : c.obs.d = nums D.dv := hc.d
    obtain ⟨r, hr⟩ := quantNuisance_total (ev := fun m x => k.ml_g.predict m.params m.data x) (c := k.set c.start)
      (t := fun ipw y => cvarTarget k.q ipw y)
      (D := c.obs) (S := c.smpls) (psG := (lookupKey "ml_g" c.params).join) (psM := (lookupKey "ml_m" c.params).join)
      (gExt := none) (mExt := none) (w := c.wantModels) hE hm (by rw [hc.smpls]; exact hc.params "ml_g")
      (by rw [hc.smpls]; exact hc.params "ml_m") (by rw [hd]; exact hb) (by rw [hd, hc.smpls]; exact hf S (List.mem_of_getElem? hq))
      (fun _ => ⟨rfl, rfl⟩)
    show ∃ o, (quantNuisance k.nested k.ml_m (fun m x => k.ml_g.predict m.params m.data x) (k.set c.start)
      (fun ipw y => cvarTarget k.q ipw y) c.obs c.smpls
      (lookupKey "ml_g" c.params).join (lookupKey "ml_m" c.params).join none none c.wantModels >>= _) = .ok o
    rw [hr]
    exact ⟨_, rfl⟩
  · intro c o ho l hl
    obtain ⟨r, -, hp, ht⟩ := cvarEst_ok ho
    rw [hp, ht]
    have hl' : l = "ml_g" ∨ l = "ml_m" := by simpa [cvarSpec] using hl
    rcases hl' with rfl | rfl <;> exact ⟨rfl, rfl⟩

theorem lpq_keys : OneKey [("ml_m_z", true), ("ml_g_du_z0", true), ("ml_g_du_z1", true), ("ml_m_d_z0", true), ("ml_m_d_z1", true)]
    lpqNames := by decide

/-- `d + 2 z`: the strata of LPQ. -/
def lpqStrata (d z : Fin n → ℝ) (i : Fin n) : ℝ := d i + 2 * z i

/-- **C63, LPQ.** With a binary instrument, training sets that can be halved along treatment and instrument, and no request
to store models together with external predictions, a fit succeeds. -/
theorem C63_lpq {E : Ext} {F : Frame n} {k : LpqClass n P} (hv : k.vars = none) (hE : k.nested.Ok) (hm : k.ml_m.Compliant)
    {D : DataState n} {zc : Fin n → Cell} (hz : D.zv = some [zc]) (hb : BinaryTarget (nums zc)) {tv : String} {s : LinState n P}
    (h : Reached E F (lpqSpec k) D tv s) {L : List (List (Fold n))} (hL : s.smpls = some L)
    (hf : ∀ S ∈ L, HalvesReady k.nested S (lpqStrata (nums D.dv) (nums zc)) (nums zc)) {a : FitArgs}
    (ha : ValidArgs (lpqSpec k) tv s.nRep a) (hx : a.storeModels = .bool false ∨ a.ext = .none) :
    (fit F (lpqSpec k) s a).2 = .ok () := by
  refine C63_of_cells_args hv (fun h => by cases h) h hL ha ?_ lpq_keys ?_
  · intro q S c hq hS hc he hw
    have hi : c.instr = .ok (nums zc) := by
      unfold CellIn.instr
      rw [hc.data, hz]
      rfl
    have hest : ∃ o, lpqEstimate k.nested k.learners (k.set c.start) (c.obsZ (nums zc)) c.smpls
        (lpqEntries fun l => (lookupKey l c.params).join) = .ok o := by
      have hpass : ∀ fk ∈ c.smpls.zipIdx, ∃ r, lpqPass k.nested k.learners (k.set c.start) (c.obsZ (nums zc)) c.smpls.length
          (lpqEntries fun l => (lookupKey l c.params).join) fk = .ok r := by
        rintro ⟨f, j⟩ hfj
        have hj : c.smpls[j]? = some f := List.mem_zipIdx_iff_getElem?.1 hfj
        have hlt := (List.getElem?_eq_some_iff.1 hj).1
        have hpar : ∀ l, ∃ b, paramAt (lookupKey l c.params).join j = .ok b :=
          fun l => paramAt_total (by rw [hc.smpls]; exact hc.params l) hlt
        obtain ⟨a1, g1⟩ := hpar "ml_m_z"
        obtain ⟨a2, g2⟩ := hpar "ml_m_d_z0"
        obtain ⟨a3, g3⟩ := hpar "ml_m_d_z1"
        obtain ⟨a4, g4⟩ := hpar "ml_g_du_z0"
        obtain ⟨a5, g5⟩ := hpar "ml_g_du_z1"
        have hst : (c.obsZ (nums zc)).strata = lpqStrata (nums D.dv) (nums zc) := by
          funext i
          show c.d i + 2 * nums zc i = _
          rw [hc.d]
          rfl
        obtain ⟨h₁, h₂, sp, e1, e2, e3, e4⟩ := hf S (List.mem_of_getElem? hq) f (by rw [← hc.smpls]; exact List.mem_of_getElem? hj)
        obtain ⟨m, hm⟩ := prelimFit_total (L := k.ml_m) hm a1 (rowX c.data) hb (hE.skf e2) e3 e4
        rw [← hst] at e1 e2
        rw [← hc.smpls] at e2
        unfold lpqPass lpqParamsAt lpqEntries lpqFold lpqPrelim
        simp only [g1, g2, g3, g4, g5, e1, e2, bind, Except.bind, pure, Except.pure]
        simp only [show prelimFit k.learners.mz a1 h₁ (c.obsZ (nums zc)).x (c.obsZ (nums zc)).z sp = .ok m from hm]
        exact ⟨_, rfl⟩
      obtain ⟨rs, hrs⟩ := mapM_all hpass
      unfold lpqEstimate
      rw [hrs]
      exact ⟨_, rfl⟩
    have hn : ∃ o, lpqNuisance k.nested k.learners (k.set c.start) (c.obsZ (nums zc)) c.smpls
        (lpqEntries fun l => (lookupKey l c.params).join) (lpqEntries c.extOf) c.wantModels = .ok o := by
      unfold lpqNuisance
      by_cases hall : (lpqEntries c.extOf).all = true
      · rw [if_pos hall]
        have hw' : ¬ c.wantModels = true := by
          intro hwt
          rcases hx with hx | hx
          · rw [hx, hwt] at hw; cases hw
          · rw [hx] at he
            have := (lpqAll_iff c).1 hall "ml_m_z" (by simp [lpqNames])
            rw [noExt he] at this
            cases this
        rw [if_neg hw']
        exact ⟨_, rfl⟩
      · rw [if_neg hall]
        exact hest
    obtain ⟨r, hr⟩ := hn
    show ∃ o, (c.instr >>= _) = .ok o
    rw [hi]
    show ∃ o, (lpqNuisance k.nested k.learners (k.set c.start) (c.obsZ (nums zc)) c.smpls
        (lpqEntries fun l => (lookupKey l c.params).join) (lpqEntries c.extOf) c.wantModels >>= _) = .ok o
    rw [hr]
    exact ⟨_, rfl⟩
  · intro c o ho l hl
    obtain ⟨z, r, -, -, -, hp, ht, -⟩ := lpqEst_ok ho
    rw [hp, ht]
    have hl' : l = "ml_m_z" ∨ l = "ml_g_du_z0" ∨ l = "ml_g_du_z1" ∨ l = "ml_m_d_z0" ∨ l = "ml_m_d_z1" := by
      simpa [lpqSpec, lpqNames] using hl
    rcases hl' with rfl | rfl | rfl | rfl | rfl <;> exact ⟨rfl, rfl⟩

/-- **C63, SSM with nonignorable nonresponse.** With instruments and a selection indicator, and training sets that can be
halved along treatment and selection, a fit succeeds. -/
theorem C63_ssm_nonignorable {E : Ext} {F : Frame n} {k : SsmNonClass n P} (hv : k.vars = none)
    {D : DataState n} {zs : List (Fin n → Cell)} (hz : D.zv = some zs) {sel : Fin n → Cell} (hs : D.sv = some sel) {tv : String}
    {s : LinState n P} (h : Reached E F (ssmNonSpec k) D tv s) {L : List (List (Fold n))} (hL : s.smpls = some L)
    (hf : ∀ S ∈ L, ∀ f ∈ S, ∃ hh, k.nested.halves f.train (f.train.map (lpqStrata (nums D.dv) (nums sel))) = .ok hh) {a : FitArgs}
    (ha : ValidArgs (ssmNonSpec k) tv s.nRep a) : (fit F (ssmNonSpec k) s a).2 = .ok () := by
  refine C63_of_cells hv (fun h => by cases h) h hL ha ?_ (ssm_keys k.gClassifier) ?_
  · intro q S c hq hS hc
    have hi : c.sel = .ok (nums sel) := by
      unfold CellIn.sel
      rw [hc.data, hs]
      rfl
    obtain ⟨dx, hdx⟩ : ∃ dx, c.xdz = .ok dx := by
      unfold CellIn.xdz
      rw [hc.data, hz]
      exact ⟨_, rfl⟩
    have hpass : ∀ fk ∈ c.smpls.zipIdx, ∃ r, ssmPass k.nested k.learners (c.obsS dx (nums sel))
        ⟨(lookupKey "ml_pi" c.params).join, (lookupKey "ml_m" c.params).join, (lookupKey "ml_g_d1" c.params).join,
          (lookupKey "ml_g_d0" c.params).join⟩ fk = .ok r := by
      rintro ⟨f, j⟩ hfj
      have hj : c.smpls[j]? = some f := List.mem_zipIdx_iff_getElem?.1 hfj
      have hlt := (List.getElem?_eq_some_iff.1 hj).1
      have hpar : ∀ l, ∃ b, paramAt (lookupKey l c.params).join j = .ok b :=
        fun l => paramAt_total (by rw [hc.smpls]; exact hc.params l) hlt
      obtain ⟨a1, g1⟩ := hpar "ml_pi"
      obtain ⟨a2, g2⟩ := hpar "ml_m"
      obtain ⟨a3, g3⟩ := hpar "ml_g_d1"
      obtain ⟨a4, g4⟩ := hpar "ml_g_d0"
      have hst : (c.obsS dx (nums sel)).strata = lpqStrata (nums D.dv) (nums sel) := by
        funext i
        show c.d i + 2 * nums sel i = _
        rw [hc.d]
        rfl
      obtain ⟨hh, e1⟩ := hf S (List.mem_of_getElem? hq) f (by rw [← hc.smpls]; exact List.mem_of_getElem? hj)
      rw [← hst] at e1
      unfold ssmPass ssmFold
      simp only [g1, g2, g3, g4, e1, bind, Except.bind, pure, Except.pure]
      exact ⟨_, rfl⟩
    obtain ⟨rs, hrs⟩ := mapM_all hpass
    show ∃ o, ssmNonEst k c = .ok o
    unfold ssmNonEst ssmNuisance ssmCluster
    rw [hi, hdx, hc.cluster]
    simp only [hrs, bind, Except.bind, pure, Except.pure]
    exact ⟨_, rfl⟩
  · intro c o ho
    obtain ⟨s, -, ho⟩ := bind_ok ho
    obtain ⟨dx, -, ho⟩ := bind_ok ho
    obtain ⟨r, -, ho⟩ := bind_ok ho
    obtain ⟨_, -, ho⟩ := bind_ok ho
    rw [← Except.ok.inj ho]
    intro l hl
    have hl' : l = "ml_g_d0" ∨ l = "ml_g_d1" ∨ l = "ml_pi" ∨ l = "ml_m" := by simpa [ssmNonSpec] using hl
    rcases hl' with rfl | rfl | rfl | rfl <;> exact ⟨rfl, rfl⟩

/-! ## C27 (SSM), C28 (LPQ), C57 (SSM, missing at random) -/

/-- **C27, SSM with nonignorable nonresponse.** Every training set is split into two halves.  The selection model is
trained on the first half; the propensity on the second half, the outcome models on the selected observations of the second
half with the treatment in question, with the prediction of the selection model as additional covariate. -/
theorem C27_ssm_nonignorable {k : SsmNonClass n P} (hE : k.nested.Ok) {c : CellIn n P} {o : LinOut n P} (hS : FoldsOk c.smpls)
    {s : Fin n → ℝ} (hs : c.sel = .ok s) {zs : List (Fin n → Cell)} (hz : c.data.zv = some zs) (h : (ssmNonSpec k).est c = .ok o) :
    ∃ pi m g0 g1, lookupKey "ml_pi" o.preds = some pi ∧ lookupKey "ml_m" o.preds = some m ∧
    lookupKey "ml_g_d0" o.preds = some g0 ∧ lookupKey "ml_g_d1" o.preds = some g1 ∧
    ∀ (q : ℕ) (f : Fold n), c.smpls[q]? = some f → ∃ (h₁ h₂ l₀ l₁ : List (Fin n)) (ph : Fin n → ℝ), (h₁ ++ h₂).Perm f.train ∧
      (∀ j, j ∈ l₀ ↔ j ∈ h₂ ∧ c.d j = 0 ∧ s j = 1) ∧ (∀ j, j ∈ l₁ ↔ j ∈ h₂ ∧ c.d j = 1 ∧ s j = 1) ∧ l₀.Nodup ∧ l₁.Nodup ∧
      (∃ a, paramAt (lookupKey "ml_pi" c.params).join q = .ok a ∧ ∀ i, ph i = zeroOne k.ml_pi
        ⟨a, h₁.map fun j => (rowX c.data j ++ [c.data.dv j] ++ zs.map fun z => z j, s j)⟩
        (rowX c.data i ++ [c.data.dv i] ++ zs.map fun z => z i)) ∧
      (∀ i ∈ f.test, pi i = some (ph i)) ∧
      FoldModel (lookupKey "ml_m" c.params).join (fun a x => trim k.trimT (zeroOne k.ml_m a x))
        (fun j => rowX c.data j ++ [.num (ph j)]) h₂ c.d m q f ∧
      FoldModel (lookupKey "ml_g_d0" c.params).join (fun a x => k.ml_g.predict a.params a.data x)
        (fun j => rowX c.data j ++ [.num (ph j)]) l₀ c.y g0 q f ∧
      FoldModel (lookupKey "ml_g_d1" c.params).join (fun a x => k.ml_g.predict a.params a.data x)
        (fun j => rowX c.data j ++ [.num (ph j)]) l₁ c.y g1 q f := by
  obtain ⟨s', dx, r, hs', hdx, h1, -, -, hp, -⟩ := ssmNonEst_ok h
  obtain rfl : s' = s := Except.ok.inj (hs'.symm.trans hs)
  obtain rfl : (fun i => rowX c.data i ++ [c.data.dv i] ++ zs.map fun z => z i) = dx := by
    unfold CellIn.xdz at hdx
    rw [hz] at hdx
    exact Except.ok.inj hdx
  refine ⟨r.pi, r.m, r.g0, r.g1, by rw [hp]; rfl, by rw [hp]; rfl, by rw [hp]; rfl, by rw [hp]; rfl, fun q f hf => ?_⟩
  unfold ssmNuisance at h1
  obtain ⟨rs, h1, h⟩ := bind_ok h1
  have h := Except.ok.inj h
  obtain ⟨t, ht, -⟩ := (passes_at ssmPass_fst h1).2 q f hf
  have hval : ∀ i ∈ f.test, ∀ val : SsmFold P (List Cell) (List Cell) → Fin n → Option ℝ, gather val rs i = val t i := by
    intro i hi val
    obtain ⟨t', ht', -, hg⟩ := gather_at ssmPass_fst h1 hS.partition hf hi
    obtain rfl : t = t' := (Prod.mk.inj (Except.ok.inj (ht.symm.trans ht'))).2
    exact hg val
  unfold ssmPass at ht
  obtain ⟨a1, p1, ht⟩ := bind_ok ht
  obtain ⟨a2, p2, ht⟩ := bind_ok ht
  obtain ⟨a3, p3, ht⟩ := bind_ok ht
  obtain ⟨a4, p4, ht⟩ := bind_ok ht
  obtain ⟨t', ht', ht⟩ := bind_ok ht
  obtain rfl : t' = t := (Prod.mk.inj (Except.ok.inj ht)).2
  obtain ⟨h₁, h₂, hperm, -, e1, e2, ⟨l₁, i1, n1, e3⟩, l₀, i0, n0, e4⟩ := C55_ssm_halves hE (hS.nodup f (List.mem_of_getElem? hf)) ht'
  refine ⟨h₁, h₂, l₀, l₁, fun j => zeroOne k.ml_pi t'.pi (rowX c.data j ++ [c.data.dv j] ++ zs.map fun z => z j), hperm, i0, i1, n0, n1,
    ⟨a1, p1, fun i => by rw [e1]; rfl⟩, fun i hi => ?_, ⟨a2, p2, fun i hi => ?_⟩, ⟨a4, p4, fun i hi => ?_⟩, ⟨a3, p3, fun i hi => ?_⟩⟩
  · rw [← h]
    dsimp only
    exact hval i hi _
  · rw [← h]
    dsimp only
    refine (hval i hi _).trans ?_
    have : t'.m.data.map (fun r => (addCol r.1, r.2)) = h₂.map fun j => (rowX c.data j ++ [.num (zeroOne k.ml_pi t'.pi
        (rowX c.data j ++ [c.data.dv j] ++ zs.map fun z => z j))], c.d j) := by
      rw [e2, List.map_map]; rfl
    rw [← this]
    have e2' : t'.m.params = a2 := by rw [e2]
    rw [← e2']
    rfl
  · rw [← h]
    dsimp only
    refine (hval i hi _).trans ?_
    have : t'.g0.data.map (fun r => (addCol r.1, r.2)) = l₀.map fun j => (rowX c.data j ++ [.num (zeroOne k.ml_pi t'.pi
        (rowX c.data j ++ [c.data.dv j] ++ zs.map fun z => z j))], c.y j) := by
      rw [e4, List.map_map]; rfl
    rw [← this]
    have e4' : t'.g0.params = a4 := by rw [e4]
    rw [← e4']
    rfl
  · rw [← h]
    dsimp only
    refine (hval i hi _).trans ?_
    have : t'.g1.data.map (fun r => (addCol r.1, r.2)) = l₁.map fun j => (rowX c.data j ++ [.num (zeroOne k.ml_pi t'.pi
        (rowX c.data j ++ [c.data.dv j] ++ zs.map fun z => z j))], c.y j) := by
      rw [e3, List.map_map]; rfl
    rw [← this]
    have e3' : t'.g1.params = a3 := by rw [e3]
    rw [← e3']
    rfl

/-- **C28, LPQ.** If all five predictions are supplied, they are stored as supplied. -/
theorem C28_lpq_class {k : LpqClass n P} {c : CellIn n P} {o : LinOut n P} (h : (lpqSpec k).est c = .ok o) (he : LpqAllExternal c) :
    ∀ l ∈ lpqNames, ∃ e, c.extOf l = some e ∧ lookupKey l o.preds = some fun i => some (e i) := by
  obtain ⟨z, r, -, h1, -, hp, -⟩ := lpqEst_ok h
  unfold lpqNuisance at h1
  rw [if_pos ((lpqAll_iff c).2 he)] at h1
  split_ifs at h1
  obtain rfl := Except.ok.inj h1
  intro l hl
  obtain ⟨e, hle⟩ := Option.isSome_iff_exists.1 (he l hl)
  refine ⟨e, hle, ?_⟩
  rw [hp]
  have hl' : l = "ml_m_z" ∨ l = "ml_g_du_z0" ∨ l = "ml_g_du_z1" ∨ l = "ml_m_d_z0" ∨ l = "ml_m_d_z1" := by
    simpa [lpqNames] using hl
  have hg : given (c.extOf l) = fun i => some (e i) := by
    funext i
    unfold given
    rw [hle]
    rfl
  rcases hl' with rfl | rfl | rfl | rfl | rfl
  all_goals
    rw [← hg]
    rfl

/-- **C28, LPQ.** If all five predictions are supplied, the learners are not used. -/
theorem C28_lpq_learner_unused {k : LpqClass n P} {c : CellIn n P} (he : LpqAllExternal c) (g m : Learner P (List Cell)) :
    (lpqSpec { k with ml_g := g, ml_m := m }).est c = (lpqSpec k).est c := by
  have hall := (lpqAll_iff c).2 he
  show lpqEst { k with ml_g := g, ml_m := m } c = lpqEst k c
  unfold lpqEst lpqNuisance
  simp only [if_pos hall]
  rfl

/-- **C28, LPQ (violation).** Otherwise none of the supplied predictions is used. -/
theorem C28_lpq_class_ignored {k : LpqClass n P} {c : CellIn n P} (he : ¬ LpqAllExternal c) :
    (lpqSpec k).est c = (lpqSpec k).est { c with ext := [] } := by
  have h1 : ¬ (lpqEntries c.extOf).all = true := fun h => he ((lpqAll_iff c).1 h)
  have h2 : ¬ (lpqEntries ({ c with ext := [] } : CellIn n P).extOf).all = true := by
    intro h
    cases h
  show lpqEst k c = lpqEst k { c with ext := [] }
  unfold lpqEst lpqNuisance
  simp only [if_neg h1, if_neg h2]
  rfl

/-- **C57, SSM (missing at random), outcome model a regressor.** The outcomes of unselected observations have no effect on
predictions, estimate, standard error and scores. -/
theorem C57_unselected {k : SsmClass n P} (hg : k.gClassifier = false) {c : CellIn n P} (hS : SplitOk c.smpls)
    {s : Fin n → ℝ} (hs : c.sel = .ok s) {yv : Fin n → Cell} (hy : ∀ i, s i ≠ 0 → yv i = c.data.yv i) {b : Bool} {o o' : LinOut n P}
    (h : (ssmSpec k).est c = .ok o) (h' : (ssmSpec k).est (c.withOut yv b) = .ok o') : o'.fit = o.fit ∧ o'.preds = o.preds := by
  have hfit : ∀ {c : CellIn n P} {o : LinOut n P}, ssmEst k c = .ok o → ∃ s pi m g1 g0, c.sel = .ok s ∧
      crossFit k.ml_pi .proba c "ml_pi" c.xd s c.smpls = .ok pi ∧
      crossFit k.ml_m .proba c "ml_m" (rowX c.data) c.d c.smpls = .ok m ∧
      crossFit k.ml_g (methodOf k.gClassifier) c "ml_g_d1" (rowX c.data) c.y
        (condSmpls (fun i => c.d i = 1 ∧ s i = 1) c.smpls) = .ok g1 ∧
      crossFit k.ml_g (methodOf k.gClassifier) c "ml_g_d0" (rowX c.data) c.y
        (condSmpls (fun i => c.d i = 0 ∧ s i = 1) c.smpls) = .ok g0 ∧
      o.fit = (ssmElems k.normalize (c.dIs 1) (c.dIs 0) g1.vec g0.vec pi.vec (trimRes k.trimT m).vec s c.y).fit c.cluster ∧
      o.preds = [("ml_g_d0", g0.preds), ("ml_g_d1", g1.preds), ("ml_pi", pi.preds), ("ml_m", (trimRes k.trimT m).preds)] := by
    intro c o h
    obtain ⟨s, h0, h⟩ := bind_ok h
    obtain ⟨pi, h1, h⟩ := bind_ok h
    obtain ⟨m, h2, h⟩ := bind_ok h
    obtain ⟨g1, h3, h⟩ := bind_ok h
    obtain ⟨g0, h4, h⟩ := bind_ok h
    obtain ⟨_, h5, h⟩ := bind_ok h
    obtain rfl := Except.ok.inj h
    exact ⟨s, pi, m, g1, g0, h0, ssmPart_ok h1, ssmPart_ok h2, ssmPart_ok h3, ssmPart_ok h4, rfl, rfl⟩
  obtain ⟨t, pi, m, g1, g0, e0, e1, e2, e3, e4, e5, e6⟩ := hfit h
  obtain ⟨t', pi', m', g1', g0', e0', e1', e2', e3', e4', e5', e6'⟩ := hfit h'
  obtain rfl : t = s := Except.ok.inj (e0.symm.trans hs)
  obtain rfl : t' = t := Except.ok.inj (e0'.symm.trans (show (c.withOut yv b).sel = .ok t from hs))
  obtain rfl : pi' = pi := Except.ok.inj (e1'.symm.trans e1)
  obtain rfl : m' = m := Except.ok.inj (e2'.symm.trans e2)
  have hyv : ∀ i, t' i ≠ 0 → (c.withOut yv b).y i = c.y i := by
    intro i hi
    show (yv i).val = (c.data.yv i).val
    rw [hy i hi]
  have hpred : ∀ {v : ℝ} {l : String} {g g' : CvRes n P (List Cell)},
      crossFit k.ml_g (methodOf k.gClassifier) c l (rowX c.data) c.y
        (condSmpls (fun i => c.d i = v ∧ t' i = 1) c.smpls) = .ok g →
      crossFit k.ml_g (methodOf k.gClassifier) (c.withOut yv b) l (rowX c.data) (c.withOut yv b).y
        (condSmpls (fun i => c.d i = v ∧ t' i = 1) c.smpls) = .ok g' → g'.preds = g.preds := by
    intro v l g g' hh hh'
    rw [hg] at hh hh'
    funext i
    obtain ⟨q, hq, -⟩ := C26_complete hS.partition i
    have r1 := crossFit_cond (c := c) hS hh q.val q.isLt i hq (fun hc => by cases hc)
    have r2 := crossFit_cond (c := c.withOut yv b) hS hh' q.val q.isLt i hq (fun hc => by cases hc)
    rw [r1, r2]
    refine congrArg (fun D => (k.ml_g.answer .predict ((c.paramsOf l).at q.val) D (rowX c.data i)).map id) ?_
    refine List.map_congr_left fun j hj => ?_
    have hj := (of_decide_eq_true (List.mem_filter.1 hj).2).2
    rw [hyv j (by rw [hj]; exact one_ne_zero)]
  have q1 := hpred e3 e3'
  have q0 := hpred e4 e4'
  refine ⟨?_, by rw [e6, e6', q1, q0]⟩
  rw [e5, e5']
  have v1 : g1'.vec = g1.vec := by unfold CvRes.vec; rw [q1]
  have v0 : g0'.vec = g0.vec := by unfold CvRes.vec; rw [q0]
  rw [v1, v0]
  exact congrArg (fun e : PsiElems n => e.fit c.cluster)
    (C57_unselected_irrelevant k.normalize (c.dIs 1) (c.dIs 0) g1.vec g0.vec pi'.vec (trimRes k.trimT m').vec t' (c.withOut yv b).y c.y hyv)

/-! ## C63: the fits that do not succeed -/

/-- PQ: a request to store the models together with any external prediction makes the fit fail. -/
theorem pq_models_fail {F : Frame n} {k : PqClass n P} {s : LinState n P} {a : FitArgs} {p : Bool}
    (hp : a.storePredictions = .bool p) (hm : a.storeModels = .bool true) {j q : ℕ} (hj : j < s.data.d.length) (hq : q < s.nRep)
    {l : String} (hl : l ∈ ["ml_g", "ml_m"]) {r t : ℕ} {A : ℕ → ℕ → ℝ}
    (hsup : a.ext.supplied s.data.d[j] l = some (.arr2 r t A)) : (fit F (pqSpec k) s a).2 ≠ .ok () := by
  intro h
  obtain ⟨c, o, ls, hc, hw, ho, -⟩ := fit_cells h hp hm hj hq
  have ht : c.treat = s.data.d[j] := by
    have := hc.treat
    rw [List.getElem?_eq_getElem hj] at this
    exact (Option.some.inj this).symm
  have he : c.extOf l = some fun i : Fin n => A i q := supplied_ext hc.ext hl (by rw [ht]; exact hsup)
  obtain ⟨r, h1, -⟩ := pqEst_ok ho
  have hany : ((c.extOf "ml_g").isSome || (c.extOf "ml_m").isSome) = true := by
    have hl' : l = "ml_g" ∨ l = "ml_m" := by simpa using hl
    rcases hl' with rfl | rfl
    · rw [he]; rfl
    · rw [he]; simp
  unfold quantNuisance at h1
  obtain ⟨rs, -, h1⟩ := bind_ok h1
  rw [if_pos (by rw [hw, hany]; rfl)] at h1
  cases h1

/-- LPQ: a request to store the models together with a complete set of external predictions makes the fit fail. -/
theorem lpq_models_fail {F : Frame n} {k : LpqClass n P} {s : LinState n P} {a : FitArgs} {p : Bool}
    (hp : a.storePredictions = .bool p) (hm : a.storeModels = .bool true) {j q : ℕ} (hj : j < s.data.d.length) (hq : q < s.nRep)
    (hsup : ∀ l ∈ lpqNames, ∃ r t A, a.ext.supplied s.data.d[j] l = some (.arr2 r t A)) : (fit F (lpqSpec k) s a).2 ≠ .ok () := by
  intro h
  obtain ⟨c, o, ls, hc, hw, ho, -⟩ := fit_cells h hp hm hj hq
  have ht : c.treat = s.data.d[j] := by
    have := hc.treat
    rw [List.getElem?_eq_getElem hj] at this
    exact (Option.some.inj this).symm
  have hall : LpqAllExternal c := by
    intro l hl
    obtain ⟨r, t, A, hs⟩ := hsup l hl
    have he : c.extOf l = some fun i : Fin n => A i q :=
      supplied_ext hc.ext (show l ∈ (lpqSpec k).learners from hl) (by rw [ht]; exact hs)
    rw [he]
    rfl
  obtain ⟨z, r, -, h1, -⟩ := lpqEst_ok ho
  unfold lpqNuisance at h1
  rw [if_pos ((lpqAll_iff c).2 hall), if_pos hw] at h1
  cases h1

/-! ### A concrete object -/

/-- Twelve observations with outcome, treatment, instrument and selection indicator. -/
noncomputable def exData12 (y d z : Fin 12 → ℝ) : DataState 12 :=
  { y := "y", d := ["d"], x := ["x"], z := some ["z"], t := none, s := some "s", cluster := none, useOther := true, force := .yes
    yv := fun i => .num (y i)
    zv := some [fun i => .num (z i)]
    tv := none
    sv := some fun i => .num (z i)
    dv := fun i => .num (d i)
    xv := [fun _ => .num 0]
    cv := []
    binTreats := [("d", true)]
    binOut := false }

/-- The random draws, which are not used. -/
def exDraw12 : Draws 12 := ⟨fun _ => 1, fun _ _ => 0, fun _ _ _ => 1⟩

/-- An object with an explicitly set split, after a first fit. -/
theorem exReached12 {P : Type} (E : Ext) (F : Frame 12) {sp : LinSpec 12 P} (hv : sp.vars = none) (y d z : Fin 12 → ℝ) (start : ℝ) :
    ∃ s₀ s, initModel sp (exData12 y d z) start (.int 2) (.int 1) (.bool false) exDraw12 = .ok s₀ ∧
      setSampleSplitting sp s₀ pqSplit none = (s, .ok ()) ∧ Reached E F sp (exData12 y d z) "d" s ∧
      s.smpls = some [[exF0, exF1]] ∧ s.nRep = 1 ∧ s.start = start ∧ s.data = exData12 y d z ∧
      (∀ l ∈ sp.learners, s.params l "d" = some [none]) ∧ Shaped s := by
  have h : checkClusterVars sp (exData12 y d z) = .ok () := by
    unfold checkClusterVars
    rw [hv]
    rfl
  obtain ⟨s₀, h0, hd, hst⟩ : ∃ s₀, initModel sp (exData12 y d z) start (.int 2) (.int 1) (.bool false) exDraw12 = .ok s₀ ∧
      s₀.data = exData12 y d z ∧ s₀.start = start := by
    refine ⟨_, by unfold initModel; rw [h]; rfl, rfl, rfl⟩
  have hss : setSampleSplitting sp s₀ pqSplit none = (initArrays { s₀ with
      smpls := some [[exF0, exF1]]
      smplsCluster := none
      nRep := 1
      nFolds := 2
      params := initParams sp.learners s₀.data.d 1 }, .ok ()) := by
    unfold setSampleSplitting
    rw [pqSplit_check]
    have hcc : checkedCluster sp s₀ none 1 2 = .ok none := by
      unfold checkedCluster
      simp only [hv]
    simp only [hcc]
    rfl
  have hr : Reached E F sp (exData12 y d z) "d" (setSampleSplitting sp s₀ pqSplit none).1 :=
    ⟨rfl, start, .int 2, .int 1, .bool false, exDraw12, s₀, [.setSplit pqSplit none], h0, fun K hK r i => by
      obtain rfl : 2 = K := Option.some.inj hK
      exact (by decide : ((0 : ℕ) : ℤ) < 2), ⟨trivial, trivial⟩, rfl⟩
  rw [hss] at hr
  refine ⟨s₀, _, h0, hss, hr, rfl, rfl, hst, hd, ?_, initArrays_shaped one_pos⟩
  intro l hl
  show initParams sp.learners s₀.data.d 1 l "d" = _
  unfold initParams
  rw [if_pos ⟨hl, by rw [hd]; simp [exData12]⟩]
  rfl

theorem exHalves12 (strata : Fin 12 → ℝ) : ∀ S ∈ [[exF0, exF1]], HalvesReady (exNested 12) S strata exD := by
  intro S hS f hf
  rw [List.mem_singleton.1 hS] at hf
  have h0 : sub [6, 7, 8] exD = ![1, 0, 0] := by funext i; fin_cases i <;> rfl
  have h1 : sub [0, 1, 2] exD = ![1, 0, 0] := by funext i; fin_cases i <;> rfl
  have key : ∀ (l : List (Fin 12)) (hl : l.length = 3), (∃ i, sub l exD i = 0) → (∃ i, sub l exD i = 1) →
      ∀ g ∈ [(⟨List.finRange l.length, List.finRange l.length⟩ : Fold l.length)], g.train.Nodup ∧ BothClasses (sub l exD) g := by
    rintro l - ⟨i, hi⟩ ⟨j, hj⟩ g hg
    rw [List.mem_singleton.1 hg]
    exact ⟨List.nodup_finRange _, ⟨i, List.mem_finRange _, hi⟩, ⟨j, List.mem_finRange _, hj⟩⟩
  rcases List.mem_cons.1 hf with rfl | hf
  · refine ⟨[6, 7, 8], [9, 10, 11], _, rfl, rfl, by simp, key [6, 7, 8] rfl ⟨1, ?_⟩ ⟨0, ?_⟩⟩
    · rw [h0]; rfl
    · rw [h0]; rfl
  · rw [List.mem_singleton.1 hf]
    refine ⟨[0, 1, 2], [3, 4, 5], _, rfl, rfl, by simp, key [0, 1, 2] rfl ⟨1, ?_⟩ ⟨0, ?_⟩⟩
    · rw [h1]; rfl
    · rw [h1]; rfl

theorem exD_binary : BinaryTarget exD := by
  refine ⟨?_, ⟨1, rfl⟩, ⟨0, rfl⟩⟩
  intro i
  fin_cases i <;> first | exact Or.inl rfl | exact Or.inr rfl

/-- PQ and CVaR for the examples; any root finder, any density estimate. -/
noncomputable def exPq12 (R : RootExt) (kde : (Fin 12 → ℝ) → (Fin 12 → ℝ) → ℝ) : PqClass 12 ℕ :=
  { ml_g := exMeanL
    ml_m := exMeanL
    treatment := 1
    q := 1 / 2
    trimT := 1 / 100
    normalize := true
    lo := -5
    hi := 5
    nested := exNested 12
    root := R
    kde := kde }

/-- LPQ for the examples. -/
noncomputable def exLpq12 (R : RootExt) (kde : (Fin 12 → ℝ) → (Fin 12 → ℝ) → ℝ) : LpqClass 12 ℕ :=
  { ml_g := exMeanL
    ml_m := exMeanL
    treatment := 1
    q := 1 / 2
    trimT := 1 / 100
    normalize := true
    lo := -5
    hi := 5
    nested := exNested 12
    root := R
    kde := kde }

/-- SSM with nonignorable nonresponse for the examples. -/
noncomputable def exSsm12 : SsmNonClass 12 ℕ :=
  { ml_g := exMeanL
    ml_pi := exMeanL
    ml_m := exMeanL
    gClassifier := false
    normalize := true
    trimT := 1 / 100
    nested := exNested 12 }

/-- External predictions for some learners. -/
def exExt12 (ls : List String) : ExtArg := .dict [("d", .dict (ls.map fun l => (l, .arr2 12 1 fun i _ => i)))]

theorem exArgs12 {sp : LinSpec 12 ℕ} (hx : sp.extImpl = true) {ls : List String} (hl : ∀ l ∈ ls, l ∈ sp.learners) (b : Bool) :
    ValidArgs sp "d" 1 { ext := exExt12 ls, storeModels := .bool b } := by
  refine ⟨.inl rfl, ⟨true, rfl⟩, ⟨b, rfl⟩, .inr ⟨hx, ?_, ?_⟩⟩
  · intro t v htv
    obtain ⟨rfl, rfl⟩ : t = "d" ∧ v = .dict (ls.map fun l => (l, .arr2 12 1 fun i _ => i)) := by simpa using htv
    refine ⟨by simp, _, rfl, fun l' w hw => ?_⟩
    obtain ⟨l, hll, he⟩ := List.mem_map.1 hw
    obtain ⟨rfl, rfl⟩ := Prod.mk.inj he
    exact ⟨hl _ hll, _, rfl⟩
  · exact ⟨_, rfl⟩

/-- **C63 (PQ, violated).** All requirements of `C63_pq` on data, learners, split and arguments are met, the fit succeeds
with stored models and without external predictions, and with external predictions and without stored models; with both
it fails. -/
theorem C63_pq_violated (E : Ext) (F : Frame 12) (R : RootExt) (kde : (Fin 12 → ℝ) → (Fin 12 → ℝ) → ℝ) (y : Fin 12 → ℝ) :
    ∃ s : LinState 12 ℕ, Reached E F (pqSpec (exPq12 R kde)) (exData12 y exD exD) "d" s ∧
      (fit F (pqSpec (exPq12 R kde)) s { storeModels := .bool true }).2 = .ok () ∧
      (fit F (pqSpec (exPq12 R kde)) s { ext := exExt12 ["ml_m"] }).2 = .ok () ∧
      ValidArgs (pqSpec (exPq12 R kde)) "d" s.nRep { ext := exExt12 ["ml_m"], storeModels := .bool true } ∧
      (fit F (pqSpec (exPq12 R kde)) s { ext := exExt12 ["ml_m"], storeModels := .bool true }).2 ≠ .ok () := by
  obtain ⟨s₀, s, -, -, h1, h2, h3, -, h4, -⟩ := exReached12 E F (sp := pqSpec (exPq12 R kde)) rfl y exD exD 0
  have hd : nums (exData12 y exD exD).dv = exD := rfl
  have hfit : ∀ a, ValidArgs (pqSpec (exPq12 R kde)) "d" 1 a → (a.storeModels = .bool false ∨ a.ext = .none) →
      (fit F (pqSpec (exPq12 R kde)) s a).2 = .ok () := fun a ha hx =>
    C63_pq (D := exData12 y exD exD) rfl (exNested_ok 12) exMeanL_compliant exD_binary h1 h2 (exHalves12 exD) (by rw [h3]; exact ha) hx
  refine ⟨s, h1, hfit _ ⟨.inl rfl, ⟨true, rfl⟩, ⟨true, rfl⟩, .inl rfl⟩ (.inr rfl), hfit _ (exArgs12 rfl (by simp [pqSpec]) false) (.inl rfl),
    by rw [h3]; exact exArgs12 rfl (by simp [pqSpec]) true, ?_⟩
  refine pq_models_fail (p := true) rfl rfl (j := 0) (q := 0) (by rw [h4]; exact one_pos) (by rw [h3]; exact one_pos) (l := "ml_m")
    (by simp) (r := 12) (t := 1) (A := fun i _ => i) ?_
  simp only [h4]
  rfl

/-- **C63 (LPQ, violated).** -/
theorem C63_lpq_violated (E : Ext) (F : Frame 12) (R : RootExt) (kde : (Fin 12 → ℝ) → (Fin 12 → ℝ) → ℝ) (y d : Fin 12 → ℝ) :
    ∃ s : LinState 12 ℕ, Reached E F (lpqSpec (exLpq12 R kde)) (exData12 y d exD) "d" s ∧
      (fit F (lpqSpec (exLpq12 R kde)) s { storeModels := .bool true }).2 = .ok () ∧
      (fit F (lpqSpec (exLpq12 R kde)) s { ext := exExt12 lpqNames }).2 = .ok () ∧
      ValidArgs (lpqSpec (exLpq12 R kde)) "d" s.nRep { ext := exExt12 lpqNames, storeModels := .bool true } ∧
      (fit F (lpqSpec (exLpq12 R kde)) s { ext := exExt12 lpqNames, storeModels := .bool true }).2 ≠ .ok () := by
  obtain ⟨s₀, s, -, -, h1, h2, h3, -, h4, -⟩ := exReached12 E F (sp := lpqSpec (exLpq12 R kde)) rfl y d exD 0
  have hfit : ∀ a, ValidArgs (lpqSpec (exLpq12 R kde)) "d" 1 a → (a.storeModels = .bool false ∨ a.ext = .none) →
      (fit F (lpqSpec (exLpq12 R kde)) s a).2 = .ok () := fun a ha hx =>
    C63_lpq (D := exData12 y d exD) (zc := fun i => .num (exD i)) rfl (exNested_ok 12) exMeanL_compliant rfl exD_binary h1 h2
      (exHalves12 _) (by rw [h3]; exact ha) hx
  refine ⟨s, h1, hfit _ ⟨.inl rfl, ⟨true, rfl⟩, ⟨true, rfl⟩, .inl rfl⟩ (.inr rfl), hfit _ (exArgs12 rfl (fun _ h => h) false) (.inl rfl),
    by rw [h3]; exact exArgs12 rfl (fun _ h => h) true, ?_⟩
  refine lpq_models_fail (p := true) rfl rfl (j := 0) (q := 0) (by rw [h4]; exact one_pos) (by rw [h3]; exact one_pos) ?_
  intro l hl
  refine ⟨12, 1, fun i _ => i, ?_⟩
  simp only [h4]
  have hl' : l = "ml_m_z" ∨ l = "ml_g_du_z0" ∨ l = "ml_g_du_z1" ∨ l = "ml_m_d_z0" ∨ l = "ml_m_d_z1" := by
    simpa [lpqNames] using hl
  rcases hl' with rfl | rfl | rfl | rfl | rfl <;> rfl

/-- The hypotheses of `C63_cvar` and `C63_ssm_nonignorable` are met. -/
example (E : Ext) (F : Frame 12) (R : RootExt) (kde : (Fin 12 → ℝ) → (Fin 12 → ℝ) → ℝ) (y : Fin 12 → ℝ) :
    (∃ s : LinState 12 ℕ, Reached E F (cvarSpec (exPq12 R kde)) (exData12 y exD exD) "d" s ∧
      (fit F (cvarSpec (exPq12 R kde)) s {}).2 = .ok ()) ∧
    ∃ s : LinState 12 ℕ, Reached E F (ssmNonSpec exSsm12) (exData12 y exD exD) "d" s ∧ (fit F (ssmNonSpec exSsm12) s {}).2 = .ok () := by
  constructor
  · obtain ⟨s₀, s, -, -, h1, h2, h3, -⟩ := exReached12 E F (sp := cvarSpec (exPq12 R kde)) rfl y exD exD 0
    exact ⟨s, h1, C63_cvar (D := exData12 y exD exD) rfl (exNested_ok 12) exMeanL_compliant exD_binary h1 h2 (exHalves12 exD)
      ⟨.inl rfl, ⟨true, rfl⟩, ⟨false, rfl⟩, .inl rfl⟩⟩
  · obtain ⟨s₀, s, -, -, h1, h2, h3, -⟩ := exReached12 E F (sp := ssmNonSpec exSsm12) rfl y exD exD 0
    exact ⟨s, h1, C63_ssm_nonignorable (D := exData12 y exD exD) (zs := [fun i => .num (exD i)]) (sel := fun i => .num (exD i)) rfl rfl rfl
      h1 h2 (fun _ _ _ _ => ⟨_, rfl⟩) ⟨.inl rfl, ⟨true, rfl⟩, ⟨false, rfl⟩, .inl rfl⟩⟩

/-! ## C29: LPQ overwrites its start value -/

/-- A successful fit with one treatment and one repetition: the cell, and what is left behind. -/
theorem single_fit_inv {F : Frame n} {sp : LinSpec n P} {s : LinState n P} {a : FitArgs} {p m : Bool} (hp : a.storePredictions = .bool p)
    (hm : a.storeModels = .bool m) {tv : String} (hd : s.data.d = [tv]) (hr : s.nRep = 1) (h : (fit F sp s a).2 = .ok ()) :
    ∃ c o, cellIn sp (initFit sp s p m) a.ext m tv 0 = .ok c ∧ sp.est c = .ok o ∧ (fit F sp s a).1.start = o.start ∧
      (p = true → (fit F sp s a).1.preds.map (fun f => f 0 0) = some (some (o.preds, o.targets))) := by
  obtain ⟨p', m', fw, h1, h2, h3, h4⟩ := fit_ok h
  obtain ⟨hp', hm'⟩ := checkFit_ok h1
  rw [hp] at hp'; rw [hm] at hm'
  cases hp'; cases hm'
  have hlen : s.data.d.length = 1 := by rw [hd]; rfl
  have hco : cellOrder s.nRep s.data.d.length = [(0, 0)] := by rw [hr, hlen]; rfl
  have hact : activate F (initFit sp s p m).data 0 = .ok s.data := by
    show activate F s.data 0 = _
    unfold activate
    rw [hd]
    show (if [tv].length > 1 then setXD F s.data tv else .ok s.data) = _
    rw [if_neg (by simp)]
  have h0 : s.data.d.getD 0 "" = tv := by rw [hd]; rfl
  rw [hco] at h2 h4
  have hcell : ∃ c o, cellIn sp (initFit sp s p m) a.ext m tv 0 = .ok c ∧ sp.est c = .ok o ∧
      fitCell F sp a.ext p m (initFit sp s p m) (0, 0) = storeCell sp p m { initFit sp s p m with start := o.start } 0 0 o := by
    unfold fitLoop fitCell at h2
    unfold fitCell
    dsimp only at h2 ⊢
    rw [hact] at h2 ⊢
    dsimp only at h2 ⊢
    rw [h0] at h2 ⊢
    cases hin : cellIn sp { initFit sp s p m with data := s.data } a.ext m tv 0 with
    | error e => rw [hin] at h2; cases h2
    | ok c =>
      rw [hin] at h2
      have hin' : cellIn sp (initFit sp s p m) a.ext m tv 0 = .ok c := hin
      cases he : sp.est c with
      | error e =>
        have hb : (Except.ok c : Except Exc _).bind sp.est = .error e := he
        rw [hb] at h2
        cases h2
      | ok o =>
        refine ⟨c, o, hin', he, ?_⟩
        have hb : (Except.ok c : Except Exc _).bind sp.est = .ok o := he
        rw [hb]
        rfl
  obtain ⟨c, o, hin, he, hcell⟩ := hcell
  refine ⟨c, o, hin, he, ?_⟩
  have hst : ∃ l, storeCell sp p m { initFit sp s p m with start := o.start } 0 0 o =
      (writeCell sp p m { initFit sp s p m with start := o.start } 0 0 o l, .ok ()) := by
    unfold fitLoop at h2
    rw [hcell] at h2
    unfold storeCell at h2 ⊢
    split_ifs at h2 ⊢ with hif
    · cases hl : calcLoss sp o.preds o.targets with
      | error e => rw [hl] at h2; cases h2
      | ok l => exact ⟨l, rfl⟩
  obtain ⟨l, hst⟩ := hst
  have hloop : fitLoop F sp a.ext p m (initFit sp s p m) [(0, 0)] =
      (writeCell sp p m { initFit sp s p m with start := o.start } 0 0 o l, .ok ()) := by
    simp only [fitLoop, hcell, hst]
  rw [hloop] at h4
  constructor
  · rw [h4]; rfl
  · rintro rfl
    rw [h4]
    simp [aggregate, writeCell, initFit, set2]

/-- The score of the preliminary estimate if nobody in the first half has the treatment: no sign change, the search ends
at the left end of the widest bracket. -/
theorem lpqPrelim_untreated {K : LpqLearners P X} {c : QuantSet} {D : ObsZ n X} {nFolds : ℕ} {p : LpqParams P} {h₁ : List (Fin n)}
    (hd : ∀ i ∈ h₁, D.d i ≠ c.treatment) {v : ℝ} (h : lpqPrelim (exNested n) K c D nFolds p h₁ = .ok v) :
    v = (bracketAt c.start c.lo c.hi 10).1 := by
  unfold lpqPrelim at h
  obtain ⟨s, -, h⟩ := bind_ok h
  obtain ⟨mp, -, h⟩ := bind_ok h
  have h := Except.ok.inj h
  have hsc : ∀ m comp theta, lpqIpwMean c (sub h₁ D.d) (sub h₁ D.y) (sub h₁ D.z) m comp theta =
      lpqIpwMean c (sub h₁ D.d) (sub h₁ D.y) (sub h₁ D.z) m comp 0 := by
    intro m comp theta
    unfold lpqIpwMean lpqIpwScore
    have h0 : ∀ i, indEq (sub h₁ D.d i) c.treatment = 0 := by
      intro i
      exact if_neg (hd _ (List.get_mem h₁ i))
    simp [h0]
  rw [← h]
  clear h
  unfold solveIpw
  rcases C43_bracket_search (lpqIpwMean c (sub h₁ D.d) (sub h₁ D.y) (sub h₁ D.z) (adjust c.normalize (fun j => trim c.trimT (mp j)) (sub h₁ D.z))
      (compProb (sub h₁ D.z) (sub h₁ D.d) (adjust c.normalize (fun j => trim c.trimT (mp j)) (sub h₁ D.z))
        (fun i : Fin h₁.length => zeroOne K.mdz0 ⟨p.mdz0, dataAt D 0 D.d h₁⟩ (sub h₁ D.x i))
        (fun i : Fin h₁.length => zeroOne K.mdz1 ⟨p.mdz1, dataAt D 1 D.d h₁⟩ (sub h₁ D.x i)))) c.start c.lo c.hi with ⟨m, -, -, hm, -⟩ | ⟨-, hb⟩
  · exact absurd (by rw [hsc, hsc _ _ (bracketAt _ _ _ _).2]) hm
  · rw [hb]
    show (if _ ≤ _ then _ else _) = _
    refine if_pos ?_
    dsimp only
    rw [hsc, hsc _ _ (bracketAt _ _ _ _).2]

theorem PlainHistory.snoc {M : Type} {E : Ext} {F : Frame n} {sp : Spec n P M} {o : MOp n P} : ∀ {os : List (MOp n P)} {s : MState n P M},
    PlainHistory E F sp s os → PlainOp (mrun E F sp s os) o → PlainHistory E F sp s (os ++ [o])
  | [], _, _, h => ⟨h, trivial⟩
  | _ :: _, _, h1, h => ⟨h1.1, h1.2.snoc h⟩

theorem mrun_snoc {M : Type} {E : Ext} {F : Frame n} {sp : Spec n P M} {o : MOp n P} : ∀ (os : List (MOp n P)) (s : MState n P M),
    mrun E F sp s (os ++ [o]) = (mstep E F sp (mrun E F sp s os) o).1
  | [], _ => rfl
  | _ :: os, _ => mrun_snoc os _

/-- Another fit leads to a reached state again. -/
theorem Reached.fit {E : Ext} {F : Frame n} {sp : LinSpec n P} {D : DataState n} {tv : String} {s : LinState n P}
    (h : Reached E F sp D tv s) (a : FitArgs) : Reached E F sp D tv (DML.fit F sp s a).1 := by
  obtain ⟨hd, start, nf, nr, dr, w, s₀, os, h1, h2, h3, rfl⟩ := h
  refine ⟨hd, start, nf, nr, dr, w, s₀, os ++ [.fit a], h1, h2, h3.snoc (o := .fit a) trivial, ?_⟩
  rw [mrun_snoc]
  rfl

/-- Outcomes. -/
noncomputable def lpqY : Fin 12 → ℝ := ![0, 0, 0, 0, 0, -5, 0, 0, 0, -3, 5, 0]

/-- Treatments. -/
noncomputable def lpqD : Fin 12 → ℝ := ![0, 0, 0, 0, 0, 0, 0, 0, 0, 1, 1, 0]

/-- The class of the example: quantile 9/10 for treatment 1, bounds as set by the constructor. -/
noncomputable def lpqClassY (R : RootExt) (kde : (Fin 12 → ℝ) → (Fin 12 → ℝ) → ℝ) : LpqClass 12 ℕ :=
  { exLpq12 R kde with
    q := 9 / 10
    lo := (coefBounds lpqY).1
    hi := (coefBounds lpqY).2 }

theorem lpqY_bounds : coefBounds lpqY = (-5, 5) := by
  have h1 : ∀ i, -5 ≤ lpqY i ∧ lpqY i ≤ 5 := by
    intro i
    fin_cases i <;> norm_num [lpqY]
  unfold coefBounds
  have hb : BddBelow (Set.range lpqY) := ⟨-5, by rintro _ ⟨i, rfl⟩; exact (h1 i).1⟩
  have ha : BddAbove (Set.range lpqY) := ⟨5, by rintro _ ⟨i, rfl⟩; exact (h1 i).2⟩
  refine Prod.ext ?_ ?_
  · exact le_antisymm (ciInf_le hb (5 : Fin 12)) (le_ciInf fun i => (h1 i).1)
  · exact le_antisymm (ciSup_le fun i => (h1 i).2) (le_ciSup ha (10 : Fin 12))

theorem lpqY_start : pqStart lpqY lpqD 1 (9 / 10) = 21 / 5 := by
  have ht : treatedY lpqY lpqD 1 = [-3, 5] := by
    have h : (List.finRange 12) = [0, 1, 2, 3, 4, 5, 6, 7, 8, 9, 10, 11] := by decide
    unfold treatedY
    rw [h]
    simp [lpqY, lpqD]
  have hmono : Monotone ((fun i : Fin 2 => ([-3, 5] : List ℝ).get i) ∘ (1 : Equiv.Perm (Fin 2))) := by
    intro i j hij
    fin_cases i <;> fin_cases j <;> norm_num at *
  have hk := kth_eq_of_monotone (f := fun i : Fin 2 => ([-3, 5] : List ℝ).get i) (σ := 1) hmono
  have k2 : kth (fun i : Fin 2 => ([-3, 5] : List ℝ).get i) ⟨0, by norm_num⟩ = -3 := by
    rw [hk]
    rfl
  have k3 : kth (fun i : Fin 2 => ([-3, 5] : List ℝ).get i) ⟨1, by norm_num⟩ = 5 := by
    rw [hk]
    rfl
  unfold pqStart
  rw [ht]
  unfold quantileOf
  show quantile (fun i : Fin 2 => ([-3, 5] : List ℝ).get i) (9 / 10) = _
  have hfl : ⌊(9 / 10 : ℝ) * (((2 : ℕ) : ℝ) - 1)⌋₊ = 0 := by
    rw [Nat.floor_eq_iff (by norm_num)]
    constructor <;> norm_num
  clear hk hmono ht
  generalize (fun i : Fin 2 => ([-3, 5] : List ℝ).get i) = v at *
  unfold quantile
  rw [dif_pos (by norm_num)]
  simp only [hfl]
  have k2' : kth v 0 = -3 := k2
  have k3' : kth v 1 = 5 := k3
  norm_num [k2', k3']

theorem exMeanL_single (p : Option ℕ) (x x' : List Cell) (v : ℝ) : zeroOne exMeanL ⟨p, [(x', v)]⟩ x = v := by
  unfold zeroOne exMeanL classesOf
  simp

/-- The preliminary estimate of both folds. -/
noncomputable def lpqLeft (start : ℝ) : ℝ := max (start - 5) (-5)

theorem lpqLeft_eq (start : ℝ) : (bracketAt start (-5) 5 10).1 = lpqLeft start := by
  unfold bracketAt lpqLeft
  norm_num

theorem forall₂_right {A B : Type} {R : A → B → Prop} {l : List A} {q : List B} (h : List.Forall₂ R l q) {b : B} (hb : b ∈ q) :
    ∃ a ∈ l, R a b := by
  induction h with
  | nil => cases hb
  | cons hab _ ih =>
    rcases List.mem_cons.1 hb with rfl | hb
    · exact ⟨_, List.mem_cons_self, hab⟩
    · obtain ⟨a, ha, hr⟩ := ih hb
      exact ⟨a, List.mem_cons_of_mem _ ha, hr⟩

theorem lpqY_run {R : RootExt} {kde : (Fin 12 → ℝ) → (Fin 12 → ℝ) → ℝ} {F : Frame 12} {s : LinState 12 ℕ}
    (h : (fit F (lpqSpec (lpqClassY R kde)) s {}).2 = .ok ()) (hd : s.data = exData12 lpqY lpqD exD)
    (hs : s.smpls = some [[exF0, exF1]]) (hr : s.nRep = 1) :
    predAt (fit F (lpqSpec (lpqClassY R kde)) s {}).1 0 0 "ml_g_du_z1" 4 = some (indLe (-3) (lpqLeft s.start)) ∧
      (fit F (lpqSpec (lpqClassY R kde)) s {}).1.start = lpqLeft s.start := by
  obtain ⟨c, o, hin, ho, hst, hpr⟩ := single_fit_inv (p := true) (m := false) rfl rfl (tv := "d") (by rw [hd]; rfl) hr h
  obtain ⟨f, cl, p, e, he, hf, -, -, rfl⟩ := cellIn_ok hin
  obtain rfl : f = [exF0, exF1] := by
    obtain ⟨l, h1, h2⟩ := repSmpls_ok hf
    have h1 : s.smpls = some l := h1
    rw [hs] at h1
    obtain rfl := Option.some.inj h1
    exact (Option.some.inj h2).symm
  have hdat : (initFit (lpqSpec (lpqClassY R kde)) s true false).data = exData12 lpqY lpqD exD := hd
  have hsta : (initFit (lpqSpec (lpqClassY R kde)) s true false).start = s.start := rfl
  rw [hdat, hsta] at ho
  obtain ⟨z, r, hz, h1, -, hp, -, hos⟩ := lpqEst_ok ho
  obtain rfl : exD = z := Except.ok.inj hz
  unfold lpqNuisance at h1
  rw [if_neg] at h1
  swap
  · have : e = lpqNames.map fun l => (l, none) := by
      have := Except.ok.inj he
      rw [← this]
      rfl
    rw [this]
    intro hc
    cases hc
  unfold lpqEstimate at h1
  obtain ⟨rs, h2, h1⟩ := bind_ok h1
  have h1 := Except.ok.inj h1
  have hleft : (bracketAt s.start (coefBounds lpqY).1 (coefBounds lpqY).2 10).1 = lpqLeft s.start := by
    rw [lpqY_bounds]
    exact lpqLeft_eq _
  have hfold : ∀ q f, f ∈ [exF0, exF1] → ∀ r' : LpqFold ℕ (List Cell), lpqPass (lpqClassY R kde).nested (lpqClassY R kde).learners
      ((lpqClassY R kde).set s.start) ⟨⟨rowX (exData12 lpqY lpqD exD), lpqY, lpqD⟩, exD⟩ 2
      (lpqEntries fun l => (lookupKey l p).join) (f, q) = .ok (f, r') → r'.ipw = lpqLeft s.start ∧
        ∃ a, r'.g1 = ⟨a, dataAt ⟨⟨rowX (exData12 lpqY lpqD exD), lpqY, lpqD⟩, exD⟩ 1
          (fun i => indEq (lpqD i) 1 * indLe (lpqY i) (lpqLeft s.start)) (f.train.drop 3)⟩ := by
    intro q f hf r' hr'
    unfold lpqPass at hr'
    obtain ⟨a, -, hr'⟩ := bind_ok hr'
    obtain ⟨r'', h3, hr'⟩ := bind_ok hr'
    obtain rfl : r'' = r' := (Prod.mk.inj (Except.ok.inj hr')).2
    unfold lpqFold at h3
    obtain ⟨hh, h4, h3⟩ := bind_ok h3
    obtain ⟨v, hv, h3⟩ := bind_ok h3
    have h3 := Except.ok.inj h3
    obtain rfl : (f.train.take (f.train.length / 2), f.train.drop (f.train.length / 2)) = hh := Except.ok.inj h4
    have hlen : f.train.length / 2 = 3 := by
      have hf' : f = exF0 ∨ f = exF1 := by simpa using hf
      rcases hf' with rfl | rfl <;> rfl
    have hunt : ∀ i ∈ f.train.take (f.train.length / 2), lpqD i ≠ 1 := by
      rw [hlen]
      have hf' : f = exF0 ∨ f = exF1 := by simpa using hf
      rcases hf' with rfl | rfl
      · intro i hi
        have hi' : i = 6 ∨ i = 7 ∨ i = 8 := by simpa [exF0] using hi
        rcases hi' with rfl | rfl | rfl <;> exact zero_ne_one
      · intro i hi
        have hi' : i = 0 ∨ i = 1 ∨ i = 2 := by simpa [exF1] using hi
        rcases hi' with rfl | rfl | rfl <;> exact zero_ne_one
    have hv' : v = lpqLeft s.start := (lpqPrelim_untreated (c := (lpqClassY R kde).set s.start) hunt hv).trans hleft
    rw [← h3, hv', hlen]
    exact ⟨rfl, a.g1, rfl⟩
  obtain ⟨hfst, hall⟩ := passes_at lpqPass_fst h2
  obtain ⟨r0, hr0, -⟩ := hall 0 exF0 rfl
  obtain ⟨i0, a0, g0⟩ := hfold 0 exF0 (by simp) r0 hr0
  have hval : ∀ val : LpqFold ℕ (List Cell) → Fin 12 → Option ℝ, gather val rs 4 = val r0 4 := by
    intro val
    obtain ⟨r', hr', -, hg⟩ := gather_at lpqPass_fst h2 exPartition (k := 0) (f := exF0) rfl (i := 4) (by decide)
    obtain rfl : r0 = r' := (Prod.mk.inj (Except.ok.inj (hr0.symm.trans hr'))).2
    exact hg val
  have hmem : ∀ x ∈ rs, x.2.ipw = lpqLeft s.start := by
    intro x hx
    obtain ⟨fk, hfk, hpx⟩ := forall₂_right ((mapM_ok_iff _ _ _).1 h2) hx
    have h5 := lpqPass_fst _ _ hpx
    refine (hfold fk.2 fk.1 ?_ x.2 ?_).1
    · have : fk.1 ∈ ([exF0, exF1].zipIdx).map Prod.fst := List.mem_map_of_mem hfk
      rwa [List.zipIdx_map_fst] at this
    · exact hpx.trans (congrArg Except.ok (Prod.ext h5 rfl))
  constructor
  · obtain ⟨g, hg1, hg2⟩ := Option.map_eq_some_iff.1 (hpr rfl)
    unfold predAt
    rw [hg1]
    show (g 0 0 >>= fun r => lookupKey "ml_g_du_z1" r.1 >>= fun v => v 4) = _
    rw [hg2]
    show (lookupKey "ml_g_du_z1" o.preds >>= fun v => v 4) = _
    rw [hp]
    show r.g1 4 = _
    rw [← h1]
    dsimp only
    unfold lpqGather
    rw [hval]
    show some (zeroOne exMeanL r0.g1 _) = _
    rw [g0]
    have hda : dataAt ⟨⟨rowX (exData12 lpqY lpqD exD), lpqY, lpqD⟩, exD⟩ 1
        (fun i => indEq (lpqD i) 1 * indLe (lpqY i) (lpqLeft s.start)) (exF0.train.drop 3) =
        [(rowX (exData12 lpqY lpqD exD) 9, indLe (-3) (lpqLeft s.start))] := by
      unfold dataAt
      show ([9, 10, 11].filter _).map _ = _
      simp [exD, lpqD, lpqY, indEq]
    rw [hda, exMeanL_single]
  · rw [hst, hos, ← h1]
    show (rs.map fun r => r.2.ipw).sum / rs.length = _
    have hlen : rs.length = 2 := by
      have := congrArg List.length hfst
      simpa using this
    rw [List.map_congr_left (g := fun _ => lpqLeft s.start) (fun x hx => hmem x hx), hlen, List.map_const', hlen]
    simp

/-- **C29 (LPQ, violated).** Fitting an LPQ model twice in a row, without changing anything in between, does not give the
same results: the first fit predicts 1 and the second fit 0 for observation 4. -/
theorem C29_lpq_violated (E : Ext) (F : Frame 12) (R : RootExt) (kde : (Fin 12 → ℝ) → (Fin 12 → ℝ) → ℝ) :
    (lpqClassY R kde).nested.Ok ∧ ∃ s₀ s, initModel (lpqSpec (lpqClassY R kde)) (exData12 lpqY lpqD exD)
      (pqStart lpqY lpqD 1 (9 / 10)) (.int 2) (.int 1) (.bool false) exDraw12 = .ok s₀ ∧
    setSampleSplitting (lpqSpec (lpqClassY R kde)) s₀ pqSplit none = (s, .ok ()) ∧
    ∃ s1 s2, fit F (lpqSpec (lpqClassY R kde)) s {} = (s1, .ok ()) ∧ fit F (lpqSpec (lpqClassY R kde)) s1 {} = (s2, .ok ()) ∧
      predAt s1 0 0 "ml_g_du_z1" 4 = some 1 ∧ predAt s2 0 0 "ml_g_du_z1" 4 = some 0 := by
  obtain ⟨s₀, s, h1, h2, h3, h4, h5, h6, h7, -⟩ := exReached12 E F (sp := lpqSpec (lpqClassY R kde)) rfl lpqY lpqD exD
    (pqStart lpqY lpqD 1 (9 / 10))
  have hfit : ∀ t, Reached E F (lpqSpec (lpqClassY R kde)) (exData12 lpqY lpqD exD) "d" t → t.smpls = some [[exF0, exF1]] →
      (fit F (lpqSpec (lpqClassY R kde)) t {}).2 = .ok () := fun t ht hts =>
    C63_lpq (D := exData12 lpqY lpqD exD) (zc := fun i => .num (exD i)) rfl (exNested_ok 12) exMeanL_compliant rfl exD_binary ht hts
      (exHalves12 _) ⟨.inl rfl, ⟨true, rfl⟩, ⟨false, rfl⟩, .inl rfl⟩ (.inr rfl)
  have a1 := hfit s h3 h4
  have fr := (fit_frame F (lpqSpec (lpqClassY R kde)) s {}).1
  have hs1 : (fit F (lpqSpec (lpqClassY R kde)) s {}).1.smpls = some [[exF0, exF1]] := by rw [fr.smpls]; exact h4
  have b1 := hfit _ (h3.fit {}) hs1
  obtain ⟨a2, a3⟩ := lpqY_run a1 h7 h4 h5
  obtain ⟨b2, -⟩ := lpqY_run b1 ((h3.fit {}).ready rfl).2 hs1 (by rw [fr.nRep]; exact h5)
  refine ⟨exNested_ok 12, s₀, s, h1, h2, _, _, Prod.ext rfl a1, Prod.ext rfl b1, ?_, ?_⟩
  · rw [a2, h6, lpqY_start]
    norm_num [indLe, lpqLeft]
  · rw [b2, a3, h6, lpqY_start]
    norm_num [indLe, lpqLeft]

end DML
