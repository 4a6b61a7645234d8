import Verif.UnitsProps
import Verif.FitOkProps

/-!
# C67: units of measurement

A model fitted to an outcome in other units (`α y + β`) gives the estimates, standard errors, confidence intervals and
sensitivity bounds of the original fit in the new units.
-/

namespace DML

open Finset

variable {n r : ℕ} {P M : Type}

/-! ## Specification -/

/-- The data of two models differ at most in the outcome, which is `α y + β` in the second.  (`binOut`, the cached
information whether the outcome is binary, may differ.) -/
structure OutcomeChanged (α β : ℝ) (F F' : Frame n) (D D' : DataState n) : Prop where
  data : D' = { D with
    yv := fun i => .num (α * (D.yv i).val + β)
    binOut := D'.binOut }
  cols : ∀ tv ∈ D.d, F'.col tv = F.col tv ∧ ∀ x ∈ xdList D tv, F'.col x = F.col x

/-- The data of two models differ at most in the only treatment, which is `γ d + δ` in the second. -/
structure TreatmentChanged (γ δ : ℝ) (D D' : DataState n) : Prop where
  data : D' = { D with
    dv := fun i => .num (γ * (D.dv i).val + δ)
    binTreats := D'.binTreats }
  single : D.d.length = 1

/-- The data of two models differ at most in the only instrument, which is `γ z + δ` in the second. -/
structure InstrumentChanged (γ δ : ℝ) (F F' : Frame n) (D D' : DataState n) : Prop where
  data : ∃ z, D.zv = some [z] ∧ D' = { D with zv := some [fun i => .num (γ * (z i).val + δ)] }
  cols : ∀ tv ∈ D.d, F'.col tv = F.col tv ∧ ∀ x ∈ xdList D tv, F'.col x = F.col x

/-- The results of the second fit are those of the first with estimates mapped by `t ↦ α t + κ`, standard errors multiplied
by `|α|`, scaled scores by `α` and bounds of the omitted variable bias by `|α|`. -/
def InNewUnits (α κ : ℝ) (r : ℕ) (nd : ℕ) (t t' : MState n P M) : Prop :=
  ∃ A A' : FW n r, t.fw? = some ⟨r, A⟩ ∧ t'.fw? = some ⟨r, A'⟩ ∧
    A'.blocks = A.blocks.map (Block.rescale α κ) ∧ A'.cluster = A.cluster ∧
    A'.sens = A.sens.map (List.map (Sens.smul α)) ∧ A'.names = A.names ∧
    (∀ j < nd, ∃ θ se, t.coef j = some θ ∧ t.se j = some se ∧
      t'.coef j = some (α * θ + κ) ∧ t'.se j = some (|α| * se))

/-- Every training set contains observations of both groups of the indicator `v`. -/
def BothGroups (S : List (Fold n)) (v : Fin n → ℝ) : Prop :=
  ∀ x : ℝ, x = 0 ∨ x = 1 → ∀ f ∈ S, ∃ i ∈ f.train, v i = x

/-- The model classes with linear scores whose outcome regressions do not depend on the units: the shift `κ` of the
estimate, and what is required of the training sets. -/
inductive OutcomeClass (α β : ℝ) : LinSpec n P → ℝ → (CellIn n P → Prop) → Prop
  | plr (k : PlrClass n P) (hl : k.ml_l.Affine α β) (hg : k.iv = true → k.ml_g.Affine α β) :
      OutcomeClass α β (plrSpec k) 0 fun c => ∀ f ∈ c.smpls, f.train ≠ []
  | irm (k : IrmClass n P) (hk : k.gClassifier = false) (hg : k.ml_g.Affine α β) :
      OutcomeClass α β (irmSpec k) 0 fun c => BothGroups c.smpls c.d
  | apo (k : ApoClass n P) (hk : k.gClassifier = false) (hg : k.ml_g.Affine α β) :
      OutcomeClass α β (apoSpec k) (β * mean fun i : Fin n => k.weights.weights.entries.getD i 0) fun c =>
        BothGroups c.smpls (k.treated c) ∧ (β = 0 ∨ mean (fun i : Fin n => k.weights.weights.entries.getD i 0) ≠ 0 ∧
          aggObs c.cluster (fun i : Fin n => k.weights.weights.entries.getD i 0) ≠ 0)
  | iivm (k : IivmClass n P) (hk : k.gClassifier = false) (hg : k.ml_g.Affine α β) :
      OutcomeClass α β (iivmSpec k) 0 fun c => ∀ z, c.instr = .ok z → BothGroups c.smpls z
  | did (k : DidClass n P) (hk : k.gClassifier = false) (hg : k.ml_g.Affine α β) :
      OutcomeClass α β (didSpec k) 0 fun c => BothGroups c.smpls c.d
  | didCs (k : DidClass n P) (hk : k.gClassifier = false) (hg : k.ml_g.Affine α β) :
      OutcomeClass α β (csSpec k) 0 fun c => ∀ t, c.time = .ok t → ∀ v w : ℝ, v = 0 ∨ v = 1 → w = 0 ∨ w = 1 →
        ∀ f ∈ c.smpls, ∃ i ∈ f.train, c.d i = v ∧ t i = w
  | ssm (k : SsmClass n P) (hk : k.gClassifier = false) (hg : k.ml_g.Affine α β) :
      OutcomeClass α β (ssmSpec k) 0 fun c => ∀ s, c.sel = .ok s → ∀ v : ℝ, v = 0 ∨ v = 1 → ∀ f ∈ c.smpls,
        ∃ i ∈ f.train, c.d i = v ∧ s i = 1
  | pliv (k : PlivClass n P) (hl : k.ml_l.Affine α β) (hg : k.iv = true → k.ml_g.Affine α β) :
      OutcomeClass α β (plivSpec k) 0 fun c => ∀ f ∈ c.smpls, f.train ≠ []
  | plivMulti (k : PlivClass n P) (zs : List String) (hl : k.ml_l.Affine α β) :
      OutcomeClass α β (plivMultiSpec k zs) 0 fun c => ∀ f ∈ c.smpls, f.train ≠ []
  | plivZ (k : PlivClass n P) (hβ : β = 0) : OutcomeClass α β (plivZSpec k) 0 fun _ => True
  | plivXZ (k : PlivClass n P) (hl : k.ml_l.Affine α β) :
      OutcomeClass α β (plivXZSpec k) 0 fun c => ∀ f ∈ c.smpls, f.train ≠ []

/-! ## Lemmas -/

theorem LinearClass.usualVsf {sp : Spec n P M} (h : LinearClass sp) : UsualVsf sp := by
  intro c o ho
  obtain ⟨e, he⟩ := h c o ho
  obtain ⟨o', h1, h2⟩ := he c.cluster c.start
  have h1 : sp.est c = .ok o' := h1
  rw [ho] at h1
  obtain rfl := Except.ok.inj h1
  rw [h2]
  exact varEst_vsf _ _ _

theorem ssm_usualVsf (k : SsmClass n P) : UsualVsf (ssmSpec k) := by
  intro c o h
  obtain ⟨_, _, h⟩ := bind_ok h
  obtain ⟨_, _, h⟩ := bind_ok h
  obtain ⟨_, _, h⟩ := bind_ok h
  obtain ⟨_, _, h⟩ := bind_ok h
  obtain ⟨_, _, h⟩ := bind_ok h
  obtain ⟨_, _, h⟩ := bind_ok h
  obtain rfl := Except.ok.inj h
  exact varEst_vsf _ _ _

theorem LinearScoreClass.usualVsf {sp : LinSpec n P} (h : LinearScoreClass sp) : UsualVsf sp := by
  cases h with
  | plr k => exact (plr_linear k).usualVsf
  | irm k => exact (irm_linear k).usualVsf
  | apo k => exact (apo_linear k).usualVsf
  | iivm k => exact (iivm_linear k).usualVsf
  | did k => exact (did_linear k).usualVsf
  | didCs k => exact (cs_linear k).usualVsf
  | ssm k => exact ssm_usualVsf k
  | pliv k => exact (pliv_linear k).usualVsf
  | plivMulti k zs => exact (plivMulti_linear k zs).usualVsf
  | plivZ k => exact (plivZ_linear k).usualVsf
  | plivXZ k => exact (plivXZ_linear k).usualVsf

theorem OutcomeClass.linear {α β κ : ℝ} {sp : LinSpec n P} {ok : CellIn n P → Prop} (h : OutcomeClass α β sp κ ok) :
    LinearScoreClass sp := by
  cases h with
  | plr k => exact .plr k
  | irm k => exact .irm k
  | apo k => exact .apo k
  | iivm k => exact .iivm k
  | did k => exact .did k
  | didCs k => exact .didCs k
  | ssm k => exact .ssm k
  | pliv k => exact .pliv k
  | plivMulti k zs => exact .plivMulti k zs
  | plivZ k => exact .plivZ k
  | plivXZ k => exact .plivXZ k

/-- One cell of every class. -/
theorem OutcomeClass.cell {α β κ : ℝ} {sp : LinSpec n P} {ok : CellIn n P → Prop} (H : OutcomeClass α β sp κ ok)
    {c : CellIn n P} {b : Bool} {x : ℝ} (hS : FoldsOk c.smpls) (hok : ok c) (hx : ∀ l, c.extOf l = none)
    {o o' : LinOut n P} (h : sp.est c = .ok o) (h' : sp.est (c.withY (fun i => α * c.y i + β) b x) = .ok o') :
    o.fit.Rescaled α κ o'.fit ∧ (sp.sensImpl = true → o.sens.Rescaled α 1 o'.sens) := by
  cases H with
  | plr k hl hg => exact (plr_units k hl hg hS hok hx h h').imp_right fun h _ => h
  | irm k hk hg => exact (irm_units k hk hg hS hok hx h h').imp_right fun h _ => h
  | apo k hk hg => exact (apo_units k hk hg hS hok.1 hok.2 hx h h').imp_right fun h _ => h
  | iivm k hk hg => exact ⟨iivm_units k hk hg hS hok hx h h', fun h => by cases h⟩
  | did k hk hg => exact (did_units k hk hg hS hok hx h h').imp_right fun h _ => h
  | didCs k hk hg => exact (didCs_units k hk hg hS hok hx h h').imp_right fun h _ => h
  | ssm k hk hg => exact ⟨ssm_units k hk hg hS hok h h', fun h => by cases h⟩
  | pliv k hl hg => exact ⟨pliv_units k hl hg hS hok hx h h', fun h => by cases h⟩
  | plivMulti k zs hl => exact ⟨plivMultiEst_units k hl hS hok hx h h', fun h => by cases h⟩
  | plivZ k hβ =>
    subst hβ
    exact ⟨plivZEst_units k h h', fun h => by cases h⟩
  | plivXZ k hl => exact ⟨plivXZEst_units k hl hS hok h h', fun h => by cases h⟩

/-- Without external predictions every nuisance is estimated. -/
theorem noExt {ls : List String} {tv : String} {k : ℕ} {c : CellIn n P} (h : setExt n .none ls tv k = .ok c.ext) (l : String) :
    c.extOf l = none := by
  have h0 : ∀ ls : List String, setExt n .none ls tv k = .ok (ls.map fun l => (l, none)) := by
    intro ls
    unfold setExt
    dsimp only
    induction ls with
    | nil => rfl
    | cons a t ih => rw [List.mapM_cons, ih]; rfl
  rw [h0] at h
  unfold CellIn.extOf
  rw [← Except.ok.inj h]
  clear h
  induction ls with
  | nil => rfl
  | cons a t ih =>
    rw [List.map_cons]
    unfold lookupKey
    by_cases hal : a = l
    · simp [hal]
    · simpa [hal] using ih

/-- The cells of the two fits belong together. -/
theorem OutcomeChanged.cell {α β : ℝ} {F F' : Frame n} {sp : Spec n P M} {s s' : MState n P M}
    (H : OutcomeChanged α β F F' s.data s'.data) (hsame : SameButData s s') {ext : ExtArg} {k j : ℕ} {c c' : CellIn n P}
    (h : CellFrom F sp s ext k j c) (h' : CellFrom F' sp s' ext k j c') (hm : c'.wantModels = c.wantModels) :
    c' = c.withY (fun i => α * c.y i + β) s'.data.binOut c'.start := by
  have hmem : c.treat ∈ s.data.d := List.mem_of_getElem? h.treat
  have hy : ∀ i, c.y i = (s.data.yv i).val := by
    intro i
    show (c.data.yv i).val = _
    rw [h.data]
    unfold activeData
    split_ifs <;> rfl
  have hdat : activeData F' s'.data c.treat = { c.data with
      yv := fun i => .num (α * c.y i + β)
      binOut := s'.data.binOut } := by
    simp only [hy]
    rw [h.data, H.data]
    unfold activeData
    by_cases hl : s.data.d.length > 1
    · rw [if_pos hl]
      rw [if_pos hl]
      congr 1
      · exact (H.cols _ hmem).1
      · exact List.map_congr_left fun x hx => (H.cols _ hmem).2 x hx
    · rw [if_neg hl, if_neg hl]
  rw [hsame.cell h h' hm, hdat]
  rfl

theorem TreatmentChanged.cell {γ δ : ℝ} {F F' : Frame n} {sp : Spec n P M} {s s' : MState n P M}
    (H : TreatmentChanged γ δ s.data s'.data) (hsame : SameButData s s') {ext : ExtArg} {k j : ℕ} {c c' : CellIn n P}
    (h : CellFrom F sp s ext k j c) (h' : CellFrom F' sp s' ext k j c') (hm : c'.wantModels = c.wantModels) :
    c' = c.withD (fun i => γ * c.d i + δ) s'.data.binTreats c'.start := by
  have h0 : c.data = s.data := by
    rw [h.data]
    unfold activeData
    rw [if_neg (by rw [H.single]; decide)]
  have h1 : activeData F' s'.data c.treat = s'.data := by
    unfold activeData
    rw [if_neg (by rw [hsame.d, H.single]; decide)]
  have hd : ∀ i, c.d i = (s.data.dv i).val := fun i => by rw [← h0]; rfl
  rw [hsame.cell h h' hm, h1]
  unfold CellIn.withD
  simp only [hd]
  rw [h0, ← H.data]

theorem InstrumentChanged.cell {γ δ : ℝ} {F F' : Frame n} {sp : Spec n P M} {s s' : MState n P M}
    (H : InstrumentChanged γ δ F F' s.data s'.data) (hsame : SameButData s s') {ext : ExtArg} {k j : ℕ} {c c' : CellIn n P}
    (h : CellFrom F sp s ext k j c) (h' : CellFrom F' sp s' ext k j c') (hm : c'.wantModels = c.wantModels) :
    ∃ z, c.instr = .ok z ∧ c' = c.withZ (fun i => γ * z i + δ) c'.start := by
  have hmem : c.treat ∈ s.data.d := List.mem_of_getElem? h.treat
  obtain ⟨z, hz, hdata⟩ := H.data
  have hzc : c.data.zv = some [z] := by
    rw [h.data, ← hz]
    unfold activeData
    split_ifs <;> rfl
  have hdat : activeData F' s'.data c.treat = { c.data with zv := some [fun i => .num (γ * (z i).val + δ)] } := by
    rw [h.data, hdata]
    unfold activeData
    by_cases hl : s.data.d.length > 1
    · rw [if_pos hl]
      rw [if_pos hl]
      congr 1
      · exact (H.cols _ hmem).1
      · exact List.map_congr_left fun x hx => (H.cols _ hmem).2 x hx
    · rw [if_neg hl, if_neg hl]
  refine ⟨fun i => (z i).val, ?_, ?_⟩
  · unfold CellIn.instr
    rw [hzc]
  · rw [hsame.cell h h' hm, hdat]
    rfl

/-! ## The theorem -/

/-- **C67.** Fitted to the outcome in other units, `α y + β`, with the same data otherwise, the same split and the same
settings, a model of any of the classes gives: estimates `α θ + κ` and standard errors `|α| se` (per repetition and
aggregated), `α` times the scaled scores, and `|α|` times the sensitivity bounds — where `κ = 0` for effects and the
weighted mean of `β` for average potential outcomes. -/
theorem C67_outcome_units {α β κ : ℝ} {sp : LinSpec n P} {ok : CellIn n P → Prop} (H : OutcomeClass α β sp κ ok)
    {F F' : Frame n} {s s' : LinState n P} (hs : Shaped s) (hs' : Shaped s') (hsame : SameButData s s')
    (hy : OutcomeChanged α β F F' s.data s'.data) {a : FitArgs} (ha : a.ext = .none)
    (hfold : ∀ l, s.smpls = some l → ∀ S ∈ l, FoldsOk S) (hok : ∀ j k c, CellFrom F sp s .none k j c → ok c)
    (h : (fit F sp s a).2 = .ok ()) (h' : (fit F' sp s' a).2 = .ok ()) :
    InNewUnits α κ s.nRep s.data.d.length (fit F sp s a).1 (fit F' sp s' a).1 := by
  refine fits_rescaled H.linear.usualVsf H.linear.usualVsf hs hs' hsame rfl rfl one_ne_zero (mul_one α) ?_ h h'
  intro j k c c' o o' h1 h1' hw h2 h2'
  rw [hy.cell hsame h1 h1' hw] at h2'
  rw [ha] at h1
  obtain ⟨l, hl, hk⟩ := h1.smpls
  exact H.cell (hfold l hl _ (List.mem_of_getElem? hk)) (hok _ _ _ h1) (noExt h1.ext) h2 h2'

/-- **C67, treatment of PLR.** With the treatment in other units, `γ d + δ`, the estimate and the bounds of the bias are
divided by `γ`, the standard error by `|γ|` (for the IV-type score if the origin stays). -/
theorem C67_treatment_plr {γ δ : ℝ} (hγ : γ ≠ 0) {k : PlrClass n P} (hk : k.mClassifier = false) (hm : k.ml_m.Affine γ δ)
    (hiv : k.iv = true → δ = 0) {F F' : Frame n} {s s' : LinState n P} (hs : Shaped s) (hs' : Shaped s')
    (hsame : SameButData s s') (hd : TreatmentChanged γ δ s.data s'.data) {a : FitArgs} (ha : a.ext = .none)
    (hfold : ∀ l, s.smpls = some l → ∀ S ∈ l, FoldsOk S ∧ ∀ f ∈ S, f.train ≠ [])
    (h : (fit F (plrSpec k) s a).2 = .ok ()) (h' : (fit F' (plrSpec k) s' a).2 = .ok ()) :
    InNewUnits γ⁻¹ 0 s.nRep s.data.d.length (fit F (plrSpec k) s a).1 (fit F' (plrSpec k) s' a).1 := by
  refine fits_rescaled (plr_linear k).usualVsf (plr_linear k).usualVsf hs hs' hsame rfl rfl (inv_ne_zero hγ) (one_mul _) ?_ h h'
  intro j i c c' o o' h1 h1' hw h2 h2'
  rw [hd.cell hsame h1 h1' hw] at h2'
  rw [ha] at h1
  obtain ⟨l, hl, hi⟩ := h1.smpls
  obtain ⟨f1, f2⟩ := hfold l hl _ (List.mem_of_getElem? hi)
  exact (plr_treatment hγ k hk hm hiv f1 f2 (noExt h1.ext) h2 h2').imp_right fun h _ => h

/-- **C67, treatment of PLIV.** The same for the partially linear IV model. -/
theorem C67_treatment_pliv {γ δ : ℝ} (hγ : γ ≠ 0) {k : PlivClass n P} (hm : k.ml_r.Affine γ δ)
    (hiv : k.iv = true → δ = 0) {F F' : Frame n} {s s' : LinState n P} (hs : Shaped s) (hs' : Shaped s')
    (hsame : SameButData s s') (hd : TreatmentChanged γ δ s.data s'.data) {a : FitArgs} (ha : a.ext = .none)
    (hfold : ∀ l, s.smpls = some l → ∀ S ∈ l, FoldsOk S ∧ ∀ f ∈ S, f.train ≠ [])
    (h : (fit F (plivSpec k) s a).2 = .ok ()) (h' : (fit F' (plivSpec k) s' a).2 = .ok ()) :
    InNewUnits γ⁻¹ 0 s.nRep s.data.d.length (fit F (plivSpec k) s a).1 (fit F' (plivSpec k) s' a).1 := by
  refine fits_rescaled (q := γ⁻¹) (pliv_linear k).usualVsf (pliv_linear k).usualVsf hs hs' hsame rfl rfl (inv_ne_zero hγ)
    (one_mul _) ?_ h h'
  intro j i c c' o o' h1 h1' hw h2 h2'
  rw [hd.cell hsame h1 h1' hw] at h2'
  rw [ha] at h1
  obtain ⟨l, hl, hi⟩ := h1.smpls
  obtain ⟨f1, f2⟩ := hfold l hl _ (List.mem_of_getElem? hi)
  exact ⟨pliv_treatment hγ k hm hiv f1 f2 (noExt h1.ext) h2 h2', fun h => by cases h⟩

/-- **C67, instrument of PLIV.** The estimates of the partially linear IV model do not depend on the unit and the origin of
the instrument. -/
theorem C67_instrument {γ δ : ℝ} (hγ : γ ≠ 0) {k : PlivClass n P} (hm : k.ml_m.Affine γ δ) {F F' : Frame n}
    {s s' : LinState n P} (hs : Shaped s) (hs' : Shaped s') (hsame : SameButData s s')
    (hz : InstrumentChanged γ δ F F' s.data s'.data) {a : FitArgs} (ha : a.ext = .none)
    (hfold : ∀ l, s.smpls = some l → ∀ S ∈ l, FoldsOk S ∧ ∀ f ∈ S, f.train ≠ [])
    (h : (fit F (plivSpec k) s a).2 = .ok ()) (h' : (fit F' (plivSpec k) s' a).2 = .ok ()) :
    InNewUnits 1 0 s.nRep s.data.d.length (fit F (plivSpec k) s a).1 (fit F' (plivSpec k) s' a).1 := by
  refine fits_rescaled (q := 1) (pliv_linear k).usualVsf (pliv_linear k).usualVsf hs hs' hsame rfl rfl one_ne_zero
    (one_mul _) ?_ h h'
  intro j i c c' o o' h1 h1' hw h2 h2'
  obtain ⟨z, h3, h4⟩ := hz.cell hsame h1 h1' hw
  rw [h4] at h2'
  rw [ha] at h1
  obtain ⟨l, hl, hi⟩ := h1.smpls
  obtain ⟨f1, f2⟩ := hfold l hl _ (List.mem_of_getElem? hi)
  exact ⟨pliv_instrument hγ k hm f1 f2 (noExt h1.ext) h3 h2 h2', fun h => by cases h⟩

/-- Two models created with the same arguments and the same random draws on data that differ in outcome, treatment or
instrument have the same split. -/
theorem C67_same_draws {sp : Spec n P M} {D D' : DataState n} (hd : D'.d = D.d) (hc : D'.cv = D.cv) {x x' : ℝ} {nf nr dr : PyVal}
    {w : Draws n} {s s' : MState n P M} (h : initModel sp D x nf nr dr w = .ok s) (h' : initModel sp D' x' nf nr dr w = .ok s') :
    SameButData s s' ∧ s.data = D ∧ s'.data = D' := by
  unfold initModel at h h'
  obtain ⟨_, _, h⟩ := bind_ok h
  obtain ⟨k, hk, h⟩ := bind_ok h
  obtain ⟨q, hq, h⟩ := bind_ok h
  obtain ⟨b, hb, h⟩ := bind_ok h
  obtain ⟨_, _, h'⟩ := bind_ok h'
  obtain ⟨k', hk', h'⟩ := bind_ok h'
  obtain ⟨q', hq', h'⟩ := bind_ok h'
  obtain ⟨b', hb', h'⟩ := bind_ok h'
  rw [hk] at hk'
  obtain rfl := Except.ok.inj hk'
  rw [hq] at hq'
  obtain rfl := Except.ok.inj hq'
  rw [hb] at hb'
  obtain rfl := Except.ok.inj hb'
  cases b with
  | false =>
    rw [if_neg (by decide)] at h h'
    rw [← Except.ok.inj h, ← Except.ok.inj h']
    exact ⟨⟨hd, hc, rfl, rfl, by simp only [initArrays, hd], rfl, rfl⟩, rfl, rfl⟩
  | true =>
    rw [if_pos rfl] at h h'
    unfold drawSampleSplitting drawnSplit at h h'
    dsimp only at h h'
    cases hv : sp.vars with
    | none =>
      rw [hv] at h h'
      dsimp only at h h'
      by_cases hst : sp.stratified = true
      · rw [if_pos hst] at h h'
        by_cases h2 : (if (none : Option (List (Fin n → Cell) → ClusterVars n)).isSome = true then k.toNat ^ D.cv.length else k.toNat) < 2
        · rw [if_pos h2] at h; cases h
        · rw [if_neg h2] at h
          rw [if_neg (by rw [hc]; exact h2)] at h'
          rw [← Except.ok.inj h, ← Except.ok.inj h']
          exact ⟨⟨hd, hc, by simp [initArrays], rfl, by simp only [initArrays, hd], rfl, rfl⟩, rfl, rfl⟩
      · rw [if_neg hst] at h h'
        simp only [Option.isSome_none, Bool.false_eq_true, if_false, bind, Except.bind, pure, Except.pure] at h h'
        cases hl : (drawSplit k.toNat q.toNat w.shuffle : Except Exc (List (List (Fold n)))) with
        | error e => rw [hl] at h; cases h
        | ok l =>
          rw [hl] at h h'
          rw [← Except.ok.inj h, ← Except.ok.inj h']
          exact ⟨⟨hd, hc, rfl, rfl, by simp only [initArrays, hd], rfl, rfl⟩, rfl, rfl⟩
    | some v =>
      rw [hv] at h h'
      simp only [hc, bind, Except.bind, pure, Except.pure] at h h'
      cases hl : (drawCluster k.toNat q.toNat (v D.cv).cols w.clusters) with
      | error e => rw [hl] at h; cases h
      | ok l =>
        rw [hl] at h h'
        rw [← Except.ok.inj h, ← Except.ok.inj h']
        exact ⟨⟨hd, hc, rfl, rfl, by simp only [initArrays, hd], rfl, rfl⟩, rfl, rfl⟩

/-! ## What a user reads off -/

/-- p values do not depend on the unit of the outcome. -/
theorem rescale_pval {α : ℝ} (hα : α ≠ 0) (b : Block n r) :
    (∀ k, (b.rescale α 0).allPval k = b.allPval k) ∧ (b.rescale α 0).pval = b.pval ∧ |(b.rescale α 0).t| = |b.t| := by
  have hT : ∀ x y : ℝ, |(α * x + 0) / (|α| * y)| = |x / y| := by
    intro x y
    rw [add_zero, abs_div, abs_div, abs_mul, abs_mul, abs_abs, mul_div_mul_left _ _ (abs_ne_zero.2 hα)]
  have h1 : ∀ k, (b.rescale α 0).allPval k = b.allPval k := fun k => by
    show 2 * (1 - Phi |(α * b.allTheta k + 0) / (|α| * b.allSe k)|) = _
    rw [hT]; rfl
  exact ⟨h1, congrArg median (funext h1), hT _ _⟩

/-- Confidence limits are converted to the new units; they change places if `α` is negative. -/
theorem rescale_ci (hr : 0 < r) (α κ : ℝ) (b : Block n r) (crit : Fin r → ℝ) :
    (0 ≤ α → (b.rescale α κ).ci crit = (α * (b.ci crit).1 + κ, α * (b.ci crit).2 + κ)) ∧
    (α ≤ 0 → (b.rescale α κ).ci crit = (α * (b.ci crit).2 + κ, α * (b.ci crit).1 + κ)) := by
  unfold Block.ci Block.rescale
  constructor <;> intro h <;> refine Prod.ext ?_ ?_
  all_goals
    dsimp only
    rw [← median_mul, ← median_add_const hr]
    congr 1; funext k
    first | rw [abs_of_nonneg h] | rw [abs_of_nonpos h]
    ring

/-- Bootstrap statistics keep their size. -/
theorem rescale_bootT {α κ : ℝ} (hα : α ≠ 0) {B : ℕ} (b : Block n r) (W : Fin r → Fin B → Fin n → ℝ) (j : Fin B) (k : Fin r) :
    |(b.rescale α κ).bootT W j k| = |b.bootT W j k| := by
  have : (b.rescale α κ).bootT W j k = α / |α| * b.bootT W j k := by
    unfold Block.bootT Block.rescale
    rw [Finset.mul_sum]
    refine Finset.sum_congr rfl fun i _ => ?_
    dsimp only
    have := abs_ne_zero.2 hα
    by_cases h : b.vsf * b.allSe k = 0
    · rw [show b.vsf * (|α| * b.allSe k) = |α| * (b.vsf * b.allSe k) by ring, h]; simp
    · have h2 : b.vsf * (|α| * b.allSe k) ≠ 0 := by
        rw [show b.vsf * (|α| * b.allSe k) = |α| * (b.vsf * b.allSe k) by ring]; exact mul_ne_zero this h
      field_simp
  rw [this, abs_mul, abs_div, abs_abs, div_self (abs_ne_zero.2 hα), one_mul]

/-- The result of a sensitivity analysis in other units (`α ≥ 0`). -/
def SensRes.rescale (α κ : ℝ) (s : SensRes) : SensRes :=
  { thetaLower := α * s.thetaLower + κ
    thetaUpper := α * s.thetaUpper + κ
    seLower := α * s.seLower
    seUpper := α * s.seUpper
    ciLower := α * s.ciLower + κ
    ciUpper := α * s.ciUpper + κ }

theorem rescale_sens (hr : 0 < r) {α : ℝ} (hα : 0 ≤ α) (κ : ℝ) (b : Block n r) (s : Sens n r) (cl : Option (ClusterInfo n r))
    (cfy cfd rho level : ℝ) :
    (b.rescale α κ).sensRes (Sens.smul α s) cl cfy cfd rho level = (b.sensRes s cl cfy cfd rho level).rescale α κ := by
  have hl : ∀ c, (b.rescale α κ).thetaLower (Sens.smul α s) c = fun k => α * b.thetaLower s c k + κ := by
    intro c; funext k
    show α * b.allTheta k + κ - c * (|α| * s.maxBias k) = α * (b.allTheta k - c * s.maxBias k) + κ
    rw [abs_of_nonneg hα]; ring
  have hu : ∀ c, (b.rescale α κ).thetaUpper (Sens.smul α s) c = fun k => α * b.thetaUpper s c k + κ := by
    intro c; funext k
    show α * b.allTheta k + κ + c * (|α| * s.maxBias k) = α * (b.allTheta k + c * s.maxBias k) + κ
    rw [abs_of_nonneg hα]; ring
  have hsl : ∀ c, (b.rescale α κ).sigmaLower (Sens.smul α s) cl c = fun k => α * b.sigmaLower s cl c k := by
    intro c; funext k
    unfold Block.sigmaLower
    have : (fun i => (b.rescale α κ).psi i k - c * (Sens.smul α s).psiMaxBias i k) =
        fun i => α * (b.psi i k - c * s.psiMaxBias i k) := by
      funext i
      show α * b.psi i k - c * (|α| * s.psiMaxBias i k) = _
      rw [abs_of_nonneg hα]; ring
    rw [this, varEst_smul]
    dsimp only
    rw [Real.sqrt_mul (sq_nonneg α), Real.sqrt_sq hα]
  have hsu : ∀ c, (b.rescale α κ).sigmaUpper (Sens.smul α s) cl c = fun k => α * b.sigmaUpper s cl c k := by
    intro c; funext k
    unfold Block.sigmaUpper
    have : (fun i => (b.rescale α κ).psi i k + c * (Sens.smul α s).psiMaxBias i k) =
        fun i => α * (b.psi i k + c * s.psiMaxBias i k) := by
      funext i
      show α * b.psi i k + c * (|α| * s.psiMaxBias i k) = _
      rw [abs_of_nonneg hα]; ring
    rw [this, varEst_smul]
    dsimp only
    rw [Real.sqrt_mul (sq_nonneg α), Real.sqrt_sq hα]
  have hm : ∀ f : Fin r → ℝ, aggTheta (fun k => α * f k + κ) = α * aggTheta f + κ := by
    intro f
    show median _ = _
    rw [median_add_const hr, median_mul]; rfl
  have hse : ∀ f g : Fin r → ℝ, aggSe (fun k => α * f k + κ) (fun k => α * g k) (fun _ => b.vsf) =
      α * aggSe f g fun _ => b.vsf := by
    intro f g
    rw [aggSe_shift hr, aggSe_mul, abs_of_nonneg hα]
  have hci : ∀ (f : Fin r → ℝ), median (fun k => α * f k + κ) = α * median f + κ := fun f => hm f
  unfold Block.sensRes SensRes.rescale
  simp only [hl, hu, hsl, hsu]
  refine SensRes.mk.injEq .. ▸ ⟨hm _, hm _, hse _ _, hse _ _, ?_, ?_⟩
  · rw [← hci]; congr 1; funext k; ring
  · rw [← hci]; congr 1; funext k; ring

/-- **C67, confidence intervals.** For `α ≥ 0` confidence intervals — pointwise, or joint after a bootstrap with the same
multipliers — are those of the original fit converted to the new units, and the results of sensitivity analyses as well. -/
theorem C67_inference {α κ : ℝ} (hα : 0 < α) (hr : 0 < r) {A A' : FW n r} (hb : A'.blocks = A.blocks.map (Block.rescale α κ))
    (hc : A'.cluster = A.cluster) (hs : A'.sens = A.sens.map (List.map (Sens.smul α))) :
    (∀ level, A'.confint none (.bool false) level =
      (A.confint none (.bool false) level).map (List.map fun I => (α * I.1 + κ, α * I.2 + κ))) ∧
    (∀ method nRep W level, (do let bt ← A'.bootstrap method nRep W; A'.confint (some bt) (.bool true) level) =
      (do let bt ← A.bootstrap method nRep W
          (A.confint (some bt) (.bool true) level).map (List.map fun I => (α * I.1 + κ, α * I.2 + κ)))) ∧
    (∀ cfy cfd rho level, A'.calcSens cfy cfd rho level =
      (A.calcSens cfy cfd rho level).map (List.map (SensRes.rescale α κ))) := by
  have hci : ∀ (b : Block n r) crit, (b.rescale α κ).ci crit = (α * (b.ci crit).1 + κ, α * (b.ci crit).2 + κ) :=
    fun b crit => (rescale_ci hr α κ b crit).1 hα.le
  refine ⟨fun level => ?_, fun method nRep W level => ?_, fun cfy cfd rho level => ?_⟩
  · cases level with
    | float l =>
      unfold FW.confint
      dsimp only
      by_cases hl : l ≤ 0 ∨ l ≥ 1
      · rw [if_pos hl, if_pos hl]; rfl
      · rw [if_neg hl, if_neg hl, if_neg (by decide), if_neg (by decide), hb, List.map_map]
        show Except.ok _ = Except.ok _
        rw [List.map_map]
        congr 1
        exact List.map_congr_left fun b _ => hci b _
    | _ => rfl
  · unfold FW.bootstrap
    cases checkBootstrap method nRep with
    | error e => rfl
    | ok q =>
      obtain ⟨m, B⟩ := q
      simp only [bind, Except.bind]
      rw [hc]
      by_cases hcl : A.cluster.isSome = true
      · rw [if_pos hcl, if_pos hcl]
      · rw [if_neg hcl, if_neg hcl]
        simp only [pure, Except.pure]
        have hq : ∀ l, jointCrit ⟨B, m, A'.blocks.map fun b => b.bootT (W B)⟩ l =
            jointCrit ⟨B, m, A.blocks.map fun b => b.bootT (W B)⟩ l := by
          intro l; funext k
          unfold jointCrit
          dsimp only
          congr 1
          funext j
          rw [hb, List.map_map, List.map_map, List.map_map]
          congr 1
          exact List.map_congr_left fun b _ => rescale_bootT hα.ne' b (W B) j k
        cases level with
        | float l =>
          unfold FW.confint
          dsimp only
          by_cases hl : l ≤ 0 ∨ l ≥ 1
          · rw [if_pos hl, if_pos hl]; rfl
          · rw [if_neg hl, if_neg hl, if_pos rfl, if_pos rfl, hq, hb, List.map_map]
            show Except.ok _ = Except.ok _
            rw [List.map_map]
            congr 1
            exact List.map_congr_left fun b _ => hci b _
        | _ => rfl
  · unfold FW.calcSens
    rw [hs]
    cases A.sens with
    | none => rfl
    | some S =>
      simp only [Option.map_some]
      cases sensArgs cfy cfd rho level with
      | error e => rfl
      | ok q =>
        obtain ⟨y, d, p, l⟩ := q
        show Except.ok _ = Except.ok _
        rw [hb, hc]
        congr 1
        generalize A.blocks = bs
        induction bs generalizing S with
        | nil => rfl
        | cons b t ih =>
          cases S with
          | nil => rfl
          | cons q Q =>
            simp only [List.map_cons, List.zipWith_cons_cons]
            rw [rescale_sens hr hα.le, ih]

/-! ## Examples -/

/-- The learner of the examples commutes with affine changes of the target. -/
theorem exMeanL_affine (α β : ℝ) : exMeanL.Affine α β := by
  intro p D x hD
  have hl : (D.length : ℝ) ≠ 0 := Nat.cast_ne_zero.2 fun h => hD (List.length_eq_zero_iff.1 h)
  have h : ((D.map fun q => (q.1, α * q.2 + β)).map Prod.snd).sum = α * (D.map Prod.snd).sum + β * D.length := by
    clear hl hD
    induction D with
    | nil => simp
    | cons a t ih =>
      simp only [List.map_cons, List.sum_cons, List.length_cons, Nat.cast_add, Nat.cast_one, ih]
      ring
  show ((D.map fun q => (q.1, α * q.2 + β)).map Prod.snd).sum / ((D.map fun q => (q.1, α * q.2 + β)).length : ℝ) = _
  rw [h, List.length_map, add_div, mul_div_assoc, mul_div_assoc, div_self hl, mul_one]
  rfl

/-- An object that draws its split when it is created. -/
theorem exInitDraw {sp : LinSpec 4 ℕ} (hv : sp.vars = none) (hst : sp.stratified = false) (D : DataState 4) :
    ∃ s : LinState 4 ℕ, initModel sp D 0 (.int 2) (.int 1) (.bool true) exDraw4 = .ok s ∧ s.smpls = some [exFolds4] ∧
      s.nRep = 1 := by
  have h : checkClusterVars sp D = .ok () := by
    unfold checkClusterVars
    rw [hv]
    rfl
  have hL : (drawSplit 2 1 exDraw4.shuffle : Except Exc (List (List (Fold 4)))) = .ok [exFolds4] := by
    rw [drawSplit_eq 2 1 _ le_rfl (by decide)]
    rfl
  unfold initModel
  rw [h]
  simp only [bind, Except.bind, checkInteger, checkBool, PyVal.asInt]
  simp only [drawSampleSplitting, drawnSplit, hv, hst, Option.isSome_none, Bool.false_eq_true, if_false]
  have h3 : (2 : ℤ).toNat = 2 := rfl
  simp [h3, hL, bind, Except.bind, pure, Except.pure, initArrays]

theorem exFolds4_ok : ∀ S ∈ [exFolds4], FoldsOk S ∧ ∀ f ∈ S, f.train ≠ [] := by
  intro S hS
  rw [List.mem_singleton.1 hS]
  exact ⟨(exCell4_split 0).folds, by decide⟩

/-- Such an object can be fitted. -/
theorem exReach (F : Frame 4) {sp : LinSpec 4 ℕ} {D : DataState 4} (hd : D.d = ["d"]) {s : LinState 4 ℕ}
    (h : initModel sp D 0 (.int 2) (.int 1) (.bool true) exDraw4 = .ok s) (E : Ext) : Reached E F sp D "d" s := by
  refine ⟨hd, 0, .int 2, .int 1, .bool true, exDraw4, s, [], h, ?_, trivial, rfl⟩
  intro K hK r i
  obtain rfl : 2 = K := Option.some.inj hK
  show (((if (i : ℕ) < 2 then 0 else 1 : ℕ)) : ℤ) < 2
  split_ifs <;> decide

/-- The hypotheses of `C67_outcome_units` and of `C67_treatment_plr` are met by PLR models created on data with outcomes
(or treatments) in different units. -/
example (E : Ext) (F : Frame 4) (y : Fin 4 → ℝ) (iv : Bool) (α β : ℝ) (hα : α ≠ 0) :
    let k : PlrClass 4 ℕ := ⟨exMeanL, exMeanL, exMeanL, false, iv, none⟩
    let D : DataState 4 := { exData4 y with binTreats := [("d", false)] }
    (∃ s s' : LinState 4 ℕ, s.data = D ∧ s'.data = { D with yv := fun i => .num (α * y i + β) } ∧
      InNewUnits α 0 1 1 (fit F (plrSpec k) s {}).1 (fit F (plrSpec k) s' {}).1) ∧
    ∃ s s' : LinState 4 ℕ, s.data = D ∧ s'.data = { D with dv := fun i => .num (α * (D.dv i).val + if iv then 0 else β) } ∧
      InNewUnits α⁻¹ 0 1 1 (fit F (plrSpec k) s {}).1 (fit F (plrSpec k) s' {}).1 := by
  intro k D
  have ha : ValidArgs (plrSpec k) "d" 1 {} := ⟨.inl rfl, ⟨true, rfl⟩, ⟨false, rfl⟩, .inl rfl⟩
  have key : ∀ D' : DataState 4, D'.d = ["d"] → D'.binTreats = [("d", false)] →
      ∃ s : LinState 4 ℕ, initModel (plrSpec k) D' 0 (.int 2) (.int 1) (.bool true) exDraw4 = .ok s ∧ s.smpls = some [exFolds4] ∧
        s.nRep = 1 ∧ Shaped s ∧ (fit F (plrSpec k) s {}).2 = .ok () := by
    intro D' h1 h2
    obtain ⟨s, e1, e2, e3⟩ := exInitDraw (sp := plrSpec k) rfl rfl D'
    have hr := exReach F h1 e1 E
    exact ⟨s, e1, e2, e3, (hr.ready rfl).1.shaped, C63_plr rfl rfl (by rw [h2]; rfl) hr e2 (by rw [e3]; exact ha)⟩
  obtain ⟨s, e1, e2, e3, e4, e5⟩ := key D rfl rfl
  constructor
  · obtain ⟨s', g1, g2, g3, g4, g5⟩ := key { D with yv := fun i => .num (α * y i + β) } rfl rfl
    obtain ⟨f1, f2, f3⟩ := C67_same_draws (by exact rfl) (by exact rfl) e1 g1
    refine ⟨s, s', f2, f3, ?_⟩
    have := C67_outcome_units (F := F) (F' := F) (OutcomeClass.plr (α := α) (β := β) k (exMeanL_affine _ _) fun _ => exMeanL_affine _ _) e4 g4 f1
      (by rw [f2, f3]; exact ⟨rfl, fun _ _ => ⟨rfl, fun _ _ => rfl⟩⟩) (a := {}) rfl
      (fun l hl S hS => by rw [e2] at hl; rw [← Option.some.inj hl] at hS; exact (exFolds4_ok S hS).1)
      (fun j i c hc => by
        obtain ⟨l, hl, hi⟩ := hc.smpls
        rw [e2] at hl
        rw [← Option.some.inj hl] at hi
        exact (exFolds4_ok _ (List.mem_of_getElem? hi)).2) e5 g5
    rw [e3, f2] at this
    exact this
  · obtain ⟨s', g1, g2, g3, g4, g5⟩ := key { D with dv := fun i => .num (α * (D.dv i).val + if iv then 0 else β) } rfl rfl
    obtain ⟨f1, f2, f3⟩ := C67_same_draws (by exact rfl) (by exact rfl) e1 g1
    refine ⟨s, s', f2, f3, ?_⟩
    have := C67_treatment_plr (F := F) (F' := F) (γ := α) (δ := if iv then 0 else β) hα (k := k) rfl (exMeanL_affine _ _)
      (fun h => if_pos h) e4 g4 f1 (by rw [f2, f3]; exact ⟨rfl, rfl⟩) (a := {}) rfl
      (fun l hl S hS => by rw [e2] at hl; rw [← Option.some.inj hl] at hS; exact exFolds4_ok S hS) e5 g5
    rw [e3, f2] at this
    exact this

/-- The hypotheses of `C67_treatment_pliv` and `C67_instrument` are met by PLIV models. -/
example (E : Ext) (F : Frame 4) (y : Fin 4 → ℝ) (iv : Bool) (γ δ : ℝ) (hγ : γ ≠ 0) :
    let k : PlivClass 4 ℕ := ⟨exMeanL, exMeanL, exMeanL, exMeanL, iv, fun _ v => v, none⟩
    let D := exData4 y
    (∃ s s' : LinState 4 ℕ, s.data = D ∧ s'.data = { D with dv := fun i => .num (γ * (D.dv i).val + if iv then 0 else δ) } ∧
      InNewUnits γ⁻¹ 0 1 1 (fit F (plivSpec k) s {}).1 (fit F (plivSpec k) s' {}).1) ∧
    ∃ s s' : LinState 4 ℕ, s.data = D ∧ s'.data = { D with zv := some [fun i => .num (γ * ![0, 1, 1, 0] i + δ)] } ∧
      InNewUnits 1 0 1 1 (fit F (plivSpec k) s {}).1 (fit F (plivSpec k) s' {}).1 := by
  intro k D
  have ha : ValidArgs (plivSpec k) "d" 1 {} := ⟨.inl rfl, ⟨true, rfl⟩, ⟨false, rfl⟩, .inl rfl⟩
  have key : ∀ (D' : DataState 4) z, D'.d = ["d"] → D'.zv = some [z] → D'.binOut = false →
      ∃ s : LinState 4 ℕ, initModel (plivSpec k) D' 0 (.int 2) (.int 1) (.bool true) exDraw4 = .ok s ∧ s.smpls = some [exFolds4] ∧
        s.nRep = 1 ∧ Shaped s ∧ (fit F (plivSpec k) s {}).2 = .ok () := by
    intro D' z h1 h2 h3
    obtain ⟨s, e1, e2, e3⟩ := exInitDraw (sp := plivSpec k) rfl rfl D'
    have hr := exReach F h1 e1 E
    exact ⟨s, e1, e2, e3, (hr.ready rfl).1.shaped, C63_pliv rfl h3 h2 hr e2 (by rw [e3]; exact ha)⟩
  obtain ⟨s, e1, e2, e3, e4, e5⟩ := key D _ rfl rfl rfl
  constructor
  · obtain ⟨s', g1, g2, g3, g4, g5⟩ := key { D with dv := fun i => .num (γ * (D.dv i).val + if iv then 0 else δ) } _ rfl rfl rfl
    obtain ⟨f1, f2, f3⟩ := C67_same_draws (by exact rfl) (by exact rfl) e1 g1
    refine ⟨s, s', f2, f3, ?_⟩
    have := C67_treatment_pliv (F := F) (F' := F) (γ := γ) (δ := if iv then 0 else δ) hγ (k := k) (exMeanL_affine _ _)
      (fun h => if_pos h) e4 g4 f1 (by rw [f2, f3]; exact ⟨rfl, rfl⟩) (a := {}) rfl
      (fun l hl S hS => by rw [e2] at hl; rw [← Option.some.inj hl] at hS; exact exFolds4_ok S hS) e5 g5
    rw [e3, f2] at this
    exact this
  · obtain ⟨s', g1, g2, g3, g4, g5⟩ := key { D with zv := some [fun i => .num (γ * ![0, 1, 1, 0] i + δ)] } _ rfl rfl rfl
    obtain ⟨f1, f2, f3⟩ := C67_same_draws (by exact rfl) (by exact rfl) e1 g1
    refine ⟨s, s', f2, f3, ?_⟩
    have := C67_instrument (F := F) (F' := F) (γ := γ) (δ := δ) hγ (k := k) (exMeanL_affine _ _)
      e4 g4 f1 (by rw [f2, f3]; exact ⟨⟨_, rfl, rfl⟩, fun _ _ => ⟨rfl, fun _ _ => rfl⟩⟩) (a := {}) rfl
      (fun l hl S hS => by rw [e2] at hl; rw [← Option.some.inj hl] at hS; exact exFolds4_ok S hS) e5 g5
    rw [e3, f2] at this
    exact this

end DML
