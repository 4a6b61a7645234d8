import Verif.ClassesFitProps
import Verif.FitView

/-!
# Units of measurement: specification and lemmas

What it means that two fits differ only in the unit (and origin) of the outcome, the treatment or the instrument, and how
the estimates of one cell react.
-/

namespace DML

open Finset

variable {n r : ℕ} {P M : Type}

/-! ## Specification -/

/-- A regression method that does not depend on the unit and the origin of the target: fitted on `α y + β` it predicts
`α` times what it predicts when fitted on `y`, plus `β`.  Least squares, nearest neighbours, regression trees and forests
grown by variance reduction are of this kind. -/
def Learner.Affine (L : Learner P (List Cell)) (α β : ℝ) : Prop :=
  ∀ p D x, D ≠ [] → L.predict p (D.map fun q => (q.1, α * q.2 + β)) x = α * L.predict p D x + β

/-- A parameter in other units: estimates are mapped by `t ↦ α t + κ`, standard errors are multiplied by `|α|`. -/
noncomputable def Block.rescale (α κ : ℝ) (b : Block n r) : Block n r :=
  { theta := α * b.theta + κ
    se := |α| * b.se
    allTheta := fun k => α * b.allTheta k + κ
    allSe := fun k => |α| * b.allSe k
    vsf := b.vsf
    psi := fun i k => α * b.psi i k }

/-- The estimate of one cell in other units. -/
structure FitOne.Rescaled (α κ : ℝ) (f f' : FitOne n) : Prop where
  coef : f'.coef = α * f.coef + κ
  se : f'.se = |α| * f.se
  vsf : f'.vsf = f.vsf
  psi : ∀ i, f'.scaledPsi i = α * f.scaledPsi i

/-- Sensitivity elements in other units: the outcome is multiplied by `p`, the Riesz representer by `q`. -/
structure SensElems.Rescaled (p q : ℝ) (e e' : SensElems n) : Prop where
  sigma2 : e'.sigma2 = p ^ 2 * e.sigma2
  nu2 : e'.nu2 = q ^ 2 * e.nu2
  psiSigma2 : ∀ i, e'.psiSigma2 i = p ^ 2 * e.psiSigma2 i
  psiNu2 : ∀ i, e'.psiNu2 i = q ^ 2 * e.psiNu2 i
  rr : ∀ i, e'.rr i = q * e.rr i

/-- The same cell with another outcome (and another start value, which linear scores do not use). -/
def CellIn.withY (c : CellIn n P) (y : Fin n → ℝ) (b : Bool) (x : ℝ) : CellIn n P :=
  { c with
    data := { c.data with
      yv := fun i => .num (y i)
      binOut := b }
    start := x }

/-- The same cell with another treatment. -/
def CellIn.withD (c : CellIn n P) (d : Fin n → ℝ) (b : List (String × Bool)) (x : ℝ) : CellIn n P :=
  { c with
    data := { c.data with
      dv := fun i => .num (d i)
      binTreats := b }
    start := x }

/-- The same cell with another instrument. -/
def CellIn.withZ (c : CellIn n P) (z : Fin n → ℝ) (x : ℝ) : CellIn n P :=
  { c with
    data := { c.data with zv := some [fun i => .num (z i)] }
    start := x }

/-- Two models on data sets with the same treatments and clusters, with the same split and settings. -/
structure SameButData (s s' : MState n P M) : Prop where
  d : s'.data.d = s.data.d
  cv : s'.data.cv = s.data.cv
  smpls : s'.smpls = s.smpls
  smplsCluster : s'.smplsCluster = s.smplsCluster
  params : s'.params = s.params
  nRep : s'.nRep = s.nRep
  nFoldsPer : s'.nFoldsPer = s.nFoldsPer

/-! ## The variance estimator -/

/-- Rescaling the derivative. -/
theorem varEst_deriv (a : ℝ) (psi deriv : Fin n → ℝ) (cr : Option (ClusterRep n)) :
    varEst psi (fun i => a * deriv i) cr = ((a ^ 2)⁻¹ * (varEst psi deriv cr).1, (varEst psi deriv cr).2) := by
  have key : ∀ v j g : ℝ, 1 / (v * (a * j) ^ 2) * g = (a ^ 2)⁻¹ * (1 / (v * j ^ 2) * g) := by
    intro v j g
    rw [mul_pow, one_div, one_div, mul_left_comm, mul_inv]; ring
  unfold varEst varEstParts
  rcases cr with _ | ⟨_ | _, sm, smc, K⟩
  · simp only [mean_mul_left, key]
  · simp only [jOne_smul, mul_div_assoc, key]
  · simp only [jTwo_smul, mul_div_assoc, key]

/-- Score elements `γ a` and `γ (α b - κ a)`: the estimate becomes `α θ + κ`. -/
theorem PsiElems.rescaled {e e' : PsiElems n} {α κ γ : ℝ} (cr : Option (ClusterRep n)) (hγ : γ ≠ 0)
    (ha : ∀ i, e'.a i = γ * e.a i) (hb : ∀ i, e'.b i = γ * (α * e.b i - κ * e.a i)) (hκ : κ = 0 ∨ aggObs cr e.a ≠ 0) :
    (e.fit cr).Rescaled α κ (e'.fit cr) := by
  have ha' : e'.a = fun i => γ * e.a i := funext ha
  have hb' : e'.b = fun i => γ * (α * e.b i + -κ * e.a i) := funext fun i => by rw [hb i]; ring
  have hcoef : e'.coef cr = α * e.coef cr + κ := by
    unfold PsiElems.coef
    rw [ha', hb', aggObs_mul_left, aggObs_mul_left, aggObs_add, aggObs_mul_left, aggObs_mul_left]
    rcases hκ with rfl | h
    · by_cases h : aggObs cr e.a = 0
      · simp [h]
      · field_simp; ring
    · field_simp; ring
  have hpsi : e'.score (e'.coef cr) = fun i => γ * α * e.score (e.coef cr) i := by
    funext i
    unfold PsiElems.score
    rw [hcoef, ha i, hb i]; ring
  have hv : varEst (e'.score (e'.coef cr)) e'.a cr =
      (α ^ 2 * (varEst (e.score (e.coef cr)) e.a cr).1, (varEst (e.score (e.coef cr)) e.a cr).2) := by
    rw [hpsi, ha', varEst_deriv, varEst_smul]
    dsimp only
    rw [← mul_assoc, mul_pow, ← mul_assoc, inv_mul_cancel₀ (pow_ne_zero 2 hγ), one_mul]
  refine ⟨hcoef, ?_, ?_, fun i => ?_⟩
  · show Real.sqrt (varEst (e'.score (e'.coef cr)) e'.a cr).1 = |α| * Real.sqrt _
    rw [hv, Real.sqrt_mul (sq_nonneg α), Real.sqrt_sq_eq_abs]
  · show (varEst (e'.score (e'.coef cr)) e'.a cr).2 = _
    rw [hv]; rfl
  · show e'.score (e'.coef cr) i / mean e'.a = α * (e.score (e.coef cr) i / mean e.a)
    rw [hpsi, ha', mean_mul_left]
    dsimp only
    rw [mul_assoc, mul_div_mul_left _ _ hγ, mul_div_assoc]

/-! ## Sensitivity elements -/

theorem sensOf_rescaled {α : ℝ} {e e' : Fin n → ℝ} (mA rr : Fin n → ℝ) (h : ∀ i, e' i = α ^ 2 * e i) :
    (sensOf e mA rr).Rescaled α 1 (sensOf e' mA rr) := by
  obtain rfl : e' = fun i => α ^ 2 * e i := funext h
  refine ⟨?_, by rw [one_pow, one_mul]; rfl, fun i => ?_, fun _ => by rw [one_pow, one_mul]; rfl, fun _ => by rw [one_mul]; rfl⟩
  · exact mean_mul_left _ _
  · show α ^ 2 * e i - mean _ = α ^ 2 * (e i - mean e)
    rw [mean_mul_left]; ring

theorem SensElems.Rescaled.bias {p q : ℝ} {e e' : SensElems n} (h : e.Rescaled p q e') :
    e'.maxBias = |p * q| * e.maxBias ∧ ∀ i, e'.psiMaxBias i = |p * q| * e.psiMaxBias i := by
  have h1 : e'.maxBias = |p * q| * e.maxBias := by
    unfold SensElems.maxBias
    rw [h.sigma2, h.nu2, show p ^ 2 * e.sigma2 * (q ^ 2 * e.nu2) = (p * q) ^ 2 * (e.sigma2 * e.nu2) by ring,
      Real.sqrt_mul (sq_nonneg _), Real.sqrt_sq_eq_abs]
  refine ⟨h1, fun i => ?_⟩
  unfold SensElems.psiMaxBias
  rw [h1, h.sigma2, h.nu2, h.psiSigma2, h.psiNu2]
  have hs : p ^ 2 * e.sigma2 * (q ^ 2 * e.psiNu2 i) + q ^ 2 * e.nu2 * (p ^ 2 * e.psiSigma2 i) =
      |p * q| * (|p * q| * (e.sigma2 * e.psiNu2 i + e.nu2 * e.psiSigma2 i)) := by
    have : |p * q| * |p * q| = p ^ 2 * q ^ 2 := by rw [abs_mul_abs_self]; ring
    rw [← mul_assoc |p * q|, this]; ring
  rw [hs]
  by_cases hα : |p * q| = 0
  · simp [hα]
  · rw [show 2 * (|p * q| * e.maxBias) = |p * q| * (2 * e.maxBias) by ring, mul_div_mul_left _ _ hα, mul_div_assoc]

theorem validateSens_rescaled {p q : ℝ} (hq : q ≠ 0) {e e' : Fin r → SensElems n} (h : ∀ k, (e k).Rescaled p q (e' k)) (k : Fin r) :
    (validateSens e k).Rescaled p q (validateSens e' k) := by
  have hq2 : 0 < q ^ 2 := by positivity
  have hiff : (∃ k, (e' k).nu2 ≤ 0) ↔ ∃ k, (e k).nu2 ≤ 0 := by
    refine exists_congr fun k => ?_
    rw [(h k).nu2]
    constructor
    · intro h0
      by_contra h1
      exact absurd h0 (not_le.2 (mul_pos hq2 (not_le.1 h1)))
    · exact fun h0 => mul_nonpos_of_nonneg_of_nonpos hq2.le h0
  have hrr : ∀ i, (e' k).rr i ^ 2 = q ^ 2 * (e k).rr i ^ 2 := fun i => by rw [(h k).rr, mul_pow]
  unfold validateSens
  by_cases hn : ∃ k, (e k).nu2 ≤ 0
  · rw [if_pos hn, if_pos (hiff.2 hn)]
    refine ⟨(h k).sigma2, ?_, (h k).psiSigma2, ?_, (h k).rr⟩
    · dsimp only; simp only [hrr]; exact mean_mul_left _ _
    · intro i; dsimp only; rw [hrr]
  · rw [if_neg hn, if_neg (fun q => hn (hiff.1 q))]
    exact h k

theorem cellSens_rescaled {p q : ℝ} (hq : q ≠ 0) {e e' : Fin r → SensElems n} (h : ∀ k, (e k).Rescaled p q (e' k)) :
    cellSens e' = Sens.smul (p * q) (cellSens e) := by
  unfold cellSens Sens.smul
  congr 1
  · funext k; exact (validateSens_rescaled hq h k).bias.1
  · funext i k; exact (validateSens_rescaled hq h k).bias.2 i

theorem cellBlock_rescaled (hr : 0 < r) {α κ v : ℝ} {f f' : Fin r → FitOne n} (h : ∀ k, (f k).Rescaled α κ (f' k)) :
    cellBlock v f' = (cellBlock v f).rescale α κ := by
  have h1 : (fun k => (f' k).coef) = fun k => α * (f k).coef + κ := funext fun k => (h k).coef
  have h2 : (fun k => (f' k).se) = fun k => |α| * (f k).se := funext fun k => (h k).se
  unfold cellBlock Block.rescale
  simp only [h1, h2]
  congr 1
  · show median _ = _
    rw [median_add_const hr, median_mul]; rfl
  · rw [aggSe_shift hr]
    rcases abs_choice α with ha | ha
    · rw [ha, aggSe_mul, ha]
    · have : aggSe (fun k => α * (f k).coef) (fun k => |α| * (f k).se) (fun _ => v) =
          aggSe (fun k => α * (f k).coef) (fun k => α * (f k).se) fun _ => v := by
        unfold aggSe
        simp only [mul_pow, sq_abs]
      rw [this, aggSe_mul]
  · funext i k; exact (h k).psi i

/-- The cells of two such models differ only in the data. -/
theorem SameButData.cell {F F' : Frame n} {sp : Spec n P M} {s s' : MState n P M} (H : SameButData s s') {ext : ExtArg} {k j : ℕ}
    {c c' : CellIn n P} (h : CellFrom F sp s ext k j c) (h' : CellFrom F' sp s' ext k j c') (hm : c'.wantModels = c.wantModels) :
    c' = { c with
      data := activeData F' s'.data c.treat
      start := c'.start } := by
  have ht : c'.treat = c.treat := by
    have := h'.treat
    rw [H.d, h.treat] at this
    exact (Option.some.inj this).symm
  have hsm : c'.smpls = c.smpls := by
    obtain ⟨l, h1, h2⟩ := h.smpls
    obtain ⟨l', h3, h4⟩ := h'.smpls
    rw [H.smpls, h1] at h3
    obtain rfl := Option.some.inj h3
    rw [h2] at h4
    exact (Option.some.inj h4).symm
  have hcl : c'.cluster = c.cluster := by
    cases hv : sp.vars with
    | none => rw [h.noCluster hv, h'.noCluster hv]
    | some v =>
      obtain ⟨l, q, h1, h2, h3⟩ := h.cluster v hv
      obtain ⟨l', q', h1', h2', h3'⟩ := h'.cluster v hv
      rw [H.smplsCluster, h1] at h1'
      obtain rfl := Option.some.inj h1'
      rw [h2] at h2'
      obtain rfl := Option.some.inj h2'
      rw [h3, h3', H.cv, hsm, H.nFoldsPer]
  have hp : c'.params = c.params := by
    refine params_det (R := fun l a => ∃ ps, s.params l c.treat = some ps ∧ ps[k]? = some a) ?_
      (h'.params.1.trans h.params.1.symm) ?_ h.params.2
    · rintro l a b ⟨ps, h1, h2⟩ ⟨ps', h3, h4⟩
      rw [h1] at h3
      obtain rfl := Option.some.inj h3
      rw [h2] at h4
      exact Option.some.inj h4
    · intro q hq
      have := h'.params.2 q hq
      rwa [H.params, ht] at this
  have he : c'.ext = c.ext := by
    have := h'.ext
    rw [ht, h.ext] at this
    exact (Except.ok.inj this).symm
  have hr : c'.rep = c.rep := by rw [h.rep, h'.rep]
  have hdat := h'.data
  rw [ht] at hdat
  rcases c' with ⟨a1, a2, a3, a4, a5, a6, a7, a8, a9⟩
  simp only at ht hsm hcl hp he hr hdat hm
  rw [ht, hsm, hcl, hp, he, hr, hdat, hm]

/-- Two fits whose cells differ by a change of units. -/
theorem fits_rescaled {α κ p q : ℝ} {F F' : Frame n} {sp sp' : Spec n P M} (hu : UsualVsf sp) (hu' : UsualVsf sp')
    {s s' : MState n P M} (hs : Shaped s) (hs' : Shaped s') {a : FitArgs} (hsame : SameButData s s') (hvars : sp'.vars = sp.vars)
    (hi : sp'.sensImpl = sp.sensImpl) (hq : q ≠ 0) (hpq : p * q = α)
    (key : ∀ j k c c' o o', CellFrom F sp s a.ext k j c → CellFrom F' sp' s' a.ext k j c' → c'.wantModels = c.wantModels →
      sp.est c = .ok o → sp'.est c' = .ok o' →
      o.fit.Rescaled α κ o'.fit ∧ (sp.sensImpl = true → o.sens.Rescaled p q o'.sens))
    (h : (fit F sp s a).2 = .ok ()) (h' : (fit F' sp' s' a).2 = .ok ()) :
    ∃ A A' : FW n s.nRep, (fit F sp s a).1.fw? = some ⟨s.nRep, A⟩ ∧ (fit F' sp' s' a).1.fw? = some ⟨s.nRep, A'⟩ ∧
      A'.blocks = A.blocks.map (Block.rescale α κ) ∧ A'.cluster = A.cluster ∧
      A'.sens = A.sens.map (List.map (Sens.smul α)) ∧ A'.names = A.names ∧
      (∀ j < s.data.d.length, ∃ θ se, (fit F sp s a).1.coef j = some θ ∧ (fit F sp s a).1.se j = some se ∧
        (fit F' sp' s' a).1.coef j = some (α * θ + κ) ∧ (fit F' sp' s' a).1.se j = some (|α| * se)) := by
  obtain ⟨hd, hcv, hsm, hsc, _, hn, hf⟩ := hsame
  have hv : (sp'.vars.map fun v => v s'.data.cv) = sp.vars.map fun v => v s.data.cv := by rw [hvars, hcv]
  obtain ⟨A, c, o, V⟩ := fit_view hu hs h rfl
  obtain ⟨A', c', o', V'⟩ := fit_view hu' hs' h' hn
  have hlen : s'.data.d.length = s.data.d.length := by rw [hd]
  have key : ∀ j hj (k : Fin s.nRep), (o j hj k).fit.Rescaled α κ (o' j (by rw [hlen]; exact hj) k).fit ∧
      (sp.sensImpl = true → (o j hj k).sens.Rescaled p q (o' j (by rw [hlen]; exact hj) k).sens) := by
    intro j hj k
    have hj' : j < s'.data.d.length := by rw [hlen]; exact hj
    obtain ⟨h1, h2⟩ := V.cell j hj k
    obtain ⟨h1', h2'⟩ := V'.cell j hj' k
    exact key j k _ _ _ _ h1 h1' (PyVal.bool.inj ((V'.want j hj' k).symm.trans (V.want j hj k))) h2 h2'
  refine ⟨A, A', V.fw, V'.fw, ?_, ?_, ?_, ?_, fun j hj => ?_⟩
  · apply List.ext_getElem?
    intro j
    rw [List.getElem?_map]
    by_cases hj : j < s.data.d.length
    · rw [V.block j hj, V'.block j (by rw [hlen]; exact hj), hv]
      exact congrArg some (cellBlock_rescaled hs.pos fun k => (key j hj k).1)
    · rw [List.getElem?_eq_none (by rw [V'.nBlocks, hlen]; omega), List.getElem?_eq_none (by rw [V.nBlocks]; omega)]; rfl
  · rw [V.cluster, V'.cluster, hsm, hsc, hf]
    have := congrArg (Option.map fun w (k : Fin s.nRep) =>
      (⟨w, ((s.smpls.getD []).getD k []), ((s.smplsCluster.getD []).getD k []), s.nFoldsPer⟩ : ClusterRep n)) hv
    rw [Option.map_map, Option.map_map] at this
    exact this
  · cases hi0 : sp.sensImpl with
    | false => rw [(V.noSens hi0).1, (V'.noSens (hi.trans hi0)).1]; rfl
    | true =>
      obtain ⟨S, B, h1, h2, h3, h4, h5⟩ := V.sens hi0
      obtain ⟨S', B', h1', h2', h3', h4', h5'⟩ := V'.sens (hi.trans hi0)
      rw [h1, h1']
      refine congrArg some (List.ext_getElem? fun j => ?_)
      rw [List.getElem?_map]
      by_cases hj : j < s.data.d.length
      · rw [(h5 j hj).1, (h5' j (by rw [hlen]; exact hj)).1, ← hpq]
        exact congrArg some (cellSens_rescaled hq fun k => (key j hj k).2 hi0)
      · rw [List.getElem?_eq_none (by rw [h3', hlen]; omega), List.getElem?_eq_none (by omega)]; rfl
  · rw [V.names, V'.names, hd]
  · refine ⟨_, _, V.coef j hj, V.se j hj, ?_, ?_⟩
    · rw [V'.coef j (by rw [hlen]; exact hj)]
      exact congrArg some (congrArg Block.theta (cellBlock_rescaled (v := 0) hs.pos fun k => (key j hj k).1))
    · rw [V'.se j (by rw [hlen]; exact hj), hv]
      exact congrArg some (congrArg Block.se (cellBlock_rescaled hs.pos fun k => (key j hj k).1))

/-! ## Cross-fitted predictions -/

/-- Predictions of an outcome regression in other units. -/
def CvRes.Rescaled (α β : ℝ) (r r' : CvRes n P (List Cell)) : Prop :=
  ∀ i, ∃ v, r.preds i = some v ∧ r'.preds i = some (α * v + β)

theorem CvRes.Rescaled.vec {α β : ℝ} {r r' : CvRes n P (List Cell)} (h : r.Rescaled α β r') (i : Fin n) :
    r'.vec i = α * r.vec i + β := by
  obtain ⟨v, h1, h2⟩ := h i
  simp [CvRes.vec, h1, h2]

theorem CvRes.Rescaled.mask {α β : ℝ} {r r' : CvRes n P (List Cell)} (h : r.Rescaled α β r') (p q : Fin n → Prop)
    [DecidablePred p] [DecidablePred q] : (maskTargets p r).Rescaled α β (maskTargets q r') := h

/-- Predictions are there for every observation, made by one of the folds. -/
theorem cvPredict_aff {L : Learner P (List Cell)} {α β : ℝ} (hL : L.Affine α β) {x : Fin n → List Cell} {y y' : Fin n → ℝ}
    (hy : ∀ i, y' i = α * y i + β) {S : List (Fold n)} {ps : Params P} {m1 : Bool}
    (hS : FoldsOk S) (hne : ∀ f ∈ S, f.train ≠ []) {q q' : CvRes n P (List Cell)}
    (h : cvPredict L ⟨x, .plain y, S, ps, .predict, false, m1⟩ = .ok q)
    (h' : cvPredict L ⟨x, .plain y', S, ps, .predict, false, m1⟩ = .ok q') : q.Rescaled α β q' := by
  intro i
  obtain ⟨f, hf, _⟩ := C26_complete hS.partition i
  have e1 := C26_prediction_rule (a := ⟨x, .plain y, S, ps, .predict, false, m1⟩) rfl hS.partition hS.nodup h f f.2 i hf
  have e2 := C26_prediction_rule (a := ⟨x, .plain y', S, ps, .predict, false, m1⟩) rfl hS.partition hS.nodup h' f f.2 i hf
  refine ⟨_, e1, ?_⟩
  rw [e2]
  simp only [Target.dataOf]
  rw [← hL]
  · simp only [List.map_map]
    congr 2
    apply List.map_congr_left
    intro j _
    simp [hy]
  · intro h0
    exact hne _ (List.getElem_mem f.2) (List.map_eq_nil_iff.1 h0)

theorem crossFit_aff {L : Learner P (List Cell)} {α β : ℝ} (hL : L.Affine α β) {c : CellIn n P} {l : String}
    {x : Fin n → List Cell} {y y' : Fin n → ℝ} (hy : ∀ i, y' i = α * y i + β) {on : Fin n → Prop} [DecidablePred on]
    (hS : FoldsOk c.smpls) (hne : ∀ f ∈ c.smpls, ∃ i ∈ f.train, on i) {q q' : CvRes n P (List Cell)}
    (h : crossFit L .predict c l x y (condSmpls on c.smpls) = .ok q)
    (h' : crossFit L .predict c l x y' (condSmpls on c.smpls) = .ok q') : q.Rescaled α β q' := by
  refine cvPredict_aff hL hy ⟨by rw [isPartition_cond]; exact hS.partition, fun f hf => (condSmpls_mem hf).1⟩ ?_ h h'
  intro f hf h0
  obtain ⟨-, g, hg, hfg⟩ := condSmpls_mem hf
  obtain ⟨i, hi, ho⟩ := hne g hg
  have := (hfg i).2 ⟨hi, ho⟩
  rw [h0] at this
  cases this

theorem condLearn_aff {L : Learner P (List Cell)} {α β : ℝ} (hL : L.Affine α β) {c : CellIn n P} {l : String}
    {x : Fin n → List Cell} {y y' : Fin n → ℝ} (hy : ∀ i, y' i = α * y i + β) {on keep : Fin n → Prop} [DecidablePred on]
    [DecidablePred keep] (hS : FoldsOk c.smpls) (hne : ∀ f ∈ c.smpls, ∃ i ∈ f.train, on i) {q q' : CvRes n P (List Cell)}
    (h : condLearn L .predict c l x y on keep = .ok q) (h' : condLearn L .predict c l x y' on keep = .ok q') :
    q.Rescaled α β q' := by
  obtain ⟨r, h1, rfl⟩ := condLearn_ok h
  obtain ⟨r', h1', rfl⟩ := condLearn_ok h'
  exact CvRes.Rescaled.mask (crossFit_aff hL hy hS hne h1 h1') keep keep

theorem learn_aff {L : Learner P (List Cell)} {α β : ℝ} (hL : L.Affine α β) {c : CellIn n P} {l : String}
    {y y' : Fin n → ℝ} (hy : ∀ i, y' i = α * y i + β) (hS : FoldsOk c.smpls) (hne : ∀ f ∈ c.smpls, f.train ≠ [])
    {q q' : CvRes n P (List Cell)} (h : learn L .predict c l y = .ok q) (h' : learn L .predict c l y' = .ok q') :
    q.Rescaled α β q' :=
  cvPredict_aff hL hy hS hne (learn_ok h) (learn_ok h')

theorem ssmPart_aff {L : Learner P (List Cell)} {α β : ℝ} (hL : L.Affine α β) {c : CellIn n P} {l : String}
    {x : Fin n → List Cell} {y y' : Fin n → ℝ} (hy : ∀ i, y' i = α * y i + β) {S : List (Fold n)} (hS : FoldsOk S)
    (hne : ∀ f ∈ S, f.train ≠ []) {q q' : CvRes n P (List Cell)} (h : ssmPart L .predict c l x y S = .ok q)
    (h' : ssmPart L .predict c l x y' S = .ok q') : q.Rescaled α β q' :=
  cvPredict_aff hL hy hS hne (ssmPart_ok h) (ssmPart_ok h')

end DML
