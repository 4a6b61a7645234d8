import Verif.ClassTuneProps
import Verif.SensElemProps

/-!
# C73: the stored scores are the published scores of the stored predictions

After a fit that stores predictions, the score of observation `i` is the published orthogonal score of the model class,
evaluated at the data of observation `i`, the stored predictions for observation `i` and the stored estimate.
-/

namespace DML

open Finset

variable {n : ℕ} {P : Type}

/-! ## Specification -/

/-- The stored predictions of nuisance `l` for treatment number `j` in repetition `k`, as numbers (`NaN` reads as 0). -/
noncomputable def LinState.predVec (t : LinState n P) (j k : ℕ) (l : String) (i : Fin n) : ℝ :=
  ((t.predOf j k l).bind fun p => p i).getD 0

/-- Estimate and scores stored for treatment number `j` in repetition `k` are those of the score `ψ`: the scores are the
values of `ψ` at the estimate, the stored derivative is the derivative of `ψ`, and, unless the data are clustered, the
scores at the estimate average to zero. -/
def ScoreIs (t : LinState n P) (clustered : Bool) (j k : ℕ) (ψ : ℝ → Fin n → ℝ) : Prop :=
  ∃ θ dψ, (t.heap t.arr).coef j k = some θ ∧ t.scores j k = some (ψ θ, dψ) ∧ (∀ θ' i, ψ θ' i = ψ 0 i + θ' * dψ i) ∧
    (clustered = false → (∑ i, dψ i ≠ 0) → ∑ i, ψ θ i = 0)

/-- `s` is fitted successfully with stored predictions, `t` is the result; treatment number `j` is `tv`, the folds of
repetition `k` are `S`, the data seen by the estimation of this treatment are `D`. -/
structure FitAt (F : Frame n) (sp : LinSpec n P) (s : LinState n P) (a : FitArgs) (t : LinState n P) (j k : ℕ)
    (D : DataState n) (S : List (Fold n)) : Prop where
  fitted : (fit F sp s a).2 = .ok ()
  final : t = (fit F sp s a).1
  store : a.storePredictions = .bool true
  rep : k < s.nRep
  treat : ∃ tv, s.data.d[j]? = some tv ∧ D = activeData F s.data tv
  split : ∃ L, s.smpls = some L ∧ L[k]? = some S

/-- `p i` is the mean of `v` over the training observations of the fold in which `i` is predicted. -/
def IsTrainMean (S : List (Fold n)) (v p : Fin n → ℝ) : Prop :=
  ∀ f ∈ S, ∀ i ∈ f.test, p i = (f.train.map v).sum / f.train.length

/-- The indicator of `d = v`. -/
def IsIndicator (d : Fin n → ℝ) (v : ℝ) (ind : Fin n → ℝ) : Prop := ∀ i, (d i = v → ind i = 1) ∧ (d i ≠ v → ind i = 0)

/-! ## From cells to fits -/

theorem FitAt.stored {F : Frame n} {sp : LinSpec n P} {s t : LinState n P} {a : FitArgs} {j k : ℕ} {D : DataState n}
    {S : List (Fold n)} (h : FitAt F sp s a t j k D S) :
    ∃ c o, sp.est c = .ok o ∧ c.data = D ∧ c.smpls = S ∧ c.rep = k ∧ (sp.vars = none → c.cluster = none) ∧
      (t.heap t.arr).coef j k = some o.fit.coef ∧ t.scores j k = some (o.fit.psi, o.fit.deriv) ∧
      ∀ l, t.predOf j k l = lookupKey l o.preds := by
  obtain ⟨hf, rfl, hp, hk, ⟨tv, htv, rfl⟩, L, hL, hS⟩ := h
  obtain ⟨p, m, _, hc, _⟩ := fit_ok hf
  obtain ⟨hp', hm⟩ := checkFit_ok hc
  rw [hp] at hp'; cases hp'
  obtain ⟨hj, _⟩ := List.getElem?_eq_some_iff.1 htv
  obtain ⟨c, o, l, H, _, ho, _, h1, _, h3, _, hpr, _⟩ := fit_cells hf hp hm hj hk
  have ht : c.treat = tv := by
    have := H.treat
    rw [htv] at this
    exact (Option.some.inj this).symm
  obtain ⟨L', hL', hS'⟩ := H.smpls
  rw [hL] at hL'
  obtain rfl := Option.some.inj hL'
  rw [hS] at hS'
  refine ⟨c, o, ho, by rw [← ht]; exact H.data, (Option.some.inj hS').symm, H.rep, H.noCluster, h1, h3, ?_⟩
  intro l
  obtain ⟨T, hT, hT'⟩ := Option.map_eq_some_iff.1 (hpr rfl)
  unfold LinState.predOf
  rw [hT, Option.bind_some]
  have h0 : T j k = some (o.preds, o.targets) := hT'
  rw [h0, Option.bind_some]

theorem predVec_eq {t : LinState n P} {j k : ℕ} {l : String} {r : CvRes n P (List Cell)} (h : t.predOf j k l = some r.preds) :
    t.predVec j k l = r.vec := by
  unfold LinState.predVec
  rw [h]
  rfl

theorem FitAt.cell {F : Frame n} {sp : LinSpec n P} {s t : LinState n P} {a : FitArgs} {j k : ℕ} {D : DataState n}
    {S : List (Fold n)} (h : FitAt F sp s a t j k D S) :
    ∃ c o, sp.est c = .ok o ∧ c.data = D ∧ c.smpls = S ∧ c.rep = k ∧ (sp.vars = none → c.cluster = none) ∧
      (t.heap t.arr).coef j k = some o.fit.coef ∧ t.scores j k = some (o.fit.psi, o.fit.deriv) ∧
      ∀ l (r : CvRes n P (List Cell)), lookupKey l o.preds = some r.preds → t.predVec j k l = r.vec := by
  obtain ⟨c, o, h1, h2, h3, h4, h5, h6, h7, h8⟩ := h.stored
  exact ⟨c, o, h1, h2, h3, h4, h5, h6, h7, fun l r hl => predVec_eq (by rw [h8, hl])⟩

/-- A cell with a linear score. -/
theorem scoreIs_of {sp : LinSpec n P} {t : LinState n P} {j k : ℕ} {o : LinOut n P} {e : PsiElems n}
    {cl : Option (ClusterRep n)} (hf : o.fit = e.fit cl) (hcl : sp.vars = none → cl = none)
    (h1 : (t.heap t.arr).coef j k = some o.fit.coef) (h3 : t.scores j k = some (o.fit.psi, o.fit.deriv))
    {ψ : ℝ → Fin n → ℝ} (hψ : ∀ θ i, ψ θ i = e.a i * θ + e.b i) : ScoreIs t sp.vars.isSome j k ψ := by
  rw [hf] at h1 h3
  have hs : ψ (e.fit cl).coef = (e.fit cl).psi := funext fun i => hψ _ i
  refine ⟨_, _, h1, by rw [h3, hs], ?_, ?_⟩
  · intro θ i
    show ψ θ i = ψ 0 i + θ * e.a i
    rw [hψ, hψ]
    ring
  · intro hv ha
    have hv' : sp.vars = none := by
      cases hsp : sp.vars with
      | none => rfl
      | some v => rw [hsp] at hv; cases hv
    obtain rfl := hcl hv'
    rw [hs]
    exact (C19_influence_centred e ha).1

/-! ## Partially linear models -/

/-- **C73, PLR, partialling out.** -/
theorem C73_plr {F : Frame n} {c : PlrClass n P} (hiv : c.iv = false) {s t : LinState n P} {a : FitArgs} {j k : ℕ}
    {D : DataState n} {S : List (Fold n)} (h : FitAt F (plrSpec c) s a t j k D S) :
    ScoreIs t c.vars.isSome j k fun θ i =>
      (D.yNum i - t.predVec j k "ml_l" i - θ * (D.dNum i - t.predVec j k "ml_m" i)) * (D.dNum i - t.predVec j k "ml_m" i) := by
  obtain ⟨ci, o, ho, rfl, -, -, hcl, h1, h3, hp⟩ := h.cell
  obtain ⟨l, h0, ho⟩ := bind_ok ho
  obtain ⟨m, h2, ho⟩ := bind_ok ho
  obtain ⟨g, h4, ho⟩ := bind_ok ho
  obtain rfl := Except.ok.inj ho
  refine scoreIs_of (sp := plrSpec c) rfl hcl h1 h3 ?_
  intro θ i
  rw [hp "ml_l" l (by simp [lookupKey]), hp "ml_m" m (by simp [lookupKey])]
  unfold plrElems
  rw [hiv]
  show (_ - l.vec i - θ * (_ - m.vec i)) * (_ - m.vec i) = - ((_ - m.vec i) * (_ - m.vec i)) * θ + (_ - m.vec i) * (_ - l.vec i)
  simp only [DataState.yNum, DataState.dNum]
  ring

/-- **C73, PLR, IV-type.** -/
theorem C73_plr_iv {F : Frame n} {c : PlrClass n P} (hiv : c.iv = true) {s t : LinState n P} {a : FitArgs} {j k : ℕ}
    {D : DataState n} {S : List (Fold n)} (h : FitAt F (plrSpec c) s a t j k D S) :
    ScoreIs t c.vars.isSome j k fun θ i =>
      (D.yNum i - t.predVec j k "ml_g" i - θ * D.dNum i) * (D.dNum i - t.predVec j k "ml_m" i) := by
  obtain ⟨ci, o, ho, rfl, -, -, hcl, h1, h3, hp⟩ := h.cell
  obtain ⟨l, h0, ho⟩ := bind_ok ho
  obtain ⟨m, h2, ho⟩ := bind_ok ho
  obtain ⟨g, h4, ho⟩ := bind_ok ho
  obtain rfl := Except.ok.inj ho
  refine scoreIs_of (sp := plrSpec c) rfl hcl h1 h3 ?_
  intro θ i
  rw [hp "ml_g" g (by simp [lookupKey]), hp "ml_m" m (by simp [lookupKey])]
  unfold plrElems
  rw [hiv]
  show (_ - g.vec i - θ * _) * (_ - m.vec i) = - ((_ - m.vec i) * _) * θ + (_ - m.vec i) * (_ - g.vec i)
  simp only [DataState.yNum, DataState.dNum]
  ring

theorem instr_of {c : CellIn n P} {z : Fin n → Cell} (hz : c.data.zv = some [z]) {w : Fin n → ℝ} (h : c.instr = .ok w) :
    w = fun i => (z i).val := by
  unfold CellIn.instr at h
  rw [hz] at h
  exact (Except.ok.inj h).symm

/-- **C73, PLIV with one instrument, partialling out.** -/
theorem C73_pliv {F : Frame n} {c : PlivClass n P} (hiv : c.iv = false) {s t : LinState n P} {a : FitArgs} {j k : ℕ}
    {D : DataState n} {S : List (Fold n)} (h : FitAt F (plivSpec c) s a t j k D S) {z : Fin n → Cell} (hz : D.zv = some [z]) :
    ScoreIs t c.vars.isSome j k fun θ i =>
      (D.yNum i - t.predVec j k "ml_l" i - θ * (D.dNum i - t.predVec j k "ml_r" i)) *
        ((z i).val - t.predVec j k "ml_m" i) := by
  obtain ⟨ci, o, ho, rfl, -, -, hcl, h1, h3, hp⟩ := h.cell
  obtain ⟨l, w, m, r, g, -, hw, -, -, -, hf, hpr, -⟩ := plivEst_ok ho
  obtain rfl := instr_of hz hw
  rw [hpr] at hp
  refine scoreIs_of (sp := plivSpec c) hf hcl h1 h3 ?_
  intro θ i
  rw [hp "ml_l" l (by simp [lookupKey]), hp "ml_m" m (by simp [lookupKey]), hp "ml_r" r (by simp [lookupKey])]
  unfold plivElems
  rw [hiv]
  show (_ - l.vec i - θ * (_ - r.vec i)) * (_ - m.vec i) = - ((_ - r.vec i) * (_ - m.vec i)) * θ + (_ - m.vec i) * (_ - l.vec i)
  simp only [DataState.yNum, DataState.dNum, CellIn.y, CellIn.d]
  ring

/-- **C73, PLIV with one instrument, IV-type.** -/
theorem C73_pliv_iv {F : Frame n} {c : PlivClass n P} (hiv : c.iv = true) {s t : LinState n P} {a : FitArgs} {j k : ℕ}
    {D : DataState n} {S : List (Fold n)} (h : FitAt F (plivSpec c) s a t j k D S) {z : Fin n → Cell} (hz : D.zv = some [z]) :
    ScoreIs t c.vars.isSome j k fun θ i =>
      (D.yNum i - t.predVec j k "ml_g" i - θ * D.dNum i) * ((z i).val - t.predVec j k "ml_m" i) := by
  obtain ⟨ci, o, ho, rfl, -, -, hcl, h1, h3, hp⟩ := h.cell
  obtain ⟨l, w, m, r, g, -, hw, -, -, -, hf, hpr, -⟩ := plivEst_ok ho
  obtain rfl := instr_of hz hw
  rw [hpr] at hp
  refine scoreIs_of (sp := plivSpec c) hf hcl h1 h3 ?_
  intro θ i
  rw [hp "ml_g" g (by simp [lookupKey]), hp "ml_m" m (by simp [lookupKey])]
  unfold plivElems
  rw [hiv]
  show (_ - g.vec i - θ * _) * (_ - m.vec i) = - ((_ - m.vec i) * _) * θ + (_ - m.vec i) * (_ - g.vec i)
  simp only [DataState.yNum, DataState.dNum, CellIn.y, CellIn.d]
  ring

/-- **C73, PLIV `partialZ`.** -/
theorem C73_pliv_z {F : Frame n} {c : PlivClass n P} {s t : LinState n P} {a : FitArgs} {j k : ℕ}
    {D : DataState n} {S : List (Fold n)} (h : FitAt F (plivZSpec c) s a t j k D S) :
    ScoreIs t c.vars.isSome j k fun θ i => (D.yNum i - θ * D.dNum i) * t.predVec j k "ml_r" i := by
  obtain ⟨ci, o, ho, rfl, -, -, hcl, h1, h3, hp⟩ := h.cell
  obtain ⟨r, h0, ho⟩ := bind_ok ho
  obtain rfl := Except.ok.inj ho
  refine scoreIs_of (sp := plivZSpec c) rfl hcl h1 h3 ?_
  intro θ i
  rw [hp "ml_r" r (by simp [lookupKey])]
  show (_ - θ * _) * r.vec i = - (r.vec i * _) * θ + r.vec i * _
  simp only [DataState.yNum, DataState.dNum, CellIn.y, CellIn.d]
  ring

/-- **C73, PLIV `partialXZ`.** -/
theorem C73_pliv_xz {F : Frame n} {c : PlivClass n P} {s t : LinState n P} {a : FitArgs} {j k : ℕ}
    {D : DataState n} {S : List (Fold n)} (h : FitAt F (plivXZSpec c) s a t j k D S) :
    ScoreIs t c.vars.isSome j k fun θ i =>
      (D.yNum i - t.predVec j k "ml_l" i - θ * (D.dNum i - t.predVec j k "ml_r" i)) *
        (t.predVec j k "ml_m" i - t.predVec j k "ml_r" i) := by
  obtain ⟨ci, o, ho, rfl, -, -, hcl, h1, h3, hp⟩ := h.cell
  obtain ⟨l, h0, ho⟩ := bind_ok ho
  obtain ⟨m, h2, ho⟩ := bind_ok ho
  obtain ⟨r, h4, ho⟩ := bind_ok ho
  obtain rfl := Except.ok.inj ho
  refine scoreIs_of (sp := plivXZSpec c) rfl hcl h1 h3 ?_
  intro θ i
  rw [hp "ml_l" l (by simp [lookupKey]), hp "ml_m" m (by simp [lookupKey]), hp "ml_r" r (by simp [lookupKey])]
  show (_ - l.vec i - θ * (_ - r.vec i)) * (m.vec i - r.vec i) =
    - ((_ - r.vec i) * (m.vec i - r.vec i)) * θ + (m.vec i - r.vec i) * (_ - l.vec i)
  simp only [DataState.yNum, DataState.dNum, CellIn.y, CellIn.d]
  ring

theorem proj_congr (p : {q : ℕ} → (Fin n → Fin q → ℝ) → (Fin n → ℝ) → Fin n → ℝ) {q q' : ℕ} (h : q = q')
    {V : Fin n → Fin q → ℝ} {V' : Fin n → Fin q' → ℝ} (hV : ∀ i v (h1 : v < q) (h2 : v < q'), V i ⟨v, h1⟩ = V' i ⟨v, h2⟩)
    (w : Fin n → ℝ) : p V w = p V' w := by
  subst h
  have : V = V' := funext fun i => funext fun v => hV i v v.2 v.2
  rw [this]

/-- **C73, PLIV with several instruments**: the residuals of the treatment are projected on the residuals of the
instruments, the projection serves as instrument. -/
theorem C73_pliv_multi {F : Frame n} {c : PlivClass n P} {zs : List String} {s t : LinState n P} {a : FitArgs} {j k : ℕ}
    {D : DataState n} {S : List (Fold n)} (h : FitAt F (plivMultiSpec c zs) s a t j k D S) (hz : (D.z.getD []).Nodup) :
    ScoreIs t c.vars.isSome j k fun θ i =>
      (D.yNum i - t.predVec j k "ml_l" i - θ * (D.dNum i - t.predVec j k "ml_r" i)) *
        c.proj (fun i (v : Fin D.instrs.length) => (D.instrs[v].2 i).val - t.predVec j k (plivName D.instrs[v].1) i)
          (fun i => D.dNum i - t.predVec j k "ml_r" i) i := by
  obtain ⟨ci, o, ho, rfl, -, -, hcl, h1, h3, hp⟩ := h.cell
  obtain ⟨l, -, ho⟩ := bind_ok ho
  obtain ⟨ms, h2, ho⟩ := bind_ok ho
  obtain ⟨r, -, ho⟩ := bind_ok ho
  obtain rfl := Except.ok.inj ho
  obtain ⟨hk, -⟩ := mapM_keys CvRes.preds h2
  have hnd : (([("ml_l", l.preds)] ++ (ms.map fun q => (q.1, q.2.preds)) ++ [("ml_r", r.preds)]).map Prod.fst).Nodup := by
    rw [List.map_append, List.map_append, hk]
    have hi := DataState.instrs_nodup hz
    refine List.nodup_append'.2 ⟨List.nodup_append'.2 ⟨by simp, hi, ?_⟩, by simp, ?_⟩
    · intro x hx hy
      obtain ⟨q, -, rfl⟩ := List.mem_map.1 hy
      exact (plivName_ne q.1).1 (by simpa using hx)
    · intro x hx hy
      obtain rfl : x = "ml_r" := by simpa using hy
      rcases List.mem_append.1 hx with hx | hx
      · simp at hx
      · obtain ⟨q, -, hq⟩ := List.mem_map.1 hx
        exact (plivName_ne q.1).2 hq
  have hl : t.predVec j k "ml_l" = l.vec := hp "ml_l" l (lookupKey_eq_of_nodup hnd (by simp))
  have hr : t.predVec j k "ml_r" = r.vec := hp "ml_r" r (lookupKey_eq_of_nodup hnd (by simp))
  have hlen : ms.length = ci.data.instrs.length := by
    have : ms.length = ci.instrs.length := by simpa using congrArg List.length hk
    exact this
  have hm : ∀ v (h1 : v < ms.length) (h2 : v < ci.data.instrs.length),
      t.predVec j k (plivName ci.data.instrs[v].1) = ms[v].2.vec := by
    intro v hv1 hv2
    have e : ms[v].1 = plivName ci.data.instrs[v].1 := by
      have := congrArg (fun L => L[v]?) hk
      simp only [List.getElem?_map, List.getElem?_eq_getElem hv1, Option.map_some] at this
      have hv2' : v < ci.instrs.length := hv2
      rw [List.getElem?_eq_getElem hv2'] at this
      exact Option.some.inj this
    rw [← e]
    exact hp _ _ (lookupKey_eq_of_nodup hnd (List.mem_append_left _ (List.mem_append_right _
      (List.mem_map.2 ⟨_, List.getElem_mem hv1, rfl⟩))))
  refine scoreIs_of (sp := plivMultiSpec c zs) rfl hcl h1 h3 ?_
  intro θ i
  rw [hl, hr]
  have hproj := proj_congr c.proj hlen.symm
    (V := fun i (v : Fin ci.data.instrs.length) => (ci.data.instrs[v].2 i).val - t.predVec j k (plivName ci.data.instrs[v].1) i)
    (V' := fun i v => instrCol ci i v - instrPred ms i v) (fun i v hv1 hv2 => ?_) (fun i => ci.data.dNum i - r.vec i)
  · rw [hproj]
    show (_ - l.vec i - θ * (_ - r.vec i)) * _ = - ((_ - r.vec i) * _) * θ + _ * (_ - l.vec i)
    have e1 : ci.data.dNum = ci.d := rfl
    have e2 : ci.data.yNum i = ci.y i := rfl
    rw [e1, e2]
    ring
  · have e := congrFun (hm v hv2 hv1) i
    show (ci.data.instrs[v].2 i).val - t.predVec j k (plivName ci.data.instrs[v].1) i = _
    rw [e]
    unfold instrCol instrPred
    have hv1' : v < ci.instrs.length := hv1
    rw [List.getElem?_eq_getElem hv1']
    rfl

/-! ## Interactive models -/

/-- The weight of an observation with indicator `d` and propensity `m`: the inverse propensity, divided by the average
weight if the weights are to be normalised. -/
noncomputable def ipw (normalize : Bool) (d m : Fin n → ℝ) (i : Fin n) : ℝ :=
  d i / m i / if normalize then mean fun j => d j / m j else 1

theorem ipw_adjust (nrm : Bool) {d m : Fin n → ℝ} (hd : Binary d) (r : ℝ) (i : Fin n) :
    d i * r / adjust nrm m d i = ipw nrm d m i * r := by
  unfold adjust ipw
  cases nrm
  · simp only [Bool.false_eq_true, if_false]
    ring
  · simp only [if_true]
    rcases hd i with h | h
    · simp [h]
    · unfold normalizeIpw
      rw [h]
      simp only [one_mul, sub_self, zero_mul, add_zero]
      rw [div_div, one_div, div_eq_mul_inv]
      ring

theorem ipw_adjust_zero (nrm : Bool) {d m : Fin n → ℝ} (hd : Binary d) (r : ℝ) (i : Fin n) :
    (1 - d i) * r / (1 - adjust nrm m d i) = ipw nrm (fun i => 1 - d i) (fun i => 1 - m i) i * r := by
  unfold adjust ipw
  cases nrm
  · simp only [Bool.false_eq_true, if_false]
    ring
  · simp only [if_true]
    rcases hd i with h | h
    · unfold normalizeIpw
      rw [h]
      simp only [sub_zero, one_mul, zero_mul, zero_add, sub_sub_cancel]
      rw [div_div, one_div, div_eq_mul_inv]
      ring
    · simp [h]

/-- **C73, IRM, score ATE with weights.** -/
theorem C73_irm_ate {F : Frame n} {c : IrmClass n P} (hsc : c.atte = false) {s t : LinState n P} {a : FitArgs} {j k : ℕ}
    {D : DataState n} {S : List (Fold n)} (h : FitAt F (irmSpec c) s a t j k D S) (hd : Binary D.dNum) {w wb : Fin n → ℝ}
    (hw : c.weights.at k = .ok (w, wb)) :
    ScoreIs t c.vars.isSome j k fun θ i =>
      w i * (t.predVec j k "ml_g1" i - t.predVec j k "ml_g0" i) +
      wb i * (ipw c.normalize D.dNum (t.predVec j k "ml_m") i * (D.yNum i - t.predVec j k "ml_g1" i) -
        ipw c.normalize (fun i => 1 - D.dNum i) (fun i => 1 - t.predVec j k "ml_m" i) i *
          (D.yNum i - t.predVec j k "ml_g0" i)) -
      θ * (w i / mean w) := by
  obtain ⟨ci, o, ho, rfl, -, hk, hcl, h1, h3, hp⟩ := h.cell
  obtain ⟨g0, g1, m, w', -, -, -, -, h4, hf, hpr, -⟩ := irmEst_ok ho
  unfold irmWeights at h4
  rw [hsc, hk, hw] at h4
  obtain rfl := Except.ok.inj h4
  rw [hpr] at hp
  refine scoreIs_of (sp := irmSpec c) hf hcl h1 h3 ?_
  intro θ i
  rw [hp "ml_g0" g0 (by simp [lookupKey]), hp "ml_g1" g1 (by simp [lookupKey]),
    hp "ml_m" (trimRes c.trimT m) (by simp [lookupKey])]
  rw [← ipw_adjust c.normalize hd, ← ipw_adjust_zero c.normalize hd]
  show w i * (g1.vec i - g0.vec i) + wb i * (_ * (_ - g1.vec i) / adjust c.normalize (trimRes c.trimT m).vec _ i -
      _ * (_ - g0.vec i) / (1 - adjust c.normalize (trimRes c.trimT m).vec _ i)) - _ = -1 * (w i / mean w) * θ +
      (w i * (g1.vec i - g0.vec i) + wb i * (_ * (_ - g1.vec i) / adjust c.normalize (trimRes c.trimT m).vec _ i -
      _ * (_ - g0.vec i) / (1 - adjust c.normalize (trimRes c.trimT m).vec _ i)))
  have e1 : ci.data.dNum = ci.d := rfl
  have e2 : ci.data.yNum i = ci.y i := rfl
  rw [e1, e2]
  ring

theorem propM_finite {L : Learner P (List Cell)} {c : CellIn n P} {y : Fin n → ℝ} {r : CvRes n P (List Cell)}
    (h : propM L c y = .ok r) (hS : isPartition c.smpls = true) (i : Fin n) : (r.preds i).isSome := by
  unfold propM at h
  cases he : c.extOf "ml_m" with
  | some e =>
    rw [he] at h
    rw [← Except.ok.inj h]
    rfl
  | none =>
    rw [he] at h
    obtain ⟨r', -, h⟩ := bind_ok h
    obtain ⟨_, h2, h⟩ := bind_ok h
    obtain rfl := Except.ok.inj h
    unfold checkFinite at h2
    by_contra hn
    rw [if_neg] at h2
    · cases h2
    · intro hall
      exact hn (List.all_eq_true.1 hall i (((isPartition_iff c.smpls).1 hS).mem_iff.2 (List.mem_finRange i)))

/-- **C73, IRM, score ATTE, for the subgroup (or with the weights) `v`**; `p` is the share of treated observations in the
subgroup.  Untreated observations are weighted by the odds `m / (1 - m)`, with normalisation by the normalised inverse
propensity minus one. -/
theorem C73_irm_atte {F : Frame n} {c : IrmClass n P} (hsc : c.atte = true)
    {s t : LinState n P} {a : FitArgs} {j k : ℕ} {D : DataState n} {S : List (Fold n)}
    (h : FitAt F (irmSpec c) s a t j k D S) (hd : Binary D.dNum) {v : Fin n → ℝ}
    (hv : ∀ i : Fin n, c.weights.weights.entries.getD i 0 = v i)
    (hS : isPartition S = true) (ht0 : 0 < c.trimT) (ht1 : c.trimT < 1 / 2) :
    ScoreIs t c.vars.isSome j k fun θ i =>
      let d := D.dNum
      let m := t.predVec j k "ml_m"
      let p := mean fun i => v i * d i
      let odds := if c.normalize then ipw true (fun i => 1 - d i) (fun i => 1 - m i) i - (1 - d i)
        else m i / (1 - m i) * (1 - d i)
      v i * d i / p * (D.yNum i - t.predVec j k "ml_g0" i) - odds * (v i / p) * (D.yNum i - t.predVec j k "ml_g0" i) -
      θ * (v i * d i / p) := by
  obtain ⟨ci, o, ho, rfl, rfl, hk, hcl, h1, h3, hp⟩ := h.cell
  obtain ⟨g0, g1, m, w', -, -, -, hpm, h4, hf, hpr, -⟩ := irmEst_ok ho
  have hm : ∀ i, 0 < (trimRes c.trimT m).vec i ∧ (trimRes c.trimT m).vec i < 1 := by
    intro i
    obtain ⟨v, hv⟩ := Option.isSome_iff_exists.1 (propM_finite hpm hS i)
    have e : (trimRes c.trimT m).vec i = trim c.trimT v := by
      show ((m.preds i).map (trim c.trimT)).getD 0 = _
      rw [hv]
      rfl
    rw [e]
    have := C39_range ht1 v
    exact ⟨ht0.trans_le this.1, by linarith [this.2.1]⟩
  unfold irmWeights at h4
  rw [hsc, if_pos rfl] at h4
  obtain rfl := Except.ok.inj h4
  rw [hpr] at hp
  refine scoreIs_of (sp := irmSpec c) hf hcl h1 h3 ?_
  intro θ i
  dsimp only
  rw [hp "ml_m" (trimRes c.trimT m) (by simp [lookupKey])]
  rw [hp "ml_g0" g0 (by simp [lookupKey])]
  have e1 : ci.data.dNum = ci.d := rfl
  have e2 : ci.data.yNum i = ci.y i := rfl
  rw [e1] at hd ⊢
  rw [e2]
  dsimp only [irmElems, atteWeights]
  simp only [hv]
  generalize (trimRes c.trimT m).vec = M at hm ⊢
  by_cases hpp : mean (fun i => v i * ci.d i) = 0
  · rw [hpp]
    simp
  have hmw : mean (fun i => v i * ci.d i / mean fun i => v i * ci.d i) = 1 := by
    have : mean (fun i => v i * ci.d i / mean fun i => v i * ci.d i) = mean (fun i => v i * ci.d i) / mean fun i => v i * ci.d i := by
      unfold mean
      rw [← Finset.sum_div]
      ring
    rw [this, div_self hpp]
  rw [hmw]
  generalize mean (fun i => v i * ci.d i) = p at hpp
  have key : ∀ i, (ci.d i = 1 → adjust c.normalize M ci.d i ≠ 0) ∧
      (ci.d i = 0 → adjust c.normalize M ci.d i / (1 - adjust c.normalize M ci.d i) =
        if c.normalize = true then ipw true (fun i => 1 - ci.d i) (fun i => 1 - M i) i - 1 else M i / (1 - M i)) := by
    intro i
    have hpos : ∀ (e q : Fin n → ℝ), (∀ i, e i = 0 ∨ e i = 1) → (∀ i, 0 < q i) → e i = 1 → 0 < mean fun j => e j / q j := by
      intro e q he hq hi
      have hn : 0 < n := i.pos
      unfold mean
      refine div_pos (Finset.sum_pos' (fun j _ => ?_) ⟨i, Finset.mem_univ i, ?_⟩) (by exact_mod_cast hn)
      · rcases he j with h | h <;> rw [h]
        · simp
        · exact (div_pos one_pos (hq j)).le
      · rw [hi]
        exact div_pos one_pos (hq i)
    unfold adjust ipw
    by_cases hn : c.normalize = true
    · rw [if_pos hn, if_pos hn]
      refine ⟨fun h1 => ?_, fun h0 => ?_⟩
      · unfold normalizeIpw
        rw [h1]
        have := hpos ci.d M hd (fun i => (hm i).1) h1
        have h2 := mul_pos (hm i).1 this
        simp only [one_mul, sub_self, zero_mul, add_zero]
        exact h2.ne'
      · unfold normalizeIpw
        have := hpos (fun i => 1 - ci.d i) (fun i => 1 - M i) (fun i => by rcases hd i with h | h <;> simp [h])
          (fun i => by linarith [(hm i).2]) (by simp [h0])
        have h1m : (1 - M i) ≠ 0 := by linarith [(hm i).2]
        rw [h0]
        simp only [zero_mul, sub_zero, one_mul, zero_add, sub_sub_cancel, if_true]
        have h3 := this.ne'
        generalize (mean fun j => (1 - ci.d j) / (1 - M j)) = q at h3
        field_simp
        rw [h0, sub_zero]
    · rw [if_neg hn, if_neg hn]
      exact ⟨fun _ => (hm i).1.ne', fun _ => rfl⟩
  obtain ⟨k1, k0⟩ := key i
  generalize adjust c.normalize M ci.d i = A at k1 k0
  rcases hd i with h0 | h0
  · have k0 := k0 h0
    rw [h0]
    simp only [mul_zero, zero_div, zero_mul, sub_zero, mul_one, one_mul, zero_add, zero_sub, div_one]
    rw [← k0]
    ring
  · have k1 := k1 h0
    rw [h0]
    have hz : (if c.normalize = true then ipw true (fun i => 1 - ci.d i) (fun i => 1 - M i) i - (1 - 1) else M i / (1 - M i) * (1 - 1)) = 0 := by
      unfold ipw
      dsimp only
      rw [h0]
      simp
    rw [hz]
    field_simp
    ring

/-- **C73, APO**: potential outcome at level `c.level`. -/
theorem C73_apo {F : Frame n} {c : ApoClass n P} {s t : LinState n P} {a : FitArgs} {j k : ℕ}
    {D : DataState n} {S : List (Fold n)} (h : FitAt F (apoSpec c) s a t j k D S) {w wb ind : Fin n → ℝ}
    (hw : c.weights.at k = .ok (w, wb)) (hind : IsIndicator D.dNum c.level ind) :
    ScoreIs t c.vars.isSome j k fun θ i =>
      w i * t.predVec j k "ml_g_d_lvl1" i +
      wb i * (ipw c.normalize ind (t.predVec j k "ml_m") i * (D.yNum i - t.predVec j k "ml_g_d_lvl1" i)) -
      θ * (w i / mean w) := by
  obtain ⟨ci, o, ho, rfl, -, hk, hcl, h1, h3, hp⟩ := h.cell
  obtain ⟨g1, g0, m, w', -, -, -, -, -, h4, hf, hpr, -⟩ := apoEst_ok ho
  rw [hk, hw] at h4
  obtain rfl := Except.ok.inj h4
  rw [hpr] at hp
  have hti : c.treated ci = ind := by
    funext i
    unfold ApoClass.treated
    by_cases hi : ci.d i = c.level
    · rw [if_pos hi, (hind i).1 hi]
    · rw [if_neg hi, (hind i).2 hi]
  have hb : Binary ind := fun i => by
    by_cases hi : ci.data.dNum i = c.level
    · exact Or.inr ((hind i).1 hi)
    · exact Or.inl ((hind i).2 hi)
  rw [hti] at hf
  refine scoreIs_of (sp := apoSpec c) hf hcl h1 h3 ?_
  intro θ i
  rw [hp "ml_g_d_lvl1" g1 (by simp [lookupKey]), hp "ml_m" (trimRes c.trimT m) (by simp [lookupKey])]
  rw [← ipw_adjust c.normalize hb]
  show w i * g1.vec i + wb i * (_ * (_ - g1.vec i) / adjust c.normalize (trimRes c.trimT m).vec _ i) - _ =
    -1 * (w i / mean w) * θ + (w i * g1.vec i + wb i * (_ * (_ - g1.vec i) / adjust c.normalize (trimRes c.trimT m).vec _ i))
  have e2 : ci.data.yNum i = ci.y i := rfl
  rw [e2]
  ring

/-- **C73, IIVM without normalisation.** -/
theorem C73_iivm {F : Frame n} {c : IivmClass n P} (hnm : c.normalize = false) {s t : LinState n P} {a : FitArgs} {j k : ℕ}
    {D : DataState n} {S : List (Fold n)} (h : FitAt F (iivmSpec c) s a t j k D S) {z : Fin n → Cell} (hz : D.zv = some [z]) :
    ScoreIs t c.vars.isSome j k fun θ i =>
      let Z := (z i).val
      let m := t.predVec j k "ml_m" i
      let g0 := t.predVec j k "ml_g0" i
      let g1 := t.predVec j k "ml_g1" i
      let r0 := t.predVec j k "ml_r0" i
      let r1 := t.predVec j k "ml_r1" i
      g1 - g0 + Z * (D.yNum i - g1) / m - (1 - Z) * (D.yNum i - g0) / (1 - m) -
      θ * (r1 - r0 + Z * (D.dNum i - r1) / m - (1 - Z) * (D.dNum i - r0) / (1 - m)) := by
  obtain ⟨ci, o, ho, rfl, -, -, hcl, h1, h3, hp⟩ := h.cell
  obtain ⟨w, g0, g1, m, r0, r1, hw, -, -, -, -, -, -, -, hf, hpr, -⟩ := iivmEst_ok ho
  obtain rfl := instr_of hz hw
  rw [hpr] at hp
  refine scoreIs_of (sp := iivmSpec c) hf hcl h1 h3 ?_
  intro θ i
  dsimp only
  rw [hp "ml_g0" g0 (by simp [lookupKey]), hp "ml_g1" g1 (by simp [lookupKey]),
    hp "ml_m" (trimRes c.trimT m) (by simp [lookupKey]), hp "ml_r0" r0 (by simp [lookupKey]),
    hp "ml_r1" r1 (by simp [lookupKey])]
  unfold iivmElems
  rw [hnm]
  dsimp only [DataState.yNum, DataState.dNum, CellIn.y, CellIn.d]
  simp only [Bool.false_eq_true, if_false]
  dsimp only [CvRes.vec]
  ring

/-! ## Difference in differences -/

theorem pairwise_disjoint_of {S : List (Fold n)} (h : isPartition S = true) :
    S.Pairwise fun f g => List.Disjoint f.test g.test := by
  have hn : (S.map Fold.test).flatten.Nodup := ((isPartition_iff S).1 h).nodup_iff.2 (List.nodup_finRange n)
  rw [List.nodup_flatten] at hn
  exact List.pairwise_map.1 hn.2

theorem shareOf_trainMean {S : List (Fold n)} (hS : isPartition S = true) {v p : Fin n → ℝ} (hp : IsTrainMean S v p) :
    shareOf v S = p := by
  funext i
  have hmem : i ∈ (S.map Fold.test).flatten := ((isPartition_iff S).1 hS).mem_iff.2 (List.mem_finRange i)
  obtain ⟨l, hl, hi⟩ := List.mem_flatten.1 hmem
  obtain ⟨f, hf, rfl⟩ := List.mem_map.1 hl
  unfold shareOf
  rw [C42_training_share v S (pairwise_disjoint_of hS) hf hi, hp f hf i hi]
  rfl

/-- **C73, DiD for panel data**: with or without normalisation, with or without propensities; `p` is the share of treated
observations in the training sample. -/
theorem C73_did {F : Frame n} {c : DidClass n P} {s t : LinState n P} {a : FitArgs} {j k : ℕ}
    {D : DataState n} {S : List (Fold n)} (h : FitAt F (didSpec c) s a t j k D S) (hS : isPartition S = true)
    {p : Fin n → ℝ} (hp : IsTrainMean S D.dNum p) :
    ScoreIs t c.vars.isSome j k fun θ i =>
      let d := D.dNum
      let m := t.predVec j k "ml_m"
      let g0 := t.predVec j k "ml_g0" i
      let g1 := t.predVec j k "ml_g1" i
      match c.score, c.normalize with
      | .observational, false => (d i - m i) / (p i * (1 - m i)) * (D.yNum i - g0) - θ * (d i / p i)
      | .observational, true =>
        (d i / mean d - (1 - d i) * (m i / (1 - m i)) / mean fun l => (1 - d l) * (m l / (1 - m l))) * (D.yNum i - g0) -
          θ * (d i / mean d)
      | .experimental, false =>
        (d i - p i) / (p i * (1 - p i)) * (D.yNum i - g0) + (1 - d i / p i) * (g1 - g0) - θ
      | .experimental, true =>
        (d i / mean d - (1 - d i) / mean fun l => 1 - d l) * (D.yNum i - g0) + (1 - d i / mean d) * (g1 - g0) - θ := by
  obtain ⟨ci, o, ho, rfl, rfl, -, hcl, h1, h3, hpv⟩ := h.cell
  obtain ⟨g0, g1, m, -, -, -, hf, hpr, -⟩ := didEst_ok ho
  rw [hpr] at hpv
  have hsh : shareOf ci.d ci.smpls = p := shareOf_trainMean hS hp
  rw [hsh] at hf
  refine scoreIs_of (sp := didSpec c) hf hcl h1 h3 ?_
  intro θ i
  dsimp only
  rw [hpv "ml_g0" g0 (by simp [lookupKey]), hpv "ml_g1" g1 (by simp [lookupKey]),
    hpv "ml_m" m (by simp [lookupKey])]
  have e1 : ci.data.dNum = ci.d := rfl
  have e2 : ci.data.yNum i = ci.y i := rfl
  rw [e1, e2]
  cases c.score <;> cases c.normalize <;> simp only [didElems, didWa, didWr, didB1] <;> ring

/-- **C73, DiD for repeated cross-sections**; `p` and `lam` are the shares of treated observations and of observations
after the treatment in the training sample. -/
theorem C73_didcs {F : Frame n} {c : DidClass n P} {s t : LinState n P} {a : FitArgs} {j k : ℕ}
    {D : DataState n} {S : List (Fold n)} (h : FitAt F (csSpec c) s a t j k D S) (hS : isPartition S = true)
    {tv : Fin n → Cell} (ht : D.tv = some tv) {p lam : Fin n → ℝ} (hp : IsTrainMean S D.dNum p)
    (hlam : IsTrainMean S (fun i => (tv i).val) lam) :
    ScoreIs t c.vars.isSome j k fun θ i =>
      let d := D.dNum
      let T := fun i => (tv i).val
      let m := t.predVec j k "ml_m"
      let odds := fun i => m i / (1 - m i)
      let g11 := t.predVec j k "ml_g_d1_t1" i
      let g10 := t.predVec j k "ml_g_d1_t0" i
      let g01 := t.predVec j k "ml_g_d0_t1" i
      let g00 := t.predVec j k "ml_g_d0_t0" i
      let eff := (g11 - g10) - (g01 - g00)
      let y := D.yNum i
      match c.score, c.normalize with
      | .observational, false =>
        d i / p i * eff + d i * T i / (p i * lam i) * (y - g11) - d i * (1 - T i) / (p i * (1 - lam i)) * (y - g10) -
          (1 - d i) * T i * odds i / (p i * lam i) * (y - g01) +
          (1 - d i) * (1 - T i) * odds i / (p i * (1 - lam i)) * (y - g00) - θ * (d i / p i)
      | .observational, true =>
        d i / mean d * eff + (d i * T i / mean fun l => d l * T l) * (y - g11) -
          (d i * (1 - T i) / mean fun l => d l * (1 - T l)) * (y - g10) -
          ((1 - d i) * T i * odds i / mean fun l => (1 - d l) * T l * odds l) * (y - g01) +
          ((1 - d i) * (1 - T i) * odds i / mean fun l => (1 - d l) * (1 - T l) * odds l) * (y - g00) - θ * (d i / mean d)
      | .experimental, false =>
        eff + d i * T i / (p i * lam i) * (y - g11) - d i * (1 - T i) / (p i * (1 - lam i)) * (y - g10) -
          (1 - d i) * T i / ((1 - p i) * lam i) * (y - g01) +
          (1 - d i) * (1 - T i) / ((1 - p i) * (1 - lam i)) * (y - g00) - θ
      | .experimental, true =>
        eff + (d i * T i / mean fun l => d l * T l) * (y - g11) -
          (d i * (1 - T i) / mean fun l => d l * (1 - T l)) * (y - g10) -
          ((1 - d i) * T i / mean fun l => (1 - d l) * T l) * (y - g01) +
          ((1 - d i) * (1 - T i) / mean fun l => (1 - d l) * (1 - T l)) * (y - g00) - θ := by
  obtain ⟨ci, o, ho, rfl, rfl, -, hcl, h1, h3, hpv⟩ := h.cell
  obtain ⟨T, hT, ho⟩ := bind_ok ho
  obtain ⟨g00, -, ho⟩ := bind_ok ho
  obtain ⟨g01, -, ho⟩ := bind_ok ho
  obtain ⟨g10, -, ho⟩ := bind_ok ho
  obtain ⟨g11, -, ho⟩ := bind_ok ho
  obtain ⟨m, -, ho⟩ := bind_ok ho
  have hT' : T = fun i => (tv i).val := by
    unfold CellIn.time at hT
    rw [ht] at hT
    exact (Except.ok.inj hT).symm
  subst hT'
  have hsh : shareOf ci.d ci.smpls = p := shareOf_trainMean hS hp
  have hsl : shareOf (fun i => (tv i).val) ci.smpls = lam := shareOf_trainMean hS hlam
  obtain rfl := Except.ok.inj ho
  refine scoreIs_of (sp := csSpec c) (e := didCsElems c.score c.normalize ci.y ci.d (fun i => (tv i).val)
    ⟨g11.vec, g10.vec, g01.vec, g00.vec⟩ m.vec p lam) ?_ hcl h1 h3 ?_
  · dsimp only
    rw [hsh, hsl]
  intro θ i
  dsimp only
  rw [hpv "ml_g_d0_t0" g00 (by simp [lookupKey]), hpv "ml_g_d0_t1" g01 (by simp [lookupKey]),
    hpv "ml_g_d1_t0" g10 (by simp [lookupKey]), hpv "ml_g_d1_t1" g11 (by simp [lookupKey]),
    hpv "ml_m" m (by simp [lookupKey])]
  have e1 : ci.data.dNum = ci.d := rfl
  have e2 : ci.data.yNum i = ci.y i := rfl
  rw [e1, e2]
  cases c.score <;> cases c.normalize <;> simp only [didCsElems, csResid, cells, didWa] <;> ring

/-! ## Sample selection -/

theorem dIs_one {ci : CellIn n P} (hd : Binary ci.data.dNum) (i : Fin n) : ci.dIs 1 i = ci.d i := by
  unfold CellIn.dIs
  rcases hd i with h0 | h0
  · have h0' : ci.d i = 0 := h0
    rw [h0', if_neg (by norm_num)]
  · have h0' : ci.d i = 1 := h0
    rw [h0', if_pos rfl]

theorem dIs_zero {ci : CellIn n P} (hd : Binary ci.data.dNum) (i : Fin n) : ci.dIs 0 i = 1 - ci.d i := by
  unfold CellIn.dIs
  rcases hd i with h0 | h0
  · have h0' : ci.d i = 0 := h0
    rw [h0', if_pos rfl, sub_zero]
  · have h0' : ci.d i = 1 := h0
    rw [h0', if_neg (by norm_num), sub_self]

/-- **C73, SSM, missing at random, without normalisation.** -/
theorem C73_ssm {F : Frame n} {c : SsmClass n P} (hnm : c.normalize = false) {s t : LinState n P} {a : FitArgs} {j k : ℕ}
    {D : DataState n} {S : List (Fold n)} (h : FitAt F (ssmSpec c) s a t j k D S) (hd : Binary D.dNum) {sv : Fin n → Cell}
    (hs : D.sv = some sv) :
    ScoreIs t c.vars.isSome j k fun θ i =>
      let d := D.dNum i
      let m := t.predVec j k "ml_m" i
      let pi := t.predVec j k "ml_pi" i
      let g0 := t.predVec j k "ml_g_d0" i
      let g1 := t.predVec j k "ml_g_d1" i
      g1 - g0 + d * (sv i).val * (D.yNum i - g1) / (m * pi) - (1 - d) * (sv i).val * (D.yNum i - g0) / ((1 - m) * pi) - θ := by
  obtain ⟨ci, o, ho, rfl, -, -, hcl, h1, h3, hpv⟩ := h.cell
  obtain ⟨w, hw, ho⟩ := bind_ok ho
  obtain ⟨pi, -, ho⟩ := bind_ok ho
  obtain ⟨m, -, ho⟩ := bind_ok ho
  obtain ⟨g1, -, ho⟩ := bind_ok ho
  obtain ⟨g0, -, ho⟩ := bind_ok ho
  obtain ⟨_, -, ho⟩ := bind_ok ho
  have hw' : w = fun i => (sv i).val := by
    unfold CellIn.sel at hw
    rw [hs] at hw
    exact (Except.ok.inj hw).symm
  subst hw'
  obtain rfl := Except.ok.inj ho
  refine scoreIs_of (sp := ssmSpec c) rfl hcl h1 h3 ?_
  intro θ i
  dsimp only
  rw [hpv "ml_g_d0" g0 (by simp [lookupKey]), hpv "ml_g_d1" g1 (by simp [lookupKey]),
    hpv "ml_m" (trimRes c.trimT m) (by simp [lookupKey]), hpv "ml_pi" pi (by simp [lookupKey])]
  have e1 : ci.data.dNum = ci.d := rfl
  have e2 : ci.data.yNum i = ci.y i := rfl
  rw [e1, e2]
  unfold ssmElems
  rw [hnm]
  simp only [Bool.false_eq_true, if_false]
  rw [dIs_one hd, dIs_zero hd]
  ring

/-- **C73, SSM, nonignorable nonresponse, without normalisation.** -/
theorem C73_ssm_nonignorable {F : Frame n} {c : SsmNonClass n P} (hnm : c.normalize = false) {s t : LinState n P}
    {a : FitArgs} {j k : ℕ} {D : DataState n} {S : List (Fold n)} (h : FitAt F (ssmNonSpec c) s a t j k D S)
    (hd : Binary D.dNum) {sv : Fin n → Cell} (hs : D.sv = some sv) :
    ScoreIs t c.vars.isSome j k fun θ i =>
      let d := D.dNum i
      let m := t.predVec j k "ml_m" i
      let pi := t.predVec j k "ml_pi" i
      let g0 := t.predVec j k "ml_g_d0" i
      let g1 := t.predVec j k "ml_g_d1" i
      g1 - g0 + d * (sv i).val * (D.yNum i - g1) / (m * pi) - (1 - d) * (sv i).val * (D.yNum i - g0) / ((1 - m) * pi) - θ := by
  obtain ⟨ci, o, ho, rfl, -, -, hcl, h1, h3, hpv⟩ := h.cell
  obtain ⟨w, dx, r, hw, -, -, -, hf, hpr, -⟩ := ssmNonEst_ok ho
  have hw' : w = fun i => (sv i).val := by
    unfold CellIn.sel at hw
    rw [hs] at hw
    exact (Except.ok.inj hw).symm
  subst hw'
  rw [hpr] at hpv
  refine scoreIs_of (sp := ssmNonSpec c) hf hcl h1 h3 ?_
  intro θ i
  dsimp only
  rw [hpv "ml_g_d0" ⟨r.g0, none, none, none⟩ (by simp [lookupKey]), hpv "ml_g_d1" ⟨r.g1, none, none, none⟩ (by simp [lookupKey]),
    hpv "ml_m" ⟨r.m, none, none, none⟩ (by simp [lookupKey]), hpv "ml_pi" ⟨r.pi, none, none, none⟩ (by simp [lookupKey])]
  have e1 : ci.data.dNum i = ci.d i := rfl
  have e2 : ci.data.yNum i = ci.y i := rfl
  rw [e1, e2]
  dsimp only [CvRes.vec]
  unfold ssmElems
  rw [hnm]
  simp only [Bool.false_eq_true, if_false]
  rw [dIs_one hd, dIs_zero hd]
  ring

/-! ## Quantiles -/

/-- Estimate and scores stored for treatment number `j` in repetition `k` are those of the score `ψ`, which need not be
linear: the scores are the values of `ψ` at the estimate. -/
def ScoreValue (t : LinState n P) (j k : ℕ) (ψ : ℝ → Fin n → ℝ) : Prop :=
  ∃ θ dψ, (t.heap t.arr).coef j k = some θ ∧ t.scores j k = some (ψ θ, dψ)

/-- The propensity of treatment level 0 or 1, given the propensity of level 1. -/
noncomputable def levelProb (treatment : ℝ) (m : Fin n → ℝ) (i : Fin n) : ℝ := if treatment = 0 then 1 - m i else m i

theorem indEq_eq {d ind : Fin n → ℝ} {v : ℝ} (h : IsIndicator d v ind) (i : Fin n) : indEq (d i) v = ind i := by
  unfold indEq
  split_ifs with hi
  · exact ((h i).1 hi).symm
  · exact ((h i).2 hi).symm

theorem quant_ipw {c : QuantSet} {d ind m m' : Fin n → ℝ} (hd : Binary d) (ht : c.treatment = 0 ∨ c.treatment = 1)
    (hi : IsIndicator d c.treatment ind) (hm : ∀ i, m' i = trim c.trimT (m i)) (r : ℝ) (i : Fin n) :
    ind i * r / c.adj m d i = ipw c.normalize ind (levelProb c.treatment m') i * r := by
  have hm' : m' = fun j => trim c.trimT (m j) := funext hm
  unfold QuantSet.adj
  rcases ht with ht | ht
  · have e : ind = fun i => 1 - d i := by
      funext i
      rcases hd i with h | h
      · rw [(hi i).1 (by rw [h, ht]), h, sub_zero]
      · rw [(hi i).2 (by rw [h, ht]; norm_num), h, sub_self]
    have e2 : levelProb c.treatment m' = fun i => 1 - m' i := by
      funext i
      unfold levelProb
      rw [if_pos ht]
    rw [if_pos ht, e, e2, ← ipw_adjust_zero c.normalize hd, hm']
  · have e : ind = d := by
      funext i
      rcases hd i with h | h
      · rw [(hi i).2 (by rw [h, ht]; norm_num), h]
      · rw [(hi i).1 (by rw [h, ht]), h]
    have ht0 : c.treatment ≠ 0 := by rw [ht]; norm_num
    have e2 : levelProb c.treatment m' = m' := by
      funext i
      unfold levelProb
      rw [if_neg ht0]
    rw [if_neg ht0, e, e2, ← ipw_adjust c.normalize hd, hm']

theorem quantNuisance_m {X : Type} {E : NestedExt n} {mlM : Learner P X} {evG : FittedModel P X → X → ℝ} {c : QuantSet}
    {target : ℝ → ℝ → ℝ} {D : Obs n X} {S : List (Fold n)} {psG psM : Option (List P)} {gExt mExt : Option (Fin n → ℝ)}
    {wm : Bool} {r : QuantOut n P X} (h : quantNuisance E mlM evG c target D S psG psM gExt mExt wm = .ok r) :
    ∃ m : Fin n → Option ℝ, (r.m = fun i => (m i).map (trim c.trimT)) ∧ r.mAdj = c.adj (fun i => (m i).getD 0) D.d := by
  obtain ⟨rs, -, h⟩ := bind_ok h
  by_cases hw : (wm && (gExt.isSome || mExt.isSome)) = true
  · rw [if_pos hw] at h
    cases h
  · rw [if_neg hw] at h
    obtain rfl := Except.ok.inj h
    exact ⟨_, rfl, rfl⟩

/-- Every observation gets a propensity. -/
theorem quantNuisance_finite {X : Type} {E : NestedExt n} {mlM : Learner P X} {evG : FittedModel P X → X → ℝ} {c : QuantSet}
    {target : ℝ → ℝ → ℝ} {D : Obs n X} {S : List (Fold n)} {psG psM : Option (List P)} {gExt mExt : Option (Fin n → ℝ)}
    {wm : Bool} {r : QuantOut n P X} (h : quantNuisance E mlM evG c target D S psG psM gExt mExt wm = .ok r)
    (hS : isPartition S = true) (i : Fin n) : (r.m i).isSome := by
  obtain ⟨h1, -, h3⟩ := quantNuisance_ok h
  rw [h3]
  dsimp only
  rw [Option.isSome_map]
  cases mExt with
  | some m => rfl
  | none =>
    unfold quantPasses at h1
    rw [if_neg (by simp)] at h1
    have hi : i ∈ (S.map Fold.test).flatten := ((isPartition_iff S).1 hS).mem_iff.2 (List.mem_finRange i)
    obtain ⟨l, hl, hil⟩ := List.mem_flatten.1 hi
    obtain ⟨f, hf, rfl⟩ := List.mem_map.1 hl
    obtain ⟨q, hq, hfq⟩ := List.getElem_of_mem hf
    obtain ⟨r', hr, -, hg⟩ := gather_at quantPass_fst h1 hS (k := q) (f := f) (by rw [List.getElem?_eq_getElem hq, hfq]) hil
    rw [orExt_none, hg]
    unfold quantPass at hr
    obtain ⟨pg, -, hr⟩ := bind_ok hr
    obtain ⟨pm, -, hr⟩ := bind_ok hr
    obtain ⟨r₂, hr₂, hr⟩ := bind_ok hr
    obtain rfl : r₂ = r' := (Prod.mk.inj (Except.ok.inj hr)).2
    unfold quantFold at hr₂
    obtain ⟨hs, -, hr₂⟩ := bind_ok hr₂
    obtain ⟨s, -, hr₂⟩ := bind_ok hr₂
    obtain ⟨mp, -, hr₂⟩ := bind_ok hr₂
    obtain rfl := Except.ok.inj hr₂
    rfl

theorem trimmed_vec {t : LinState n P} {j k : ℕ} {p m : Fin n → Option ℝ} {T : ℝ} (hp : t.predOf j k "ml_m" = some p)
    (hm : p = fun i => (m i).map (trim T)) (hfin : ∀ i, (p i).isSome) (i : Fin n) :
    t.predVec j k "ml_m" i = trim T ((m i).getD 0) := by
  have h := hfin i
  unfold LinState.predVec
  rw [hm] at h
  rw [hp, hm, Option.bind_some]
  dsimp only at h ⊢
  cases hi : m i with
  | none => rw [hi] at h; cases h
  | some v => rfl

/-- **C73, potential quantiles** (of level 0 or 1). -/
theorem C73_pq {F : Frame n} {c : PqClass n P} (hc : c.treatment = 0 ∨ c.treatment = 1) {s t : LinState n P} {a : FitArgs}
    {j k : ℕ} {D : DataState n} {S : List (Fold n)} (h : FitAt F (pqSpec c) s a t j k D S) (hd : Binary D.dNum)
    (hS : isPartition S = true) {ind : Fin n → ℝ} (hind : IsIndicator D.dNum c.treatment ind) :
    ScoreValue t j k fun θ i =>
      let g := t.predVec j k "ml_g" i
      ipw c.normalize ind (levelProb c.treatment (t.predVec j k "ml_m")) i * ((if D.yNum i ≤ θ then 1 else 0) - g) + g - c.q := by
  obtain ⟨ci, o, ho, rfl, rfl, -, hcl, h1, h3, hpv⟩ := h.stored
  obtain ⟨r, hr, ho⟩ := bind_ok ho
  obtain rfl := Except.ok.inj ho
  have hg := predVec_eq (r := ⟨r.g, none, none, none⟩) ((hpv "ml_g").trans (by simp [lookupKey]))
  obtain ⟨m, hm1, hm2⟩ := quantNuisance_m hr
  have htr := trimmed_vec ((hpv "ml_m").trans (by simp [lookupKey])) hm1 (quantNuisance_finite hr hS)
  refine ⟨_, _, h1, h3.trans (congrArg some (Prod.ext (funext fun i => ?_) rfl))⟩
  dsimp only
  generalize newStart ci.start (ci.extOf "ml_g") (ci.extOf "ml_m") r.folds = st
  show pqScore c.q (pqFit c st (fun i => indEq (ci.obs.d i) c.treatment) (fun i => (r.g i).getD 0) r.mAdj ci.obs.y ci.cluster).coef
    (indEq (ci.obs.d i) c.treatment) ((r.g i).getD 0) (r.mAdj i) (ci.obs.y i) = _
  generalize (pqFit c st (fun i => indEq (ci.obs.d i) c.treatment) (fun i => (r.g i).getD 0) r.mAdj ci.obs.y ci.cluster).coef = θ
  rw [hg, hm2]
  have hi : indEq (ci.obs.d i) c.treatment = ind i := indEq_eq hind i
  unfold pqScore
  rw [hi, quant_ipw (c := c.set ci.start) (d := ci.obs.d) hd hc hind htr]
  rfl

/-- **C73, CVaR** (of level 0 or 1): `pq` is the preliminary estimate of the quantile. -/
theorem C73_cvar {F : Frame n} {c : PqClass n P} (hc : c.treatment = 0 ∨ c.treatment = 1) {s t : LinState n P} {a : FitArgs}
    {j k : ℕ} {D : DataState n} {S : List (Fold n)} (h : FitAt F (cvarSpec c) s a t j k D S) (hd : Binary D.dNum)
    (hS : isPartition S = true) {ind : Fin n → ℝ} (hind : IsIndicator D.dNum c.treatment ind) :
    ∃ pq, ScoreIs t c.vars.isSome j k fun θ i =>
      let g := t.predVec j k "ml_g" i
      ipw c.normalize ind (levelProb c.treatment (t.predVec j k "ml_m")) i *
        (max pq ((D.yNum i - c.q * pq) / (1 - c.q)) - g) + g - θ := by
  obtain ⟨ci, o, ho, rfl, rfl, -, hcl, h1, h3, hpv⟩ := h.stored
  obtain ⟨r, hr, ho⟩ := bind_ok ho
  obtain rfl := Except.ok.inj ho
  have hg := predVec_eq (r := ⟨r.g, none, none, none⟩) ((hpv "ml_g").trans (by simp [lookupKey]))
  obtain ⟨m, hm1, hm2⟩ := quantNuisance_m hr
  have htr := trimmed_vec ((hpv "ml_m").trans (by simp [lookupKey])) hm1 (quantNuisance_finite hr hS)
  refine ⟨meanIpw r.folds, scoreIs_of (sp := cvarSpec c) rfl hcl h1 h3 fun θ i => ?_⟩
  dsimp only [cvarElems]
  have hi : indEq (ci.obs.d i) c.treatment = ind i := indEq_eq hind i
  rw [hg, hm2, hi, quant_ipw (c := c.set ci.start) (d := ci.obs.d) hd hc hind htr]
  dsimp only [CvRes.vec, cvarTarget]
  have e : ci.data.yNum i = ci.obs.y i := rfl
  rw [e]
  have e2 : (c.set ci.start).treatment = c.treatment := rfl
  have e3 : (c.set ci.start).normalize = c.normalize := rfl
  rw [e2, e3]
  ring

theorem lpqNuisance_m {X : Type} {E : NestedExt n} {K : LpqLearners P X} {c : QuantSet} {D : ObsZ n X} {S : List (Fold n)}
    {ps : LpqParams (List P)} {ext : LpqParams (Fin n → ℝ)} {wm : Bool} {r : LpqOut n P X}
    (h : lpqNuisance E K c D S ps ext wm = .ok r) :
    r.mAdj = adjust c.normalize (fun i => trim c.trimT ((r.mz i).getD 0)) D.z ∧
    r.comp = compProb D.z D.d r.mAdj (fun i => (r.mdz0 i).getD 0) fun i => (r.mdz1 i).getD 0 := by
  unfold lpqNuisance at h
  by_cases he : ext.all = true
  · rw [if_pos he] at h
    by_cases hw : wm = true
    · rw [if_pos hw] at h
      cases h
    · rw [if_neg hw] at h
      obtain rfl := Except.ok.inj h
      exact ⟨rfl, rfl⟩
  · rw [if_neg he] at h
    obtain ⟨rs, -, h⟩ := bind_ok h
    obtain rfl := Except.ok.inj h
    exact ⟨rfl, rfl⟩

/-- **C73, local potential quantiles** (of level 0 or 1), with the trimmed propensities of the instrument.  `comp` is the
estimated share of compliers. -/
theorem C73_lpq {F : Frame n} {c : LpqClass n P} {s t : LinState n P} {a : FitArgs} {j k : ℕ} {D : DataState n}
    {S : List (Fold n)} (h : FitAt F (lpqSpec c) s a t j k D S) {z : Fin n → Cell} (hz : D.zv = some [z])
    (hb : Binary fun i => (z i).val) {ind : Fin n → ℝ} (hind : IsIndicator D.dNum c.treatment ind) :
    ScoreValue t j k fun θ i =>
      let Z := fun i => (z i).val
      let mz := fun i => trim c.trimT (t.predVec j k "ml_m_z" i)
      let w1 := ipw c.normalize Z mz
      let w0 := ipw c.normalize (fun i => 1 - Z i) fun i => 1 - mz i
      let m0 := t.predVec j k "ml_m_d_z0"
      let m1 := t.predVec j k "ml_m_d_z1"
      let g0 := t.predVec j k "ml_g_du_z0" i
      let g1 := t.predVec j k "ml_g_du_z1" i
      let comp := mean fun i => m1 i - m0 i + w1 i * (D.dNum i - m1 i) - w0 i * (D.dNum i - m0 i)
      let v := ind i * if D.yNum i ≤ θ then 1 else 0
      (2 * c.treatment - 1) * (g1 - g0 + w1 i * (v - g1) - w0 i * (v - g0)) / comp - c.q := by
  obtain ⟨ci, o, ho, rfl, -, -, hcl, h1, h3, hpv⟩ := h.stored
  obtain ⟨w, r, hw, hr, hf, hpr, -, -⟩ := lpqEst_ok ho
  obtain rfl := instr_of hz hw
  rw [hpr] at hpv
  obtain ⟨hm1, hm2⟩ := lpqNuisance_m hr
  have hmz := predVec_eq (r := ⟨r.mz, none, none, none⟩) ((hpv "ml_m_z").trans (by simp [lookupKey]))
  have hm0 := predVec_eq (r := ⟨r.mdz0, none, none, none⟩) ((hpv "ml_m_d_z0").trans (by simp [lookupKey]))
  have hmd1 := predVec_eq (r := ⟨r.mdz1, none, none, none⟩) ((hpv "ml_m_d_z1").trans (by simp [lookupKey]))
  have hg0 := predVec_eq (r := ⟨r.g0, none, none, none⟩) ((hpv "ml_g_du_z0").trans (by simp [lookupKey]))
  have hg1 := predVec_eq (r := ⟨r.g1, none, none, none⟩) ((hpv "ml_g_du_z1").trans (by simp [lookupKey]))
  rw [hf] at h1 h3
  refine ⟨_, _, h1, h3.trans (congrArg some (Prod.ext (funext fun i => ?_) rfl))⟩
  dsimp only
  show lpqScore c.treatment c.q (lpqFit c r.start (fun i => indEq (ci.obs.d i) c.treatment) r.mAdj (fun i => (r.g0 i).getD 0)
    (fun i => (r.g1 i).getD 0) ci.obs.y (fun i => (z i).val) r.comp ci.cluster).coef (indEq (ci.obs.d i) c.treatment) (r.mAdj i) ((r.g0 i).getD 0) ((r.g1 i).getD 0) (ci.obs.y i)
    (z i).val r.comp = _
  generalize (lpqFit c r.start (fun i => indEq (ci.obs.d i) c.treatment) r.mAdj (fun i => (r.g0 i).getD 0)
    (fun i => (r.g1 i).getD 0) ci.obs.y (fun i => (z i).val) r.comp ci.cluster).coef = θ
  have hi : indEq (ci.obs.d i) c.treatment = ind i := indEq_eq hind i
  have k1 : ∀ (v : ℝ) i, (z i).val / r.mAdj i * v =
      ipw c.normalize (fun i => (z i).val) (fun i => trim c.trimT ((r.mz i).getD 0)) i * v := by
    intro v i
    have e := ipw_adjust c.normalize (m := fun i => trim c.trimT ((r.mz i).getD 0)) hb v i
    rw [← e, hm1]
    show (z i).val / adjust c.normalize _ (fun i => (z i).val) i * v = (z i).val * v / _
    rw [div_mul_eq_mul_div]
    rfl
  have k0 : ∀ (v : ℝ) i, (1 - (z i).val) / (1 - r.mAdj i) * v =
      ipw c.normalize (fun i => 1 - (z i).val) (fun i => 1 - trim c.trimT ((r.mz i).getD 0)) i * v := by
    intro v i
    have e := ipw_adjust_zero c.normalize (m := fun i => trim c.trimT ((r.mz i).getD 0)) hb v i
    rw [← e, hm1]
    show (1 - (z i).val) / (1 - adjust c.normalize _ (fun i => (z i).val) i) * v = (1 - (z i).val) * v / _
    rw [div_mul_eq_mul_div]
    rfl
  have hcomp : r.comp = mean fun i => (r.mdz1 i).getD 0 - (r.mdz0 i).getD 0 +
      ipw c.normalize (fun i => (z i).val) (fun i => trim c.trimT ((r.mz i).getD 0)) i * (ci.data.dNum i - (r.mdz1 i).getD 0) -
      ipw c.normalize (fun i => 1 - (z i).val) (fun i => 1 - trim c.trimT ((r.mz i).getD 0)) i *
        (ci.data.dNum i - (r.mdz0 i).getD 0) := by
    rw [hm2]
    unfold compProb
    congr 1
    funext i
    rw [← k1, ← k0]
    rfl
  rw [hmz, hm0, hmd1, hg0, hg1]
  dsimp only [CvRes.vec]
  rw [← hcomp]
  unfold lpqScore
  rw [hi, k1, k0]
  rfl

/-! ## The hypotheses are met -/

/-- A successful fit of an object with one treatment, one repetition and the folds `S`. -/
theorem FitAt.single {E : Ext} {F : Frame n} {sp : LinSpec n P} (hv : sp.vars = none) {D : DataState n} {tv : String}
    {s : LinState n P} (h : Reached E F sp D tv s) {S : List (Fold n)} (hS : s.smpls = some [S]) (hr : s.nRep = 1)
    {a : FitArgs} (ha : a.storePredictions = .bool true) (hf : (fit F sp s a).2 = .ok ()) :
    FitAt F sp s a (fit F sp s a).1 0 0 D S := by
  have hsd : s.data = D := (h.ready hv).2
  have hd : D.d = [tv] := h.1
  refine ⟨hf, rfl, ha, by rw [hr]; exact one_pos, ⟨tv, by rw [hsd, hd]; rfl, ?_⟩, [S], hS, rfl⟩
  rw [hsd]
  unfold activeData
  rw [if_neg (by rw [hd]; simp)]

/-- The shares of treated observations in the training samples of the example. -/
theorem exShares4 (y : Fin 4 → ℝ) : IsTrainMean exFolds4 (exData4 y).dNum fun _ => 1 / 2 := by
  have h0 : (exData4 y).dNum = (![0, 1, 0, 1] : Fin 4 → ℝ) := rfl
  rw [h0]
  intro f hf i _
  have hf' : f = ⟨[2, 3], [0, 1]⟩ ∨ f = ⟨[0, 1], [2, 3]⟩ := by simpa [exFolds4] using hf
  rcases hf' with rfl | rfl <;> norm_num [Matrix.cons_val_two, Matrix.cons_val_three]

/-- The hypotheses of `C73_irm_ate`, `C73_irm_atte`, `C73_apo`, `C73_iivm`, `C73_did`, `C73_didcs` and `C73_ssm` are met. -/
example (E : Ext) (F : Frame 4) (y : Fin 4 → ℝ) (score : DidScore) :
    (∃ s t : LinState 4 ℕ, FitAt F (irmSpec exIrm4) s {} t 0 0 (exData4 y) exFolds4 ∧ Binary (exData4 y).dNum ∧
      ∃ w : (Fin 4 → ℝ) × (Fin 4 → ℝ), exIrm4.weights.at 0 = .ok w) ∧
    (∃ s t : LinState 4 ℕ, FitAt F (irmSpec { exIrm4 with atte := true }) s {} t 0 0 (exData4 y) exFolds4 ∧
      (∀ i : Fin 4, exIrm4.weights.weights.entries.getD i 0 = 1) ∧ 0 < exIrm4.trimT ∧ exIrm4.trimT < 1 / 2) ∧
    (∃ s t : LinState 4 ℕ, FitAt F (apoSpec (exIrm4.apo 1)) s {} t 0 0 (exData4 y) exFolds4 ∧
      IsIndicator (exData4 y).dNum 1 ![0, 1, 0, 1]) ∧
    (∃ s t : LinState 4 ℕ, FitAt F (iivmSpec ⟨exMeanL, exMeanL, exMeanL, false, false, false, true, 1 / 100, none⟩) s {} t 0 0
      (exData4 y) exFolds4 ∧ ∃ z, (exData4 y).zv = some [z]) ∧
    (∃ s t : LinState 4 ℕ, FitAt F (didSpec ⟨exMeanL, exMeanL, false, score, true, 1 / 100, none⟩) s {} t 0 0 (exData4 y) exFolds4 ∧
      isPartition exFolds4 = true ∧ IsTrainMean exFolds4 (exData4 y).dNum fun _ => 1 / 2) ∧
    (∃ s t : LinState 4 ℕ, FitAt F (csSpec ⟨exMeanL, exMeanL, false, score, true, 1 / 100, none⟩) s {} t 0 0 (exData4 y) exFolds4 ∧
      (exData4 y).tv.isSome) ∧
    ∃ s t : LinState 4 ℕ, FitAt F (ssmSpec exSsm4) s {} t 0 0 (exData4 y) exFolds4 ∧ (exData4 y).sv.isSome := by
  have hd : nums (exData4 y).dv = ![(0 : ℝ), 1, 0, 1] := rfl
  have hd1 : isLevel (n := 4) 1 ![0, 1, 0, 1] = ![(0 : ℝ), 1, 0, 1] := by
    funext i; fin_cases i <;> simp [isLevel]
  have ha : ∀ sp : LinSpec 4 ℕ, ValidArgs sp "d" 1 {} := fun sp => ⟨.inl rfl, ⟨true, rfl⟩, ⟨false, rfl⟩, .inl rfl⟩
  refine ⟨?_, ?_, ?_, ?_, ?_, ?_, ?_⟩
  · obtain ⟨s, h1, h2, h3⟩ := exReached4 E F (sp := irmSpec exIrm4) rfl rfl y "ml_g1"
    refine ⟨s, _, .single rfl h1 h2 h3 rfl ?_, ?_, ex_irm_weights 0 (by simp)⟩
    · exact C63_irm rfl rfl exMeanL_compliant rfl (by rw [hd]; exact ex_d4.1) h1 h2 (by rw [hd]; exact ex_every ex_d4.2)
        ex_irm_weights (by rw [h3]; exact ha _)
    · intro i
      have h0 : (exData4 y).dNum = (![0, 1, 0, 1] : Fin 4 → ℝ) := rfl
      rw [h0]
      fin_cases i <;> simp
  · obtain ⟨s, h1, h2, h3⟩ := exReached4 E F (sp := irmSpec { exIrm4 with atte := true }) rfl rfl y "ml_g1"
    refine ⟨s, _, .single rfl h1 h2 h3 rfl ?_, fun i => by fin_cases i <;> rfl, by norm_num [exIrm4], by norm_num [exIrm4]⟩
    exact C63_irm rfl rfl exMeanL_compliant rfl (by rw [hd]; exact ex_d4.1) h1 h2 (by rw [hd]; exact ex_every ex_d4.2)
      ex_irm_weights (by rw [h3]; exact ha _)
  · obtain ⟨s, h1, h2, h3⟩ := exReached4 E F (sp := apoSpec (exIrm4.apo 1)) rfl rfl y "ml_m"
    refine ⟨s, _, .single rfl h1 h2 h3 rfl (C63_apo rfl rfl exMeanL_compliant rfl ?_ h1 h2 ?_ (fun _ _ => ⟨_, rfl⟩)
      (by rw [h3]; exact ha _)), ?_⟩
    · show BinaryTarget (isLevel 1 (nums (exData4 y).dv))
      rw [hd, hd1]; exact ex_d4.1
    · show ∀ S ∈ [exFolds4], EveryFold S (fun _ => True) (isLevel 1 (nums (exData4 y).dv))
      rw [hd, hd1]; exact ex_every ex_d4.2
    · intro i
      have h0 : (exData4 y).dNum = (![0, 1, 0, 1] : Fin 4 → ℝ) := rfl
      rw [h0]
      fin_cases i <;> simp
  · obtain ⟨s, h1, h2, h3⟩ := exReached4 E F
      (sp := iivmSpec ⟨exMeanL, exMeanL, exMeanL, false, false, false, true, 1 / 100, none⟩) rfl rfl y "ml_m"
    exact ⟨s, _, .single rfl h1 h2 h3 rfl (C63_iivm (D := exData4 y) (z := fun i => .num (![0, 1, 1, 0] i)) rfl rfl
      exMeanL_compliant exMeanL_compliant rfl ex_d4.1 rfl ex_z4.1 h1 h2 (ex_every ex_z4.2)
      (fun h => by cases h) (fun h => by cases h) (by rw [h3]; exact ha _)), _, rfl⟩
  · obtain ⟨s, h1, h2, h3⟩ := exReached4 E F
      (sp := didSpec ⟨exMeanL, exMeanL, false, score, true, 1 / 100, none⟩) rfl rfl y "ml_m"
    exact ⟨s, _, .single rfl h1 h2 h3 rfl (C63_did (D := exData4 y) rfl rfl exMeanL_compliant rfl ex_d4.1 h1 h2
      (ex_every ex_d4.2) (by rw [h3]; exact ha _)), by decide, exShares4 y⟩
  · obtain ⟨s, h1, h2, h3⟩ := exReached4 E F
      (sp := csSpec ⟨exMeanL, exMeanL, false, score, true, 1 / 100, none⟩) rfl rfl y "ml_m"
    exact ⟨s, _, .single rfl h1 h2 h3 rfl (C63_didcs (D := exData4 y) rfl rfl exMeanL_compliant rfl ex_d4.1 rfl h1 h2
      (ex_every ex_d4.2) (by rw [h3]; exact ha _)), rfl⟩
  · obtain ⟨s, h1, h2, h3⟩ := exReached4 E F (sp := ssmSpec exSsm4) rfl rfl y "ml_m"
    exact ⟨s, _, .single rfl h1 h2 h3 rfl (C63_ssm (D := exData4 y) (sel := fun i => .num (![1, 0, 0, 1] i)) rfl rfl
      exMeanL_compliant exMeanL_compliant rfl ex_d4.1 rfl ex_s4.1 h1 h2 (ex_every ex_d4.2)
      (ex_every ex_s4.2) (by rw [h3]; exact ha _)), rfl⟩

/-- The same for `C73_pq`, `C73_cvar`, `C73_lpq` and `C73_ssm_nonignorable`. -/
example (E : Ext) (F : Frame 12) (R : RootExt) (kde : (Fin 12 → ℝ) → (Fin 12 → ℝ) → ℝ) (y : Fin 12 → ℝ) :
    isPartition [exF0, exF1] = true ∧ Binary (exData12 y exD exD).dNum ∧ (exPq12 R kde).treatment = 1 ∧
    IsIndicator (exData12 y exD exD).dNum 1 exD ∧
    (∃ s t : LinState 12 ℕ, FitAt F (pqSpec (exPq12 R kde)) s {} t 0 0 (exData12 y exD exD) [exF0, exF1]) ∧
    (∃ s t : LinState 12 ℕ, FitAt F (cvarSpec (exPq12 R kde)) s {} t 0 0 (exData12 y exD exD) [exF0, exF1]) ∧
    (∃ s t : LinState 12 ℕ, FitAt F (lpqSpec (exLpq12 R kde)) s {} t 0 0 (exData12 y exD exD) [exF0, exF1]) ∧
    ∃ s t : LinState 12 ℕ, FitAt F (ssmNonSpec exSsm12) s {} t 0 0 (exData12 y exD exD) [exF0, exF1] := by
  have ha : ∀ sp : LinSpec 12 ℕ, ValidArgs sp "d" 1 {} := fun sp => ⟨.inl rfl, ⟨true, rfl⟩, ⟨false, rfl⟩, .inl rfl⟩
  have hb : Binary (exData12 y exD exD).dNum := fun i => exD_binary.1 i
  refine ⟨by decide, hb, rfl, fun i => ⟨fun h => h, fun h => ?_⟩, ?_, ?_, ?_, ?_⟩
  · rcases hb i with h0 | h0
    · exact h0
    · exact absurd h0 h
  · obtain ⟨s₀, s, -, -, h1, h2, h3, -⟩ := exReached12 E F (sp := pqSpec (exPq12 R kde)) rfl y exD exD 0
    exact ⟨s, _, .single rfl h1 h2 h3 rfl (C63_pq (D := exData12 y exD exD) rfl (exNested_ok 12) exMeanL_compliant exD_binary h1 h2
      (exHalves12 exD) (by rw [h3]; exact ha _) (.inr rfl))⟩
  · obtain ⟨s₀, s, -, -, h1, h2, h3, -⟩ := exReached12 E F (sp := cvarSpec (exPq12 R kde)) rfl y exD exD 0
    exact ⟨s, _, .single rfl h1 h2 h3 rfl (C63_cvar (D := exData12 y exD exD) rfl (exNested_ok 12) exMeanL_compliant exD_binary h1 h2
      (exHalves12 exD) (by rw [h3]; exact ha _))⟩
  · obtain ⟨s₀, s, -, -, h1, h2, h3, -⟩ := exReached12 E F (sp := lpqSpec (exLpq12 R kde)) rfl y exD exD 0
    exact ⟨s, _, .single rfl h1 h2 h3 rfl (C63_lpq (D := exData12 y exD exD) (zc := fun i => .num (exD i)) rfl (exNested_ok 12)
      exMeanL_compliant rfl exD_binary h1 h2 (exHalves12 _) (by rw [h3]; exact ha _) (.inr rfl))⟩
  · obtain ⟨s₀, s, -, -, h1, h2, h3, -⟩ := exReached12 E F (sp := ssmNonSpec exSsm12) rfl y exD exD 0
    exact ⟨s, _, .single rfl h1 h2 h3 rfl (C63_ssm_nonignorable (D := exData12 y exD exD) (zs := [fun i => .num (exD i)])
      (sel := fun i => .num (exD i)) rfl rfl rfl h1 h2 (fun _ _ _ _ => ⟨_, rfl⟩) (by rw [h3]; exact ha _))⟩

/-- The same for `C73_plr`, `C73_plr_iv`, `C73_pliv` and `C73_pliv_iv`. -/
example (E : Ext) (F : Frame 4) (y : Fin 4 → ℝ) (iv : Bool) :
    (∃ (s t : LinState 4 ℕ) (S : List (Fold 4)),
      FitAt F (plivSpec ⟨exMeanL, exMeanL, exMeanL, exMeanL, iv, fun _ v => v, none⟩) s {} t 0 0 (exData4 y) S) ∧
    ∃ (s t : LinState 4 ℕ) (S : List (Fold 4)), FitAt F (plrSpec ⟨exMeanL, exMeanL, exMeanL, false, iv, none⟩) s {} t 0 0
      { exData4 y with binTreats := [("d", false)] } S := by
  have ha : ∀ sp : LinSpec 4 ℕ, ValidArgs sp "d" 1 {} := fun sp => ⟨.inl rfl, ⟨true, rfl⟩, ⟨false, rfl⟩, .inl rfl⟩
  constructor
  · obtain ⟨s, L, h1, h2, h3⟩ := exReachedDraw E F
      (sp := plivSpec ⟨exMeanL, exMeanL, exMeanL, exMeanL, iv, fun _ v => v, none⟩) rfl rfl (D := exData4 y) rfl
    obtain ⟨S, rfl⟩ := List.length_eq_one_iff.1 ((((h1.ready rfl).1.split L h2).1).trans h3)
    exact ⟨s, _, S, .single rfl h1 h2 h3 rfl (C63_pliv rfl rfl rfl h1 h2 (by rw [h3]; exact ha _))⟩
  · obtain ⟨s, L, h1, h2, h3⟩ := exReachedDraw E F (sp := plrSpec ⟨exMeanL, exMeanL, exMeanL, false, iv, none⟩) rfl rfl
      (D := { exData4 y with binTreats := [("d", false)] }) rfl
    obtain ⟨S, rfl⟩ := List.length_eq_one_iff.1 ((((h1.ready rfl).1.split L h2).1).trans h3)
    exact ⟨s, _, S, .single rfl h1 h2 h3 rfl (C63_plr rfl rfl rfl h1 h2 (by rw [h3]; exact ha _))⟩

end DML
