import Verif.UnitsFitProps
import Verif.AsymptoticBlpProps

/-!
# C83: weighted effects are weighted averages

`DoubleMLIRM` and `DoubleMLAPO` take weights for a *weighted* average effect.  Weights that select a group and average one give the
estimate and the standard error that `gate` (`gapo`) reports for the group; weights that average one give the weighted average of the
signals of the unweighted model.  Weights with another average do not: they multiply the estimate, the standard error, the scores and
the sensitivity bounds. For the effect on the treated, where the weights must select a subgroup, they are normalised.
-/

namespace DML

open Finset

variable {n r : ℕ} {P M : Type}

/-! ## Specification -/

/-- The stored weights `w'` (and the columns of `weights_bar`, if there are any) are `c` times those of `w`. -/
structure StoredWeights.Scaled (n : ℕ) (c : ℝ) (w w' : StoredWeights) : Prop where
  weights : ∀ i : Fin n, w'.weights.entries.getD i 0 = c * w.weights.entries.getD i 0
  bar : (w.bar = none ∧ w'.bar = none) ∨ ∃ b b', w.bar = some b ∧ w'.bar = some b' ∧ b'.shape.getD 1 0 = b.shape.getD 1 0 ∧
    ∀ (i : Fin n) (k : ℕ), b'.entries.getD (i * b.shape.getD 1 0 + k) 0 = c * b.entries.getD (i * b.shape.getD 1 0 + k) 0

/-- The average of `s` with weights `w`. -/
noncomputable def weightedMean (w s : Fin n → ℝ) : ℝ := (∑ i, w i * s i) / ∑ i, w i

/-- Two objects of the same class with the same data, split and parameters; only the weights given at their creation may differ. -/
structure SameObject (s s' : MState n P M) : Prop where
  data : s'.data = s.data
  smpls : s'.smpls = s.smpls
  smplsCluster : s'.smplsCluster = s.smplsCluster
  params : s'.params = s.params
  nRep : s'.nRep = s.nRep
  nFoldsPer : s'.nFoldsPer = s.nFoldsPer

/-! ## Cells -/

theorem SameObject.butData {s s' : MState n P M} (h : SameObject s s') : SameButData s s' :=
  ⟨by rw [h.data], by rw [h.data], h.smpls, h.smplsCluster, h.params, h.nRep, h.nFoldsPer⟩

theorem CellFrom.respec {F : Frame n} {sp sp' : Spec n P M} (hv : sp'.vars = sp.vars) (hl : sp'.learners = sp.learners)
    {s : MState n P M} {ext : ExtArg} {k j : ℕ} {c : CellIn n P} (h : CellFrom F sp' s ext k j c) : CellFrom F sp s ext k j c :=
  ⟨h.treat, h.data, h.smpls, fun v e => h.cluster v (hv.trans e), fun e => h.noCluster (hv.trans e), hl ▸ h.params, hl ▸ h.ext, h.rep⟩

/-- The cells of the two objects differ at most in the start value, which linear scores do not use. -/
theorem SameObject.cell {F : Frame n} {sp sp' : Spec n P M} {s s' : MState n P M} (H : SameObject s s') {ext : ExtArg} {k j : ℕ} {c c' : CellIn n P} (h : CellFrom F sp s ext k j c)
    (h' : CellFrom F sp' s' ext k j c') (hm : c'.wantModels = c.wantModels)
    (hv : sp'.vars = sp.vars) (hl : sp'.learners = sp.learners) : c' = { c with start := c'.start } := by
  have e := H.butData.cell h (h'.respec hv hl) hm
  rw [H.data, ← h.data] at e
  exact e

theorem StoredWeights.Scaled.at {x : ℝ} {w w' : StoredWeights} (h : w.Scaled n x w') {k : ℕ} {v v' : (Fin n → ℝ) × (Fin n → ℝ)}
    (e : w.at k = .ok v) (e' : w'.at k = .ok v') : v' = (fun i => x * v.1 i, fun i => x * v.2 i) := by
  unfold StoredWeights.at at e e'
  rcases h.bar with ⟨h1, h2⟩ | ⟨b, b', h1, h2, h3, h4⟩
  · rw [h1] at e
    rw [h2] at e'
    rw [← Except.ok.inj e, ← Except.ok.inj e']
    simp only [h.weights]
  · rw [h1] at e
    rw [h2] at e'
    dsimp only at e e'
    rw [h3] at e'
    split_ifs at e e'
    rw [← Except.ok.inj e, ← Except.ok.inj e']
    simp only [h.weights, h4]

/-- The same cell of two interactive models with different weights. -/
theorem irm_reweight {k : IrmClass n P} {w' : StoredWeights} {c : CellIn n P} {x : ℝ} {o o' : LinOut n P} (h : irmEst k c = .ok o)
    (h' : irmEst { k with weights := w' } { c with start := x } = .ok o') :
    ∃ g0 g1 mAdj v v', irmWeights k c mAdj = .ok v ∧ irmWeights { k with weights := w' } c mAdj = .ok v' ∧
      o.fit = (irmElems c.y c.d g0 g1 mAdj v.1 v.2).fit c.cluster ∧ o'.fit = (irmElems c.y c.d g0 g1 mAdj v'.1 v'.2).fit c.cluster ∧
      o.sens = irmSens c.y c.d g0 g1 mAdj v.1 v.2 ∧ o'.sens = irmSens c.y c.d g0 g1 mAdj v'.1 v'.2 := by
  obtain ⟨g0, h1, h⟩ := bind_ok h
  obtain ⟨g1, h2, h⟩ := bind_ok h
  obtain ⟨_, _, h⟩ := bind_ok h
  obtain ⟨m, h3, h⟩ := bind_ok h
  obtain ⟨w, h4, h⟩ := bind_ok h
  obtain rfl := Except.ok.inj h
  obtain ⟨g0', h1', h'⟩ := bind_ok h'
  obtain ⟨g1', h2', h'⟩ := bind_ok h'
  obtain ⟨_, _, h'⟩ := bind_ok h'
  obtain ⟨m', h3', h'⟩ := bind_ok h'
  obtain ⟨v, h4', h'⟩ := bind_ok h'
  obtain rfl := Except.ok.inj h'
  obtain rfl : g0' = g0 := Except.ok.inj (h1'.symm.trans h1)
  obtain rfl : g1' = g1 := Except.ok.inj (h2'.symm.trans h2)
  obtain rfl : m' = m := Except.ok.inj (h3'.symm.trans h3)
  exact ⟨_, _, _, w, v, h4, h4', rfl, rfl, rfl, rfl⟩

/-- The same cell of two models for average potential outcomes with different weights. -/
theorem apo_reweight {k : ApoClass n P} {w' : StoredWeights} {c : CellIn n P} {x : ℝ} {o o' : LinOut n P} (h : apoEst k c = .ok o)
    (h' : apoEst { k with weights := w' } { c with start := x } = .ok o') :
    ∃ g0 g1 m v v', k.weights.at c.rep = .ok v ∧ w'.at c.rep = .ok v' ∧
      o.fit = (apoElems k.normalize c.y (k.treated c) g1 m v.1 v.2).fit c.cluster ∧
      o'.fit = (apoElems k.normalize c.y (k.treated c) g1 m v'.1 v'.2).fit c.cluster ∧
      o.sens = apoSens c.y (k.treated c) g0 g1 (adjust k.normalize m (k.treated c)) v.1 v.2 ∧
      o'.sens = apoSens c.y (k.treated c) g0 g1 (adjust k.normalize m (k.treated c)) v'.1 v'.2 := by
  obtain ⟨g1, h1, h⟩ := bind_ok h
  obtain ⟨_, _, h⟩ := bind_ok h
  obtain ⟨g0, h2, h⟩ := bind_ok h
  obtain ⟨_, _, h⟩ := bind_ok h
  obtain ⟨m, h3, h⟩ := bind_ok h
  obtain ⟨w, h4, h⟩ := bind_ok h
  obtain rfl := Except.ok.inj h
  obtain ⟨g1', h1', h'⟩ := bind_ok h'
  obtain ⟨_, _, h'⟩ := bind_ok h'
  obtain ⟨g0', h2', h'⟩ := bind_ok h'
  obtain ⟨_, _, h'⟩ := bind_ok h'
  obtain ⟨m', h3', h'⟩ := bind_ok h'
  obtain ⟨v, h4', h'⟩ := bind_ok h'
  obtain rfl := Except.ok.inj h'
  obtain rfl : g0' = g0 := Except.ok.inj (h2'.symm.trans h2)
  obtain rfl : g1' = g1 := Except.ok.inj (h1'.symm.trans h1)
  obtain rfl : m' = m := Except.ok.inj (h3'.symm.trans h3)
  exact ⟨_, _, _, w, v, h4, h4', rfl, rfl, rfl, rfl⟩

/-! ## Multiplying the weights -/

theorem ratio_mean {x : ℝ} (hx : x ≠ 0) (w : Fin n → ℝ) (i : Fin n) : x * w i / mean (fun i => x * w i) = w i / mean w := by
  rw [mean_mul_left, mul_div_mul_left _ _ hx]

theorem sensOf_riesz {x : ℝ} {e mA mA' rr rr' : Fin n → ℝ} (h : ∀ i, mA' i = x ^ 2 * mA i) (h' : ∀ i, rr' i = x * rr i) :
    (sensOf e mA rr).Rescaled 1 x (sensOf e mA' rr') := by
  obtain rfl : mA' = fun i => x ^ 2 * mA i := funext h
  obtain rfl : rr' = fun i => x * rr i := funext h'
  have e2 : (fun i => 2 * (x ^ 2 * mA i) - (x * rr i) ^ 2) = fun i => x ^ 2 * (2 * mA i - rr i ^ 2) := funext fun i => by ring
  refine ⟨by rw [one_pow, one_mul]; rfl, ?_, fun _ => by rw [one_pow, one_mul]; rfl, fun i => ?_, fun _ => rfl⟩
  · show mean _ = _
    rw [e2]
    exact mean_mul_left _ _
  · show 2 * (x ^ 2 * mA i) - (x * rr i) ^ 2 - mean _ = x ^ 2 * (2 * mA i - rr i ^ 2 - mean _)
    rw [e2, mean_mul_left]
    ring

/-- **C83, scale (IRM).** Multiplying the weights by a positive number multiplies the estimate, the standard error, the scaled scores
and the bounds of the omitted variable bias by this number. -/
theorem C83_irm_scale {x : ℝ} (hx : 0 < x) {k : IrmClass n P} (hatte : k.atte = false) {w' : StoredWeights} (hw : k.weights.Scaled n x w')
    {F : Frame n} {s s' : LinState n P} (hs : Shaped s) (hs' : Shaped s') (H : SameObject s s') {a : FitArgs}
    (h : (fit F (irmSpec k) s a).2 = .ok ()) (h' : (fit F (irmSpec { k with weights := w' }) s' a).2 = .ok ()) :
    InNewUnits x 0 s.nRep s.data.d.length (fit F (irmSpec k) s a).1 (fit F (irmSpec { k with weights := w' }) s' a).1 := by
  refine fits_rescaled (p := 1) (q := x) (irm_linear k).usualVsf (irm_linear _).usualVsf hs hs' H.butData rfl rfl hx.ne' (one_mul x) ?_ h h'
  intro j q c c' o o' h1 h1' hm h2 h2'
  rw [H.cell h1 h1' hm rfl rfl] at h2'
  obtain ⟨g0, g1, m, v, v', e1, e2, e3, e4, e5, e6⟩ := irm_reweight h2 h2'
  unfold irmWeights at e1 e2
  rw [if_neg (by simp [hatte])] at e1 e2
  obtain rfl := hw.at e1 e2
  rw [e3, e4, e5, e6]
  refine ⟨PsiElems.rescaled c.cluster one_ne_zero (fun i => ?_) (fun i => ?_) (.inl rfl), fun _ => sensOf_riesz (fun i => ?_) fun i => ?_⟩
  · show -1 * (x * v.1 i / mean fun i => x * v.1 i) = 1 * (-1 * (v.1 i / mean v.1))
    rw [ratio_mean hx.ne', one_mul]
  · simp only [irmElems]
    ring
  · ring
  · ring

/-- **C83, scale (APO).** The same for average potential outcomes. -/
theorem C83_apo_scale {x : ℝ} (hx : 0 < x) {k : ApoClass n P} {w' : StoredWeights} (hw : k.weights.Scaled n x w')
    {F : Frame n} {s s' : LinState n P} (hs : Shaped s) (hs' : Shaped s') (H : SameObject s s') {a : FitArgs}
    (h : (fit F (apoSpec k) s a).2 = .ok ()) (h' : (fit F (apoSpec { k with weights := w' }) s' a).2 = .ok ()) :
    InNewUnits x 0 s.nRep s.data.d.length (fit F (apoSpec k) s a).1 (fit F (apoSpec { k with weights := w' }) s' a).1 := by
  refine fits_rescaled (p := 1) (q := x) (apo_linear k).usualVsf (apo_linear _).usualVsf hs hs' H.butData rfl rfl hx.ne' (one_mul x) ?_ h h'
  intro j q c c' o o' h1 h1' hm h2 h2'
  rw [H.cell h1 h1' hm rfl rfl] at h2'
  obtain ⟨g0, g1, m, v, v', e1, e2, e3, e4, e5, e6⟩ := apo_reweight h2 h2'
  obtain rfl := hw.at e1 e2
  rw [e3, e4, e5, e6]
  refine ⟨PsiElems.rescaled c.cluster one_ne_zero (fun i => ?_) (fun i => ?_) (.inl rfl), fun _ => sensOf_riesz (fun i => ?_) fun i => ?_⟩
  · show -1 * (x * v.1 i / mean fun i => x * v.1 i) = 1 * (-1 * (v.1 i / mean v.1))
    rw [ratio_mean hx.ne', one_mul]
  · simp only [apoElems]
    ring
  · ring
  · ring

/-! ## Weighted averages of the signals -/

theorem weighted_fit (hn : 0 < n) {w s : Fin n → ℝ} {e : PsiElems n} (ha : ∀ i, e.a i = -1 * (w i / mean w))
    (hb : ∀ i, e.b i = w i * s i) (hw : mean w = 1) : (e.fit none).coef = weightedMean w s ∧
      (e.fit none).se = Real.sqrt (∑ i, (w i * (s i - weightedMean w s)) ^ 2) / n := by
  have hn' : (n : ℝ) ≠ 0 := by exact_mod_cast hn.ne'
  have ea : e.a = fun i => -1 * w i := funext fun i => by rw [ha, hw, div_one]
  have eb : e.b = fun i => w i * s i := funext hb
  have ma : mean e.a = -1 := by rw [ea, mean_mul_left, hw, mul_one]
  have hsum : ∑ i, w i = n := by
    unfold mean at hw
    exact (div_eq_one_iff_eq hn').1 hw
  have hc : e.coef none = weightedMean w s := by
    simp only [PsiElems.coef, aggObs, ma]
    rw [eb]
    unfold weightedMean mean
    rw [hsum]
    ring
  refine ⟨hc, ?_⟩
  show Real.sqrt (varEst (e.score (e.coef none)) e.a none).1 = _
  have hsc : ∀ i, e.score (e.coef none) i = w i * (s i - weightedMean w s) := by
    intro i
    rw [hc]
    simp only [PsiElems.score, ea, eb]
    ring
  unfold varEst varEstParts
  dsimp only
  rw [ma]
  simp only [hsc]
  have e2 : (1 : ℝ) / ((n : ℝ) * (-1) ^ 2) * mean (fun i => (w i * (s i - weightedMean w s)) ^ 2) =
      (∑ i, (w i * (s i - weightedMean w s)) ^ 2) / (n : ℝ) ^ 2 := by
    unfold mean
    field_simp
  rw [e2, Real.sqrt_div' _ (sq_nonneg _), Real.sqrt_sq (Nat.cast_nonneg n)]

theorem weighted_cells {F : Frame n} {sp sp' : LinSpec n P} (hv : sp.vars = none) (hv' : sp'.vars = none)
    (hl : sp'.learners = sp.learners) {s s' : LinState n P} (H : SameObject s s') {a : FitArgs} (hn : 0 < n) {w : Fin n → ℝ}
    (hw : mean w = 1) {j q : ℕ} (hj : j < s.data.d.length) (hq : q < s.nRep)
    (key : ∀ c x o o', CellFrom F sp s a.ext q j c → sp.est c = .ok o → sp'.est { c with start := x } = .ok o' →
      ∃ e e' : PsiElems n, o.fit = e.fit none ∧ o'.fit = e'.fit none ∧ (∀ i, e'.a i = -1 * (w i / mean w)) ∧ ∀ i, e'.b i = w i * e.b i)
    (h : (fit F sp s a).2 = .ok ()) (h' : (fit F sp' s' a).2 = .ok ()) :
    ∃ sig, (fit F sp s a).1.psiB j q = some sig ∧
      ((fit F sp' s' a).1.heap (fit F sp' s' a).1.arr).coef j q = some (weightedMean w sig) ∧
      ((fit F sp' s' a).1.heap (fit F sp' s' a).1.arr).se j q = some (Real.sqrt (∑ i, (w i * (sig i - weightedMean w sig)) ^ 2) / n) := by
  obtain ⟨p, m, -, hc, -⟩ := fit_ok h
  obtain ⟨hp, hm⟩ := checkFit_ok hc
  obtain ⟨c, o, -, h1, h2, h3, -, h4, -, h5, -⟩ := fit_cells h hp hm hj hq
  obtain ⟨c', o', -, h1', h2', h3', -, h4', h5', -⟩ := fit_cells h' hp hm (by rw [H.data]; exact hj) (by rw [H.nRep]; exact hq)
  rw [H.cell h1 h1' (h2'.trans h2.symm) (hv'.trans hv.symm) hl] at h3'
  obtain ⟨e, e', g1, g2, g3, g4⟩ := key c _ o o' h1 h3 h3'
  obtain ⟨k1, k2⟩ := weighted_fit hn g3 g4 hw
  refine ⟨e.b, ?_, ?_, ?_⟩
  · unfold MState.psiB
    rw [h4, h5, g1]
    refine congrArg some (funext fun i => ?_)
    show e.score (e.coef none) i - e.a i * e.coef none = e.b i
    unfold PsiElems.score
    ring
  · rw [h4', g2, k1]
  · rw [h5', g2, k2]

theorem irm_pair {k : IrmClass n P} (hatte : k.atte = false) (hv : k.vars = none)
    {q : ℕ} (h1 : k.weights.at q = .ok (fun _ : Fin n => 1, fun _ => 1)) {w' : StoredWeights} {w : Fin n → ℝ}
    (hw' : w'.at q = .ok (w, w)) {F : Frame n} {s : LinState n P} {ext : ExtArg} {j : ℕ} (c : CellIn n P) (x : ℝ) (o o' : LinOut n P)
    (hc : CellFrom F (irmSpec k) s ext q j c) (h : (irmSpec k).est c = .ok o)
    (h' : (irmSpec { k with weights := w' }).est { c with start := x } = .ok o') :
    ∃ e e' : PsiElems n, o.fit = e.fit none ∧ o'.fit = e'.fit none ∧ (∀ i, e'.a i = -1 * (w i / mean w)) ∧ ∀ i, e'.b i = w i * e.b i := by
  obtain ⟨g0, g1, m, v, v', e1, e2, e3, e4, -⟩ := irm_reweight h h'
  unfold irmWeights at e1 e2
  rw [if_neg (by simp [hatte])] at e1 e2
  rw [hc.rep, h1] at e1
  dsimp only at e2
  rw [hc.rep, hw'] at e2
  obtain rfl := Except.ok.inj e1
  obtain rfl := Except.ok.inj e2
  rw [hc.noCluster hv] at e3 e4
  refine ⟨_, _, e3, e4, fun i => rfl, fun i => ?_⟩
  simp only [irmElems]
  ring

theorem apo_pair {k : ApoClass n P} (hv : k.vars = none)
    {q : ℕ} (h1 : k.weights.at q = .ok (fun _ : Fin n => 1, fun _ => 1)) {w' : StoredWeights} {w : Fin n → ℝ}
    (hw' : w'.at q = .ok (w, w)) {F : Frame n} {s : LinState n P} {ext : ExtArg} {j : ℕ} (c : CellIn n P) (x : ℝ) (o o' : LinOut n P)
    (hc : CellFrom F (apoSpec k) s ext q j c) (h : (apoSpec k).est c = .ok o)
    (h' : (apoSpec { k with weights := w' }).est { c with start := x } = .ok o') :
    ∃ e e' : PsiElems n, o.fit = e.fit none ∧ o'.fit = e'.fit none ∧ (∀ i, e'.a i = -1 * (w i / mean w)) ∧ ∀ i, e'.b i = w i * e.b i := by
  obtain ⟨g0, g1, m, v, v', e1, e2, e3, e4, -⟩ := apo_reweight h h'
  rw [hc.rep, h1] at e1
  rw [hc.rep, hw'] at e2
  obtain rfl := Except.ok.inj e1
  obtain rfl := Except.ok.inj e2
  rw [hc.noCluster hv] at e3 e4
  refine ⟨_, _, e3, e4, fun i => rfl, fun i => ?_⟩
  simp only [apoElems]
  ring

/-- **C83 (IRM), partial: weights that average one.**  In every repetition the estimate of the model with weights `w` is the average,
with these weights, of the signals of the model without weights, and the standard error is the root of the sum of the squared weighted
deviations from it, divided by the number of observations.  What is missing is other averages, see `C83_irm_violated`. -/
theorem C83_irm_average_partial {k : IrmClass n P} (hatte : k.atte = false) (hv : k.vars = none) {w' : StoredWeights} {w : Fin n → ℝ}
    {F : Frame n} {s s' : LinState n P} (H : SameObject s s') {a : FitArgs} (hn : 0 < n) (hw : mean w = 1) {j q : ℕ}
    (hj : j < s.data.d.length) (hq : q < s.nRep) (h1 : k.weights.at q = .ok (fun _ : Fin n => 1, fun _ => 1)) (hw' : w'.at q = .ok (w, w))
    (h : (fit F (irmSpec k) s a).2 = .ok ()) (h' : (fit F (irmSpec { k with weights := w' }) s' a).2 = .ok ()) :
    ∃ sig, (fit F (irmSpec k) s a).1.psiB j q = some sig ∧
      ((fit F (irmSpec { k with weights := w' }) s' a).1.heap (fit F (irmSpec { k with weights := w' }) s' a).1.arr).coef j q =
        some (weightedMean w sig) ∧
      ((fit F (irmSpec { k with weights := w' }) s' a).1.heap (fit F (irmSpec { k with weights := w' }) s' a).1.arr).se j q =
        some (Real.sqrt (∑ i, (w i * (sig i - weightedMean w sig)) ^ 2) / n) :=
  weighted_cells (sp := irmSpec k) (sp' := irmSpec { k with weights := w' }) hv hv rfl H hn hw hj hq (irm_pair hatte hv h1 hw') h h'

/-- **C83 (APO), partial: weights that average one.** -/
theorem C83_apo_average_partial {k : ApoClass n P} (hv : k.vars = none) {w' : StoredWeights} {w : Fin n → ℝ}
    {F : Frame n} {s s' : LinState n P} (H : SameObject s s') {a : FitArgs} (hn : 0 < n) (hw : mean w = 1) {j q : ℕ}
    (hj : j < s.data.d.length) (hq : q < s.nRep) (h1 : k.weights.at q = .ok (fun _ : Fin n => 1, fun _ => 1)) (hw' : w'.at q = .ok (w, w))
    (h : (fit F (apoSpec k) s a).2 = .ok ()) (h' : (fit F (apoSpec { k with weights := w' }) s' a).2 = .ok ()) :
    ∃ sig, (fit F (apoSpec k) s a).1.psiB j q = some sig ∧
      ((fit F (apoSpec { k with weights := w' }) s' a).1.heap (fit F (apoSpec { k with weights := w' }) s' a).1.arr).coef j q =
        some (weightedMean w sig) ∧
      ((fit F (apoSpec { k with weights := w' }) s' a).1.heap (fit F (apoSpec { k with weights := w' }) s' a).1.arr).se j q =
        some (Real.sqrt (∑ i, (w i * (sig i - weightedMean w sig)) ^ 2) / n) :=
  weighted_cells (sp := apoSpec k) (sp' := apoSpec { k with weights := w' }) hv hv rfl H hn hw hj hq (apo_pair hv h1 hw') h h'

/-! ## Groups -/

/-- The members of a group. -/
def inGroup (gr : Fin n → Bool) : Finset (Fin n) := univ.filter fun i => gr i = true

/-- The weights of a group: its indicator divided by its share. -/
noncomputable def groupWeights (gr : Fin n → Bool) (i : Fin n) : ℝ := if gr i then (n : ℝ) / (inGroup gr).card else 0

theorem groupWeights_sum (gr : Fin n → Bool) (f : Fin n → ℝ) :
    ∑ i, groupWeights gr i * f i = (n : ℝ) / (inGroup gr).card * ∑ i ∈ inGroup gr, f i := by
  unfold groupWeights inGroup
  rw [Finset.mul_sum, Finset.sum_filter]
  refine Finset.sum_congr rfl fun i _ => ?_
  split_ifs <;> ring

theorem groupWeights_mean {gr : Fin n → Bool} (h : 0 < (inGroup gr).card) : mean (groupWeights gr) = 1 := by
  have hn : 0 < n := lt_of_lt_of_le h ((Finset.card_le_univ _).trans_eq (Fintype.card_fin n))
  have hn' : (n : ℝ) ≠ 0 := by exact_mod_cast hn.ne'
  have hc : ((inGroup gr).card : ℝ) ≠ 0 := by exact_mod_cast h.ne'
  have := groupWeights_sum gr fun _ => 1
  simp only [mul_one, Finset.sum_const, nsmul_eq_mul] at this
  unfold mean
  rw [this]
  field_simp

theorem groupWeights_average {gr : Fin n → Bool} (h : 0 < (inGroup gr).card) (s : Fin n → ℝ) :
    weightedMean (groupWeights gr) s = (∑ i ∈ inGroup gr, s i) / (inGroup gr).card ∧ ∀ θ,
      Real.sqrt (∑ i, (groupWeights gr i * (s i - θ)) ^ 2) / n = Real.sqrt (∑ i ∈ inGroup gr, (s i - θ) ^ 2) / (inGroup gr).card := by
  have hn : 0 < n := lt_of_lt_of_le h ((Finset.card_le_univ _).trans_eq (Fintype.card_fin n))
  have hn' : (n : ℝ) ≠ 0 := by exact_mod_cast hn.ne'
  have hc : ((inGroup gr).card : ℝ) ≠ 0 := by exact_mod_cast h.ne'
  have hsum : ∑ i, groupWeights gr i = n := by
    have := groupWeights_mean h
    unfold mean at this
    exact (div_eq_one_iff_eq hn').1 this
  constructor
  · unfold weightedMean
    rw [groupWeights_sum, hsum]
    field_simp
  · intro θ
    have e : ∑ i, (groupWeights gr i * (s i - θ)) ^ 2 = ((n : ℝ) / (inGroup gr).card) ^ 2 * ∑ i ∈ inGroup gr, (s i - θ) ^ 2 := by
      unfold groupWeights inGroup
      rw [Finset.mul_sum, Finset.sum_filter]
      refine Finset.sum_congr rfl fun i _ => ?_
      split_ifs <;> ring
    rw [e, Real.sqrt_mul (sq_nonneg _), Real.sqrt_sq (by positivity)]
    field_simp

theorem single_rep {F : Frame n} {sp' : LinSpec n P} (hu : UsualVsf sp') {s' : LinState n P} (hs' : Shaped s') (hr : s'.nRep = 1) {a : FitArgs}
    (h' : (fit F sp' s' a).2 = .ok ()) {j : ℕ} (hj : j < s'.data.d.length) {θ se : ℝ} (h0 : 0 ≤ se)
    (e1 : ((fit F sp' s' a).1.heap (fit F sp' s' a).1.arr).coef j 0 = some θ)
    (e2 : ((fit F sp' s' a).1.heap (fit F sp' s' a).1.arr).se j 0 = some se) :
    (fit F sp' s' a).1.coef j = some θ ∧ (fit F sp' s' a).1.se j = some se := by
  obtain ⟨A, c, o, V⟩ := fit_view hu hs' h' hr
  have k1 := V.coefs j hj 0
  have k2 := V.ses j hj 0
  have k1 : some θ = some (o j hj 0).fit.coef := e1.symm.trans k1
  have k2 : some se = some (o j hj 0).fit.se := e2.symm.trans k2
  rw [Option.some.injEq] at k1 k2
  obtain ⟨g1, g2⟩ := C08_single (fun k => (o j hj k).fit.coef) (fun k => (o j hj k).fit.se)
    (fun _ => vsfOf (sp'.vars.map fun v => v s'.data.cv)) (by rw [← k2]; exact h0)
  rw [V.coef j hj, V.se j hj, g1, g2, k1, k2]
  exact ⟨rfl, rfl⟩

theorem group_gate {F : Frame n} {sp sp' : LinSpec n P} {s s' : LinState n P} {a : FitArgs} {gr : Fin n → Bool}
    (hg : 0 < (inGroup gr).card) (h : (fit F sp s a).2 = .ok ()) (hr : s.nRep = 1)
    (hsig : ∃ sig, (fit F sp s a).1.psiB 0 0 = some sig ∧
      ((fit F sp' s' a).1.heap (fit F sp' s' a).1.arr).coef 0 0 = some (weightedMean (groupWeights gr) sig) ∧
      ((fit F sp' s' a).1.heap (fit F sp' s' a).1.arr).se 0 0 =
        some (Real.sqrt (∑ i, (groupWeights gr i * (sig i - weightedMean (groupWeights gr) sig)) ^ 2) / n))
    (hu : UsualVsf sp') (hs' : Shaped s') (hr' : s'.nRep = 1) (h' : (fit F sp' s' a).2 = .ok ()) (hj : 0 < s'.data.d.length)
    {ols : Ols} {g : GArg n} {cols : List (String × GCol n)} {b : Blp n cols.length}
    (hb : IsGate ols (fit F sp s a).1 g ⟨cols, b⟩) (hX : Exclusive (colMatrix cols)) (hd : Dummy (colMatrix cols))
    (ho : ∀ sig, LeastSquares sig (colMatrix cols) (ols sig (colMatrix cols))) {l : Fin cols.length} (hl : cols[l].2 = .bool gr) :
    ∃ o, b.model = some o ∧ (fit F sp' s' a).1.coef 0 = some (o.params l) ∧ (fit F sp' s' a).1.se 0 = some (o.bse l) := by
  obtain ⟨sig, e1, e2, e3⟩ := hsig
  obtain ⟨f1, f2⟩ := single_rep hu hs' hr' h' hj (by positivity) e2 e3
  obtain ⟨sig', e4, e5⟩ := hb
  rw [e1] at e4
  obtain rfl := Option.some.inj e4
  rw [fit_nRep h, hr] at e5
  obtain ⟨o, k1, k2⟩ := C62_gate_mean ols sig g cols b e5 hX hd (ho sig)
  have hm : members (colMatrix cols) l = inGroup gr := C62_boolean_groups cols l gr hl
  obtain ⟨k3, k4⟩ := k2 l (by rw [hm]; exact hg)
  rw [hm] at k3 k4
  obtain ⟨a1, a2⟩ := groupWeights_average hg sig
  refine ⟨o, k1, ?_, ?_⟩
  · rw [f1, a1, k3]
  · rw [f2, a2, k4, a1, k3]

/-- **C83, groups (IRM).**  A model with one repetition whose weights are the indicator of a group divided by its share has the estimate
and the standard error that `gate` of the unweighted model on the same data and split reports for the group, if the groups are disjoint. -/
theorem C83_irm_group {k : IrmClass n P} (hatte : k.atte = false) (hv : k.vars = none) {w' : StoredWeights} {gr : Fin n → Bool}
    (hg : 0 < (inGroup gr).card) (h1 : k.weights.at 0 = .ok (fun _ : Fin n => 1, fun _ => 1))
    (hw' : w'.at 0 = .ok (groupWeights gr, groupWeights gr)) {F : Frame n} {s s' : LinState n P} (hs' : Shaped s') (H : SameObject s s')
    (hr : s.nRep = 1) (hj : 0 < s.data.d.length) {a : FitArgs}
    (h : (fit F (irmSpec k) s a).2 = .ok ()) (h' : (fit F (irmSpec { k with weights := w' }) s' a).2 = .ok ())
    {ols : Ols} {g : GArg n} {cols : List (String × GCol n)} {b : Blp n cols.length}
    (hb : IsGate ols (fit F (irmSpec k) s a).1 g ⟨cols, b⟩) (hX : Exclusive (colMatrix cols)) (hd : Dummy (colMatrix cols))
    (ho : ∀ sig, LeastSquares sig (colMatrix cols) (ols sig (colMatrix cols))) {l : Fin cols.length} (hl : cols[l].2 = .bool gr) :
    ∃ o, b.model = some o ∧ (fit F (irmSpec { k with weights := w' }) s' a).1.coef 0 = some (o.params l) ∧
      (fit F (irmSpec { k with weights := w' }) s' a).1.se 0 = some (o.bse l) :=
  group_gate hg h hr (C83_irm_average_partial hatte hv H (lt_of_lt_of_le hg ((Finset.card_le_univ _).trans_eq (Fintype.card_fin n)))
    (groupWeights_mean hg) hj (by rw [hr]; exact one_pos) h1 hw' h h') (irm_linear _).usualVsf hs' (by rw [H.nRep, hr]) h'
    (by rw [H.data]; exact hj) hb hX hd ho hl

/-- **C83, groups (APO).**  The same for average potential outcomes and `gapo`. -/
theorem C83_apo_group {k : ApoClass n P} (hv : k.vars = none) {w' : StoredWeights} {gr : Fin n → Bool}
    (hg : 0 < (inGroup gr).card) (h1 : k.weights.at 0 = .ok (fun _ : Fin n => 1, fun _ => 1))
    (hw' : w'.at 0 = .ok (groupWeights gr, groupWeights gr)) {F : Frame n} {s s' : LinState n P} (hs' : Shaped s') (H : SameObject s s')
    (hr : s.nRep = 1) (hj : 0 < s.data.d.length) {a : FitArgs}
    (h : (fit F (apoSpec k) s a).2 = .ok ()) (h' : (fit F (apoSpec { k with weights := w' }) s' a).2 = .ok ())
    {ols : Ols} {g : GArg n} {cols : List (String × GCol n)} {b : Blp n cols.length}
    (hb : IsGate ols (fit F (apoSpec k) s a).1 g ⟨cols, b⟩) (hX : Exclusive (colMatrix cols)) (hd : Dummy (colMatrix cols))
    (ho : ∀ sig, LeastSquares sig (colMatrix cols) (ols sig (colMatrix cols))) {l : Fin cols.length} (hl : cols[l].2 = .bool gr) :
    ∃ o, b.model = some o ∧ (fit F (apoSpec { k with weights := w' }) s' a).1.coef 0 = some (o.params l) ∧
      (fit F (apoSpec { k with weights := w' }) s' a).1.se 0 = some (o.bse l) :=
  group_gate hg h hr (C83_apo_average_partial hv H (lt_of_lt_of_le hg ((Finset.card_le_univ _).trans_eq (Fintype.card_fin n)))
    (groupWeights_mean hg) hj (by rw [hr]; exact one_pos) h1 hw' h h') (apo_linear _).usualVsf hs' (by rw [H.nRep, hr]) h'
    (by rw [H.data]; exact hj) hb hX hd ho hl

/-! ## Effects on the treated in a subgroup -/

theorem atte_fit (hn : 0 < n) {w d g0 g1 m y s : Fin n → ℝ} (hp : mean (fun i => w i * d i) ≠ 0) (hd : mean d ≠ 0)
    (hs : ∀ i, s i = (irmElems y d g0 g1 m (atteWeights (fun _ => 1) d m).1 (atteWeights (fun _ => 1) d m).2).b i) :
    ((irmElems y d g0 g1 m (atteWeights w d m).1 (atteWeights w d m).2).fit none).coef =
      mean d * (∑ i, w i * s i) / ∑ i, w i * d i := by
  have hn' : (n : ℝ) ≠ 0 := by exact_mod_cast hn.ne'
  have ma : mean (fun i => w i * d i / mean fun i => w i * d i) = 1 := by
    have : (fun i => w i * d i / mean fun i => w i * d i) = fun i => (mean fun i => w i * d i)⁻¹ * (w i * d i) := funext fun i => by
      rw [div_eq_mul_inv, mul_comm]
    rw [this, mean_mul_left, inv_mul_cancel₀ hp]
  show -mean _ / mean _ = _
  have ea : (irmElems y d g0 g1 m (atteWeights w d m).1 (atteWeights w d m).2).a = fun i => -1 * (w i * d i / mean fun i => w i * d i) := by
    funext i
    show -1 * (w i * d i / (mean fun i => w i * d i) / mean (fun i => w i * d i / mean fun i => w i * d i)) = _
    rw [ma, div_one]
  have eb : (irmElems y d g0 g1 m (atteWeights w d m).1 (atteWeights w d m).2).b =
      fun i => (mean d / mean fun i => w i * d i) * (w i * s i) := by
    funext i
    rw [hs i]
    simp only [irmElems, atteWeights, one_mul, mul_one]
    field_simp
  rw [ea, eb, mean_mul_left, mean_mul_left, ma]
  unfold mean at hp hd ⊢
  have h1 : ∑ i, w i * d i ≠ 0 := fun e => hp (by rw [e, zero_div])
  field_simp

/-- **C83, effect on the treated in a subgroup.**  For the score `ATTE` the weights are the indicator of a subgroup. In every repetition
the estimate is the sum of the signals of the model without weights over the subgroup, divided by its number of treated observations, in
units of the share of treated observations. -/
theorem C83_atte_group {k : IrmClass n P} (hatte : k.atte = true) (hv : k.vars = none) {w' : StoredWeights} {w : Fin n → ℝ}
    {F : Frame n} {s s' : LinState n P} (H : SameObject s s') {a : FitArgs} (hn : 0 < n) (hd : s.data.d.length = 1) {q : ℕ} (hq : q < s.nRep)
    (h1 : ∀ i : Fin n, k.weights.weights.entries.getD i 0 = 1) (hw' : ∀ i : Fin n, w'.weights.entries.getD i 0 = w i)
    (hp : ∑ i, w i * (s.data.dv i).val ≠ 0) (hd0 : mean (fun i => (s.data.dv i).val) ≠ 0)
    (h : (fit F (irmSpec k) s a).2 = .ok ()) (h' : (fit F (irmSpec { k with weights := w' }) s' a).2 = .ok ()) :
    ∃ sig, (fit F (irmSpec k) s a).1.psiB 0 q = some sig ∧
      ((fit F (irmSpec k) s a).1.heap (fit F (irmSpec k) s a).1.arr).coef 0 q = some (mean sig) ∧
      ((fit F (irmSpec { k with weights := w' }) s' a).1.heap (fit F (irmSpec { k with weights := w' }) s' a).1.arr).coef 0 q =
        some (mean (fun i => (s.data.dv i).val) * (∑ i, w i * sig i) / ∑ i, w i * (s.data.dv i).val) := by
  have hj : 0 < s.data.d.length := by rw [hd]; exact one_pos
  obtain ⟨p, m, -, hc, -⟩ := fit_ok h
  obtain ⟨hp', hm⟩ := checkFit_ok hc
  obtain ⟨c, o, -, c1, c2, c3, -, c4, -, c5, -⟩ := fit_cells h hp' hm hj hq
  obtain ⟨c', o', -, d1, d2, d3, -, d4, -⟩ := fit_cells h' hp' hm (by rw [H.data]; exact hj) (by rw [H.nRep]; exact hq)
  rw [H.cell c1 d1 (d2.trans c2.symm) rfl rfl] at d3
  obtain ⟨g0, g1, mA, v, v', e1, e2, e3, e4, -⟩ := irm_reweight c3 d3
  have hdd : c.d = fun i => (s.data.dv i).val := by
    unfold CellIn.d
    rw [c1.data]
    unfold activeData
    rw [if_neg (by rw [hd]; norm_num)]
  unfold irmWeights at e1 e2
  rw [if_pos (by simp [hatte])] at e1 e2
  have w1 : (fun i : Fin n => k.weights.weights.entries.getD i 0) = fun _ => 1 := funext h1
  have w2 : (fun i : Fin n => w'.weights.entries.getD i 0) = w := funext hw'
  rw [w1] at e1
  dsimp only at e2
  rw [w2] at e2
  obtain rfl := Except.ok.inj e1
  obtain rfl := Except.ok.inj e2
  rw [c1.noCluster hv] at e3 e4
  have hn' : (n : ℝ) ≠ 0 := by exact_mod_cast hn.ne'
  have hpm : mean (fun i => w i * c.d i) ≠ 0 := by
    rw [hdd]
    unfold mean
    exact div_ne_zero hp hn'
  rw [← hdd] at hd0
  have k1 := atte_fit hn (y := c.y) (g0 := g0) (g1 := g1) (m := mA) (w := w) hpm hd0 (fun i => rfl)
  have k0 := atte_fit hn (y := c.y) (g0 := g0) (g1 := g1) (m := mA) (w := fun _ => 1) (d := c.d) (by simpa using hd0) hd0 (fun i => rfl)
  refine ⟨(irmElems c.y c.d g0 g1 mA (atteWeights (fun _ => 1) c.d mA).1 (atteWeights (fun _ => 1) c.d mA).2).b, ?_, ?_, ?_⟩
  · unfold MState.psiB
    rw [c4, c5, e3]
    refine congrArg some (funext fun i => ?_)
    set e := irmElems c.y c.d g0 g1 mA (atteWeights (fun _ => 1) c.d mA).1 (atteWeights (fun _ => 1) c.d mA).2
    show e.a i * (e.fit none).coef + e.b i - e.a i * (e.fit none).coef = e.b i
    ring
  · rw [c4, e3, k0]
    refine congrArg some ?_
    simp only [one_mul]
    unfold mean at hd0 ⊢
    have : ∑ i, c.d i ≠ 0 := fun e => hd0 (by rw [e, zero_div])
    field_simp
  · rw [d4, e4, k1, hdd]

/-- **C83, effects on the treated of two parts.**  The effects on the treated of a subgroup and of its complement, weighted with their
numbers of treated observations, add up to the effect on all treated. -/
theorem C83_atte_parts {k : IrmClass n P} (hatte : k.atte = true) (hv : k.vars = none) {w₁ w₂ : StoredWeights} {gr : Fin n → Bool}
    {F : Frame n} {s s₁ s₂ : LinState n P} (H₁ : SameObject s s₁) (H₂ : SameObject s s₂) {a : FitArgs} (hn : 0 < n)
    (hd : s.data.d.length = 1) {q : ℕ} (hq : q < s.nRep) (h0 : ∀ i : Fin n, k.weights.weights.entries.getD i 0 = 1)
    (hw₁ : ∀ i : Fin n, w₁.weights.entries.getD i 0 = if gr i then 1 else 0)
    (hw₂ : ∀ i : Fin n, w₂.weights.entries.getD i 0 = if gr i then 0 else 1) {n₁ n₂ : ℝ}
    (hn₁ : n₁ = ∑ i ∈ univ.filter (fun i => gr i = true), (s.data.dv i).val) (hn₂ : n₂ = ∑ i ∈ univ.filter (fun i => ¬ gr i = true), (s.data.dv i).val)
    (hp₁ : n₁ ≠ 0) (hp₂ : n₂ ≠ 0) (hp : n₁ + n₂ ≠ 0) (h : (fit F (irmSpec k) s a).2 = .ok ())
    (h₁ : (fit F (irmSpec { k with weights := w₁ }) s₁ a).2 = .ok ()) (h₂ : (fit F (irmSpec { k with weights := w₂ }) s₂ a).2 = .ok ()) :
    ∃ θ θ₁ θ₂, ((fit F (irmSpec k) s a).1.heap (fit F (irmSpec k) s a).1.arr).coef 0 q = some θ ∧
      ((fit F (irmSpec { k with weights := w₁ }) s₁ a).1.heap (fit F (irmSpec { k with weights := w₁ }) s₁ a).1.arr).coef 0 q = some θ₁ ∧
      ((fit F (irmSpec { k with weights := w₂ }) s₂ a).1.heap (fit F (irmSpec { k with weights := w₂ }) s₂ a).1.arr).coef 0 q = some θ₂ ∧
      θ = (n₁ * θ₁ + n₂ * θ₂) / (n₁ + n₂) := by
  have hn' : (n : ℝ) ≠ 0 := by exact_mod_cast hn.ne'
  have s1 : ∀ f : Fin n → ℝ, ∑ i, (if gr i then (1 : ℝ) else 0) * f i = ∑ i ∈ univ.filter (fun i => gr i = true), f i := fun f => by
    rw [Finset.sum_filter]
    exact Finset.sum_congr rfl fun i _ => by split_ifs <;> ring
  have s2 : ∀ f : Fin n → ℝ, ∑ i, (if gr i then (0 : ℝ) else 1) * f i = ∑ i ∈ univ.filter (fun i => ¬ gr i = true), f i := fun f => by
    rw [Finset.sum_filter]
    exact Finset.sum_congr rfl fun i _ => by split_ifs <;> ring
  have s3 : ∀ f : Fin n → ℝ, ∑ i, f i = ∑ i ∈ univ.filter (fun i => gr i = true), f i + ∑ i ∈ univ.filter (fun i => ¬ gr i = true), f i :=
    fun f => (Finset.sum_filter_add_sum_filter_not _ _ _).symm
  have hm : mean (fun i => (s.data.dv i).val) = (n₁ + n₂) / n := by
    unfold mean
    rw [s3, hn₁, hn₂]
  have hd0 : mean (fun i => (s.data.dv i).val) ≠ 0 := by rw [hm]; exact div_ne_zero hp hn'
  obtain ⟨sig, e1, e2, e3⟩ := C83_atte_group hatte hv H₁ hn hd hq h0 hw₁ (by rw [s1, ← hn₁]; exact hp₁) hd0 h h₁
  obtain ⟨sig', f1, f2, f3⟩ := C83_atte_group hatte hv H₂ hn hd hq h0 hw₂ (by rw [s2, ← hn₂]; exact hp₂) hd0 h h₂
  rw [e1] at f1
  obtain rfl := Option.some.inj f1
  refine ⟨_, _, _, e2, e3, f3, ?_⟩
  rw [s1, s1, s2, s2, ← hn₁, ← hn₂, hm]
  unfold mean
  rw [s3]
  field_simp

end DML
