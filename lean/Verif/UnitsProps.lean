import Verif.Units

/-!
# Units of measurement (C67)

Measuring the outcome in other units, `y' = α y + β`, multiplies estimates by `α` and standard errors by `|α|`, for every
class with a linear score; only average potential outcomes move with the origin.
-/

namespace DML

open Finset

variable {n r : ℕ} {P M : Type}

/-! ## Score and sensitivity elements -/

section elems

variable {α β : ℝ} {y d z l m g l' g' g0 g1 g0' g1' : Fin n → ℝ} (cr : Option (ClusterRep n))

theorem plrElems_units (iv : Bool) (hl : iv = false → ∀ i, l' i = α * l i + β) (hg : iv = true → ∀ i, g' i = α * g i + β) :
    ((plrElems iv y d l m g).fit cr).Rescaled α 0 ((plrElems iv (fun i => α * y i + β) d l' m g').fit cr) := by
  refine PsiElems.rescaled _ one_ne_zero (fun i => ?_) (fun i => ?_) (.inl rfl)
  · cases iv <;> simp [plrElems, plrPo, plrIv]
  · cases iv
    · simp only [plrElems, plrPo, Bool.false_eq_true, if_false, hl rfl]; ring
    · simp only [plrElems, plrIv, if_true, hg rfl]; ring

theorem plrResid2_units (iv : Bool) (hl : iv = false → ∀ i, l' i = α * l i + β) (hg : iv = true → ∀ i, g' i = α * g i + β)
    {t t' : ℝ} (ht : t' = α * t + 0) (i : Fin n) :
    plrResid2 iv (fun i => α * y i + β) d l' m g' t' i = α ^ 2 * plrResid2 iv y d l m g t i := by
  subst ht
  cases iv
  · simp only [plrResid2, plrPoResid2, Bool.false_eq_true, if_false, hl rfl]; ring
  · simp only [plrResid2, plrIvResid2, if_true, hg rfl]; ring

theorem plrSens_rescaled {e e' : Fin n → ℝ} (h : ∀ i, e' i = α ^ 2 * e i) :
    (plrSens e d m).Rescaled α 1 (plrSens e' d m) := by
  obtain rfl : e' = fun i => α ^ 2 * e i := funext h
  refine ⟨mean_mul_left _ _, by rw [one_pow, one_mul]; rfl, fun i => ?_, fun _ => by rw [one_pow, one_mul]; rfl,
    fun _ => by rw [one_mul]; rfl⟩
  show α ^ 2 * e i - mean _ = α ^ 2 * (e i - mean e)
  rw [mean_mul_left]; ring

theorem irmElems_units (mAdj w wb : Fin n → ℝ) (h0 : ∀ i, g0' i = α * g0 i + β) (h1 : ∀ i, g1' i = α * g1 i + β) :
    ((irmElems y d g0 g1 mAdj w wb).fit cr).Rescaled α 0 ((irmElems (fun i => α * y i + β) d g0' g1' mAdj w wb).fit cr) := by
  refine PsiElems.rescaled _ one_ne_zero (fun i => ?_) (fun i => ?_) (.inl rfl)
  · simp [irmElems]
  · simp only [irmElems, h0, h1]; ring

theorem apoElems_units (norm : Bool) (t w wb : Fin n → ℝ) (h1 : ∀ i, g1' i = α * g1 i + β)
    (hw : β = 0 ∨ mean w ≠ 0 ∧ aggObs cr w ≠ 0) :
    ((apoElems norm y t g1 m w wb).fit cr).Rescaled α (β * mean w)
      ((apoElems norm (fun i => α * y i + β) t g1' m w wb).fit cr) := by
  refine PsiElems.rescaled _ one_ne_zero (fun i => ?_) (fun i => ?_) ?_
  · simp [apoElems]
  · rcases hw with rfl | ⟨hw, -⟩
    · simp only [apoElems, h1]; ring
    · simp only [apoElems, h1]
      have : β * mean w * (-1 * (w i / mean w)) = - (β * w i) := by field_simp
      rw [this]; ring
  · rcases hw with rfl | ⟨hw, hw'⟩
    · left; ring
    · right
      show aggObs cr (fun i => -1 * (w i / mean w)) ≠ 0
      rw [aggObs_mul_left]
      simp only [div_eq_mul_inv]
      rw [aggObs_mul_right]
      exact mul_ne_zero (by norm_num) (mul_ne_zero hw' (inv_ne_zero hw))

theorem iivmElems_units (norm : Bool) (r0 r1 : Fin n → ℝ) (h0 : ∀ i, g0' i = α * g0 i + β) (h1 : ∀ i, g1' i = α * g1 i + β) :
    ((iivmElems norm y z d g0 g1 m r0 r1).fit cr).Rescaled α 0
      ((iivmElems norm (fun i => α * y i + β) z d g0' g1' m r0 r1).fit cr) := by
  refine PsiElems.rescaled _ one_ne_zero (fun i => ?_) (fun i => ?_) (.inl rfl)
  · simp [iivmElems]
  · simp only [iivmElems, h0, h1]; ring

theorem didElems_units (sc : DidScore) (norm : Bool) (p : Fin n → ℝ) (h0 : ∀ i, g0' i = α * g0 i + β)
    (h1 : ∀ i, g1' i = α * g1 i + β) :
    ((didElems sc norm y d g0 g1 m p).fit cr).Rescaled α 0
      ((didElems sc norm (fun i => α * y i + β) d g0' g1' m p).fit cr) := by
  refine PsiElems.rescaled _ one_ne_zero (fun i => ?_) (fun i => ?_) (.inl rfl)
  · simp [didElems]
  · cases sc <;> cases norm <;> simp only [didElems, didB1, h0, h1] <;> ring

theorem didCsElems_units (sc : DidScore) (norm : Bool) (t p lam : Fin n → ℝ) {G G' : Cells n}
    (h11 : ∀ i, G'.d1t1 i = α * G.d1t1 i + β) (h10 : ∀ i, G'.d1t0 i = α * G.d1t0 i + β)
    (h01 : ∀ i, G'.d0t1 i = α * G.d0t1 i + β) (h00 : ∀ i, G'.d0t0 i = α * G.d0t0 i + β) :
    ((didCsElems sc norm y d t G m p lam).fit cr).Rescaled α 0
      ((didCsElems sc norm (fun i => α * y i + β) d t G' m p lam).fit cr) := by
  refine PsiElems.rescaled _ one_ne_zero (fun i => ?_) (fun i => ?_) (.inl rfl)
  · simp [didCsElems]
  · simp only [didCsElems, h11, h10, h01, h00]; ring

theorem ssmElems_units (norm : Bool) (dt dc pi s : Fin n → ℝ) (h0 : ∀ i, g0' i = α * g0 i + β)
    (h1 : ∀ i, g1' i = α * g1 i + β) :
    ((ssmElems norm dt dc g1 g0 pi m s y).fit cr).Rescaled α 0
      ((ssmElems norm dt dc g1' g0' pi m s fun i => α * y i + β).fit cr) := by
  refine PsiElems.rescaled _ one_ne_zero (fun i => ?_) (fun i => ?_) (.inl rfl)
  · simp [ssmElems]
  · simp only [ssmElems, h0, h1]; ring

theorem plivElems_units (iv : Bool) (r : Fin n → ℝ) (hl : iv = false → ∀ i, l' i = α * l i + β)
    (hg : iv = true → ∀ i, g' i = α * g i + β) :
    ((plivElems iv y z d l m r g).fit cr).Rescaled α 0 ((plivElems iv (fun i => α * y i + β) z d l' m r g').fit cr) := by
  refine PsiElems.rescaled _ one_ne_zero (fun i => ?_) (fun i => ?_) (.inl rfl)
  · cases iv <;> simp [plivElems, plivPo, plivIv]
  · cases iv
    · simp only [plivElems, plivPo, Bool.false_eq_true, if_false, hl rfl]; ring
    · simp only [plivElems, plivIv, if_true, hg rfl]; ring

theorem plivMulti_units {k : ℕ} (proj : (Fin n → Fin k → ℝ) → (Fin n → ℝ) → Fin n → ℝ) (r : Fin n → ℝ)
    (Z Mh : Fin n → Fin k → ℝ) (hl : ∀ i, l' i = α * l i + β) :
    ((plivMulti proj y d l r Z Mh).fit cr).Rescaled α 0 ((plivMulti proj (fun i => α * y i + β) d l' r Z Mh).fit cr) := by
  refine PsiElems.rescaled _ one_ne_zero (fun i => ?_) (fun i => ?_) (.inl rfl)
  · simp [plivMulti]
  · simp only [plivMulti, hl]; ring

theorem plivZ_units (r : Fin n → ℝ) :
    ((plivZ y d r).fit cr).Rescaled α 0 ((plivZ (fun i => α * y i + 0) d r).fit cr) := by
  refine PsiElems.rescaled _ one_ne_zero (fun i => ?_) (fun i => ?_) (.inl rfl)
  · simp [plivZ]
  · simp only [plivZ]; ring

theorem plivXZ_units (mt : Fin n → ℝ) (hl : ∀ i, l' i = α * l i + β) :
    ((plivXZ y d l m mt).fit cr).Rescaled α 0 ((plivXZ (fun i => α * y i + β) d l' m mt).fit cr) := by
  refine PsiElems.rescaled _ one_ne_zero (fun i => ?_) (fun i => ?_) (.inl rfl)
  · simp [plivXZ]
  · simp only [plivXZ, hl]; ring

end elems

/-! ## One cell -/

section cell

variable {α β : ℝ} {c : CellIn n P} {b : Bool} {x : ℝ}

theorem plr_units (k : PlrClass n P) (hl : k.ml_l.Affine α β) (hg : k.iv = true → k.ml_g.Affine α β)
    (hS : FoldsOk c.smpls) (hne : ∀ f ∈ c.smpls, f.train ≠ []) (hx : ∀ l, c.extOf l = none)
    {o o' : LinOut n P} (h : plrEst k c = .ok o) (h' : plrEst k (c.withY (fun i => α * c.y i + β) b x) = .ok o') :
    o.fit.Rescaled α 0 o'.fit ∧ o.sens.Rescaled α 1 o'.sens := by
  obtain ⟨l, h1, h⟩ := bind_ok h
  obtain ⟨m, h2, h⟩ := bind_ok h
  obtain ⟨g, h3, h⟩ := bind_ok h
  obtain rfl := Except.ok.inj h
  obtain ⟨l', h1', h'⟩ := bind_ok h'
  obtain ⟨m', h2', h'⟩ := bind_ok h'
  obtain ⟨g', h3', h'⟩ := bind_ok h'
  obtain rfl := Except.ok.inj h'
  have hm : m' = m := Except.ok.inj (h2'.symm.trans h2)
  subst hm
  have hxx : ∀ l, (c.withY (fun i => α * c.y i + β) b x).extOf l = none := hx
  have hll : l.Rescaled α β l' := by
    unfold plrL at h1 h1'
    rw [hxx, hxx] at h1'
    rw [hx, hx] at h1
    simp only [Option.isSome_none, Bool.and_false, Bool.false_eq_true, if_false] at h1 h1'
    exact learn_aff hl (fun _ => rfl) hS hne h1 h1'
  have hgg : k.iv = true → ∀ i, g'.vec i = α * g.vec i + β := by
    intro hiv
    unfold plrG at h3 h3'
    rw [if_pos hiv, hxx] at h3'
    rw [if_pos hiv, hx] at h3
    refine CvRes.Rescaled.vec (learn_aff (hg hiv) (fun i => ?_) hS hne h3 h3')
    have hin : plrInitial (fun i => α * c.y i + β) c.d l'.vec m'.vec = α * plrInitial c.y c.d l.vec m'.vec := by
      unfold plrInitial
      have : (fun i => (c.d i - m'.vec i) * (α * c.y i + β - l'.vec i)) =
          fun i => α * ((c.d i - m'.vec i) * (c.y i - l.vec i)) := by
        funext i; rw [hll.vec]; ring
      rw [this, mean_mul_left, ← mul_neg, mul_div_assoc]
    show α * c.y i + β - plrInitial (fun i => α * c.y i + β) c.d l'.vec m'.vec * c.d i =
      α * (c.y i - plrInitial c.y c.d l.vec m'.vec * c.d i) + β
    rw [hin]; ring
  have hfit := plrElems_units (y := c.y) (d := c.d) (m := m'.vec) c.cluster k.iv (fun _ => hll.vec) hgg
  exact ⟨hfit, plrSens_rescaled fun i => plrResid2_units (y := c.y) (d := c.d) (m := m'.vec) k.iv (fun _ => hll.vec) hgg hfit.coef i⟩

theorem irm_units (k : IrmClass n P) (hk : k.gClassifier = false) (hg : k.ml_g.Affine α β) (hS : FoldsOk c.smpls)
    (hne : ∀ v : ℝ, v = 0 ∨ v = 1 → ∀ f ∈ c.smpls, ∃ i ∈ f.train, c.d i = v) (hx : ∀ l, c.extOf l = none)
    {o o' : LinOut n P} (h : irmEst k c = .ok o) (h' : irmEst k (c.withY (fun i => α * c.y i + β) b x) = .ok o') :
    o.fit.Rescaled α 0 o'.fit ∧ o.sens.Rescaled α 1 o'.sens := by
  obtain ⟨g0, h1, h⟩ := bind_ok h
  obtain ⟨g1, h2, h⟩ := bind_ok h
  obtain ⟨_, _, h⟩ := bind_ok h
  obtain ⟨m, h3, h⟩ := bind_ok h
  obtain ⟨w, h4, h⟩ := bind_ok h
  obtain rfl := Except.ok.inj h
  obtain ⟨g0', h1', h'⟩ := bind_ok h'
  obtain ⟨g1', h2', h'⟩ := bind_ok h'
  obtain ⟨_, _, h'⟩ := bind_ok h'
  obtain ⟨m', h3', h'⟩ := bind_ok h'
  obtain ⟨w', h4', h'⟩ := bind_ok h'
  obtain rfl := Except.ok.inj h'
  have hm : m' = m := Except.ok.inj (h3'.symm.trans h3)
  subst hm
  have hw : w' = w := Except.ok.inj (h4'.symm.trans h4)
  subst hw
  have hxx : ∀ l, (c.withY (fun i => α * c.y i + β) b x).extOf l = none := hx
  have e0 : g0.Rescaled α β g0' := by
    unfold irmG0 at h1 h1'
    rw [hx] at h1
    rw [hxx] at h1'
    dsimp only at h1 h1'
    obtain ⟨q, k1, k2⟩ := bind_ok h1
    obtain ⟨_, _, k2⟩ := bind_ok k2
    obtain ⟨q', k1', k2'⟩ := bind_ok h1'
    obtain ⟨_, _, k2'⟩ := bind_ok k2'
    rw [hk] at k1 k1'
    rw [← Except.ok.inj k2, ← Except.ok.inj k2']
    exact condLearn_aff hg (fun _ => rfl) hS (hne 0 (.inl rfl)) k1 k1'
  have e1 : g1.Rescaled α β g1' := by
    unfold irmG1 at h2 h2'
    rw [hx] at h2
    rw [hxx] at h2'
    rw [hk] at h2 h2'
    exact condLearn_aff hg (fun _ => rfl) hS (hne 1 (.inr rfl)) h2 h2'
  refine ⟨irmElems_units c.cluster _ _ _ e0.vec e1.vec, sensOf_rescaled _ _ fun i => ?_⟩
  show (α * c.y i + β - c.d i * g1'.vec i - (1 - c.d i) * g0'.vec i) ^ 2 =
    α ^ 2 * (c.y i - c.d i * g1.vec i - (1 - c.d i) * g0.vec i) ^ 2
  rw [e0.vec, e1.vec]; ring

theorem apo_units (k : ApoClass n P) (hk : k.gClassifier = false) (hg : k.ml_g.Affine α β) (hS : FoldsOk c.smpls)
    (hne : ∀ v : ℝ, v = 0 ∨ v = 1 → ∀ f ∈ c.smpls, ∃ i ∈ f.train, k.treated c i = v)
    (hw : β = 0 ∨ mean (fun i : Fin n => k.weights.weights.entries.getD i 0) ≠ 0 ∧
      aggObs c.cluster (fun i : Fin n => k.weights.weights.entries.getD i 0) ≠ 0)
    (hx : ∀ l, c.extOf l = none) {o o' : LinOut n P} (h : apoEst k c = .ok o)
    (h' : apoEst k (c.withY (fun i => α * c.y i + β) b x) = .ok o') :
    o.fit.Rescaled α (β * mean fun i : Fin n => k.weights.weights.entries.getD i 0) o'.fit ∧ o.sens.Rescaled α 1 o'.sens := by
  obtain ⟨g1, h1, h⟩ := bind_ok h
  obtain ⟨_, _, h⟩ := bind_ok h
  obtain ⟨g0, h2, h⟩ := bind_ok h
  obtain ⟨_, _, h⟩ := bind_ok h
  obtain ⟨m, h3, h⟩ := bind_ok h
  obtain ⟨w, h4, h⟩ := bind_ok h
  obtain rfl := Except.ok.inj h
  obtain ⟨g1', h1', h'⟩ := bind_ok h'
  obtain ⟨_, _, h'⟩ := bind_ok h'
  obtain ⟨g0', h2', h'⟩ := bind_ok h'
  obtain ⟨_, _, h'⟩ := bind_ok h'
  obtain ⟨m', h3', h'⟩ := bind_ok h'
  obtain ⟨w', h4', h'⟩ := bind_ok h'
  obtain rfl := Except.ok.inj h'
  have hm : m' = m := Except.ok.inj (h3'.symm.trans h3)
  subst hm
  have hww : w' = w := Except.ok.inj (h4'.symm.trans h4)
  subst hww
  have hxx : ∀ l, (c.withY (fun i => α * c.y i + β) b x).extOf l = none := hx
  have e0 : g0.Rescaled α β g0' := by
    unfold apoG0 at h2 h2'
    rw [hx] at h2
    rw [hxx] at h2'
    rw [hk] at h2 h2'
    exact condLearn_aff hg (fun _ => rfl) hS (hne 0 (.inl rfl)) h2 h2'
  have e1 : g1.Rescaled α β g1' := by
    unfold apoG1 at h1 h1'
    rw [hx] at h1
    rw [hxx] at h1'
    rw [hk] at h1 h1'
    exact condLearn_aff hg (fun _ => rfl) hS (hne 1 (.inr rfl)) h1 h1'
  have ew : w'.1 = fun i : Fin n => k.weights.weights.entries.getD i 0 := by
    unfold StoredWeights.at at h4
    cases hb : k.weights.bar with
    | none => rw [hb] at h4; rw [← Except.ok.inj h4]
    | some bar =>
      rw [hb] at h4
      dsimp only at h4
      split_ifs at h4
      rw [← Except.ok.inj h4]
  rw [← ew] at hw ⊢
  refine ⟨apoElems_units c.cluster k.normalize (k.treated c) w'.1 w'.2 e1.vec hw, sensOf_rescaled _ _ fun i => ?_⟩
  show (α * c.y i + β - k.treated c i * g1'.vec i - (1 - k.treated c i) * g0'.vec i) ^ 2 =
    α ^ 2 * (c.y i - k.treated c i * g1.vec i - (1 - k.treated c i) * g0.vec i) ^ 2
  rw [e0.vec, e1.vec]; ring

theorem iivm_units (k : IivmClass n P) (hk : k.gClassifier = false) (hg : k.ml_g.Affine α β) (hS : FoldsOk c.smpls)
    (hne : ∀ z, c.instr = .ok z → ∀ v : ℝ, v = 0 ∨ v = 1 → ∀ f ∈ c.smpls, ∃ i ∈ f.train, z i = v)
    (hx : ∀ l, c.extOf l = none) {o o' : LinOut n P} (h : iivmEst k c = .ok o)
    (h' : iivmEst k (c.withY (fun i => α * c.y i + β) b x) = .ok o') : o.fit.Rescaled α 0 o'.fit := by
  obtain ⟨z, h0, h⟩ := bind_ok h
  obtain ⟨g0, h1, h⟩ := bind_ok h
  obtain ⟨_, _, h⟩ := bind_ok h
  obtain ⟨g1, h2, h⟩ := bind_ok h
  obtain ⟨_, _, h⟩ := bind_ok h
  obtain ⟨m, h3, h⟩ := bind_ok h
  obtain ⟨r0, h4, h⟩ := bind_ok h
  obtain ⟨r1, h5, h⟩ := bind_ok h
  obtain rfl := Except.ok.inj h
  obtain ⟨z', h0', h'⟩ := bind_ok h'
  obtain ⟨g0', h1', h'⟩ := bind_ok h'
  obtain ⟨_, _, h'⟩ := bind_ok h'
  obtain ⟨g1', h2', h'⟩ := bind_ok h'
  obtain ⟨_, _, h'⟩ := bind_ok h'
  obtain ⟨m', h3', h'⟩ := bind_ok h'
  obtain ⟨r0', h4', h'⟩ := bind_ok h'
  obtain ⟨r1', h5', h'⟩ := bind_ok h'
  obtain rfl := Except.ok.inj h'
  obtain rfl : z' = z := Except.ok.inj (h0'.symm.trans h0)
  obtain rfl : m' = m := Except.ok.inj (h3'.symm.trans h3)
  obtain rfl : r0' = r0 := Except.ok.inj (h4'.symm.trans h4)
  obtain rfl : r1' = r1 := Except.ok.inj (h5'.symm.trans h5)
  have hxx : ∀ l, (c.withY (fun i => α * c.y i + β) b x).extOf l = none := hx
  have e0 : g0.Rescaled α β g0' := by
    unfold iivmG at h1 h1'
    rw [hx] at h1
    rw [hxx] at h1'
    rw [hk] at h1 h1'
    exact condLearn_aff hg (fun _ => rfl) hS (hne _ h0 0 (.inl rfl)) h1 h1'
  have e1 : g1.Rescaled α β g1' := by
    unfold iivmG at h2 h2'
    rw [hx] at h2
    rw [hxx] at h2'
    rw [hk] at h2 h2'
    exact condLearn_aff hg (fun _ => rfl) hS (hne _ h0 1 (.inr rfl)) h2 h2'
  exact iivmElems_units c.cluster _ _ _ e0.vec e1.vec

theorem did_units (k : DidClass n P) (hk : k.gClassifier = false) (hg : k.ml_g.Affine α β) (hS : FoldsOk c.smpls)
    (hne : ∀ v : ℝ, v = 0 ∨ v = 1 → ∀ f ∈ c.smpls, ∃ i ∈ f.train, c.d i = v) (hx : ∀ l, c.extOf l = none)
    {o o' : LinOut n P} (h : didEst k c = .ok o) (h' : didEst k (c.withY (fun i => α * c.y i + β) b x) = .ok o') :
    o.fit.Rescaled α 0 o'.fit ∧ o.sens.Rescaled α 1 o'.sens := by
  obtain ⟨g0, h1, h⟩ := bind_ok h
  obtain ⟨g1, h2, h⟩ := bind_ok h
  obtain ⟨m, h3, h⟩ := bind_ok h
  obtain rfl := Except.ok.inj h
  obtain ⟨g0', h1', h'⟩ := bind_ok h'
  obtain ⟨g1', h2', h'⟩ := bind_ok h'
  obtain ⟨m', h3', h'⟩ := bind_ok h'
  obtain rfl := Except.ok.inj h'
  obtain rfl : m' = m := Except.ok.inj (h3'.symm.trans h3)
  have hxx : ∀ l, (c.withY (fun i => α * c.y i + β) b x).extOf l = none := hx
  have e0 : g0.Rescaled α β g0' := by
    unfold didG at h1 h1'
    rw [hx] at h1
    rw [hxx] at h1'
    rw [hk] at h1 h1'
    exact condLearn_aff hg (fun _ => rfl) hS (hne 0 (.inl rfl)) h1 h1'
  have e1 : g1.Rescaled α β g1' := by
    unfold didG at h2 h2'
    rw [hx] at h2
    rw [hxx] at h2'
    rw [hk] at h2 h2'
    exact condLearn_aff hg (fun _ => rfl) hS (hne 1 (.inr rfl)) h2 h2'
  refine ⟨didElems_units c.cluster _ _ _ e0.vec e1.vec, sensOf_rescaled _ _ fun i => ?_⟩
  show (α * c.y i + β - (c.d i * g1'.vec i + (1 - c.d i) * g0'.vec i)) ^ 2 =
    α ^ 2 * (c.y i - (c.d i * g1.vec i + (1 - c.d i) * g0.vec i)) ^ 2
  rw [e0.vec, e1.vec]; ring

theorem didCs_units (k : DidClass n P) (hk : k.gClassifier = false) (hg : k.ml_g.Affine α β) (hS : FoldsOk c.smpls)
    (hne : ∀ t, c.time = .ok t → ∀ v w : ℝ, v = 0 ∨ v = 1 → w = 0 ∨ w = 1 → ∀ f ∈ c.smpls, ∃ i ∈ f.train, c.d i = v ∧ t i = w)
    (hx : ∀ l, c.extOf l = none) {o o' : LinOut n P} (h : csEst k c = .ok o)
    (h' : csEst k (c.withY (fun i => α * c.y i + β) b x) = .ok o') :
    o.fit.Rescaled α 0 o'.fit ∧ o.sens.Rescaled α 1 o'.sens := by
  obtain ⟨t, h0, h⟩ := bind_ok h
  obtain ⟨g00, h1, h⟩ := bind_ok h
  obtain ⟨g01, h2, h⟩ := bind_ok h
  obtain ⟨g10, h3, h⟩ := bind_ok h
  obtain ⟨g11, h4, h⟩ := bind_ok h
  obtain ⟨m, h5, h⟩ := bind_ok h
  obtain rfl := Except.ok.inj h
  obtain ⟨t', h0', h'⟩ := bind_ok h'
  obtain ⟨g00', h1', h'⟩ := bind_ok h'
  obtain ⟨g01', h2', h'⟩ := bind_ok h'
  obtain ⟨g10', h3', h'⟩ := bind_ok h'
  obtain ⟨g11', h4', h'⟩ := bind_ok h'
  obtain ⟨m', h5', h'⟩ := bind_ok h'
  obtain rfl := Except.ok.inj h'
  obtain rfl : t' = t := Except.ok.inj (h0'.symm.trans h0)
  obtain rfl : m' = m := Except.ok.inj (h5'.symm.trans h5)
  have key : ∀ {l : String} {v w : ℝ} {g g' : CvRes n P (List Cell)}, (v = 0 ∨ v = 1) → (w = 0 ∨ w = 1) →
      csG k c t' l v w = .ok g → csG k (c.withY (fun i => α * c.y i + β) b x) t' l v w = .ok g' → g.Rescaled α β g' := by
    intro l v w g g' hv hw hg1 hg2
    unfold csG at hg1 hg2
    rw [hx] at hg1
    rw [show (c.withY (fun i => α * c.y i + β) b x).extOf l = none from hx l] at hg2
    rw [hk] at hg1 hg2
    dsimp only at hg1 hg2
    obtain ⟨q, hq, hg1⟩ := bind_ok hg1
    obtain ⟨q', hq', hg2⟩ := bind_ok hg2
    obtain rfl := Except.ok.inj hg1
    obtain rfl := Except.ok.inj hg2
    exact CvRes.Rescaled.mask (crossFit_aff hg (fun _ => rfl) hS (hne _ h0 v w hv hw) hq hq') _ _
  have e00 := key (.inl rfl) (.inl rfl) h1 h1'
  have e01 := key (.inl rfl) (.inr rfl) h2 h2'
  have e10 := key (.inr rfl) (.inl rfl) h3 h3'
  have e11 := key (.inr rfl) (.inr rfl) h4 h4'
  refine ⟨didCsElems_units c.cluster _ _ _ _ _ e11.vec e10.vec e01.vec e00.vec, sensOf_rescaled _ _ fun i => ?_⟩
  show (α * c.y i + β - ((1 - c.d i) * (1 - t' i) * g00'.vec i + (1 - c.d i) * t' i * g01'.vec i +
      c.d i * (1 - t' i) * g10'.vec i + c.d i * t' i * g11'.vec i)) ^ 2 =
    α ^ 2 * (c.y i - ((1 - c.d i) * (1 - t' i) * g00.vec i + (1 - c.d i) * t' i * g01.vec i +
      c.d i * (1 - t' i) * g10.vec i + c.d i * t' i * g11.vec i)) ^ 2
  rw [e00.vec, e01.vec, e10.vec, e11.vec]; ring

theorem ssm_units (k : SsmClass n P) (hk : k.gClassifier = false) (hg : k.ml_g.Affine α β) (hS : FoldsOk c.smpls)
    (hne : ∀ s, c.sel = .ok s → ∀ v : ℝ, v = 0 ∨ v = 1 → ∀ f ∈ c.smpls, ∃ i ∈ f.train, c.d i = v ∧ s i = 1)
    {o o' : LinOut n P} (h : ssmEst k c = .ok o)
    (h' : ssmEst k (c.withY (fun i => α * c.y i + β) b x) = .ok o') : o.fit.Rescaled α 0 o'.fit := by
  obtain ⟨s, h0, h⟩ := bind_ok h
  obtain ⟨pi, h1, h⟩ := bind_ok h
  obtain ⟨m, h2, h⟩ := bind_ok h
  obtain ⟨g1, h3, h⟩ := bind_ok h
  obtain ⟨g0, h4, h⟩ := bind_ok h
  obtain ⟨_, _, h⟩ := bind_ok h
  obtain rfl := Except.ok.inj h
  obtain ⟨s', h0', h'⟩ := bind_ok h'
  obtain ⟨pi', h1', h'⟩ := bind_ok h'
  obtain ⟨m', h2', h'⟩ := bind_ok h'
  obtain ⟨g1', h3', h'⟩ := bind_ok h'
  obtain ⟨g0', h4', h'⟩ := bind_ok h'
  obtain ⟨_, _, h'⟩ := bind_ok h'
  obtain rfl := Except.ok.inj h'
  obtain rfl : s' = s := Except.ok.inj (h0'.symm.trans h0)
  obtain rfl : pi' = pi := Except.ok.inj (h1'.symm.trans h1)
  obtain rfl : m' = m := Except.ok.inj (h2'.symm.trans h2)
  rw [hk] at h3 h3' h4 h4'
  have e1 : g1.Rescaled α β g1' := crossFit_aff hg (fun _ => rfl) hS (hne _ h0 1 (.inr rfl)) (ssmPart_ok h3) (ssmPart_ok h3')
  have e0 : g0.Rescaled α β g0' := crossFit_aff hg (fun _ => rfl) hS (hne _ h0 0 (.inl rfl)) (ssmPart_ok h4) (ssmPart_ok h4')
  exact ssmElems_units c.cluster _ _ _ _ _ e0.vec e1.vec

theorem pliv_units (k : PlivClass n P) (hl : k.ml_l.Affine α β) (hg : k.iv = true → k.ml_g.Affine α β)
    (hS : FoldsOk c.smpls) (hne : ∀ f ∈ c.smpls, f.train ≠ []) (hx : ∀ l, c.extOf l = none)
    {o o' : LinOut n P} (h : plivEst k c = .ok o) (h' : plivEst k (c.withY (fun i => α * c.y i + β) b x) = .ok o') :
    o.fit.Rescaled α 0 o'.fit := by
  obtain ⟨l, h1, h⟩ := bind_ok h
  obtain ⟨z, h0, h⟩ := bind_ok h
  obtain ⟨m, h2, h⟩ := bind_ok h
  obtain ⟨r, h3, h⟩ := bind_ok h
  obtain ⟨g, h4, h⟩ := bind_ok h
  obtain rfl := Except.ok.inj h
  obtain ⟨l', h1', h'⟩ := bind_ok h'
  obtain ⟨z', h0', h'⟩ := bind_ok h'
  obtain ⟨m', h2', h'⟩ := bind_ok h'
  obtain ⟨r', h3', h'⟩ := bind_ok h'
  obtain ⟨g', h4', h'⟩ := bind_ok h'
  obtain rfl := Except.ok.inj h'
  obtain rfl : z' = z := Except.ok.inj (h0'.symm.trans h0)
  obtain rfl : m' = m := Except.ok.inj (h2'.symm.trans h2)
  obtain rfl : r' = r := Except.ok.inj (h3'.symm.trans h3)
  have hxx : ∀ l, (c.withY (fun i => α * c.y i + β) b x).extOf l = none := hx
  have hll : l.Rescaled α β l' := by
    unfold plivPart at h1 h1'
    rw [hxx] at h1'
    rw [hx] at h1
    exact learn_aff hl (fun _ => rfl) hS hne h1 h1'
  have hgg : k.iv = true → ∀ i, g'.vec i = α * g.vec i + β := by
    intro hiv
    unfold plivG plivPart at h4 h4'
    rw [if_pos hiv, hxx] at h4'
    rw [if_pos hiv, hx] at h4
    refine CvRes.Rescaled.vec (learn_aff (hg hiv) (fun i => ?_) hS hne h4 h4')
    have hin : (plivPo (fun i => α * c.y i + β) z' c.d l'.vec m'.vec r'.vec).coef none =
        α * (plivPo c.y z' c.d l.vec m'.vec r'.vec).coef none := by
      have := (plivElems_units (y := c.y) (z := z') (d := c.d) (m := m'.vec) (g := g.vec) (g' := g'.vec) none false r'.vec
        (fun _ => hll.vec) (by simp)).coef
      rw [add_zero] at this
      exact this
    show α * c.y i + β - (plivPo (fun i => α * c.y i + β) z' c.d l'.vec m'.vec r'.vec).coef none * c.d i =
      α * (c.y i - (plivPo c.y z' c.d l.vec m'.vec r'.vec).coef none * c.d i) + β
    rw [hin]; ring
  exact plivElems_units c.cluster k.iv _ (fun _ => hll.vec) hgg

theorem plivMultiEst_units (k : PlivClass n P) (hl : k.ml_l.Affine α β) (hS : FoldsOk c.smpls)
    (hne : ∀ f ∈ c.smpls, f.train ≠ []) (hx : ∀ l, c.extOf l = none) {o o' : LinOut n P} (h : plivMultiEst k c = .ok o)
    (h' : plivMultiEst k (c.withY (fun i => α * c.y i + β) b x) = .ok o') : o.fit.Rescaled α 0 o'.fit := by
  obtain ⟨l, h1, h⟩ := bind_ok h
  obtain ⟨ms, h2, h⟩ := bind_ok h
  obtain ⟨r, h3, h⟩ := bind_ok h
  obtain rfl := Except.ok.inj h
  obtain ⟨l', h1', h'⟩ := bind_ok h'
  obtain ⟨ms', h2', h'⟩ := bind_ok h'
  obtain ⟨r', h3', h'⟩ := bind_ok h'
  obtain rfl := Except.ok.inj h'
  obtain rfl : ms' = ms := Except.ok.inj (h2'.symm.trans h2)
  obtain rfl : r' = r := Except.ok.inj (h3'.symm.trans h3)
  have hll : l.Rescaled α β l' := by
    unfold plivPart at h1 h1'
    rw [show (c.withY (fun i => α * c.y i + β) b x).extOf "ml_l" = none from hx _] at h1'
    rw [hx] at h1
    exact learn_aff hl (fun _ => rfl) hS hne h1 h1'
  exact plivMulti_units c.cluster _ _ _ _ hll.vec

theorem plivZEst_units (k : PlivClass n P) {o o' : LinOut n P} (h : plivZEst k c = .ok o)
    (h' : plivZEst k (c.withY (fun i => α * c.y i + 0) b x) = .ok o') : o.fit.Rescaled α 0 o'.fit := by
  obtain ⟨r, h1, h⟩ := bind_ok h
  obtain rfl := Except.ok.inj h
  obtain ⟨r', h1', h'⟩ := bind_ok h'
  obtain rfl := Except.ok.inj h'
  obtain rfl : r' = r := Except.ok.inj (h1'.symm.trans h1)
  exact plivZ_units c.cluster _

theorem plivXZEst_units (k : PlivClass n P) (hl : k.ml_l.Affine α β) (hS : FoldsOk c.smpls)
    (hne : ∀ f ∈ c.smpls, f.train ≠ []) {o o' : LinOut n P} (h : plivXZEst k c = .ok o)
    (h' : plivXZEst k (c.withY (fun i => α * c.y i + β) b x) = .ok o') : o.fit.Rescaled α 0 o'.fit := by
  obtain ⟨l, h1, h⟩ := bind_ok h
  obtain ⟨m, h2, h⟩ := bind_ok h
  obtain ⟨r, h3, h⟩ := bind_ok h
  obtain rfl := Except.ok.inj h
  obtain ⟨l', h1', h'⟩ := bind_ok h'
  obtain ⟨m', h2', h'⟩ := bind_ok h'
  obtain ⟨r', h3', h'⟩ := bind_ok h'
  obtain rfl := Except.ok.inj h'
  obtain rfl : m' = m := Except.ok.inj (h2'.symm.trans h2)
  obtain rfl : r' = r := Except.ok.inj (h3'.symm.trans h3)
  exact plivXZ_units c.cluster _ (ssmPart_aff hl (fun _ => rfl) hS hne h1 h1').vec

/-! ## Treatments and instruments -/

theorem Learner.affine_id (L : Learner P (List Cell)) : L.Affine 1 0 := by
  intro p D x _
  simp only [one_mul, add_zero, Prod.mk.eta, List.map_id']

/-- The treatment of a partially linear model in other units. -/
theorem plr_treatment {γ δ : ℝ} (hγ : γ ≠ 0) (k : PlrClass n P) (hk : k.mClassifier = false) (hm : k.ml_m.Affine γ δ)
    (hiv : k.iv = true → δ = 0) (hS : FoldsOk c.smpls) (hne : ∀ f ∈ c.smpls, f.train ≠ []) (hx : ∀ l, c.extOf l = none)
    {bt : List (String × Bool)} {o o' : LinOut n P} (h : plrEst k c = .ok o)
    (h' : plrEst k (c.withD (fun i => γ * c.d i + δ) bt x) = .ok o') :
    o.fit.Rescaled γ⁻¹ 0 o'.fit ∧ o.sens.Rescaled 1 γ⁻¹ o'.sens := by
  obtain ⟨l, h1, h⟩ := bind_ok h
  obtain ⟨m, h2, h⟩ := bind_ok h
  obtain ⟨g, h3, h⟩ := bind_ok h
  obtain rfl := Except.ok.inj h
  obtain ⟨l', h1', h'⟩ := bind_ok h'
  obtain ⟨m', h2', h'⟩ := bind_ok h'
  obtain ⟨g', h3', h'⟩ := bind_ok h'
  obtain rfl := Except.ok.inj h'
  obtain rfl : l' = l := Except.ok.inj (h1'.symm.trans h1)
  have hxx : ∀ l, (c.withD (fun i => γ * c.d i + δ) bt x).extOf l = none := hx
  have hmm : ∀ i, m'.vec i = γ * m.vec i + δ := by
    unfold plrM at h2 h2'
    rw [hx, hk] at h2
    rw [hxx, hk] at h2'
    obtain ⟨q, k1, k2⟩ := bind_ok h2
    obtain ⟨_, _, k2⟩ := bind_ok k2
    obtain ⟨q', k1', k2'⟩ := bind_ok h2'
    obtain ⟨_, _, k2'⟩ := bind_ok k2'
    rw [← Except.ok.inj k2, ← Except.ok.inj k2']
    exact (learn_aff hm (fun _ => rfl) hS hne k1 k1').vec
  have hres : ∀ i, γ * c.d i + δ - m'.vec i = γ * (c.d i - m.vec i) := fun i => by rw [hmm]; ring
  have hgg : k.iv = true → ∀ i, g'.vec i = g.vec i := by
    intro hiv'
    obtain rfl := hiv hiv'
    unfold plrG at h3 h3'
    rw [if_pos hiv', hxx] at h3'
    rw [if_pos hiv', hx] at h3
    intro i
    refine ((learn_aff (Learner.affine_id _) (fun i => ?_) hS hne h3 h3').vec i).trans (by rw [one_mul, add_zero])
    have hin : plrInitial c.y (fun i => γ * c.d i + 0) l'.vec m'.vec = γ⁻¹ * plrInitial c.y c.d l'.vec m.vec := by
      unfold plrInitial
      simp only [hres]
      have e1 : (fun i => γ * (c.d i - m.vec i) * (c.y i - l'.vec i)) = fun i => γ * ((c.d i - m.vec i) * (c.y i - l'.vec i)) := by
        funext i; ring
      have e2 : (fun i => -(γ * (c.d i - m.vec i) * (γ * (c.d i - m.vec i)))) =
          fun i => γ * γ * -((c.d i - m.vec i) * (c.d i - m.vec i)) := by
        funext i; ring
      rw [e1, e2, mean_mul_left, mean_mul_left, ← mul_neg, mul_assoc, mul_div_mul_left _ _ hγ, div_mul_eq_div_div, div_eq_mul_inv _ γ,
        mul_div_assoc', mul_comm γ⁻¹, mul_div_right_comm]
    show c.y i - plrInitial c.y (fun i => γ * c.d i + 0) l'.vec m'.vec * (γ * c.d i + 0) =
      1 * (c.y i - plrInitial c.y c.d l'.vec m.vec * c.d i) + 0
    rw [hin]; field_simp; ring
  have hfit : ((plrElems k.iv c.y c.d l'.vec m.vec g.vec).fit c.cluster).Rescaled γ⁻¹ 0
      ((plrElems k.iv c.y (fun i => γ * c.d i + δ) l'.vec m'.vec g'.vec).fit c.cluster) := by
    refine PsiElems.rescaled (γ := γ ^ 2) _ (pow_ne_zero 2 hγ) (fun i => ?_) (fun i => ?_) (.inl rfl)
    · cases hi : k.iv
      · simp only [plrElems, plrPo, Bool.false_eq_true, if_false, hres]; ring
      · obtain rfl := hiv hi
        simp only [plrElems, plrIv, if_true, hres]; ring
    · cases hi : k.iv
      · simp only [plrElems, plrPo, Bool.false_eq_true, if_false, hres]; field_simp; ring
      · simp only [plrElems, plrIv, if_true, hres, hgg hi]; field_simp; ring
  refine ⟨hfit, ?_⟩
  have hco := hfit.coef
  rw [add_zero] at hco
  show (plrSens (plrResid2 k.iv c.y c.d l'.vec m.vec g.vec ((plrElems k.iv c.y c.d l'.vec m.vec g.vec).fit c.cluster).coef) c.d
      m.vec).Rescaled 1 γ⁻¹ (plrSens (plrResid2 k.iv c.y (fun i => γ * c.d i + δ) l'.vec m'.vec g'.vec
        ((plrElems k.iv c.y (fun i => γ * c.d i + δ) l'.vec m'.vec g'.vec).fit c.cluster).coef) (fun i => γ * c.d i + δ) m'.vec)
  rw [hco]
  have hr2 : plrResid2 k.iv c.y (fun i => γ * c.d i + δ) l'.vec m'.vec g'.vec
        (γ⁻¹ * ((plrElems k.iv c.y c.d l'.vec m.vec g.vec).fit c.cluster).coef) =
      plrResid2 k.iv c.y c.d l'.vec m.vec g.vec ((plrElems k.iv c.y c.d l'.vec m.vec g.vec).fit c.cluster).coef := by
    funext i
    cases hi : k.iv
    · simp only [plrResid2, plrPoResid2, Bool.false_eq_true, if_false, hres]
      congr 1; field_simp
    · obtain rfl := hiv hi
      simp only [plrResid2, plrIvResid2, if_true, hgg hi]
      congr 1; field_simp; ring
  rw [hr2]
  generalize plrResid2 k.iv c.y c.d l'.vec m.vec g.vec _ = e
  have hnu : (1 : ℝ) / mean (fun i => (γ * c.d i + δ - m'.vec i) ^ 2) = (γ⁻¹) ^ 2 * (1 / mean fun i => (c.d i - m.vec i) ^ 2) := by
    simp only [hres, mul_pow]
    rw [mean_mul_left, one_div, one_div, mul_inv, inv_pow]
  refine ⟨by rw [one_pow, one_mul]; rfl, hnu, fun _ => by rw [one_pow, one_mul]; rfl, fun i => ?_, fun i => ?_⟩
  · show 1 / mean (fun i => (γ * c.d i + δ - m'.vec i) ^ 2) - (γ * c.d i + δ - m'.vec i) ^ 2 *
      (1 / mean fun i => (γ * c.d i + δ - m'.vec i) ^ 2) ^ 2 = γ⁻¹ ^ 2 * (1 / mean (fun i => (c.d i - m.vec i) ^ 2) -
        (c.d i - m.vec i) ^ 2 * (1 / mean fun i => (c.d i - m.vec i) ^ 2) ^ 2)
    rw [hnu, hres]
    generalize (1 : ℝ) / mean (fun i => (c.d i - m.vec i) ^ 2) = u
    field_simp
  · show (γ * c.d i + δ - m'.vec i) * (1 / mean fun i => (γ * c.d i + δ - m'.vec i) ^ 2) =
      γ⁻¹ * ((c.d i - m.vec i) * (1 / mean fun i => (c.d i - m.vec i) ^ 2))
    rw [hnu, hres]
    generalize (1 : ℝ) / mean (fun i => (c.d i - m.vec i) ^ 2) = u
    field_simp

/-- The treatment of a partially linear IV model in other units. -/
theorem pliv_treatment {γ δ : ℝ} (hγ : γ ≠ 0) (k : PlivClass n P) (hr : k.ml_r.Affine γ δ)
    (hiv : k.iv = true → δ = 0) (hS : FoldsOk c.smpls) (hne : ∀ f ∈ c.smpls, f.train ≠ []) (hx : ∀ l, c.extOf l = none)
    {bt : List (String × Bool)} {o o' : LinOut n P} (h : plivEst k c = .ok o)
    (h' : plivEst k (c.withD (fun i => γ * c.d i + δ) bt x) = .ok o') : o.fit.Rescaled γ⁻¹ 0 o'.fit := by
  obtain ⟨l, h1, h⟩ := bind_ok h
  obtain ⟨z, h0, h⟩ := bind_ok h
  obtain ⟨m, h2, h⟩ := bind_ok h
  obtain ⟨r, h3, h⟩ := bind_ok h
  obtain ⟨g, h4, h⟩ := bind_ok h
  obtain rfl := Except.ok.inj h
  obtain ⟨l', h1', h'⟩ := bind_ok h'
  obtain ⟨z', h0', h'⟩ := bind_ok h'
  obtain ⟨m', h2', h'⟩ := bind_ok h'
  obtain ⟨r', h3', h'⟩ := bind_ok h'
  obtain ⟨g', h4', h'⟩ := bind_ok h'
  obtain rfl := Except.ok.inj h'
  obtain rfl : l' = l := Except.ok.inj (h1'.symm.trans h1)
  obtain rfl : z' = z := Except.ok.inj (h0'.symm.trans h0)
  obtain rfl : m' = m := Except.ok.inj (h2'.symm.trans h2)
  have hxx : ∀ l, (c.withD (fun i => γ * c.d i + δ) bt x).extOf l = none := hx
  have hrr : ∀ i, γ * c.d i + δ - r'.vec i = γ * (c.d i - r.vec i) := by
    unfold plivPart at h3 h3'
    rw [hxx] at h3'
    rw [hx] at h3
    intro i
    rw [(learn_aff hr (fun _ => rfl) hS hne h3 h3').vec]; ring
  have hpo : (plivPo c.y z' (fun i => γ * c.d i + δ) l'.vec m'.vec r'.vec).coef none =
      γ⁻¹ * (plivPo c.y z' c.d l'.vec m'.vec r.vec).coef none := by
    have : ((plivPo c.y z' c.d l'.vec m'.vec r.vec).fit none).Rescaled γ⁻¹ 0
        ((plivPo c.y z' (fun i => γ * c.d i + δ) l'.vec m'.vec r'.vec).fit none) := by
      refine PsiElems.rescaled (γ := γ) _ hγ (fun i => ?_) (fun i => ?_) (.inl rfl)
      · simp only [plivPo, hrr]; ring
      · simp only [plivPo]; field_simp; ring
    have h := this.coef
    rw [add_zero] at h
    exact h
  have hgg : k.iv = true → ∀ i, g'.vec i = g.vec i := by
    intro hiv'
    obtain rfl := hiv hiv'
    unfold plivG plivPart at h4 h4'
    rw [if_pos hiv', hxx] at h4'
    rw [if_pos hiv', hx] at h4
    intro i
    refine ((learn_aff (Learner.affine_id _) (fun i => ?_) hS hne h4 h4').vec i).trans (by rw [one_mul, add_zero])
    show c.y i - (plivPo c.y z' (fun i => γ * c.d i + 0) l'.vec m'.vec r'.vec).coef none * (γ * c.d i + 0) =
      1 * (c.y i - (plivPo c.y z' c.d l'.vec m'.vec r.vec).coef none * c.d i) + 0
    rw [hpo]; field_simp; ring
  refine PsiElems.rescaled (γ := γ) _ hγ (fun i => ?_) (fun i => ?_) (.inl rfl)
  · show (plivElems k.iv c.y z' (fun i => γ * c.d i + δ) l'.vec m'.vec r'.vec g'.vec).a i =
      γ * (plivElems k.iv c.y z' c.d l'.vec m'.vec r.vec g.vec).a i
    cases hi : k.iv
    · simp only [plivElems, plivPo, Bool.false_eq_true, if_false, hrr]; ring
    · obtain rfl := hiv hi
      simp only [plivElems, plivIv, if_true]; ring
  · show (plivElems k.iv c.y z' (fun i => γ * c.d i + δ) l'.vec m'.vec r'.vec g'.vec).b i =
      γ * (γ⁻¹ * (plivElems k.iv c.y z' c.d l'.vec m'.vec r.vec g.vec).b i - 0 * (plivElems k.iv c.y z' c.d l'.vec m'.vec r.vec g.vec).a i)
    cases hi : k.iv
    · simp only [plivElems, plivPo, Bool.false_eq_true, if_false]; field_simp; ring
    · simp only [plivElems, plivIv, if_true, hgg hi]; field_simp; ring

/-- The instrument of a partially linear IV model in other units: nothing changes. -/
theorem pliv_instrument {γ δ : ℝ} (hγ : γ ≠ 0) (k : PlivClass n P) (hm : k.ml_m.Affine γ δ) (hS : FoldsOk c.smpls)
    (hne : ∀ f ∈ c.smpls, f.train ≠ []) (hx : ∀ l, c.extOf l = none) {z : Fin n → ℝ} (hz : c.instr = .ok z)
    {o o' : LinOut n P} (h : plivEst k c = .ok o) (h' : plivEst k (c.withZ (fun i => γ * z i + δ) x) = .ok o') :
    o.fit.Rescaled 1 0 o'.fit := by
  obtain ⟨l, h1, h⟩ := bind_ok h
  obtain ⟨z0, h0, h⟩ := bind_ok h
  obtain ⟨m, h2, h⟩ := bind_ok h
  obtain ⟨r, h3, h⟩ := bind_ok h
  obtain ⟨g, h4, h⟩ := bind_ok h
  obtain rfl := Except.ok.inj h
  obtain ⟨l', h1', h'⟩ := bind_ok h'
  obtain ⟨z', h0', h'⟩ := bind_ok h'
  obtain ⟨m', h2', h'⟩ := bind_ok h'
  obtain ⟨r', h3', h'⟩ := bind_ok h'
  obtain ⟨g', h4', h'⟩ := bind_ok h'
  obtain rfl := Except.ok.inj h'
  obtain rfl : l' = l := Except.ok.inj (h1'.symm.trans h1)
  obtain rfl : z0 = z := Except.ok.inj (h0.symm.trans hz)
  obtain rfl : z' = fun i => γ * z0 i + δ := (Except.ok.inj h0').symm
  obtain rfl : r' = r := Except.ok.inj (h3'.symm.trans h3)
  have hxx : ∀ l, (c.withZ (fun i => γ * z0 i + δ) x).extOf l = none := hx
  have hmm : ∀ i, γ * z0 i + δ - m'.vec i = γ * (z0 i - m.vec i) := by
    unfold plivPart at h2 h2'
    rw [hxx] at h2'
    rw [hx] at h2
    intro i
    rw [(learn_aff hm (fun _ => rfl) hS hne h2 h2').vec]; ring
  have hpo : (plivPo c.y (fun i => γ * z0 i + δ) c.d l'.vec m'.vec r'.vec).coef none =
      (plivPo c.y z0 c.d l'.vec m.vec r'.vec).coef none := by
    have : ((plivPo c.y z0 c.d l'.vec m.vec r'.vec).fit none).Rescaled 1 0
        ((plivPo c.y (fun i => γ * z0 i + δ) c.d l'.vec m'.vec r'.vec).fit none) := by
      refine PsiElems.rescaled (γ := γ) _ hγ (fun i => ?_) (fun i => ?_) (.inl rfl)
      · simp only [plivPo, hmm]; ring
      · simp only [plivPo, hmm]; ring
    have h := this.coef
    rw [add_zero, one_mul] at h
    exact h
  have hgg : k.iv = true → ∀ i, g'.vec i = g.vec i := by
    intro hiv'
    unfold plivG plivPart at h4 h4'
    rw [if_pos hiv', hxx] at h4'
    rw [if_pos hiv', hx] at h4
    intro i
    refine ((learn_aff (Learner.affine_id _) (fun i => ?_) hS hne h4 h4').vec i).trans (by rw [one_mul, add_zero])
    show c.y i - (plivPo c.y (fun i => γ * z0 i + δ) c.d l'.vec m'.vec r'.vec).coef none * c.d i =
      1 * (c.y i - (plivPo c.y z0 c.d l'.vec m.vec r'.vec).coef none * c.d i) + 0
    rw [hpo]; ring
  refine PsiElems.rescaled (γ := γ) _ hγ (fun i => ?_) (fun i => ?_) (.inl rfl)
  · show (plivElems k.iv c.y (fun i => γ * z0 i + δ) c.d l'.vec m'.vec r'.vec g'.vec).a i =
      γ * (plivElems k.iv c.y z0 c.d l'.vec m.vec r'.vec g.vec).a i
    cases hi : k.iv
    · simp only [plivElems, plivPo, Bool.false_eq_true, if_false, hmm]; ring
    · simp only [plivElems, plivIv, if_true, hmm]; ring
  · show (plivElems k.iv c.y (fun i => γ * z0 i + δ) c.d l'.vec m'.vec r'.vec g'.vec).b i =
      γ * (1 * (plivElems k.iv c.y z0 c.d l'.vec m.vec r'.vec g.vec).b i - 0 * (plivElems k.iv c.y z0 c.d l'.vec m.vec r'.vec g.vec).a i)
    cases hi : k.iv
    · simp only [plivElems, plivPo, Bool.false_eq_true, if_false, hmm]; ring
    · simp only [plivElems, plivIv, if_true, hmm, hgg hi]; ring

end cell

end DML
