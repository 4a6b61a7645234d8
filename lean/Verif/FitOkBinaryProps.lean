import Verif.FitOkManyProps
import Verif.ConstructFitProps
import Verif.DatasetsProps

/-!
# C63 for binary outcomes

Models for binary treatments whose outcome regression may be a classifier.  IRM, APO and IIVM refuse predictions of a binary
outcome that are all 0 or 1 (`_check_binary_predictions`, /repo/doubleml/utils/_checks.py:200-209); nothing else can go wrong.
Difference in differences and the sample selection model do not look at the predictions.
-/

namespace DML

open Finset

variable {n : ℕ} {P M : Type}

theorem C63_of_cells_one_or {E : Ext} {F : Frame n} {sp : Spec n P M} (e₀ : Exc) (hv : sp.vars = none)
    (hsig : sp.sensImpl = true → ∀ c o, sp.est c = .ok o → 0 ≤ o.sens.sigma2) {D : DataState n} {tv : String}
    {s : MState n P M} (h : Reached E F sp D tv s) {L : List (List (Fold n))} (hL : s.smpls = some L)
    {a : FitArgs} (ha : ValidArgs sp tv s.nRep a)
    (hcell : ∀ q S c, q < s.nRep → L[q]? = some S → FoldsOk S → CellOf D tv q S c →
      setExt n a.ext sp.learners tv q = .ok c.ext → (∃ o, sp.est c = .ok o) ∨ sp.est c = .error e₀)
    (hkeys : OneKey sp.keys sp.learners)
    (hloss : ∀ c o, sp.est c = .ok o → ∀ l ∈ sp.learners, (lookupKey l o.preds).isSome ∧ (lookupKey l o.targets).isSome) :
    (fit F sp s a).2 = .ok () ∨ (fit F sp s a).2 = .error e₀ := by
  refine C63_of_cells_or e₀ hv hsig h.from (Activates.one h.1) hL (by rw [h.1]; exact ha.forOne) (fun t ht q S c hq h1 h2 h3 h4 => ?_)
    hkeys fun _ _ _ c o _ => hloss c o
  rw [h.1] at ht
  obtain rfl := List.mem_singleton.1 ht
  have : activeData F D t = D := by
    unfold activeData
    rw [if_neg (by rw [h.1]; simp)]
  rw [this] at h3
  exact hcell q S c hq h1 h2 h3 h4

theorem C63_of_cells_one {E : Ext} {F : Frame n} {sp : Spec n P M} (hv : sp.vars = none)
    (hsig : sp.sensImpl = true → ∀ c o, sp.est c = .ok o → 0 ≤ o.sens.sigma2) {D : DataState n} {tv : String}
    {s : MState n P M} (h : Reached E F sp D tv s) {L : List (List (Fold n))} (hL : s.smpls = some L)
    {a : FitArgs} (ha : ValidArgs sp tv s.nRep a)
    (hcell : ∀ q S c, q < s.nRep → L[q]? = some S → FoldsOk S → CellOf D tv q S c →
      setExt n a.ext sp.learners tv q = .ok c.ext → ∃ o, sp.est c = .ok o)
    (hkeys : OneKey sp.keys sp.learners)
    (hloss : ∀ c o, sp.est c = .ok o → ∀ l ∈ sp.learners, (lookupKey l o.preds).isSome ∧ (lookupKey l o.targets).isSome) :
    (fit F sp s a).2 = .ok () := by
  have key : ∀ e, (fit F sp s a).2 = .ok () ∨ (fit F sp s a).2 = .error e := fun e =>
    C63_of_cells_one_or e hv hsig h hL ha (fun q S c h1 h2 h3 h4 h5 => .inl (hcell q S c h1 h2 h3 h4 h5)) hkeys hloss
  rcases key .valueError with h1 | h1
  · exact h1
  · rcases key .typeError with h2 | h2
    · exact h2
    · rw [h1] at h2
      cases h2

theorem CellOf.y {D : DataState n} {tv : String} {q : ℕ} {S : List (Fold n)} {c : CellIn n P} (h : CellOf D tv q S c) :
    c.y = nums D.yv := by
  unfold CellIn.y nums
  rw [h.data]

theorem propM_total' {L : Learner P (List Cell)} {c : CellIn n P} (hS : FoldsOk c.smpls)
    (hp : ∀ l, (c.paramsOf l).Fits c.smpls.length) (hL : L.Compliant) {y : Fin n → ℝ} (hd : BinaryTarget y)
    (hf : EveryFold c.smpls (fun _ => True) y) : ∃ m, propM L c y = .ok m := by
  unfold propM
  cases c.extOf "ml_m" with
  | some e => exact ⟨_, rfl⟩
  | none => exact learn_total' y hS (hp _) (fun _ => ⟨hL, hd, hf⟩)

theorem extRes_labels {e : Fin n → ℝ} (h : Labels (extRes (P := P) e).preds) : ∀ i, e i = 0 ∨ e i = 1 :=
  fun i => (h i).imp Option.some.inj Option.some.inj

/-! ## IRM -/

/-- A cell of an IRM model can be estimated unless the outcome is binary and predictions are labels. -/
theorem irm_or {k : IrmClass n P} {c : CellIn n P} (hS : FoldsOk c.smpls) (hp : ∀ l, (c.paramsOf l).Fits c.smpls.length)
    (hg : ∀ v, v = 0 ∨ v = 1 → Trains k.ml_g k.gClassifier c.y c.smpls fun i => c.d i = v) (hL : k.ml_m.Compliant)
    (hd : BinaryTarget c.d) (hf : EveryFold c.smpls (fun _ => True) c.d) {w : (Fin n → ℝ) × (Fin n → ℝ)}
    (hw : k.weights.at c.rep = .ok w) :
    (∃ o, irmEst k c = .ok o) ∨ irmEst k c = .error .valueError ∧ c.data.binOut = true ∧
      ((∃ r, condLearn k.ml_g (methodOf k.gClassifier) c "ml_g0" (rowX c.data) c.y (fun i => c.d i = 0) (fun i => c.d i = 0) = .ok r ∧
        Labels r.preds) ∨ k.atte = false ∧ ∃ r, irmG1 k c = .ok r ∧ Labels r.preds) := by
  obtain ⟨r0, h0⟩ := condLearn_total (L := k.ml_g) (l := "ml_g0") (rowX c.data) c.y (fun i => c.d i = 0) (fun i => c.d i = 0)
    hS (hp _) (hg 0 (.inl rfl)).method
  obtain ⟨g1, e1⟩ : ∃ g1, irmG1 k c = .ok g1 := by
    unfold irmG1
    cases c.extOf "ml_g1" with
    | some e => exact ⟨_, rfl⟩
    | none =>
      exact condLearn_total (rowX c.data) c.y (fun i => c.d i = 1) (fun i => c.d i = 1) hS (hp _) (hg 1 (.inr rfl)).method
  have hG0 : (∃ g0, irmG0 k c = .ok g0) ∨ irmG0 k c = .error .valueError ∧ c.data.binOut = true ∧ Labels r0.preds := by
    unfold irmG0
    cases c.extOf "ml_g0" with
    | some e => exact .inl ⟨_, rfl⟩
    | none =>
      rcases checkOut_or c r0.preds with h | ⟨h, h1, h2⟩
      · simp only [h0, h, bind, Except.bind, pure, Except.pure]
        exact .inl ⟨_, rfl⟩
      · simp only [h0, h, bind, Except.bind]
        exact .inr ⟨trivial, h1, h2⟩
  rcases hG0 with ⟨g0, e0⟩ | ⟨e0, hb, hl⟩
  · have hC : irmCheck1 k c g1.preds = .ok () ∨ irmCheck1 k c g1.preds = .error .valueError ∧ c.data.binOut = true ∧
        k.atte = false ∧ Labels g1.preds := by
      unfold irmCheck1
      cases k.atte with
      | true => exact .inl rfl
      | false =>
        rcases checkOut_or c g1.preds with h | ⟨h, h1, h2⟩
        · exact .inl h
        · exact .inr ⟨h, h1, rfl, h2⟩
    rcases hC with ec | ⟨ec, h1, h2, h3⟩
    · obtain ⟨m, em⟩ := propM_total' (L := k.ml_m) hS hp hL hd hf
      obtain ⟨w', hw'⟩ : ∃ w', irmWeights k c (adjust k.normalize (trimRes k.trimT m).vec c.d) = .ok w' := by
        unfold irmWeights
        split
        · exact ⟨_, rfl⟩
        · exact ⟨w, hw⟩
      unfold irmEst
      simp only [e0, e1, em, ec, hw', bind, Except.bind, pure, Except.pure]
      exact .inl ⟨_, rfl⟩
    · refine .inr ⟨?_, h1, .inr ⟨h2, g1, e1, h3⟩⟩
      unfold irmEst
      simp only [e0, e1, ec, bind, Except.bind]
  · refine .inr ⟨?_, hb, .inl ⟨r0, h0, hl⟩⟩
    unfold irmEst
    simp only [e0, bind, Except.bind]

theorem irm_sigma {k : IrmClass n P} (_ : (irmSpec k).sensImpl = true) (c : CellIn n P) (o : LinOut n P)
    (ho : (irmSpec k).est c = .ok o) : 0 ≤ o.sens.sigma2 := by
  obtain ⟨g0, -, ho⟩ := bind_ok ho
  obtain ⟨g1, -, ho⟩ := bind_ok ho
  obtain ⟨_, -, ho⟩ := bind_ok ho
  obtain ⟨m, -, ho⟩ := bind_ok ho
  obtain ⟨w, -, ho⟩ := bind_ok ho
  rw [← Except.ok.inj ho]
  exact sensOf_sigma _ _

theorem irm_stored {k : IrmClass n P} (c : CellIn n P) (o : LinOut n P) (ho : (irmSpec k).est c = .ok o) (l : String)
    (hl : l ∈ (irmSpec k).learners) : (lookupKey l o.preds).isSome ∧ (lookupKey l o.targets).isSome := by
  obtain ⟨g0, -, ho⟩ := bind_ok ho
  obtain ⟨g1, -, ho⟩ := bind_ok ho
  obtain ⟨_, -, ho⟩ := bind_ok ho
  obtain ⟨m, -, ho⟩ := bind_ok ho
  obtain ⟨w, -, ho⟩ := bind_ok ho
  rw [← Except.ok.inj ho]
  simp only [irmSpec, List.mem_cons, List.not_mem_nil, or_false] at hl
  rcases hl with rfl | rfl | rfl <;> exact ⟨rfl, rfl⟩

/-- **C63.** IRM, binary outcomes and classifiers for the outcome included: `fit` succeeds or raises the exception about
binary predictions. -/
theorem C63_irm_or {E : Ext} {F : Frame n} {k : IrmClass n P} (hv : k.vars = none) (hm : k.ml_m.Compliant) {D : DataState n}
    (hb : BinaryTarget (nums D.dv)) {tv : String} {s : LinState n P} (h : Reached E F (irmSpec k) D tv s)
    {L : List (List (Fold n))} (hL : s.smpls = some L) (hf : ∀ S ∈ L, EveryFold S (fun _ => True) (nums D.dv))
    (hg : ∀ S ∈ L, ∀ v, v = 0 ∨ v = 1 → Trains k.ml_g k.gClassifier (nums D.yv) S fun i => nums D.dv i = v)
    (hw : ∀ q < L.length, ∃ w : (Fin n → ℝ) × (Fin n → ℝ), k.weights.at q = .ok w) {a : FitArgs}
    (ha : ValidArgs (irmSpec k) tv s.nRep a) :
    (fit F (irmSpec k) s a).2 = .ok () ∨ (fit F (irmSpec k) s a).2 = .error .valueError := by
  refine C63_of_cells_one_or .valueError hv irm_sigma h hL ha (fun q S c _ hq hS hc _ => ?_) (irm_keys k.gClassifier) irm_stored
  obtain ⟨w, hw⟩ := hw q (List.getElem?_eq_some_iff.1 hq).1
  have hmem := List.mem_of_getElem? hq
  refine (irm_or (hc.split hS) hc.fits ?_ hm ?_ ?_ (w := w) (by rw [hc.rep]; exact hw)).imp_right And.left
  · rw [hc.y, hc.d, hc.smpls]; exact hg S hmem
  · rw [hc.d]; exact hb
  · rw [hc.d, hc.smpls]; exact hf S hmem

/-- **C63.** It succeeds if for a binary outcome neither the learner nor the predictions supplied for the treated are labels. -/
theorem C63_irm_binary {E : Ext} {F : Frame n} {k : IrmClass n P} (hn : 0 < n) (hv : k.vars = none) (hm : k.ml_m.Compliant)
    {D : DataState n} (hb : BinaryTarget (nums D.dv)) {tv : String} {s : LinState n P} (h : Reached E F (irmSpec k) D tv s)
    {L : List (List (Fold n))} (hL : s.smpls = some L) (hf : ∀ S ∈ L, EveryFold S (fun _ => True) (nums D.dv))
    (hg : ∀ S ∈ L, ∀ v, v = 0 ∨ v = 1 → Trains k.ml_g k.gClassifier (nums D.yv) S fun i => nums D.dv i = v)
    (hw : ∀ q < L.length, ∃ w : (Fin n → ℝ) × (Fin n → ℝ), k.weights.at q = .ok w) {a : FitArgs}
    (ha : ValidArgs (irmSpec k) tv s.nRep a)
    (hs : D.binOut = true → k.ml_g.Soft (methodOf k.gClassifier) ∧ (k.atte = false → a.ext.SoftFor n s.nRep tv "ml_g1")) :
    (fit F (irmSpec k) s a).2 = .ok () := by
  refine C63_of_cells_one hv irm_sigma h hL ha (fun q S c hqr hq hS hc he => ?_) (irm_keys k.gClassifier) irm_stored
  obtain ⟨w, hw⟩ := hw q (List.getElem?_eq_some_iff.1 hq).1
  have hmem := List.mem_of_getElem? hq
  have hT : ∀ v, v = 0 ∨ v = 1 → Trains k.ml_g k.gClassifier c.y c.smpls fun i => c.d i = v := by
    rw [hc.y, hc.d, hc.smpls]; exact hg S hmem
  rcases irm_or (hc.split hS) hc.fits hT hm (by rw [hc.d]; exact hb) (by rw [hc.d, hc.smpls]; exact hf S hmem) (w := w)
    (by rw [hc.rep]; exact hw) with h1 | ⟨-, h1, h2⟩
  · exact h1
  · obtain ⟨g1, g2⟩ := hs (by rw [← hc.data]; exact h1)
    rcases h2 with ⟨r, h2, h3⟩ | ⟨ht, r, h2, h3⟩
    · exact absurd h3 (condLearn_soft hn (hc.split hS) g1 (hT 0 (.inl rfl)) h2)
    · unfold irmG1 at h2
      split at h2
      · rename_i e hx
        obtain rfl := Except.ok.inj h2
        exact absurd (extRes_labels h3) (extSoft hqr (g2 ht) he hx)
      · exact absurd h3 (condLearn_soft hn (hc.split hS) g1 (hT 1 (.inr rfl)) h2)

/-! ## APO -/

/-- A cell of an APO model can be estimated unless the outcome is binary and predictions are labels. -/
theorem apo_or {k : ApoClass n P} {c : CellIn n P} (hS : FoldsOk c.smpls) (hp : ∀ l, (c.paramsOf l).Fits c.smpls.length)
    (hg : ∀ v, v = 0 ∨ v = 1 → Trains k.ml_g k.gClassifier c.y c.smpls fun i => k.treated c i = v) (hL : k.ml_m.Compliant)
    (hd : BinaryTarget (k.treated c)) (hf : EveryFold c.smpls (fun _ => True) (k.treated c)) {w : (Fin n → ℝ) × (Fin n → ℝ)}
    (hw : k.weights.at c.rep = .ok w) :
    (∃ o, apoEst k c = .ok o) ∨ apoEst k c = .error .valueError ∧ c.data.binOut = true ∧
      ((∃ r, apoG1 k c = .ok r ∧ Labels r.preds) ∨ ∃ r, apoG0 k c = .ok r ∧ Labels r.preds) := by
  obtain ⟨g1, e1⟩ : ∃ g, apoG1 k c = .ok g := by
    unfold apoG1
    cases c.extOf "ml_g_d_lvl1" with
    | some e => exact ⟨_, rfl⟩
    | none => exact condLearn_total (rowX c.data) c.y _ _ hS (hp _) (hg 1 (.inr rfl)).method
  obtain ⟨g0, e0⟩ : ∃ g, apoG0 k c = .ok g := by
    unfold apoG0
    cases c.extOf "ml_g_d_lvl0" with
    | some e => exact ⟨_, rfl⟩
    | none => exact condLearn_total c.dx c.y _ _ hS (hp _) (hg 0 (.inl rfl)).method
  obtain ⟨m, em⟩ : ∃ m, apoM k c = .ok m := by
    unfold apoM
    cases c.extOf "ml_m" with
    | some e => exact ⟨_, rfl⟩
    | none => exact learn_total' (k.treated c) hS (hp _) (fun _ => ⟨hL, hd, hf⟩)
  rcases checkOut_or c g1.preds with h1 | ⟨h1, h2, h3⟩
  · rcases checkOut_or c g0.preds with h4 | ⟨h4, h5, h6⟩
    · unfold apoEst
      simp only [e0, e1, em, h1, h4, hw, bind, Except.bind, pure, Except.pure]
      exact .inl ⟨_, rfl⟩
    · refine .inr ⟨?_, h5, .inr ⟨g0, e0, h6⟩⟩
      unfold apoEst
      simp only [e0, e1, h1, h4, bind, Except.bind]
  · refine .inr ⟨?_, h2, .inl ⟨g1, e1, h3⟩⟩
    unfold apoEst
    simp only [e1, h1, bind, Except.bind]

theorem apo_sigma {k : ApoClass n P} (_ : (apoSpec k).sensImpl = true) (c : CellIn n P) (o : LinOut n P)
    (ho : (apoSpec k).est c = .ok o) : 0 ≤ o.sens.sigma2 := by
  obtain ⟨g1, -, ho⟩ := bind_ok ho
  obtain ⟨_, -, ho⟩ := bind_ok ho
  obtain ⟨g0, -, ho⟩ := bind_ok ho
  obtain ⟨_, -, ho⟩ := bind_ok ho
  obtain ⟨m, -, ho⟩ := bind_ok ho
  obtain ⟨w, -, ho⟩ := bind_ok ho
  rw [← Except.ok.inj ho]
  exact sensOf_sigma _ _

theorem apo_stored {k : ApoClass n P} (c : CellIn n P) (o : LinOut n P) (ho : (apoSpec k).est c = .ok o) (l : String)
    (hl : l ∈ (apoSpec k).learners) : (lookupKey l o.preds).isSome ∧ (lookupKey l o.targets).isSome := by
  obtain ⟨g1, -, ho⟩ := bind_ok ho
  obtain ⟨_, -, ho⟩ := bind_ok ho
  obtain ⟨g0, -, ho⟩ := bind_ok ho
  obtain ⟨_, -, ho⟩ := bind_ok ho
  obtain ⟨m, -, ho⟩ := bind_ok ho
  obtain ⟨w, -, ho⟩ := bind_ok ho
  rw [← Except.ok.inj ho]
  simp only [apoSpec, List.mem_cons, List.not_mem_nil, or_false] at hl
  rcases hl with rfl | rfl | rfl <;> exact ⟨rfl, rfl⟩

theorem CellOf.treated {k : ApoClass n P} {D : DataState n} {tv : String} {q : ℕ} {S : List (Fold n)} {c : CellIn n P}
    (h : CellOf D tv q S c) : k.treated c = isLevel k.level (nums D.dv) := by
  unfold ApoClass.treated isLevel
  rw [h.d]

/-- **C63.** APO, binary outcomes and classifiers for the outcome included. -/
theorem C63_apo_or {E : Ext} {F : Frame n} {k : ApoClass n P} (hv : k.vars = none) (hm : k.ml_m.Compliant) {D : DataState n}
    (hb : BinaryTarget (isLevel k.level (nums D.dv))) {tv : String} {s : LinState n P} (h : Reached E F (apoSpec k) D tv s)
    {L : List (List (Fold n))} (hL : s.smpls = some L)
    (hf : ∀ S ∈ L, EveryFold S (fun _ => True) (isLevel k.level (nums D.dv)))
    (hg : ∀ S ∈ L, ∀ v, v = 0 ∨ v = 1 → Trains k.ml_g k.gClassifier (nums D.yv) S fun i => isLevel k.level (nums D.dv) i = v)
    (hw : ∀ q < L.length, ∃ w : (Fin n → ℝ) × (Fin n → ℝ), k.weights.at q = .ok w) {a : FitArgs}
    (ha : ValidArgs (apoSpec k) tv s.nRep a) :
    (fit F (apoSpec k) s a).2 = .ok () ∨ (fit F (apoSpec k) s a).2 = .error .valueError := by
  refine C63_of_cells_one_or .valueError hv apo_sigma h hL ha (fun q S c _ hq hS hc _ => ?_) (apo_keys k.gClassifier) apo_stored
  obtain ⟨w, hw⟩ := hw q (List.getElem?_eq_some_iff.1 hq).1
  have hmem := List.mem_of_getElem? hq
  refine (apo_or (hc.split hS) hc.fits ?_ hm ?_ ?_ (w := w) (by rw [hc.rep]; exact hw)).imp_right And.left
  · rw [hc.y, hc.treated, hc.smpls]; exact hg S hmem
  · rw [hc.treated]; exact hb
  · rw [hc.treated, hc.smpls]; exact hf S hmem

/-- **C63.** It succeeds if for a binary outcome neither the learner nor the supplied outcome predictions are labels. -/
theorem C63_apo_binary {E : Ext} {F : Frame n} {k : ApoClass n P} (hn : 0 < n) (hv : k.vars = none) (hm : k.ml_m.Compliant)
    {D : DataState n} (hb : BinaryTarget (isLevel k.level (nums D.dv))) {tv : String} {s : LinState n P}
    (h : Reached E F (apoSpec k) D tv s) {L : List (List (Fold n))} (hL : s.smpls = some L)
    (hf : ∀ S ∈ L, EveryFold S (fun _ => True) (isLevel k.level (nums D.dv)))
    (hg : ∀ S ∈ L, ∀ v, v = 0 ∨ v = 1 → Trains k.ml_g k.gClassifier (nums D.yv) S fun i => isLevel k.level (nums D.dv) i = v)
    (hw : ∀ q < L.length, ∃ w : (Fin n → ℝ) × (Fin n → ℝ), k.weights.at q = .ok w) {a : FitArgs}
    (ha : ValidArgs (apoSpec k) tv s.nRep a)
    (hs : D.binOut = true → k.ml_g.Soft (methodOf k.gClassifier) ∧ a.ext.SoftFor n s.nRep tv "ml_g_d_lvl0" ∧
      a.ext.SoftFor n s.nRep tv "ml_g_d_lvl1") : (fit F (apoSpec k) s a).2 = .ok () := by
  refine C63_of_cells_one hv apo_sigma h hL ha (fun q S c hqr hq hS hc he => ?_) (apo_keys k.gClassifier) apo_stored
  obtain ⟨w, hw⟩ := hw q (List.getElem?_eq_some_iff.1 hq).1
  have hmem := List.mem_of_getElem? hq
  have hT : ∀ v, v = 0 ∨ v = 1 → Trains k.ml_g k.gClassifier c.y c.smpls fun i => k.treated c i = v := by
    rw [hc.y, hc.treated, hc.smpls]; exact hg S hmem
  rcases apo_or (hc.split hS) hc.fits hT hm (by rw [hc.treated]; exact hb) (by rw [hc.treated, hc.smpls]; exact hf S hmem) (w := w)
    (by rw [hc.rep]; exact hw) with h1 | ⟨-, h1, h2⟩
  · exact h1
  · obtain ⟨g1, g2, g3⟩ := hs (by rw [← hc.data]; exact h1)
    rcases h2 with ⟨r, h2, h3⟩ | ⟨r, h2, h3⟩
    · unfold apoG1 at h2
      split at h2
      · rename_i e hx
        obtain rfl := Except.ok.inj h2
        exact absurd (fun i => (h3 i).imp Option.some.inj Option.some.inj) (extSoft hqr g3 he hx)
      · exact absurd h3 (condLearn_soft hn (hc.split hS) g1 (hT 1 (.inr rfl)) h2)
    · unfold apoG0 at h2
      split at h2
      · rename_i e hx
        obtain rfl := Except.ok.inj h2
        exact absurd (fun i => (h3 i).imp Option.some.inj Option.some.inj) (extSoft hqr g2 he hx)
      · exact absurd h3 (condLearn_soft hn (hc.split hS) g1 (hT 0 (.inl rfl)) h2)

/-! ## IIVM -/

/-- A cell of an IIVM model can be estimated unless the outcome is binary and predictions are labels. -/
theorem iivm_or {k : IivmClass n P} {c : CellIn n P} (hS : FoldsOk c.smpls) (hp : ∀ l, (c.paramsOf l).Fits c.smpls.length)
    {z : Fin n → ℝ} (hz : c.instr = .ok z)
    (hg : ∀ v, v = 0 ∨ v = 1 → Trains k.ml_g k.gClassifier c.y c.smpls fun i => z i = v)
    (hL : k.ml_m.Compliant) (hR : k.ml_r.Compliant) (hd : BinaryTarget c.d)
    (hb : BinaryTarget z) (hf : EveryFold c.smpls (fun _ => True) z)
    (h0 : k.alwaysTakers = true → EveryFold c.smpls (fun i => z i = 0) c.d)
    (h1 : k.neverTakers = true → EveryFold c.smpls (fun i => z i = 1) c.d) :
    (∃ o, iivmEst k c = .ok o) ∨ iivmEst k c = .error .valueError ∧ c.data.binOut = true ∧
      ((∃ r, iivmG k c z "ml_g0" 0 = .ok r ∧ Labels r.preds) ∨ ∃ r, iivmG k c z "ml_g1" 1 = .ok r ∧ Labels r.preds) := by
  have hG : ∀ l v, v = 0 ∨ v = 1 → ∃ g, iivmG k c z l v = .ok g := by
    intro l v hv
    unfold iivmG
    cases c.extOf l with
    | some e => exact ⟨_, rfl⟩
    | none => exact condLearn_total (rowX c.data) c.y _ _ hS (hp _) (hg v hv).method
  have hRR : ∀ l v b, (b = true → EveryFold c.smpls (fun i => z i = v) c.d) → ∃ g, iivmR k c z l v b = .ok g := by
    intro l v b hb
    have key : ∀ r : CvRes n P (List Cell), (∀ i, (r.preds i).isSome) → ∃ g, iivmRTail c z l v r = .ok g := by
      intro r hr
      unfold iivmRTail
      cases c.extOf l with
      | some e => exact ⟨_, rfl⟩
      | none =>
        simp only [checkFinite_ok hr, bind, Except.bind, pure, Except.pure]
        exact ⟨_, rfl⟩
    unfold iivmR iivmRRaw
    cases b with
    | false => exact key _ fun _ => rfl
    | true =>
      obtain ⟨r, hr, -, hs⟩ := crossFit_total (L := k.ml_r) (m := .proba) (l := l) (rowX c.data) c.d (fun i => z i = v) hS
        (hp _) (fun _ => ⟨hR, hd, hb rfl⟩)
      rw [if_pos rfl]
      cases c.extOf l with
      | some e => exact key _ fun _ => rfl
      | none =>
        simp only [hr, bind, Except.bind]
        exact key r hs
  obtain ⟨g0, e0⟩ := hG "ml_g0" 0 (.inl rfl)
  obtain ⟨g1, e1⟩ := hG "ml_g1" 1 (.inr rfl)
  obtain ⟨r0, er0⟩ := hRR "ml_r0" 0 _ h0
  obtain ⟨r1, er1⟩ := hRR "ml_r1" 1 _ h1
  obtain ⟨m, em⟩ := propM_total' (L := k.ml_m) hS hp hL hb hf
  rcases checkOut_or c g0.preds with c1 | ⟨c1, c2, c3⟩
  · rcases checkOut_or c g1.preds with c4 | ⟨c4, c5, c6⟩
    · unfold iivmEst
      simp only [hz, e0, e1, er0, er1, em, c1, c4, bind, Except.bind, pure, Except.pure]
      exact .inl ⟨_, rfl⟩
    · refine .inr ⟨?_, c5, .inr ⟨g1, e1, c6⟩⟩
      unfold iivmEst
      simp only [hz, e0, e1, c1, c4, bind, Except.bind]
  · refine .inr ⟨?_, c2, .inl ⟨g0, e0, c3⟩⟩
    unfold iivmEst
    simp only [hz, e0, c1, bind, Except.bind]

theorem iivm_stored {k : IivmClass n P} (c : CellIn n P) (o : LinOut n P) (ho : (iivmSpec k).est c = .ok o) (l : String)
    (hl : l ∈ (iivmSpec k).learners) : (lookupKey l o.preds).isSome ∧ (lookupKey l o.targets).isSome := by
  obtain ⟨z, -, ho⟩ := bind_ok ho
  obtain ⟨g0, -, ho⟩ := bind_ok ho
  obtain ⟨_, -, ho⟩ := bind_ok ho
  obtain ⟨g1, -, ho⟩ := bind_ok ho
  obtain ⟨_, -, ho⟩ := bind_ok ho
  obtain ⟨m, -, ho⟩ := bind_ok ho
  obtain ⟨r0, -, ho⟩ := bind_ok ho
  obtain ⟨r1, -, ho⟩ := bind_ok ho
  rw [← Except.ok.inj ho]
  simp only [iivmSpec, List.mem_cons, List.not_mem_nil, or_false] at hl
  rcases hl with rfl | rfl | rfl | rfl | rfl <;> exact ⟨rfl, rfl⟩

theorem CellOf.instr {D : DataState n} {tv : String} {q : ℕ} {S : List (Fold n)} {c : CellIn n P} (h : CellOf D tv q S c)
    {z : Fin n → Cell} (hz : D.zv = some [z]) : c.instr = .ok (nums z) := by
  unfold CellIn.instr
  rw [h.data, hz]
  rfl

/-- **C63.** IIVM, binary outcomes and classifiers for the outcome included. -/
theorem C63_iivm_or {E : Ext} {F : Frame n} {k : IivmClass n P} (hv : k.vars = none) (hm : k.ml_m.Compliant)
    (hr : k.ml_r.Compliant) {D : DataState n} (hb : BinaryTarget (nums D.dv))
    {z : Fin n → Cell} (hz : D.zv = some [z]) (hbz : BinaryTarget (nums z))
    {tv : String} {s : LinState n P} (h : Reached E F (iivmSpec k) D tv s)
    {L : List (List (Fold n))} (hL : s.smpls = some L) (hf : ∀ S ∈ L, EveryFold S (fun _ => True) (nums z))
    (hg : ∀ S ∈ L, ∀ v, v = 0 ∨ v = 1 → Trains k.ml_g k.gClassifier (nums D.yv) S fun i => nums z i = v)
    (h0 : k.alwaysTakers = true → ∀ S ∈ L, EveryFold S (fun i => nums z i = 0) (nums D.dv))
    (h1 : k.neverTakers = true → ∀ S ∈ L, EveryFold S (fun i => nums z i = 1) (nums D.dv)) {a : FitArgs}
    (ha : ValidArgs (iivmSpec k) tv s.nRep a) :
    (fit F (iivmSpec k) s a).2 = .ok () ∨ (fit F (iivmSpec k) s a).2 = .error .valueError := by
  refine C63_of_cells_one_or .valueError hv (fun hs => by cases hs) h hL ha (fun q S c _ hq hS hc _ => ?_)
    (iivm_keys k.gClassifier) iivm_stored
  have hmem := List.mem_of_getElem? hq
  refine (iivm_or (hc.split hS) hc.fits (hc.instr hz) ?_ hm hr ?_ hbz ?_ ?_ ?_).imp_right And.left
  · rw [hc.y, hc.smpls]; exact hg S hmem
  · rw [hc.d]; exact hb
  · rw [hc.smpls]; exact hf S hmem
  · intro ht; rw [hc.d, hc.smpls]; exact h0 ht S hmem
  · intro ht; rw [hc.d, hc.smpls]; exact h1 ht S hmem

/-- **C63.** It succeeds if for a binary outcome neither the learner nor the supplied outcome predictions are labels. -/
theorem C63_iivm_binary {E : Ext} {F : Frame n} {k : IivmClass n P} (hn : 0 < n) (hv : k.vars = none) (hm : k.ml_m.Compliant)
    (hr : k.ml_r.Compliant) {D : DataState n} (hb : BinaryTarget (nums D.dv))
    {z : Fin n → Cell} (hz : D.zv = some [z]) (hbz : BinaryTarget (nums z))
    {tv : String} {s : LinState n P} (h : Reached E F (iivmSpec k) D tv s)
    {L : List (List (Fold n))} (hL : s.smpls = some L) (hf : ∀ S ∈ L, EveryFold S (fun _ => True) (nums z))
    (hg : ∀ S ∈ L, ∀ v, v = 0 ∨ v = 1 → Trains k.ml_g k.gClassifier (nums D.yv) S fun i => nums z i = v)
    (h0 : k.alwaysTakers = true → ∀ S ∈ L, EveryFold S (fun i => nums z i = 0) (nums D.dv))
    (h1 : k.neverTakers = true → ∀ S ∈ L, EveryFold S (fun i => nums z i = 1) (nums D.dv)) {a : FitArgs}
    (ha : ValidArgs (iivmSpec k) tv s.nRep a)
    (hs : D.binOut = true → k.ml_g.Soft (methodOf k.gClassifier) ∧ a.ext.SoftFor n s.nRep tv "ml_g0" ∧
      a.ext.SoftFor n s.nRep tv "ml_g1") : (fit F (iivmSpec k) s a).2 = .ok () := by
  refine C63_of_cells_one hv (fun hs => by cases hs) h hL ha (fun q S c hqr hq hS hc he => ?_)
    (iivm_keys k.gClassifier) iivm_stored
  have hmem := List.mem_of_getElem? hq
  have hT : ∀ v, v = 0 ∨ v = 1 → Trains k.ml_g k.gClassifier c.y c.smpls fun i => nums z i = v := by
    rw [hc.y, hc.smpls]; exact hg S hmem
  have hG : ∀ l v r, v = 0 ∨ v = 1 → k.ml_g.Soft (methodOf k.gClassifier) → a.ext.SoftFor n s.nRep tv l →
      iivmG k c (nums z) l v = .ok r → ¬ Labels r.preds := by
    intro l v r hv' g1 g2 h2 h3
    unfold iivmG at h2
    split at h2
    · rename_i e hx
      obtain rfl := Except.ok.inj h2
      exact absurd (extRes_labels h3) (extSoft hqr g2 he hx)
    · exact absurd h3 (condLearn_soft hn (hc.split hS) g1 (hT v hv') h2)
  rcases iivm_or (hc.split hS) hc.fits (hc.instr hz) hT hm hr (by rw [hc.d]; exact hb) hbz (by rw [hc.smpls]; exact hf S hmem)
    (by intro ht; rw [hc.d, hc.smpls]; exact h0 ht S hmem) (by intro ht; rw [hc.d, hc.smpls]; exact h1 ht S hmem)
    with h1 | ⟨-, h1, h2⟩
  · exact h1
  · obtain ⟨g1, g2, g3⟩ := hs (by rw [← hc.data]; exact h1)
    rcases h2 with ⟨r, h2, h3⟩ | ⟨r, h2, h3⟩
    · exact absurd h3 (hG _ _ _ (.inl rfl) g1 g2 h2)
    · exact absurd h3 (hG _ _ _ (.inr rfl) g1 g3 h2)

/-! ## Difference in differences -/

theorem didM_total {k : DidClass n P} {c : CellIn n P} (hS : FoldsOk c.smpls) (hp : ∀ l, (c.paramsOf l).Fits c.smpls.length)
    (hL : k.ml_m.Compliant) (hd : BinaryTarget c.d) (hf : EveryFold c.smpls (fun _ => True) c.d) : ∃ m, didM k c = .ok m := by
  unfold didM
  split
  · exact ⟨_, rfl⟩
  · obtain ⟨m, em⟩ := propM_total' (L := k.ml_m) hS hp hL hd hf
    rw [em]
    exact ⟨_, rfl⟩

theorem did_total' {k : DidClass n P} {c : CellIn n P} (hS : FoldsOk c.smpls) (hp : ∀ l, (c.paramsOf l).Fits c.smpls.length)
    (hg : ∀ v, v = 0 ∨ v = 1 → Trains k.ml_g k.gClassifier c.y c.smpls fun i => c.d i = v)
    (hL : k.ml_m.Compliant) (hd : BinaryTarget c.d) (hf : EveryFold c.smpls (fun _ => True) c.d) :
    ∃ o, didEst k c = .ok o := by
  obtain ⟨m, hm⟩ := didM_total hS hp hL hd hf
  have hG : ∀ l v, v = 0 ∨ v = 1 → ∃ g, didG k c l v = .ok g := by
    intro l v hv
    unfold didG
    cases c.extOf l with
    | some e => exact ⟨_, rfl⟩
    | none => exact condLearn_total (rowX c.data) c.y _ _ hS (hp _) (hg v hv).method
  obtain ⟨g0, e0⟩ := hG "ml_g0" 0 (.inl rfl)
  obtain ⟨g1, e1⟩ := hG "ml_g1" 1 (.inr rfl)
  unfold didEst
  simp only [e0, e1, hm, bind, Except.bind, pure, Except.pure]
  exact ⟨_, rfl⟩

theorem didcs_total' {k : DidClass n P} {c : CellIn n P} (hS : FoldsOk c.smpls) (hp : ∀ l, (c.paramsOf l).Fits c.smpls.length)
    {t : Fin n → ℝ} (ht : c.time = .ok t)
    (hg : ∀ v w, v = 0 ∨ v = 1 → w = 0 ∨ w = 1 → Trains k.ml_g k.gClassifier c.y c.smpls fun i => c.d i = v ∧ t i = w)
    (hL : k.ml_m.Compliant) (hd : BinaryTarget c.d) (hf : EveryFold c.smpls (fun _ => True) c.d) :
    ∃ o, csEst k c = .ok o := by
  obtain ⟨m, hm⟩ := didM_total hS hp hL hd hf
  have hG : ∀ l v w, v = 0 ∨ v = 1 → w = 0 ∨ w = 1 → ∃ g, csG k c t l v w = .ok g := by
    intro l v w hv hw
    obtain ⟨r, hr, -⟩ := crossFit_total (L := k.ml_g) (m := methodOf k.gClassifier) (l := l) (rowX c.data) c.y
      (fun i => c.d i = v ∧ t i = w) hS (hp _) (hg v w hv hw).method
    unfold csG
    cases c.extOf l with
    | some e => exact ⟨_, rfl⟩
    | none =>
      simp only [hr, bind, Except.bind, pure, Except.pure]
      exact ⟨_, rfl⟩
  obtain ⟨g00, e00⟩ := hG "ml_g_d0_t0" 0 0 (.inl rfl) (.inl rfl)
  obtain ⟨g01, e01⟩ := hG "ml_g_d0_t1" 0 1 (.inl rfl) (.inr rfl)
  obtain ⟨g10, e10⟩ := hG "ml_g_d1_t0" 1 0 (.inr rfl) (.inl rfl)
  obtain ⟨g11, e11⟩ := hG "ml_g_d1_t1" 1 1 (.inr rfl) (.inr rfl)
  unfold csEst
  simp only [ht, e00, e01, e10, e11, hm, bind, Except.bind, pure, Except.pure]
  exact ⟨_, rfl⟩

/-- **C63.** Difference in differences with a classifier or a regressor for the outcome and any kind of outcome. -/
theorem C63_did_binary {E : Ext} {F : Frame n} {k : DidClass n P} (hv : k.vars = none) (hm : k.ml_m.Compliant)
    {D : DataState n} (hb : BinaryTarget (nums D.dv)) {tv : String} {s : LinState n P} (h : Reached E F (didSpec k) D tv s)
    {L : List (List (Fold n))} (hL : s.smpls = some L) (hf : ∀ S ∈ L, EveryFold S (fun _ => True) (nums D.dv))
    (hg : ∀ S ∈ L, ∀ v, v = 0 ∨ v = 1 → Trains k.ml_g k.gClassifier (nums D.yv) S fun i => nums D.dv i = v) {a : FitArgs}
    (ha : ValidArgs (didSpec k) tv s.nRep a) : (fit F (didSpec k) s a).2 = .ok () := by
  refine C63_of_cells hv ?_ h hL ha ?_ ?_ ?_
  · intro _ c o ho
    obtain ⟨g0, -, ho⟩ := bind_ok ho
    obtain ⟨g1, -, ho⟩ := bind_ok ho
    obtain ⟨m, -, ho⟩ := bind_ok ho
    rw [← Except.ok.inj ho]
    exact sensOf_sigma _ _
  · intro q S c hq hS hc
    have hmem := List.mem_of_getElem? hq
    refine did_total' (hc.split hS) hc.fits ?_ hm ?_ ?_
    · rw [hc.y, hc.d, hc.smpls]; exact hg S hmem
    · rw [hc.d]; exact hb
    · rw [hc.d, hc.smpls]; exact hf S hmem
  · unfold didSpec DidClass.keys
    dsimp only
    cases k.score
    · exact irm_keys k.gClassifier
    · exact didE_keys k.gClassifier
  · intro c o ho
    obtain ⟨g0, -, ho⟩ := bind_ok ho
    obtain ⟨g1, -, ho⟩ := bind_ok ho
    obtain ⟨m, -, ho⟩ := bind_ok ho
    rw [← Except.ok.inj ho]
    intro l hl
    have hl' : l ∈ ["ml_g0", "ml_g1", "ml_m"] := by
      unfold didSpec at hl
      cases hs : k.score with
      | observational => simpa [hs] using hl
      | experimental =>
        have : l = "ml_g0" ∨ l = "ml_g1" := by simpa [hs] using hl
        rcases this with rfl | rfl <;> simp
    simp only [List.mem_cons, List.not_mem_nil, or_false] at hl'
    rcases hl' with rfl | rfl | rfl <;> exact ⟨rfl, rfl⟩

/-- **C63.** The same for repeated cross-sections. -/
theorem C63_didcs_binary {E : Ext} {F : Frame n} {k : DidClass n P} (hv : k.vars = none) (hm : k.ml_m.Compliant)
    {D : DataState n} (hb : BinaryTarget (nums D.dv)) {t : Fin n → Cell} (ht : D.tv = some t) {tv : String}
    {s : LinState n P} (h : Reached E F (csSpec k) D tv s)
    {L : List (List (Fold n))} (hL : s.smpls = some L) (hf : ∀ S ∈ L, EveryFold S (fun _ => True) (nums D.dv))
    (hg : ∀ S ∈ L, ∀ v w, v = 0 ∨ v = 1 → w = 0 ∨ w = 1 →
      Trains k.ml_g k.gClassifier (nums D.yv) S fun i => nums D.dv i = v ∧ nums t i = w) {a : FitArgs}
    (ha : ValidArgs (csSpec k) tv s.nRep a) : (fit F (csSpec k) s a).2 = .ok () := by
  refine C63_of_cells hv ?_ h hL ha ?_ ?_ ?_
  · intro _ c o ho
    obtain ⟨t, -, ho⟩ := bind_ok ho
    obtain ⟨g00, -, ho⟩ := bind_ok ho
    obtain ⟨g01, -, ho⟩ := bind_ok ho
    obtain ⟨g10, -, ho⟩ := bind_ok ho
    obtain ⟨g11, -, ho⟩ := bind_ok ho
    obtain ⟨m, -, ho⟩ := bind_ok ho
    rw [← Except.ok.inj ho]
    exact sensOf_sigma _ _
  · intro q S c hq hS hc
    have hi : c.time = .ok (nums t) := by
      unfold CellIn.time
      rw [hc.data, ht]
      rfl
    have hmem := List.mem_of_getElem? hq
    refine didcs_total' (hc.split hS) hc.fits hi ?_ hm ?_ ?_
    · rw [hc.y, hc.d, hc.smpls]; exact hg S hmem
    · rw [hc.d]; exact hb
    · rw [hc.d, hc.smpls]; exact hf S hmem
  · unfold csSpec DidClass.keys
    dsimp only
    cases k.score
    · exact cs_keys k.gClassifier
    · exact csE_keys k.gClassifier
  · intro c o ho
    obtain ⟨t, -, ho⟩ := bind_ok ho
    obtain ⟨g00, -, ho⟩ := bind_ok ho
    obtain ⟨g01, -, ho⟩ := bind_ok ho
    obtain ⟨g10, -, ho⟩ := bind_ok ho
    obtain ⟨g11, -, ho⟩ := bind_ok ho
    obtain ⟨m, -, ho⟩ := bind_ok ho
    rw [← Except.ok.inj ho]
    intro l hl
    have hl' : l ∈ ["ml_g_d0_t0", "ml_g_d0_t1", "ml_g_d1_t0", "ml_g_d1_t1", "ml_m"] := by
      unfold csSpec at hl
      cases hs : k.score with
      | observational => simpa [hs] using hl
      | experimental =>
        have : l = "ml_g_d0_t0" ∨ l = "ml_g_d0_t1" ∨ l = "ml_g_d1_t0" ∨ l = "ml_g_d1_t1" := by simpa [hs] using hl
        rcases this with rfl | rfl | rfl | rfl <;> simp
    simp only [List.mem_cons, List.not_mem_nil, or_false] at hl'
    rcases hl' with rfl | rfl | rfl | rfl | rfl <;> exact ⟨rfl, rfl⟩

/-! ## Sample selection -/

/-- **C63.** SSM (missing at random) with a classifier or a regressor for the outcome and any kind of outcome. -/
theorem C63_ssm_binary {E : Ext} {F : Frame n} {k : SsmClass n P} (hv : k.vars = none)
    (hm : k.ml_m.Compliant) (hp : k.ml_pi.Compliant) {D : DataState n} (hb : BinaryTarget (nums D.dv))
    {sel : Fin n → Cell} (hs : D.sv = some sel) (hbs : BinaryTarget (nums sel)) {tv : String}
    {s : LinState n P} (h : Reached E F (ssmSpec k) D tv s)
    {L : List (List (Fold n))} (hL : s.smpls = some L) (hf : ∀ S ∈ L, EveryFold S (fun _ => True) (nums D.dv))
    (hfs : ∀ S ∈ L, EveryFold S (fun _ => True) (nums sel))
    (hg : ∀ S ∈ L, ∀ v, v = 0 ∨ v = 1 →
      Trains k.ml_g k.gClassifier (nums D.yv) S fun i => nums D.dv i = v ∧ nums sel i = 1) {a : FitArgs}
    (ha : ValidArgs (ssmSpec k) tv s.nRep a) : (fit F (ssmSpec k) s a).2 = .ok () := by
  refine C63_of_cells hv ?_ h hL ha ?_ (ssm_keys k.gClassifier) ?_
  · intro hs
    cases hs
  · intro q S c hq hS hc
    have hi : c.sel = .ok (nums sel) := by
      unfold CellIn.sel
      rw [hc.data, hs]
      rfl
    have hmem := List.mem_of_getElem? hq
    have hT : ∀ v, v = 0 ∨ v = 1 → Trains k.ml_g k.gClassifier c.y c.smpls fun i => c.d i = v ∧ nums sel i = 1 := by
      rw [hc.y, hc.d, hc.smpls]; exact hg S hmem
    obtain ⟨pi, e1⟩ := ssmPart_total_all (L := k.ml_pi) (m := .proba) (l := "ml_pi") c.xd (nums sel) (hc.split hS) (hc.fits _)
      (fun _ => ⟨hp, hbs, by rw [hc.smpls]; exact hfs S hmem⟩)
    obtain ⟨m, e2⟩ := ssmPart_total_all (L := k.ml_m) (m := .proba) (l := "ml_m") (rowX c.data) c.d (hc.split hS) (hc.fits _)
      (fun _ => ⟨hm, by rw [hc.d]; exact hb, by rw [hc.d, hc.smpls]; exact hf S hmem⟩)
    obtain ⟨g1, e3⟩ := ssmPart_total (L := k.ml_g) (m := methodOf k.gClassifier) (l := "ml_g_d1") (rowX c.data) c.y
      (fun i => c.d i = 1 ∧ nums sel i = 1) (hc.split hS) (hc.fits _) (hT 1 (.inr rfl)).method
    obtain ⟨g0, e4⟩ := ssmPart_total (L := k.ml_g) (m := methodOf k.gClassifier) (l := "ml_g_d0") (rowX c.data) c.y
      (fun i => c.d i = 0 ∧ nums sel i = 1) (hc.split hS) (hc.fits _) (hT 0 (.inl rfl)).method
    have e5 : ssmCluster c = .ok () := by unfold ssmCluster; rw [hc.cluster]; rfl
    show ∃ o, ssmEst k c = .ok o
    unfold ssmEst
    simp only [hi, e1, e2, e3, e4, e5, bind, Except.bind, pure, Except.pure]
    exact ⟨_, rfl⟩
  · intro c o ho
    obtain ⟨t, -, ho⟩ := bind_ok ho
    obtain ⟨g00, -, ho⟩ := bind_ok ho
    obtain ⟨g01, -, ho⟩ := bind_ok ho
    obtain ⟨g10, -, ho⟩ := bind_ok ho
    obtain ⟨g11, -, ho⟩ := bind_ok ho
    obtain ⟨m, -, ho⟩ := bind_ok ho
    rw [← Except.ok.inj ho]
    intro l hl
    simp only [ssmSpec, List.mem_cons, List.not_mem_nil, or_false] at hl
    rcases hl with rfl | rfl | rfl | rfl <;> exact ⟨rfl, rfl⟩

/-! ## Labels are refused -/

/-- The learner answers 0 or 1 only: a regressor for labels, or a classifier that is always certain. -/
def Learner.Hard (L : Learner P (List Cell)) (m : Method) : Prop := ∀ p T x v, L.answer m p T x = some v → v = 0 ∨ v = 1

theorem condLearn_hard {L : Learner P (List Cell)} {b : Bool} {c : CellIn n P} {l : String} {x : Fin n → List Cell}
    {y : Fin n → ℝ} {on keep : Fin n → Prop} [DecidablePred on] [DecidablePred keep] {r : CvRes n P (List Cell)}
    (hS : FoldsOk c.smpls) (hL : L.Hard (methodOf b)) (hm : Trains L b y c.smpls on)
    (h : condLearn L (methodOf b) c l x y on keep = .ok r) : Labels r.preds := by
  obtain ⟨r', h1, rfl⟩ := condLearn_ok h
  have hS' : FoldsOk (condSmpls on c.smpls) :=
    ⟨by rw [isPartition_cond]; exact hS.partition, fun f hf => (condSmpls_mem hf).1⟩
  intro i
  obtain ⟨⟨k, hk⟩, hi, -⟩ := C26_complete hS'.partition i
  replace hi : i ∈ (condSmpls on c.smpls)[k].test := hi
  have hmk : ∀ f ∈ condSmpls on c.smpls, methodOf b = .proba → BothClasses y f := by
    intro f hf hq
    obtain ⟨-, -, he⟩ := hm.method hq
    obtain ⟨-, g, hg, hfg⟩ := condSmpls_mem hf
    obtain ⟨⟨j0, h0, h0', h0''⟩, j1, h1, h1', h1''⟩ := he g hg
    exact ⟨⟨j0, (hfg j0).2 ⟨h0, h0'⟩, h0''⟩, j1, (hfg j1).2 ⟨h1, h1'⟩, h1''⟩
  obtain ⟨p, T, v, h2, h3⟩ : ∃ p T v, r'.preds i = some v ∧ L.answer (methodOf b) p T (x i) = some v := by
    unfold crossFit at h1
    have hmm := hm.method
    generalize methodOf b = m at h1 hmk hmm
    cases m with
    | predict =>
      exact ⟨_, _, _, C26_prediction_rule rfl hS'.partition hS'.nodup h1 k hk _ hi, rfl⟩
    | proba =>
      obtain ⟨g1, g2, -⟩ := hmm rfl
      obtain ⟨q1, q2⟩ := C26_prediction_rule_proba g1 rfl rfl g2 hS'.partition h1 k hk _ hi (hmk _ (List.getElem_mem hk) rfl)
      obtain ⟨v, hv⟩ := Option.isSome_iff_exists.1 q1
      exact ⟨_, _, v, hv, q2.symm.trans hv⟩
  show r'.preds i = some 0 ∨ r'.preds i = some 1
  rw [h2]
  exact (hL _ _ _ _ h3).imp (congrArg some) (congrArg some)

/-- **C63.** With a binary outcome and a learner that answers labels, no fit of an IRM model without external predictions
succeeds: it raises `ValueError`. -/
theorem C63_irm_labels {E : Ext} {F : Frame n} {k : IrmClass n P} (hv : k.vars = none) (hm : k.ml_m.Compliant)
    {D : DataState n} (hy : D.binOut = true) (hb : BinaryTarget (nums D.dv)) {tv : String} {s : LinState n P}
    (h : Reached E F (irmSpec k) D tv s)
    {L : List (List (Fold n))} (hL : s.smpls = some L) (hf : ∀ S ∈ L, EveryFold S (fun _ => True) (nums D.dv))
    (hg : ∀ S ∈ L, ∀ v, v = 0 ∨ v = 1 → Trains k.ml_g k.gClassifier (nums D.yv) S fun i => nums D.dv i = v)
    (hw : ∀ q < L.length, ∃ w : (Fin n → ℝ) × (Fin n → ℝ), k.weights.at q = .ok w) {a : FitArgs}
    (ha : ValidArgs (irmSpec k) tv s.nRep a) (hx : a.ext = .none) (hh : k.ml_g.Hard (methodOf k.gClassifier)) (hr : 0 < s.nRep) :
    (fit F (irmSpec k) s a).2 = .error .valueError := by
  rcases C63_irm_or hv hm hb h hL hf hg hw ha with hq | hq
  · exfalso
    obtain ⟨g1, g2⟩ := h.ready hv
    obtain ⟨p, hp⟩ := ha.preds
    obtain ⟨m, hm⟩ := ha.models
    obtain ⟨c, o, ls, hc, -, ho, -⟩ := fit_cells hq hp hm (j := 0) (k := 0) (by rw [g2, h.1]; exact one_pos) hr
    have hcd : c.data = D := by
      rw [hc.data, g2]
      unfold activeData
      rw [if_neg (by rw [h.1]; simp)]
    obtain ⟨L', hL', hq'⟩ := hc.smpls
    obtain rfl : L = L' := Option.some.inj (hL.symm.trans hL')
    have hmem := List.mem_of_getElem? hq'
    have hS : FoldsOk c.smpls := (g1.split L hL).2 _ hmem |>.1
    have hT := hg _ hmem 0 (.inl rfl)
    obtain ⟨r, h0, -⟩ := bind_ok ho
    unfold irmG0 at h0
    have hext : c.extOf "ml_g0" = none := by
      unfold CellIn.extOf
      have he := hc.ext
      rw [hx] at he
      rw [← Except.ok.inj he]
      rfl
    rw [hext] at h0
    obtain ⟨r', h1, h0⟩ := bind_ok h0
    obtain ⟨_, h2, -⟩ := bind_ok h0
    have hcy : c.y = nums D.yv := by unfold CellIn.y nums; rw [hcd]
    have hcD : c.d = nums D.dv := by unfold CellIn.d nums; rw [hcd]
    have hl := condLearn_hard hS hh (by rw [hcy, hcD]; exact hT) h1
    unfold checkOut at h2
    rw [if_pos (by rw [hcd]; exact hy)] at h2
    unfold checkBinaryPreds at h2
    unfold Labels at hl
    rw [if_pos hl] at h2
    cases h2
  · exact hq

/-! ## Non-vacuity -/

/-- A learner that always answers one half. -/
noncomputable def exHalfProbL : Learner ℕ (List Cell) where
  predict := fun _ _ _ => 1 / 2
  proba := fun _ D _ => (classesOf D).map fun _ => 1 / 2

theorem exHalfProbL_compliant : exHalfProbL.Compliant := fun _ _ _ => by simp [exHalfProbL]

theorem exHalfProbL_soft (m : Method) : exHalfProbL.Soft m := by
  intro p T x v h
  have : v = 1 / 2 := by
    cases m with
    | predict => exact (Option.some.inj h).symm
    | proba =>
      have h' : ((classesOf T).map fun _ => (1 / 2 : ℝ))[1]? = some v := h
      obtain ⟨_, -, h'⟩ := List.mem_map.1 (List.mem_of_getElem? h')
      exact h'.symm
  rw [this]
  norm_num

/-- A learner that always answers zero. -/
noncomputable def exZeroLabelL : Learner ℕ (List Cell) where
  predict := fun _ _ _ => 0
  proba := fun _ D _ => (classesOf D).map fun _ => 0

theorem exZeroLabelL_hard (m : Method) : exZeroLabelL.Hard m := by
  intro p T x v h
  refine .inl ?_
  cases m with
  | predict => exact (Option.some.inj h).symm
  | proba =>
    have h' : ((classesOf T).map fun _ => (0 : ℝ))[1]? = some v := h
    obtain ⟨_, -, h'⟩ := List.mem_map.1 (List.mem_of_getElem? h')
    exact h'.symm

/-- Data whose treatment, outcome and third column (instrument, time and selection indicator) are binary digits. -/
noncomputable def exBits : DataState 16 :=
  { y := "y", d := ["d"], x := ["x"], z := some ["z"], t := some "t", s := some "s", cluster := none, useOther := true,
    force := .yes
    yv := bit16 1
    zv := some [bit16 2]
    tv := some (bit16 2)
    sv := some (bit16 2)
    dv := bit16 0
    xv := [fun i => .num i.val]
    cv := [], binTreats := [("d", true)], binOut := true }

/-- The split of the first half and the second half. -/
def exHalves : List (Fold 16) := assignFolds 2 fun i => if i.val < 8 then 0 else 1

theorem exHalves_pick : ∀ f ∈ exHalves, ∀ m < 8, ∃ j ∈ f.train, j.val % 8 = m := by decide

/-- Every combination of digits occurs in every training set. -/
theorem exHalves_digits {f : Fold 16} (hf : f ∈ exHalves) (a b c : Bool) :
    ∃ j ∈ f.train, nums (bit16 0) j = (if a then 1 else 0) ∧ nums (bit16 1) j = (if b then 1 else 0) ∧
      nums (bit16 2) j = (if c then 1 else 0) := by
  obtain ⟨j, hj, hm⟩ := exHalves_pick f hf ((if a then 1 else 0) + 2 * (if b then 1 else 0) + 4 * (if c then 1 else 0))
    (by cases a <;> cases b <;> cases c <;> simp)
  refine ⟨j, hj, ?_, ?_, ?_⟩
  all_goals
    rw [bit16_nums]
    norm_num
    cases a <;> cases b <;> cases c <;> simp at hm ⊢ <;> omega

theorem bit16_target (k : ℕ) (hk : k < 4) : BinaryTarget (nums (bit16 k)) where
  values := (bit16_zeroOne k).nums
  zero := ⟨0, by simp [bit16_nums]⟩
  one := ⟨15, by interval_cases k <;> simp [bit16_nums]⟩

theorem bool_of_zeroOne {v : ℝ} (h : v = 0 ∨ v = 1) : ∃ b : Bool, v = if b then 1 else 0 := by
  rcases h with rfl | rfl
  · exact ⟨false, by simp⟩
  · exact ⟨true, by simp⟩

theorem exEvery {on : Fin 16 → Prop} {y : Fin 16 → ℝ}
    (h : ∀ f ∈ exHalves, ∀ b : Bool, ∃ j ∈ f.train, on j ∧ y j = if b then 1 else 0) : EveryFold exHalves on y := fun f hf =>
  ⟨by simpa using h f hf false, by simpa using h f hf true⟩

/-- An object created from these data, with a stratified split. -/
theorem exReached16 (E : Ext) (F : Frame 16) {sp : LinSpec 16 ℕ} (hv : sp.vars = none) (hst : sp.stratified = true) :
    ∃ s, Reached E F sp exBits "d" s ∧ s.smpls = some [exHalves] ∧ s.nRep = 1 := by
  have h : checkClusterVars sp exBits = .ok () := by
    unfold checkClusterVars
    rw [hv]
    rfl
  obtain ⟨s, h1, h2, h3⟩ : ∃ s : LinState 16 ℕ, initModel sp exBits 0 (.int 2) (.int 1) (.bool true) exResampling.second = .ok s ∧
      s.smpls = some [exHalves] ∧ s.nRep = 1 := by
    unfold initModel
    rw [h]
    simp only [bind, Except.bind, checkInteger, checkBool, PyVal.asInt]
    simp only [drawSampleSplitting, drawnSplit, hv, hst, Option.isSome_none, Bool.false_eq_true, if_false, if_true]
    have h3 : (2 : ℤ).toNat = 2 := rfl
    simp [h3, initArrays, exHalves]
    rfl
  refine ⟨s, ⟨rfl, 0, .int 2, .int 1, .bool true, exResampling.second, s, [], h1, ?_, trivial, rfl⟩, h2, h3⟩
  intro K hK r i
  obtain rfl : 2 = K := Option.some.inj hK
  rw [exAssign]
  split_ifs <;> decide

theorem exOne {p : List (Fold 16) → Prop} (h : p exHalves) : ∀ S ∈ [exHalves], p S := by
  intro S hS
  rw [List.mem_singleton.1 hS]
  exact h

/-- The classifier for the outcome can be trained in all groups. -/
theorem exTrains (L : Learner ℕ (List Cell)) (hL : L.Compliant) (b : Bool) (on : Fin 16 → Prop)
    (h : ∃ a c : Bool, ∀ i, nums (bit16 0) i = (if a then 1 else 0) → nums (bit16 2) i = (if c then 1 else 0) → on i) :
    Trains L b (nums exBits.yv) exHalves on := by
  intro _
  refine ⟨hL, bit16_target 1 (by norm_num), exEvery fun f hf v => ?_⟩
  obtain ⟨a, c, h⟩ := h
  obtain ⟨j, hj, h1, h2, h3⟩ := exHalves_digits hf a v c
  exact ⟨j, hj, h j h1 h3, h2⟩

theorem exDigit0 : EveryFold exHalves (fun _ => True) (nums (bit16 0)) := exEvery fun f hf b => by
  obtain ⟨j, hj, h, -⟩ := exHalves_digits hf b true true
  exact ⟨j, hj, trivial, h⟩

theorem exDigit2 : EveryFold exHalves (fun _ => True) (nums (bit16 2)) := exEvery fun f hf b => by
  obtain ⟨j, hj, -, -, h⟩ := exHalves_digits hf true true b
  exact ⟨j, hj, trivial, h⟩

/-- The weights of the examples. -/
def exOnes16 : StoredWeights := ⟨⟨[16], List.replicate 16 1⟩, none⟩

/-- IRM, APO and IIVM with binary outcome and a classifier for it; the same models with a classifier that answers labels raise
`ValueError`. -/
example (E : Ext) (F : Frame 16) :
    (∃ s : LinState 16 ℕ, Reached E F (irmSpec ⟨exHalfProbL, exMeanL, true, false, true, 1 / 100, exOnes16, none⟩) exBits "d" s ∧
      (fit F (irmSpec ⟨exHalfProbL, exMeanL, true, false, true, 1 / 100, exOnes16, none⟩) s {}).2 = .ok ()) ∧
    (∃ s : LinState 16 ℕ, Reached E F (irmSpec ⟨exZeroLabelL, exMeanL, false, false, true, 1 / 100, exOnes16, none⟩) exBits "d" s ∧
      (fit F (irmSpec ⟨exZeroLabelL, exMeanL, false, false, true, 1 / 100, exOnes16, none⟩) s {}).2 = .error .valueError) ∧
    (∃ s : LinState 16 ℕ, Reached E F (apoSpec ⟨exHalfProbL, exMeanL, true, 1, true, 1 / 100, exOnes16, none⟩) exBits "d" s ∧
      (fit F (apoSpec ⟨exHalfProbL, exMeanL, true, 1, true, 1 / 100, exOnes16, none⟩) s {}).2 = .ok ()) ∧
    ∃ s : LinState 16 ℕ, Reached E F (iivmSpec ⟨exHalfProbL, exMeanL, exMeanL, true, true, true, true, 1 / 100, none⟩) exBits "d" s ∧
      (fit F (iivmSpec ⟨exHalfProbL, exMeanL, exMeanL, true, true, true, true, 1 / 100, none⟩) s {}).2 = .ok () := by
  have hd : BinaryTarget (nums exBits.dv) := bit16_target 0 (by norm_num)
  have hlev : isLevel 1 (nums exBits.dv) = nums (bit16 0) := by
    funext i
    show (if nums (bit16 0) i = 1 then (1 : ℝ) else 0) = _
    rcases (bit16_zeroOne 0).nums i with h | h <;> rw [h] <;> simp
  have hon : ∀ v : ℝ, v = 0 ∨ v = 1 → ∃ a c : Bool, ∀ i, nums (bit16 0) i = (if a then 1 else 0) →
      nums (bit16 2) i = (if c then 1 else 0) → nums (bit16 0) i = v := by
    intro v hv
    obtain ⟨b, hb⟩ := bool_of_zeroOne hv
    exact ⟨b, true, fun i h _ => h.trans hb.symm⟩
  refine ⟨?_, ?_, ?_, ?_⟩
  · obtain ⟨s, h1, h2, h3⟩ := exReached16 E F (sp := irmSpec ⟨exHalfProbL, exMeanL, true, false, true, 1 / 100, exOnes16, none⟩) rfl rfl
    exact ⟨s, h1, C63_irm_binary (by norm_num) rfl exMeanL_compliant hd h1 h2 (exOne exDigit0)
      (exOne fun v hv => exTrains _ exHalfProbL_compliant _ _ (hon v hv)) (fun _ _ => ⟨_, rfl⟩) (exFitArgs _ _)
      fun _ => ⟨exHalfProbL_soft _, fun _ r q A h => by cases h⟩⟩
  · obtain ⟨s, h1, h2, h3⟩ := exReached16 E F (sp := irmSpec ⟨exZeroLabelL, exMeanL, false, false, true, 1 / 100, exOnes16, none⟩) rfl rfl
    exact ⟨s, h1, C63_irm_labels rfl exMeanL_compliant rfl hd h1 h2 (exOne exDigit0)
      (exOne fun v hv h => by cases h) (fun _ _ => ⟨_, rfl⟩) (exFitArgs _ _) rfl (exZeroLabelL_hard _) (by rw [h3]; norm_num)⟩
  · obtain ⟨s, h1, h2, h3⟩ := exReached16 E F (sp := apoSpec ⟨exHalfProbL, exMeanL, true, 1, true, 1 / 100, exOnes16, none⟩) rfl rfl
    refine ⟨s, h1, C63_apo_binary (by norm_num) rfl exMeanL_compliant (hlev.symm ▸ hd) h1 h2 (exOne ?_)
      (exOne fun v hv => exTrains _ exHalfProbL_compliant _ _ ?_) (fun _ _ => ⟨_, rfl⟩) (exFitArgs _ _)
      fun _ => ⟨exHalfProbL_soft _, fun r q A h => (by cases h), fun r q A h => by cases h⟩⟩
    · show EveryFold exHalves (fun _ => True) (isLevel 1 (nums exBits.dv))
      rw [hlev]
      exact exDigit0
    · show ∃ a c : Bool, ∀ i, _ → _ → isLevel 1 (nums exBits.dv) i = v
      rw [hlev]
      exact hon v hv
  · obtain ⟨s, h1, h2, h3⟩ := exReached16 E F
      (sp := iivmSpec ⟨exHalfProbL, exMeanL, exMeanL, true, true, true, true, 1 / 100, none⟩) rfl rfl
    refine ⟨s, h1, C63_iivm_binary (z := bit16 2) (by norm_num) rfl exMeanL_compliant exMeanL_compliant hd rfl
      (bit16_target 2 (by norm_num)) h1 h2 (exOne exDigit2)
      (exOne fun v hv => exTrains _ exHalfProbL_compliant _ _ ?_) (fun _ => exOne (exEvery fun f hf b => ?_))
      (fun _ => exOne (exEvery fun f hf b => ?_)) (exFitArgs _ _)
      fun _ => ⟨exHalfProbL_soft _, fun r q A h => (by cases h), fun r q A h => by cases h⟩⟩
    · obtain ⟨b, hb⟩ := bool_of_zeroOne hv
      exact ⟨true, b, fun i _ h => h.trans hb.symm⟩
    · obtain ⟨j, hj, h, -, h'⟩ := exHalves_digits hf b true false
      exact ⟨j, hj, by simpa using h', h⟩
    · obtain ⟨j, hj, h, -, h'⟩ := exHalves_digits hf b true true
      exact ⟨j, hj, by simpa using h', h⟩

/-- Difference in differences (both designs) and SSM with binary outcome and a classifier for it. -/
example (E : Ext) (F : Frame 16) (score : DidScore) :
    (∃ s : LinState 16 ℕ, Reached E F (didSpec ⟨exMeanL, exMeanL, true, score, true, 1 / 100, none⟩) exBits "d" s ∧
      (fit F (didSpec ⟨exMeanL, exMeanL, true, score, true, 1 / 100, none⟩) s {}).2 = .ok ()) ∧
    (∃ s : LinState 16 ℕ, Reached E F (csSpec ⟨exMeanL, exMeanL, true, score, true, 1 / 100, none⟩) exBits "d" s ∧
      (fit F (csSpec ⟨exMeanL, exMeanL, true, score, true, 1 / 100, none⟩) s {}).2 = .ok ()) ∧
    ∃ s : LinState 16 ℕ, Reached E F (ssmSpec ⟨exMeanL, exMeanL, exMeanL, true, true, 1 / 100, none⟩) exBits "d" s ∧
      (fit F (ssmSpec ⟨exMeanL, exMeanL, exMeanL, true, true, 1 / 100, none⟩) s {}).2 = .ok () := by
  have hd : BinaryTarget (nums exBits.dv) := bit16_target 0 (by norm_num)
  refine ⟨?_, ?_, ?_⟩
  · obtain ⟨s, h1, h2, h3⟩ := exReached16 E F (sp := didSpec ⟨exMeanL, exMeanL, true, score, true, 1 / 100, none⟩) rfl rfl
    refine ⟨s, h1, C63_did_binary rfl exMeanL_compliant hd h1 h2 (exOne exDigit0)
      (exOne fun v hv => exTrains _ exMeanL_compliant _ _ ?_) (exFitArgs _ _)⟩
    obtain ⟨b, hb⟩ := bool_of_zeroOne hv
    exact ⟨b, true, fun i h _ => h.trans hb.symm⟩
  · obtain ⟨s, h1, h2, h3⟩ := exReached16 E F (sp := csSpec ⟨exMeanL, exMeanL, true, score, true, 1 / 100, none⟩) rfl rfl
    refine ⟨s, h1, C63_didcs_binary (t := bit16 2) rfl exMeanL_compliant hd rfl h1 h2 (exOne exDigit0)
      (exOne fun v w hv hw => exTrains _ exMeanL_compliant _ _ ?_) (exFitArgs _ _)⟩
    obtain ⟨b, hb⟩ := bool_of_zeroOne hv
    obtain ⟨c, hc⟩ := bool_of_zeroOne hw
    exact ⟨b, c, fun i h h' => ⟨h.trans hb.symm, h'.trans hc.symm⟩⟩
  · obtain ⟨s, h1, h2, h3⟩ := exReached16 E F (sp := ssmSpec ⟨exMeanL, exMeanL, exMeanL, true, true, 1 / 100, none⟩) rfl rfl
    refine ⟨s, h1, C63_ssm_binary (sel := bit16 2) rfl exMeanL_compliant exMeanL_compliant hd rfl (bit16_target 2 (by norm_num))
      h1 h2 (exOne exDigit0) (exOne exDigit2) (exOne fun v hv => exTrains _ exMeanL_compliant _ _ ?_) (exFitArgs _ _)⟩
    obtain ⟨b, hb⟩ := bool_of_zeroOne hv
    exact ⟨b, true, fun i h h' => ⟨h.trans hb.symm, by simpa using h'⟩⟩

/-- An object for data with any number of treatments that draws its split when it is created, without stratification. -/
theorem exFromDraw (E : Ext) (F : Frame 16) {sp : LinSpec 16 ℕ} (hv : sp.vars = none) (hst : sp.stratified = false)
    (D : DataState 16) : ∃ s L, ReachedFrom E F sp D s ∧ s.smpls = some L ∧ s.nRep = 1 := by
  have h : checkClusterVars sp D = .ok () := by
    unfold checkClusterVars
    rw [hv]
    rfl
  obtain ⟨L, hL, -⟩ := C23_drawn_splits_balanced (n := 16) 2 1 (exResampling.second.shuffle) le_rfl (by decide)
  obtain ⟨s, h1, h2, h3⟩ : ∃ s : LinState 16 ℕ, initModel sp D 0 (.int 2) (.int 1) (.bool true) exResampling.second = .ok s ∧
      s.smpls = some L ∧ s.nRep = 1 := by
    unfold initModel
    rw [h]
    simp only [bind, Except.bind, checkInteger, checkBool, PyVal.asInt]
    simp only [drawSampleSplitting, drawnSplit, hv, hst, Option.isSome_none, Bool.false_eq_true, if_false]
    have h3 : (2 : ℤ).toNat = 2 := rfl
    simp [h3, hL, bind, Except.bind, pure, Except.pure, initArrays]
  refine ⟨s, L, ⟨0, .int 2, .int 1, .bool true, exResampling.second, s, [], h1, ?_, trivial, rfl⟩, h2, h3⟩
  intro K hK r i
  obtain rfl : 2 = K := Option.some.inj hK
  rw [exAssign]
  split_ifs <;> decide

theorem exFitArgsFor {sp : LinSpec 16 ℕ} (ds : List String) (r : ℕ) : ValidArgsFor sp ds r {} :=
  ⟨.inl rfl, ⟨true, rfl⟩, ⟨false, rfl⟩, .inl rfl⟩

/-- Data with two binary treatments and a given list of instruments. -/
theorem exTwoTreats (z : Option (List (Fin 16 → Cell))) (hz : ∀ l ∈ z, ∀ c ∈ l, finiteCol c) :
    ∃ F D, FreshData F D ∧ D.d.length = 2 ∧ (D.z.map fun z => z.map F.col) = z := by
  obtain ⟨F, D, hD, -, -, h, hz, -⟩ := exDataOf (bit16 0) [bit16 1] z none none (by
    intro c hc
    rcases List.mem_cons.1 hc with rfl | hc
    · exact fun i => ⟨_, rfl⟩
    · rw [List.mem_singleton.1 hc]
      exact fun i => ⟨_, rfl⟩) hz (by simp) (by simp)
  refine ⟨F, D, hD, ?_, hz⟩
  have := congrArg List.length h
  simpa using this

/-- PLR and PLIV with two treatments. -/
example (E : Ext) (iv : Bool) :
    (∃ F D, FreshData F D ∧ D.d.length = 2 ∧ ∃ s : LinState 16 ℕ,
      ReachedFrom E F (plrSpec ⟨exHalfProbL, exHalfProbL, exHalfProbL, false, iv, none⟩) D s ∧
      (fit F (plrSpec ⟨exHalfProbL, exHalfProbL, exHalfProbL, false, iv, none⟩) s {}).2 = .ok ()) ∧
    ∃ F D z, FreshData F D ∧ D.d.length = 2 ∧ D.z = some [z] ∧ ∃ s : LinState 16 ℕ,
      ReachedFrom E F (plivSpec ⟨exMeanL, exMeanL, exMeanL, exMeanL, iv, fun _ v => v, none⟩) D s ∧
      (fit F (plivSpec ⟨exMeanL, exMeanL, exMeanL, exMeanL, iv, fun _ v => v, none⟩) s {}).2 = .ok () := by
  constructor
  · obtain ⟨F, D, hD, hl, -⟩ := exTwoTreats none (by simp)
    obtain ⟨s, L, h1, h2, h3⟩ := exFromDraw E F (sp := plrSpec ⟨exHalfProbL, exHalfProbL, exHalfProbL, false, iv, none⟩) rfl rfl D
    exact ⟨F, D, hD, hl, s, h1, C63_plr_many rfl (by norm_num) hD h1 h2 (fun _ _ _ _ h => by cases h) (exFitArgsFor _ _)
      fun _ _ _ => ⟨exHalfProbL_soft _, fun r q A h => by cases h⟩⟩
  · obtain ⟨F, D, hD, hl, hz⟩ := exTwoTreats (some [bit16 2]) (by
      intro l hl c hc
      obtain rfl := Option.some.inj hl
      rw [List.mem_singleton.1 hc]
      exact fun i => ⟨_, rfl⟩)
    obtain ⟨z, hz, -⟩ := (hD.instr (bit16 2)).1 (by rw [hD.roles.2.2.2.1, hz])
    obtain ⟨s, L, h1, h2, h3⟩ := exFromDraw E F
      (sp := plivSpec ⟨exMeanL, exMeanL, exMeanL, exMeanL, iv, fun _ v => v, none⟩) rfl rfl D
    exact ⟨F, D, z, hD, hl, hz, s, h1, C63_pliv_many rfl hD hz h1 h2 (exFitArgsFor _ _)⟩


/-- Data with two instruments of given names. -/
theorem exNamed (z₁ z₂ : String) (h : ["y", "d", "x", z₁, z₂].Nodup) :
    ∃ (F : Frame 16) (D : DataState 16), FreshData F D ∧ D.z = some [z₁, z₂] ∧ D.d = ["d"] := by
  have hzn : [z₁, z₂].Nodup := h.sublist (List.sublist_append_right ["y", "d", "x"] [z₁, z₂])
  obtain ⟨D, hD⟩ := dataInit_accepts (n := 16) (F := ⟨["y", "d", "x", z₁, z₂], fun _ => bit16 0⟩) (xs := ["x"])
    (zs := some [z₁, z₂]) (ts := none) (ss := none) (z := .list [z₁, z₂]) (t := .none) (s := .none)
    (fun _ _ i => ⟨_, rfl⟩) (by
      simp only [zArg, colList]
      rw [if_neg (not_not.2 hzn), if_pos]
      · rfl
      · intro c hc
        exact List.mem_append_right ["y", "d", "x"] hc) rfl rfl (by simpa using h) (by simp)
  obtain ⟨-, -, -, -, -, -, h2, h3, -⟩ := dataInit_ok h hD
  have h2' : colList (⟨["y", "d", "x", z₁, z₂], fun _ => bit16 0⟩ : Frame 16) (.str "d") = .ok D.d := h2
  have h3' : zArg (⟨["y", "d", "x", z₁, z₂], fun _ => bit16 0⟩ : Frame 16) (.list [z₁, z₂]) = .ok D.z := h3
  refine ⟨_, D, ⟨h, _, _, hD⟩, ?_, ?_⟩
  · simp only [zArg, colList] at h3'
    rw [if_neg (not_not.2 hzn), if_pos] at h3'
    · exact (Except.ok.inj h3').symm
    · intro c hc
      exact List.mem_append_right ["y", "d", "x"] hc
  · simp only [colList] at h2'
    rw [if_pos (by simp)] at h2'
    exact (Except.ok.inj h2').symm

/-- PLIV with two instruments `z1`, `z2`; with two instruments one of which is called `xml_r`; and the two models that project on
the instruments. -/
example (E : Ext) (k : PlivClass 16 ℕ) (hv : k.vars = none) :
    (∃ F D, FreshData F D ∧ ∃ s : LinState 16 ℕ, ReachedFrom E F (plivMultiSpec k ["z1", "z2"]) D s ∧
      (fit F (plivMultiSpec k ["z1", "z2"]) s {}).2 = .ok ()) ∧
    (∃ F D, FreshData F D ∧ D.z = some ["z1", "xml_r"] ∧ ∃ s : LinState 16 ℕ,
      ReachedFrom E F (plivMultiSpec k ["z1", "xml_r"]) D s ∧ ∀ a, (fit F (plivMultiSpec k ["z1", "xml_r"]) s a).2 ≠ .ok ()) ∧
    (∃ F D, FreshData F D ∧ ∃ s : LinState 16 ℕ, ReachedFrom E F (plivZSpec k) D s ∧ (fit F (plivZSpec k) s {}).2 = .ok ()) ∧
    ∃ F D, FreshData F D ∧ ∃ s : LinState 16 ℕ, ReachedFrom E F (plivXZSpec k) D s ∧ (fit F (plivXZSpec k) s {}).2 = .ok () := by
  obtain ⟨F, D, hD, hz, hd⟩ := exNamed "z1" "z2" (by decide)
  refine ⟨⟨F, D, hD, ?_⟩, ?_, ⟨F, D, hD, ?_⟩, ⟨F, D, hD, ?_⟩⟩
  · obtain ⟨s, L, h1, h2, h3⟩ := exFromDraw E F (sp := plivMultiSpec k ["z1", "z2"]) hv rfl D
    refine ⟨s, h1, C63_pliv_instruments hv hD hz ?_ h1 h2 (exFitArgsFor _ _)⟩
    unfold Contains
    decide
  · obtain ⟨F, D, hD, hz, hd⟩ := exNamed "z1" "xml_r" (by decide)
    obtain ⟨s, L, h1, h2, h3⟩ := exFromDraw E F (sp := plivMultiSpec k ["z1", "xml_r"]) hv rfl D
    refine ⟨F, D, hD, hz, s, h1, fun a => C63_pliv_instruments_violated (z := "xml_r") (by simp) (.inr ?_) (by omega) ?_ a⟩
    · unfold Contains
      decide
    · rw [(h1.ready hv).2.d, hd]
      simp
  · obtain ⟨s, L, h1, h2, h3⟩ := exFromDraw E F (sp := plivZSpec k) hv rfl D
    exact ⟨s, h1, C63_plivZ hv hD h1 h2 (exFitArgsFor _ _)⟩
  · obtain ⟨s, L, h1, h2, h3⟩ := exFromDraw E F (sp := plivXZSpec k) hv rfl D
    exact ⟨s, h1, C63_plivXZ hv hD h1 h2 (exFitArgsFor _ _)⟩

end DML
