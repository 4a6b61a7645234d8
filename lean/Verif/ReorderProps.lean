import Verif.Reorder

/-!
# The order of the observations: one cell of every class (C68)
-/

namespace DML

open Finset

variable {n r : ℕ} {P M : Type} {σ : Equiv.Perm (Fin n)}

/-! ## Score and sensitivity elements -/

section elems

variable {c c' : Option (ClusterRep n)} (hc : ClusterReordered σ c c') (y d z l m g g0 g1 w wb p : Fin n → ℝ)

include hc

theorem plrElems_reorder (iv : Bool) : ((plrElems iv y d l m g).fit c).Reordered σ
    ((plrElems iv (fun i => y (σ i)) (fun i => d (σ i)) (fun i => l (σ i)) (fun i => m (σ i)) fun i => g (σ i)).fit c') := by
  cases iv <;> exact PsiElems.reordered hc (fun _ => rfl) fun _ => rfl

theorem plivElems_reorder (iv : Bool) : ((plivElems iv y z d l m p g).fit c).Reordered σ
    ((plivElems iv (fun i => y (σ i)) (fun i => z (σ i)) (fun i => d (σ i)) (fun i => l (σ i)) (fun i => m (σ i))
      (fun i => p (σ i)) fun i => g (σ i)).fit c') := by
  cases iv <;> exact PsiElems.reordered hc (fun _ => rfl) fun _ => rfl

theorem irmElems_reorder : ((irmElems y d g0 g1 m w wb).fit c).Reordered σ
    ((irmElems (fun i => y (σ i)) (fun i => d (σ i)) (fun i => g0 (σ i)) (fun i => g1 (σ i)) (fun i => m (σ i))
      (fun i => w (σ i)) fun i => wb (σ i)).fit c') := by
  refine PsiElems.reordered hc (fun i => ?_) fun _ => rfl
  simp only [irmElems, mean_perm σ w]

omit hc in
theorem normalizeIpw_reorder :
    normalizeIpw (fun i => m (σ i)) (fun i => d (σ i)) = fun i => normalizeIpw m d (σ i) := by
  funext i
  have e1 := mean_perm σ fun j => d j / m j
  have e2 := mean_perm σ fun j => (1 - d j) / (1 - m j)
  simp only [normalizeIpw, e1, e2]

omit hc in
theorem adjust_reorder (b : Bool) : adjust b (fun i => m (σ i)) (fun i => d (σ i)) = fun i => adjust b m d (σ i) := by
  cases b
  · rfl
  · exact normalizeIpw_reorder d m

theorem apoElems_reorder (b : Bool) : ((apoElems b y d g1 m w wb).fit c).Reordered σ
    ((apoElems b (fun i => y (σ i)) (fun i => d (σ i)) (fun i => g1 (σ i)) (fun i => m (σ i))
      (fun i => w (σ i)) fun i => wb (σ i)).fit c') := by
  refine PsiElems.reordered hc (fun i => ?_) fun i => ?_
  · simp only [apoElems, mean_perm σ w]
  · simp only [apoElems, adjust_reorder d m]

theorem iivmElems_reorder (b : Bool) (r0 r1 : Fin n → ℝ) : ((iivmElems b y z d g0 g1 m r0 r1).fit c).Reordered σ
    ((iivmElems b (fun i => y (σ i)) (fun i => z (σ i)) (fun i => d (σ i)) (fun i => g0 (σ i)) (fun i => g1 (σ i))
      (fun i => m (σ i)) (fun i => r0 (σ i)) fun i => r1 (σ i)).fit c') := by
  cases b
  · exact PsiElems.reordered hc (fun _ => rfl) fun _ => rfl
  · refine PsiElems.reordered hc (fun i => ?_) fun i => ?_ <;> simp only [iivmElems, if_true, normalizeIpw_reorder d m]

theorem ssmElems_reorder (b : Bool) (dt dc pi s : Fin n → ℝ) : ((ssmElems b dt dc g1 g0 pi m s y).fit c).Reordered σ
    ((ssmElems b (fun i => dt (σ i)) (fun i => dc (σ i)) (fun i => g1 (σ i)) (fun i => g0 (σ i)) (fun i => pi (σ i))
      (fun i => m (σ i)) (fun i => s (σ i)) fun i => y (σ i)).fit c') := by
  refine PsiElems.reordered hc (fun i => rfl) fun i => ?_
  have e1 := Equiv.sum_comp σ dt
  have e2 := Equiv.sum_comp σ dc
  have e3 := Equiv.sum_comp σ fun i => dt i * s i / (pi i * m i)
  have e4 := Equiv.sum_comp σ fun i => dc i * s i / (pi i * (1 - m i))
  simp only [ssmElems, e1, e2, e3, e4]

theorem didElems_reorder (sc : DidScore) (b : Bool) : ((didElems sc b y d g0 g1 m p).fit c).Reordered σ
    ((didElems sc b (fun i => y (σ i)) (fun i => d (σ i)) (fun i => g0 (σ i)) (fun i => g1 (σ i)) (fun i => m (σ i))
      fun i => p (σ i)).fit c') := by
  have e1 := mean_perm σ d
  have e2 := mean_perm σ fun j => (1 - d j) * (m j / (1 - m j))
  have e3 := mean_perm σ fun j => 1 - d j
  refine PsiElems.reordered hc (fun i => ?_) fun i => ?_ <;> cases sc <;> cases b <;>
    simp only [didElems, didWa, didB1, didWr, e1, e2, e3]

theorem didCsElems_reorder (sc : DidScore) (b : Bool) (t lam : Fin n → ℝ) (G : Cells n) :
    ((didCsElems sc b y d t G m p lam).fit c).Reordered σ
    ((didCsElems sc b (fun i => y (σ i)) (fun i => d (σ i)) (fun i => t (σ i)) ⟨fun i => G.d1t1 (σ i), fun i => G.d1t0 (σ i),
      fun i => G.d0t1 (σ i), fun i => G.d0t0 (σ i)⟩ (fun i => m (σ i)) (fun i => p (σ i)) fun i => lam (σ i)).fit c') := by
  have e1 := mean_perm σ d
  have e2 := mean_perm σ fun i => d i * t i
  have e3 := mean_perm σ fun i => d i * (1 - t i)
  have e4 := mean_perm σ fun i => (1 - d i) * t i
  have e5 := mean_perm σ fun i => (1 - d i) * (1 - t i)
  have e6 := mean_perm σ fun i => (1 - d i) * t i * (m i / (1 - m i))
  have e7 := mean_perm σ fun i => (1 - d i) * (1 - t i) * (m i / (1 - m i))
  refine PsiElems.reordered hc (fun i => ?_) fun i => ?_ <;> cases sc <;> cases b <;>
    simp only [didCsElems, didWa, csResid, cells, e1, e2, e3, e4, e5, e6, e7]

omit hc

theorem irmSens_reorder : (irmSens y d g0 g1 m w wb).Reordered σ
    (irmSens (fun i => y (σ i)) (fun i => d (σ i)) (fun i => g0 (σ i)) (fun i => g1 (σ i)) (fun i => m (σ i))
      (fun i => w (σ i)) fun i => wb (σ i)) := sensOf_reordered (fun _ => rfl) (fun _ => rfl) fun _ => rfl

theorem apoSens_reorder : (apoSens y d g0 g1 m w wb).Reordered σ
    (apoSens (fun i => y (σ i)) (fun i => d (σ i)) (fun i => g0 (σ i)) (fun i => g1 (σ i)) (fun i => m (σ i))
      (fun i => w (σ i)) fun i => wb (σ i)) := sensOf_reordered (fun _ => rfl) (fun _ => rfl) fun _ => rfl

theorem didSens_reorder (sc : DidScore) (b : Bool) : (didSens sc b y d g0 g1 m).Reordered σ
    (didSens sc b (fun i => y (σ i)) (fun i => d (σ i)) (fun i => g0 (σ i)) (fun i => g1 (σ i)) fun i => m (σ i)) := by
  have e1 := mean_perm σ d
  have e2 := mean_perm σ fun j => (1 - d j) * (m j / (1 - m j))
  refine sensOf_reordered (fun _ => rfl) (fun i => ?_) fun i => ?_ <;> cases sc <;> cases b <;>
    simp only [didMAlpha, didRr, e1, e2]

theorem csSens_reorder (sc : DidScore) (b : Bool) (t : Fin n → ℝ) (G : Cells n) : (csSens sc b y d t G m).Reordered σ
    (csSens sc b (fun i => y (σ i)) (fun i => d (σ i)) (fun i => t (σ i)) ⟨fun i => G.d1t1 (σ i), fun i => G.d1t0 (σ i),
      fun i => G.d0t1 (σ i), fun i => G.d0t0 (σ i)⟩ fun i => m (σ i)) := by
  have e1 := mean_perm σ d
  have e0 := mean_perm σ t
  have e2 := mean_perm σ fun i => d i * t i
  have e3 := mean_perm σ fun i => d i * (1 - t i)
  have e4 := mean_perm σ fun i => (1 - d i) * t i
  have e5 := mean_perm σ fun i => (1 - d i) * (1 - t i)
  have e6 := mean_perm σ fun i => (1 - d i) * t i * (m i / (1 - m i))
  have e7 := mean_perm σ fun i => (1 - d i) * (1 - t i) * (m i / (1 - m i))
  refine sensOf_reordered (fun _ => rfl) (fun i => ?_) fun i => ?_ <;> cases sc <;> cases b <;>
    simp only [csMAlpha, csRr, cells, e0, e1, e2, e3, e4, e5, e6, e7]

end elems

/-! ## Parts of a cell -/

section parts

variable {c c' : CellIn n P} (hc : c.Reordered σ c')

include hc

theorem CellIn.Reordered.y : c'.y = fun i => c.y (σ i) := by funext i; unfold CellIn.y; rw [hc.data]; rfl

theorem CellIn.Reordered.d : c'.d = fun i => c.d (σ i) := by funext i; unfold CellIn.d; rw [hc.data]; rfl

theorem CellIn.Reordered.x (i : Fin n) : rowX c'.data i = rowX c.data (σ i) := by
  unfold rowX
  rw [hc.data]
  exact List.map_map

theorem CellIn.Reordered.dx (i : Fin n) : c'.dx i = c.dx (σ i) := by
  unfold CellIn.dx
  rw [hc.x, hc.data]; rfl

theorem CellIn.Reordered.xd (i : Fin n) : c'.xd i = c.xd (σ i) := by
  unfold CellIn.xd
  rw [hc.x, hc.data]; rfl

theorem CellIn.Reordered.xz (i : Fin n) : c'.xz i = c.xz (σ i) := by
  unfold CellIn.xz
  rw [hc.x, hc.data]
  unfold DataState.reorder
  cases c.data.zv with
  | none => rfl
  | some l => simp [Function.comp_def]

theorem CellIn.Reordered.instr {z z' : Fin n → ℝ} (h : c.instr = .ok z) (h' : c'.instr = .ok z') : z' = fun i => z (σ i) := by
  unfold CellIn.instr at h h'
  rw [hc.data] at h'
  unfold DataState.reorder at h'
  dsimp only at h'
  cases hz : c.data.zv with
  | none => rw [hz] at h; cases h
  | some l =>
    rw [hz] at h h'
    match l, h, h' with
    | [v], h, h' =>
      rw [← Except.ok.inj h, ← Except.ok.inj h']

theorem CellIn.Reordered.time {z z' : Fin n → ℝ} (h : c.time = .ok z) (h' : c'.time = .ok z') : z' = fun i => z (σ i) := by
  unfold CellIn.time at h h'
  rw [hc.data] at h'
  unfold DataState.reorder at h'
  dsimp only at h'
  cases hz : c.data.tv with
  | none => rw [hz] at h; cases h
  | some l =>
    rw [hz] at h h'
    rw [← Except.ok.inj h, ← Except.ok.inj h']

theorem CellIn.Reordered.sel {z z' : Fin n → ℝ} (h : c.sel = .ok z) (h' : c'.sel = .ok z') : z' = fun i => z (σ i) := by
  unfold CellIn.sel at h h'
  rw [hc.data] at h'
  unfold DataState.reorder at h'
  dsimp only at h'
  cases hz : c.data.sv with
  | none => rw [hz] at h; cases h
  | some l =>
    rw [hz] at h h'
    rw [← Except.ok.inj h, ← Except.ok.inj h']

theorem CellIn.Reordered.paramsOf (l : String) : c'.paramsOf l = c.paramsOf l := by unfold CellIn.paramsOf; rw [hc.params]

theorem CellIn.Reordered.cl : ClusterReordered σ c.cluster c'.cluster := hc.cluster

variable {L : Learner P (List Cell)} (hL : L.OrderFree) (hS : FoldsOk c.smpls)

include hL hS

theorem crossFit_re {m : Method} {l : String} {x x' : Fin n → List Cell} (hx : ∀ i, x' i = x (σ i))
    {y y' : Fin n → ℝ} (hy : ∀ i, y' i = y (σ i)) {q q' : CvRes n P (List Cell)}
    (h : crossFit L m c l x y c.smpls = .ok q) (h' : crossFit L m c' l x' y' c'.smpls = .ok q') : q.Reordered σ q' := by
  unfold crossFit at h h'
  rw [hc.paramsOf, hc.want] at h'
  exact cvPredict_reordered hL hx hy hS hc.smpls h h'

theorem crossFitCond_re {m : Method} {l : String} {x x' : Fin n → List Cell} (hx : ∀ i, x' i = x (σ i))
    {y y' : Fin n → ℝ} (hy : ∀ i, y' i = y (σ i)) {on on' : Fin n → Prop} [DecidablePred on] [DecidablePred on']
    (ho : ∀ i, on' i ↔ on (σ i)) {q q' : CvRes n P (List Cell)}
    (h : crossFit L m c l x y (condSmpls on c.smpls) = .ok q)
    (h' : crossFit L m c' l x' y' (condSmpls on' c'.smpls) = .ok q') : q.Reordered σ q' := by
  unfold crossFit at h h'
  rw [hc.paramsOf, hc.want] at h'
  refine cvPredict_reordered hL hx hy ⟨by rw [isPartition_cond]; exact hS.partition, fun f hf => (condSmpls_mem hf).1⟩
    (hc.smpls.cond ho) h h'

theorem condLearn_re {m : Method} {l : String} {x x' : Fin n → List Cell} (hx : ∀ i, x' i = x (σ i))
    {y y' : Fin n → ℝ} (hy : ∀ i, y' i = y (σ i)) {on on' keep keep' : Fin n → Prop} [DecidablePred on] [DecidablePred on']
    [DecidablePred keep] [DecidablePred keep'] (ho : ∀ i, on' i ↔ on (σ i)) {q q' : CvRes n P (List Cell)}
    (h : condLearn L m c l x y on keep = .ok q) (h' : condLearn L m c' l x' y' on' keep' = .ok q') : q.Reordered σ q' := by
  obtain ⟨r, h1, rfl⟩ := condLearn_ok h
  obtain ⟨r', h1', rfl⟩ := condLearn_ok h'
  have := crossFitCond_re hc hL hS hx hy ho h1 h1'
  exact this

theorem learn_re {m : Method} {l : String} {y y' : Fin n → ℝ} (hy : ∀ i, y' i = y (σ i)) {q q' : CvRes n P (List Cell)}
    (h : learn L m c l y = .ok q) (h' : learn L m c' l y' = .ok q') : q.Reordered σ q' :=
  crossFit_re hc hL hS hc.x hy (learn_ok h) (learn_ok h')

theorem ssmPart_re {m : Method} {l : String} {x x' : Fin n → List Cell} (hx : ∀ i, x' i = x (σ i))
    {y y' : Fin n → ℝ} (hy : ∀ i, y' i = y (σ i)) {q q' : CvRes n P (List Cell)}
    (h : ssmPart L m c l x y c.smpls = .ok q) (h' : ssmPart L m c' l x' y' c'.smpls = .ok q') : q.Reordered σ q' :=
  crossFit_re hc hL hS hx hy (ssmPart_ok h) (ssmPart_ok h')

theorem ssmPartCond_re {m : Method} {l : String} {x x' : Fin n → List Cell} (hx : ∀ i, x' i = x (σ i))
    {y y' : Fin n → ℝ} (hy : ∀ i, y' i = y (σ i)) {on on' : Fin n → Prop} [DecidablePred on] [DecidablePred on']
    (ho : ∀ i, on' i ↔ on (σ i)) {q q' : CvRes n P (List Cell)}
    (h : ssmPart L m c l x y (condSmpls on c.smpls) = .ok q)
    (h' : ssmPart L m c' l x' y' (condSmpls on' c'.smpls) = .ok q') : q.Reordered σ q' :=
  crossFitCond_re hc hL hS hx hy ho (ssmPart_ok h) (ssmPart_ok h')

theorem propM_re {y y' : Fin n → ℝ} (hy : ∀ i, y' i = y (σ i)) {q q' : CvRes n P (List Cell)}
    (h : propM L c y = .ok q) (h' : propM L c' y' = .ok q') : q.Reordered σ q' := by
  unfold propM at h h'
  rw [hc.ext] at h'
  cases he : c.extOf "ml_m" with
  | some e =>
    rw [he] at h h'
    rw [← Except.ok.inj h, ← Except.ok.inj h']
    exact fun _ => rfl
  | none =>
    rw [he] at h h'
    exact learn_re hc hL hS hy h h'

theorem plivPart_re {l : String} {y y' : Fin n → ℝ} (hy : ∀ i, y' i = y (σ i)) {q q' : CvRes n P (List Cell)}
    (h : plivPart L c l y = .ok q) (h' : plivPart L c' l y' = .ok q') : q.Reordered σ q' := by
  unfold plivPart at h h'
  rw [hc.ext] at h'
  cases he : c.extOf l with
  | some e =>
    rw [he] at h h'
    rw [← Except.ok.inj h, ← Except.ok.inj h']
    exact fun _ => rfl
  | none =>
    rw [he] at h h'
    exact learn_re hc hL hS hy h h'

end parts

theorem CvRes.Reordered.trim {q q' : CvRes n P (List Cell)} (h : q.Reordered σ q') (t : ℝ) :
    (trimRes t q).Reordered σ (trimRes t q') := fun i => by
  show (q'.preds i).map _ = (q.preds (σ i)).map _
  rw [h i]

theorem shareOf_reorder {S S' : List (Fold n)} (h : SplitReordered σ S S') (d : Fin n → ℝ) :
    shareOf (fun i => d (σ i)) S' = fun i => shareOf d S (σ i) := by
  have key : ∀ p p' : Fin n → Option ℝ, (∀ i, p' i = p (σ i)) → ∀ i,
      S'.foldl (fun p f => fun i => if i ∈ f.test then some ((f.train.map fun i => d (σ i)).sum / (f.train.length : ℝ)) else p i) p' i =
      S.foldl (fun p f => fun i => if i ∈ f.test then some ((f.train.map d).sum / (f.train.length : ℝ)) else p i) p (σ i) := by
    unfold SplitReordered at h
    induction h with
    | nil => exact fun p p' h => h
    | cons a _ ih =>
      intro p p' hp i
      rw [List.foldl_cons, List.foldl_cons]
      apply ih
      intro i
      have h1 := (a.train.map d).sum_eq
      rw [List.map_map] at h1
      have h2 := a.train.length_eq
      rw [List.length_map] at h2
      simp only [a.mem_test, hp, h1, h2]
      rfl
  funext i
  unfold shareOf foldShare
  rw [key (fun _ => none) (fun _ => none) (fun _ => rfl) i]

/-! ## One cell of every class -/

/-- Weights of the reordered observations. -/
structure StoredWeights.Reordered (σ : Equiv.Perm (Fin n)) (w w' : StoredWeights) : Prop where
  weights : ∀ i : Fin n, w'.weights.entries.getD i 0 = w.weights.entries.getD (σ i) 0
  bar : (w.bar = none ∧ w'.bar = none) ∨ ∃ b b', w.bar = some b ∧ w'.bar = some b' ∧ b'.shape.getD 1 0 = b.shape.getD 1 0 ∧
    ∀ (i : Fin n) (k : ℕ), b'.entries.getD (i * b.shape.getD 1 0 + k) 0 = b.entries.getD (σ i * b.shape.getD 1 0 + k) 0

theorem StoredWeights.Reordered.at {w w' : StoredWeights} (h : w.Reordered σ w') {k : ℕ} {v v' : (Fin n → ℝ) × (Fin n → ℝ)}
    (e : w.at k = .ok v) (e' : w'.at k = .ok v') : v' = (fun i => v.1 (σ i), fun i => v.2 (σ i)) := by
  unfold StoredWeights.at at e e'
  rcases h.bar with ⟨h1, h2⟩ | ⟨b, b', h1, h2, h3, h4⟩
  · rw [h1] at e
    rw [h2] at e'
    rw [← Except.ok.inj e, ← Except.ok.inj e']
    exact Prod.ext (funext h.weights) (funext h.weights)
  · rw [h1] at e
    rw [h2] at e'
    dsimp only at e e'
    rw [h3] at e'
    split_ifs at e e'
    rw [← Except.ok.inj e, ← Except.ok.inj e']
    exact Prod.ext (funext h.weights) (funext fun i => h4 i k)

section cell

variable {c c' : CellIn n P} (hc : c.Reordered σ c') (hS : FoldsOk c.smpls)

include hc hS

theorem plr_re (k : PlrClass n P) (hl : k.ml_l.OrderFree) (hm : k.ml_m.OrderFree) (hg : k.ml_g.OrderFree)
    {o o' : LinOut n P} (h : plrEst k c = .ok o) (h' : plrEst k c' = .ok o') :
    o.fit.Reordered σ o'.fit ∧ o.sens.Reordered σ o'.sens := by
  obtain ⟨l, h1, h⟩ := bind_ok h
  obtain ⟨m, h2, h⟩ := bind_ok h
  obtain ⟨g, h3, h⟩ := bind_ok h
  obtain rfl := Except.ok.inj h
  obtain ⟨l', h1', h'⟩ := bind_ok h'
  obtain ⟨m', h2', h'⟩ := bind_ok h'
  obtain ⟨g', h3', h'⟩ := bind_ok h'
  obtain rfl := Except.ok.inj h'
  have hy : (fun i => (c'.data.yv i).val) = fun i => c.y (σ i) := hc.y
  have hd : (fun i => (c'.data.dv i).val) = fun i => c.d (σ i) := hc.d
  have el : l.Reordered σ l' := by
    unfold plrL at h1 h1'
    rw [hc.ext, hc.ext] at h1'
    cases he : c.extOf "ml_l" with
    | some e =>
      rw [he] at h1 h1'
      rw [← Except.ok.inj h1, ← Except.ok.inj h1']
      exact fun _ => rfl
    | none =>
      rw [he] at h1 h1'
      simp only [Option.map_none, Option.isSome_map] at h1 h1'
      by_cases hb : (k.iv && (c.extOf "ml_g").isSome) = true
      · rw [if_pos hb] at h1 h1'
        rw [← Except.ok.inj h1, ← Except.ok.inj h1']
        exact fun _ => rfl
      · rw [if_neg hb] at h1 h1'
        exact learn_re hc hl hS (fun i => congrFun hy i) h1 h1'
  have em : m.Reordered σ m' := by
    unfold plrM at h2 h2'
    rw [hc.ext] at h2'
    cases he : c.extOf "ml_m" with
    | some e =>
      rw [he] at h2 h2'
      obtain ⟨q, k1, k2⟩ := bind_ok h2
      obtain ⟨_, _, k2⟩ := bind_ok k2
      obtain ⟨q', k1', k2'⟩ := bind_ok h2'
      obtain ⟨_, _, k2'⟩ := bind_ok k2'
      rw [← Except.ok.inj k2, ← Except.ok.inj k2', ← Except.ok.inj k1, ← Except.ok.inj k1']
      exact fun _ => rfl
    | none =>
      rw [he] at h2 h2'
      obtain ⟨q, k1, k2⟩ := bind_ok h2
      obtain ⟨_, _, k2⟩ := bind_ok k2
      obtain ⟨q', k1', k2'⟩ := bind_ok h2'
      obtain ⟨_, _, k2'⟩ := bind_ok k2'
      rw [← Except.ok.inj k2, ← Except.ok.inj k2']
      exact learn_re hc hm hS (fun i => congrFun hd i) k1 k1'
  have hin : plrInitial (fun i => c.y (σ i)) (fun i => c.d (σ i)) (fun i => l.vec (σ i)) (fun i => m.vec (σ i)) =
      plrInitial c.y c.d l.vec m.vec := by
    have e1 := mean_perm σ fun i => (c.d i - m.vec i) * (c.y i - l.vec i)
    have e2 := mean_perm σ fun i => -((c.d i - m.vec i) * (c.d i - m.vec i))
    simp only [plrInitial, e1, e2]
  have eg : g.Reordered σ g' := by
    unfold plrG at h3 h3'
    by_cases hiv : k.iv = true
    · rw [if_pos hiv] at h3 h3'
      rw [hc.ext] at h3'
      cases he : c.extOf "ml_g" with
      | some e =>
        rw [he] at h3 h3'
        rw [← Except.ok.inj h3, ← Except.ok.inj h3']
        exact fun _ => rfl
      | none =>
        rw [he] at h3 h3'
        refine learn_re hc hg hS (fun i => ?_) h3 h3'
        rw [hy, hd, el.vec, em.vec, hin, congrFun hy i, congrFun hd i]
        rfl
    · rw [if_neg hiv] at h3 h3'
      rw [← Except.ok.inj h3, ← Except.ok.inj h3']
      exact fun _ => rfl
  have hfit := plrElems_reorder hc.cl c.y c.d l.vec m.vec g.vec k.iv
  dsimp only
  rw [hy, hd, el.vec, em.vec, eg.vec]
  refine ⟨hfit, plrSens_reordered (fun i => ?_) (fun _ => rfl) fun _ => rfl⟩
  rw [hfit.coef]
  cases k.iv <;> rfl

theorem irm_re (k k' : IrmClass n P) (hk : k' = { k with weights := k'.weights }) (hw : k.weights.Reordered σ k'.weights)
    (hg : k.ml_g.OrderFree) (hm : k.ml_m.OrderFree) {o o' : LinOut n P} (h : irmEst k c = .ok o) (h' : irmEst k' c' = .ok o') :
    o.fit.Reordered σ o'.fit ∧ o.sens.Reordered σ o'.sens := by
  rcases k with ⟨ml_g, ml_m, gC, atte, nrm, tr, w0, v⟩
  rcases k' with ⟨a1, a2, a3, a4, a5, a6, w0', a8⟩
  simp only [IrmClass.mk.injEq] at hk
  obtain ⟨rfl, rfl, rfl, rfl, rfl, rfl, -, rfl⟩ := hk
  obtain ⟨g0, h1, h⟩ := bind_ok h
  obtain ⟨g1, h2, h⟩ := bind_ok h
  obtain ⟨_, _, h⟩ := bind_ok h
  obtain ⟨m, h3, h⟩ := bind_ok h
  obtain ⟨w, h4, h⟩ := bind_ok h
  obtain rfl := Except.ok.inj h
  obtain ⟨g0', h1', h'⟩ := bind_ok h'
  obtain ⟨g1', h2', h'⟩ := bind_ok h'
  obtain ⟨_, _, h'⟩ := bind_ok h'
  obtain ⟨m', h3', h'⟩ := bind_ok h'
  obtain ⟨w', h4', h'⟩ := bind_ok h'
  obtain rfl := Except.ok.inj h'
  have hon : ∀ v : ℝ, ∀ i, c'.d i = v ↔ c.d (σ i) = v := fun v i => by rw [hc.d]
  have e0 : g0.Reordered σ g0' := by
    unfold irmG0 at h1 h1'
    rw [hc.ext] at h1'
    cases he : c.extOf "ml_g0" with
    | some e =>
      rw [he] at h1 h1'
      rw [← Except.ok.inj h1, ← Except.ok.inj h1']
      exact fun _ => rfl
    | none =>
      rw [he] at h1 h1'
      dsimp only [Option.map_none] at h1 h1'
      obtain ⟨q, k1, k2⟩ := bind_ok h1
      obtain ⟨_, _, k2⟩ := bind_ok k2
      obtain ⟨q', k1', k2'⟩ := bind_ok h1'
      obtain ⟨_, _, k2'⟩ := bind_ok k2'
      rw [← Except.ok.inj k2, ← Except.ok.inj k2']
      exact condLearn_re hc hg hS hc.x (fun i => congrFun hc.y i) (hon 0) k1 k1'
  have e1 : g1.Reordered σ g1' := by
    unfold irmG1 at h2 h2'
    rw [hc.ext] at h2'
    cases he : c.extOf "ml_g1" with
    | some e =>
      rw [he] at h2 h2'
      rw [← Except.ok.inj h2, ← Except.ok.inj h2']
      exact fun _ => rfl
    | none =>
      rw [he] at h2 h2'
      exact condLearn_re hc hg hS hc.x (fun i => congrFun hc.y i) (hon 1) h2 h2'
  have em := (propM_re hc hm hS (fun i => congrFun hc.d i) h3 h3').trim a6
  have ew : w' = (fun i => w.1 (σ i), fun i => w.2 (σ i)) := by
    unfold irmWeights at h4 h4'
    cases a4 with
    | false =>
      simp only [Bool.false_eq_true, if_false, hc.rep] at h4 h4'
      exact hw.at h4 h4'
    | true =>
      simp only [if_true] at h4 h4'
      rw [← Except.ok.inj h4, ← Except.ok.inj h4', em.vec, hc.d, adjust_reorder]
      have e1 := mean_perm σ fun i => w0.weights.entries.getD i 0 * c.d i
      simp only [atteWeights, hw.weights, e1]
  dsimp only
  rw [hc.y, e0.vec, e1.vec, em.vec, hc.d, adjust_reorder, ew]
  exact ⟨irmElems_reorder hc.cl _ _ _ _ _ _ _, irmSens_reorder _ _ _ _ _ _ _⟩

theorem apo_re (k k' : ApoClass n P) (hk : k' = { k with weights := k'.weights }) (hw : k.weights.Reordered σ k'.weights)
    (hg : k.ml_g.OrderFree) (hm : k.ml_m.OrderFree) {o o' : LinOut n P} (h : apoEst k c = .ok o) (h' : apoEst k' c' = .ok o') :
    o.fit.Reordered σ o'.fit ∧ o.sens.Reordered σ o'.sens := by
  rcases k with ⟨ml_g, ml_m, gC, lv, nrm, tr, w0, v⟩
  rcases k' with ⟨a1, a2, a3, a4, a5, a6, w0', a8⟩
  simp only [ApoClass.mk.injEq] at hk
  obtain ⟨rfl, rfl, rfl, rfl, rfl, rfl, -, rfl⟩ := hk
  obtain ⟨g1, h1, h⟩ := bind_ok h
  obtain ⟨_, _, h⟩ := bind_ok h
  obtain ⟨g0, h2, h⟩ := bind_ok h
  obtain ⟨_, _, h⟩ := bind_ok h
  obtain ⟨m, h3, h⟩ := bind_ok h
  obtain ⟨w, h4, h⟩ := bind_ok h
  obtain rfl := Except.ok.inj h
  obtain ⟨g1', h1', h'⟩ := bind_ok h'
  obtain ⟨_, _, h'⟩ := bind_ok h'
  obtain ⟨g0', h2', h'⟩ := bind_ok h'
  obtain ⟨_, _, h'⟩ := bind_ok h'
  obtain ⟨m', h3', h'⟩ := bind_ok h'
  obtain ⟨w', h4', h'⟩ := bind_ok h'
  obtain rfl := Except.ok.inj h'
  have ht : ApoClass.treated ⟨a1, a2, a3, a4, a5, a6, w0', a8⟩ c' = fun i => ApoClass.treated ⟨a1, a2, a3, a4, a5, a6, w0, a8⟩ c (σ i) := by
    funext i
    unfold ApoClass.treated
    rw [hc.d]
  have e0 : g0.Reordered σ g0' := by
    unfold apoG0 at h2 h2'
    rw [hc.ext] at h2'
    cases he : c.extOf "ml_g_d_lvl0" with
    | some e =>
      rw [he] at h2 h2'
      rw [← Except.ok.inj h2, ← Except.ok.inj h2']
      exact fun _ => rfl
    | none =>
      rw [he] at h2 h2'
      exact condLearn_re hc hg hS hc.dx (fun i => congrFun hc.y i) (fun i => by rw [ht]) h2 h2'
  have e1 : g1.Reordered σ g1' := by
    unfold apoG1 at h1 h1'
    rw [hc.ext] at h1'
    cases he : c.extOf "ml_g_d_lvl1" with
    | some e =>
      rw [he] at h1 h1'
      rw [← Except.ok.inj h1, ← Except.ok.inj h1']
      exact fun _ => rfl
    | none =>
      rw [he] at h1 h1'
      exact condLearn_re hc hg hS hc.x (fun i => congrFun hc.y i) (fun i => by rw [ht]) h1 h1'
  have em : m.Reordered σ m' := by
    unfold apoM at h3 h3'
    rw [hc.ext] at h3'
    cases he : c.extOf "ml_m" with
    | some e =>
      rw [he] at h3 h3'
      rw [← Except.ok.inj h3, ← Except.ok.inj h3']
      exact fun _ => rfl
    | none =>
      rw [he] at h3 h3'
      exact learn_re hc hm hS (fun i => congrFun ht i) h3 h3'
  rw [hc.rep] at h4'
  have ew := hw.at h4 h4'
  dsimp only
  rw [hc.y, e0.vec, e1.vec, (em.trim _).vec, ht, adjust_reorder, ew]
  exact ⟨apoElems_reorder hc.cl _ _ _ _ _ _ _, apoSens_reorder _ _ _ _ _ _ _⟩

theorem iivm_re (k : IivmClass n P) (hg : k.ml_g.OrderFree) (hm : k.ml_m.OrderFree) (hr : k.ml_r.OrderFree)
    {o o' : LinOut n P} (h : iivmEst k c = .ok o) (h' : iivmEst k c' = .ok o') : o.fit.Reordered σ o'.fit := by
  obtain ⟨z, h0, h⟩ := bind_ok h
  obtain ⟨g0, h1, h⟩ := bind_ok h
  obtain ⟨_, _, h⟩ := bind_ok h
  obtain ⟨g1, h2, h⟩ := bind_ok h
  obtain ⟨_, _, h⟩ := bind_ok h
  obtain ⟨m, h3, h⟩ := bind_ok h
  obtain ⟨r0, h4, h⟩ := bind_ok h
  obtain ⟨r1, h5, h⟩ := bind_ok h
  obtain rfl := Except.ok.inj h
  obtain ⟨z', h0', h'⟩ := bind_ok h'
  obtain ⟨g0', h1', h'⟩ := bind_ok h'
  obtain ⟨_, _, h'⟩ := bind_ok h'
  obtain ⟨g1', h2', h'⟩ := bind_ok h'
  obtain ⟨_, _, h'⟩ := bind_ok h'
  obtain ⟨m', h3', h'⟩ := bind_ok h'
  obtain ⟨r0', h4', h'⟩ := bind_ok h'
  obtain ⟨r1', h5', h'⟩ := bind_ok h'
  obtain rfl := Except.ok.inj h'
  have hz := hc.instr h0 h0'
  subst hz
  have kg : ∀ {l : String} {v : ℝ} {g g' : CvRes n P (List Cell)}, iivmG k c z l v = .ok g →
      iivmG k c' (fun i => z (σ i)) l v = .ok g' → g.Reordered σ g' := by
    intro l v g g' e e'
    unfold iivmG at e e'
    rw [hc.ext] at e'
    cases he : c.extOf l with
    | some u =>
      rw [he] at e e'
      rw [← Except.ok.inj e, ← Except.ok.inj e']
      exact fun _ => rfl
    | none =>
      rw [he] at e e'
      exact condLearn_re hc hg hS hc.x (fun i => congrFun hc.y i) (fun i => Iff.rfl) e e'
  have kr : ∀ {l : String} {v : ℝ} {b : Bool} {g g' : CvRes n P (List Cell)}, iivmR k c z l v b = .ok g →
      iivmR k c' (fun i => z (σ i)) l v b = .ok g' → g.Reordered σ g' := by
    intro l v b g g' e e'
    obtain ⟨q, k1, k2⟩ := bind_ok e
    obtain ⟨q', k1', k2'⟩ := bind_ok e'
    have hq : q.Reordered σ q' := by
      unfold iivmRRaw at k1 k1'
      cases b with
      | false =>
        simp only [Bool.false_eq_true, if_false] at k1 k1'
        rw [← Except.ok.inj k1, ← Except.ok.inj k1']
        exact fun _ => rfl
      | true =>
        simp only [if_true] at k1 k1'
        rw [hc.ext] at k1'
        cases he : c.extOf l with
        | some u =>
          rw [he] at k1 k1'
          rw [← Except.ok.inj k1, ← Except.ok.inj k1']
          exact fun _ => rfl
        | none =>
          rw [he] at k1 k1'
          exact crossFitCond_re hc hr hS hc.x (fun i => congrFun hc.d i) (fun i => Iff.rfl) k1 k1'
    unfold iivmRTail at k2 k2'
    rw [hc.ext] at k2'
    cases he : c.extOf l with
    | some u =>
      rw [he] at k2 k2'
      rw [← Except.ok.inj k2, ← Except.ok.inj k2']
      exact hq
    | none =>
      rw [he] at k2 k2'
      dsimp only [Option.map_none] at k2 k2'
      obtain ⟨_, _, k3⟩ := bind_ok k2
      obtain ⟨_, _, k3'⟩ := bind_ok k2'
      rw [← Except.ok.inj k3, ← Except.ok.inj k3']
      exact hq
  dsimp only
  rw [hc.y, hc.d, (kg h1 h1').vec, (kg h2 h2').vec, ((propM_re hc hm hS (fun _ => rfl) h3 h3').trim _).vec,
    (kr h4 h4').vec, (kr h5 h5').vec]
  exact iivmElems_reorder hc.cl _ _ _ _ _ _ _ _ _

theorem didM_re (k : DidClass n P) (hm : k.ml_m.OrderFree) {q q' : CvRes n P (List Cell)} (h : didM k c = .ok q)
    (h' : didM k c' = .ok q') : q.Reordered σ q' := by
  unfold didM at h h'
  cases hsc : k.score with
  | experimental =>
    rw [hsc] at h h'
    rw [← Except.ok.inj h, ← Except.ok.inj h']
    exact fun _ => rfl
  | observational =>
    rw [hsc] at h h'
    obtain ⟨r, h1, h⟩ := bind_ok h
    obtain ⟨r', h1', h'⟩ := bind_ok h'
    rw [← Except.ok.inj h, ← Except.ok.inj h']
    exact (propM_re hc hm hS (fun i => congrFun hc.d i) h1 h1').trim _

theorem did_re (k : DidClass n P) (hg : k.ml_g.OrderFree) (hm : k.ml_m.OrderFree)
    {o o' : LinOut n P} (h : didEst k c = .ok o) (h' : didEst k c' = .ok o') :
    o.fit.Reordered σ o'.fit ∧ o.sens.Reordered σ o'.sens := by
  obtain ⟨g0, h1, h⟩ := bind_ok h
  obtain ⟨g1, h2, h⟩ := bind_ok h
  obtain ⟨m, h3, h⟩ := bind_ok h
  obtain rfl := Except.ok.inj h
  obtain ⟨g0', h1', h'⟩ := bind_ok h'
  obtain ⟨g1', h2', h'⟩ := bind_ok h'
  obtain ⟨m', h3', h'⟩ := bind_ok h'
  obtain rfl := Except.ok.inj h'
  have kg : ∀ {l : String} {v : ℝ} {g g' : CvRes n P (List Cell)}, didG k c l v = .ok g →
      didG k c' l v = .ok g' → g.Reordered σ g' := by
    intro l v g g' e e'
    unfold didG at e e'
    rw [hc.ext] at e'
    cases he : c.extOf l with
    | some u =>
      rw [he] at e e'
      rw [← Except.ok.inj e, ← Except.ok.inj e']
      exact fun _ => rfl
    | none =>
      rw [he] at e e'
      exact condLearn_re hc hg hS hc.x (fun i => congrFun hc.y i) (fun i => by rw [hc.d]) e e'
  dsimp only
  rw [hc.y, hc.d, (kg h1 h1').vec, (kg h2 h2').vec, (didM_re hc hS k hm h3 h3').vec, shareOf_reorder hc.smpls]
  exact ⟨didElems_reorder hc.cl _ _ _ _ _ _ _ _, didSens_reorder _ _ _ _ _ _ _⟩

theorem cs_re (k : DidClass n P) (hg : k.ml_g.OrderFree) (hm : k.ml_m.OrderFree)
    {o o' : LinOut n P} (h : csEst k c = .ok o) (h' : csEst k c' = .ok o') :
    o.fit.Reordered σ o'.fit ∧ o.sens.Reordered σ o'.sens := by
  obtain ⟨t, h0, h⟩ := bind_ok h
  obtain ⟨g00, h1, h⟩ := bind_ok h
  obtain ⟨g01, h2, h⟩ := bind_ok h
  obtain ⟨g10, h3, h⟩ := bind_ok h
  obtain ⟨g11, h4, h⟩ := bind_ok h
  obtain ⟨m, h5, h⟩ := bind_ok h
  obtain rfl := Except.ok.inj h
  obtain ⟨t', h0', h'⟩ := bind_ok h'
  obtain ⟨g00', h1', h'⟩ := bind_ok h'
  obtain ⟨g01', h2', h'⟩ := bind_ok h'
  obtain ⟨g10', h3', h'⟩ := bind_ok h'
  obtain ⟨g11', h4', h'⟩ := bind_ok h'
  obtain ⟨m', h5', h'⟩ := bind_ok h'
  obtain rfl := Except.ok.inj h'
  have ht := hc.time h0 h0'
  subst ht
  have kg : ∀ {l : String} {v w : ℝ} {g g' : CvRes n P (List Cell)}, csG k c t l v w = .ok g →
      csG k c' (fun i => t (σ i)) l v w = .ok g' → g.Reordered σ g' := by
    intro l v w g g' e e'
    unfold csG at e e'
    rw [hc.ext] at e'
    cases he : c.extOf l with
    | some u =>
      rw [he] at e e'
      rw [← Except.ok.inj e, ← Except.ok.inj e']
      exact fun _ => rfl
    | none =>
      rw [he] at e e'
      dsimp only [Option.map_none] at e e'
      obtain ⟨q, hq, e⟩ := bind_ok e
      obtain ⟨q', hq', e'⟩ := bind_ok e'
      rw [← Except.ok.inj e, ← Except.ok.inj e']
      have := crossFitCond_re hc hg hS hc.x (fun i => congrFun hc.y i) (fun i => by rw [hc.d]) hq hq'
      exact this
  dsimp only
  rw [hc.y, hc.d, (kg h1 h1').vec, (kg h2 h2').vec, (kg h3 h3').vec, (kg h4 h4').vec, (didM_re hc hS k hm h5 h5').vec,
    shareOf_reorder hc.smpls, shareOf_reorder hc.smpls]
  exact ⟨didCsElems_reorder hc.cl c.y c.d m.vec _ k.score k.normalize t _ ⟨g11.vec, g10.vec, g01.vec, g00.vec⟩,
    csSens_reorder c.y c.d m.vec k.score k.normalize t ⟨g11.vec, g10.vec, g01.vec, g00.vec⟩⟩

theorem ssm_re (k : SsmClass n P) (hg : k.ml_g.OrderFree) (hm : k.ml_m.OrderFree) (hp : k.ml_pi.OrderFree)
    {o o' : LinOut n P} (h : ssmEst k c = .ok o) (h' : ssmEst k c' = .ok o') : o.fit.Reordered σ o'.fit := by
  obtain ⟨s, h0, h⟩ := bind_ok h
  obtain ⟨pi, h1, h⟩ := bind_ok h
  obtain ⟨m, h2, h⟩ := bind_ok h
  obtain ⟨g1, h3, h⟩ := bind_ok h
  obtain ⟨g0, h4, h⟩ := bind_ok h
  obtain ⟨_, _, h⟩ := bind_ok h
  obtain rfl := Except.ok.inj h
  obtain ⟨s', h0', h'⟩ := bind_ok h'
  obtain ⟨pi', h1', h'⟩ := bind_ok h'
  obtain ⟨m', h2', h'⟩ := bind_ok h'
  obtain ⟨g1', h3', h'⟩ := bind_ok h'
  obtain ⟨g0', h4', h'⟩ := bind_ok h'
  obtain ⟨_, _, h'⟩ := bind_ok h'
  obtain rfl := Except.ok.inj h'
  have hs := hc.sel h0 h0'
  subst hs
  have hd : ∀ v, c'.dIs v = fun i => c.dIs v (σ i) := fun v => by
    funext i
    unfold CellIn.dIs
    rw [hc.d]
  dsimp only
  rw [hc.y, hd, hd, (ssmPart_re hc hp hS hc.xd (fun _ => rfl) h1 h1').vec,
    ((ssmPart_re hc hm hS hc.x (fun i => congrFun hc.d i) h2 h2').trim _).vec,
    (ssmPartCond_re hc hg hS hc.x (fun i => congrFun hc.y i) (fun i => by rw [hc.d]) h3 h3').vec,
    (ssmPartCond_re hc hg hS hc.x (fun i => congrFun hc.y i) (fun i => by rw [hc.d]) h4 h4').vec]
  exact ssmElems_reorder hc.cl _ _ _ _ _ _ _ _ _

theorem pliv_re (k : PlivClass n P) (hl : k.ml_l.OrderFree) (hm : k.ml_m.OrderFree) (hr : k.ml_r.OrderFree) (hg : k.ml_g.OrderFree)
    {o o' : LinOut n P} (h : plivEst k c = .ok o) (h' : plivEst k c' = .ok o') : o.fit.Reordered σ o'.fit := by
  obtain ⟨l, h1, h⟩ := bind_ok h
  obtain ⟨z, h0, h⟩ := bind_ok h
  obtain ⟨m, h2, h⟩ := bind_ok h
  obtain ⟨r, h3, h⟩ := bind_ok h
  obtain ⟨g, h4, h⟩ := bind_ok h
  obtain rfl := Except.ok.inj h
  obtain ⟨l', h1', h'⟩ := bind_ok h'
  obtain ⟨z', h0', h'⟩ := bind_ok h'
  obtain ⟨m', h2', h'⟩ := bind_ok h'
  obtain ⟨r', h3', h'⟩ := bind_ok h'
  obtain ⟨g', h4', h'⟩ := bind_ok h'
  obtain rfl := Except.ok.inj h'
  have hz := hc.instr h0 h0'
  subst hz
  have el := plivPart_re hc hl hS (fun i => congrFun hc.y i) h1 h1'
  have em := plivPart_re hc hm hS (fun _ => rfl) h2 h2'
  have er := plivPart_re hc hr hS (fun i => congrFun hc.d i) h3 h3'
  have eg : g.Reordered σ g' := by
    unfold plivG at h4 h4'
    by_cases hiv : k.iv = true
    · rw [if_pos hiv] at h4 h4'
      refine plivPart_re hc hg hS (fun i => ?_) h4 h4'
      have := (plivElems_reorder (σ := σ) (.inl ⟨rfl, rfl⟩) c.y c.d z l.vec m.vec g.vec r.vec false).coef
      rw [hc.y, hc.d, el.vec, em.vec, er.vec]
      exact congrArg (fun v => c.y (σ i) - v * c.d (σ i)) this
    · rw [if_neg hiv] at h4 h4'
      rw [← Except.ok.inj h4, ← Except.ok.inj h4']
      exact fun _ => rfl
  dsimp only
  rw [hc.y, hc.d, el.vec, em.vec, er.vec, eg.vec]
  exact plivElems_reorder hc.cl _ _ _ _ _ _ _ _

theorem plivZ_re (k : PlivClass n P) (hr : k.ml_r.OrderFree) {o o' : LinOut n P} (h : plivZEst k c = .ok o)
    (h' : plivZEst k c' = .ok o') : o.fit.Reordered σ o'.fit := by
  obtain ⟨r, h1, h⟩ := bind_ok h
  obtain rfl := Except.ok.inj h
  obtain ⟨r', h1', h'⟩ := bind_ok h'
  obtain rfl := Except.ok.inj h'
  dsimp only
  rw [hc.y, hc.d, (ssmPart_re hc hr hS hc.xz (fun i => congrFun hc.d i) h1 h1').vec]
  exact PsiElems.reordered hc.cl (fun _ => rfl) fun _ => rfl

omit hc hS in
/-- The predictions for the training observations of every fold. -/
theorem trainPreds_ok {X : Type} {L : Learner P X} {x : Fin n → X} {y : Fin n → ℝ} {S : List (Fold n)} {ps : Params P} {m1 : Bool}
    {q : CvRes n P X} (h : cvPredict L ⟨x, .plain y, S, ps, .predict, true, m1⟩ = .ok q) (k : ℕ) (hk : k < S.length) :
    (q.trainPreds.getD [])[k]? = some (S[k].train.map fun i => L.predict (ps.at k) (trainData x y S[k].train) (x i)) := by
  unfold cvPredict at h
  rw [if_pos (by simp [CvArgs.manual])] at h
  obtain ⟨data, pl, preds, hd, hps, -, -, -, -, ht⟩ := manualPredict_unfold h
  obtain ⟨hpl, hpv⟩ := foldParams_ok hps
  have hdd := Except.ok.inj hd
  dsimp only at hdd hpl
  subst hdd
  rw [ht, if_pos rfl, Option.getD_some, List.getElem?_map, List.getElem?_eq_getElem (by simp [hpl, hk]), Option.map_some,
    List.getElem_zip, List.getElem_map, List.getElem_zip, List.getElem_map, hpv]
  rfl

theorem plivXZ_re (k : PlivClass n P) (hl : k.ml_l.OrderFree) (hm : k.ml_m.OrderFree) (hr : k.ml_r.OrderFree)
    {o o' : LinOut n P} (h : plivXZEst k c = .ok o) (h' : plivXZEst k c' = .ok o') : o.fit.Reordered σ o'.fit := by
  obtain ⟨l, h1, h⟩ := bind_ok h
  obtain ⟨m, h2, h⟩ := bind_ok h
  obtain ⟨r, h3, h⟩ := bind_ok h
  obtain rfl := Except.ok.inj h
  obtain ⟨l', h1', h'⟩ := bind_ok h'
  obtain ⟨m', h2', h'⟩ := bind_ok h'
  obtain ⟨r', h3', h'⟩ := bind_ok h'
  obtain rfl := Except.ok.inj h'
  have hS' := hc.smpls.foldsOk hS
  obtain ⟨q, k2, h2⟩ := bind_ok h2
  obtain ⟨_, _, h2⟩ := bind_ok h2
  obtain rfl := Except.ok.inj h2
  obtain ⟨q', k2', h2'⟩ := bind_ok h2'
  obtain ⟨_, _, h2'⟩ := bind_ok h2'
  obtain rfl := Except.ok.inj h2'
  obtain ⟨t, k3, h3⟩ := bind_ok h3
  obtain ⟨_, _, h3⟩ := bind_ok h3
  obtain rfl := Except.ok.inj h3
  obtain ⟨t', k3', h3'⟩ := bind_ok h3'
  obtain ⟨_, _, h3'⟩ := bind_ok h3'
  obtain rfl := Except.ok.inj h3'
  rw [hc.paramsOf, hc.want] at k2' k3'
  have em : q.Reordered σ q' := cvPredict_reordered hm hc.xz (fun i => congrFun hc.d i) hS hc.smpls k2 k2'
  have er : t.Reordered σ t' := by
    intro i
    obtain ⟨f, hf, _⟩ := C26_complete hS'.partition i
    have hkl : (f : ℕ) < c.smpls.length := by rw [hc.smpls.length]; exact f.2
    have hff := hc.smpls.getElem f hkl
    have e' := C26_prediction_rule (a := ⟨rowX c'.data, .perFold (q'.trainPreds.getD []), c'.smpls, c.paramsOf "ml_r", .predict,
      false, c.wantModels⟩) rfl hS'.partition hS'.nodup k3' f f.2 i hf
    have e := C26_prediction_rule (a := ⟨rowX c.data, .perFold (q.trainPreds.getD []), c.smpls, c.paramsOf "ml_r", .predict,
      false, c.wantModels⟩) rfl hS.partition hS.nodup k3 f hkl (σ i) ((hff.mem_test i).1 hf)
    rw [e', e]
    simp only [Target.dataOf]
    rw [trainPreds_ok k2 f hkl, trainPreds_ok k2' f f.2, Option.getD_some, Option.getD_some, List.zip_map', List.zip_map', hc.x]
    congr 1
    refine (hr _ _ _ _ ?_).1.symm
    have hD := trainData_perm hff hc.xz fun i => congrFun hc.d i
    have h1 : ((c'.smpls[(f : ℕ)]).train.map fun i => (rowX c'.data i,
        k.ml_m.predict ((c.paramsOf "ml_m").at f) (trainData c'.xz c'.d (c'.smpls[(f : ℕ)]).train) (c'.xz i))) =
        ((c'.smpls[(f : ℕ)]).train.map σ).map fun i => (rowX c.data i,
        k.ml_m.predict ((c.paramsOf "ml_m").at f) (trainData c.xz c.d (c.smpls[(f : ℕ)]).train) (c.xz i)) := by
      rw [List.map_map]
      refine List.map_congr_left fun i _ => ?_
      show _ = (rowX c.data (σ i), _)
      rw [hc.x, hc.xz, (hm _ _ _ _ hD).1]
    rw [h1]
    exact hff.train.map _
  dsimp only
  rw [hc.y, hc.d, (ssmPart_re hc hl hS hc.x (fun i => congrFun hc.y i) h1 h1').vec, em.vec, er.vec]
  exact PsiElems.reordered hc.cl (fun _ => rfl) fun _ => rfl

omit hS in
theorem CellIn.Reordered.instrs : c'.instrs = c.instrs.map fun zc => (zc.1, fun i => zc.2 (σ i)) := by
  unfold CellIn.instrs
  rw [hc.data]
  unfold DataState.reorder
  dsimp only
  have : (Option.map (fun l => l.map fun (z : Fin n → Cell) i => z (σ i)) c.data.zv).getD [] =
      (c.data.zv.getD []).map fun z i => z (σ i) := by cases c.data.zv <;> rfl
  rw [this, List.zip_map_right]
  rfl

omit hc hS in
/-- Column `j` of the predictions, for any number of columns. -/
noncomputable def predCol (q : ℕ) (ms : List (String × CvRes n P (List Cell))) (i : Fin n) (j : Fin q) : ℝ :=
  (ms[(j : ℕ)]?.map fun m => m.2.vec i).getD 0

omit hc hS in
theorem instrPred_eq (ms : List (String × CvRes n P (List Cell))) : instrPred ms = predCol ms.length ms := by
  funext i j
  simp [instrPred, predCol]

theorem plivInstr_re (k : PlivClass n P) (hm : k.ml_m.OrderFree) {zs : List (String × (Fin n → Cell))}
    {ms ms' : List (String × CvRes n P (List Cell))} (h : List.Forall₂ (fun a b => plivInstr k c a = .ok b) zs ms)
    (h' : List.Forall₂ (fun a b => plivInstr k c' a = .ok b) (zs.map fun zc => (zc.1, fun i => zc.2 (σ i))) ms') :
    List.Forall₂ (fun q q' => q.2.Reordered σ q'.2) ms ms' := by
  induction h generalizing ms' with
  | nil => cases h'; exact .nil
  | cons a _ ih =>
    rw [List.map_cons] at h'
    cases h' with
    | cons a' t' =>
      refine .cons ?_ (ih t')
      obtain ⟨q, k1, a⟩ := bind_ok a
      obtain ⟨q', k1', a'⟩ := bind_ok a'
      rw [← Except.ok.inj a, ← Except.ok.inj a']
      exact plivPart_re hc hm hS (fun _ => rfl) k1 k1'

theorem plivMulti_re (k : PlivClass n P) (hl : k.ml_l.OrderFree) (hm : k.ml_m.OrderFree) (hr : k.ml_r.OrderFree)
    (hp : ∀ (q : ℕ) (v : Fin n → Fin q → ℝ) (w : Fin n → ℝ), k.proj (fun i => v (σ i)) (fun i => w (σ i)) = fun i => k.proj v w (σ i))
    {o o' : LinOut n P} (h : plivMultiEst k c = .ok o) (h' : plivMultiEst k c' = .ok o') : o.fit.Reordered σ o'.fit := by
  obtain ⟨l, h1, h⟩ := bind_ok h
  obtain ⟨ms, h2, h⟩ := bind_ok h
  obtain ⟨r, h3, h⟩ := bind_ok h
  obtain rfl := Except.ok.inj h
  obtain ⟨l', h1', h'⟩ := bind_ok h'
  obtain ⟨ms', h2', h'⟩ := bind_ok h'
  obtain ⟨r', h3', h'⟩ := bind_ok h'
  obtain rfl := Except.ok.inj h'
  rw [hc.instrs] at h2'
  have hms := plivInstr_re hc hS k hm ((mapM_ok_iff ..).1 h2) ((mapM_ok_iff ..).1 h2')
  have key : ∀ q, q = ms.length → (plivMulti (k := q) k.proj (fun i => c.y (σ i)) (fun i => c.d (σ i)) (fun i => l.vec (σ i))
      (fun i => r.vec (σ i)) (instrCol c') (predCol q ms')) =
      plivMulti k.proj (fun i => c.y (σ i)) (fun i => c.d (σ i)) (fun i => l.vec (σ i))
      (fun i => r.vec (σ i)) (fun i => instrCol c (σ i)) (fun i => predCol ms.length ms (σ i)) := by
    rintro _ rfl
    congr 1
    · funext i j
      unfold instrCol
      rw [hc.instrs, List.getElem?_map, Option.map_map]
      rfl
    · funext i j
      unfold predCol
      have hj' : (j : ℕ) < ms'.length := by rw [← hms.length_eq]; exact j.2
      rw [List.getElem?_eq_getElem j.2, List.getElem?_eq_getElem hj', Option.map_some, Option.map_some,
        ((forall₂_getElem hms).2 j j.2 hj').vec]
  dsimp only
  rw [instrPred_eq, instrPred_eq, hc.y, hc.d, (plivPart_re hc hl hS (fun i => congrFun hc.y i) h1 h1').vec,
    (plivPart_re hc hr hS (fun i => congrFun hc.d i) h3 h3').vec, key _ hms.length_eq.symm]
  have hpp := hp ms.length (fun i j => instrCol c i j - predCol ms.length ms i j) fun i => c.d i - r.vec i
  refine PsiElems.reordered hc.cl (fun i => ?_) fun i => ?_ <;> simp only [plivMulti, hpp]

end cell

end DML
