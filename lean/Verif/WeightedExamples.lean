import Verif.WeightedProps

/-!
# C83: the hypotheses are met, and weights that do not average one
-/

namespace DML

open Finset

/-- Data whose outcome is the treatment. -/
noncomputable def weightData : DataState 4 := exData4 ![0, 1, 0, 1]

/-- The outcome regressions are supplied: 0 without, 1 with treatment. -/
def weightArgs : FitArgs :=
  { ext := .dict [("d", .dict [("ml_g0", .arr2 4 1 fun _ _ => 0), ("ml_g1", .arr2 4 1 fun _ _ => 1)])] }

/-- An interactive model with the weights `w`. -/
noncomputable def weightIrm (atte : Bool) (w : List ℝ) : IrmClass 4 ℕ :=
  { exIrm4 with
    atte := atte
    weights := ⟨⟨[4], w⟩, none⟩ }

/-- A model for the average potential outcome under treatment with the weights `w`. -/
noncomputable def weightApo (w : List ℝ) : ApoClass 4 ℕ := (weightIrm false w).apo 1

/-- Creating an object for a class with stratified splits. -/
theorem exInitStrat {sp : LinSpec 4 ℕ} (hv : sp.vars = none) (hst : sp.stratified = true) (D : DataState 4) :
    ∃ s : LinState 4 ℕ, initModel sp D 0 (.int 2) (.int 1) (.bool true) exDraw4 = .ok s ∧ s.smpls = some [exFolds4] ∧
      s.nRep = 1 ∧ s.data = D := by
  have h : checkClusterVars sp D = .ok () := by
    unfold checkClusterVars
    rw [hv]
    rfl
  unfold initModel
  rw [h]
  simp only [bind, Except.bind, checkInteger, checkBool, PyVal.asInt]
  simp only [drawSampleSplitting, drawnSplit, hv, hst, Option.isSome_none, Bool.false_eq_true, if_false]
  have h3 : (2 : ℤ).toNat = 2 := rfl
  simp [h3, initArrays, exDraw4_folds]

theorem SameObject.refl {n : ℕ} {P M : Type} (s : MState n P M) : SameObject s s := ⟨rfl, rfl, rfl, rfl, rfl, rfl⟩

/-- The object of the interactive models; it does not depend on the weights. -/
theorem weightIrm_obj (E : Ext) (F : Frame 4) : ∃ s : LinState 4 ℕ, s.smpls = some [exFolds4] ∧ s.nRep = 1 ∧ s.data = weightData ∧ Shaped s ∧
    ∀ atte w, (fit F (irmSpec (weightIrm atte w)) s {}).2 = .ok () ∧ (fit F (irmSpec (weightIrm atte w)) s weightArgs).2 = .ok () := by
  obtain ⟨s, h1, h2, h3, h4⟩ := exInitStrat (sp := irmSpec (weightIrm false [1, 1, 1, 1])) rfl rfl weightData
  have hr : ∀ atte w, Reached E F (irmSpec (weightIrm atte w)) weightData "d" s := fun atte w =>
    exReach F rfl (show initModel (irmSpec (weightIrm atte w)) _ _ _ _ _ _ = _ from h1) E
  have hd : nums weightData.dv = ![(0 : ℝ), 1, 0, 1] := rfl
  have key : ∀ atte w a, ValidArgs (irmSpec (weightIrm atte w)) "d" 1 a → (fit F (irmSpec (weightIrm atte w)) s a).2 = .ok () :=
    fun atte w a ha => C63_irm rfl rfl exMeanL_compliant rfl (by rw [hd]; exact ex_d4.1) (hr atte w) h2
      (by rw [hd]; exact ex_every ex_d4.2) (fun _ _ => ⟨_, rfl⟩) (by rw [h3]; exact ha)
  refine ⟨s, h2, h3, h4, ((hr false []).ready rfl).1.shaped, fun atte w => ⟨key _ _ _ ⟨.inl rfl, ⟨true, rfl⟩, ⟨false, rfl⟩, .inl rfl⟩,
    key _ _ _ ⟨.inl rfl, ⟨true, rfl⟩, ⟨false, rfl⟩, .inr ⟨rfl, ?_, ?_⟩⟩⟩⟩
  · intro t v htv
    obtain ⟨rfl, rfl⟩ : t = "d" ∧ v = .dict [("ml_g0", .arr2 4 1 fun _ _ => 0), ("ml_g1", .arr2 4 1 fun _ _ => 1)] := by simpa using htv
    refine ⟨by simp, _, rfl, fun l' w hw => ?_⟩
    have : (l' = "ml_g0" ∧ w = .arr2 4 1 fun _ _ => 0) ∨ (l' = "ml_g1" ∧ w = .arr2 4 1 fun _ _ => 1) := by simpa using hw
    rcases this with ⟨rfl, rfl⟩ | ⟨rfl, rfl⟩
    · exact ⟨by simp [irmSpec], _, rfl⟩
    · exact ⟨by simp [irmSpec], _, rfl⟩
  · exact ⟨_, rfl⟩

/-- The object of the models for average potential outcomes. -/
theorem weightApo_obj (E : Ext) (F : Frame 4) : ∃ s : LinState 4 ℕ, s.smpls = some [exFolds4] ∧ s.nRep = 1 ∧ s.data = weightData ∧ Shaped s ∧
    ∀ w, (fit F (apoSpec (weightApo w)) s {}).2 = .ok () := by
  obtain ⟨s, h1, h2, h3, h4⟩ := exInitStrat (sp := apoSpec (weightApo [1, 1, 1, 1])) rfl rfl weightData
  have hr : ∀ w, Reached E F (apoSpec (weightApo w)) weightData "d" s := fun w =>
    exReach F rfl (show initModel (apoSpec (weightApo w)) _ _ _ _ _ _ = _ from h1) E
  have hd1 : isLevel (n := 4) 1 ![0, 1, 0, 1] = ![(0 : ℝ), 1, 0, 1] := by
    funext i; fin_cases i <;> simp [isLevel]
  have hd : isLevel 1 (nums weightData.dv) = ![(0 : ℝ), 1, 0, 1] := hd1
  refine ⟨s, h2, h3, h4, ((hr []).ready rfl).1.shaped, fun w => C63_apo rfl rfl exMeanL_compliant rfl ?_ (hr w) h2 ?_ (fun _ _ => ⟨_, rfl⟩)
    (by rw [h3]; exact ⟨.inl rfl, ⟨true, rfl⟩, ⟨false, rfl⟩, .inl rfl⟩)⟩
  · show BinaryTarget (isLevel 1 (nums weightData.dv))
    rw [hd]; exact ex_d4.1
  · show ∀ S ∈ [exFolds4], EveryFold S (fun _ => True) (isLevel 1 (nums weightData.dv))
    rw [hd]; exact ex_every ex_d4.2

theorem weight_scaled (x : ℝ) (w : List ℝ) (hw : w.length = 4) :
    (⟨⟨[4], w⟩, none⟩ : StoredWeights).Scaled 4 x ⟨⟨[4], w.map (x * ·)⟩, none⟩ := by
  refine ⟨fun i => ?_, .inl ⟨rfl, rfl⟩⟩
  have hi : (i : ℕ) < w.length := by rw [hw]; exact i.2
  simp [List.getD, hi]

/-- The hypotheses of the theorems on the scale of the weights are met, with different weights. -/
example (E : Ext) (F : Frame 4) : ∃ s s' : LinState 4 ℕ,
    InNewUnits 3 0 1 1 (fit F (irmSpec (weightIrm false [1, 2, 0, 4])) s {}).1 (fit F (irmSpec (weightIrm false [3, 6, 0, 12])) s {}).1 ∧
    InNewUnits 3 0 1 1 (fit F (apoSpec (weightApo [1, 2, 0, 4])) s' {}).1 (fit F (apoSpec (weightApo [3, 6, 0, 12])) s' {}).1 := by
  obtain ⟨s, h1, h2, h3, h4, h5⟩ := weightIrm_obj E F
  obtain ⟨s', h1', h2', h3', h4', h5'⟩ := weightApo_obj E F
  have e : ([1, 2, 0, 4] : List ℝ).map (3 * ·) = [3, 6, 0, 12] := by norm_num
  have hS := weight_scaled 3 [1, 2, 0, 4] rfl
  rw [e] at hS
  refine ⟨s, s', ?_, ?_⟩
  · have := C83_irm_scale (F := F) (k := weightIrm false [1, 2, 0, 4]) (x := 3) (by norm_num) rfl hS h4 h4 (SameObject.refl s) (h5 false _).1 (h5 false [3, 6, 0, 12]).1
    rw [h2, h3] at this
    exact this
  · have := C83_apo_scale (F := F) (k := weightApo [1, 2, 0, 4]) (x := 3) (by norm_num) hS h4' h4' (SameObject.refl s') (h5' _) (h5' [3, 6, 0, 12])
    rw [h2', h3'] at this
    exact this

theorem weightIrm_ones (atte : Bool) (q : ℕ) : (weightIrm atte [1, 1, 1, 1]).weights.at q = .ok (fun _ : Fin 4 => 1, fun _ => 1) := by
  refine congrArg Except.ok (Prod.ext (funext fun i => ?_) (funext fun i => ?_)) <;> fin_cases i <;> rfl

/-- The signals of the unweighted model. -/
theorem weightIrm_signal {F : Frame 4} {s : LinState 4 ℕ} (hr : s.nRep = 1) (hd : s.data = weightData)
    (h : (fit F (irmSpec (weightIrm false [1, 1, 1, 1])) s weightArgs).2 = .ok ()) :
    (fit F (irmSpec (weightIrm false [1, 1, 1, 1])) s weightArgs).1.psiB 0 0 = some fun _ => 1 := by
  obtain ⟨c, o, h1, h2, h3⟩ := fit_signal h (j := 0) (k := 0) (by rw [hd]; exact one_pos) (by rw [hr]; exact one_pos)
  rw [h3]
  have ht : c.treat = "d" := by
    have := h1.treat
    rw [hd] at this
    exact (Option.some.inj this).symm
  have hx := h1.ext
  rw [ht] at hx
  have x0 : c.extOf "ml_g0" = some fun _ => 0 := supplied_ext (A := fun _ _ => 0) (r := 4) (q := 1) hx (by simp [irmSpec]) rfl
  have x1 : c.extOf "ml_g1" = some fun _ => 1 := supplied_ext (A := fun _ _ => 1) (r := 4) (q := 1) hx (by simp [irmSpec]) rfl
  have hdat : c.data = weightData := by
    rw [h1.data, hd]
    rfl
  have hy : c.y = ![0, 1, 0, 1] := by unfold CellIn.y; rw [hdat]; rfl
  have hdd : c.d = ![0, 1, 0, 1] := by unfold CellIn.d; rw [hdat]; rfl
  have h2 : irmEst (weightIrm false [1, 1, 1, 1]) c = .ok o := h2
  obtain ⟨g0, k0, h2⟩ := bind_ok h2
  obtain ⟨g1, k1, h2⟩ := bind_ok h2
  obtain ⟨_, _, h2⟩ := bind_ok h2
  obtain ⟨m, k3, h2⟩ := bind_ok h2
  obtain ⟨w, k4, h2⟩ := bind_ok h2
  obtain rfl := Except.ok.inj h2
  unfold irmG0 at k0
  unfold irmG1 at k1
  rw [x0] at k0
  rw [x1] at k1
  unfold irmWeights at k4
  rw [if_neg (by simp [weightIrm])] at k4
  rw [weightIrm_ones] at k4
  obtain rfl := Except.ok.inj k0
  obtain rfl := Except.ok.inj k1
  obtain rfl := Except.ok.inj k4
  refine congrArg some (funext fun i => ?_)
  dsimp only
  generalize adjust _ _ _ = mA
  rw [hy, hdd]
  set e := irmElems ![0, 1, 0, 1] ![0, 1, 0, 1] (extRes (P := ℕ) fun _ : Fin 4 => 0).vec (extRes (P := ℕ) fun _ : Fin 4 => 1).vec mA (fun _ => 1) fun _ => 1 with he
  have : e.score (e.coef c.cluster) i - e.a i * e.coef c.cluster = e.b i := by
    unfold PsiElems.score
    ring
  refine this.trans ?_
  rw [he]
  unfold irmElems extRes CvRes.vec
  fin_cases i <;> simp

/-- **C83, weights that do not average one.**  The weights `[2, 2, 2, 2]` are accepted; all signals of the unweighted model are 1, and so
is every weighted average of them, but the estimate of the weighted model is 2. -/
theorem C83_irm_violated (E : Ext) (F : Frame 4) : ∃ (w' : StoredWeights) (s : LinState 4 ℕ),
    initWeights (.arr ⟨[4], [2, 2, 2, 2]⟩) .ate 4 1 = .ok w' ∧
    (fit F (irmSpec (weightIrm false [1, 1, 1, 1])) s weightArgs).2 = .ok () ∧
    (fit F (irmSpec { weightIrm false [1, 1, 1, 1] with weights := w' }) s weightArgs).2 = .ok () ∧
    ∃ sig, (fit F (irmSpec (weightIrm false [1, 1, 1, 1])) s weightArgs).1.psiB 0 0 = some sig ∧ weightedMean (fun _ => 2) sig = 1 ∧
      (fit F (irmSpec { weightIrm false [1, 1, 1, 1] with weights := w' }) s weightArgs).1.coef 0 = some 2 := by
  obtain ⟨s, h1, h2, h3, h4, h5⟩ := weightIrm_obj E F
  have e : ([1, 1, 1, 1] : List ℝ).map (2 * ·) = [2, 2, 2, 2] := by norm_num
  have hS := weight_scaled 2 [1, 1, 1, 1] rfl
  rw [e] at hS
  refine ⟨⟨⟨[4], [2, 2, 2, 2]⟩, none⟩, s, ?_, (h5 false _).2, (h5 false [2, 2, 2, 2]).2, _, weightIrm_signal h2 h3 (h5 false _).2, ?_, ?_⟩
  · unfold initWeights checkWeights checkWeightArray initWeights.store
    norm_num
    rfl
  · unfold weightedMean
    norm_num
  · obtain ⟨A, A', -, -, -, -, -, -, g⟩ := C83_irm_scale (F := F) (k := weightIrm false [1, 1, 1, 1]) (x := 2) (by norm_num) rfl hS h4 h4
      (SameObject.refl s) (h5 false _).2 (h5 false [2, 2, 2, 2]).2
    obtain ⟨θ, se, g1, g2, g3, g4⟩ := g 0 (by rw [h3]; exact one_pos)
    obtain ⟨sig, f1, f2, f3⟩ := C83_irm_average_partial (F := F) (k := weightIrm false [1, 1, 1, 1]) (w' := ⟨⟨[4], [1, 1, 1, 1]⟩, none⟩) rfl rfl
      (SameObject.refl s) (by norm_num) (w := fun _ => 1) (by rw [mean_const (by norm_num)]) (j := 0) (q := 0) (by rw [h3]; exact one_pos)
      (by rw [h2]; exact one_pos) (weightIrm_ones false 0) (weightIrm_ones false 0) (h5 false _).2 (h5 false [1, 1, 1, 1]).2
    rw [weightIrm_signal h2 h3 (h5 false _).2] at f1
    obtain rfl := Option.some.inj f1
    obtain ⟨k1, -⟩ := single_rep (irm_linear _).usualVsf h4 h2 (h5 false [1, 1, 1, 1]).2 (by rw [h3]; exact one_pos) (by positivity) f2 f3
    have hθ : some θ = some (weightedMean (fun _ : Fin 4 => (1 : ℝ)) fun _ => 1) := g1.symm.trans k1
    rw [Option.some.injEq] at hθ
    refine g3.trans (congrArg some ?_)
    rw [hθ]
    unfold weightedMean
    norm_num

/-- Two groups of different size. -/
def twoGroups (j : Fin 2) (i : Fin 4) : Bool := if j = 0 then decide ((i : ℕ) < 1) else decide (1 ≤ (i : ℕ))

/-- The columns of the data frame of the groups. -/
def twoCols : List (String × GCol 4) := [("a", .bool (twoGroups 0)), ("b", .bool (twoGroups 1))]

theorem twoCols_val (i : Fin 4) : colMatrix twoCols i (0 : Fin 2) = (if (i : ℕ) < 1 then 1 else 0) ∧
    colMatrix twoCols i (1 : Fin 2) = (if (i : ℕ) < 1 then 0 else 1) := by
  fin_cases i <;> simp [colMatrix, twoCols, twoGroups, GCol.values]

theorem twoCols_dummy : Dummy (colMatrix twoCols) := by
  intro i (j : Fin 2)
  obtain ⟨h0, h1⟩ := twoCols_val i
  fin_cases j
  · show colMatrix twoCols i (0 : Fin 2) = 0 ∨ colMatrix twoCols i (0 : Fin 2) = 1
    rw [h0]; split_ifs <;> simp
  · show colMatrix twoCols i (1 : Fin 2) = 0 ∨ colMatrix twoCols i (1 : Fin 2) = 1
    rw [h1]; split_ifs <;> simp

theorem twoCols_exclusive : Exclusive (colMatrix twoCols) := by
  have key : ∀ i, colMatrix twoCols i (0 : Fin 2) = 0 ∨ colMatrix twoCols i (1 : Fin 2) = 0 := fun i => by
    obtain ⟨h0, h1⟩ := twoCols_val i
    rw [h0, h1]
    split_ifs <;> simp
  intro i (j : Fin 2) (k : Fin 2) hjk
  fin_cases j <;> fin_cases k
  · exact absurd rfl hjk
  · exact key i
  · exact (key i).symm
  · exact absurd rfl hjk

theorem twoCols_ols (sig : Fin 4 → ℝ) : LeastSquares sig (colMatrix twoCols) (groupOls sig (colMatrix twoCols)) := by
  refine groupOls_spec sig twoCols_exclusive fun (j : Fin 2) => ?_
  fin_cases j
  · show ∑ i, colMatrix twoCols i (0 : Fin 2) ^ 2 ≠ 0
    simp only [(twoCols_val _).1, Fin.sum_univ_four]
    norm_num
  · show ∑ i, colMatrix twoCols i (1 : Fin 2) ^ 2 ≠ 0
    simp only [(twoCols_val _).2, Fin.sum_univ_four]
    norm_num

theorem twoGroups_card : (inGroup (twoGroups 1)).card = 3 := by decide

theorem twoGroups_weights (q : ℕ) : (⟨⟨[4], [0, 4 / 3, 4 / 3, 4 / 3]⟩, none⟩ : StoredWeights).at q =
    .ok (groupWeights (twoGroups 1), groupWeights (twoGroups 1)) := by
  have : (fun i : Fin 4 => ([0, 4 / 3, 4 / 3, 4 / 3] : List ℝ).getD i 0) = groupWeights (twoGroups 1) := by
    funext i
    unfold groupWeights
    rw [twoGroups_card]
    fin_cases i <;> simp [twoGroups]
  refine congrArg Except.ok (Prod.ext this this)

/-- `gate` succeeds for these groups. -/
theorem twoCols_gate {t : LinState 4 ℕ} (hr : t.nRep = 1) {sig : Fin 4 → ℝ} (hs : t.psiB 0 0 = some sig) :
    ∃ b : Blp 4 twoCols.length, IsGate groupOls t (boolFrame [("a", twoGroups 0), ("b", twoGroups 1)]) ⟨twoCols, b⟩ := by
  have hg : gateGroups (boolFrame [("a", twoGroups 0), ("b", twoGroups 1)]) = .ok twoCols := gateGroups_bool (by simp)
  refine ⟨⟨sig, twoCols.map Prod.fst, colMatrix twoCols, true, some (groupOls sig (colMatrix twoCols))⟩, sig, hs, ?_⟩
  unfold irmGate irmCate blpCreate
  rw [hg, hr]
  rfl

/-- The hypotheses of `C83_irm_group` and of `C83_apo_group` are met. -/
example (E : Ext) (F : Frame 4) : (∃ (s : LinState 4 ℕ) (b : Blp 4 2) (o : OlsRes 2),
      IsGate groupOls (fit F (irmSpec (weightIrm false [1, 1, 1, 1])) s {}).1
        (boolFrame [("a", twoGroups 0), ("b", twoGroups 1)]) ⟨twoCols, b⟩ ∧ b.model = some o ∧
      (fit F (irmSpec (weightIrm false [0, 4 / 3, 4 / 3, 4 / 3])) s {}).1.coef 0 = some (o.params 1) ∧
      (fit F (irmSpec (weightIrm false [0, 4 / 3, 4 / 3, 4 / 3])) s {}).1.se 0 = some (o.bse 1)) ∧
    ∃ (s : LinState 4 ℕ) (b : Blp 4 2) (o : OlsRes 2),
      IsGate groupOls (fit F (apoSpec (weightApo [1, 1, 1, 1])) s {}).1
        (boolFrame [("a", twoGroups 0), ("b", twoGroups 1)]) ⟨twoCols, b⟩ ∧ b.model = some o ∧
      (fit F (apoSpec (weightApo [0, 4 / 3, 4 / 3, 4 / 3])) s {}).1.coef 0 = some (o.params 1) ∧
      (fit F (apoSpec (weightApo [0, 4 / 3, 4 / 3, 4 / 3])) s {}).1.se 0 = some (o.bse 1) := by
  have hg : 0 < (inGroup (twoGroups 1)).card := by rw [twoGroups_card]; norm_num
  constructor
  · obtain ⟨s, h1, h2, h3, h4, h5⟩ := weightIrm_obj E F
    have hj : 0 < s.data.d.length := by rw [h3]; exact one_pos
    obtain ⟨c, o, -, -, e⟩ := fit_signal (h5 false [1, 1, 1, 1]).1 (j := 0) (k := 0) hj (by rw [h2]; exact one_pos)
    obtain ⟨b, hb⟩ := twoCols_gate (by rw [fit_nRep (h5 false [1, 1, 1, 1]).1, h2]) e
    obtain ⟨o, k1, k2, k3⟩ := C83_irm_group (F := F) (k := weightIrm false [1, 1, 1, 1]) (w' := ⟨⟨[4], [0, 4 / 3, 4 / 3, 4 / 3]⟩, none⟩) rfl rfl
      hg (weightIrm_ones false 0) (twoGroups_weights 0) h4 (SameObject.refl s) h2 hj (h5 false _).1 (h5 false [0, 4 / 3, 4 / 3, 4 / 3]).1 hb
      twoCols_exclusive twoCols_dummy twoCols_ols (l := (1 : Fin 2)) rfl
    exact ⟨s, b, o, hb, k1, k2, k3⟩
  · obtain ⟨s, h1, h2, h3, h4, h5⟩ := weightApo_obj E F
    have hj : 0 < s.data.d.length := by rw [h3]; exact one_pos
    obtain ⟨c, o, -, -, e⟩ := fit_signal (h5 [1, 1, 1, 1]) (j := 0) (k := 0) hj (by rw [h2]; exact one_pos)
    obtain ⟨b, hb⟩ := twoCols_gate (by rw [fit_nRep (h5 [1, 1, 1, 1]), h2]) e
    obtain ⟨o, k1, k2, k3⟩ := C83_apo_group (F := F) (k := weightApo [1, 1, 1, 1]) (w' := ⟨⟨[4], [0, 4 / 3, 4 / 3, 4 / 3]⟩, none⟩) rfl
      hg (weightIrm_ones false 0) (twoGroups_weights 0) h4 (SameObject.refl s) h2 hj (h5 _) (h5 [0, 4 / 3, 4 / 3, 4 / 3]) hb
      twoCols_exclusive twoCols_dummy twoCols_ols (l := (1 : Fin 2)) rfl
    exact ⟨s, b, o, hb, k1, k2, k3⟩

/-- The hypotheses of `C83_atte_parts` are met; the weights are accepted. -/
example (E : Ext) (F : Frame 4) : ∃ (s : LinState 4 ℕ) (θ θ₁ θ₂ : ℝ),
    initWeights (.arr ⟨[4], [1, 1, 0, 0]⟩) .atte 4 1 = .ok (weightIrm true [1, 1, 0, 0]).weights ∧
    ((fit F (irmSpec (weightIrm true [1, 1, 1, 1])) s {}).1.heap (fit F (irmSpec (weightIrm true [1, 1, 1, 1])) s {}).1.arr).coef 0 0 = some θ ∧
    ((fit F (irmSpec (weightIrm true [1, 1, 0, 0])) s {}).1.heap (fit F (irmSpec (weightIrm true [1, 1, 0, 0])) s {}).1.arr).coef 0 0 = some θ₁ ∧
    ((fit F (irmSpec (weightIrm true [0, 0, 1, 1])) s {}).1.heap (fit F (irmSpec (weightIrm true [0, 0, 1, 1])) s {}).1.arr).coef 0 0 = some θ₂ ∧
    θ = (1 * θ₁ + 1 * θ₂) / (1 + 1) := by
  obtain ⟨s, h1, h2, h3, h4, h5⟩ := weightIrm_obj E F
  have hdv : ∀ i, (s.data.dv i).val = ![(0 : ℝ), 1, 0, 1] i := fun i => by rw [h3]; rfl
  obtain ⟨θ, θ₁, θ₂, k⟩ := C83_atte_parts (F := F) (k := weightIrm true [1, 1, 1, 1]) (w₁ := ⟨⟨[4], [1, 1, 0, 0]⟩, none⟩)
    (w₂ := ⟨⟨[4], [0, 0, 1, 1]⟩, none⟩) (gr := fun i : Fin 4 => decide ((i : ℕ) < 2)) (a := {}) rfl rfl (SameObject.refl s) (SameObject.refl s)
    (by norm_num) (by rw [h3]; rfl) (q := 0) (by rw [h2]; exact one_pos) (fun i => by fin_cases i <;> rfl)
    (fun i => by fin_cases i <;> simp) (fun i => by fin_cases i <;> simp) (n₁ := 1) (n₂ := 1)
    (by simp only [hdv, Finset.sum_filter, Fin.sum_univ_four]; simp) (by simp only [hdv, Finset.sum_filter, Fin.sum_univ_four]; simp)
    one_ne_zero one_ne_zero (by norm_num) (h5 true _).1 (h5 true [1, 1, 0, 0]).1 (h5 true [0, 0, 1, 1]).1
  refine ⟨s, θ, θ₁, θ₂, ?_, k⟩
  unfold initWeights checkWeights checkWeightArray checkWeightAtte initWeights.store
  norm_num
  rfl

end DML
