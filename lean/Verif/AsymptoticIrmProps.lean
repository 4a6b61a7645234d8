import Verif.AsymptoticProps
import Verif.LimitArm

/-!
# Large-sample properties of fitted interactive models (C79)
-/

namespace DML

open MeasureTheory ProbabilityTheory Filter Topology
open scoped ENNReal

variable {Ω : Type*} {mΩ : MeasurableSpace Ω} {S : Type*} [MeasurableSpace S] {𝒳 : Type*} [MeasurableSpace 𝒳] {Q : Type}
  {E : Ext} {P : Measure Ω} {W : ℕ → Ω → S} {r K : ℕ} {tv : String} {y d : S → ℝ} {ξ : S → 𝒳} {enc : 𝒳 → List Cell}

/-! ## Trimmed propensities -/

theorem trim_mem {τ : ℝ} (hτ : τ ≤ 1 - τ) (v : ℝ) : τ ≤ trim τ v ∧ trim τ v ≤ 1 - τ :=
  ⟨le_min hτ (le_max_right _ _), min_le_left _ _⟩

theorem trim_close {τ v m : ℝ} (h : τ ≤ m ∧ m ≤ 1 - τ) : |trim τ v - m| ≤ |v - m| := by
  unfold trim
  have h1 := abs_min_sub_min_le_max (1 - τ) (max v τ) (1 - τ) (max m τ)
  have h0 : max |(1 - τ) - (1 - τ)| |max v τ - max m τ| = |max v τ - max m τ| := by
    rw [sub_self, abs_zero]
    exact max_eq_right (abs_nonneg _)
  rw [h0, max_eq_left h.1, min_eq_right h.2] at h1
  refine h1.trans ?_
  have h2 := abs_max_sub_max_le_abs v m τ
  rwa [max_eq_left h.1] at h2

theorem measurable_trim (τ : ℝ) : Measurable (trim τ) := measurable_const.min (measurable_id.max measurable_const)

section Trim

variable {s : ℕ} {St : S → Fin s} {c : ∀ n, (Fin n → Fin s) → Scheme K n} {gh mh : ∀ n, Fin K → (Fin n → S) → 𝒳 → ℝ}
  {u : S → ℝ} {g m : 𝒳 → ℝ} {τ : ℝ}

/-- The doubly robust signal of an arm with trimmed propensities. -/
theorem armPart_trim [IsProbabilityMeasure P] (hW : Iid P W) (law : ArmLaw (P.map (W 0)) y u ξ g m τ 4) (hτ : ∀ x, m x ≤ 1 - τ)
    (hg : Honest ξ St c gh) (hm : Honest ξ St c mh) (eg : ∀ k, oPE P (errNorm P W ξ gh g 2 k))
    (em : ∀ k, oPE P (errNorm P W ξ mh m 2 k))
    (rate : ∀ k, oPE P fun n ω => ENNReal.ofReal (Real.sqrt n) * (errNorm P W ξ mh m 2 k n ω * errNorm P W ξ gh g 2 k n ω)) :
    Part P W St c (fun n k t => armVal y u ξ (gh n k t) fun x => trim τ (mh n k t x)) (armVal y u ξ g m) := by
  have hov : ∀ x, τ ≤ m x ∧ m x ≤ 1 - τ := fun x => ⟨(law.overlap x).1, hτ x⟩
  have hle : ∀ k n ω, errNorm P W ξ (fun n k t x => trim τ (mh n k t x)) m 2 k n ω ≤ errNorm P W ξ mh m 2 k n ω := fun k n ω => by
    refine errNorm_post (fh := mh) (fun v x => ?_) 2 k n ω
    exact trim_close (hov x)
  refine armPart hW law hg (hm.post (measurable_trim τ)) (fun n k t x => ?_) eg (fun k => (em k).mono (hle k))
    fun k => (rate k).mono fun n ω => mul_le_mul_right (mul_le_mul_left (hle k n ω) _) _
  have h1 := trim_mem ((hov x).1.trans (hov x).2) (mh n k t x)
  exact ⟨h1.1, by linarith [law.pos]⟩

/-- The signal of an arm `z = 0` with trimmed propensities. -/
theorem armPart_trim0 [IsProbabilityMeasure P] {s : ℕ} {St : S → Fin s} {c : ∀ n, (Fin n → Fin s) → Scheme K n}
    {gh mh : ∀ n, Fin K → (Fin n → S) → 𝒳 → ℝ} {x u : S → ℝ} {g m : 𝒳 → ℝ} {τ : ℝ} (hW : Iid P W)
    (law : ArmLaw (P.map (W 0)) x (fun w => 1 - u w) ξ g (fun x => 1 - m x) τ 4) (hτ : ∀ x, τ ≤ m x)
    (hg : Honest ξ St c gh) (hm : Honest ξ St c mh) (eg : ∀ k, oPE P (errNorm P W ξ gh g 2 k))
    (em : ∀ k, oPE P (errNorm P W ξ mh m 2 k))
    (rate : ∀ k, oPE P fun n ω => ENNReal.ofReal (Real.sqrt n) * (errNorm P W ξ mh m 2 k n ω * errNorm P W ξ gh g 2 k n ω)) :
    Part P W St c (fun n k t => armVal x (fun w => 1 - u w) ξ (gh n k t) fun x => 1 - trim τ (mh n k t x))
      (armVal x (fun w => 1 - u w) ξ g fun x => 1 - m x) := by
  have hov : ∀ x, τ ≤ m x ∧ m x ≤ 1 - τ := fun x => ⟨hτ x, by linarith [(law.overlap x).1]⟩
  have hle : ∀ j n ω, errNorm P W ξ (fun n j t x => 1 - trim τ (mh n j t x)) (fun x => 1 - m x) 2 j n ω ≤
      errNorm P W ξ mh m 2 j n ω := fun j n ω => by
    refine errNorm_post (fh := mh) (φ := fun v => 1 - trim τ v) (fun v x => ?_) 2 j n ω
    have e : 1 - trim τ v - (1 - m x) = -(trim τ v - m x) := by ring
    rw [e, abs_neg]
    exact trim_close (hov x)
  refine armPart hW law hg (hm.post (φ := fun v => 1 - trim τ v) (measurable_const.sub (measurable_trim τ)))
    (fun n j t x => ?_) eg (fun j => (em j).mono (hle j))
    fun j => (rate j).mono fun n ω => mul_le_mul_right (mul_le_mul_left (hle j n ω) _) _
  have h1 := trim_mem ((hov x).1.trans (hov x).2) (mh n j t x)
  show τ ≤ 1 - trim τ (mh n j t x) ∧ 1 - trim τ (mh n j t x) ≤ 1
  constructor <;> linarith [law.pos]

end Trim

/-! ## The interactive regression model -/

theorem EveryFold.binary {n : ℕ} {T : List (Fold n)} {on : Fin n → Prop} {v : Fin n → ℝ} (h : EveryFold T on v) (hK : 0 < K)
    (hT : CrossSplit K T) (hv : ∀ i, v i = 0 ∨ v i = 1) : BinaryTarget v := by
  obtain ⟨⟨i, -, -, hi⟩, ⟨j, -, -, hj⟩⟩ := h _ (List.getElem_mem (n := 0) (by rw [hT.length]; exact hK))
  exact ⟨hv, ⟨i, hi⟩, ⟨j, hj⟩⟩

theorem binary_of_every {n : ℕ} {L : List (List (Fold n))} {on : Fin n → Prop} {v : Fin n → ℝ} (h : ∀ T ∈ L, EveryFold T on v)
    (hr : 0 < r) (hK : 0 < K) (hl : L.length = r) (hT : ∀ T ∈ L, CrossSplit K T) (hv : ∀ i, v i = 0 ∨ v i = 1) : BinaryTarget v :=
  have hm : L[0]'(by rw [hl]; exact hr) ∈ L := List.getElem_mem _
  (h _ hm).binary hK (hT _ hm) hv

open Classical in
/-- Some training set of some repetition has no observation with `v = 0` or none with `v = 1` among those satisfying `on`. -/
def Lacking {sp : ∀ n, LinSpec n Q} (H : Study E P W r K sp tv y d ξ enc) (on : S → Prop) (v : S → ℝ) (n : ℕ) : Set Ω :=
  {ω | ¬ ∀ T ∈ H.splitsAt n ω, EveryFold T (fun i => on (W i ω)) fun i => v (W i ω)}

section Irm

variable {k : ∀ n, IrmClass n Q} (H : Study E P W r K (fun n => irmSpec (k n)) tv y d ξ enc)

open Classical in
/-- The functions fitted by `ml_g` among the untreated in repetition `q`. -/
noncomputable def irmG0hat (q : Fin r) : ∀ n, Fin K → (Fin n → S) → 𝒳 → ℝ :=
  H.learned (fun n => (k n).ml_g) .predict "ml_g0" y (fun w => d w = 0) q

open Classical in
/-- The functions fitted by `ml_g` among the treated in repetition `q`. -/
noncomputable def irmG1hat (q : Fin r) : ∀ n, Fin K → (Fin n → S) → 𝒳 → ℝ :=
  H.learned (fun n => (k n).ml_g) .predict "ml_g1" y (fun w => d w = 1) q

/-- The functions fitted by `ml_m` in repetition `q`. -/
noncomputable def irmMhat (q : Fin r) : ∀ n, Fin K → (Fin n → S) → 𝒳 → ℝ :=
  H.learned (fun n => (k n).ml_m) .proba "ml_m" d (fun _ => True) q

/-- The values of one repetition. -/
structure IrmValues (τ : ℝ) (n : ℕ) (ω : Ω) (q : Fin r) (c : CellIn n Q) (o : LinOut n Q) : Prop where
  fit : ∃ w : (Fin n → ℝ) × (Fin n → ℝ), irmWeights (k n) c (fun i => trim τ (irmMhat H q n (H.foldOf q n ω i) (sample W n ω) (ξ (W i ω)))) = .ok w ∧
    o.fit = (irmElems (fun i => y (W i ω)) (fun i => d (W i ω))
      (fun i => irmG0hat H q n (H.foldOf q n ω i) (sample W n ω) (ξ (W i ω)))
      (fun i => irmG1hat H q n (H.foldOf q n ω i) (sample W n ω) (ξ (W i ω)))
      (fun i => trim τ (irmMhat H q n (H.foldOf q n ω i) (sample W n ω) (ξ (W i ω)))) w.1 w.2).fit none

variable {H}

/-- The values of one repetition, whether the weights are normalised or not. -/
theorem irmAdjusted {τ : ℝ} {n : ℕ} (hg : (k n).gClassifier = false) (ht : (k n).trimT = τ)
    (hvars : (k n).vars = none) (hm : (k n).ml_m.Compliant) (hd : ∀ w, d w = 0 ∨ d w = 1) {ω : Ω} (hω : ω ∉ Lacking H (fun _ => True) d n)
    {q : Fin r} {c : CellIn n Q} {o : LinOut n Q} (hc : H.Run n ω q c) (ho : (irmSpec (k n)).est c = .ok o) {M : Fin n → ℝ}
    (hM : M = adjust (k n).normalize (fun i => trim τ (irmMhat H q n (H.foldOf q n ω i) (sample W n ω) (ξ (W i ω)))) fun i => d (W i ω)) :
    ∃ w : (Fin n → ℝ) × (Fin n → ℝ), irmWeights (k n) c M = .ok w ∧
      o.fit = (irmElems (fun i => y (W i ω)) (fun i => d (W i ω))
        (fun i => irmG0hat H q n (H.foldOf q n ω i) (sample W n ω) (ξ (W i ω)))
        (fun i => irmG1hat H q n (H.foldOf q n ω i) (sample W n ω) (ξ (W i ω))) M w.1 w.2).fit none := by
  have hst := C27_irm hc.cross.ok ho
  obtain ⟨p0, hp0, r0⟩ := hst.1 (hc.noExt _)
  obtain ⟨p1, hp1, r1⟩ := hst.2.1 (hc.noExt _)
  obtain ⟨pm, hpm, rm⟩ := hst.2.2 (hc.noExt _)
  rw [hg] at r0 r1
  have hev : EveryFold c.smpls (fun _ => True) fun i => d (W i ω) := by
    have := not_not.1 hω
    exact this _ (List.mem_of_getElem? hc.split)
  have ed : c.d = fun i : Fin n => d (W i ω) := funext hc.d
  have ey : c.y = fun i : Fin n => y (W i ω) := funext hc.y
  have v0 := fun i => hc.predict (L := fun n => (k n).ml_g) (u := y) (on := fun w => d w = 0) (by simp [irmSpec]) r0
    (fun i => by rw [hc.d i]) hc.y i
  have v1 := fun i => hc.predict (L := fun n => (k n).ml_g) (u := y) (on := fun w => d w = 1) (by simp [irmSpec]) r1
    (fun i => by rw [hc.d i]) hc.y i
  have vm := fun i => hc.pred (L := fun n => (k n).ml_m) (m := .proba) (u := d) (on := fun _ => True) (by simp [irmSpec]) rm
    (fun _ => Iff.rfl) hc.d (fun f hf _ => ⟨hm, by rw [ed]; exact hev.binary H.folds hc.cross fun i => hd _, by
      obtain ⟨⟨i, hi, -, h1⟩, ⟨j, hj, -, h2⟩⟩ := hev f hf
      exact ⟨⟨i, by simpa using hi, by rw [ed]; exact h1⟩, ⟨j, by simpa using hj, by rw [ed]; exact h2⟩⟩⟩) i
  obtain ⟨g0, -, ho⟩ := bind_ok ho
  obtain ⟨g1, -, ho⟩ := bind_ok ho
  obtain ⟨_, -, ho⟩ := bind_ok ho
  obtain ⟨m, -, ho⟩ := bind_ok ho
  obtain ⟨w, hw, ho⟩ := bind_ok ho
  obtain rfl := Except.ok.inj ho
  obtain rfl : g0.preds = p0 := Option.some.inj hp0
  obtain rfl : g1.preds = p1 := Option.some.inj hp1
  obtain rfl : (trimRes (k n).trimT m).preds = pm := Option.some.inj hpm
  have e0 : g0.vec = fun i => irmG0hat H q n (H.foldOf q n ω i) (sample W n ω) (ξ (W i ω)) := funext v0
  have e1 : g1.vec = fun i => irmG1hat H q n (H.foldOf q n ω i) (sample W n ω) (ξ (W i ω)) := funext v1
  have em : (trimRes (k n).trimT m).vec = fun i => trim τ (irmMhat H q n (H.foldOf q n ω i) (sample W n ω) (ξ (W i ω))) := by
    rw [← ht]
    exact funext vm
  have ea : adjust (k n).normalize (trimRes (k n).trimT m).vec c.d = M := by
    rw [hM, em, ed]
  rw [ea] at hw
  refine ⟨w, hw, ?_⟩
  show (irmElems c.y c.d g0.vec g1.vec (adjust (k n).normalize (trimRes (k n).trimT m).vec c.d) w.1 w.2).fit c.cluster = _
  rw [ea, hc.src.noCluster hvars, ed, ey, e0, e1]

theorem irmValues {τ : ℝ} {n : ℕ} (hg : (k n).gClassifier = false) (hn : (k n).normalize = false) (ht : (k n).trimT = τ)
    (hvars : (k n).vars = none) (hm : (k n).ml_m.Compliant) (hd : ∀ w, d w = 0 ∨ d w = 1) {ω : Ω} (hω : ω ∉ Lacking H (fun _ => True) d n)
    {q : Fin r} {c : CellIn n Q} {o : LinOut n Q} (hc : H.Run n ω q c) (ho : (irmSpec (k n)).est c = .ok o) :
    IrmValues H τ n ω q c o :=
  ⟨irmAdjusted hg ht hvars hm hd hω hc ho (by rw [hn]; rfl)⟩

/-- Fits succeed unless a training set lacks a group. -/
theorem irm_fits (hg : ∀ n, (k n).gClassifier = false) (hvars : ∀ n, (k n).vars = none)
    (hw : ∀ n q, (k n).weights.at q = .ok (fun _ : Fin n => 1, fun _ => 1)) (hm : ∀ n, (k n).ml_m.Compliant)
    (hbin : ∀ᶠ n in atTop, ∀ ω, (H.D n ω).binOut = false) (hd : ∀ w, d w = 0 ∨ d w = 1) :
    ∀ᶠ n in atTop, ∀ ω, ω ∉ Lacking H (fun _ => True) d n →
      (fit (H.F n ω) (irmSpec (k n)) (H.obj n ω) H.args).2 = .ok () := by
  filter_upwards [H.reached, H.smpls, hbin, H.treatment, H.split] with n h1 h2 h3 h4 h5 ω hω
  have ed : nums (H.D n ω).dv = fun i : Fin n => d (W i ω) := funext fun i => by
    show ((H.D n ω).dv i).val = _
    rw [h4 ω i]
    rfl
  refine C63_irm (hvars n) (hg n) (hm n) (h3 ω) ?_ (h1 ω) (h2 ω) ?_ (fun q _ => ⟨_, hw n q⟩) (H.valid n _)
  · rw [ed]
    exact binary_of_every (not_not.1 hω) H.reps H.folds (h5 ω).1 (h5 ω).2 fun i => hd _
  · rw [ed]
    exact not_not.1 hω

variable (H)

/-- What is asked of the learners of the interactive model for the untreated: their answers are measurable, the errors vanish
and the product of the errors vanishes faster than `1/√n`, in probability, for every repetition and fold. -/
structure IrmRates0 (g₀ m₀ : 𝒳 → ℝ) : Prop where
  measG : ∀ n, MeasLearner (k n).ml_g .predict enc
  measM : ∀ n, MeasLearner (k n).ml_m .proba enc
  errG : ∀ q j, oPE P (errNorm P W ξ (irmG0hat H q) g₀ 2 j)
  errM : ∀ q j, oPE P (errNorm P W ξ (irmMhat H q) m₀ 2 j)
  rate : ∀ q j, oPE P fun n ω => ENNReal.ofReal (Real.sqrt n) * (errNorm P W ξ (irmMhat H q) m₀ 2 j n ω *
    errNorm P W ξ (irmG0hat H q) g₀ 2 j n ω)

/-- The same for both groups. -/
structure IrmRates (g₀ g₁ m₀ : 𝒳 → ℝ) : Prop where
  untreated : IrmRates0 H g₀ m₀
  errG1 : ∀ q j, oPE P (errNorm P W ξ (irmG1hat H q) g₁ 2 j)
  rate1 : ∀ q j, oPE P fun n ω => ENNReal.ofReal (Real.sqrt n) * (errNorm P W ξ (irmMhat H q) m₀ 2 j n ω *
    errNorm P W ξ (irmG1hat H q) g₁ 2 j n ω)

variable {H}

/-- The signal of the untreated. -/
theorem irmPart0 [IsProbabilityMeasure P] {g₀ m : 𝒳 → ℝ} {τ : ℝ}
    (law : ArmLaw (P.map (W 0)) y (fun w => 1 - d w) ξ g₀ (fun x => 1 - m x) τ 4) (hτ : ∀ x, τ ≤ m x) (hL : IrmRates0 H g₀ m) (q : Fin r) :
    Part P W H.St (H.scheme q) (fun n j t => armVal y (fun w => 1 - d w) ξ (irmG0hat H q n j t) fun x =>
      1 - trim τ (irmMhat H q n j t x)) (armVal y (fun w => 1 - d w) ξ g₀ fun x => 1 - m x) := by
  classical
  have hM := Study.honest (H := H) hL.measM "ml_m" H.measD MeasurableSet.univ q (on := fun _ => True)
  have hG := Study.honest (H := H) hL.measG "ml_g0" H.measY (H.measD (measurableSet_singleton 0)) q (on := fun w => d w = 0)
  exact armPart_trim0 H.iid law hτ hG hM (hL.errG q) (hL.errM q) (hL.rate q)

/-- The signal of the treated. -/
theorem irmPart1 [IsProbabilityMeasure P] {g₀ g₁ m : 𝒳 → ℝ} {τ : ℝ} (law : ArmLaw (P.map (W 0)) y d ξ g₁ m τ 4)
    (hτ : ∀ x, m x ≤ 1 - τ) (hL : IrmRates H g₀ g₁ m) (q : Fin r) :
    Part P W H.St (H.scheme q) (fun n j t => armVal y d ξ (irmG1hat H q n j t) fun x =>
      trim τ (irmMhat H q n j t x)) (armVal y d ξ g₁ m) := by
  classical
  have hM := Study.honest (H := H) hL.untreated.measM "ml_m" H.measD MeasurableSet.univ q (on := fun _ => True)
  have hG := Study.honest (H := H) hL.untreated.measG "ml_g1" H.measY (H.measD (measurableSet_singleton 1)) q (on := fun w => d w = 1)
  exact armPart_trim H.iid law hτ hG hM (hL.errG1 q) (hL.untreated.errM q) (hL.rate1 q)

/-- **C79, IRM, average treatment effect.** -/
theorem C79_irm_ate [IsProbabilityMeasure P] {τ : ℝ} (hatte : ∀ n, (k n).atte = false) (hg : ∀ n, (k n).gClassifier = false)
    (hn : ∀ n, (k n).normalize = false) (ht : ∀ n, (k n).trimT = τ) (hvars : ∀ n, (k n).vars = none)
    (hw : ∀ n q, (k n).weights.at q = .ok (fun _ : Fin n => 1, fun _ => 1)) (hm : ∀ n, (k n).ml_m.Compliant)
    (hbin : ∀ᶠ n in atTop, ∀ ω, (H.D n ω).binOut = false)
    (hboth : Tendsto (fun n => P (Lacking H (fun _ => True) d n)) atTop (𝓝 0))
    {g₀ g₁ m : 𝒳 → ℝ} (law : IrmLaw (P.map (W 0)) y d ξ g₀ g₁ m τ 4)
    {θ : ℝ} (hθ : θ = ∫ w, (g₁ (ξ w) - g₀ (ξ w)) ∂(P.map (W 0)))
    (hV : ∫ w, (g₁ (ξ w) - g₀ (ξ w) + d w * (y w - g₁ (ξ w)) / m (ξ w) - (1 - d w) * (y w - g₀ (ξ w)) / (1 - m (ξ w)) - θ) ^ 2
      ∂(P.map (W 0)) ≠ 0) (hL : IrmRates H g₀ g₁ m) :
    AsympValid E P W r H.fitted θ (Real.sqrt (∫ w, (g₁ (ξ w) - g₀ (ξ w) + d w * (y w - g₁ (ξ w)) / m (ξ w) -
      (1 - d w) * (y w - g₀ (ξ w)) / (1 - m (ξ w)) - θ) ^ 2 ∂(P.map (W 0)))) := by
  have hμ : IsProbabilityMeasure (P.map (W 0)) := Measure.isProbabilityMeasure_map (H.iid.meas 0).aemeasurable
  have a1 := law.treated (by norm_num)
  have a0 := law.untreated (by norm_num)
  have e1 : ∀ w, -1 * θ + (armVal y d ξ g₁ m w - armVal y (fun w => 1 - d w) ξ g₀ (fun x => 1 - m x) w) =
      g₁ (ξ w) - g₀ (ξ w) + d w * (y w - g₁ (ξ w)) / m (ξ w) - (1 - d w) * (y w - g₀ (ξ w)) / (1 - m (ξ w)) - θ := fun w => by
    unfold armVal
    ring
  have hsd : Real.sqrt (∫ w, (g₁ (ξ w) - g₀ (ξ w) + d w * (y w - g₁ (ξ w)) / m (ξ w) -
      (1 - d w) * (y w - g₀ (ξ w)) / (1 - m (ξ w)) - θ) ^ 2 ∂(P.map (W 0))) = asySd (P.map (W 0)) (fun _ => -1)
        (fun w => armVal y d ξ g₁ m w - armVal y (fun w => 1 - d w) ξ g₀ (fun x => 1 - m x) w) θ := by
    unfold asySd
    simp only [e1]
    simp
  rw [hsd]
  have a1' := a1.mono (q := 2) (by norm_num)
  have a0' := a0.mono (q := 2) (by norm_num)
  refine H.asymp (bad := Lacking H (fun _ => True) d) (fun q => Part.regular H.iid H.measSt (Study.balancedScheme q)
    (Part.fixed measurable_const (memLp_const _)) ((irmPart1 a1 (fun x => (law.overlap x).2) hL q).sub H.iid
      (irmPart0 a0 (fun x => (law.overlap x).1) hL.untreated q)) (by simp) ?_) ?_ (fun n => LinearScoreClass.usualVsf (.irm _)) hvars hboth ?_ ?_
  · have i1 := a1'.mem.integrable one_le_two
    have i0 := a0'.mem.integrable one_le_two
    have i2 : Integrable (fun w => armVal y d ξ g₁ m w - armVal y (fun w => 1 - d w) ξ g₀ (fun x => 1 - m x) w) (P.map (W 0)) := i1.sub i0
    rw [integral_add (integrable_const _) i2, integral_sub i1 i0, a1'.integral_eq, a0'.integral_eq, hθ,
      integral_sub (a1'.memG.integrable one_le_two) (a0'.memG.integrable one_le_two)]
    simp
  · simpa only [e1] using hV
  · exact irm_fits hg hvars hw hm hbin law.binary
  · refine Eventually.of_forall fun n ω hω q c o hc ho => ?_
    obtain ⟨w, hw', hf⟩ := (irmValues (hg n) (hn n) (ht n) (hvars n) (hm n) law.binary hω hc ho).fit
    unfold irmWeights at hw'
    rw [hatte n, if_neg (by simp), hw n] at hw'
    obtain rfl := Except.ok.inj hw'
    refine rep_of_elems rfl hf ?_
    unfold irmElems
    simp only [PsiElems.mk.injEq]
    refine ⟨funext fun i => ?_, funext fun i => ?_⟩
    · have : mean (fun _ : Fin n => (1 : ℝ)) = 1 := by
        unfold mean
        have : (n : ℝ) ≠ 0 := by
          have := i.pos
          positivity
        simp [this]
      rw [this]
      show _ = (-1 : ℝ)
      norm_num
    · show _ = armVal y d ξ (irmG1hat H q n (H.foldOf q n ω i) (sample W n ω)) (fun x => trim τ (irmMhat H q n (H.foldOf q n ω i) (sample W n ω) x)) (W i ω) -
        armVal y (fun w => 1 - d w) ξ (irmG0hat H q n (H.foldOf q n ω i) (sample W n ω))
          (fun x => 1 - trim τ (irmMhat H q n (H.foldOf q n ω i) (sample W n ω) x)) (W i ω)
      unfold armVal
      ring

/-- **C79, IRM, average treatment effect for the treated.** Only the untreated need to be modelled. -/
theorem C79_irm_atte [IsProbabilityMeasure P] {τ : ℝ} (hatte : ∀ n, (k n).atte = true) (hg : ∀ n, (k n).gClassifier = false)
    (hn : ∀ n, (k n).normalize = false) (ht : ∀ n, (k n).trimT = τ) (hvars : ∀ n, (k n).vars = none)
    (hw : ∀ n q, (k n).weights.at q = .ok (fun _ : Fin n => 1, fun _ => 1))
    (hw1 : ∀ n, ∀ i : Fin n, (k n).weights.weights.entries.getD i 0 = 1) (hm : ∀ n, (k n).ml_m.Compliant)
    (hbin : ∀ᶠ n in atTop, ∀ ω, (H.D n ω).binOut = false)
    (hboth : Tendsto (fun n => P (Lacking H (fun _ => True) d n)) atTop (𝓝 0))
    {g₀ m : 𝒳 → ℝ} (law : ArmLaw (P.map (W 0)) y (fun w => 1 - d w) ξ g₀ (fun x => 1 - m x) τ 4) (hτ : ∀ x, τ ≤ m x)
    (hd : ∀ w, d w = 0 ∨ d w = 1) (hy : MemLp y 2 (P.map (W 0)))
    {θ : ℝ} (hp : ∫ w, d w ∂(P.map (W 0)) ≠ 0) (hθ : θ = (∫ w, d w * (y w - g₀ (ξ w)) ∂(P.map (W 0))) / ∫ w, d w ∂(P.map (W 0)))
    (hV : ∫ w, (d w * (y w - g₀ (ξ w) - θ) - m (ξ w) * (1 - d w) * (y w - g₀ (ξ w)) / (1 - m (ξ w))) ^ 2
      ∂(P.map (W 0)) ≠ 0) (hL : IrmRates0 H g₀ m) :
    AsympValid E P W r H.fitted θ (Real.sqrt (∫ w, (d w * (y w - g₀ (ξ w) - θ) -
      m (ξ w) * (1 - d w) * (y w - g₀ (ξ w)) / (1 - m (ξ w))) ^ 2 ∂(P.map (W 0))) / ∫ w, d w ∂(P.map (W 0))) := by
  have hμ : IsProbabilityMeasure (P.map (W 0)) := Measure.isProbabilityMeasure_map (H.iid.meas 0).aemeasurable
  have hdb : ∀ w, |d w| ≤ 1 := fun w => by rcases hd w with e | e <;> simp [e]
  have hd0 : ∀ w, 0 ≤ d w := fun w => by rcases hd w with e | e <;> simp [e]
  have hm1 : ∀ w, 1 - m (ξ w) ≠ 0 := fun w => (law.pos.trans_le (law.overlap (ξ w)).1).ne'
  have e1 : ∀ w, -d w * θ + (y w - armVal y (fun w => 1 - d w) ξ g₀ (fun x => 1 - m x) w) =
      d w * (y w - g₀ (ξ w) - θ) - m (ξ w) * (1 - d w) * (y w - g₀ (ξ w)) / (1 - m (ξ w)) := fun w => by
    simp only [armVal]
    have := hm1 w
    rcases hd w with e | e <;> rw [e] <;> field_simp <;> ring
  have hsd : Real.sqrt (∫ w, (d w * (y w - g₀ (ξ w) - θ) - m (ξ w) * (1 - d w) * (y w - g₀ (ξ w)) / (1 - m (ξ w))) ^ 2
      ∂(P.map (W 0))) / ∫ w, d w ∂(P.map (W 0)) = asySd (P.map (W 0)) (fun w => -d w)
        (fun w => y w - armVal y (fun w => 1 - d w) ξ g₀ (fun x => 1 - m x) w) θ := by
    unfold asySd
    simp only [e1]
    rw [integral_neg, abs_neg, abs_of_nonneg (integral_nonneg hd0)]
  rw [hsd]
  have law2 := law.mono (q := 2) (by norm_num)
  have md : MemLp d 2 (P.map (W 0)) := memLp_of_bdd H.measD hdb
  refine H.asymp (bad := Lacking H (fun _ => True) d) (fun q => Part.regular H.iid H.measSt (Study.balancedScheme q)
    (Part.fixed H.measD.neg md.neg) ((Part.fixed H.measY hy).sub H.iid (irmPart0 law hτ hL q)) ?_ ?_) ?_
      (fun n => LinearScoreClass.usualVsf (.irm _)) hvars hboth ?_ ?_
  · rw [integral_neg]
    exact neg_ne_zero.2 hp
  · have iy := hy.integrable one_le_two
    have i0 := law2.mem.integrable one_le_two
    have ig := law2.memG.integrable one_le_two
    have i2 : Integrable (fun w => y w - armVal y (fun w => 1 - d w) ξ g₀ (fun x => 1 - m x) w) (P.map (W 0)) := iy.sub i0
    have i3 : Integrable (fun w => -d w * θ) (P.map (W 0)) := (md.neg.integrable one_le_two).mul_const θ
    have n1 : Null (P.map (W 0)) fun w => (1 - d w) * (y w - g₀ (ξ w)) :=
      ⟨law2.memNoise.integrable one_le_two, law2.noise.integral_eq law2.measX (law2.memNoise.integrable one_le_two)⟩
    have i4 : Integrable (fun w => d w * (y w - g₀ (ξ w))) (P.map (W 0)) := md.integrable_mul (hy.sub law2.memG)
    have h4 : ∫ w, (y w - g₀ (ξ w)) ∂(P.map (W 0)) = ∫ w, d w * (y w - g₀ (ξ w)) ∂(P.map (W 0)) :=
      n1.integral_eq i4 fun w => by ring
    have h5 := integral_sub iy ig
    rw [integral_add i3 i2, integral_sub iy i0, law2.integral_eq, integral_mul_const, integral_neg, ← h5, h4, hθ]
    field_simp
    ring
  · simpa only [e1] using hV
  · exact irm_fits hg hvars hw hm hbin hd
  · refine Eventually.of_forall fun n ω hω q c o hc ho => ?_
    obtain ⟨w, hw', hf⟩ := (irmValues (hg n) (hn n) (ht n) (hvars n) (hm n) hd hω hc ho).fit
    unfold irmWeights at hw'
    rw [hatte n, if_pos rfl] at hw'
    obtain rfl := Except.ok.inj hw'
    have hev : EveryFold c.smpls (fun _ => True) fun i => d (W i ω) := (not_not.1 hω) _ (List.mem_of_getElem? hc.split)
    have hbt := hev.binary H.folds hc.cross fun i => hd _
    have ew : ∀ i : Fin n, (k n).weights.weights.entries.getD i 0 * c.d i = d (W i ω) := fun i => by rw [hw1, hc.d i, one_mul]
    have ep : (mean fun i : Fin n => (k n).weights.weights.entries.getD i 0 * c.d i) = mean fun i : Fin n => d (W i ω) := by
      simp only [ew]
    have hn0 : (n : ℝ) ≠ 0 := by
      have := hbt.one.choose.pos
      positivity
    have hp0 : (mean fun i : Fin n => d (W i ω)) ≠ 0 := by
      obtain ⟨j, hj⟩ := hbt.one
      unfold mean
      refine div_ne_zero (ne_of_gt ?_) hn0
      exact Finset.sum_pos' (fun i _ => hd0 _) ⟨j, Finset.mem_univ _, by rw [hj]; exact one_pos⟩
    have hκ := inv_ne_zero hp0
    rw [← repCoef_scale _ _ hκ, ← repSe_scale _ _ hκ, ← repPsi_scale _ _ hκ]
    refine rep_of_elems rfl hf ?_
    unfold irmElems atteWeights
    simp only [PsiElems.mk.injEq]
    rw [ep]
    simp only [ew]
    refine ⟨funext fun i => ?_, funext fun i => ?_⟩
    · have : mean (fun i : Fin n => d (W i ω) / mean fun i : Fin n => d (W i ω)) = 1 := by
        conv_lhs => unfold mean
        rw [← Finset.sum_div, div_right_comm]
        exact div_self hp0
      rw [this]
      show _ = _ * -d (W i ω)
      rw [div_one]
      ring
    · rw [hw1]
      show _ = _ * (y (W i ω) - armVal y (fun w => 1 - d w) ξ (irmG0hat H q n (H.foldOf q n ω i) (sample W n ω))
          (fun x => 1 - trim τ (irmMhat H q n (H.foldOf q n ω i) (sample W n ω) x)) (W i ω))
      simp only [armVal]
      have hx := trim_mem (τ := τ) (by linarith [hτ (ξ (W i ω)), (law.overlap (ξ (W i ω))).1])
        (irmMhat H q n (H.foldOf q n ω i) (sample W n ω) (ξ (W i ω)))
      generalize trim τ (irmMhat H q n (H.foldOf q n ω i) (sample W n ω) (ξ (W i ω))) = M at hx ⊢
      have hM : M ≠ 0 := by linarith [law.pos]
      have hM1 : 1 - M ≠ 0 := by linarith [law.pos]
      rcases hd (W i ω) with e | e <;> rw [e] <;> field_simp <;> ring

end Irm

/-! ## Average potential outcomes -/

section Apo

open Classical in
/-- The indicator of a treatment level. -/
noncomputable def atLevel (d : S → ℝ) (v : ℝ) (w : S) : ℝ := if d w = v then 1 else 0

omit [MeasurableSpace S] in
theorem atLevel_binary (d : S → ℝ) (v : ℝ) (w : S) : atLevel d v w = 0 ∨ atLevel d v w = 1 := by
  unfold atLevel
  split_ifs
  · exact Or.inr rfl
  · exact Or.inl rfl

theorem measurable_atLevel (hd : Measurable d) (v : ℝ) : Measurable (atLevel d v) :=
  Measurable.ite (hd (measurableSet_singleton v)) measurable_const measurable_const

variable {k : ∀ n, ApoClass n Q} (H : Study E P W r K (fun n => apoSpec (k n)) tv y d ξ enc)

open Classical in
/-- The functions fitted by `ml_g` among the observations at the level in repetition `q`. -/
noncomputable def apoGhat (v : ℝ) (q : Fin r) : ∀ n, Fin K → (Fin n → S) → 𝒳 → ℝ :=
  H.learned (fun n => (k n).ml_g) .predict "ml_g_d_lvl1" y (fun w => d w = v) q

/-- The functions fitted by `ml_m` in repetition `q`; the target is the indicator of the level. -/
noncomputable def apoMhat (v : ℝ) (q : Fin r) : ∀ n, Fin K → (Fin n → S) → 𝒳 → ℝ :=
  H.learned (fun n => (k n).ml_m) .proba "ml_m" (atLevel d v) (fun _ => True) q

/-- What is asked of the learners. -/
structure ApoRates (v : ℝ) (g₁ m₀ : 𝒳 → ℝ) : Prop where
  measG : ∀ n, MeasLearner (k n).ml_g .predict enc
  measM : ∀ n, MeasLearner (k n).ml_m .proba enc
  errG : ∀ q j, oPE P (errNorm P W ξ (apoGhat H v q) g₁ 2 j)
  errM : ∀ q j, oPE P (errNorm P W ξ (apoMhat H v q) m₀ 2 j)
  rate : ∀ q j, oPE P fun n ω => ENNReal.ofReal (Real.sqrt n) * (errNorm P W ξ (apoMhat H v q) m₀ 2 j n ω *
    errNorm P W ξ (apoGhat H v q) g₁ 2 j n ω)

variable {H}

/-- Fits succeed unless a training set lacks observations at the level or at other levels. -/
theorem apo_fits {v : ℝ} (hv : ∀ n, (k n).level = v) (hg : ∀ n, (k n).gClassifier = false) (hvars : ∀ n, (k n).vars = none)
    (hw : ∀ n q, (k n).weights.at q = .ok (fun _ : Fin n => 1, fun _ => 1)) (hm : ∀ n, (k n).ml_m.Compliant)
    (hbin : ∀ᶠ n in atTop, ∀ ω, (H.D n ω).binOut = false) :
    ∀ᶠ n in atTop, ∀ ω, ω ∉ Lacking H (fun _ => True) (atLevel d v) n →
      (fit (H.F n ω) (apoSpec (k n)) (H.obj n ω) H.args).2 = .ok () := by
  classical
  filter_upwards [H.reached, H.smpls, hbin, H.treatment, H.split] with n h1 h2 h3 h4 h5 ω hω
  have ed : isLevel (k n).level (nums (H.D n ω).dv) = fun i : Fin n => atLevel d v (W i ω) := funext fun i => by
    have : nums (H.D n ω).dv i = d (W i ω) := by
      show ((H.D n ω).dv i).val = _
      rw [h4 ω i]
      rfl
    unfold isLevel atLevel
    rw [this, hv n]
  refine C63_apo (hvars n) (hg n) (hm n) (h3 ω) ?_ (h1 ω) (h2 ω) ?_ (fun q _ => ⟨_, hw n q⟩) (H.valid n _)
  · rw [ed]
    exact binary_of_every (not_not.1 hω) H.reps H.folds (h5 ω).1 (h5 ω).2 fun i => atLevel_binary _ _ _
  · rw [ed]
    exact not_not.1 hω

/-- The values of one repetition. -/
theorem apoValues {τ v : ℝ} (hv : ∀ n, (k n).level = v) (hg : ∀ n, (k n).gClassifier = false) (ht : ∀ n, (k n).trimT = τ)
    (hvars : ∀ n, (k n).vars = none) (hw : ∀ n q, (k n).weights.at q = .ok (fun _ : Fin n => 1, fun _ => 1))
    (hm : ∀ n, (k n).ml_m.Compliant) {n : ℕ} {ω : Ω} (hω : ω ∉ Lacking H (fun _ => True) (atLevel d v) n)
    {q : Fin r} {c : CellIn n Q} {o : LinOut n Q} (hc : H.Run n ω q c) (ho : (apoSpec (k n)).est c = .ok o) :
    o.fit = (apoElems (k n).normalize (fun i => y (W i ω)) (fun i => atLevel d v (W i ω))
      (fun i => apoGhat H v q n (H.foldOf q n ω i) (sample W n ω) (ξ (W i ω)))
      (fun i => trim τ (apoMhat H v q n (H.foldOf q n ω i) (sample W n ω) (ξ (W i ω)))) (fun _ => 1) fun _ => 1).fit none := by
  classical
  have hst := C27_apo hc.cross.ok ho
  obtain ⟨p1, hp1, r1⟩ := hst.1 (hc.noExt _)
  obtain ⟨pm, hpm, rm⟩ := hst.2.2 (hc.noExt _)
  rw [hg n] at r1
  have hev : EveryFold c.smpls (fun _ => True) fun i => atLevel d v (W i ω) := (not_not.1 hω) _ (List.mem_of_getElem? hc.split)
  have ed : (k n).treated c = fun i : Fin n => atLevel d v (W i ω) := funext fun i => by
    unfold ApoClass.treated atLevel
    rw [hc.d i, hv n]
  have ey : c.y = fun i : Fin n => y (W i ω) := funext hc.y
  have v1 := fun i => hc.predict (L := fun n => (k n).ml_g) (u := y) (on := fun w => d w = v) (by simp [apoSpec]) r1
    (fun i => by rw [hc.d i, hv n]) hc.y i
  have vm := fun i => hc.pred (L := fun n => (k n).ml_m) (m := .proba) (u := atLevel d v) (on := fun _ => True) (by simp [apoSpec]) rm
    (fun _ => Iff.rfl) (fun i => congrFun ed i) (fun f hf _ => ⟨hm n, by rw [ed]; exact hev.binary H.folds hc.cross fun i => atLevel_binary _ _ _, by
      obtain ⟨⟨i, hi, -, h1⟩, ⟨j, hj, -, h2⟩⟩ := hev f hf
      exact ⟨⟨i, by simpa using hi, by rw [ed]; exact h1⟩, ⟨j, by simpa using hj, by rw [ed]; exact h2⟩⟩⟩) i
  obtain ⟨g1, -, ho⟩ := bind_ok ho
  obtain ⟨_, -, ho⟩ := bind_ok ho
  obtain ⟨g0, -, ho⟩ := bind_ok ho
  obtain ⟨_, -, ho⟩ := bind_ok ho
  obtain ⟨m', -, ho⟩ := bind_ok ho
  obtain ⟨w, hw', ho⟩ := bind_ok ho
  rw [hw n] at hw'
  obtain rfl := Except.ok.inj hw'
  obtain rfl := Except.ok.inj ho
  obtain rfl : g1.preds = p1 := Option.some.inj hp1
  obtain rfl : (trimRes (k n).trimT m').preds = pm := Option.some.inj hpm
  have e1 : g1.vec = fun i => apoGhat H v q n (H.foldOf q n ω i) (sample W n ω) (ξ (W i ω)) := funext v1
  have em : (trimRes (k n).trimT m').vec = fun i => trim τ (apoMhat H v q n (H.foldOf q n ω i) (sample W n ω) (ξ (W i ω))) := by
    rw [← ht n]
    exact funext vm
  show (apoElems (k n).normalize c.y ((k n).treated c) g1.vec (trimRes (k n).trimT m').vec (fun _ => 1) fun _ => 1).fit c.cluster = _
  rw [hc.src.noCluster (hvars n), ey, ed, e1, em]

/-- Large-sample properties and influence function, APO. -/
theorem apo_valid_linear [IsProbabilityMeasure P] {τ v : ℝ} (hv : ∀ n, (k n).level = v) (hg : ∀ n, (k n).gClassifier = false)
    (hn : ∀ n, (k n).normalize = false) (ht : ∀ n, (k n).trimT = τ) (hvars : ∀ n, (k n).vars = none)
    (hw : ∀ n q, (k n).weights.at q = .ok (fun _ : Fin n => 1, fun _ => 1)) (hm : ∀ n, (k n).ml_m.Compliant)
    (hbin : ∀ᶠ n in atTop, ∀ ω, (H.D n ω).binOut = false)
    (hboth : Tendsto (fun n => P (Lacking H (fun _ => True) (atLevel d v) n)) atTop (𝓝 0))
    {g m : 𝒳 → ℝ} (law : ArmLaw (P.map (W 0)) y (atLevel d v) ξ g m τ 4) (hτ : ∀ x, m x ≤ 1 - τ)
    {θ : ℝ} (hθ : θ = ∫ w, g (ξ w) ∂(P.map (W 0)))
    (hV : ∫ w, (g (ξ w) + atLevel d v w * (y w - g (ξ w)) / m (ξ w) - θ) ^ 2 ∂(P.map (W 0)) ≠ 0) (hL : ApoRates H v g m) :
    AsympValid E P W r H.fitted θ (Real.sqrt (∫ w, (g (ξ w) + atLevel d v w * (y w - g (ξ w)) / m (ξ w) - θ) ^ 2 ∂(P.map (W 0)))) ∧
      AsympLinear P W r (fun n ω => (H.fitted n ω).fw?) θ fun w => θ - (g (ξ w) + atLevel d v w * (y w - g (ξ w)) / m (ξ w)) := by
  classical
  have hμ : IsProbabilityMeasure (P.map (W 0)) := Measure.isProbabilityMeasure_map (H.iid.meas 0).aemeasurable
  have e1 : ∀ w, -1 * θ + armVal y (atLevel d v) ξ g m w = g (ξ w) + atLevel d v w * (y w - g (ξ w)) / m (ξ w) - θ := fun w => by
    unfold armVal
    ring
  have hsd : Real.sqrt (∫ w, (g (ξ w) + atLevel d v w * (y w - g (ξ w)) / m (ξ w) - θ) ^ 2 ∂(P.map (W 0))) =
      asySd (P.map (W 0)) (fun _ => -1) (armVal y (atLevel d v) ξ g m) θ := by
    unfold asySd
    simp only [e1]
    simp
  have hinf : (fun w => θ - (g (ξ w) + atLevel d v w * (y w - g (ξ w)) / m (ξ w))) =
      asyInf (P.map (W 0)) (fun _ => -1) (armVal y (atLevel d v) ξ g m) θ := by
    funext w
    unfold asyInf
    simp only [e1]
    simp [div_neg]
  rw [hsd, hinf]
  have law2 := law.mono (q := 2) (by norm_num)
  have hM := fun q => Study.honest (H := H) hL.measM "ml_m" (measurable_atLevel H.measD v) MeasurableSet.univ q (on := fun _ => True)
  have hG := fun q => Study.honest (H := H) hL.measG "ml_g_d_lvl1" H.measY (H.measD (measurableSet_singleton v)) q (on := fun w => d w = v)
  refine H.asympBoth (bad := Lacking H (fun _ => True) (atLevel d v)) (fun q => Part.regular H.iid H.measSt (Study.balancedScheme q)
    (Part.fixed measurable_const (memLp_const _)) (armPart_trim H.iid law hτ (hG q) (hM q) (hL.errG q) (hL.errM q) (hL.rate q))
      (by simp) ?_) ?_ (fun n => LinearScoreClass.usualVsf (.apo _)) hvars hboth ?_ ?_
  · rw [integral_add (integrable_const _) (law2.mem.integrable one_le_two), law2.integral_eq, hθ]
    simp
  · simpa only [e1] using hV
  · exact apo_fits hv hg hvars hw hm hbin
  · refine Eventually.of_forall fun n ω hω q c o hc ho => ?_
    have hf := apoValues hv hg ht hvars hw hm hω hc ho
    rw [hn n] at hf
    refine rep_of_elems rfl hf ?_
    unfold apoElems adjust
    simp only [PsiElems.mk.injEq]
    refine ⟨funext fun i => ?_, funext fun i => ?_⟩
    · have : mean (fun _ : Fin n => (1 : ℝ)) = 1 := by
        unfold mean
        have : (n : ℝ) ≠ 0 := by
          have := i.pos
          positivity
        simp [this]
      rw [this]
      show _ = (-1 : ℝ)
      norm_num
    · rw [if_neg (by simp)]
      show _ = armVal y (atLevel d v) ξ (apoGhat H v q n (H.foldOf q n ω i) (sample W n ω))
        (fun x => trim τ (apoMhat H v q n (H.foldOf q n ω i) (sample W n ω) x)) (W i ω)
      unfold armVal
      ring

/-- **C79, APO.** -/
theorem C79_apo [IsProbabilityMeasure P] {τ v : ℝ} (hv : ∀ n, (k n).level = v) (hg : ∀ n, (k n).gClassifier = false)
    (hn : ∀ n, (k n).normalize = false) (ht : ∀ n, (k n).trimT = τ) (hvars : ∀ n, (k n).vars = none)
    (hw : ∀ n q, (k n).weights.at q = .ok (fun _ : Fin n => 1, fun _ => 1)) (hm : ∀ n, (k n).ml_m.Compliant)
    (hbin : ∀ᶠ n in atTop, ∀ ω, (H.D n ω).binOut = false)
    (hboth : Tendsto (fun n => P (Lacking H (fun _ => True) (atLevel d v) n)) atTop (𝓝 0))
    {g m : 𝒳 → ℝ} (law : ArmLaw (P.map (W 0)) y (atLevel d v) ξ g m τ 4) (hτ : ∀ x, m x ≤ 1 - τ)
    {θ : ℝ} (hθ : θ = ∫ w, g (ξ w) ∂(P.map (W 0)))
    (hV : ∫ w, (g (ξ w) + atLevel d v w * (y w - g (ξ w)) / m (ξ w) - θ) ^ 2 ∂(P.map (W 0)) ≠ 0) (hL : ApoRates H v g m) :
    AsympValid E P W r H.fitted θ (Real.sqrt (∫ w, (g (ξ w) + atLevel d v w * (y w - g (ξ w)) / m (ξ w) - θ) ^ 2 ∂(P.map (W 0)))) :=
  (apo_valid_linear hv hg hn ht hvars hw hm hbin hboth law hτ hθ hV hL).1

end Apo

/-! ## Local average treatment effects -/

section Iivm

variable {k : ∀ n, IivmClass n Q} (H : Study E P W r K (fun n => iivmSpec (k n)) tv y d ξ enc)

open Classical in
/-- The functions fitted by `ml_g` among the observations with `z = v` in repetition `q`. -/
noncomputable def iivmGhat (z : S → ℝ) (l : String) (v : ℝ) (q : Fin r) : ∀ n, Fin K → (Fin n → S) → 𝒳 → ℝ :=
  H.learned (fun n => (k n).ml_g) .predict l y (fun w => z w = v) q

/-- The functions fitted by `ml_m` in repetition `q`; the target is the instrument. -/
noncomputable def iivmMhat (z : S → ℝ) (q : Fin r) : ∀ n, Fin K → (Fin n → S) → 𝒳 → ℝ :=
  H.learned (fun n => (k n).ml_m) .proba "ml_m" z (fun _ => True) q

open Classical in
/-- The functions used for the treatment given `z = v` in repetition `q`: fitted by `ml_r`, or the constant `v` if the subgroup
is said not to exist. -/
noncomputable def iivmRhat (z : S → ℝ) (l : String) (v : ℝ) (included : Bool) (q : Fin r) : ∀ n, Fin K → (Fin n → S) → 𝒳 → ℝ :=
  if included then H.learned (fun n => (k n).ml_r) .proba l d (fun w => z w = v) q else fun _ _ _ _ => v

/-- What is asked of the learners. -/
structure IivmRates (z : S → ℝ) (always never : Bool) (g₀ g₁ m₀ r₀ r₁ : 𝒳 → ℝ) : Prop where
  measG : ∀ n, MeasLearner (k n).ml_g .predict enc
  measM : ∀ n, MeasLearner (k n).ml_m .proba enc
  measR : ∀ n, MeasLearner (k n).ml_r .proba enc
  errM : ∀ q j, oPE P (errNorm P W ξ (iivmMhat H z q) m₀ 2 j)
  errG0 : ∀ q j, oPE P (errNorm P W ξ (iivmGhat H z "ml_g0" 0 q) g₀ 2 j)
  errG1 : ∀ q j, oPE P (errNorm P W ξ (iivmGhat H z "ml_g1" 1 q) g₁ 2 j)
  errR0 : ∀ q j, oPE P (errNorm P W ξ (iivmRhat H z "ml_r0" 0 always q) r₀ 2 j)
  errR1 : ∀ q j, oPE P (errNorm P W ξ (iivmRhat H z "ml_r1" 1 never q) r₁ 2 j)
  rateG0 : ∀ q j, oPE P fun n ω => ENNReal.ofReal (Real.sqrt n) * (errNorm P W ξ (iivmMhat H z q) m₀ 2 j n ω *
    errNorm P W ξ (iivmGhat H z "ml_g0" 0 q) g₀ 2 j n ω)
  rateG1 : ∀ q j, oPE P fun n ω => ENNReal.ofReal (Real.sqrt n) * (errNorm P W ξ (iivmMhat H z q) m₀ 2 j n ω *
    errNorm P W ξ (iivmGhat H z "ml_g1" 1 q) g₁ 2 j n ω)
  rateR0 : ∀ q j, oPE P fun n ω => ENNReal.ofReal (Real.sqrt n) * (errNorm P W ξ (iivmMhat H z q) m₀ 2 j n ω *
    errNorm P W ξ (iivmRhat H z "ml_r0" 0 always q) r₀ 2 j n ω)
  rateR1 : ∀ q j, oPE P fun n ω => ENNReal.ofReal (Real.sqrt n) * (errNorm P W ξ (iivmMhat H z q) m₀ 2 j n ω *
    errNorm P W ξ (iivmRhat H z "ml_r1" 1 never q) r₁ 2 j n ω)

variable {H}

theorem iivmRhat_honest {z : S → ℝ} (hz : Measurable z) (hL : ∀ n, MeasLearner (k n).ml_r .proba enc) (l : String) (v : ℝ)
    (b : Bool) (q : Fin r) : Honest ξ H.St (H.scheme q) (iivmRhat H z l v b q) := by
  classical
  unfold iivmRhat
  cases b with
  | true => exact Study.honest (H := H) hL l H.measD (hz (measurableSet_singleton v)) q (on := fun w => z w = v)
  | false => exact ⟨fun n j => measurable_const, fun n j t t' _ _ => rfl⟩

/-- Some training set lacks a class that a learner needs. -/
def IivmLacking (H : Study E P W r K (fun n => iivmSpec (k n)) tv y d ξ enc) (z : S → ℝ) (always never : Bool) (n : ℕ) : Set Ω :=
  (Lacking H (fun _ => True) z n ∪ Lacking H (fun _ => True) d n) ∪
    ((if always then Lacking H (fun w => z w = 0) d n else ∅) ∪ if never then Lacking H (fun w => z w = 1) d n else ∅)

/-- The values of one repetition. -/
theorem iivmValues {τ : ℝ} {z : S → ℝ} {always never : Bool} {n : ℕ} (hg : (k n).gClassifier = false)
    (hn : (k n).normalize = false) (ht : (k n).trimT = τ) (hvars : (k n).vars = none) (hm : (k n).ml_m.Compliant)
    (hr : (k n).ml_r.Compliant) (ha : (k n).alwaysTakers = always) (hne : (k n).neverTakers = never)
    (hz01 : ∀ w, z w = 0 ∨ z w = 1) (hd01 : ∀ w, d w = 0 ∨ d w = 1) {ω : Ω}
    (hz : (H.D n ω).zv = some [fun i : Fin n => Cell.num (z (W i ω))]) (hω : ω ∉ IivmLacking H z always never n)
    {q : Fin r} {c : CellIn n Q} {o : LinOut n Q} (hc : H.Run n ω q c) (ho : (iivmSpec (k n)).est c = .ok o) :
    o.fit = (iivmElems false (fun i => y (W i ω)) (fun i => z (W i ω)) (fun i => d (W i ω))
      (fun i => iivmGhat H z "ml_g0" 0 q n (H.foldOf q n ω i) (sample W n ω) (ξ (W i ω)))
      (fun i => iivmGhat H z "ml_g1" 1 q n (H.foldOf q n ω i) (sample W n ω) (ξ (W i ω)))
      (fun i => trim τ (iivmMhat H z q n (H.foldOf q n ω i) (sample W n ω) (ξ (W i ω))))
      (fun i => iivmRhat H z "ml_r0" 0 always q n (H.foldOf q n ω i) (sample W n ω) (ξ (W i ω)))
      (fun i => iivmRhat H z "ml_r1" 1 never q n (H.foldOf q n ω i) (sample W n ω) (ξ (W i ω)))).fit none := by
  classical
  obtain ⟨z', hz', s0, s1, sm, t0, t1⟩ := C27_iivm hc.cross.ok ho
  have ez : z' = fun i : Fin n => z (W i ω) := by
    unfold CellIn.instr at hz'
    rw [hc.data, hz] at hz'
    rw [← Except.ok.inj hz']
    rfl
  have ed : c.d = fun i : Fin n => d (W i ω) := funext hc.d
  have ey : c.y = fun i : Fin n => y (W i ω) := funext hc.y
  have ez' : ∀ i, z' i = z (W i ω) := fun i => congrFun ez i
  have hmem := List.mem_of_getElem? hc.split
  have hω1 : ω ∉ Lacking H (fun _ => True) z n := fun h => hω (Or.inl (Or.inl h))
  have hev : EveryFold c.smpls (fun _ => True) fun i => z (W i ω) := (not_not.1 hω1) _ hmem
  obtain ⟨p0, hp0, q0⟩ := s0 (hc.noExt _)
  obtain ⟨p1, hp1, q1⟩ := s1 (hc.noExt _)
  obtain ⟨pm, hpm, qm⟩ := sm (hc.noExt _)
  rw [hg] at q0 q1
  have v0 := fun i => hc.predict (L := fun n => (k n).ml_g) (u := y) (on := fun w => z w = 0) (by simp [iivmSpec]) q0
    (fun i => by rw [ez' i]) hc.y i
  have v1 := fun i => hc.predict (L := fun n => (k n).ml_g) (u := y) (on := fun w => z w = 1) (by simp [iivmSpec]) q1
    (fun i => by rw [ez' i]) hc.y i
  have vm := fun i => hc.pred (L := fun n => (k n).ml_m) (m := .proba) (u := z) (on := fun _ => True) (by simp [iivmSpec]) qm
    (fun _ => Iff.rfl) ez' (fun f hf _ => ⟨hm, by rw [ez]; exact hev.binary H.folds hc.cross fun i => hz01 _, by
      obtain ⟨⟨i, hi, -, h1⟩, ⟨j, hj, -, h2⟩⟩ := hev f hf
      exact ⟨⟨i, by simpa using hi, by rw [ez' i]; exact h1⟩, ⟨j, by simpa using hj, by rw [ez' j]; exact h2⟩⟩⟩) i
  have vr : ∀ {l : String} {v : ℝ} {p : NV n}, l ∈ (iivmSpec (k n)).learners →
      FoldRule c l (k n).ml_r .proba (fun i => z' i = v) (rowX c.data) c.d id p →
      EveryFold c.smpls (fun i => z (W i ω) = v) (fun i => d (W i ω)) → ∀ i, (p i).getD 0 =
        H.learned (fun n => (k n).ml_r) .proba l d (fun w => z w = v) q n (H.foldOf q n ω i) (sample W n ω) (ξ (W i ω)) := by
    intro l v p hl hp he i
    refine hc.pred (L := fun n => (k n).ml_r) (m := .proba) (u := d) (on := fun w => z w = v) hl hp (fun i => by rw [ez' i]) hc.d
      (fun f hf _ => ⟨hr, by rw [ed]; exact he.binary H.folds hc.cross fun i => hd01 _, ?_⟩) i
    obtain ⟨⟨i, hi, hi2, h1⟩, ⟨j, hj, hj2, h2⟩⟩ := he f hf
    refine ⟨⟨i, ?_, by rw [hc.d i]; exact h1⟩, ⟨j, ?_, by rw [hc.d j]; exact h2⟩⟩
    · rw [List.mem_filter]
      exact ⟨hi, by rw [ez' i]; exact decide_eq_true hi2⟩
    · rw [List.mem_filter]
      exact ⟨hj, by rw [ez' j]; exact decide_eq_true hj2⟩
  obtain ⟨z'', hz'', ho⟩ := bind_ok ho
  obtain rfl : z' = z'' := Except.ok.inj (hz'.symm.trans hz'')
  obtain ⟨g0, -, ho⟩ := bind_ok ho
  obtain ⟨_, -, ho⟩ := bind_ok ho
  obtain ⟨g1, -, ho⟩ := bind_ok ho
  obtain ⟨_, -, ho⟩ := bind_ok ho
  obtain ⟨m', -, ho⟩ := bind_ok ho
  obtain ⟨r0, hr0, ho⟩ := bind_ok ho
  obtain ⟨r1, hr1, ho⟩ := bind_ok ho
  obtain rfl := Except.ok.inj ho
  obtain rfl : g0.preds = p0 := Option.some.inj hp0
  obtain rfl : g1.preds = p1 := Option.some.inj hp1
  obtain rfl : (trimRes (k n).trimT m').preds = pm := Option.some.inj hpm
  have const : ∀ {l : String} {v : ℝ} {r' : CvRes n Q (List Cell)}, iivmR (k n) c z' l v false = .ok r' → r'.vec = fun _ => v := by
    intro l v r' h
    obtain ⟨x, hx, h⟩ := bind_ok h
    unfold iivmRRaw at hx
    rw [if_neg (by simp)] at hx
    obtain rfl := Except.ok.inj hx
    unfold iivmRTail at h
    rw [hc.noExt] at h
    obtain ⟨_, -, h⟩ := bind_ok h
    obtain rfl := Except.ok.inj h
    rfl
  have e0 : g0.vec = fun i => iivmGhat H z "ml_g0" 0 q n (H.foldOf q n ω i) (sample W n ω) (ξ (W i ω)) := funext v0
  have e1 : g1.vec = fun i => iivmGhat H z "ml_g1" 1 q n (H.foldOf q n ω i) (sample W n ω) (ξ (W i ω)) := funext v1
  have em : (trimRes (k n).trimT m').vec = fun i => trim τ (iivmMhat H z q n (H.foldOf q n ω i) (sample W n ω) (ξ (W i ω))) := by
    rw [← ht]
    exact funext vm
  have er0 : r0.vec = fun i => iivmRhat H z "ml_r0" 0 always q n (H.foldOf q n ω i) (sample W n ω) (ξ (W i ω)) := by
    cases always with
    | false =>
      rw [ha] at hr0
      exact const hr0
    | true =>
      obtain ⟨p, hp, hq⟩ := t0 ha (hc.noExt _)
      obtain rfl : r0.preds = p := Option.some.inj hp
      have hω2 : ω ∉ Lacking H (fun w => z w = 0) d n := fun h => hω (Or.inr (Or.inl h))
      exact funext (vr (by simp [iivmSpec]) hq ((not_not.1 hω2) _ hmem))
  have er1 : r1.vec = fun i => iivmRhat H z "ml_r1" 1 never q n (H.foldOf q n ω i) (sample W n ω) (ξ (W i ω)) := by
    cases never with
    | false =>
      rw [hne] at hr1
      exact const hr1
    | true =>
      obtain ⟨p, hp, hq⟩ := t1 hne (hc.noExt _)
      obtain rfl : r1.preds = p := Option.some.inj hp
      have hω2 : ω ∉ Lacking H (fun w => z w = 1) d n := fun h => hω (Or.inr (Or.inr h))
      exact funext (vr (by simp [iivmSpec]) hq ((not_not.1 hω2) _ hmem))
  show (iivmElems (k n).normalize c.y z' c.d g0.vec g1.vec (trimRes (k n).trimT m').vec r0.vec r1.vec).fit c.cluster = _
  rw [hc.src.noCluster hvars, hn, ey, ez, ed, e0, e1, em, er0, er1]

/-- **C79, IIVM, local average treatment effect.** -/
theorem C79_iivm [IsProbabilityMeasure P] {τ : ℝ} {z : S → ℝ} {always never : Bool} (hg : ∀ n, (k n).gClassifier = false)
    (hn : ∀ n, (k n).normalize = false) (ht : ∀ n, (k n).trimT = τ) (hvars : ∀ n, (k n).vars = none)
    (ha : ∀ n, (k n).alwaysTakers = always) (hne : ∀ n, (k n).neverTakers = never) (hm : ∀ n, (k n).ml_m.Compliant)
    (hr : ∀ n, (k n).ml_r.Compliant) (hbin : ∀ᶠ n in atTop, ∀ ω, (H.D n ω).binOut = false)
    (hz : ∀ᶠ n in atTop, ∀ ω, (H.D n ω).zv = some [fun i : Fin n => Cell.num (z (W i ω))])
    (hboth : Tendsto (fun n => P (IivmLacking H z always never n)) atTop (𝓝 0))
    {g₀ g₁ m r₀ r₁ : 𝒳 → ℝ} (lawY : IrmLaw (P.map (W 0)) y z ξ g₀ g₁ m τ 4) (lawD : IrmLaw (P.map (W 0)) d z ξ r₀ r₁ m τ 4)
    (hd : ∀ w, d w = 0 ∨ d w = 1) (hid : ∫ w, (r₁ (ξ w) - r₀ (ξ w)) ∂(P.map (W 0)) ≠ 0)
    {θ : ℝ} (hθ : θ = (∫ w, (g₁ (ξ w) - g₀ (ξ w)) ∂(P.map (W 0))) / ∫ w, (r₁ (ξ w) - r₀ (ξ w)) ∂(P.map (W 0)))
    (hV : ∫ w, (g₁ (ξ w) - g₀ (ξ w) + z w * (y w - g₁ (ξ w)) / m (ξ w) - (1 - z w) * (y w - g₀ (ξ w)) / (1 - m (ξ w)) -
      θ * (r₁ (ξ w) - r₀ (ξ w) + z w * (d w - r₁ (ξ w)) / m (ξ w) - (1 - z w) * (d w - r₀ (ξ w)) / (1 - m (ξ w)))) ^ 2
      ∂(P.map (W 0)) ≠ 0) (hL : IivmRates H z always never g₀ g₁ m r₀ r₁) :
    AsympValid E P W r H.fitted θ (Real.sqrt (∫ w, (g₁ (ξ w) - g₀ (ξ w) + z w * (y w - g₁ (ξ w)) / m (ξ w) -
      (1 - z w) * (y w - g₀ (ξ w)) / (1 - m (ξ w)) -
      θ * (r₁ (ξ w) - r₀ (ξ w) + z w * (d w - r₁ (ξ w)) / m (ξ w) - (1 - z w) * (d w - r₀ (ξ w)) / (1 - m (ξ w)))) ^ 2
      ∂(P.map (W 0))) / |∫ w, (r₁ (ξ w) - r₀ (ξ w)) ∂(P.map (W 0))|) := by
  classical
  have hμ : IsProbabilityMeasure (P.map (W 0)) := Measure.isProbabilityMeasure_map (H.iid.meas 0).aemeasurable
  have y1 := lawY.treated (by norm_num)
  have y0 := lawY.untreated (by norm_num)
  have d1 := lawD.treated (by norm_num)
  have d0 := lawD.untreated (by norm_num)
  have y1' := y1.mono (q := 2) (by norm_num)
  have y0' := y0.mono (q := 2) (by norm_num)
  have d1' := d1.mono (q := 2) (by norm_num)
  have d0' := d0.mono (q := 2) (by norm_num)
  set b0 : S → ℝ := fun w => armVal y z ξ g₁ m w - armVal y (fun w => 1 - z w) ξ g₀ (fun x => 1 - m x) w with hb0
  set a0 : S → ℝ := fun w => -(armVal d z ξ r₁ m w - armVal d (fun w => 1 - z w) ξ r₀ (fun x => 1 - m x) w) with ha0
  have e1 : ∀ w, a0 w * θ + b0 w =
      g₁ (ξ w) - g₀ (ξ w) + z w * (y w - g₁ (ξ w)) / m (ξ w) - (1 - z w) * (y w - g₀ (ξ w)) / (1 - m (ξ w)) -
      θ * (r₁ (ξ w) - r₀ (ξ w) + z w * (d w - r₁ (ξ w)) / m (ξ w) - (1 - z w) * (d w - r₀ (ξ w)) / (1 - m (ξ w))) := fun w => by
    rw [hb0, ha0]
    simp only [armVal]
    ring
  have iy1 := y1'.mem.integrable one_le_two
  have iy0 := y0'.mem.integrable one_le_two
  have id1 := d1'.mem.integrable one_le_two
  have id0 := d0'.mem.integrable one_le_two
  have ib : ∫ w, b0 w ∂(P.map (W 0)) = ∫ w, (g₁ (ξ w) - g₀ (ξ w)) ∂(P.map (W 0)) := by
    rw [hb0, integral_sub iy1 iy0, y1'.integral_eq, y0'.integral_eq,
      integral_sub (y1'.memG.integrable one_le_two) (y0'.memG.integrable one_le_two)]
  have ia : ∫ w, a0 w ∂(P.map (W 0)) = -∫ w, (r₁ (ξ w) - r₀ (ξ w)) ∂(P.map (W 0)) := by
    rw [ha0, integral_neg, integral_sub id1 id0, d1'.integral_eq, d0'.integral_eq,
      integral_sub (d1'.memG.integrable one_le_two) (d0'.memG.integrable one_le_two)]
  have intA : Integrable a0 (P.map (W 0)) := (id1.sub id0).neg
  have intB : Integrable b0 (P.map (W 0)) := iy1.sub iy0
  have hV' : ∫ w, (a0 w * θ + b0 w) ^ 2 ∂(P.map (W 0)) ≠ 0 := by simpa only [e1] using hV
  have hsd : asySd (P.map (W 0)) a0 b0 θ = Real.sqrt (∫ w, (g₁ (ξ w) - g₀ (ξ w) + z w * (y w - g₁ (ξ w)) / m (ξ w) -
      (1 - z w) * (y w - g₀ (ξ w)) / (1 - m (ξ w)) -
      θ * (r₁ (ξ w) - r₀ (ξ w) + z w * (d w - r₁ (ξ w)) / m (ξ w) - (1 - z w) * (d w - r₀ (ξ w)) / (1 - m (ξ w)))) ^ 2
      ∂(P.map (W 0))) / |∫ w, (r₁ (ξ w) - r₀ (ξ w)) ∂(P.map (W 0))| := by
    unfold asySd
    simp only [e1]
    rw [ia, abs_neg]
  rw [← hsd]
  have hM := fun q => Study.honest (H := H) hL.measM "ml_m" lawY.measD MeasurableSet.univ q (on := fun _ => True)
  have hG0 := fun q => Study.honest (H := H) hL.measG "ml_g0" H.measY (lawY.measD (measurableSet_singleton 0)) q (on := fun w => z w = 0)
  have hG1 := fun q => Study.honest (H := H) hL.measG "ml_g1" H.measY (lawY.measD (measurableSet_singleton 1)) q (on := fun w => z w = 1)
  have hR0 := fun q => iivmRhat_honest (H := H) lawY.measD hL.measR "ml_r0" 0 always q
  have hR1 := fun q => iivmRhat_honest (H := H) lawY.measD hL.measR "ml_r1" 1 never q
  have ov0 := fun x => (lawY.overlap x).1
  have ov1 := fun x => (lawY.overlap x).2
  have pB := fun q => (armPart_trim H.iid y1 ov1 (hG1 q) (hM q) (hL.errG1 q) (hL.errM q) (hL.rateG1 q)).sub H.iid
    (armPart_trim0 H.iid y0 ov0 (hG0 q) (hM q) (hL.errG0 q) (hL.errM q) (hL.rateG0 q))
  have pA := fun q => ((armPart_trim H.iid d1 ov1 (hR1 q) (hM q) (hL.errR1 q) (hL.errM q) (hL.rateR1 q)).sub H.iid
    (armPart_trim0 H.iid d0 ov0 (hR0 q) (hM q) (hL.errR0 q) (hL.errM q) (hL.rateR0 q))).neg H.iid
  refine H.asymp (bad := IivmLacking H z always never) (fun q => Part.regular H.iid H.measSt (Study.balancedScheme q) (pA q) (pB q) ?_ ?_)
    hV' (fun n => LinearScoreClass.usualVsf (.iivm _)) hvars hboth ?_ ?_
  · rw [ia]
    exact neg_ne_zero.2 hid
  · have := integral_add (intA.mul_const θ) intB
    rw [this, integral_mul_const, ia, ib, hθ]
    field_simp
    ring
  · filter_upwards [H.reached, H.smpls, hbin, H.treatment, H.split, hz] with n h1 h2 h3 h4 h5 h6 ω hω
    have hω1 : ω ∉ Lacking H (fun _ => True) z n := fun h => hω (Or.inl (Or.inl h))
    have ed : nums (H.D n ω).dv = fun i : Fin n => d (W i ω) := funext fun i => by
      show ((H.D n ω).dv i).val = _
      rw [h4 ω i]
      rfl
    have ez : nums (fun i : Fin n => Cell.num (z (W i ω))) = fun i : Fin n => z (W i ω) := rfl
    refine C63_iivm (hvars n) (hg n) (hm n) (hr n) (h3 ω) ?_ (h6 ω) ?_ (h1 ω) (h2 ω) ?_ ?_ ?_ (H.valid n _)
    · have hω0 : ω ∉ Lacking H (fun _ => True) d n := fun h => hω (Or.inl (Or.inr h))
      rw [ed]
      exact binary_of_every (not_not.1 hω0) H.reps H.folds (h5 ω).1 (h5 ω).2 fun i => hd _
    · rw [ez]
      exact binary_of_every (not_not.1 hω1) H.reps H.folds (h5 ω).1 (h5 ω).2 fun i => lawY.binary _
    · exact not_not.1 hω1
    · intro h
      rw [ha n] at h
      have hω2 : ω ∉ Lacking H (fun w => z w = 0) d n := fun h' => hω (Or.inr (Or.inl (by rw [h]; exact h')))
      rw [ed]
      exact not_not.1 hω2
    · intro h
      rw [hne n] at h
      have hω2 : ω ∉ Lacking H (fun w => z w = 1) d n := fun h' => hω (Or.inr (Or.inr (by rw [h]; exact h')))
      rw [ed]
      exact not_not.1 hω2
  · filter_upwards [hz] with n h6 ω hω q c o hc ho
    have hf := iivmValues (hg n) (hn n) (ht n) (hvars n) (hm n) (hr n) (ha n) (hne n) lawY.binary hd (h6 ω) hω hc ho
    refine rep_of_elems rfl hf ?_
    unfold iivmElems
    simp only [PsiElems.mk.injEq]
    refine ⟨funext fun i => ?_, funext fun i => ?_⟩
    · show _ = -(armVal d z ξ (iivmRhat H z "ml_r1" 1 never q n (H.foldOf q n ω i) (sample W n ω))
          (fun x => trim τ (iivmMhat H z q n (H.foldOf q n ω i) (sample W n ω) x)) (W i ω) -
        armVal d (fun w => 1 - z w) ξ (iivmRhat H z "ml_r0" 0 always q n (H.foldOf q n ω i) (sample W n ω))
          (fun x => 1 - trim τ (iivmMhat H z q n (H.foldOf q n ω i) (sample W n ω) x)) (W i ω))
      simp only [armVal, if_neg (show ¬ (false = true) by simp)]
      ring
    · show _ = armVal y z ξ (iivmGhat H z "ml_g1" 1 q n (H.foldOf q n ω i) (sample W n ω))
          (fun x => trim τ (iivmMhat H z q n (H.foldOf q n ω i) (sample W n ω) x)) (W i ω) -
        armVal y (fun w => 1 - z w) ξ (iivmGhat H z "ml_g0" 0 q n (H.foldOf q n ω i) (sample W n ω))
          (fun x => 1 - trim τ (iivmMhat H z q n (H.foldOf q n ω i) (sample W n ω) x)) (W i ω)
      simp only [armVal, if_neg (show ¬ (false = true) by simp)]
      ring

end Iivm

end DML
