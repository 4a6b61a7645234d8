import Verif.AsymptoticIrmProps
import Verif.OrthogonalityDesignProps

/-!
# Large-sample properties of fitted sample selection models (C79)
-/

namespace DML

open MeasureTheory ProbabilityTheory Filter Topology
open scoped ENNReal

variable {Ω : Type*} {mΩ : MeasurableSpace Ω} {S : Type*} [MeasurableSpace S] {𝒳 : Type*} [MeasurableSpace 𝒳] {Q : Type}
  {E : Ext} {P : Measure Ω} {W : ℕ → Ω → S} {r K : ℕ} {tv : String} {y d s : S → ℝ} {ξ : S → 𝒳} {enc : 𝒳 → List Cell}

omit [MeasurableSpace S] [MeasurableSpace 𝒳] in
/-- Fitted functions only depend on the training observations. -/
theorem fitted_congr {n : ℕ} {L : Learner Q (List Cell)} {m : Method} {on : S → Prop} [DecidablePred on] (p : Option Q)
    (train : List (Fin n)) {t t' : Fin n → S} (h : ∀ j ∈ train, t j = t' j) (x : 𝒳) :
    fitted L m p train enc ξ y on t x = fitted L m p train enc ξ y on t' x := by
  unfold fitted
  have e : (train.filter fun j => decide (on (t j))) = train.filter fun j => decide (on (t' j)) :=
    List.filter_congr fun j hm => by rw [h j hm]
  rw [e]
  congr 2
  refine List.map_congr_left fun j hm => ?_
  rw [h j (List.mem_filter.1 hm).1]

/-! ## Laws -/

/-- The treated whose outcomes are observed, with four moments. -/
theorem SsmLaw.armFour {μ : Measure S} [IsProbabilityMeasure μ] {g₀ g₁ π₀ π₁ m : 𝒳 → ℝ} {τ : ℝ} (h : SsmLaw μ y d s ξ g₀ g₁ π₀ π₁ m τ)
    (hn : MemLp (fun w => s w * (y w - (d w * g₁ (ξ w) + (1 - d w) * g₀ (ξ w)))) 4 μ) (hg : MemLp (fun w => g₁ (ξ w)) 4 μ) :
    ArmLaw μ y (fun w => d w * s w) ξ g₁ (fun x => m x * π₁ x) (τ * τ) 4 := by
  have a := h.arm
  refine ⟨a.measY, a.measU, a.measX, a.measG, a.measM, a.unit, a.noise, a.treat, a.pos, a.overlap, ?_, hg⟩
  refine (memLp_bdd_mul hn h.measD (bdd_of_binary h.binaryD)).ae_eq (Eventually.of_forall fun w => ?_)
  show s w * (y w - (d w * g₁ (ξ w) + (1 - d w) * g₀ (ξ w))) * d w = d w * s w * (y w - g₁ (ξ w))
  rcases h.binaryD w with e | e <;> rw [e] <;> ring

/-! ## Products of propensities and selection probabilities -/

/-- A value moved into `[τ, 1]`. -/
noncomputable def lowClip (τ v : ℝ) : ℝ := max τ (min 1 v)

theorem low_mem {τ : ℝ} (hτ : τ ≤ 1) (v : ℝ) : τ ≤ lowClip τ v ∧ lowClip τ v ≤ 1 := ⟨le_max_left _ _, max_le hτ (min_le_left _ _)⟩

theorem low_close {τ v m : ℝ} (h : τ ≤ m ∧ m ≤ 1) : |lowClip τ v - m| ≤ |v - m| := by
  have e : lowClip τ m = m := by
    unfold lowClip
    rw [min_eq_right h.2, max_eq_right h.1]
  conv_lhs => rw [← e]
  unfold lowClip
  refine (abs_max_sub_max_le_max _ _ _ _).trans ?_
  rw [sub_self, abs_zero, max_eq_right (abs_nonneg _)]
  refine (abs_min_sub_min_le_max _ _ _ _).trans ?_
  rw [sub_self, abs_zero, max_eq_right (abs_nonneg _)]

theorem low_id {τ v : ℝ} (h : τ ≤ v ∧ v ≤ 1) : lowClip τ v = v := by
  unfold lowClip
  rw [min_eq_right h.2, max_eq_right h.1]

theorem measurable_lowClip (τ : ℝ) : Measurable (lowClip τ) := measurable_const.max (measurable_const.min measurable_id)

section Products

variable {st : ℕ} {St : S → Fin st} {c : ∀ n, (Fin n → Fin st) → Scheme K n} {mh ph : ∀ n, Fin K → (Fin n → S) → 𝒳 → ℝ}

theorem Honest.mul (hm : Honest ξ St c mh) (hp : Honest ξ St c ph) : Honest ξ St c fun n j t x => mh n j t x * ph n j t x :=
  ⟨fun n j => (hm.meas n j).mul (hp.meas n j), fun n j t t' h1 h2 => funext fun w => by
    have e1 : mh n j t (ξ w) = mh n j t' (ξ w) := congrFun (hm.uses n j t t' h1 h2) w
    have e2 : ph n j t (ξ w) = ph n j t' (ξ w) := congrFun (hp.uses n j t t' h1 h2) w
    show mh n j t (ξ w) * ph n j t (ξ w) = mh n j t' (ξ w) * ph n j t' (ξ w)
    rw [e1, e2]⟩

/-- The error of a product of transformed functions. -/
theorem errNorm_mul (hX : Measurable ξ) (hm : Honest ξ St c mh) (hp : Honest ξ St c ph) {m0 m1 p0 : 𝒳 → ℝ} (mm : Measurable m0) (mp : Measurable p0)
    {φ : ℝ → ℝ} {τ : ℝ} (hφ : ∀ v x, |φ v - m1 x| ≤ |v - m0 x|) (h1 : ∀ x, |m1 x| ≤ 1) (hτ : 0 ≤ τ) (hτ1 : τ ≤ 1) (h0 : ∀ x, τ ≤ p0 x ∧ p0 x ≤ 1)
    (j : Fin K) (n : ℕ) (ω : Ω) :
    errNorm P W ξ (fun n j t x => φ (mh n j t x) * lowClip τ (ph n j t x)) (fun x => m1 x * p0 x) 2 j n ω ≤
      errNorm P W ξ mh m0 2 j n ω + errNorm P W ξ ph p0 2 j n ω := by
  have g1 : Measurable fun w => |mh n j (sample W n ω) (ξ w) - m0 (ξ w)| := (((hm.measAt n j _).comp hX).sub (mm.comp hX)).abs
  have g2 : Measurable fun w => |ph n j (sample W n ω) (ξ w) - p0 (ξ w)| := (((hp.measAt n j _).comp hX).sub (mp.comp hX)).abs
  have h3 : eLpNorm (fun w => |mh n j (sample W n ω) (ξ w) - m0 (ξ w)| + |ph n j (sample W n ω) (ξ w) - p0 (ξ w)|) 2 (P.map (W 0)) ≤
      eLpNorm (fun w => |mh n j (sample W n ω) (ξ w) - m0 (ξ w)|) 2 (P.map (W 0)) +
        eLpNorm (fun w => |ph n j (sample W n ω) (ξ w) - p0 (ξ w)|) 2 (P.map (W 0)) :=
    eLpNorm_add_le g1.aestronglyMeasurable g2.aestronglyMeasurable one_le_two
  have e1 : eLpNorm (fun w => |mh n j (sample W n ω) (ξ w) - m0 (ξ w)|) 2 (P.map (W 0)) = errNorm P W ξ mh m0 2 j n ω :=
    eLpNorm_norm (fun w => mh n j (sample W n ω) (ξ w) - m0 (ξ w))
  have e2 : eLpNorm (fun w => |ph n j (sample W n ω) (ξ w) - p0 (ξ w)|) 2 (P.map (W 0)) = errNorm P W ξ ph p0 2 j n ω :=
    eLpNorm_norm (fun w => ph n j (sample W n ω) (ξ w) - p0 (ξ w))
  rw [e1, e2] at h3
  refine le_trans (eLpNorm_mono fun w => ?_) h3
  show ‖φ (mh n j (sample W n ω) (ξ w)) * lowClip τ (ph n j (sample W n ω) (ξ w)) - m1 (ξ w) * p0 (ξ w)‖ ≤
    ‖|mh n j (sample W n ω) (ξ w) - m0 (ξ w)| + |ph n j (sample W n ω) (ξ w) - p0 (ξ w)|‖
  rw [Real.norm_eq_abs, Real.norm_eq_abs, abs_of_nonneg (a := |mh n j (sample W n ω) (ξ w) - m0 (ξ w)| + _) (add_nonneg (abs_nonneg _) (abs_nonneg _))]
  generalize mh n j (sample W n ω) (ξ w) = A
  generalize ph n j (sample W n ω) (ξ w) = B
  have k1 := hφ A (ξ w)
  have k2 := low_close (v := B) (h0 (ξ w))
  have k3 := low_mem hτ1 B
  have e : φ A * lowClip τ B - m1 (ξ w) * p0 (ξ w) = (φ A - m1 (ξ w)) * lowClip τ B + m1 (ξ w) * (lowClip τ B - p0 (ξ w)) := by ring
  rw [e]
  refine (abs_add_le _ _).trans (add_le_add ?_ ?_)
  · rw [abs_mul, abs_of_nonneg (hτ.trans k3.1)]
    calc |φ A - m1 (ξ w)| * lowClip τ B ≤ |φ A - m1 (ξ w)| * 1 := mul_le_mul_of_nonneg_left k3.2 (abs_nonneg _)
      _ ≤ _ := by rw [mul_one]; exact k1
  · rw [abs_mul]
    calc |m1 (ξ w)| * |lowClip τ B - p0 (ξ w)| ≤ 1 * |lowClip τ B - p0 (ξ w)| := mul_le_mul_of_nonneg_right (h1 _) (abs_nonneg _)
      _ ≤ _ := by rw [one_mul]; exact k2

end Products

/-! ## Fits -/

section Ssm

variable {k : ∀ n, SsmClass n Q} (H : Study E P W r K (fun n => ssmSpec (k n)) tv y d ξ enc)

/-- The columns of covariates and treatment. -/
def encD (enc : 𝒳 → List Cell) (z : 𝒳 × ℝ) : List Cell := enc z.1 ++ [Cell.num z.2]

open Classical in
/-- The functions fitted by `ml_g` among the selected observations with `d = v` in repetition `q`. -/
noncomputable def ssmGhat (s : S → ℝ) (l : String) (v : ℝ) (q : Fin r) : ∀ n, Fin K → (Fin n → S) → 𝒳 → ℝ :=
  H.learned (fun n => (k n).ml_g) .predict l y (fun w => d w = v ∧ s w = 1) q

/-- The functions fitted by `ml_m` in repetition `q`. -/
noncomputable def ssmMhat (q : Fin r) : ∀ n, Fin K → (Fin n → S) → 𝒳 → ℝ :=
  H.learned (fun n => (k n).ml_m) .proba "ml_m" d (fun _ => True) q

/-- The functions fitted by `ml_pi` in repetition `q`: the target is the selection indicator, the treatment is a covariate;
`v` is the value of the treatment at which the function is evaluated. -/
noncomputable def ssmPhat (s : S → ℝ) (q : Fin r) (v : ℝ) (n : ℕ) (j : Fin K) (t : Fin n → S) (x : 𝒳) : ℝ :=
  nuis (k n).ml_pi .proba (H.par n "ml_pi") (encD enc) (fun w => (ξ w, d w)) s (fun _ => True) (H.splits n (strataOf H.St t)) q j t (x, v)

/-- What is asked of the learners. -/
structure SsmRates (s : S → ℝ) (g₀ g₁ π₀ π₁ m₀ : 𝒳 → ℝ) : Prop where
  measG : ∀ n, MeasLearner (k n).ml_g .predict enc
  measM : ∀ n, MeasLearner (k n).ml_m .proba enc
  measP : ∀ n, MeasLearner (k n).ml_pi .proba (encD enc)
  errM : ∀ q j, oPE P (errNorm P W ξ (ssmMhat H q) m₀ 2 j)
  errP0 : ∀ q j, oPE P (errNorm P W ξ (ssmPhat H s q 0) π₀ 2 j)
  errP1 : ∀ q j, oPE P (errNorm P W ξ (ssmPhat H s q 1) π₁ 2 j)
  errG0 : ∀ q j, oPE P (errNorm P W ξ (ssmGhat H s "ml_g_d0" 0 q) g₀ 2 j)
  errG1 : ∀ q j, oPE P (errNorm P W ξ (ssmGhat H s "ml_g_d1" 1 q) g₁ 2 j)
  rateM0 : ∀ q j, oPE P fun n ω => ENNReal.ofReal (Real.sqrt n) * (errNorm P W ξ (ssmMhat H q) m₀ 2 j n ω *
    errNorm P W ξ (ssmGhat H s "ml_g_d0" 0 q) g₀ 2 j n ω)
  rateM1 : ∀ q j, oPE P fun n ω => ENNReal.ofReal (Real.sqrt n) * (errNorm P W ξ (ssmMhat H q) m₀ 2 j n ω *
    errNorm P W ξ (ssmGhat H s "ml_g_d1" 1 q) g₁ 2 j n ω)
  rateP0 : ∀ q j, oPE P fun n ω => ENNReal.ofReal (Real.sqrt n) * (errNorm P W ξ (ssmPhat H s q 0) π₀ 2 j n ω *
    errNorm P W ξ (ssmGhat H s "ml_g_d0" 0 q) g₀ 2 j n ω)
  rateP1 : ∀ q j, oPE P fun n ω => ENNReal.ofReal (Real.sqrt n) * (errNorm P W ξ (ssmPhat H s q 1) π₁ 2 j n ω *
    errNorm P W ξ (ssmGhat H s "ml_g_d1" 1 q) g₁ 2 j n ω)

/-- Some training set lacks a class, or some estimated probability of selection is below `τ` or above one (these predictions are
not trimmed). -/
def SsmBad (s : S → ℝ) (τ : ℝ) (n : ℕ) : Set Ω :=
  (Lacking H (fun _ => True) d n ∪ Lacking H (fun _ => True) s n) ∪
    {ω | ¬ ∀ (q : Fin r) (i : Fin n), τ ≤ ssmPhat H s q (d (W i ω)) n (H.foldOf q n ω i) (sample W n ω) (ξ (W i ω)) ∧
      ssmPhat H s q (d (W i ω)) n (H.foldOf q n ω i) (sample W n ω) (ξ (W i ω)) ≤ 1}

variable {H}

theorem ssmPhat_honest (hs : Measurable s) (hL : ∀ n, MeasLearner (k n).ml_pi .proba (encD enc)) (q : Fin r) (v : ℝ) :
    Honest ξ H.St (H.scheme q) (ssmPhat H s q v) := by
  refine ⟨fun n j => ?_, fun n j t t' h1 h2 => funext fun w => ?_⟩
  · have h1 : Measurable fun z : (Fin n → Fin H.strata) × ((Fin n → S) × 𝒳) =>
        nuis (k n).ml_pi .proba (H.par n "ml_pi") (encD enc) (fun w => (ξ w, d w)) s (fun _ => True) (H.splits n z.1) q j z.2.1 (z.2.2, v) :=
      measurable_from_prod_countable_right fun α =>
        (fitted_meas (hL n) (H.measX.prodMk H.measD) hs MeasurableSet.univ (on := fun _ => True)
          (parAt (H.par n "ml_pi") q j) (trainOf (splitAt K (H.splits n α) q) j)).comp
          (measurable_fst.prodMk (measurable_snd.prodMk measurable_const) : Measurable fun z : (Fin n → S) × 𝒳 => (z.1, (z.2, v)))
    have hA : Measurable fun z : (Fin n → S) × 𝒳 => strataOf H.St z.1 :=
      measurable_pi_lambda _ fun j => H.measSt.comp ((measurable_pi_apply j).comp measurable_fst)
    exact h1.comp (hA.prodMk measurable_id)
  · show ssmPhat H s q v n j t (ξ w) = ssmPhat H s q v n j t' (ξ w)
    unfold ssmPhat nuis
    rw [← h1]
    exact fitted_congr _ _ (fun i hi => h2 i (List.mem_toFinset.2 hi)) _

/-- The values of one repetition. -/
theorem ssmValues {τ : ℝ} (hg : ∀ n, (k n).gClassifier = false) (ht : ∀ n, (k n).trimT = τ)
    (hvars : ∀ n, (k n).vars = none) (hm : ∀ n, (k n).ml_m.Compliant) (hp : ∀ n, (k n).ml_pi.Compliant)
    (hd01 : ∀ w, d w = 0 ∨ d w = 1) (hs01 : ∀ w, s w = 0 ∨ s w = 1) {n : ℕ} {ω : Ω}
    (hs : (H.D n ω).sv = some fun i : Fin n => Cell.num (s (W i ω)))
    (hω : ω ∉ Lacking H (fun _ => True) d n) (hω2 : ω ∉ Lacking H (fun _ => True) s n) (hD : ∀ i, (H.D n ω).dv i = Cell.num (d (W i ω)))
    {q : Fin r} {c : CellIn n Q} {o : LinOut n Q} (hc : H.Run n ω q c) (ho : (ssmSpec (k n)).est c = .ok o) :
    o.fit = (ssmElems (k n).normalize (fun i => d (W i ω)) (fun i => 1 - d (W i ω))
      (fun i => ssmGhat H s "ml_g_d1" 1 q n (H.foldOf q n ω i) (sample W n ω) (ξ (W i ω)))
      (fun i => ssmGhat H s "ml_g_d0" 0 q n (H.foldOf q n ω i) (sample W n ω) (ξ (W i ω)))
      (fun i => ssmPhat H s q (d (W i ω)) n (H.foldOf q n ω i) (sample W n ω) (ξ (W i ω)))
      (fun i => trim τ (ssmMhat H q n (H.foldOf q n ω i) (sample W n ω) (ξ (W i ω))))
      (fun i => s (W i ω)) (fun i => y (W i ω))).fit none := by
  classical
  obtain ⟨s', hs', ⟨p0, hp0, r0⟩, ⟨p1, hp1, r1⟩, ⟨pp, hpp, rp⟩, ⟨pm, hpm, rm⟩⟩ := C27_ssm hc.cross.ok ho
  have es : s' = fun i : Fin n => s (W i ω) := by
    unfold CellIn.sel at hs'
    rw [hc.data, hs] at hs'
    rw [← Except.ok.inj hs']
    rfl
  have es' : ∀ i, s' i = s (W i ω) := fun i => congrFun es i
  have ed : c.d = fun i : Fin n => d (W i ω) := funext hc.d
  have ey : c.y = fun i : Fin n => y (W i ω) := funext hc.y
  have hmem := List.mem_of_getElem? hc.split
  have hevd : EveryFold c.smpls (fun _ => True) fun i => d (W i ω) := (not_not.1 hω) _ hmem
  have hevs : EveryFold c.smpls (fun _ => True) fun i => s (W i ω) := (not_not.1 hω2) _ hmem
  rw [hg n] at r0 r1
  have v0 := fun i => hc.predict (L := fun n => (k n).ml_g) (u := y) (on := fun w => d w = 0 ∧ s w = 1) (by simp [ssmSpec]) r0
    (fun i => by rw [hc.d i, es' i]) hc.y i
  have v1 := fun i => hc.predict (L := fun n => (k n).ml_g) (u := y) (on := fun w => d w = 1 ∧ s w = 1) (by simp [ssmSpec]) r1
    (fun i => by rw [hc.d i, es' i]) hc.y i
  have vm := fun i => hc.pred (L := fun n => (k n).ml_m) (m := .proba) (u := d) (on := fun _ => True) (by simp [ssmSpec]) rm
    (fun _ => Iff.rfl) hc.d (fun f hf _ => ⟨hm n, by rw [ed]; exact hevd.binary H.folds hc.cross fun i => hd01 _, by
      obtain ⟨⟨i, hi, -, h1⟩, ⟨j, hj, -, h2⟩⟩ := hevd f hf
      exact ⟨⟨i, by simpa using hi, by rw [ed]; exact h1⟩, ⟨j, by simpa using hj, by rw [ed]; exact h2⟩⟩⟩) i
  have vp : ∀ i, (pp i).getD 0 = ssmPhat H s q (d (W i ω)) n (H.foldOf q n ω i) (sample W n ω) (ξ (W i ω)) := fun i => by
    have := rp.nuis H.folds hc.src (by simp [ssmSpec]) hc.smpls hc.split hc.cross (t := sample W n ω) (enc := encD enc)
      (ξ := fun w => (ξ w, d w)) (y := s) (on := fun _ => True) (fun _ => Iff.rfl) (fun i => by
        show rowX c.data i ++ [c.data.dv i] = enc (ξ (W i ω)) ++ [Cell.num (d (W i ω))]
        rw [hc.x i, hc.data, hD i]) es' (fun f hf _ => ⟨hp n, by rw [es]; exact hevs.binary H.folds hc.cross fun i => hs01 _, by
      obtain ⟨⟨i, hi, -, h1⟩, ⟨j, hj, -, h2⟩⟩ := hevs f hf
      exact ⟨⟨i, by simpa using hi, by rw [es]; exact h1⟩, ⟨j, by simpa using hj, by rw [es]; exact h2⟩⟩⟩) i
    rw [this, hc.treat, hc.params "ml_pi" (by simp [ssmSpec])]
    rfl
  obtain ⟨s'', hs'', ho⟩ := bind_ok ho
  obtain rfl : s' = s'' := Except.ok.inj (hs'.symm.trans hs'')
  obtain ⟨pi, -, ho⟩ := bind_ok ho
  obtain ⟨m', -, ho⟩ := bind_ok ho
  obtain ⟨g1, -, ho⟩ := bind_ok ho
  obtain ⟨g0, -, ho⟩ := bind_ok ho
  obtain ⟨_, -, ho⟩ := bind_ok ho
  obtain rfl := Except.ok.inj ho
  obtain rfl : g0.preds = p0 := Option.some.inj hp0
  obtain rfl : g1.preds = p1 := Option.some.inj hp1
  obtain rfl : pi.preds = pp := Option.some.inj hpp
  obtain rfl : (trimRes (k n).trimT m').preds = pm := Option.some.inj hpm
  have e0 : g0.vec = fun i => ssmGhat H s "ml_g_d0" 0 q n (H.foldOf q n ω i) (sample W n ω) (ξ (W i ω)) := funext v0
  have e1 : g1.vec = fun i => ssmGhat H s "ml_g_d1" 1 q n (H.foldOf q n ω i) (sample W n ω) (ξ (W i ω)) := funext v1
  have ep : pi.vec = fun i : Fin n => ssmPhat H s q (d (W i ω)) n (H.foldOf q n ω i) (sample W n ω) (ξ (W i ω)) := funext vp
  have em : (trimRes (k n).trimT m').vec = fun i => trim τ (ssmMhat H q n (H.foldOf q n ω i) (sample W n ω) (ξ (W i ω))) := by
    rw [← ht n]
    exact funext vm
  have ed1 : c.dIs 1 = fun i : Fin n => d (W i ω) := funext fun i => by
    unfold CellIn.dIs
    rw [hc.d i]
    rcases hd01 (W i ω) with e | e <;> simp [e]
  have ed0 : c.dIs 0 = fun i : Fin n => 1 - d (W i ω) := funext fun i => by
    unfold CellIn.dIs
    rw [hc.d i]
    rcases hd01 (W i ω) with e | e <;> simp [e]
  show (ssmElems (k n).normalize (c.dIs 1) (c.dIs 0) g1.vec g0.vec pi.vec (trimRes (k n).trimT m').vec s' c.y).fit c.cluster = _
  rw [hc.src.noCluster (hvars n), ey, ed1, ed0, es, e0, e1, em, ep]

/-- **C79, SSM, missing at random, without normalised weights.** -/
theorem C79_ssm [IsProbabilityMeasure P] {τ : ℝ} (hg : ∀ n, (k n).gClassifier = false)
    (hn : ∀ n, (k n).normalize = false) (ht : ∀ n, (k n).trimT = τ) (hvars : ∀ n, (k n).vars = none)
    (hm : ∀ n, (k n).ml_m.Compliant) (hp : ∀ n, (k n).ml_pi.Compliant) (hbin : ∀ᶠ n in atTop, ∀ ω, (H.D n ω).binOut = false)
    (hs : ∀ᶠ n in atTop, ∀ ω, (H.D n ω).sv = some fun i : Fin n => Cell.num (s (W i ω)))
    (hbad : Tendsto (fun n => P (SsmBad H s τ n)) atTop (𝓝 0))
    {g₀ g₁ π₀ π₁ m : 𝒳 → ℝ} (law : SsmLaw (P.map (W 0)) y d s ξ g₀ g₁ π₀ π₁ m τ)
    (h4 : MemLp (fun w => s w * (y w - (d w * g₁ (ξ w) + (1 - d w) * g₀ (ξ w)))) 4 (P.map (W 0)))
    (h40 : MemLp (fun w => g₀ (ξ w)) 4 (P.map (W 0))) (h41 : MemLp (fun w => g₁ (ξ w)) 4 (P.map (W 0)))
    {θ : ℝ} (hθ : θ = ∫ w, (g₁ (ξ w) - g₀ (ξ w)) ∂(P.map (W 0)))
    (hV : ∫ w, (g₁ (ξ w) - g₀ (ξ w) + d w * s w * (y w - g₁ (ξ w)) / (m (ξ w) * π₁ (ξ w)) -
      (1 - d w) * s w * (y w - g₀ (ξ w)) / ((1 - m (ξ w)) * π₀ (ξ w)) - θ) ^ 2 ∂(P.map (W 0)) ≠ 0)
    (hL : SsmRates H s g₀ g₁ π₀ π₁ m) :
    AsympValid E P W r H.fitted θ (Real.sqrt (∫ w, (g₁ (ξ w) - g₀ (ξ w) + d w * s w * (y w - g₁ (ξ w)) / (m (ξ w) * π₁ (ξ w)) -
      (1 - d w) * s w * (y w - g₀ (ξ w)) / ((1 - m (ξ w)) * π₀ (ξ w)) - θ) ^ 2 ∂(P.map (W 0)))) := by
  classical
  have hμ := H.iid.prob 0
  have hpos := law.pos
  have a1 := law.armFour h4 h41
  have a0 := law.flip.armFour (h4.ae_eq (Eventually.of_forall fun w => by
    show s w * (y w - (d w * g₁ (ξ w) + (1 - d w) * g₀ (ξ w))) = s w * (y w - ((1 - d w) * g₀ (ξ w) + (1 - (1 - d w)) * g₁ (ξ w)))
    ring)) h40
  obtain ⟨ω₀⟩ : Nonempty Ω := by
    by_contra hne
    rw [not_nonempty_iff] at hne
    have := measure_univ (μ := P)
    rw [Set.univ_eq_empty_iff.2 hne, measure_empty] at this
    exact zero_ne_one this
  have hτ1 : τ ≤ 1 - τ := (law.overlap (ξ (W 0 ω₀))).1.trans (law.overlap (ξ (W 0 ω₀))).2
  have a1' := a1.mono (q := 2) (by norm_num)
  have a0' := a0.mono (q := 2) (by norm_num)
  have hM : ∀ q, Honest ξ H.St (H.scheme q) (ssmMhat H q) := fun q => Study.honest (H := H) hL.measM "ml_m" H.measD MeasurableSet.univ q (on := fun _ => True)
  have hP := fun q v => ssmPhat_honest (H := H) law.measS hL.measP q v
  have mset : ∀ v, MeasurableSet {w | d w = v ∧ s w = 1} := fun v =>
    (H.measD (measurableSet_singleton v)).inter (law.measS (measurableSet_singleton 1))
  have hG0 : ∀ q, Honest ξ H.St (H.scheme q) (ssmGhat H s "ml_g_d0" 0 q) := fun q =>
    Study.honest (H := H) hL.measG "ml_g_d0" H.measY (mset 0) q (on := fun w => d w = 0 ∧ s w = 1)
  have hG1 : ∀ q, Honest ξ H.St (H.scheme q) (ssmGhat H s "ml_g_d1" 1 q) := fun q =>
    Study.honest (H := H) hL.measG "ml_g_d1" H.measY (mset 1) q (on := fun w => d w = 1 ∧ s w = 1)
  have mtrim : Measurable (trim τ) := measurable_const.min (measurable_id.max measurable_const)
  have hm1 : ∀ x, |m x| ≤ 1 := fun x => by
    have := law.overlap x
    rw [abs_of_nonneg (by linarith)]
    linarith
  have hm0 : ∀ x, |1 - m x| ≤ 1 := fun x => by
    have := law.overlap x
    rw [abs_of_nonneg (by linarith)]
    linarith
  have close0 : ∀ v x, |1 - trim τ v - (1 - m x)| ≤ |v - m x| := fun v x => by
    have e : 1 - trim τ v - (1 - m x) = -(trim τ v - m x) := by ring
    rw [e, abs_neg]
    exact trim_close (law.overlap x)
  have hM1 := fun q => ((hM q).post mtrim).mul ((hP q 1).post (measurable_lowClip τ))
  have hM0 := fun q => ((hM q).post (φ := fun v => 1 - trim τ v) (measurable_const.sub mtrim)).mul ((hP q 0).post (measurable_lowClip τ))
  have E1 := fun q j n ω => errNorm_mul (P := P) (W := W) H.measX (hM q) (hP q 1) law.measM law.measP1 (φ := trim τ) (m1 := m)
    (fun v x => trim_close (law.overlap x)) hm1 hpos.le (by linarith) law.chance1 j n ω
  have E0 := fun q j n ω => errNorm_mul (P := P) (W := W) H.measX (hM q) (hP q 0) law.measM law.measP0 (φ := fun v => 1 - trim τ v)
    (m1 := fun x => 1 - m x) close0 hm0 hpos.le (by linarith) law.chance0 j n ω
  have p1 := fun q => armPart H.iid a1 (hG1 q) (hM1 q) (fun n j t x => by
      have k1 := trim_mem hτ1 (ssmMhat H q n j t x)
      have k2 := low_mem (show τ ≤ 1 by linarith) (ssmPhat H s q 1 n j t x)
      exact ⟨mul_le_mul k1.1 k2.1 hpos.le (hpos.le.trans k1.1),
        mul_le_one₀ (by linarith [k1.2]) (hpos.le.trans k2.1) k2.2⟩) (hL.errG1 q)
    (fun j => ((hL.errM q j).add (hL.errP1 q j)).mono fun n ω => E1 q j n ω)
    fun j => ((hL.rateM1 q j).add (hL.rateP1 q j)).mono fun n ω => by
      rw [← mul_add, ← add_mul]
      gcongr
      exact E1 q j n ω
  have p0 := fun q => armPart H.iid a0 (hG0 q) (hM0 q) (fun n j t x => by
      have k1 := trim_mem hτ1 (ssmMhat H q n j t x)
      have k2 := low_mem (show τ ≤ 1 by linarith) (ssmPhat H s q 0 n j t x)
      have k3 : τ ≤ 1 - trim τ (ssmMhat H q n j t x) := by linarith [k1.2]
      exact ⟨mul_le_mul k3 k2.1 hpos.le (hpos.le.trans k3),
        mul_le_one₀ (by linarith [k1.1]) (hpos.le.trans k2.1) k2.2⟩) (hL.errG0 q)
    (fun j => ((hL.errM q j).add (hL.errP0 q j)).mono fun n ω => E0 q j n ω)
    fun j => ((hL.rateM0 q j).add (hL.rateP0 q j)).mono fun n ω => by
      rw [← mul_add, ← add_mul]
      gcongr
      exact E0 q j n ω
  have e1 : ∀ w, -1 * θ + (armVal y (fun w => d w * s w) ξ g₁ (fun x => m x * π₁ x) w -
        armVal y (fun w => (1 - d w) * s w) ξ g₀ (fun x => (1 - m x) * π₀ x) w) =
      g₁ (ξ w) - g₀ (ξ w) + d w * s w * (y w - g₁ (ξ w)) / (m (ξ w) * π₁ (ξ w)) -
      (1 - d w) * s w * (y w - g₀ (ξ w)) / ((1 - m (ξ w)) * π₀ (ξ w)) - θ := fun w => by
    unfold armVal
    ring
  have hsd : Real.sqrt (∫ w, (g₁ (ξ w) - g₀ (ξ w) + d w * s w * (y w - g₁ (ξ w)) / (m (ξ w) * π₁ (ξ w)) -
      (1 - d w) * s w * (y w - g₀ (ξ w)) / ((1 - m (ξ w)) * π₀ (ξ w)) - θ) ^ 2 ∂(P.map (W 0))) =
      asySd (P.map (W 0)) (fun _ => -1) (fun w => armVal y (fun w => d w * s w) ξ g₁ (fun x => m x * π₁ x) w -
        armVal y (fun w => (1 - d w) * s w) ξ g₀ (fun x => (1 - m x) * π₀ x) w) θ := by
    unfold asySd
    simp only [e1]
    simp
  rw [hsd]
  have i1 := a1'.mem.integrable one_le_two
  have i0 := a0'.mem.integrable one_le_two
  refine H.asymp (bad := SsmBad H s τ)
    (fun q => Part.regular H.iid H.measSt (Study.balancedScheme q) (Part.fixed measurable_const (memLp_const _)) ((p1 q).sub H.iid (p0 q))
      (by simp) ?_) ?_ (fun n => LinearScoreClass.usualVsf (.ssm _)) hvars hbad ?_ ?_
  · have i2 : Integrable (fun w => armVal y (fun w => d w * s w) ξ g₁ (fun x => m x * π₁ x) w -
        armVal y (fun w => (1 - d w) * s w) ξ g₀ (fun x => (1 - m x) * π₀ x) w) (P.map (W 0)) := i1.sub i0
    rw [integral_add (integrable_const _) i2, integral_sub i1 i0, a1'.integral_eq, a0'.integral_eq, hθ,
      integral_sub (a1'.memG.integrable one_le_two) (a0'.memG.integrable one_le_two)]
    simp
  · simpa only [e1] using hV
  · filter_upwards [H.reached, H.smpls, hbin, H.treatment, H.split, hs] with n h1 h2 h3 h4 h5 h6 ω hω
    have hω1 : ω ∉ Lacking H (fun _ => True) d n := fun h => hω (Or.inl (Or.inl h))
    have hω2 : ω ∉ Lacking H (fun _ => True) s n := fun h => hω (Or.inl (Or.inr h))
    have ed : nums (H.D n ω).dv = fun i : Fin n => d (W i ω) := funext fun i => by
      show ((H.D n ω).dv i).val = _
      rw [h4 ω i]
      rfl
    refine C63_ssm (hvars n) (hg n) (hm n) (hp n) (h3 ω) ?_ (h6 ω) ?_ (h1 ω) (h2 ω) ?_ ?_ (H.valid n _)
    · rw [ed]
      exact binary_of_every (not_not.1 hω1) H.reps H.folds (h5 ω).1 (h5 ω).2 fun i => law.binaryD _
    · exact binary_of_every (not_not.1 hω2) H.reps H.folds (h5 ω).1 (h5 ω).2 fun i => law.binaryS _
    · rw [ed]
      exact not_not.1 hω1
    · exact not_not.1 hω2
  · filter_upwards [hs, H.treatment] with n h6 h4 ω hω q c o hc ho
    have hω1 : ω ∉ Lacking H (fun _ => True) d n := fun h => hω (Or.inl (Or.inl h))
    have hω2 : ω ∉ Lacking H (fun _ => True) s n := fun h => hω (Or.inl (Or.inr h))
    have hω3 := not_not.1 fun h => hω (Or.inr h)
    have hf := ssmValues hg ht hvars hm hp law.binaryD law.binaryS (h6 ω) hω1 hω2 (h4 ω) hc ho
    rw [hn n] at hf
    refine rep_of_elems rfl hf ?_
    unfold ssmElems
    simp only [PsiElems.mk.injEq, Bool.false_eq_true, if_false]
    refine ⟨rfl, funext fun i => ?_⟩
    show _ = armVal y (fun w => d w * s w) ξ (ssmGhat H s "ml_g_d1" 1 q n (H.foldOf q n ω i) (sample W n ω))
        (fun x => trim τ (ssmMhat H q n (H.foldOf q n ω i) (sample W n ω) x) *
          lowClip τ (ssmPhat H s q 1 n (H.foldOf q n ω i) (sample W n ω) x)) (W i ω) -
      armVal y (fun w => (1 - d w) * s w) ξ (ssmGhat H s "ml_g_d0" 0 q n (H.foldOf q n ω i) (sample W n ω))
        (fun x => (1 - trim τ (ssmMhat H q n (H.foldOf q n ω i) (sample W n ω) x)) *
          lowClip τ (ssmPhat H s q 0 n (H.foldOf q n ω i) (sample W n ω) x)) (W i ω)
    have hc3 := low_id (hω3 q i)
    simp only [armVal]
    rcases law.binaryD (W i ω) with e | e <;> rw [e] at hc3 ⊢ <;> rw [hc3] <;> ring

end Ssm

end DML
