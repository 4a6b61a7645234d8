import Verif.Study

/-!
# Large-sample properties of fitted models (C79)
-/

namespace DML

open MeasureTheory ProbabilityTheory Filter Topology
open scoped ENNReal

variable {Ω : Type*} {mΩ : MeasurableSpace Ω} {S : Type*} [MeasurableSpace S] {𝒳 : Type*} [MeasurableSpace 𝒳] {Q : Type}
  {E : Ext} {P : Measure Ω} {W : ℕ → Ω → S} {r K : ℕ} {tv : String} {y d : S → ℝ} {ξ : S → 𝒳} {enc : 𝒳 → List Cell}

/-! ## The partially linear regression model -/

section Plr

variable {k : ∀ n, PlrClass n Q} (H : Study E P W r K (fun n => plrSpec (k n)) tv y d ξ enc)

/-- The functions fitted by `ml_l` in repetition `q`. -/
noncomputable def plrLhat (q : Fin r) : ∀ n, Fin K → (Fin n → S) → 𝒳 → ℝ :=
  H.learned (fun n => (k n).ml_l) .predict "ml_l" y (fun _ => True) q

/-- The functions fitted by `ml_m` in repetition `q`. -/
noncomputable def plrMhat (q : Fin r) : ∀ n, Fin K → (Fin n → S) → 𝒳 → ℝ :=
  H.learned (fun n => (k n).ml_m) .predict "ml_m" d (fun _ => True) q

/-- What is asked of the learners: their answers are measurable, the errors vanish and the products of the errors vanish
faster than `1/√n`, in probability, for every repetition and fold. -/
structure PlrRates (l₀ m₀ : 𝒳 → ℝ) : Prop where
  measL : ∀ n, MeasLearner (k n).ml_l .predict enc
  measM : ∀ n, MeasLearner (k n).ml_m .predict enc
  errL : ∀ q j, oPE P (errNorm P W ξ (plrLhat H q) l₀ 4 j)
  errM : ∀ q j, oPE P (errNorm P W ξ (plrMhat H q) m₀ 4 j)
  rate : ∀ q j, oPE P fun n ω => ENNReal.ofReal (Real.sqrt n) * (errNorm P W ξ (plrMhat H q) m₀ 2 j n ω *
    (errNorm P W ξ (plrMhat H q) m₀ 2 j n ω + errNorm P W ξ (plrLhat H q) l₀ 2 j n ω))

/-- **C79, PLR** with the score `partialling out`. -/
theorem C79_plr [IsProbabilityMeasure P] (hiv : ∀ n, (k n).iv = false) (hcl : ∀ n, (k n).mClassifier = false)
    (hvars : ∀ n, (k n).vars = none) (hbin : ∀ᶠ n in atTop, ∀ ω, lookupKey tv (H.D n ω).binTreats = some false)
    {θ : ℝ} {g m : 𝒳 → ℝ} (law : PlrLaw (P.map (W 0)) y d ξ θ g m 4)
    (hV : ∫ w, (d w - m (ξ w)) ^ 2 ∂(P.map (W 0)) ≠ 0)
    (hζV : ∫ w, ((y w - θ * d w - g (ξ w)) * (d w - m (ξ w))) ^ 2 ∂(P.map (W 0)) ≠ 0)
    (hL : PlrRates H (fun x => θ * m x + g x) m) :
    AsympValid E P W r H.fitted θ (Real.sqrt (∫ w, ((y w - θ * d w - g (ξ w)) * (d w - m (ξ w))) ^ 2 ∂(P.map (W 0))) /
      ∫ w, (d w - m (ξ w)) ^ 2 ∂(P.map (W 0))) := by
  have e1 : ∀ w, -((d w - m (ξ w)) * (d w - m (ξ w))) * θ + (y w - (θ * m (ξ w) + g (ξ w))) * (d w - m (ξ w)) =
      (y w - θ * d w - g (ξ w)) * (d w - m (ξ w)) := fun w => by ring
  have hsd : Real.sqrt (∫ w, ((y w - θ * d w - g (ξ w)) * (d w - m (ξ w))) ^ 2 ∂(P.map (W 0))) /
      ∫ w, (d w - m (ξ w)) ^ 2 ∂(P.map (W 0)) = asySd (P.map (W 0)) (fun w => -((d w - m (ξ w)) * (d w - m (ξ w))))
        (fun w => (y w - (θ * m (ξ w) + g (ξ w))) * (d w - m (ξ w))) θ := by
    unfold asySd
    simp only [e1]
    simp only [integral_neg, abs_neg, ← sq]
    rw [abs_of_nonneg (integral_nonneg fun w => sq_nonneg _)]
  rw [hsd]
  refine H.asymp (bad := fun _ => ∅) (fun q => plivRegular H.iid H.measSt (Study.balancedScheme q) law ?_ (Study.honest hL.measL _ H.measY MeasurableSet.univ q)
    (Study.honest hL.measM _ H.measD MeasurableSet.univ q) (Study.honest hL.measM _ H.measD MeasurableSet.univ q) (hL.errL q)
    (hL.errM q) (hL.errM q) (hL.rate q)) ?_ (fun n => LinearScoreClass.usualVsf (.plr _)) hvars (by simp) ?_ ?_
  · simpa only [← sq] using hV
  · simpa only [e1] using hζV
  · filter_upwards [H.reached, H.smpls, hbin] with n h1 h2 h3 ω _
    exact C63_plr (hvars n) (hcl n) (h3 ω) (h1 ω) (h2 ω) (H.valid n _)
  · refine Eventually.of_forall fun n ω _ q c o hc ho => ?_
    have hst := C26_plr hc.cross.ok ho
    obtain ⟨pl, hpl, rl⟩ := hst.1 (hc.noExt _) fun _ => hc.noExt _
    obtain ⟨pm, hpm, rm⟩ := hst.2.1 (hc.noExt _)
    rw [hcl n] at rm
    have vl := fun i => hc.predict (L := fun n => (k n).ml_l) (u := y) (on := fun _ => True) (by simp [plrSpec, hiv n]) rl
      (fun _ => Iff.rfl) hc.y i
    have vm := fun i => hc.predict (L := fun n => (k n).ml_m) (u := d) (on := fun _ => True) (by simp [plrSpec, hiv n]) rm
      (fun _ => Iff.rfl) hc.d i
    obtain ⟨l, -, ho⟩ := bind_ok ho
    obtain ⟨m', -, ho⟩ := bind_ok ho
    obtain ⟨g', -, ho⟩ := bind_ok ho
    obtain rfl := Except.ok.inj ho
    obtain rfl : l.preds = pl := Option.some.inj hpl
    obtain rfl : m'.preds = pm := Option.some.inj hpm
    refine rep_of_elems (e := plrElems (k n).iv c.y c.d l.vec m'.vec g'.vec) (hc.src.noCluster (hvars n)) rfl ?_
    rw [hiv n]
    have el : ∀ i, l.vec i = plrLhat H q n (H.foldOf q n ω i) (sample W n ω) (ξ (W i ω)) := vl
    have em : ∀ i, m'.vec i = plrMhat H q n (H.foldOf q n ω i) (sample W n ω) (ξ (W i ω)) := vm
    unfold plrElems plrPo
    rw [if_neg (by simp)]
    simp only [PsiElems.mk.injEq]
    refine ⟨funext fun i => ?_, funext fun i => ?_⟩
    · rw [hc.d i, em i]
      rfl
    · rw [hc.y i, hc.d i, el i, em i]
      show _ = (y (W i ω) - plrLhat H q n (H.foldOf q n ω i) (sample W n ω) (ξ (W i ω))) *
        (d (W i ω) - plrMhat H q n (H.foldOf q n ω i) (sample W n ω) (ξ (W i ω)))
      ring

end Plr

/-! ## The partially linear model with an instrument -/

section Pliv

variable {k : ∀ n, PlivClass n Q} (H : Study E P W r K (fun n => plivSpec (k n)) tv y d ξ enc)

/-- The functions fitted by `ml_l` in repetition `q`. -/
noncomputable def plivLhat (q : Fin r) : ∀ n, Fin K → (Fin n → S) → 𝒳 → ℝ :=
  H.learned (fun n => (k n).ml_l) .predict "ml_l" y (fun _ => True) q

/-- The functions fitted by `ml_m` in repetition `q`; the target is the instrument. -/
noncomputable def plivMhat (z : S → ℝ) (q : Fin r) : ∀ n, Fin K → (Fin n → S) → 𝒳 → ℝ :=
  H.learned (fun n => (k n).ml_m) .predict "ml_m" z (fun _ => True) q

/-- The functions fitted by `ml_r` in repetition `q`; the target is the treatment. -/
noncomputable def plivRhat (q : Fin r) : ∀ n, Fin K → (Fin n → S) → 𝒳 → ℝ :=
  H.learned (fun n => (k n).ml_r) .predict "ml_r" d (fun _ => True) q

/-- What is asked of the learners. -/
structure PlivRates (z : S → ℝ) (l₀ m₀ r₀ : 𝒳 → ℝ) : Prop where
  measL : ∀ n, MeasLearner (k n).ml_l .predict enc
  measM : ∀ n, MeasLearner (k n).ml_m .predict enc
  measR : ∀ n, MeasLearner (k n).ml_r .predict enc
  errL : ∀ q j, oPE P (errNorm P W ξ (plivLhat H q) l₀ 4 j)
  errM : ∀ q j, oPE P (errNorm P W ξ (plivMhat H z q) m₀ 4 j)
  errR : ∀ q j, oPE P (errNorm P W ξ (plivRhat H q) r₀ 4 j)
  rate : ∀ q j, oPE P fun n ω => ENNReal.ofReal (Real.sqrt n) * (errNorm P W ξ (plivMhat H z q) m₀ 2 j n ω *
    (errNorm P W ξ (plivRhat H q) r₀ 2 j n ω + errNorm P W ξ (plivLhat H q) l₀ 2 j n ω))

/-- **C79, PLIV** with one instrument and the score `partialling out`. -/
theorem C79_pliv [IsProbabilityMeasure P] (hiv : ∀ n, (k n).iv = false) (hvars : ∀ n, (k n).vars = none)
    (hbin : ∀ᶠ n in atTop, ∀ ω, (H.D n ω).binOut = false) {z : S → ℝ}
    (hz : ∀ᶠ n in atTop, ∀ ω, (H.D n ω).zv = some [fun i : Fin n => Cell.num (z (W i ω))])
    {θ : ℝ} {g m ρ : 𝒳 → ℝ} (law : PlivLaw (P.map (W 0)) y d z ξ θ g m ρ 4)
    (hV : ∫ w, (d w - ρ (ξ w)) * (z w - m (ξ w)) ∂(P.map (W 0)) ≠ 0)
    (hζV : ∫ w, ((y w - θ * d w - g (ξ w)) * (z w - m (ξ w))) ^ 2 ∂(P.map (W 0)) ≠ 0)
    (hL : PlivRates H z (fun x => θ * ρ x + g x) m ρ) :
    AsympValid E P W r H.fitted θ (Real.sqrt (∫ w, ((y w - θ * d w - g (ξ w)) * (z w - m (ξ w))) ^ 2 ∂(P.map (W 0))) /
      |∫ w, (d w - ρ (ξ w)) * (z w - m (ξ w)) ∂(P.map (W 0))|) := by
  have e1 : ∀ w, -((d w - ρ (ξ w)) * (z w - m (ξ w))) * θ + (y w - (θ * ρ (ξ w) + g (ξ w))) * (z w - m (ξ w)) =
      (y w - θ * d w - g (ξ w)) * (z w - m (ξ w)) := fun w => by ring
  have hsd : Real.sqrt (∫ w, ((y w - θ * d w - g (ξ w)) * (z w - m (ξ w))) ^ 2 ∂(P.map (W 0))) /
      |∫ w, (d w - ρ (ξ w)) * (z w - m (ξ w)) ∂(P.map (W 0))| = asySd (P.map (W 0))
        (fun w => -((d w - ρ (ξ w)) * (z w - m (ξ w))))
        (fun w => (y w - (θ * ρ (ξ w) + g (ξ w))) * (z w - m (ξ w))) θ := by
    unfold asySd
    simp only [e1]
    simp only [integral_neg, abs_neg]
  rw [hsd]
  refine H.asymp (bad := fun _ => ∅) (fun q => plivRegular H.iid H.measSt (Study.balancedScheme q) law hV
    (Study.honest hL.measL _ H.measY MeasurableSet.univ q) (Study.honest hL.measM _ law.measZ MeasurableSet.univ q)
    (Study.honest hL.measR _ H.measD MeasurableSet.univ q) (hL.errL q) (hL.errM q) (hL.errR q) (hL.rate q)) ?_
    (fun n => LinearScoreClass.usualVsf (.pliv _)) hvars (by simp) ?_ ?_
  · simpa only [e1] using hζV
  · filter_upwards [H.reached, H.smpls, hbin, hz] with n h1 h2 h3 h4 ω _
    exact C63_pliv (hvars n) (h3 ω) (h4 ω) (h1 ω) (h2 ω) (H.valid n _)
  · filter_upwards [hz] with n hz ω _ q c o hc ho
    obtain ⟨z', hz', hl', hm', hr', -⟩ := C26_pliv hc.cross.ok ho
    have ez : ∀ i, z' i = z (W i ω) := by
      unfold CellIn.instr at hz'
      rw [hc.data, hz ω] at hz'
      intro i
      rw [← Except.ok.inj hz']
      rfl
    obtain ⟨pl, hpl, rl⟩ := hl' (hc.noExt _)
    obtain ⟨pm, hpm, rm⟩ := hm' (hc.noExt _)
    obtain ⟨pr, hpr, rr⟩ := hr' (hc.noExt _)
    have vl := fun i => hc.predict (L := fun n => (k n).ml_l) (u := y) (on := fun _ => True) (by simp [plivSpec, hiv n]) rl
      (fun _ => Iff.rfl) hc.y i
    have vm := fun i => hc.predict (L := fun n => (k n).ml_m) (u := z) (on := fun _ => True) (by simp [plivSpec, hiv n]) rm
      (fun _ => Iff.rfl) ez i
    have vr := fun i => hc.predict (L := fun n => (k n).ml_r) (u := d) (on := fun _ => True) (by simp [plivSpec, hiv n]) rr
      (fun _ => Iff.rfl) hc.d i
    obtain ⟨l, -, ho⟩ := bind_ok ho
    obtain ⟨z'', hz'', ho⟩ := bind_ok ho
    obtain rfl : z' = z'' := Except.ok.inj (hz'.symm.trans hz'')
    obtain ⟨m', -, ho⟩ := bind_ok ho
    obtain ⟨r', -, ho⟩ := bind_ok ho
    obtain ⟨g', -, ho⟩ := bind_ok ho
    obtain rfl := Except.ok.inj ho
    obtain rfl : l.preds = pl := Option.some.inj hpl
    obtain rfl : m'.preds = pm := Option.some.inj hpm
    obtain rfl : r'.preds = pr := Option.some.inj hpr
    refine rep_of_elems (e := plivElems (k n).iv c.y z' c.d l.vec m'.vec r'.vec g'.vec) (hc.src.noCluster (hvars n)) rfl ?_
    rw [hiv n]
    have el : ∀ i, l.vec i = plivLhat H q n (H.foldOf q n ω i) (sample W n ω) (ξ (W i ω)) := vl
    have em : ∀ i, m'.vec i = plivMhat H z q n (H.foldOf q n ω i) (sample W n ω) (ξ (W i ω)) := vm
    have er : ∀ i, r'.vec i = plivRhat H q n (H.foldOf q n ω i) (sample W n ω) (ξ (W i ω)) := vr
    unfold plivElems plivPo
    rw [if_neg (by simp)]
    simp only [PsiElems.mk.injEq]
    refine ⟨funext fun i => ?_, funext fun i => ?_⟩
    · rw [hc.d i, em i, er i, ez i]
      rfl
    · rw [hc.y i, ez i, el i, em i]
      show _ = (y (W i ω) - plivLhat H q n (H.foldOf q n ω i) (sample W n ω) (ξ (W i ω))) *
        (z (W i ω) - plivMhat H z q n (H.foldOf q n ω i) (sample W n ω) (ξ (W i ω)))
      ring

end Pliv

end DML
