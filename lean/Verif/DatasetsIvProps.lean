import Verif.DatasetsLawProps
import Verif.OrthogonalityDesignProps
import Mathlib.Probability.Distributions.Gaussian.Basic

/-!
# Simulated data: models with instruments

C80, third part.
-/

namespace DML

open MeasureTheory ProbabilityTheory Filter
open scoped ENNReal

variable {n p : ℕ}

/-! ## Normal draws -/

/-- A linear combination of normal draws has all moments. -/
theorem gaussian_dot {μX : Measure (Fin p → ℝ)} [IsGaussian μX] (b : Fin p → ℝ) {q : ℝ≥0∞} (hq : q ≠ ∞) :
    MemLp (fun x : Fin p → ℝ => dotp x b) q μX := by
  have e : (fun x : Fin p → ℝ => dotp x b) = (∑ j, b j • ContinuousLinearMap.proj (R := ℝ) (φ := fun _ : Fin p => ℝ) j : StrongDual ℝ (Fin p → ℝ)) := by
    funext x
    simp [dotp, mul_comm]
  rw [e]
  exact IsGaussian.memLp_dual μX _ q hq

theorem gaussian_coord {μX : Measure (Fin p → ℝ)} [IsGaussian μX] (j : Fin p) {q : ℝ≥0∞} (hq : q ≠ ∞) :
    MemLp (fun x : Fin p → ℝ => x j) q μX :=
  IsGaussian.memLp_dual μX (ContinuousLinearMap.proj (R := ℝ) (φ := fun _ : Fin p => ℝ) j) q hq

theorem gaussian_dot_mean {μX : Measure (Fin p → ℝ)} [IsGaussian μX] (h0 : ∀ j, ∫ x, x j ∂μX = 0) (b : Fin p → ℝ) :
    ∫ x, dotp x b ∂μX = 0 := by
  unfold dotp
  rw [integral_finsetSum _ fun j _ => ((gaussian_coord j (q := 1) (by simp)).integrable le_rfl).mul_const _]
  refine Finset.sum_eq_zero fun j _ => ?_
  rw [integral_mul_const, h0 j, zero_mul]

theorem gaussian_pair {ν : Measure (ℝ × ℝ)} [IsGaussian ν] {q : ℝ≥0∞} (hq : q ≠ ∞) :
    MemLp (fun e : ℝ × ℝ => e.1) q ν ∧ MemLp (fun e : ℝ × ℝ => e.2) q ν :=
  ⟨IsGaussian.memLp_dual ν (ContinuousLinearMap.fst ℝ ℝ ℝ) q hq, IsGaussian.memLp_dual ν (ContinuousLinearMap.snd ℝ ℝ ℝ) q hq⟩

/-! ## The partially linear model with instruments -/

/-- Errors of the instrument that are independent of the covariates, and errors of outcome and treatment that are independent of both,
make a partially linear model with an instrument. -/
theorem plivLaw_of_errors {𝒳 A B : Type*} [MeasurableSpace 𝒳] [MeasurableSpace A] [MeasurableSpace B] {μX : Measure 𝒳} {α : Measure A} {β : Measure B}
    [IsProbabilityMeasure μX] [IsProbabilityMeasure α] [IsProbabilityMeasure β] {q : ℝ≥0∞} (hq : 1 ≤ q)
    {y d z : (𝒳 × A) × B → ℝ} {θ : ℝ} {g m r : 𝒳 → ℝ} {i : A → ℝ} {t : 𝒳 → A → ℝ} {u e : B → ℝ}
    (hy : ∀ w, y w = θ * d w + g w.1.1 + e w.2) (hz : ∀ w, z w = m w.1.1 + i w.1.2) (hd : ∀ w, d w = r w.1.1 + t w.1.1 w.1.2 + u w.2)
    (mg : Measurable g) (mm : Measurable m) (mr : Measurable r) (mt : Measurable fun a : 𝒳 × A => t a.1 a.2)
    (mi : Measurable i) (mu : Measurable u) (me : Measurable e)
    (li : MemLp i q α) (lt : MemLp (fun a : 𝒳 × A => t a.1 a.2) q (μX.prod α)) (lu : MemLp u q β) (le : MemLp e q β)
    (ei : ∫ a, i a ∂α = 0) (et : ∀ x, ∫ a, t x a ∂α = 0) (eu : ∫ b, u b ∂β = 0) (ee : ∫ b, e b ∂β = 0) :
    PlivLaw ((μX.prod α).prod β) y d z (fun w => w.1.1) θ g m r q := by
  have hy' := funext hy
  have hz' := funext hz
  have hd' := funext hd
  have md : Measurable d := by
    rw [hd']
    exact ((mr.comp measurable_fst.fst).add (mt.comp measurable_fst)).add (mu.comp measurable_snd)
  have p1 : MeasurePreserving (fun w : (𝒳 × A) × B => w.1) ((μX.prod α).prod β) (μX.prod α) := measurePreserving_fst
  have p2 : MeasurePreserving (fun w : (𝒳 × A) × B => w.1.2) ((μX.prod α).prod β) α := measurePreserving_snd.comp measurePreserving_fst
  have p3 : MeasurePreserving (fun w : (𝒳 × A) × B => w.2) ((μX.prod α).prod β) β := measurePreserving_snd
  have r1 : (fun w => y w - θ * d w - g w.1.1) = fun w : (𝒳 × A) × B => e w.2 := funext fun w => by rw [hy w]; ring
  have r2 : (fun w => z w - m w.1.1) = fun w : (𝒳 × A) × B => i w.1.2 := funext fun w => by rw [hz w]; ring
  have r3 : (fun w => d w - r w.1.1) = fun w : (𝒳 × A) × B => t w.1.1 w.1.2 + u w.2 := funext fun w => by rw [hd w]; ring
  have l3 : MemLp (fun w : (𝒳 × A) × B => t w.1.1 w.1.2 + u w.2) q ((μX.prod α).prod β) :=
    (lt.comp_measurePreserving p1).add (lu.comp_measurePreserving p3)
  refine ⟨?_, md, ?_, measurable_fst.fst, mg, mm, mr, ?_, ?_, ?_, ?_, ?_, ?_⟩
  · rw [hy']
    exact ((md.const_mul θ).add (mg.comp measurable_fst.fst)).add (me.comp measurable_snd)
  · rw [hz']
    exact (mm.comp measurable_fst.fst).add (mi.comp measurable_fst.snd)
  · rw [r1]
    have : MeanZeroGiven ((μX.prod α).prod β) (fun w => w.1) fun w => e w.2 :=
      MeanZeroGiven.preserving (φ := id) (MeasurePreserving.id _) (h := fun w => e w.2) ((le.comp_measurePreserving p3).integrable hq) fun _ => ee
    refine this.mono measurable_fst (φ := fun a : 𝒳 × A => (m a.1 + i a.2, a.1)) ?_ fun w => by rw [hz w]
    exact ((mm.comp measurable_fst).add (mi.comp measurable_snd)).prodMk measurable_fst
  · rw [r2]
    exact MeanZeroGiven.preserving p1 (h := fun w => i w.2)
      ((li.comp_measurePreserving (measurePreserving_snd (μ := μX))).integrable hq) fun _ => ei
  · rw [r3]
    have t1 : MeanZeroGiven ((μX.prod α).prod β) (fun w => w.1.1) fun w => t w.1.1 w.1.2 :=
      MeanZeroGiven.preserving p1 (h := fun a : 𝒳 × A => t a.1 a.2) (lt.integrable hq) et
    have t2 : MeanZeroGiven ((μX.prod α).prod β) (fun w => w.1) fun w => u w.2 :=
      MeanZeroGiven.preserving (φ := id) (MeasurePreserving.id _) (h := fun w => u w.2) ((lu.comp_measurePreserving p3).integrable hq) fun _ => eu
    exact t1.add (t2.mono measurable_fst (φ := Prod.fst) measurable_fst fun w => rfl)
      ((lt.comp_measurePreserving p1).integrable hq) ((lu.comp_measurePreserving p3).integrable hq)
  · rw [r1]; exact le.comp_measurePreserving p3
  · rw [r2]; exact li.comp_measurePreserving p2
  · rw [r3]; exact l3

theorem simM_bdd (x : ℝ) : |simM x| ≤ 0.5 / Real.pi * Real.sinh 1 / (Real.cosh 1 - 1) := by
  have h1 : 1 < Real.cosh 1 := Real.one_lt_cosh.2 one_ne_zero
  have h2 := Real.cos_le_one (x - 0)
  have h3 : 0 < Real.sinh 1 := Real.sinh_pos_iff.2 one_pos
  have h4 := Real.pi_pos
  unfold simM
  rw [abs_of_nonneg (div_nonneg (by positivity) (by linarith))]
  exact div_le_div_of_nonneg_left (by positivity) (by linarith) (by linarith)

/-- The law of the draws of one observation of `make_pliv_data`: covariates, error of the instrument, errors of treatment and outcome. -/
noncomputable def plivDraws {𝒳 : Type*} [MeasurableSpace 𝒳] (μX : Measure 𝒳) : Measure ((𝒳 × ℝ) × (ℝ × ℝ)) :=
  (μX.prod (gaussianReal 0 1)).prod ((gaussianReal 0 1).prod (gaussianReal 0 1))

/-- **C80.** The observations of `_make_pliv_data` follow the partially linear model with an instrument and parameter `theta`, for every
distribution of the covariates. -/
theorem C80_pliv (theta gammaZ : ℝ) (μX : Measure (Fin p → ℝ)) [IsProbabilityMeasure μX] {q : ℝ≥0∞} (hq : 1 ≤ q) (hq' : q ≠ ∞) :
    ∃ (y : (Fin p → ℝ) → ℝ → ℝ → ℝ → ℝ) (d : (Fin p → ℝ) → ℝ → ℝ → ℝ) (z : (Fin p → ℝ) → ℝ → ℝ) (g m r : (Fin p → ℝ) → ℝ),
      (∀ (n : ℕ) (X : Fin n → Fin p → ℝ) (e v ζ : Fin n → ℝ), makePliv theta gammaZ .array X e v ζ =
        .ok (.arrays (matCols X) [fun i => y (X i) (e i) (v i) (ζ i), fun i => d (X i) (e i) (v i), fun i => z (X i) (e i)])) ∧
      PlivLaw (plivDraws μX) (fun w => y w.1.1 w.1.2 w.2.1 w.2.2) (fun w => d w.1.1 w.1.2 w.2.1) (fun w => z w.1.1 w.1.2)
        (fun w => w.1.1) theta g m r q := by
  obtain ⟨hm, h0, h2⟩ := stdNormal_moments hq'
  have md : Measurable fun a : (Fin p → ℝ) × ℝ => dotp a.1 (harmonic p) := (measurable_dotp _).comp measurable_fst
  have ms : Measurable fun x : ℝ => simM x := measurable_simM 0 1
  have mf : Measurable fun a : (Fin p → ℝ) × ℝ => simM (gammaZ * (simM (dotp a.1 (harmonic p)) + a.2) + dotp a.1 (harmonic p)) :=
    ms.comp ((((ms.comp md).add measurable_snd).const_mul gammaZ).add md)
  let r : (Fin p → ℝ) → ℝ := fun x => ∫ e, simM (gammaZ * (simM (dotp x (harmonic p)) + e) + dotp x (harmonic p)) ∂(gaussianReal 0 1)
  have mr : Measurable r := (mf.stronglyMeasurable.integral_prod_right' (ν := gaussianReal 0 1)).measurable
  have br : ∀ x, |r x| ≤ 0.5 / Real.pi * Real.sinh 1 / (Real.cosh 1 - 1) := fun x => by
    have := norm_integral_le_of_norm_le_const (μ := gaussianReal 0 1)
      (f := fun e => simM (gammaZ * (simM (dotp x (harmonic p)) + e) + dotp x (harmonic p))) (Eventually.of_forall fun e => simM_bdd _)
    simpa using this
  have mt : Measurable fun a : (Fin p → ℝ) × ℝ => simM (gammaZ * (simM (dotp a.1 (harmonic p)) + a.2) + dotp a.1 (harmonic p)) - r a.1 :=
    mf.sub (mr.comp measurable_fst)
  refine ⟨fun x e v ζ => theta * (simM (gammaZ * (simM (dotp x (harmonic p)) + e) + dotp x (harmonic p)) + v) +
      simG (dotp x (harmonic p)) + ζ,
    fun x e v => simM (gammaZ * (simM (dotp x (harmonic p)) + e) + dotp x (harmonic p)) + v,
    fun x e => simM (dotp x (harmonic p)) + e, fun x => simG (dotp x (harmonic p)), fun x => simM (dotp x (harmonic p)), r, ?_, ?_⟩
  · intro n X e v ζ
    rfl
  · refine plivLaw_of_errors hq (i := fun e => e) (u := fun b => b.1) (e := fun b => b.2)
      (t := fun x e => simM (gammaZ * (simM (dotp x (harmonic p)) + e) + dotp x (harmonic p)) - r x) (fun w => rfl) (fun w => rfl)
      (fun w => by ring) (measurable_simG.comp (measurable_dotp _)) (ms.comp (measurable_dotp _)) mr mt measurable_id measurable_fst measurable_snd
      hm ?_ (hm.comp_measurePreserving measurePreserving_fst) (hm.comp_measurePreserving measurePreserving_snd) h0 ?_ ?_ ?_
    · refine MemLp.of_bound mt.aestronglyMeasurable (2 * (0.5 / Real.pi * Real.sinh 1 / (Real.cosh 1 - 1))) (Eventually.of_forall fun a => ?_)
      have h3 := simM_bdd (gammaZ * (simM (dotp a.1 (harmonic p)) + a.2) + dotp a.1 (harmonic p))
      have h4 := br a.1
      rw [Real.norm_eq_abs]
      exact (abs_sub _ _).trans (by linarith)
    · intro x
      rw [integral_sub, integral_const]
      · simp [r]
      · exact Integrable.of_bound (mf.comp (measurable_const.prodMk measurable_id)).aestronglyMeasurable _ (Eventually.of_forall fun e => simM_bdd _)
      · exact integrable_const _
    · exact (integral_preserving measurePreserving_fst measurable_id.aestronglyMeasurable).trans h0
    · exact (integral_preserving measurePreserving_snd measurable_id.aestronglyMeasurable).trans h0

/-- **C80.** The observations of `make_pliv_CHS2015` follow, with each of the instruments, the partially linear model with an instrument and
parameter `alpha`: for every distribution of the covariates, and errors of outcome and treatment with mean zero that may be correlated.  With
errors of the instruments as in the code (uncorrelated, variance 1/4), instrument `j` is relevant. -/
theorem C80_pliv_chs {k : ℕ} (hk : k ≤ p) (alpha : ℝ) (μX : Measure (Fin p → ℝ)) [IsProbabilityMeasure μX] (ξ : Measure (Fin k → ℝ)) [IsGaussian ξ]
    (ν : Measure (ℝ × ℝ)) [IsGaussian ν] (hξ : ∀ j, ∫ a, a j ∂ξ = 0) (hν1 : ∫ b, b.1 ∂ν = 0) (hν2 : ∫ b, b.2 ∂ν = 0)
    (hcov : ∀ i j, ∫ a, a i * a j ∂ξ = if i = j then 1 / 4 else 0) {q : ℝ≥0∞} (hq : 1 ≤ q) (hq' : q ≠ ∞) :
    ∃ (y : (Fin p → ℝ) → (Fin k → ℝ) → ℝ → ℝ → ℝ) (d : (Fin p → ℝ) → (Fin k → ℝ) → ℝ → ℝ) (z : Fin k → (Fin p → ℝ) → (Fin k → ℝ) → ℝ)
      (g : (Fin p → ℝ) → ℝ) (m : Fin k → (Fin p → ℝ) → ℝ) (r : (Fin p → ℝ) → ℝ),
      (∀ (n : ℕ) (X : Fin n → Fin p → ℝ) (eps u : Fin n → ℝ) (a : Fin n → Fin k → ℝ), makePlivChs alpha .array X eps u a =
        .ok (.arrays (matCols X) ([fun i => y (X i) (a i) (u i) (eps i), fun i => d (X i) (a i) (u i)] ++ List.ofFn fun j i => z j (X i) (a i)))) ∧
      ∀ j, PlivLaw ((μX.prod ξ).prod ν) (fun w => y w.1.1 w.1.2 w.2.2 w.2.1) (fun w => d w.1.1 w.1.2 w.2.2) (fun w => z j w.1.1 w.1.2)
          (fun w => w.1.1) alpha g (m j) r q ∧
        ∫ w, (d w.1.1 w.1.2 w.2.2 - r w.1.1) * (z j w.1.1 w.1.2 - m j w.1.1) ∂((μX.prod ξ).prod ν) = 1 / 4 / ((j : ℝ) + 1) ^ 2 := by
  obtain ⟨l1, l2⟩ := gaussian_pair (ν := ν) hq'
  have mdx : Measurable fun x : Fin p → ℝ => dotp x (invSquares p) := measurable_dotp _
  have mdz : Measurable fun a : Fin k → ℝ => dotp a (invSquares k) := measurable_dotp _
  have mpart : Measurable fun x : Fin p → ℝ => dotp (fun j : Fin k => x (Fin.castLE hk j)) (invSquares k) :=
    mdz.comp (measurable_pi_iff.2 fun j => measurable_pi_apply _)
  have split : ∀ (x : Fin p → ℝ) (a : Fin k → ℝ), dotp (fun j => x (Fin.castLE hk j) + a j) (invSquares k) =
      dotp (fun j : Fin k => x (Fin.castLE hk j)) (invSquares k) + dotp a (invSquares k) := fun x a => by
    unfold dotp
    rw [← Finset.sum_add_distrib]
    exact Finset.sum_congr rfl fun j _ => by ring
  refine ⟨fun x a u e => alpha * (dotp x (invSquares p) + dotp (fun j => x (Fin.castLE hk j) + a j) (invSquares k) + u) +
      dotp x (invSquares p) + e,
    fun x a u => dotp x (invSquares p) + dotp (fun j => x (Fin.castLE hk j) + a j) (invSquares k) + u,
    fun j x a => x (Fin.castLE hk j) + a j, fun x => dotp x (invSquares p), fun j x => x (Fin.castLE hk j),
    fun x => dotp x (invSquares p) + dotp (fun j : Fin k => x (Fin.castLE hk j)) (invSquares k), ?_, fun j => ⟨?_, ?_⟩⟩
  · intro n X eps u a
    unfold makePlivChs
    rw [dif_pos hk]
    show Except.ok (SimOut.arrays (matCols X) (List.map Prod.snd ([(_, _), (_, _)] ++ (numbered "Z" k).zip (matCols _)))) = _
    rw [List.map_append, List.map_snd_zip]
    · rfl
    · simp [numbered, matCols]
  · refine plivLaw_of_errors hq (i := fun a : Fin k → ℝ => a j) (t := fun _ a => dotp a (invSquares k)) (u := fun b => b.2) (e := fun b => b.1)
      (fun w => rfl) (fun w => rfl) (fun w => ?_) mdx (measurable_pi_apply _) (mdx.add mpart) (mdz.comp measurable_snd) (measurable_pi_apply _)
      measurable_snd measurable_fst (gaussian_coord j hq') ((gaussian_dot _ hq').comp_measurePreserving measurePreserving_snd) l2 l1 (hξ j)
      (fun _ => gaussian_dot_mean hξ _) hν2 hν1
    dsimp only
    rw [split]
    ring
  · have e : ∀ w : ((Fin p → ℝ) × (Fin k → ℝ)) × (ℝ × ℝ), (dotp w.1.1 (invSquares p) + dotp (fun j => w.1.1 (Fin.castLE hk j) + w.1.2 j) (invSquares k) + w.2.2 -
        (dotp w.1.1 (invSquares p) + dotp (fun j : Fin k => w.1.1 (Fin.castLE hk j)) (invSquares k))) *
        (w.1.1 (Fin.castLE hk j) + w.1.2 j - w.1.1 (Fin.castLE hk j)) =
        dotp w.1.2 (invSquares k) * w.1.2 j + w.1.2 j * w.2.2 := fun w => by
      rw [split]
      ring
    have p2 : MeasurePreserving (fun w : ((Fin p → ℝ) × (Fin k → ℝ)) × (ℝ × ℝ) => w.1.2) ((μX.prod ξ).prod ν) ξ :=
      measurePreserving_snd.comp measurePreserving_fst
    have p3 : MeasurePreserving (fun w : ((Fin p → ℝ) × (Fin k → ℝ)) × (ℝ × ℝ) => w.2) ((μX.prod ξ).prod ν) ν := measurePreserving_snd
    have i2 : ∀ j, MemLp (fun a : Fin k → ℝ => a j) 2 ξ := fun j => gaussian_coord j (by simp)
    have l2' := (gaussian_pair (ν := ν) (q := 2) (by simp)).2
    have i1 : Integrable (fun a : Fin k → ℝ => dotp a (invSquares k) * a j) ξ :=
      (gaussian_dot (invSquares k) (q := 2) (by simp)).integrable_mul (i2 j)
    have i1' : Integrable (fun w : ((Fin p → ℝ) × (Fin k → ℝ)) × (ℝ × ℝ) => dotp w.1.2 (invSquares k) * w.1.2 j) ((μX.prod ξ).prod ν) :=
      p2.integrable_comp_of_integrable i1
    have i3 : Integrable (fun w : ((Fin p → ℝ) × (Fin k → ℝ)) × (ℝ × ℝ) => w.1.2 j * w.2.2) ((μX.prod ξ).prod ν) :=
      ((i2 j).comp_measurePreserving p2).integrable_mul (l2'.comp_measurePreserving p3)
    have e2 : ∫ w : ((Fin p → ℝ) × (Fin k → ℝ)) × (ℝ × ℝ), w.1.2 j * w.2.2 ∂((μX.prod ξ).prod ν) = 0 := by
      rw [integral_prod_mul (fun a : (Fin p → ℝ) × (Fin k → ℝ) => a.2 j) (fun b : ℝ × ℝ => b.2), hν2, mul_zero]
    refine (integral_congr_ae (Eventually.of_forall e)).trans ?_
    rw [integral_add i1' i3, e2, add_zero,
      integral_preserving p2 (f := fun a : Fin k → ℝ => dotp a (invSquares k) * a j) i1.aestronglyMeasurable]
    have e3 : ∀ a : Fin k → ℝ, dotp a (invSquares k) * a j = ∑ i, invSquares k i * (a i * a j) := fun a => by
      unfold dotp
      rw [Finset.sum_mul]
      exact Finset.sum_congr rfl fun i _ => by ring
    simp only [e3]
    have i4 : ∀ i, Integrable (fun a : Fin k → ℝ => invSquares k i * (a i * a j)) ξ := fun i => ((i2 i).integrable_mul (i2 j)).const_mul _
    rw [integral_finsetSum _ fun i _ => i4 i]
    simp only [integral_const_mul, hcov, mul_ite, mul_zero, Finset.sum_ite_eq', Finset.mem_univ, if_true]
    unfold invSquares
    ring

end DML
