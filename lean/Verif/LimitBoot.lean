import Verif.LimitGauss
import Verif.LimitFit
import Verif.MultipliersProps

/-!
# Large samples: quantiles of the multiplier bootstrap

The bootstrap statistics with standard normal multipliers, the number of draws growing with the sample: the quantile of
the largest absolute statistic converges in probability to the quantile of the largest of the limiting normal variables.
-/

namespace DML

open MeasureTheory ProbabilityTheory Filter Topology Finset
open scoped ENNReal

variable {Ω : Type*} {mΩ : MeasurableSpace Ω} {P : Measure Ω} {p : ℕ}

/-! ## Normal multipliers -/

/-- Multipliers of all repetitions, draws and observations. -/
abbrev Multipliers := ℕ × ℕ × ℕ → ℝ

/-- Independent standard normal multipliers: what numpy documents for `np.random.normal(loc=0.0, scale=1.0, size=…)`
(/repo/doubleml/utils/_estimation.py:171-172). -/
noncomputable def normalDraws : Measure Multipliers := Measure.infinitePi fun _ => gaussianReal 0 1

instance : IsProbabilityMeasure normalDraws := by
  unfold normalDraws
  infer_instance

/-- The multipliers of draw `b` in repetition `k`. -/
def row (k b n : ℕ) (ζ : Multipliers) : Fin n → ℝ := fun i => ζ (k, b, i)

theorem row_meas (k b n : ℕ) : Measurable (row k b n) := measurable_pi_lambda _ fun _ => measurable_pi_apply _

theorem coord_indep : iIndepFun (fun (q : ℕ × ℕ × ℕ) (ζ : Multipliers) => ζ q) normalDraws :=
  iIndepFun_infinitePi (P := fun _ => gaussianReal 0 1) (X := fun _ x => x) fun _ => measurable_id

theorem coord_law (q : ℕ × ℕ × ℕ) : normalDraws.map (fun ζ : Multipliers => ζ q) = gaussianReal 0 1 :=
  Measure.infinitePi_map_eval (fun _ => gaussianReal 0 1) q

theorem rows (k n B : ℕ) : IndepObs normalDraws fun (b : Fin B) ζ => row k b n ζ where
  meas b := row_meas k b n
  indep := group_indep (X := fun (b : Fin B) (i : Fin n) (ζ : Multipliers) => ζ (k, b, i)) (fun b i => measurable_pi_apply _)
    (coord_indep.precomp (g := fun q : Fin B × Fin n => ((k, (q.1 : ℕ), (q.2 : ℕ)) : ℕ × ℕ × ℕ)) fun x y h => by
      simp only [Prod.mk.injEq, true_and] at h
      exact Prod.ext (Fin.ext h.1) (Fin.ext h.2))

theorem row_law (k b n : ℕ) : normalDraws.map (row k b n) = Measure.pi fun _ => gaussianReal 0 1 := by
  rw [← Measure.infinitePi_eq_pi]
  exact group_law (X := fun (i : Fin n) (ζ : Multipliers) => ζ (k, b, i)) (fun i => measurable_pi_apply _)
    (coord_indep.precomp (g := fun i : Fin n => ((k, b, (i : ℕ)) : ℕ × ℕ × ℕ)) fun x y h => by
      simp only [Prod.mk.injEq, true_and] at h
      exact Fin.ext h) fun i => coord_law _

/-! ## The share of draws in which no statistic exceeds a bound -/

open Classical in
/-- Whether no component of the linear statistic exceeds `x`. -/
noncomputable def below {n : ℕ} (c : Fin n → Fin p → ℝ) (x : ℝ) (w : Fin n → ℝ) : ℝ := if ∀ j, |∑ i, w i * c i j| ≤ x then 1 else 0

theorem belowSet_meas (n : ℕ) (x : ℝ) : MeasurableSet {z : (Fin n → Fin p → ℝ) × (Fin n → ℝ) | ∀ j, |∑ i, z.2 i * z.1 i j| ≤ x} := by
  have : {z : (Fin n → Fin p → ℝ) × (Fin n → ℝ) | ∀ j, |∑ i, z.2 i * z.1 i j| ≤ x} =
      ⋂ j, {z : (Fin n → Fin p → ℝ) × (Fin n → ℝ) | |∑ i, z.2 i * z.1 i j| ≤ x} := by
    ext z
    simp
  rw [this]
  exact MeasurableSet.iInter fun j => measurableSet_le (by fun_prop) measurable_const

theorem below_meas2 (n : ℕ) (x : ℝ) : Measurable fun z : (Fin n → Fin p → ℝ) × (Fin n → ℝ) => below z.1 x z.2 := by
  unfold below
  exact Measurable.ite (belowSet_meas n x) measurable_const measurable_const

theorem below_meas {n : ℕ} (c : Fin n → Fin p → ℝ) (x : ℝ) : Measurable (below c x) :=
  (below_meas2 n x).comp (measurable_const.prodMk measurable_id)

theorem below_le {n : ℕ} (c : Fin n → Fin p → ℝ) (x : ℝ) (w : Fin n → ℝ) : |below c x w| ≤ 1 := by
  unfold below
  split_ifs <;> simp

theorem below_integral {n : ℕ} (c : Fin n → Fin p → ℝ) (x : ℝ) (μ : Measure (Fin n → ℝ)) [IsFiniteMeasure μ] :
    ∫ w, below c x w ∂μ = μ.real {w | ∀ j, |∑ i, w i * c i j| ≤ x} := by
  have hm : MeasurableSet {w : Fin n → ℝ | ∀ j, |∑ i, w i * c i j| ≤ x} :=
    (measurable_const.prodMk measurable_id : Measurable fun w : Fin n → ℝ => (c, w)) (belowSet_meas n x)
  rw [← integral_indicator_one hm]
  refine integral_congr_ae (Eventually.of_forall fun w => ?_)
  unfold below
  rw [Set.indicator_apply]
  rfl

/-- The share of draws in which no statistic exceeds `x`. -/
noncomputable def share {n : ℕ} (c : Fin n → Fin p → ℝ) (x : ℝ) (B k : ℕ) (ζ : Multipliers) : ℝ :=
  mean fun b : Fin B => below c x (row k b n ζ)

theorem share_chebyshev {n : ℕ} (c : Fin n → Fin p → ℝ) (x : ℝ) {B : ℕ} (hB : 0 < B) (k : ℕ) {ε : ℝ} (hε : 0 < ε) :
    normalDraws {ζ | ε ≤ |share c x B k ζ - (Measure.pi fun _ : Fin n => gaussianReal 0 1).real {w | ∀ j, |∑ i, w i * c i j| ≤ x}|} ≤
      ENNReal.ofReal (1 / (B * ε ^ 2)) := by
  have hB' : (0 : ℝ) < B := by exact_mod_cast hB
  have hr : ∀ b ∈ (Finset.univ : Finset (Fin B)), risk (normalDraws.map (row k b n)) (below c x) ≤ 1 := fun b _ => by
    unfold risk
    have : IsProbabilityMeasure (normalDraws.map (row k b n)) := Measure.isProbabilityMeasure_map (row_meas k b n).aemeasurable
    refine (lintegral_mono (g := fun _ => 1) fun w => ?_).trans (by simp)
    have h1 : ‖below c x w‖ₑ ≤ 1 := by
      rw [← ofReal_norm, Real.norm_eq_abs, ← ENNReal.ofReal_one]
      exact ENNReal.ofReal_le_ofReal (below_le c x w)
    exact pow_le_one' h1 2
  have h := (rows k n B).chebyshev Finset.univ (below_meas c x) ENNReal.one_ne_top hr (mul_pos hB' hε)
  refine le_trans (measure_mono fun ζ hζ => ?_) (h.trans (le_of_eq ?_))
  · rw [Set.mem_ofPred_eq] at hζ ⊢
    simp only [row_law, below_integral]
    rw [Finset.sum_sub_distrib, Finset.sum_const, Finset.card_univ, Fintype.card_fin, nsmul_eq_mul]
    unfold share mean at hζ
    generalize (Measure.pi fun _ : Fin n => gaussianReal 0 1).real {w | ∀ j, |∑ i, w i * c i j| ≤ x} = f at hζ ⊢
    have e : ∑ b : Fin B, below c x (row k b n ζ) - B * f = B * ((∑ b : Fin B, below c x (row k b n ζ)) / B - f) := by
      field_simp
    rw [e, abs_mul, abs_of_pos hB']
    exact mul_le_mul_of_nonneg_left hζ hB'.le
  · rw [Finset.card_univ, Fintype.card_fin, mul_one, ← ENNReal.ofReal_natCast, ← ENNReal.ofReal_div_of_pos (by positivity)]
    congr 1
    field_simp

/-- The share converges in probability to the probability in the limit. -/
theorem IsCorr.share [IsProbabilityMeasure P] {R : Matrix (Fin p) (Fin p) ℝ} (h : IsCorr R) {c : ∀ n, Ω → Fin n → Fin p → ℝ}
    (mc : ∀ n i j, Measurable fun ω => c n ω i j) (hc : ∀ j l, oP P fun n ω => ∑ i, c n ω i j * c n ω i l - R j l)
    {B : ℕ → ℕ} (hB : Tendsto B atTop atTop) (k : ℕ) (x : ℝ) :
    oP (P.prod normalDraws) fun n z => DML.share (c n z.1) x (B n) k z.2 - maxProb R x := by
  intro ε hε
  obtain ⟨δ, hδ, hnear⟩ := h.near x (by linarith : 0 < ε / 2)
  have hBr : Tendsto (fun n => (B n : ℝ)) atTop atTop := tendsto_natCast_atTop_atTop.comp hB
  have mcn : ∀ n, Measurable (c n) := fun n => measurable_pi_lambda _ fun i => measurable_pi_lambda _ fun j => mc n i j
  have mshare : ∀ n, Measurable fun z : Ω × Multipliers => DML.share (c n z.1) x (B n) k z.2 := by
    intro n
    unfold DML.share
    exact Measurable.mean' fun b => (below_meas2 n x).comp (((mcn n).comp measurable_fst).prodMk
      ((row_meas k b n).comp measurable_snd))
  let far : ℕ → Set Ω := fun n => ⋃ j, ⋃ l, {ω | δ ≤ |∑ i, c n ω i j * c n ω i l - R j l|}
  have mfar : ∀ n, MeasurableSet (far n) := fun n => MeasurableSet.iUnion fun j => MeasurableSet.iUnion fun l =>
    measurableSet_le measurable_const ((Finset.measurable_fun_sum _ fun i _ => (mc n i j).mul (mc n i l)).sub_const _).norm
  have hfar : Tendsto (fun n => P (far n)) atTop (𝓝 0) := by
    have hs : Tendsto (fun n => ∑ j, ∑ l, P {ω | δ ≤ |∑ i, c n ω i j * c n ω i l - R j l|}) atTop (𝓝 (∑ _j : Fin p, ∑ _l : Fin p, 0)) :=
      tendsto_finsetSum _ fun j _ => tendsto_finsetSum _ fun l _ => hc j l δ hδ
    simp only [Finset.sum_const_zero] at hs
    refine tendsto_zero_of_le (Eventually.of_forall fun n => ?_) hs
    refine (measure_iUnion_fintype_le _ _).trans (Finset.sum_le_sum fun j _ => measure_iUnion_fintype_le _ _)
  have hlim : Tendsto (fun n => P (far n) + ENNReal.ofReal (1 / (B n * (ε / 2) ^ 2))) atTop (𝓝 0) := by
    have h2 : Tendsto (fun n => 1 / ((B n : ℝ) * (ε / 2) ^ 2)) atTop (𝓝 0) := by
      simp only [one_div]
      exact (hBr.atTop_mul_const (by positivity)).inv_tendsto_atTop
    have h3 := (ENNReal.continuous_ofReal.tendsto 0).comp h2
    rw [ENNReal.ofReal_zero] at h3
    simpa using hfar.add h3
  refine tendsto_zero_of_le ?_ hlim
  filter_upwards [hB.eventually_gt_atTop 0] with n hn
  have mD : MeasurableSet {z : Ω × Multipliers | ε ≤ |DML.share (c n z.1) x (B n) k z.2 - maxProb R x|} :=
    measurableSet_le measurable_const ((mshare n).sub_const _).norm
  rw [Measure.prod_apply mD]
  calc ∫⁻ ω, normalDraws (Prod.mk ω ⁻¹' {z : Ω × Multipliers | ε ≤ |DML.share (c n z.1) x (B n) k z.2 - maxProb R x|}) ∂P
      ≤ ∫⁻ ω, ((far n).indicator (fun _ => 1) ω + ENNReal.ofReal (1 / (B n * (ε / 2) ^ 2))) ∂P := by
        refine lintegral_mono fun ω => ?_
        by_cases hω : ω ∈ far n
        · refine le_trans prob_le_one (le_trans (le_of_eq ?_) le_self_add)
          rw [Set.indicator_of_mem hω]
        · refine le_trans ?_ le_add_self
          have hω' : ∀ j l, |∑ i, c n ω i j * c n ω i l - R j l| < δ := fun j l => by
            by_contra hcon
            exact hω (Set.mem_iUnion.2 ⟨j, Set.mem_iUnion.2 ⟨l, not_lt.1 hcon⟩⟩)
          have h1 := hnear n (c n ω) hω'
          refine le_trans (measure_mono fun ζ hζ => ?_) (share_chebyshev (c n ω) x hn k (by linarith : 0 < ε / 2))
          rw [Set.mem_preimage, Set.mem_ofPred_eq] at hζ
          rw [Set.mem_ofPred_eq]
          dsimp only at hζ
          generalize (Measure.pi fun _ : Fin n => gaussianReal 0 1).real {w | ∀ j, |∑ i, w i * c n ω i j| ≤ x} = f at h1 ⊢
          have := abs_sub_le (DML.share (c n ω) x (B n) k ζ) f (maxProb R x)
          linarith
    _ = _ := by
        rw [lintegral_add_right _ measurable_const, lintegral_indicator_const (mfar n), lintegral_const, measure_univ, one_mul, mul_one]

/-! ## Quantiles -/

theorem quantile_le_of_count {B : ℕ} (hB : 0 < B) (f : Fin B → ℝ) {l x : ℝ} (h0 : 0 ≤ l) (h1 : l ≤ 1)
    (hc : l * B + 2 ≤ ((Finset.univ.filter fun b => f b ≤ x).card : ℝ)) : quantile f l ≤ x := by
  unfold quantile
  rw [dif_pos hB]
  dsimp only
  have hB1 : (1 : ℝ) ≤ B := by exact_mod_cast hB
  have hpos : 0 ≤ l * ((B : ℝ) - 1) := mul_nonneg h0 (by linarith)
  have hlo : (⌊l * ((B : ℝ) - 1)⌋₊ : ℝ) ≤ l * (B - 1) := Nat.floor_le hpos
  have hlo2 : l * ((B : ℝ) - 1) < ⌊l * ((B : ℝ) - 1)⌋₊ + 1 := Nat.lt_floor_add_one _
  have hmin : min ⌊l * ((B : ℝ) - 1)⌋₊ (B - 1) = ⌊l * ((B : ℝ) - 1)⌋₊ := by
    refine min_eq_left (Nat.floor_le_of_le ?_)
    rw [Nat.cast_sub hB]
    push_cast
    nlinarith
  set k := min ⌊l * ((B : ℝ) - 1)⌋₊ (B - 1) with hk
  have hkr : (k : ℝ) ≤ l * (B - 1) := by rw [hmin]; exact hlo
  have hkr2 : l * ((B : ℝ) - 1) < k + 1 := by rw [hmin]; exact hlo2
  have hkth : ∀ m : Fin B, (m : ℕ) ≤ k + 1 → kth f m ≤ x := fun m hm => by
    rw [kth_le_iff]
    have h3 : ((k + 1 : ℕ) : ℝ) < ((Finset.univ.filter fun b => f b ≤ x).card : ℝ) := by
      push_cast
      nlinarith
    exact lt_of_le_of_lt hm (by exact_mod_cast h3)
  have a := hkth ⟨k, by omega⟩ (Nat.le_succ _)
  have b := hkth ⟨min (k + 1) (B - 1), by omega⟩ (min_le_left _ _)
  have hw0 : 0 ≤ l * ((B : ℝ) - 1) - k := by linarith
  have hw1 : l * ((B : ℝ) - 1) - k ≤ 1 := by linarith
  nlinarith

theorem le_quantile_of_count {B : ℕ} (hB : 0 < B) (f : Fin B → ℝ) {l x : ℝ} (h0 : 0 ≤ l) (h1 : l ≤ 1)
    (hc : ((Finset.univ.filter fun b => f b ≤ x).card : ℝ) ≤ l * B - 2) : x ≤ quantile f l := by
  unfold quantile
  rw [dif_pos hB]
  dsimp only
  have hB1 : (1 : ℝ) ≤ B := by exact_mod_cast hB
  have hpos : 0 ≤ l * ((B : ℝ) - 1) := mul_nonneg h0 (by linarith)
  have hlo : (⌊l * ((B : ℝ) - 1)⌋₊ : ℝ) ≤ l * (B - 1) := Nat.floor_le hpos
  have hlo2 : l * ((B : ℝ) - 1) < ⌊l * ((B : ℝ) - 1)⌋₊ + 1 := Nat.lt_floor_add_one _
  have hmin : min ⌊l * ((B : ℝ) - 1)⌋₊ (B - 1) = ⌊l * ((B : ℝ) - 1)⌋₊ := by
    refine min_eq_left (Nat.floor_le_of_le ?_)
    rw [Nat.cast_sub hB]
    push_cast
    nlinarith
  set k := min ⌊l * ((B : ℝ) - 1)⌋₊ (B - 1) with hk
  have hkr : (k : ℝ) ≤ l * (B - 1) := by rw [hmin]; exact hlo
  have hkr2 : l * ((B : ℝ) - 1) < k + 1 := by rw [hmin]; exact hlo2
  have hkth : ∀ m : Fin B, k ≤ (m : ℕ) → x ≤ kth f m := fun m hm => by
    refine le_of_lt (not_le.1 fun h => ?_)
    rw [kth_le_iff] at h
    have h3 : ((Finset.univ.filter fun b => f b ≤ x).card : ℝ) < k := by nlinarith
    have h4 : (Finset.univ.filter fun b => f b ≤ x).card < k := by exact_mod_cast h3
    omega
  have a := hkth ⟨k, by omega⟩ le_rfl
  have b := hkth ⟨min (k + 1) (B - 1), by omega⟩ (by dsimp only; omega)
  have hw0 : 0 ≤ l * ((B : ℝ) - 1) - k := by linarith
  have hw1 : l * ((B : ℝ) - 1) - k ≤ 1 := by linarith
  nlinarith

/-- The quantile of the largest absolute statistic converges in probability to the quantile in the limit. -/
theorem IsCorr.quantile [IsProbabilityMeasure P] {R : Matrix (Fin p) (Fin p) ℝ} (h : IsCorr R) (hp : 0 < p) {c : ∀ n, Ω → Fin n → Fin p → ℝ}
    (mc : ∀ n i j, Measurable fun ω => c n ω i j) (hc : ∀ j l, oP P fun n ω => ∑ i, c n ω i j * c n ω i l - R j l)
    {B : ℕ → ℕ} (hB : Tendsto B atTop atTop) (k : ℕ) {l q : ℝ} (h0 : 0 < l) (h1 : l < 1) (hq : 0 < q) (hql : maxProb R q = l)
    {M : ∀ n, Ω × Multipliers → Fin (B n) → ℝ}
    (hM : ∀ n z b x, 0 ≤ x → (M n z b ≤ x ↔ ∀ j, |∑ i, row k b n z.2 i * c n z.1 i j| ≤ x)) :
    oP (P.prod normalDraws) fun n z => DML.quantile (M n z) l - q := by
  intro ε' hε'
  set ε := min ε' q / 2 with hεdef
  have hε : 0 < ε := half_pos (lt_min hε' hq)
  have hεq : ε < q := by
    have := min_le_right ε' q
    linarith
  have hεε : ε < ε' := by
    have := min_le_left ε' q
    linarith
  have hup : l < maxProb R (q + ε) := by rw [← hql]; exact h.strict hp hq.le (by linarith)
  have hdn : maxProb R (q - ε) < l := by rw [← hql]; exact h.strict hp (by linarith) (by linarith)
  have hcard : ∀ n z x, 0 ≤ x → ((Finset.univ.filter fun b => M n z b ≤ x).card : ℝ) = B n * DML.share (c n z.1) x (B n) k z.2 := by
    intro n z x hx
    rcases Nat.eq_zero_or_pos (B n) with hB0 | hB0
    · have : (Finset.univ.filter fun b : Fin (B n) => M n z b ≤ x).card = 0 := by
        have hle := (Finset.card_filter_le (Finset.univ : Finset (Fin (B n))) fun b => M n z b ≤ x).trans
          (le_of_eq (Finset.card_univ.trans (Fintype.card_fin _)))
        omega
      rw [this, hB0]
      simp
    · have hB' : (B n : ℝ) ≠ 0 := by exact_mod_cast hB0.ne'
      unfold DML.share mean
      rw [mul_div_cancel₀ _ hB', Finset.card_filter]
      push_cast
      refine Finset.sum_congr rfl fun b _ => ?_
      unfold below
      simp only [hM n z b x hx]
  have hB2 : ∀ η : ℝ, 0 < η → ∀ᶠ n in atTop, 2 ≤ η * B n := fun η hη => by
    filter_upwards [(tendsto_natCast_atTop_atTop.comp hB : Tendsto (fun n => (B n : ℝ)) atTop atTop).eventually_ge_atTop (2 / η)] with n hn
    rw [div_le_iff₀ hη, Function.comp_apply] at hn
    linarith
  have e1 := h.share mc hc hB k (q + ε) ((maxProb R (q + ε) - l) / 2) (by linarith)
  have e2 := h.share mc hc hB k (q - ε) ((l - maxProb R (q - ε)) / 2) (by linarith)
  have hsum := e1.add e2
  rw [add_zero] at hsum
  refine tendsto_zero_of_le ?_ hsum
  filter_upwards [hB.eventually_gt_atTop 0, hB2 _ (by linarith : 0 < (maxProb R (q + ε) - l) / 2),
    hB2 _ (by linarith : 0 < (l - maxProb R (q - ε)) / 2)] with n hn k1 k2
  refine (measure_mono fun z hz => ?_).trans (measure_union_le _ _)
  rw [Set.mem_ofPred_eq] at hz
  by_contra hcon
  rw [Set.mem_union, not_or, Set.mem_ofPred_eq, Set.mem_ofPred_eq, not_le, not_le, abs_lt, abs_lt] at hcon
  obtain ⟨⟨u1, -⟩, -, u2⟩ := hcon
  have hBp : (0 : ℝ) < B n := by exact_mod_cast hn
  have hle : DML.quantile (M n z) l ≤ q + ε := quantile_le_of_count hn _ h0.le h1.le (by
    rw [hcard n z _ (by linarith)]
    nlinarith)
  have hge : q - ε ≤ DML.quantile (M n z) l := le_quantile_of_count hn _ h0.le h1.le (by
    rw [hcard n z _ (by linarith)]
    nlinarith)
  have : |DML.quantile (M n z) l - q| ≤ ε := abs_le.2 ⟨by linarith, by linarith⟩
  linarith

end DML
