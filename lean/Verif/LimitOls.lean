import Verif.BlpProps
import Verif.LimitFit
import Verif.Population
import Mathlib.LinearAlgebra.Matrix.ToLin

/-!
# Large samples: least squares with a fitted left hand side

The theory of least squares regressions of a fitted signal on known functions of the data: if the signal approaches a limit
and its error is asymptotically uncorrelated with the regressors, linear combinations of the coefficients are asymptotically
normal and the heteroscedasticity robust standard errors are consistent.  Nothing here models code of the package; the
specification of the external least squares routine is `LeastSquares` (BlpProps).
-/

namespace DML

open MeasureTheory ProbabilityTheory Filter Topology
open scoped ENNReal

/-! ## Solving nearly the same equations -/

section Perturb

variable {p : ℕ}

/-- If `G` inverts `A` and `M` is near `A`, solutions of `M u = v` are bounded by `v`. -/
theorem solve_bound {A M G : Fin p → Fin p → ℝ} (hG : ∀ a j, ∑ k, G a k * A k j = if a = j then 1 else 0)
    (hM : (∑ a, ∑ k, |G a k|) * (∑ k, ∑ j, |A k j - M k j|) ≤ 1 / 2) (u : Fin p → ℝ) :
    ∑ a, |u a| ≤ 2 * (∑ a, ∑ k, |G a k|) * ∑ k, |∑ j, M k j * u j| := by
  set κ := ∑ a, ∑ k, |G a k| with hκ
  set E := ∑ k, ∑ j, |A k j - M k j| with hE
  have hκ0 : 0 ≤ κ := Finset.sum_nonneg fun a _ => Finset.sum_nonneg fun k _ => abs_nonneg _
  have hU : 0 ≤ ∑ a, |u a| := Finset.sum_nonneg fun a _ => abs_nonneg _
  have hrow : ∀ a, u a = ∑ k, G a k * (∑ j, M k j * u j + ∑ j, (A k j - M k j) * u j) := by
    intro a
    have h1 : ∀ k, ∑ j, M k j * u j + ∑ j, (A k j - M k j) * u j = ∑ j, A k j * u j := fun k => by
      rw [← Finset.sum_add_distrib]
      exact Finset.sum_congr rfl fun j _ => by ring
    simp only [h1, Finset.mul_sum]
    rw [Finset.sum_comm]
    have h2 : ∀ j, ∑ k, G a k * (A k j * u j) = (if a = j then 1 else 0) * u j := fun j => by
      rw [← hG a j, Finset.sum_mul]
      exact Finset.sum_congr rfl fun k _ => by ring
    simp only [h2]
    simp
  have hk : ∀ k, |∑ j, M k j * u j + ∑ j, (A k j - M k j) * u j| ≤ (∑ k, |∑ j, M k j * u j|) + E * ∑ a, |u a| := by
    intro k
    refine (abs_add_le _ _).trans (add_le_add ?_ ?_)
    · exact Finset.single_le_sum (f := fun k => |∑ j, M k j * u j|) (fun _ _ => abs_nonneg _) (Finset.mem_univ k)
    · refine (Finset.abs_sum_le_sum_abs _ _).trans ?_
      have h1 : ∀ j, |(A k j - M k j) * u j| ≤ |A k j - M k j| * ∑ a, |u a| := fun j => by
        rw [abs_mul]
        refine mul_le_mul_of_nonneg_left ?_ (abs_nonneg _)
        exact Finset.single_le_sum (f := fun k => |u k|) (fun _ _ => abs_nonneg _) (Finset.mem_univ j)
      refine (Finset.sum_le_sum fun j _ => h1 j).trans ?_
      rw [← Finset.sum_mul]
      refine mul_le_mul_of_nonneg_right ?_ hU
      exact Finset.single_le_sum (f := fun k => ∑ j, |A k j - M k j|)
        (fun _ _ => Finset.sum_nonneg fun _ _ => abs_nonneg _) (Finset.mem_univ k)
  have hall : ∑ a, |u a| ≤ κ * ((∑ k, |∑ j, M k j * u j|) + E * ∑ a, |u a|) := by
    rw [hκ, Finset.sum_mul]
    refine Finset.sum_le_sum fun a _ => ?_
    rw [hrow a, Finset.sum_mul]
    refine (Finset.abs_sum_le_sum_abs _ _).trans (Finset.sum_le_sum fun k _ => ?_)
    rw [abs_mul]
    exact mul_le_mul_of_nonneg_left (hk k) (abs_nonneg _)
  have h2 : κ * E * ∑ a, |u a| ≤ 1 / 2 * ∑ a, |u a| := mul_le_mul_of_nonneg_right hM hU
  nlinarith

/-- The same for `M T M = V` with symmetric `M`. -/
theorem sandwich_bound {A M G T V : Fin p → Fin p → ℝ} (hG : ∀ a j, ∑ k, G a k * A k j = if a = j then 1 else 0)
    (hM : (∑ a, ∑ k, |G a k|) * (∑ k, ∑ j, |A k j - M k j|) ≤ 1 / 2) (hsym : ∀ j k, M j k = M k j)
    (hV : ∀ j k, ∑ a, ∑ c, M j a * T a c * M c k = V j k) :
    ∑ a, ∑ c, |T a c| ≤ (2 * ∑ a, ∑ k, |G a k|) * ((2 * ∑ a, ∑ k, |G a k|) * ∑ j, ∑ k, |V j k|) := by
  set κ := 2 * ∑ a, ∑ k, |G a k| with hκ
  have hκ0 : 0 ≤ κ := mul_nonneg zero_le_two (Finset.sum_nonneg fun a _ => Finset.sum_nonneg fun k _ => abs_nonneg _)
  have h1 : ∀ k, ∑ a, |∑ c, T a c * M c k| ≤ κ * ∑ j, |V j k| := fun k => by
    refine (solve_bound hG hM fun a => ∑ c, T a c * M c k).trans (le_of_eq ?_)
    congr 1
    refine Finset.sum_congr rfl fun j _ => ?_
    rw [← hV j k]
    congr 1
    refine Finset.sum_congr rfl fun a _ => ?_
    rw [Finset.mul_sum]
    exact Finset.sum_congr rfl fun c _ => by ring
  have h2 : ∀ a, ∑ c, |T a c| ≤ κ * ∑ k, |∑ c, T a c * M c k| := fun a => by
    refine (solve_bound hG hM fun c => T a c).trans (le_of_eq ?_)
    congr 1
    refine Finset.sum_congr rfl fun k _ => ?_
    congr 1
    exact Finset.sum_congr rfl fun c _ => by rw [hsym k c, mul_comm]
  calc ∑ a, ∑ c, |T a c| ≤ ∑ a, κ * ∑ k, |∑ c, T a c * M c k| := Finset.sum_le_sum fun a _ => h2 a
    _ = κ * ∑ k, ∑ a, |∑ c, T a c * M c k| := by rw [← Finset.mul_sum, Finset.sum_comm]
    _ ≤ κ * ∑ k, κ * ∑ j, |V j k| := by
      gcongr with k
      exact h1 k
    _ = _ := by rw [← Finset.mul_sum, Finset.sum_comm]

/-- Injective symmetric matrices can be inverted. -/
theorem exists_inverse {A : Fin p → Fin p → ℝ} (hsym : ∀ j k, A j k = A k j)
    (hinj : ∀ u : Fin p → ℝ, (∀ j, ∑ k, A j k * u k = 0) → u = 0) :
    ∃ G : Fin p → Fin p → ℝ, ∀ a j, ∑ k, G a k * A k j = if a = j then 1 else 0 := by
  let L : (Fin p → ℝ) →ₗ[ℝ] (Fin p → ℝ) := Matrix.toLin' (Matrix.of A)
  have hL : ∀ u j, L u j = ∑ k, A j k * u k := fun u j => by
    simp [L, Matrix.mulVec, dotProduct]
  have hi : Function.Injective L := by
    refine (injective_iff_map_eq_zero L).2 fun u hu => hinj u fun j => ?_
    rw [← hL, hu]
    rfl
  have hs : Function.Surjective L := LinearMap.injective_iff_surjective.1 hi
  choose G hG using fun a : Fin p => hs fun j => if a = j then 1 else 0
  refine ⟨G, fun a j => ?_⟩
  rw [← congrFun (hG a) j, hL]
  exact Finset.sum_congr rfl fun k _ => by rw [hsym j k, mul_comm]

end Perturb

variable {Ω : Type*} {mΩ : MeasurableSpace Ω} {P : Measure Ω} {S : Type*} [MeasurableSpace S] {W : ℕ → Ω → S}

theorem OP.congr_on {X Y : ℕ → Ω → ℝ} {B : ℕ → Set Ω} (h : OP P Y) (hB : Tendsto (fun n => P (B n)) atTop (𝓝 0))
    (hle : ∀ᶠ n in atTop, ∀ ω, ω ∉ B n → |X n ω| ≤ |Y n ω|) : OP P X := by
  intro η hη
  have h2 : 0 < η / 2 := ENNReal.div_pos hη.ne' (by simp)
  obtain ⟨M, hM, h⟩ := h (η / 2) h2
  refine ⟨M, hM, ?_⟩
  filter_upwards [h, hle, hB.eventually (Iic_mem_nhds h2)] with n hn hl hb
  calc P {ω | M ≤ |X n ω|} ≤ P ({ω | M ≤ |Y n ω|} ∪ B n) := measure_mono fun ω hω => by
        by_cases hb : ω ∈ B n
        · exact Or.inr hb
        · exact Or.inl (le_trans hω (hl ω hb))
    _ ≤ η / 2 + η / 2 := (measure_union_le _ _).trans (add_le_add hn hb)
    _ = η := ENNReal.add_halves η

theorem OP.sum {ι : Type*} (s : Finset ι) {X : ι → ℕ → Ω → ℝ} (h : ∀ i ∈ s, OP P (X i)) :
    OP P fun n ω => ∑ i ∈ s, X i n ω := by
  classical
  induction s using Finset.induction_on with
  | empty => simpa using OP_const (P := P) 0
  | insert a s ha ih =>
    have h1 := (h a (Finset.mem_insert_self a s)).add (ih fun i hi => h i (Finset.mem_insert_of_mem hi))
    refine h1.mono (Eventually.of_forall fun n ω => ?_)
    rw [Finset.sum_insert ha]

theorem OP.abs {X : ℕ → Ω → ℝ} (h : OP P X) : OP P fun n ω => |X n ω| :=
  h.mono (Eventually.of_forall fun n ω => by rw [abs_abs])

theorem oP.abs {X : ℕ → Ω → ℝ} (h : oP P X) : oP P fun n ω => |X n ω| :=
  h.mono (Eventually.of_forall fun n ω => by rw [abs_abs])

/-! ## Events about asymptotically normal statistics -/

/-- Asymptotically normal statistics are rarely near a given point. -/
theorem NormalLimit.band [IsProbabilityMeasure P] {Z : ℕ → Ω → ℝ} (hZ : NormalLimit P Z) (hm : ∀ n, Measurable (Z n)) (t : ℝ)
    {ε : ℝ} (hε : 0 < ε) : ∀ᶠ n in atTop, P {ω | |Z n ω - t| ≤ ε} ≤ ENNReal.ofReal (4 * ε) := by
  have h := (hZ.le (t + ε)).sub (hZ.le (t - 2 * ε))
  have hb : Phi (t + ε) - Phi (t - 2 * ε) < 4 * ε := by
    have := (le_abs_self _).trans (Phi_lipschitz (t + ε) (t - 2 * ε))
    rw [show t + ε - (t - 2 * ε) = 3 * ε by ring, abs_of_pos (by linarith)] at this
    linarith
  filter_upwards [h.eventually (Iio_mem_nhds hb)] with n hn
  rw [← ofReal_measureReal (h := measure_ne_top _ _)]
  refine ENNReal.ofReal_le_ofReal (le_trans ?_ (le_of_lt hn))
  have hs : {ω | Z n ω ≤ t - 2 * ε} ⊆ {ω | Z n ω ≤ t + ε} := fun ω (hω : Z n ω ≤ t - 2 * ε) => by
    show Z n ω ≤ t + ε
    linarith
  rw [← measureReal_sdiff hs (measurableSet_le (hm n) measurable_const)]
  refine measureReal_mono (fun ω (hω : |Z n ω - t| ≤ ε) => ?_) (measure_ne_top _ _)
  have := _root_.abs_le.1 hω
  refine ⟨?_, ?_⟩
  · show Z n ω ≤ t + ε
    linarith
  · show ¬ Z n ω ≤ t - 2 * ε
    linarith

/-- Statistics near an asymptotically normal one. -/
theorem NormalLimit.probTends_le [IsProbabilityMeasure P] {Z U : ℕ → Ω → ℝ} (hZ : NormalLimit P Z) (hm : ∀ n, Measurable (Z n))
    (h : oP P fun n ω => U n ω - Z n ω) (t : ℝ) : ProbTends P (fun n => {ω | U n ω ≤ t}) (Phi t) := by
  refine ProbTends.of_close (A' := fun n => {ω | Z n ω ≤ t}) (B := fun n => {ω | ¬ (U n ω ≤ t ↔ Z n ω ≤ t)})
    (fun n => measurableSet_le (hm n) measurable_const) (hZ.le t) ?_ (Eventually.of_forall fun n ω hω => not_not.1 hω)
  refine tendsto_zero_of_split fun η hη => ?_
  obtain ⟨ε, hε, hεη⟩ : ∃ ε : ℝ, 0 < ε ∧ ENNReal.ofReal (4 * ε) ≤ η := by
    by_cases h : η = ∞
    · exact ⟨1, one_pos, by rw [h]; exact le_top⟩
    · refine ⟨η.toReal / 4, div_pos (ENNReal.toReal_pos hη.ne' h) (by norm_num), ?_⟩
      rw [mul_div_cancel₀ _ (by norm_num), ENNReal.ofReal_toReal h]
  refine ⟨_, h ε hε, ?_⟩
  filter_upwards [hZ.band hm t hε] with n hn
  refine (measure_mono fun ω hω => ?_).trans ((measure_union_le {ω | ε ≤ |U n ω - Z n ω|} {ω | |Z n ω - t| ≤ ε}).trans
    (add_le_add le_rfl (hn.trans hεη)))
  by_contra hc
  simp only [Set.mem_union, Set.mem_ofPred_eq, not_or, not_le] at hc
  refine hω ?_
  have h1 := abs_lt.1 hc.1
  rcases lt_abs.1 hc.2 with h2 | h2
  · exact ⟨fun h => by linarith, fun h => by linarith⟩
  · exact ⟨fun _ => by linarith, fun _ => by linarith⟩

/-- Intervals around an asymptotically normal statistic. -/
theorem NormalLimit.probTends_cover [IsProbabilityMeasure P] {Z L U : ℕ → Ω → ℝ} (hZ : NormalLimit P Z) (hm : ∀ n, Measurable (Z n))
    {q : ℝ} (hq : 0 < q) (hU : oP P fun n ω => U n ω - (Z n ω + q)) (hL : oP P fun n ω => L n ω - (Z n ω - q)) :
    ProbTends P (fun n => {ω | L n ω ≤ 0 ∧ 0 ≤ U n ω}) (2 * Phi q - 1) := by
  refine ProbTends.of_close (A' := fun n => {ω | |Z n ω| ≤ q}) (B := fun n => {ω | ¬ ((L n ω ≤ 0 ∧ 0 ≤ U n ω) ↔ |Z n ω| ≤ q)})
    (fun n => measurableSet_le (hm n).norm measurable_const) (hZ.abs_le q hq.le) ?_ (Eventually.of_forall fun n ω hω => not_not.1 hω)
  refine tendsto_zero_of_split fun η hη => ?_
  obtain ⟨ε, hε, hεη⟩ : ∃ ε : ℝ, 0 < ε ∧ ENNReal.ofReal (4 * ε) + ENNReal.ofReal (4 * ε) ≤ η := by
    by_cases h : η = ∞
    · exact ⟨1, one_pos, by rw [h]; exact le_top⟩
    · refine ⟨η.toReal / 8, div_pos (ENNReal.toReal_pos hη.ne' h) (by norm_num), ?_⟩
      rw [← ENNReal.ofReal_add (by positivity) (by positivity), show 4 * (η.toReal / 8) + 4 * (η.toReal / 8) = η.toReal by ring,
        ENNReal.ofReal_toReal h]
  refine ⟨_, by simpa using (hU ε hε).add (hL ε hε), ?_⟩
  filter_upwards [hZ.band hm q hε, hZ.band hm (-q) hε] with n hn hn'
  refine (measure_mono fun ω hω => ?_).trans ((measure_union_le
    ({ω | ε ≤ |U n ω - (Z n ω + q)|} ∪ {ω | ε ≤ |L n ω - (Z n ω - q)|}) ({ω | |Z n ω - q| ≤ ε} ∪ {ω | |Z n ω - -q| ≤ ε})).trans
    (add_le_add (measure_union_le _ _) ((measure_union_le _ _).trans ((add_le_add hn hn').trans hεη))))
  by_contra hc
  simp only [Set.mem_union, Set.mem_ofPred_eq, not_or, not_le] at hc
  refine hω ?_
  have h1 := abs_lt.1 hc.1.1
  have h2 := abs_lt.1 hc.1.2
  rw [_root_.abs_le]
  rcases lt_abs.1 hc.2.1 with h3 | h3 <;> rcases lt_abs.1 hc.2.2 with h4 | h4
  all_goals
    constructor
    · rintro ⟨h5, h6⟩
      constructor <;> linarith
    · rintro ⟨h5, h6⟩
      constructor <;> linarith

/-- What follows from the limits of an estimate and its standard error. -/
theorem RepLimit.normal [IsProbabilityMeasure P] {Z : ℕ → Ω → ℝ} {σ θ : ℝ} {X T : ℕ → Ω → ℝ} (h : RepLimit P Z σ θ X T)
    (hZ : NormalLimit P Z) (hm : ∀ n, Measurable (Z n)) (hσ : 0 < σ) (t : ℝ) :
    ProbTends P (fun n => {ω | Real.sqrt n * (X n ω - θ) / σ ≤ t}) (Phi t) := by
  refine hZ.probTends_le hm ((h.linear.const_mul σ⁻¹).mono (Eventually.of_forall fun n ω => le_of_eq ?_)) t
  congr 1
  field_simp

theorem RepLimit.cover [IsProbabilityMeasure P] {Z : ℕ → Ω → ℝ} {σ θ : ℝ} {X T : ℕ → Ω → ℝ} (h : RepLimit P Z σ θ X T)
    (hZ : NormalLimit P Z) (hm : ∀ n, Measurable (Z n)) (hσ : 0 < σ) {q : ℝ} (hq : 0 < q) :
    ProbTends P (fun n => {ω | X n ω - q * T n ω ≤ θ ∧ θ ≤ X n ω + q * T n ω}) (2 * Phi q - 1) := by
  have key : ∀ e : ℝ, oP P fun n ω => Real.sqrt n * (X n ω + e * T n ω - θ) / σ - (Z n ω + e) := fun e => by
    refine ((h.linear.add (h.scale.const_mul e)).const_mul σ⁻¹).mono (Eventually.of_forall fun n ω => le_of_eq ?_)
    congr 1
    field_simp
    ring
  have hc := hZ.probTends_cover hm hq (key q) (L := fun n ω => Real.sqrt n * (X n ω + -q * T n ω - θ) / σ) (key (-q))
  refine ⟨hc.1.congr' ?_, hc.2.congr' ?_⟩ <;> filter_upwards [eventually_gt_atTop 0] with n hn
  all_goals
    have hn' : (0 : ℝ) < Real.sqrt n := Real.sqrt_pos.2 (by exact_mod_cast hn)
    congr 1
    try rw [compl_inj_iff]
    ext ω
    simp only [Set.mem_ofPred_eq]
    rw [le_div_iff₀ hσ, div_le_iff₀ hσ, zero_mul, mul_nonneg_iff_of_pos_left hn']
    refine and_congr ⟨fun h => ?_, fun h => ?_⟩ ⟨fun h => ?_, fun h => ?_⟩
    · by_contra hc
      have := mul_pos hn' (show 0 < X n ω + -q * T n ω - θ by linarith [not_le.1 hc])
      linarith
    · exact mul_nonpos_of_nonneg_of_nonpos hn'.le (by linarith)
    · linarith
    · linarith

/-- Convergence in probability as a statement about events. -/
theorem oP.probTends [IsProbabilityMeasure P] {X : ℕ → Ω → ℝ} (h : oP P X) {ε : ℝ} (hε : 0 < ε) :
    ProbTends P (fun n => {ω | |X n ω| < ε}) 1 := by
  refine ProbTends.of_close (A' := fun _ => Set.univ) (B := fun n => {ω | ε ≤ |X n ω|}) (fun n => MeasurableSet.univ) ?_ (h ε hε)
    (Eventually.of_forall fun n ω hω => ?_)
  · simp
  · simpa using hω

/-! ## Regressions of a fitted signal -/

section Regression

variable {p : ℕ}

/-- The population regression of `s0` on the bounded functions `x`: they are linearly independent and `β` solves the normal
equations. -/
structure OlsLaw (μ : Measure S) (x : S → Fin p → ℝ) (s0 : S → ℝ) (β : Fin p → ℝ) (C : ℝ) : Prop where
  measX : ∀ j, Measurable fun w => x w j
  bound : ∀ w j, |x w j| ≤ C
  measS : Measurable s0
  memS : MemLp s0 2 μ
  rank : ∀ u : Fin p → ℝ, ∫ w, (∑ j, x w j * u j) ^ 2 ∂μ = 0 → u = 0
  normal : ∀ j, ∫ w, x w j * (s0 w - ∑ k, x w k * β k) ∂μ = 0

/-- The fitted signals `s` approach `s0`, and their errors are asymptotically uncorrelated with `x`. -/
structure OlsSignal (P : Measure Ω) (W : ℕ → Ω → S) (x : S → Fin p → ℝ) (s0 : S → ℝ) (s : ∀ n, Ω → Fin n → ℝ) : Prop where
  close : oP P fun n ω => mean fun i : Fin n => (s n ω i - s0 (W i ω)) ^ 2
  drift : ∀ j, oP P fun n ω => Real.sqrt n * mean fun i : Fin n => x (W i ω) j * (s n ω i - s0 (W i ω))

/-- Full column rank. -/
def FullRank {n : ℕ} (X : Fin n → Fin p → ℝ) : Prop := ∀ u : Fin p → ℝ, (∀ i, ∑ j, X i j * u j = 0) → u = 0

variable {x : S → Fin p → ℝ} {s0 : S → ℝ} {β : Fin p → ℝ} {C : ℝ} {μ : Measure S}

/-- The residual of the population regression. -/
def olsRes (x : S → Fin p → ℝ) (s0 : S → ℝ) (β : Fin p → ℝ) (w : S) : ℝ := s0 w - ∑ k, x w k * β k

namespace OlsLaw

theorem memX [IsProbabilityMeasure μ] (h : OlsLaw μ x s0 β C) {q : ℝ≥0∞} (j : Fin p) : MemLp (fun w => x w j) q μ :=
  memLp_of_bdd (h.measX j) fun w => h.bound w j

theorem measRes (h : OlsLaw μ x s0 β C) : Measurable (olsRes x s0 β) :=
  h.measS.sub (Finset.measurable_sum _ fun k _ => (h.measX k).mul_const _)

theorem memRes [IsProbabilityMeasure μ] (h : OlsLaw μ x s0 β C) : MemLp (olsRes x s0 β) 2 μ :=
  h.memS.sub (memLp_finsetSum _ fun k _ => (h.memX k).mul_const _)

theorem memScore [IsProbabilityMeasure μ] (h : OlsLaw μ x s0 β C) (j : Fin p) : MemLp (fun w => x w j * olsRes x s0 β w) 2 μ :=
  (memLp_bdd_mul h.memRes (h.measX j) fun _ => h.bound _ j).ae_eq (Eventually.of_forall fun _ => mul_comm _ _)

theorem intXX [IsProbabilityMeasure μ] (h : OlsLaw μ x s0 β C) (j k : Fin p) : Integrable (fun w => x w j * x w k) μ :=
  (memLp_bdd_mul (h.memX (q := 1) j) (h.measX k) fun _ => h.bound _ k).integrable le_rfl

theorem intV [IsProbabilityMeasure μ] (h : OlsLaw μ x s0 β C) (j k : Fin p) :
    Integrable (fun w => x w j * x w k * olsRes x s0 β w ^ 2) μ := by
  have := (h.memScore j).integrable_mul (h.memScore k)
  refine this.congr (Eventually.of_forall fun w => ?_)
  simp only [Pi.mul_apply]
  ring

/-- The second moments of the regressors can be inverted. -/
theorem inverse [IsProbabilityMeasure μ] (h : OlsLaw μ x s0 β C) :
    ∃ G : Fin p → Fin p → ℝ, ∀ a j, ∑ k, G a k * ∫ w, x w k * x w j ∂μ = if a = j then 1 else 0 := by
  refine exists_inverse (A := fun j k => ∫ w, x w j * x w k ∂μ) (fun j k => ?_) fun u hu => h.rank u ?_
  · simp only [mul_comm]
  · have e : ∀ w, (∑ j, x w j * u j) ^ 2 = ∑ j, u j * ∑ k, x w j * x w k * u k := fun w => by
      rw [sq, Finset.sum_mul]
      refine Finset.sum_congr rfl fun j _ => ?_
      rw [Finset.mul_sum, Finset.mul_sum]
      exact Finset.sum_congr rfl fun k _ => by ring
    simp only [e]
    rw [integral_finsetSum _ fun j _ => (integrable_finsetSum _ fun k _ => (h.intXX j k).mul_const _).const_mul _]
    refine Finset.sum_eq_zero fun j _ => ?_
    rw [integral_const_mul, integral_finsetSum _ fun k _ => (h.intXX j k).mul_const _]
    simp only [integral_mul_const, hu j, mul_zero]

end OlsLaw

variable [IsProbabilityMeasure P] {s : ∀ n, Ω → Fin n → ℝ} {o : ℕ → Ω → OlsRes p}

/-- The means of products of regressors. -/
noncomputable def gram (W : ℕ → Ω → S) (x : S → Fin p → ℝ) (n : ℕ) (ω : Ω) (j k : Fin p) : ℝ :=
  mean fun i : Fin n => x (W i ω) j * x (W i ω) k

omit [IsProbabilityMeasure P] [MeasurableSpace S] mΩ in
theorem gram_symm (n : ℕ) (ω : Ω) (j k : Fin p) : gram W x n ω j k = gram W x n ω k j := by
  unfold gram
  simp only [mul_comm]

/-- Samples in which the means of products are not near their expectations. -/
def farGram (P : Measure Ω) (W : ℕ → Ω → S) (x : S → Fin p → ℝ) (G : Fin p → Fin p → ℝ) (n : ℕ) : Set Ω :=
  {ω | ¬ (∑ a, ∑ k, |G a k|) * (∑ k, ∑ j, |∫ w, x w k * x w j ∂(P.map (W 0)) - gram W x n ω k j|) ≤ 1 / 2}

theorem gram_lln (hW : Iid P W) (h : OlsLaw (P.map (W 0)) x s0 β C) (j k : Fin p) :
    oP P fun n ω => gram W x n ω j k - ∫ w, x w j * x w k ∂(P.map (W 0)) := by
  have := hW.prob 0
  exact hW.lln (f := fun w => x w j * x w k) ((h.measX j).mul (h.measX k)) (h.intXX j k)

theorem farGram_small (hW : Iid P W) (h : OlsLaw (P.map (W 0)) x s0 β C) (G : Fin p → Fin p → ℝ) :
    Tendsto (fun n => P (farGram P W x G n)) atTop (𝓝 0) := by
  have h0 : ∀ k j, oP P fun n ω => |∫ w, x w k * x w j ∂(P.map (W 0)) - gram W x n ω k j| := fun k j =>
    (gram_lln hW h k j).mono (Eventually.of_forall fun n ω => by rw [abs_abs, abs_sub_comm])
  unfold farGram
  have h1 : ∀ k, oP P fun n ω => ∑ j, |∫ w, x w k * x w j ∂(P.map (W 0)) - gram W x n ω k j| := fun k =>
    oP.sum Finset.univ fun j _ => h0 k j
  have h2 : oP P fun n ω => ∑ k, ∑ j, |∫ w, x w k * x w j ∂(P.map (W 0)) - gram W x n ω k j| :=
    oP.sum Finset.univ fun k _ => h1 k
  have h3 := h2.const_mul (∑ a, ∑ k, |G a k|)
  refine tendsto_zero_of_le (Eventually.of_forall fun n => measure_mono fun ω hω => ?_) (h3 (1 / 2) (by norm_num))
  have hω' := not_le.1 hω
  rw [Set.mem_ofPred_eq]
  exact hω'.le.trans (le_abs_self _)

omit [IsProbabilityMeasure P] in
theorem fullRank_of_near {G : Fin p → Fin p → ℝ}
    (hG : ∀ a j, ∑ k, G a k * ∫ w, x w k * x w j ∂(P.map (W 0)) = if a = j then 1 else 0) {n : ℕ} {ω : Ω}
    (hω : ω ∉ farGram P W x G n) : FullRank fun (i : Fin n) j => x (W i ω) j := by
  intro u hu
  have hb := solve_bound hG (not_not.1 hω) u
  have h0 : ∀ k, ∑ j, gram W x n ω k j * u j = 0 := fun k => by
    unfold gram
    simp only [← mean_mul_right]
    unfold mean
    rw [← Finset.sum_div, Finset.sum_comm, Finset.sum_eq_zero, zero_div]
    intro i _
    have := hu i
    simp only [mul_assoc, ← Finset.mul_sum, this, mul_zero]
  simp only [h0, abs_zero, Finset.sum_const_zero, mul_zero] at hb
  funext a
  exact abs_eq_zero.1 (le_antisymm ((Finset.single_le_sum (f := fun a => |u a|) (fun _ _ => abs_nonneg _) (Finset.mem_univ a)).trans hb)
    (abs_nonneg _))

/-- The regressions solve the least squares problem whenever the regressors have full rank. -/
def Regress (W : ℕ → Ω → S) (x : S → Fin p → ℝ) (s : ∀ n, Ω → Fin n → ℝ) (o : ℕ → Ω → OlsRes p) : Prop :=
  ∀ (n : ℕ) (ω : Ω), FullRank (fun (i : Fin n) j => x (W i ω) j) → LeastSquares (s n ω) (fun (i : Fin n) j => x (W i ω) j) (o n ω)

omit [IsProbabilityMeasure P] [MeasurableSpace S] mΩ in
/-- The normal equations in terms of means. -/
theorem normal_means {n : ℕ} {ω : Ω} (h : LeastSquares (s n ω) (fun i j => x (W i ω) j) (o n ω)) (j : Fin p) :
    ∑ k, gram W x n ω j k * ((o n ω).params k - β k) =
      mean (fun i : Fin n => x (W i ω) j * (s n ω i - s0 (W i ω))) + mean fun i : Fin n => x (W i ω) j * olsRes x s0 β (W i ω) := by
  have h1 : ∑ k, gram W x n ω j k * ((o n ω).params k - β k) =
      mean fun i : Fin n => x (W i ω) j * ∑ k, x (W i ω) k * ((o n ω).params k - β k) := by
    unfold gram
    simp only [← mean_mul_right]
    unfold mean
    rw [← Finset.sum_div, Finset.sum_comm]
    congr 1
    refine Finset.sum_congr rfl fun i _ => ?_
    show _ = x (W i ω) j * ∑ k, x (W i ω) k * ((o n ω).params k - β k)
    rw [Finset.mul_sum]
    exact Finset.sum_congr rfl fun k _ => by ring
  rw [h1, ← mean_add]
  have h2 : mean (fun i : Fin n => x (W i ω) j * (s n ω i - ∑ k, x (W i ω) k * (o n ω).params k)) = 0 := by
    unfold mean
    rw [h.normal j, zero_div]
  have h3 : ∀ i : Fin n, x (W i ω) j * (s n ω i - s0 (W i ω)) + x (W i ω) j * olsRes x s0 β (W i ω) =
      x (W i ω) j * (s n ω i - ∑ k, x (W i ω) k * (o n ω).params k) +
        x (W i ω) j * ∑ k, x (W i ω) k * ((o n ω).params k - β k) := fun i => by
    have : ∑ k, x (W i ω) k * ((o n ω).params k - β k) = ∑ k, x (W i ω) k * (o n ω).params k - ∑ k, x (W i ω) k * β k := by
      rw [← Finset.sum_sub_distrib]
      exact Finset.sum_congr rfl fun k _ => by ring
    rw [this]
    unfold olsRes
    ring
  simp only [h3]
  rw [mean_add, h2, zero_add]

/-- The right hand sides of the normal equations are of order `1/√n`. -/
theorem rhs_bdd (hW : Iid P W) (h : OlsLaw (P.map (W 0)) x s0 β C) (hs : OlsSignal P W x s0 s) (j : Fin p) :
    OP P fun n ω => Real.sqrt n * (mean (fun i : Fin n => x (W i ω) j * (s n ω i - s0 (W i ω))) +
      mean fun i : Fin n => x (W i ω) j * olsRes x s0 β (W i ω)) := by
  have := hW.prob 0
  have h2 := hW.root_bdd (f := fun w => x w j * olsRes x s0 β w) ((h.measX j).mul h.measRes) (h.memScore j) (h.normal j)
  refine ((hs.drift j).bdd.add h2).mono (Eventually.of_forall fun n ω => le_of_eq ?_)
  rw [mul_add, root_mean (fun i : Fin n => x (W i ω) j * olsRes x s0 β (W i ω))]

/-- The coefficients converge at rate `1/√n`. -/
theorem params_bdd (hW : Iid P W) (h : OlsLaw (P.map (W 0)) x s0 β C) (hs : OlsSignal P W x s0 s) (ho : Regress W x s o)
    (k : Fin p) : OP P fun n ω => Real.sqrt n * ((o n ω).params k - β k) := by
  have := hW.prob 0
  obtain ⟨G, hG⟩ := h.inverse
  have h1 := (OP_const (P := P) (2 * ∑ a, ∑ k, |G a k|)).mul (OP.sum Finset.univ fun j _ => (rhs_bdd hW h hs j).abs)
  refine h1.congr_on (farGram_small hW h G) (Eventually.of_forall fun n ω hω => ?_)
  have hls := ho n ω (fullRank_of_near hG hω)
  have hb := solve_bound hG (not_not.1 hω) fun k => Real.sqrt n * ((o n ω).params k - β k)
  have e : ∀ j, ∑ k, gram W x n ω j k * (Real.sqrt n * ((o n ω).params k - β k)) = Real.sqrt n *
      (mean (fun i : Fin n => x (W i ω) j * (s n ω i - s0 (W i ω))) + mean fun i : Fin n => x (W i ω) j * olsRes x s0 β (W i ω)) := fun j => by
    rw [← normal_means hls j, Finset.mul_sum]
    exact Finset.sum_congr rfl fun k _ => by ring
  simp only [e] at hb
  refine le_trans ?_ (hb.trans (le_abs_self _))
  exact Finset.single_le_sum (f := fun k => |Real.sqrt n * ((o n ω).params k - β k)|) (fun _ _ => abs_nonneg _) (Finset.mem_univ k)

theorem params_consistent (hW : Iid P W) (h : OlsLaw (P.map (W 0)) x s0 β C) (hs : OlsSignal P W x s0 s) (ho : Regress W x s o)
    (k : Fin p) : oP P fun n ω => (o n ω).params k - β k := by
  have h2 : oP P fun n _ => (Real.sqrt n)⁻¹ := oP.of_tendsto
    (tendsto_inv_atTop_zero.comp (Real.tendsto_sqrt_atTop.comp tendsto_natCast_atTop_atTop))
  refine (h2.mul_OP (params_bdd hW h hs ho k)).mono ?_
  filter_upwards [eventually_gt_atTop 0] with n hn ω
  have hn' : (0 : ℝ) < Real.sqrt n := Real.sqrt_pos.2 (by exact_mod_cast hn)
  rw [inv_mul_cancel_left₀ hn'.ne']

/-- Linear combinations of the coefficients are asymptotically linear. -/
theorem predict_linear (hW : Iid P W) (h : OlsLaw (P.map (W 0)) x s0 β C) (hs : OlsSignal P W x s0 s) (ho : Regress W x s o)
    {v c : Fin p → ℝ} (hc : ∀ j, v j = ∑ k, (∫ w, x w j * x w k ∂(P.map (W 0))) * c k) :
    oP P fun n ω => Real.sqrt n * ((o n ω).predict v - ∑ j, v j * β j) -
      (∑ i : Fin n, (∑ k, c k * x (W i ω) k) * olsRes x s0 β (W i ω)) / Real.sqrt n := by
  have := hW.prob 0
  obtain ⟨G, hG⟩ := h.inverse
  have h1 : oP P fun n ω => ∑ k, c k * (Real.sqrt n * mean fun i : Fin n => x (W i ω) k * (s n ω i - s0 (W i ω))) :=
    oP.sum _ fun k _ => (hs.drift k).const_mul (c k)
  have h2 : oP P fun n ω => ∑ k, c k * ∑ j, (gram W x n ω k j - ∫ w, x w k * x w j ∂(P.map (W 0))) *
      (Real.sqrt n * ((o n ω).params j - β j)) :=
    oP.sum _ fun k _ => (oP.sum _ fun j _ => (gram_lln hW h k j).mul_OP (params_bdd hW h hs ho j)).const_mul (c k)
  refine (h1.sub h2).congr_on (farGram_small hW h G) (Eventually.of_forall fun n ω hω => le_of_eq ?_)
  congr 1
  have hls := ho n ω (fullRank_of_near hG hω)
  have hn := normal_means (s0 := s0) (β := β) hls
  unfold OlsRes.predict
  rw [← Finset.sum_sub_distrib]
  have e1 : ∑ j, (v j * (o n ω).params j - v j * β j) = ∑ k, c k * ∑ j, (∫ w, x w k * x w j ∂(P.map (W 0))) * ((o n ω).params j - β j) := by
    have : ∀ j, v j * (o n ω).params j - v j * β j = ∑ k, c k * ((∫ w, x w k * x w j ∂(P.map (W 0))) * ((o n ω).params j - β j)) := fun j => by
      rw [← mul_sub, hc j, Finset.sum_mul]
      refine Finset.sum_congr rfl fun k _ => ?_
      have : ∫ w, x w j * x w k ∂(P.map (W 0)) = ∫ w, x w k * x w j ∂(P.map (W 0)) := by simp only [mul_comm]
      rw [this]
      ring
    simp only [this]
    rw [Finset.sum_comm]
    exact Finset.sum_congr rfl fun k _ => by rw [Finset.mul_sum]
  have e2 : (∑ i : Fin n, (∑ k, c k * x (W i ω) k) * olsRes x s0 β (W i ω)) / Real.sqrt n =
      ∑ k, c k * (Real.sqrt n * mean fun i : Fin n => x (W i ω) k * olsRes x s0 β (W i ω)) := by
    simp only [root_mean, ← mul_div_assoc]
    rw [← Finset.sum_div]
    congr 1
    simp only [Finset.mul_sum, Finset.sum_mul]
    rw [Finset.sum_comm]
    exact Finset.sum_congr rfl fun k _ => Finset.sum_congr rfl fun i _ => by ring
  rw [e1, e2, Finset.mul_sum, ← Finset.sum_sub_distrib, ← Finset.sum_sub_distrib]
  refine Finset.sum_congr rfl fun k _ => ?_
  have e3 : ∑ j, (gram W x n ω k j - ∫ w, x w k * x w j ∂(P.map (W 0))) * (Real.sqrt n * ((o n ω).params j - β j)) =
      Real.sqrt n * (∑ j, gram W x n ω k j * ((o n ω).params j - β j) -
        ∑ j, (∫ w, x w k * x w j ∂(P.map (W 0))) * ((o n ω).params j - β j)) := by
    rw [← Finset.sum_sub_distrib, Finset.mul_sum]
    exact Finset.sum_congr rfl fun j _ => by ring
  rw [e3, hn k]
  ring

/-- The squared residuals approach those of the population regression. -/
theorem residual_close (hW : Iid P W) (h : OlsLaw (P.map (W 0)) x s0 β C) (hs : OlsSignal P W x s0 s) (ho : Regress W x s o) :
    oP P fun n ω => mean fun i : Fin n => ((s n ω i - ∑ k, x (W i ω) k * (o n ω).params k) - olsRes x s0 β (W i ω)) ^ 2 := by
  have h1 : oP P fun n ω => ∑ k, |(o n ω).params k - β k| := oP.sum _ fun k _ => (params_consistent hW h hs ho k).abs
  refine ((hs.close.const_mul 2).add ((h1.sq.const_mul (C ^ 2)).const_mul 2)).mono ?_
  filter_upwards [eventually_gt_atTop 0] with n hn ω
  rw [abs_of_nonneg (mean_sq_nonneg' _)]
  refine le_trans ?_ (le_abs_self _)
  rw [← mean_mul_left, ← mean_const hn (2 * (C ^ 2 * (∑ k, |(o n ω).params k - β k|) ^ 2)), ← mean_add]
  refine mean_le_mean fun i => ?_
  have e : (s n ω i - ∑ k, x (W i ω) k * (o n ω).params k) - olsRes x s0 β (W i ω) =
      (s n ω i - s0 (W i ω)) - ∑ k, x (W i ω) k * ((o n ω).params k - β k) := by
    unfold olsRes
    have : ∑ k, x (W i ω) k * ((o n ω).params k - β k) = ∑ k, x (W i ω) k * (o n ω).params k - ∑ k, x (W i ω) k * β k := by
      rw [← Finset.sum_sub_distrib]
      exact Finset.sum_congr rfl fun k _ => by ring
    rw [this]
    ring
  rw [e]
  have hb : (∑ k, x (W i ω) k * ((o n ω).params k - β k)) ^ 2 ≤ C ^ 2 * (∑ k, |(o n ω).params k - β k|) ^ 2 := by
    rw [← mul_pow, ← sq_abs]
    refine pow_le_pow_left₀ (abs_nonneg _) ?_ 2
    rw [Finset.mul_sum]
    refine (Finset.abs_sum_le_sum_abs _ _).trans (Finset.sum_le_sum fun k _ => ?_)
    rw [abs_mul]
    exact mul_le_mul_of_nonneg_right (h.bound _ _) (abs_nonneg _)
  generalize ∑ k, x (W i ω) k * ((o n ω).params k - β k) = b at *
  generalize s n ω i - s0 (W i ω) = a
  nlinarith [sq_nonneg (a + b)]

/-- The middle part of the robust covariance matrix is consistent. -/
theorem middle_consistent (hW : Iid P W) (h : OlsLaw (P.map (W 0)) x s0 β C) (hs : OlsSignal P W x s0 s) (ho : Regress W x s o)
    (j k : Fin p) : oP P fun n ω => mean (fun i : Fin n => x (W i ω) j * x (W i ω) k *
      (s n ω i - ∑ k, x (W i ω) k * (o n ω).params k) ^ 2) - ∫ w, x w j * x w k * olsRes x s0 β w ^ 2 ∂(P.map (W 0)) := by
  have := hW.prob 0
  have hl := hW.lln (f := fun w => x w j * x w k * olsRes x s0 β w ^ 2)
    (((h.measX j).mul (h.measX k)).mul (h.measRes.pow_const 2)) (h.intV j k)
  have hq := OP_of_sub (hW.lln (h.measRes.pow_const 2) h.memRes.integrable_sq)
  have hr := residual_close hW h hs ho
  have hcross : oP P fun n ω => mean fun i : Fin n => olsRes x s0 β (W i ω) *
      (x (W i ω) j * x (W i ω) k * ((s n ω i - ∑ k, x (W i ω) k * (o n ω).params k) - olsRes x s0 β (W i ω))) := by
    refine oP.of_sq ((hq.mul_oP (hr.const_mul (C ^ 4))).mono (Eventually.of_forall fun n ω => ?_))
    rw [abs_of_nonneg (sq_nonneg _)]
    refine le_trans ((mean_mul_sq_le _ _).trans ?_) (le_abs_self _)
    refine mul_le_mul_of_nonneg_left ?_ (mean_sq_nonneg' _)
    rw [← mean_mul_left]
    refine mean_le_mean fun i => ?_
    have hb : (x (W i ω) j * x (W i ω) k) ^ 2 ≤ C ^ 4 := by
      rw [← sq_abs, abs_mul, show C ^ 4 = (C * C) ^ 2 by ring]
      exact pow_le_pow_left₀ (by positivity) (mul_le_mul (h.bound _ _) (h.bound _ _) (abs_nonneg _)
        ((abs_nonneg _).trans (h.bound (W i ω) j))) 2
    rw [mul_pow]
    exact mul_le_mul_of_nonneg_right hb (sq_nonneg _)
  have hsq : oP P fun n ω => mean fun i : Fin n => x (W i ω) j * x (W i ω) k *
      ((s n ω i - ∑ k, x (W i ω) k * (o n ω).params k) - olsRes x s0 β (W i ω)) ^ 2 := by
    refine (hr.const_mul (C * C)).mono (Eventually.of_forall fun n ω => ?_)
    have hb : ∀ i : Fin n, |x (W i ω) j * x (W i ω) k| ≤ C * C := fun i => by
      rw [abs_mul]
      exact mul_le_mul (h.bound _ _) (h.bound _ _) (abs_nonneg _) ((abs_nonneg _).trans (h.bound (W i ω) j))
    rw [← mean_mul_left]
    refine le_trans ?_ (le_abs_self _)
    rw [_root_.abs_le, ← mean_neg]
    constructor
    · refine mean_le_mean fun i => ?_
      rw [← neg_mul]
      exact mul_le_mul_of_nonneg_right (_root_.abs_le.1 (hb i)).1 (sq_nonneg _)
    · refine mean_le_mean fun i => ?_
      exact mul_le_mul_of_nonneg_right (_root_.abs_le.1 (hb i)).2 (sq_nonneg _)
  refine ((hl.add (hcross.const_mul 2)).add hsq).mono (Eventually.of_forall fun n ω => le_of_eq ?_)
  congr 1
  rw [← mean_mul_left, sub_add_eq_add_sub, sub_add_eq_add_sub, ← mean_add, ← mean_add]
  congr 2
  funext i
  ring

omit [IsProbabilityMeasure P] [MeasurableSpace S] mΩ in
/-- The robust covariance matrix in terms of means. -/
theorem hc0_means {n : ℕ} (hn : 0 < n) {ω : Ω} (h : LeastSquares (s n ω) (fun (i : Fin n) j => x (W i ω) j) (o n ω)) (j k : Fin p) :
    ∑ a, ∑ c, gram W x n ω j a * (n * (o n ω).omega a c) * gram W x n ω c k =
      mean fun i : Fin n => x (W i ω) j * x (W i ω) k * (s n ω i - ∑ k, x (W i ω) k * (o n ω).params k) ^ 2 := by
  have hn' : (n : ℝ) ≠ 0 := by exact_mod_cast hn.ne'
  have h1 := h.hc0 j k
  unfold gram mean
  rw [eq_div_iff hn', ← h1, Finset.sum_mul]
  refine Finset.sum_congr rfl fun a _ => ?_
  rw [Finset.sum_mul]
  refine Finset.sum_congr rfl fun c _ => ?_
  field_simp

/-- The entries of the scaled covariance matrix are bounded in probability. -/
theorem omega_bdd (hW : Iid P W) (h : OlsLaw (P.map (W 0)) x s0 β C) (hs : OlsSignal P W x s0 s) (ho : Regress W x s o)
    (a c : Fin p) : OP P fun n ω => n * (o n ω).omega a c := by
  have := hW.prob 0
  obtain ⟨G, hG⟩ := h.inverse
  have hV : OP P fun n ω => ∑ j, ∑ k, |mean fun i : Fin n => x (W i ω) j * x (W i ω) k *
      (s n ω i - ∑ k, x (W i ω) k * (o n ω).params k) ^ 2| := OP.sum _ fun j _ => OP.sum _ fun k _ =>
    (OP_of_sub (middle_consistent hW h hs ho j k)).abs
  have h1 := (OP_const (P := P) (2 * ∑ a, ∑ k, |G a k|)).mul ((OP_const (P := P) (2 * ∑ a, ∑ k, |G a k|)).mul hV)
  refine h1.congr_on (farGram_small hW h G) ?_
  filter_upwards [eventually_gt_atTop 0] with n hn ω hω
  have hls := ho n ω (fullRank_of_near hG hω)
  have hb := sandwich_bound (T := fun a c => n * (o n ω).omega a c) hG (not_not.1 hω) (gram_symm n ω) (hc0_means hn hls)
  refine le_trans ?_ (hb.trans (le_abs_self _))
  refine (Finset.single_le_sum (f := fun c => |n * (o n ω).omega a c|) (fun _ _ => abs_nonneg _) (Finset.mem_univ c)).trans ?_
  exact Finset.single_le_sum (f := fun a => ∑ c, |n * (o n ω).omega a c|)
    (fun _ _ => Finset.sum_nonneg fun _ _ => abs_nonneg _) (Finset.mem_univ a)

/-- The robust variance of a linear combination of the coefficients is consistent. -/
theorem variance_consistent (hW : Iid P W) (h : OlsLaw (P.map (W 0)) x s0 β C) (hs : OlsSignal P W x s0 s) (ho : Regress W x s o)
    {v c : Fin p → ℝ} (hc : ∀ j, v j = ∑ k, (∫ w, x w j * x w k ∂(P.map (W 0))) * c k) :
    oP P fun n ω => (n : ℝ) * (∑ k, (∑ j, v j * (o n ω).omega j k) * v k) -
      ∫ w, ((∑ k, c k * x w k) * olsRes x s0 β w) ^ 2 ∂(P.map (W 0)) := by
  have := hW.prob 0
  obtain ⟨G, hG⟩ := h.inverse
  have hO := omega_bdd hW h hs ho
  have hM := gram_lln hW h
  -- the leading part
  have h1 : oP P fun n ω => ∑ j, ∑ k, c j * c k * (mean (fun i : Fin n => x (W i ω) j * x (W i ω) k *
      (s n ω i - ∑ k, x (W i ω) k * (o n ω).params k) ^ 2) - ∫ w, x w j * x w k * olsRes x s0 β w ^ 2 ∂(P.map (W 0))) :=
    oP.sum _ fun j _ => oP.sum _ fun k _ => (middle_consistent hW h hs ho j k).const_mul _
  have h2 : oP P fun n ω => ∑ j, ∑ a, ∑ b, c j * v b * ((gram W x n ω j a - ∫ w, x w j * x w a ∂(P.map (W 0))) * (n * (o n ω).omega a b)) :=
    oP.sum _ fun j _ => oP.sum _ fun a _ => oP.sum _ fun b _ => ((hM j a).mul_OP (hO a b)).const_mul _
  have h3 : oP P fun n ω => ∑ j, ∑ a, ∑ b, ∑ k, c j * c k * (gram W x n ω j a * (n * (o n ω).omega a b) *
      (gram W x n ω b k - ∫ w, x w b * x w k ∂(P.map (W 0)))) :=
    oP.sum _ fun j _ => oP.sum _ fun a _ => oP.sum _ fun b _ => oP.sum _ fun k _ =>
      (((OP_of_sub (hM j a)).mul (hO a b)).mul_oP (hM b k)).const_mul _
  refine ((h1.sub h2).sub h3).congr_on (farGram_small hW h G) ?_
  filter_upwards [eventually_gt_atTop 0] with n hn ω hω
  refine le_of_eq (congrArg _ ?_)
  have hls := ho n ω (fullRank_of_near hG hω)
  have hmid := hc0_means hn hls
  have eV : ∫ w, ((∑ k, c k * x w k) * olsRes x s0 β w) ^ 2 ∂(P.map (W 0)) =
      ∑ j, ∑ k, c j * c k * ∫ w, x w j * x w k * olsRes x s0 β w ^ 2 ∂(P.map (W 0)) := by
    have e : ∀ w, ((∑ k, c k * x w k) * olsRes x s0 β w) ^ 2 = ∑ j, ∑ k, c j * c k * (x w j * x w k * olsRes x s0 β w ^ 2) := fun w => by
      rw [mul_pow, sq (∑ k, c k * x w k), Finset.sum_mul_sum, Finset.sum_mul]
      refine Finset.sum_congr rfl fun j _ => ?_
      rw [Finset.sum_mul]
      exact Finset.sum_congr rfl fun k _ => by ring
    simp only [e]
    rw [integral_finsetSum _ fun j _ => integrable_finsetSum _ fun k _ => (h.intV j k).const_mul _]
    refine Finset.sum_congr rfl fun j _ => ?_
    rw [integral_finsetSum _ fun k _ => (h.intV j k).const_mul _]
    simp only [integral_const_mul]
  rw [eV]
  simp only [← hmid]
  set T : Fin p → Fin p → ℝ := fun a b => n * (o n ω).omega a b with hT
  set Sg : Fin p → Fin p → ℝ := fun j k => ∫ w, x w j * x w k ∂(P.map (W 0)) with hSg
  set M := gram W x n ω with hMd
  have hsg : ∀ j k, Sg j k = Sg k j := fun j k => by simp only [hSg, mul_comm]
  have e0 : (n : ℝ) * (∑ k, (∑ j, v j * (o n ω).omega j k) * v k) = ∑ a, ∑ b, v a * T a b * v b := by
    rw [Finset.sum_comm, Finset.mul_sum]
    refine Finset.sum_congr rfl fun b _ => ?_
    rw [Finset.sum_mul, Finset.mul_sum]
    exact Finset.sum_congr rfl fun a _ => by rw [hT]; ring
  have e1 : ∑ a, ∑ b, v a * T a b * v b = ∑ j, ∑ a, ∑ b, c j * v b * (Sg j a * T a b) := by
    rw [Finset.sum_comm (f := fun j a => ∑ b, c j * v b * (Sg j a * T a b))]
    refine Finset.sum_congr rfl fun a _ => ?_
    rw [Finset.sum_comm (f := fun j b => c j * v b * (Sg j a * T a b))]
    refine Finset.sum_congr rfl fun b _ => ?_
    have : v a = ∑ k, Sg a k * c k := hc a
    rw [this, Finset.sum_mul, Finset.sum_mul]
    exact Finset.sum_congr rfl fun j _ => by rw [hsg a j]; ring
  have e2 : ∑ j, ∑ a, ∑ b, c j * v b * (M j a * T a b) = ∑ j, ∑ a, ∑ b, ∑ k, c j * c k * (M j a * T a b * Sg b k) := by
    refine Finset.sum_congr rfl fun j _ => Finset.sum_congr rfl fun a _ => Finset.sum_congr rfl fun b _ => ?_
    have : v b = ∑ k, Sg b k * c k := hc b
    rw [this, Finset.mul_sum, Finset.sum_mul]
    exact Finset.sum_congr rfl fun k _ => by ring
  have e3 : ∑ j, ∑ k, c j * c k * ∑ a, ∑ b, M j a * T a b * M b k = ∑ j, ∑ a, ∑ b, ∑ k, c j * c k * (M j a * T a b * M b k) := by
    refine Finset.sum_congr rfl fun j _ => ?_
    simp only [Finset.mul_sum]
    rw [Finset.sum_comm]
    refine Finset.sum_congr rfl fun a _ => ?_
    rw [Finset.sum_comm]
  have f1 : ∑ j, ∑ k, c j * c k * (∑ a, ∑ b, M j a * T a b * M b k - ∫ w, x w j * x w k * olsRes x s0 β w ^ 2 ∂(P.map (W 0))) =
      ∑ j, ∑ k, c j * c k * ∑ a, ∑ b, M j a * T a b * M b k -
        ∑ j, ∑ k, c j * c k * ∫ w, x w j * x w k * olsRes x s0 β w ^ 2 ∂(P.map (W 0)) := by
    simp only [mul_sub, Finset.sum_sub_distrib]
  have f2 : ∑ j, ∑ a, ∑ b, c j * v b * ((M j a - Sg j a) * T a b) =
      ∑ j, ∑ a, ∑ b, c j * v b * (M j a * T a b) - ∑ j, ∑ a, ∑ b, c j * v b * (Sg j a * T a b) := by
    simp only [sub_mul, mul_sub, Finset.sum_sub_distrib]
  have f3 : ∑ j, ∑ a, ∑ b, ∑ k, c j * c k * (M j a * T a b * (M b k - Sg b k)) =
      ∑ j, ∑ a, ∑ b, ∑ k, c j * c k * (M j a * T a b * M b k) - ∑ j, ∑ a, ∑ b, ∑ k, c j * c k * (M j a * T a b * Sg b k) := by
    simp only [mul_sub, Finset.sum_sub_distrib]
  rw [e0, e1]
  show _ = ∑ j, ∑ k, c j * c k * (∑ a, ∑ b, M j a * T a b * M b k - ∫ w, x w j * x w k * olsRes x s0 β w ^ 2 ∂(P.map (W 0))) -
    ∑ j, ∑ a, ∑ b, c j * v b * ((M j a - Sg j a) * T a b) - ∑ j, ∑ a, ∑ b, ∑ k, c j * c k * (M j a * T a b * (M b k - Sg b k))
  rw [f1, f2, f3, e2, e3]
  ring

/-- The standardised leading term. -/
noncomputable def olsZ (W : ℕ → Ω → S) (x : S → Fin p → ℝ) (s0 : S → ℝ) (β c : Fin p → ℝ) (σ : ℝ) (n : ℕ) (ω : Ω) : ℝ :=
  (∑ i : Fin n, (∑ k, c k * x (W i ω) k) * olsRes x s0 β (W i ω) / σ) / Real.sqrt n

/-- **Least squares in large samples.** Predictions at a row `v` are asymptotically normal, with consistent robust standard
errors. -/
theorem ols_limit (hW : Iid P W) (h : OlsLaw (P.map (W 0)) x s0 β C) (hs : OlsSignal P W x s0 s) (ho : Regress W x s o)
    {v c : Fin p → ℝ} (hc : ∀ j, v j = ∑ k, (∫ w, x w j * x w k ∂(P.map (W 0))) * c k) {σ : ℝ} (hσ : 0 < σ)
    (hV : σ ^ 2 = ∫ w, ((∑ k, c k * x w k) * olsRes x s0 β w) ^ 2 ∂(P.map (W 0))) :
    NormalLimit P (olsZ W x s0 β c σ) ∧ (∀ n, Measurable (olsZ W x s0 β c σ n)) ∧
      RepLimit P (olsZ W x s0 β c σ) σ (∑ j, v j * β j) (fun n ω => (o n ω).predict v) fun n ω => (o n ω).se v := by
  have := hW.prob 0
  have hmf : Measurable fun w => (∑ k, c k * x w k) * olsRes x s0 β w / σ :=
    ((Finset.measurable_sum _ fun k _ => (h.measX k).const_mul _).mul h.measRes).div_const _
  have hf0 : ∫ w, (∑ k, c k * x w k) * olsRes x s0 β w / σ ∂(P.map (W 0)) = 0 := by
    have e : ∀ w, (∑ k, c k * x w k) * olsRes x s0 β w = ∑ k, c k * (x w k * olsRes x s0 β w) := fun w => by
      rw [Finset.sum_mul]
      exact Finset.sum_congr rfl fun k _ => by ring
    simp only [e]
    rw [integral_div, integral_finsetSum _ fun k _ => ((h.memScore k).integrable one_le_two).const_mul _]
    have hn : ∀ k, ∫ w, x w k * olsRes x s0 β w ∂(P.map (W 0)) = 0 := h.normal
    simp only [integral_const_mul, hn, mul_zero, Finset.sum_const_zero, zero_div]
  refine ⟨hW.clt hmf hf0 ?_, fun n => ?_, ?_, ?_⟩
  · simp only [div_pow]
    rw [integral_div, ← hV, div_self (pow_ne_zero 2 hσ.ne')]
  · unfold olsZ
    exact (Finset.measurable_sum _ fun (i : Fin n) _ => hmf.comp (hW.meas i)).div_const _
  · refine (predict_linear hW h hs ho hc).mono (Eventually.of_forall fun n ω => le_of_eq (congrArg _ ?_))
    unfold olsZ
    rw [← Finset.sum_div]
    field_simp
  · have h1 := (variance_consistent hW h hs ho hc).continuousAt (f := Real.sqrt) Real.continuous_sqrt.continuousAt
    refine h1.mono (Eventually.of_forall fun n ω => le_of_eq (congrArg _ ?_))
    rw [← hV, Real.sqrt_sq hσ.le, Real.sqrt_mul (Nat.cast_nonneg _)]
    rfl

end Regression

end DML
