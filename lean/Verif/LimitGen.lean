import Verif.LimitBlp

/-!
# Large samples: regressions with fitted regressors

Least squares of a fitted signal on fitted regressors, with robust standard errors. Nothing here models code of the package.
-/

namespace DML

open MeasureTheory ProbabilityTheory Filter Topology
open scoped ENNReal

variable {Ω : Type*} {mΩ : MeasurableSpace Ω} {P : Measure Ω} {S : Type*} [MeasurableSpace S] {W : ℕ → Ω → S} {p : ℕ}

/-- A regression of `s` on `X`: the means of products of regressors approach the invertible matrix `A`, the normal equations at `β`
are asymptotically linear with influence function `φ`, and the means of squares approach those of `φ`. -/
structure GenOls (P : Measure Ω) (W : ℕ → Ω → S) (A : Fin p → Fin p → ℝ) (φ : S → Fin p → ℝ) (β : Fin p → ℝ)
    (X : ∀ n, Ω → Fin n → Fin p → ℝ) (s : ∀ n, Ω → Fin n → ℝ) : Prop where
  sym : ∀ j k, A j k = A k j
  rank : ∀ u : Fin p → ℝ, (∀ j, ∑ k, A j k * u k = 0) → u = 0
  measF : ∀ j, Measurable fun w => φ w j
  memF : ∀ j, MemLp (fun w => φ w j) 2 (P.map (W 0))
  zero : ∀ j, ∫ w, φ w j ∂(P.map (W 0)) = 0
  gram : ∀ j k, oP P fun n ω => mean (fun i : Fin n => X n ω i j * X n ω i k) - A j k
  score : ∀ j, oP P fun n ω => Real.sqrt n * mean (fun i : Fin n => X n ω i j * (s n ω i - ∑ k, X n ω i k * β k)) -
    (∑ i : Fin n, φ (W i ω) j) / Real.sqrt n
  middle : ∀ j k, oP P fun n ω => mean (fun i : Fin n => X n ω i j * X n ω i k * (s n ω i - ∑ k, X n ω i k * β k) ^ 2) -
    ∫ w, φ w j * φ w k ∂(P.map (W 0))
  fourth : ∀ j, OP P fun n ω => mean fun i : Fin n => X n ω i j ^ 4

namespace GenOls

variable {A : Fin p → Fin p → ℝ} {φ : S → Fin p → ℝ} {β : Fin p → ℝ} {X : ∀ n, Ω → Fin n → Fin p → ℝ} {s : ∀ n, Ω → Fin n → ℝ}
  {o : ℕ → Ω → OlsRes p}

/-- The means of products of regressors. -/
noncomputable def gramOf (X : ∀ n, Ω → Fin n → Fin p → ℝ) (n : ℕ) (ω : Ω) (j k : Fin p) : ℝ :=
  mean fun i : Fin n => X n ω i j * X n ω i k

omit mΩ in
theorem gramOf_symm (n : ℕ) (ω : Ω) (j k : Fin p) : gramOf X n ω j k = gramOf X n ω k j := by
  unfold gramOf
  simp only [mul_comm]

/-- Samples in which the means of products are not near their limits. -/
def far (A : Fin p → Fin p → ℝ) (X : ∀ n, Ω → Fin n → Fin p → ℝ) (G : Fin p → Fin p → ℝ) (n : ℕ) : Set Ω :=
  {ω | ¬ (∑ a, ∑ k, |G a k|) * (∑ k, ∑ j, |A k j - gramOf X n ω k j|) ≤ 1 / 2}

/-- The regressions solve the least squares problem whenever the regressors have full rank. -/
def Solves (X : ∀ n, Ω → Fin n → Fin p → ℝ) (s : ∀ n, Ω → Fin n → ℝ) (o : ℕ → Ω → OlsRes p) : Prop :=
  ∀ (n : ℕ) (ω : Ω), FullRank (X n ω) → LeastSquares (s n ω) (X n ω) (o n ω)

theorem far_small [IsProbabilityMeasure P] (h : GenOls P W A φ β X s) (G : Fin p → Fin p → ℝ) :
    Tendsto (fun n => P (far A X G n)) atTop (𝓝 0) := by
  have h0 : ∀ k j, oP P fun n ω => |A k j - gramOf X n ω k j| := fun k j =>
    (h.gram k j).mono (Eventually.of_forall fun n ω => by rw [abs_abs, abs_sub_comm]; rfl)
  unfold far
  have h1 : ∀ k, oP P fun n ω => ∑ j, |A k j - gramOf X n ω k j| := fun k => oP.sum Finset.univ fun j _ => h0 k j
  have h2 : oP P fun n ω => ∑ k, ∑ j, |A k j - gramOf X n ω k j| := oP.sum Finset.univ fun k _ => h1 k
  have h3 := h2.const_mul (∑ a, ∑ k, |G a k|)
  refine tendsto_zero_of_le (Eventually.of_forall fun n => measure_mono fun ω hω => ?_) (h3 (1 / 2) (by norm_num))
  have hω' := not_le.1 hω
  rw [Set.mem_ofPred_eq]
  exact hω'.le.trans (le_abs_self _)

omit mΩ in
theorem fullRank_of_near {G : Fin p → Fin p → ℝ} (hG : ∀ a j, ∑ k, G a k * A k j = if a = j then 1 else 0) {n : ℕ} {ω : Ω}
    (hω : ω ∉ far A X G n) : FullRank (X n ω) := by
  intro u hu
  have hb := solve_bound hG (not_not.1 hω) u
  have h0 : ∀ k, ∑ j, gramOf X n ω k j * u j = 0 := fun k => by
    unfold gramOf
    simp only [← mean_mul_right]
    unfold mean
    rw [← Finset.sum_div, Finset.sum_comm, Finset.sum_eq_zero, zero_div]
    intro i _
    have := hu i
    simp only [mul_assoc, ← Finset.mul_sum, this, mul_zero]
  simp only [h0, abs_zero, Finset.sum_const_zero, mul_zero] at hb
  funext a
  exact abs_eq_zero.1 (le_antisymm ((Finset.single_le_sum (f := fun a => |u a|) (fun _ _ => abs_nonneg _) (Finset.mem_univ a)).trans hb)
    (abs_nonneg _))

omit mΩ in
theorem sum_delta {n : ℕ} {ω : Ω} (i : Fin n) (b : Fin p → ℝ) :
    ∑ k, X n ω i k * (b k - β k) = ∑ k, X n ω i k * b k - ∑ k, X n ω i k * β k := by
  rw [← Finset.sum_sub_distrib]
  exact Finset.sum_congr rfl fun k _ => by ring

omit mΩ in
/-- The normal equations in terms of means. -/
theorem normal_means {n : ℕ} {ω : Ω} (h : LeastSquares (s n ω) (X n ω) (o n ω)) (j : Fin p) :
    ∑ k, gramOf X n ω j k * ((o n ω).params k - β k) =
      mean fun i : Fin n => X n ω i j * (s n ω i - ∑ k, X n ω i k * β k) := by
  have h1 : ∑ k, gramOf X n ω j k * ((o n ω).params k - β k) =
      mean fun i : Fin n => X n ω i j * ∑ k, X n ω i k * ((o n ω).params k - β k) := by
    unfold gramOf
    simp only [← mean_mul_right]
    unfold mean
    rw [← Finset.sum_div, Finset.sum_comm]
    congr 1
    refine Finset.sum_congr rfl fun i _ => ?_
    show _ = X n ω i j * ∑ k, X n ω i k * ((o n ω).params k - β k)
    rw [Finset.mul_sum]
    exact Finset.sum_congr rfl fun k _ => by ring
  rw [h1]
  have h2 : mean (fun i : Fin n => X n ω i j * (s n ω i - ∑ k, X n ω i k * (o n ω).params k)) = 0 := by
    unfold mean
    rw [h.normal j, zero_div]
  have h3 : ∀ i : Fin n, X n ω i j * (s n ω i - ∑ k, X n ω i k * β k) =
      X n ω i j * (s n ω i - ∑ k, X n ω i k * (o n ω).params k) + X n ω i j * ∑ k, X n ω i k * ((o n ω).params k - β k) := fun i => by
    rw [sum_delta]
    ring
  simp only [h3]
  rw [mean_add, h2, zero_add]

variable [IsProbabilityMeasure P]

omit [IsProbabilityMeasure P] in
theorem inverse (h : GenOls P W A φ β X s) : ∃ G : Fin p → Fin p → ℝ, ∀ a j, ∑ k, G a k * A k j = if a = j then 1 else 0 :=
  exists_inverse h.sym h.rank

/-- The coefficients converge at rate `1/√n`. -/
theorem params_bdd (hW : Iid P W) (h : GenOls P W A φ β X s) (ho : Solves X s o) (k : Fin p) :
    OP P fun n ω => Real.sqrt n * ((o n ω).params k - β k) := by
  obtain ⟨G, hG⟩ := h.inverse
  have hr : ∀ j, OP P fun n ω => Real.sqrt n * mean (fun i : Fin n => X n ω i j * (s n ω i - ∑ k, X n ω i k * β k)) := fun j => by
    refine ((h.score j).bdd.add (hW.root_bdd (h.measF j) (h.memF j) (h.zero j))).mono (Eventually.of_forall fun n ω => le_of_eq (congrArg _ ?_))
    ring
  have h1 := (OP_const (P := P) (2 * ∑ a, ∑ k, |G a k|)).mul (OP.sum Finset.univ fun j _ => (hr j).abs)
  refine h1.congr_on (h.far_small G) (Eventually.of_forall fun n ω hω => ?_)
  have hls := ho n ω (fullRank_of_near hG hω)
  have hb := solve_bound hG (not_not.1 hω) fun k => Real.sqrt n * ((o n ω).params k - β k)
  have e : ∀ j, ∑ k, gramOf X n ω j k * (Real.sqrt n * ((o n ω).params k - β k)) = Real.sqrt n *
      mean (fun i : Fin n => X n ω i j * (s n ω i - ∑ k, X n ω i k * β k)) := fun j => by
    rw [← normal_means hls j, Finset.mul_sum]
    exact Finset.sum_congr rfl fun k _ => by ring
  simp only [e] at hb
  refine le_trans ?_ (hb.trans (le_abs_self _))
  exact Finset.single_le_sum (f := fun k => |Real.sqrt n * ((o n ω).params k - β k)|) (fun _ _ => abs_nonneg _) (Finset.mem_univ k)

theorem params_consistent (hW : Iid P W) (h : GenOls P W A φ β X s) (ho : Solves X s o) (k : Fin p) :
    oP P fun n ω => (o n ω).params k - β k := by
  have h2 : oP P fun n _ => (Real.sqrt n)⁻¹ := oP.of_tendsto
    (tendsto_inv_atTop_zero.comp (Real.tendsto_sqrt_atTop.comp tendsto_natCast_atTop_atTop))
  refine (h2.mul_OP (params_bdd hW h ho k)).mono ?_
  filter_upwards [eventually_gt_atTop 0] with n hn ω
  have hn' : (0 : ℝ) < Real.sqrt n := Real.sqrt_pos.2 (by exact_mod_cast hn)
  rw [inv_mul_cancel_left₀ hn'.ne']

/-- Linear combinations of the coefficients are asymptotically linear. -/
theorem predict_linear (hW : Iid P W) (h : GenOls P W A φ β X s) (ho : Solves X s o) {v c : Fin p → ℝ}
    (hc : ∀ j, v j = ∑ k, A j k * c k) : oP P fun n ω => Real.sqrt n * ((o n ω).predict v - ∑ j, v j * β j) -
      (∑ i : Fin n, ∑ k, c k * φ (W i ω) k) / Real.sqrt n := by
  obtain ⟨G, hG⟩ := h.inverse
  have h1 : oP P fun n ω => ∑ k, c k * (Real.sqrt n * mean (fun i : Fin n => X n ω i k * (s n ω i - ∑ k, X n ω i k * β k)) -
      (∑ i : Fin n, φ (W i ω) k) / Real.sqrt n) := oP.sum _ fun k _ => (h.score k).const_mul (c k)
  have h2 : oP P fun n ω => ∑ k, c k * ∑ j, (gramOf X n ω k j - A k j) * (Real.sqrt n * ((o n ω).params j - β j)) :=
    oP.sum _ fun k _ => (oP.sum _ fun j _ => (h.gram k j).mul_OP (params_bdd hW h ho j)).const_mul (c k)
  refine (h1.sub h2).congr_on (h.far_small G) (Eventually.of_forall fun n ω hω => le_of_eq ?_)
  congr 1
  have hls := ho n ω (fullRank_of_near hG hω)
  have hn := normal_means (β := β) hls
  unfold OlsRes.predict
  rw [← Finset.sum_sub_distrib]
  have e1 : ∑ j, (v j * (o n ω).params j - v j * β j) = ∑ k, c k * ∑ j, A k j * ((o n ω).params j - β j) := by
    have : ∀ j, v j * (o n ω).params j - v j * β j = ∑ k, c k * (A k j * ((o n ω).params j - β j)) := fun j => by
      rw [← mul_sub, hc j, Finset.sum_mul]
      refine Finset.sum_congr rfl fun k _ => ?_
      rw [h.sym j k]
      ring
    simp only [this]
    rw [Finset.sum_comm]
    exact Finset.sum_congr rfl fun k _ => by rw [Finset.mul_sum]
  have e2 : (∑ i : Fin n, ∑ k, c k * φ (W i ω) k) / Real.sqrt n = ∑ k, c k * ((∑ i : Fin n, φ (W i ω) k) / Real.sqrt n) := by
    rw [Finset.sum_comm, Finset.sum_div]
    refine Finset.sum_congr rfl fun k _ => ?_
    rw [← Finset.mul_sum, mul_div_assoc]
  rw [e1, e2, Finset.mul_sum, ← Finset.sum_sub_distrib, ← Finset.sum_sub_distrib]
  refine Finset.sum_congr rfl fun k _ => ?_
  have e3 : ∑ j, (gramOf X n ω k j - A k j) * (Real.sqrt n * ((o n ω).params j - β j)) =
      Real.sqrt n * (∑ j, gramOf X n ω k j * ((o n ω).params j - β j) - ∑ j, A k j * ((o n ω).params j - β j)) := by
    rw [← Finset.sum_sub_distrib, Finset.mul_sum]
    exact Finset.sum_congr rfl fun j _ => by ring
  rw [e3, hn k]
  ring

omit [IsProbabilityMeasure P] in
/-- Means of products of four regressors. -/
theorem four_bdd (h : GenOls P W A φ β X s) (j k l m : Fin p) :
    OP P fun n ω => mean fun i : Fin n => X n ω i j * X n ω i k * (X n ω i l * X n ω i m) := by
  refine ((((h.fourth j).add (h.fourth k)).add (h.fourth l)).add (h.fourth m)).mono (Eventually.of_forall fun n ω => ?_)
  rw [← mean_add, ← mean_add, ← mean_add]
  refine le_trans ?_ (le_abs_self _)
  rw [_root_.abs_le, ← mean_neg]
  constructor
  · refine mean_le_mean fun i => ?_
    generalize X n ω i j = a
    generalize X n ω i k = b
    generalize X n ω i l = c
    generalize X n ω i m = d
    nlinarith [sq_nonneg (a * b + c * d), sq_nonneg (a ^ 2 - b ^ 2), sq_nonneg (c ^ 2 - d ^ 2), sq_nonneg (a ^ 2), sq_nonneg (b ^ 2),
      sq_nonneg (c ^ 2), sq_nonneg (d ^ 2)]
  · refine mean_le_mean fun i => ?_
    generalize X n ω i j = a
    generalize X n ω i k = b
    generalize X n ω i l = c
    generalize X n ω i m = d
    nlinarith [sq_nonneg (a * b - c * d), sq_nonneg (a ^ 2 - b ^ 2), sq_nonneg (c ^ 2 - d ^ 2), sq_nonneg (a ^ 2), sq_nonneg (b ^ 2),
      sq_nonneg (c ^ 2), sq_nonneg (d ^ 2)]

omit [IsProbabilityMeasure P] in
/-- Means of products of three regressors and the residual. -/
theorem three_bdd (h : GenOls P W A φ β X s) (j k l : Fin p) :
    OP P fun n ω => mean fun i : Fin n => X n ω i j * X n ω i k * (X n ω i l * (s n ω i - ∑ k, X n ω i k * β k)) := by
  refine (((h.fourth j).add (h.fourth k)).add (OP_of_sub (h.middle l l))).mono (Eventually.of_forall fun n ω => ?_)
  rw [← mean_add, ← mean_add]
  refine le_trans ?_ (le_abs_self _)
  rw [_root_.abs_le, ← mean_neg]
  constructor
  · refine mean_le_mean fun i => ?_
    generalize X n ω i j = a
    generalize X n ω i k = b
    generalize X n ω i l = c
    generalize (s n ω i - ∑ k, X n ω i k * β k) = d
    nlinarith [sq_nonneg (a * b + c * d), sq_nonneg (a ^ 2 - b ^ 2), sq_nonneg (c * d), sq_nonneg (a ^ 2), sq_nonneg (b ^ 2)]
  · refine mean_le_mean fun i => ?_
    generalize X n ω i j = a
    generalize X n ω i k = b
    generalize X n ω i l = c
    generalize (s n ω i - ∑ k, X n ω i k * β k) = d
    nlinarith [sq_nonneg (a * b - c * d), sq_nonneg (a ^ 2 - b ^ 2), sq_nonneg (c * d), sq_nonneg (a ^ 2), sq_nonneg (b ^ 2)]

/-- The middle part of the robust covariance matrix is consistent. -/
theorem middle_consistent (hW : Iid P W) (h : GenOls P W A φ β X s) (ho : Solves X s o) (j k : Fin p) :
    oP P fun n ω => mean (fun i : Fin n => X n ω i j * X n ω i k * (s n ω i - ∑ k, X n ω i k * (o n ω).params k) ^ 2) -
      ∫ w, φ w j * φ w k ∂(P.map (W 0)) := by
  have hp := params_consistent hW h ho
  have h1 : oP P fun n ω => ∑ l, ((o n ω).params l - β l) * mean fun i : Fin n =>
      X n ω i j * X n ω i k * (X n ω i l * (s n ω i - ∑ k, X n ω i k * β k)) :=
    oP.sum _ fun l _ => (hp l).mul_OP (h.three_bdd j k l)
  have h2 : oP P fun n ω => ∑ l, ∑ m, (((o n ω).params l - β l) * ((o n ω).params m - β m)) * mean fun i : Fin n =>
      X n ω i j * X n ω i k * (X n ω i l * X n ω i m) :=
    oP.sum _ fun l _ => oP.sum _ fun m _ => ((hp l).mul_OP (hp m).bdd).mul_OP (h.four_bdd j k l m)
  refine (((h.middle j k).sub (h1.const_mul 2)).add h2).mono (Eventually.of_forall fun n ω => le_of_eq (congrArg _ ?_))
  have e : ∀ i : Fin n, X n ω i j * X n ω i k * (s n ω i - ∑ k, X n ω i k * (o n ω).params k) ^ 2 =
      (X n ω i j * X n ω i k * (s n ω i - ∑ k, X n ω i k * β k) ^ 2 -
        2 * ∑ l, ((o n ω).params l - β l) * (X n ω i j * X n ω i k * (X n ω i l * (s n ω i - ∑ k, X n ω i k * β k)))) +
        ∑ l, ∑ m, (((o n ω).params l - β l) * ((o n ω).params m - β m)) * (X n ω i j * X n ω i k * (X n ω i l * X n ω i m)) := fun i => by
    have e1 : s n ω i - ∑ k, X n ω i k * (o n ω).params k =
        (s n ω i - ∑ k, X n ω i k * β k) - ∑ k, X n ω i k * ((o n ω).params k - β k) := by
      rw [sum_delta]
      ring
    have e2 : ∑ l, ((o n ω).params l - β l) * (X n ω i j * X n ω i k * (X n ω i l * (s n ω i - ∑ k, X n ω i k * β k))) =
        X n ω i j * X n ω i k * (s n ω i - ∑ k, X n ω i k * β k) * ∑ l, X n ω i l * ((o n ω).params l - β l) := by
      rw [Finset.mul_sum]
      exact Finset.sum_congr rfl fun l _ => by ring
    have e3 : ∑ l, ∑ m, (((o n ω).params l - β l) * ((o n ω).params m - β m)) * (X n ω i j * X n ω i k * (X n ω i l * X n ω i m)) =
        X n ω i j * X n ω i k * (∑ l, X n ω i l * ((o n ω).params l - β l)) ^ 2 := by
      rw [sq, Finset.sum_mul_sum, Finset.mul_sum]
      refine Finset.sum_congr rfl fun l _ => ?_
      rw [Finset.mul_sum]
      exact Finset.sum_congr rfl fun m _ => by ring
    rw [e1, e2, e3]
    ring
  simp only [e]
  have m1 : (∑ l, ((o n ω).params l - β l) * mean fun i : Fin n =>
      X n ω i j * X n ω i k * (X n ω i l * (s n ω i - ∑ k, X n ω i k * β k))) = mean fun i : Fin n =>
      ∑ l, ((o n ω).params l - β l) * (X n ω i j * X n ω i k * (X n ω i l * (s n ω i - ∑ k, X n ω i k * β k))) := by
    simp only [← mean_mul_left]
    unfold mean
    rw [← Finset.sum_div, Finset.sum_comm]
  have m2 : (∑ l, ∑ m, (((o n ω).params l - β l) * ((o n ω).params m - β m)) * mean fun i : Fin n =>
      X n ω i j * X n ω i k * (X n ω i l * X n ω i m)) = mean fun i : Fin n =>
      ∑ l, ∑ m, (((o n ω).params l - β l) * ((o n ω).params m - β m)) * (X n ω i j * X n ω i k * (X n ω i l * X n ω i m)) := by
    simp only [← mean_mul_left]
    unfold mean
    simp only [← Finset.sum_div]
    rw [Finset.sum_comm (s := (Finset.univ : Finset (Fin n)))]
    refine congrArg (· / _) (Finset.sum_congr rfl fun l _ => ?_)
    rw [Finset.sum_comm]
  rw [m1, m2, mean_add, mean_sub, mean_mul_left]
  ring

omit mΩ [IsProbabilityMeasure P] in
/-- The robust covariance matrix in terms of means. -/
theorem hc0_means {n : ℕ} (hn : 0 < n) {ω : Ω} (h : LeastSquares (s n ω) (X n ω) (o n ω)) (j k : Fin p) :
    ∑ a, ∑ c, gramOf X n ω j a * (n * (o n ω).omega a c) * gramOf X n ω c k =
      mean fun i : Fin n => X n ω i j * X n ω i k * (s n ω i - ∑ k, X n ω i k * (o n ω).params k) ^ 2 := by
  have hn' : (n : ℝ) ≠ 0 := by exact_mod_cast hn.ne'
  have h1 := h.hc0 j k
  unfold gramOf mean
  rw [eq_div_iff hn', ← h1, Finset.sum_mul]
  refine Finset.sum_congr rfl fun a _ => ?_
  rw [Finset.sum_mul]
  refine Finset.sum_congr rfl fun c _ => ?_
  field_simp

/-- The entries of the scaled covariance matrix are bounded in probability. -/
theorem omega_bdd (hW : Iid P W) (h : GenOls P W A φ β X s) (ho : Solves X s o) (a c : Fin p) :
    OP P fun n ω => n * (o n ω).omega a c := by
  obtain ⟨G, hG⟩ := h.inverse
  have hV : OP P fun n ω => ∑ j, ∑ k, |mean fun i : Fin n => X n ω i j * X n ω i k *
      (s n ω i - ∑ k, X n ω i k * (o n ω).params k) ^ 2| := OP.sum _ fun j _ => OP.sum _ fun k _ =>
    (OP_of_sub (middle_consistent hW h ho j k)).abs
  have h1 := (OP_const (P := P) (2 * ∑ a, ∑ k, |G a k|)).mul ((OP_const (P := P) (2 * ∑ a, ∑ k, |G a k|)).mul hV)
  refine h1.congr_on (h.far_small G) ?_
  filter_upwards [eventually_gt_atTop 0] with n hn ω hω
  have hls := ho n ω (fullRank_of_near hG hω)
  have hb := sandwich_bound (T := fun a c => n * (o n ω).omega a c) hG (not_not.1 hω) (gramOf_symm n ω) (hc0_means hn hls)
  refine le_trans ?_ (hb.trans (le_abs_self _))
  refine (Finset.single_le_sum (f := fun c => |n * (o n ω).omega a c|) (fun _ _ => abs_nonneg _) (Finset.mem_univ c)).trans ?_
  exact Finset.single_le_sum (f := fun a => ∑ c, |n * (o n ω).omega a c|)
    (fun _ _ => Finset.sum_nonneg fun _ _ => abs_nonneg _) (Finset.mem_univ a)

/-- The robust variance of a linear combination of the coefficients is consistent. -/
theorem variance_consistent (hW : Iid P W) (h : GenOls P W A φ β X s) (ho : Solves X s o) {v c : Fin p → ℝ}
    (hc : ∀ j, v j = ∑ k, A j k * c k) :
    oP P fun n ω => (n : ℝ) * (∑ k, (∑ j, v j * (o n ω).omega j k) * v k) - ∫ w, (∑ k, c k * φ w k) ^ 2 ∂(P.map (W 0)) := by
  obtain ⟨G, hG⟩ := h.inverse
  have hO := omega_bdd hW h ho
  have hM := h.gram
  have h1 : oP P fun n ω => ∑ j, ∑ k, c j * c k * (mean (fun i : Fin n => X n ω i j * X n ω i k *
      (s n ω i - ∑ k, X n ω i k * (o n ω).params k) ^ 2) - ∫ w, φ w j * φ w k ∂(P.map (W 0))) :=
    oP.sum _ fun j _ => oP.sum _ fun k _ => (middle_consistent hW h ho j k).const_mul _
  have h2 : oP P fun n ω => ∑ j, ∑ a, ∑ b, c j * v b * ((gramOf X n ω j a - A j a) * (n * (o n ω).omega a b)) :=
    oP.sum _ fun j _ => oP.sum _ fun a _ => oP.sum _ fun b _ => ((hM j a).mul_OP (hO a b)).const_mul _
  have h3 : oP P fun n ω => ∑ j, ∑ a, ∑ b, ∑ k, c j * c k * (gramOf X n ω j a * (n * (o n ω).omega a b) *
      (gramOf X n ω b k - A b k)) :=
    oP.sum _ fun j _ => oP.sum _ fun a _ => oP.sum _ fun b _ => oP.sum _ fun k _ =>
      (((OP_of_sub (hM j a)).mul (hO a b)).mul_oP (hM b k)).const_mul _
  refine ((h1.sub h2).sub h3).congr_on (h.far_small G) ?_
  filter_upwards [eventually_gt_atTop 0] with n hn ω hω
  refine le_of_eq (congrArg _ ?_)
  have hls := ho n ω (fullRank_of_near hG hω)
  have hmid := hc0_means hn hls
  have eV : ∫ w, (∑ k, c k * φ w k) ^ 2 ∂(P.map (W 0)) = ∑ j, ∑ k, c j * c k * ∫ w, φ w j * φ w k ∂(P.map (W 0)) := by
    have e : ∀ w, (∑ k, c k * φ w k) ^ 2 = ∑ j, ∑ k, c j * c k * (φ w j * φ w k) := fun w => by
      rw [sq (∑ k, c k * φ w k), Finset.sum_mul_sum]
      refine Finset.sum_congr rfl fun j _ => ?_
      exact Finset.sum_congr rfl fun k _ => by ring
    have hi : ∀ j k, Integrable (fun w => φ w j * φ w k) (P.map (W 0)) := fun j k => (h.memF j).integrable_mul (h.memF k)
    simp only [e]
    rw [integral_finsetSum _ fun j _ => integrable_finsetSum _ fun k _ => (hi j k).const_mul _]
    refine Finset.sum_congr rfl fun j _ => ?_
    rw [integral_finsetSum _ fun k _ => (hi j k).const_mul _]
    simp only [integral_const_mul]
  rw [eV]
  simp only [← hmid]
  set T : Fin p → Fin p → ℝ := fun a b => n * (o n ω).omega a b with hT
  set M := gramOf X n ω with hMd
  have e0 : (n : ℝ) * (∑ k, (∑ j, v j * (o n ω).omega j k) * v k) = ∑ a, ∑ b, v a * T a b * v b := by
    rw [Finset.sum_comm, Finset.mul_sum]
    refine Finset.sum_congr rfl fun b _ => ?_
    rw [Finset.sum_mul, Finset.mul_sum]
    exact Finset.sum_congr rfl fun a _ => by rw [hT]; ring
  have e1 : ∑ a, ∑ b, v a * T a b * v b = ∑ j, ∑ a, ∑ b, c j * v b * (A j a * T a b) := by
    rw [Finset.sum_comm (f := fun j a => ∑ b, c j * v b * (A j a * T a b))]
    refine Finset.sum_congr rfl fun a _ => ?_
    rw [Finset.sum_comm (f := fun j b => c j * v b * (A j a * T a b))]
    refine Finset.sum_congr rfl fun b _ => ?_
    rw [hc a, Finset.sum_mul, Finset.sum_mul]
    exact Finset.sum_congr rfl fun j _ => by rw [h.sym a j]; ring
  have e2 : ∑ j, ∑ a, ∑ b, c j * v b * (M j a * T a b) = ∑ j, ∑ a, ∑ b, ∑ k, c j * c k * (M j a * T a b * A b k) := by
    refine Finset.sum_congr rfl fun j _ => Finset.sum_congr rfl fun a _ => Finset.sum_congr rfl fun b _ => ?_
    rw [hc b, Finset.mul_sum, Finset.sum_mul]
    exact Finset.sum_congr rfl fun k _ => by ring
  have e3 : ∑ j, ∑ k, c j * c k * ∑ a, ∑ b, M j a * T a b * M b k = ∑ j, ∑ a, ∑ b, ∑ k, c j * c k * (M j a * T a b * M b k) := by
    refine Finset.sum_congr rfl fun j _ => ?_
    simp only [Finset.mul_sum]
    rw [Finset.sum_comm]
    refine Finset.sum_congr rfl fun a _ => ?_
    rw [Finset.sum_comm]
  have f1 : ∑ j, ∑ k, c j * c k * (∑ a, ∑ b, M j a * T a b * M b k - ∫ w, φ w j * φ w k ∂(P.map (W 0))) =
      ∑ j, ∑ k, c j * c k * ∑ a, ∑ b, M j a * T a b * M b k - ∑ j, ∑ k, c j * c k * ∫ w, φ w j * φ w k ∂(P.map (W 0)) := by
    simp only [mul_sub, Finset.sum_sub_distrib]
  have f2 : ∑ j, ∑ a, ∑ b, c j * v b * ((M j a - A j a) * T a b) =
      ∑ j, ∑ a, ∑ b, c j * v b * (M j a * T a b) - ∑ j, ∑ a, ∑ b, c j * v b * (A j a * T a b) := by
    simp only [sub_mul, mul_sub, Finset.sum_sub_distrib]
  have f3 : ∑ j, ∑ a, ∑ b, ∑ k, c j * c k * (M j a * T a b * (M b k - A b k)) =
      ∑ j, ∑ a, ∑ b, ∑ k, c j * c k * (M j a * T a b * M b k) - ∑ j, ∑ a, ∑ b, ∑ k, c j * c k * (M j a * T a b * A b k) := by
    simp only [mul_sub, Finset.sum_sub_distrib]
  rw [e0, e1]
  show _ = ∑ j, ∑ k, c j * c k * (∑ a, ∑ b, M j a * T a b * M b k - ∫ w, φ w j * φ w k ∂(P.map (W 0))) -
    ∑ j, ∑ a, ∑ b, c j * v b * ((M j a - A j a) * T a b) - ∑ j, ∑ a, ∑ b, ∑ k, c j * c k * (M j a * T a b * (M b k - A b k))
  rw [f1, f2, f3, e2, e3]
  ring

/-- The standardised leading term. -/
noncomputable def leading (W : ℕ → Ω → S) (φ : S → Fin p → ℝ) (c : Fin p → ℝ) (σ : ℝ) (n : ℕ) (ω : Ω) : ℝ :=
  (∑ i : Fin n, (∑ k, c k * φ (W i ω) k) / σ) / Real.sqrt n

/-- **Least squares with fitted regressors in large samples.** Predictions at a row `v` are asymptotically normal, with consistent
robust standard errors. -/
theorem limit (hW : Iid P W) (h : GenOls P W A φ β X s) (ho : Solves X s o) {v c : Fin p → ℝ}
    (hc : ∀ j, v j = ∑ k, A j k * c k) {σ : ℝ} (hσ : 0 < σ) (hV : σ ^ 2 = ∫ w, (∑ k, c k * φ w k) ^ 2 ∂(P.map (W 0))) :
    NormalLimit P (leading W φ c σ) ∧ (∀ n, Measurable (leading W φ c σ n)) ∧
      RepLimit P (leading W φ c σ) σ (∑ j, v j * β j) (fun n ω => (o n ω).predict v) fun n ω => (o n ω).se v := by
  have := hW.prob 0
  have hmf : Measurable fun w => (∑ k, c k * φ w k) / σ := (Finset.measurable_sum _ fun k _ => (h.measF k).const_mul _).div_const _
  have hf0 : ∫ w, (∑ k, c k * φ w k) / σ ∂(P.map (W 0)) = 0 := by
    rw [integral_div, integral_finsetSum _ fun k _ => ((h.memF k).integrable one_le_two).const_mul _]
    simp only [integral_const_mul, h.zero, mul_zero, Finset.sum_const_zero, zero_div]
  refine ⟨hW.clt hmf hf0 ?_, fun n => ?_, ?_, ?_⟩
  · simp only [div_pow]
    rw [integral_div, ← hV, div_self (pow_ne_zero 2 hσ.ne')]
  · unfold leading
    exact (Finset.measurable_sum _ fun (i : Fin n) _ => hmf.comp (hW.meas i)).div_const _
  · refine (predict_linear hW h ho hc).mono (Eventually.of_forall fun n ω => le_of_eq (congrArg _ ?_))
    unfold leading
    rw [← Finset.sum_div]
    field_simp
  · have h1 := (variance_consistent hW h ho hc).continuousAt (f := Real.sqrt) Real.continuous_sqrt.continuousAt
    refine h1.mono (Eventually.of_forall fun n ω => le_of_eq (congrArg _ ?_))
    rw [← hV, Real.sqrt_sq hσ.le, Real.sqrt_mul (Nat.cast_nonneg _)]
    rfl

end GenOls

end DML
