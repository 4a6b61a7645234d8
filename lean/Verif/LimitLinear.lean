import Verif.LimitResid
import Verif.AsymptoticBlpProps
import Mathlib.Analysis.Calculus.DSlope

/-!
# Large samples: statistics with a linear expansion

Sums, products and differentiable functions of such statistics, and one-sided confidence limits for them.  Nothing here models code of the
package.
-/

namespace DML

open MeasureTheory ProbabilityTheory Filter Topology
open scoped ENNReal

variable {Ω : Type*} {mΩ : MeasurableSpace Ω} {P : Measure Ω} {S : Type*} [MeasurableSpace S] {W : ℕ → Ω → S}

/-- `X n` behaves like `x` plus the mean of `φ` over the observations. -/
structure LinExp (P : Measure Ω) (W : ℕ → Ω → S) (X : ℕ → Ω → ℝ) (x : ℝ) (φ : S → ℝ) : Prop where
  meas : Measurable φ
  sq : MemLp φ 2 (P.map (W 0))
  zero : ∫ w, φ w ∂(P.map (W 0)) = 0
  expand : oP P fun n ω => Real.sqrt n * (X n ω - x) - (∑ i : Fin n, φ (W i ω)) / Real.sqrt n

namespace LinExp

variable [IsProbabilityMeasure P] {X Y : ℕ → Ω → ℝ} {x y : ℝ} {φ ψ : S → ℝ}

theorem root (hW : Iid P W) (h : LinExp P W X x φ) : OP P fun n ω => Real.sqrt n * (X n ω - x) :=
  (h.expand.bdd.add (hW.root_bdd h.meas h.sq h.zero)).mono (Eventually.of_forall fun n ω => by simp)

theorem tends (hW : Iid P W) (h : LinExp P W X x φ) : oP P fun n ω => X n ω - x := OP.of_root (h.root hW)

omit [IsProbabilityMeasure P] in
theorem congr (h : LinExp P W X x φ) {y : ℝ} (e : ∀ n ω, Y n ω = X n ω) (e1 : y = x) (e0 : ∀ w, ψ w = φ w) : LinExp P W Y y ψ := by
  obtain rfl : Y = X := funext fun n => funext fun ω => e n ω
  obtain rfl : ψ = φ := funext e0
  subst e1
  exact h

omit [IsProbabilityMeasure P] [MeasurableSpace S] in
theorem sum_comb (a b : ℝ) (n : ℕ) (ω : Ω) : (∑ i : Fin n, (a * φ (W i ω) + b * ψ (W i ω))) / Real.sqrt n =
    a * ((∑ i : Fin n, φ (W i ω)) / Real.sqrt n) + b * ((∑ i : Fin n, ψ (W i ω)) / Real.sqrt n) := by
  rw [Finset.sum_add_distrib, ← Finset.mul_sum, ← Finset.mul_sum, add_div, mul_div_assoc, mul_div_assoc]

theorem comb (a b : ℝ) (h : LinExp P W X x φ) (h' : LinExp P W Y y ψ) :
    LinExp P W (fun n ω => a * X n ω + b * Y n ω) (a * x + b * y) fun w => a * φ w + b * ψ w := by
  refine ⟨(h.meas.const_mul a).add (h'.meas.const_mul b), (h.sq.const_mul a).add (h'.sq.const_mul b), ?_, ?_⟩
  · by_cases hμ : Integrable φ (P.map (W 0)) ∧ Integrable ψ (P.map (W 0))
    · rw [integral_add (hμ.1.const_mul a) (hμ.2.const_mul b), integral_const_mul, integral_const_mul, h.zero, h'.zero]
      ring
    · by_cases hW0 : AEMeasurable (W 0) P
      · have := Measure.isProbabilityMeasure_map hW0
        exact absurd ⟨h.sq.integrable one_le_two, h'.sq.integrable one_le_two⟩ hμ
      · rw [Measure.map_of_not_aemeasurable hW0]
        simp
  · refine ((h.expand.const_mul a).add (h'.expand.const_mul b)).mono (Eventually.of_forall fun n ω => le_of_eq (congrArg _ ?_))
    rw [sum_comb]
    ring

theorem mul (hW : Iid P W) (h : LinExp P W X x φ) (h' : LinExp P W Y y ψ) :
    LinExp P W (fun n ω => X n ω * Y n ω) (x * y) fun w => y * φ w + x * ψ w := by
  have hc := LinExp.comb y x h h'
  refine ⟨hc.meas, hc.sq, hc.zero, ?_⟩
  refine (hc.expand.add ((h.root hW).mul_oP (h'.tends hW))).mono (Eventually.of_forall fun n ω => le_of_eq (congrArg _ ?_))
  ring

/-- The delta method. -/
theorem map (hW : Iid P W) (h : LinExp P W X x φ) {f : ℝ → ℝ} {f' : ℝ} (hf : HasDerivAt f f' x) :
    LinExp P W (fun n ω => f (X n ω)) (f x) fun w => f' * φ w := by
  refine ⟨h.meas.const_mul f', h.sq.const_mul f', by rw [integral_const_mul, h.zero, mul_zero], ?_⟩
  have hc : ContinuousAt (dslope f x) x := continuousAt_dslope_same.2 hf.differentiableAt
  have h1 := (h.tends hW).continuousAt hc
  rw [dslope_same, hf.deriv] at h1
  refine (((h.root hW).mul_oP h1).add (h.expand.const_mul f')).mono (Eventually.of_forall fun n ω => le_of_eq (congrArg _ ?_))
  have e : (X n ω - x) * dslope f x (X n ω) = f (X n ω) - f x := by
    have := sub_smul_dslope f x (X n ω)
    simpa using this
  rw [← e, ← Finset.mul_sum, mul_div_assoc]
  ring

end LinExp

/-- Averages of parts of scores. -/
theorem Part.lin [IsProbabilityMeasure P] {s K : ℕ} {St : S → Fin s} {c : ∀ n, (Fin n → Fin s) → Scheme K n}
    {f : ∀ n, Fin K → (Fin n → S) → S → ℝ} {f0 : S → ℝ} (hW : Iid P W) (hSt : Measurable St) (hc : StrataBalanced c)
    (hf : Part P W St c f f0) :
    LinExp P W (fun n ω => mean (crossVal St c f W n ω)) (∫ w, f0 w ∂(P.map (W 0))) fun w => f0 w - ∫ w, f0 w ∂(P.map (W 0)) := by
  have hμ : IsProbabilityMeasure (P.map (W 0)) := Measure.isProbabilityMeasure_map (hW.meas 0).aemeasurable
  generalize hx : ∫ w, f0 w ∂(P.map (W 0)) = x
  have h0 : ∫ w, (f0 w - x) ∂(P.map (W 0)) = 0 := by
    rw [integral_sub (hf.mem0.integrable one_le_two) (integrable_const _), hx]
    simp
  have h1 := (hf.sub hW (Part.fixed (c := c) (f0 := fun _ => x) measurable_const (memLp_const _)))
  refine ⟨hf.meas0.sub_const x, hf.mem0.sub (memLp_const x), h0, ?_⟩
  refine (h1.root_tends hW hSt hc h0).mono ?_
  filter_upwards [eventually_gt_atTop 0] with n hn ω
  refine le_of_eq (congrArg _ (congrArg (· - _) (congrArg _ ?_)))
  have : mean (fun _ : Fin n => x) = x := mean_const hn x
  nth_rewrite 1 [← this]
  rw [← mean_sub]
  rfl

/-- The array `a n` approaches `a0` at the observations in the mean square. -/
structure Close (P : Measure Ω) (W : ℕ → Ω → S) (a : ∀ n, Ω → Fin n → ℝ) (a0 : S → ℝ) : Prop where
  meas : Measurable a0
  sq : MemLp a0 2 (P.map (W 0))
  near : oP P fun n ω => mean fun i : Fin n => (a n ω i - a0 (W i ω)) ^ 2

namespace Close

variable [IsProbabilityMeasure P] {a b : ∀ n, Ω → Fin n → ℝ} {a0 b0 : S → ℝ}

omit [IsProbabilityMeasure P] in
theorem congr (h : Close P W a a0) (e : ∀ n ω i, b n ω i = a n ω i) (e0 : ∀ w, b0 w = a0 w) : Close P W b b0 := by
  obtain rfl : b = a := funext fun n => funext fun ω => funext fun i => e n ω i
  obtain rfl : b0 = a0 := funext e0
  exact h

omit [IsProbabilityMeasure P] in
theorem add (h : Close P W a a0) (h' : Close P W b b0) : Close P W (fun n ω i => a n ω i + b n ω i) fun w => a0 w + b0 w := by
  refine ⟨h.meas.add h'.meas, h.sq.add h'.sq, ?_⟩
  refine ((h.near.const_mul 2).add (h'.near.const_mul 2)).mono (Eventually.of_forall fun n ω => ?_)
  rw [abs_of_nonneg (mean_nonneg fun i => sq_nonneg _)]
  refine le_trans ?_ (le_abs_self _)
  rw [← mean_mul_left, ← mean_mul_left, ← mean_add]
  refine mean_le_mean fun i => ?_
  nlinarith [sq_nonneg ((a n ω i - a0 (W i ω)) - (b n ω i - b0 (W i ω)))]

theorem scale (hW : Iid P W) (h : Close P W a a0) {t : ℕ → Ω → ℝ} {t0 : ℝ} (ht : oP P fun n ω => t n ω - t0) :
    Close P W (fun n ω i => t n ω * a n ω i) fun w => t0 * a0 w := by
  have h2 := OP_of_sub (hW.lln (h.meas.pow_const 2) h.sq.integrable_sq)
  have ht2 := (OP_of_sub ht).mul (OP_of_sub ht)
  refine ⟨h.meas.const_mul t0, h.sq.const_mul t0, ?_⟩
  refine (((ht2.mul_oP h.near).const_mul 2).add ((ht.sq.mul_OP h2).const_mul 2)).mono (Eventually.of_forall fun n ω => ?_)
  rw [abs_of_nonneg (mean_nonneg fun i => sq_nonneg _)]
  refine le_trans ?_ (le_abs_self _)
  rw [← mean_mul_left, ← mean_mul_left, ← mean_mul_left, ← mean_mul_left, ← mean_add]
  refine mean_le_mean fun i => ?_
  nlinarith [sq_nonneg (t n ω * (a n ω i - a0 (W i ω)) - (t n ω - t0) * a0 (W i ω))]

theorem square_tends (hW : Iid P W) (h : Close P W a a0) :
    oP P fun n ω => mean (fun i : Fin n => a n ω i ^ 2) - ∫ w, a0 w ^ 2 ∂(P.map (W 0)) := by
  have hu := hW.lln (h.meas.pow_const 2) h.sq.integrable_sq
  have huv : oP P fun n ω => mean fun i : Fin n => a0 (W i ω) * (a n ω i - a0 (W i ω)) := by
    refine oP.of_sq (((OP_of_sub hu).mul_oP h.near).mono (Eventually.of_forall fun n ω => ?_))
    rw [abs_of_nonneg (sq_nonneg _)]
    exact (mean_mul_sq_le _ _).trans (le_abs_self _)
  refine ((hu.add (huv.const_mul 2)).add h.near).mono (Eventually.of_forall fun n ω => le_of_eq ?_)
  congr 1
  rw [← mean_mul_left, sub_add_eq_add_sub, sub_add_eq_add_sub, ← mean_add, ← mean_add]
  congr 2
  funext i
  ring

end Close

theorem Part.near_close [IsProbabilityMeasure P] {s K : ℕ} {St : S → Fin s} {c : ∀ n, (Fin n → Fin s) → Scheme K n}
    {f : ∀ n, Fin K → (Fin n → S) → S → ℝ} {f0 : S → ℝ} (hW : Iid P W) (hSt : Measurable St) (hc : StrataBalanced c)
    (hf : Part P W St c f f0) : Close P W (crossVal St c f W) f0 := ⟨hf.meas0, hf.mem0, hf.squares hW hSt hc⟩

/-- One-sided confidence limits made of the medians over repetitions of estimates with the same linear expansion.  If the standard errors
estimate `ρ / √n` and the estimates have standard deviation `σ / √n`, the limits cover with probability tending to `Phi (z ρ / σ)`. -/
theorem limit_cover [IsProbabilityMeasure P] {r : ℕ} (hr : 0 < r) (hW : Iid P W) {L s : ℕ → Ω → Fin r → ℝ} {ℓ σ ρ : ℝ} {χ : S → ℝ}
    (hL : ∀ k, LinExp P W (fun n ω => L n ω k) ℓ χ) (hs : ∀ k, oP P fun n ω => Real.sqrt n * s n ω k - ρ) (hσ : 0 < σ)
    (hV : σ ^ 2 = ∫ w, χ w ^ 2 ∂(P.map (W 0))) (z : ℝ) :
    ProbTends P (fun n => {ω | median (fun k => L n ω k - z * s n ω k) ≤ ℓ}) (Phi (z * ρ / σ)) ∧
    ProbTends P (fun n => {ω | ℓ ≤ median fun k => L n ω k + z * s n ω k}) (Phi (z * ρ / σ)) := by
  have hn : ∀ᶠ n : ℕ in atTop, 0 < n := eventually_gt_atTop 0
  have hZ : ∀ e : ℝ, e ^ 2 = 1 → NormalLimit P (fun n ω => (∑ i : Fin n, e * χ (W i ω) / σ) / Real.sqrt n) ∧
      ∀ n : ℕ, Measurable fun ω => (∑ i : Fin n, e * χ (W i ω) / σ) / Real.sqrt n := fun e he =>
    ⟨hW.clt (f := fun w => e * χ w / σ) (((hL ⟨0, hr⟩).meas.const_mul e).div_const σ)
      (by rw [integral_div, integral_const_mul, (hL ⟨0, hr⟩).zero, mul_zero, zero_div])
      (by
        have : ∀ w, (e * χ w / σ) ^ 2 = χ w ^ 2 / σ ^ 2 := fun w => by rw [div_pow, mul_pow, he, one_mul]
        simp only [this]
        rw [integral_div, ← hV]
        exact div_self (pow_ne_zero 2 hσ.ne')),
     fun n => (Finset.measurable_fun_sum _ fun (i : Fin n) _ =>
      ((((hL ⟨0, hr⟩).meas.comp (hW.meas i)).const_mul e).div_const σ : Measurable fun ω => e * χ (W i ω) / σ)).div_const _⟩
  have key : ∀ c : ℝ, oP P fun n ω => Real.sqrt n * (median (fun k => L n ω k + c * s n ω k) - ℓ) / σ -
      ((∑ i : Fin n, χ (W i ω)) / Real.sqrt n / σ + c * ρ / σ) := fun c => by
    have h1 := oP.median (P := P) hr (X := fun n ω k => L n ω k + c * s n ω k)
      (Y := fun n ω => ℓ + ((∑ i : Fin n, χ (W i ω)) / Real.sqrt n + c * ρ) / Real.sqrt n) (m := fun n => Real.sqrt n) fun k =>
        ((hL k).expand.add ((hs k).const_mul c)).mono (by
          filter_upwards [hn] with n hn ω
          refine le_of_eq (congrArg _ ?_)
          have h3 : Real.sqrt n ≠ 0 := (Real.sqrt_pos.2 (by exact_mod_cast hn)).ne'
          generalize (∑ i : Fin n, χ (W i ω)) / Real.sqrt n = G
          field_simp
          ring)
    refine (h1.const_mul σ⁻¹).mono ?_
    filter_upwards [hn] with n hn ω
    refine le_of_eq (congrArg _ ?_)
    have h3 : Real.sqrt n ≠ 0 := (Real.sqrt_pos.2 (by exact_mod_cast hn)).ne'
    generalize median (fun k => L n ω k + c * s n ω k) = m
    generalize (∑ i : Fin n, χ (W i ω)) / Real.sqrt n = G
    field_simp
    ring
  have hsum : ∀ (e : ℝ) (n : ℕ) ω, (∑ i : Fin n, e * χ (W i ω) / σ) / Real.sqrt n = e * ((∑ i : Fin n, χ (W i ω)) / Real.sqrt n / σ) := fun e n ω => by
    rw [← Finset.sum_div, ← Finset.mul_sum]
    ring
  have e1 : ∀ {n : ℕ}, 0 < n → ∀ x : ℝ, Real.sqrt n * (x - ℓ) / σ ≤ 0 ↔ x ≤ ℓ := fun {n} hn x => by
    have h3 : 0 < Real.sqrt n := Real.sqrt_pos.2 (by exact_mod_cast hn)
    rw [div_le_iff₀ hσ, zero_mul, ← sub_nonpos (a := x)]
    exact ⟨fun h => le_of_not_gt fun hx => absurd h (not_le.2 (mul_pos h3 hx)), fun h => mul_nonpos_of_nonneg_of_nonpos h3.le h⟩
  have e2 : ∀ {n : ℕ}, 0 < n → ∀ x : ℝ, 0 ≤ Real.sqrt n * (x - ℓ) / σ ↔ ℓ ≤ x := fun {n} hn x => by
    have h3 : 0 < Real.sqrt n := Real.sqrt_pos.2 (by exact_mod_cast hn)
    rw [le_div_iff₀ hσ, zero_mul, ← sub_nonneg (a := x)]
    exact ⟨fun h => le_of_not_gt fun hx => absurd h (not_le.2 (mul_neg_of_pos_of_neg h3 hx)), fun h => mul_nonneg h3.le h⟩
  constructor
  · have h1 := (hZ 1 (by norm_num)).1.probTends_le (hZ 1 (by norm_num)).2
      (U := fun n ω => Real.sqrt n * (median (fun k => L n ω k + -z * s n ω k) - ℓ) / σ + z * ρ / σ) ((key (-z)).mono
        (Eventually.of_forall fun n ω => le_of_eq (congrArg _ (by rw [hsum]; ring)))) (z * ρ / σ)
    refine h1.congr_off (B := fun _ => ∅) (by simp) ?_
    filter_upwards [hn] with n hn ω _
    have e : (fun k => L n ω k - z * s n ω k) = fun k => L n ω k + -z * s n ω k := funext fun k => by ring
    rw [e, ← e1 hn]
    constructor <;> intro h <;> linarith
  · have h1 := (hZ (-1) (by norm_num)).1.probTends_le (hZ (-1) (by norm_num)).2
      (U := fun n ω => -(Real.sqrt n * (median (fun k => L n ω k + z * s n ω k) - ℓ) / σ) + z * ρ / σ) ((key z).neg.mono
        (Eventually.of_forall fun n ω => le_of_eq (congrArg _ (by rw [hsum]; ring)))) (z * ρ / σ)
    refine h1.congr_off (B := fun _ => ∅) (by simp) ?_
    filter_upwards [hn] with n hn ω _
    rw [← e2 hn]
    constructor <;> intro h <;> linarith

end DML
